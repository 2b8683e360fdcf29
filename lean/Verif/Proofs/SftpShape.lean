import Verif.Proofs.SftpIo
/-! What one request does to the session and to the file system. -/

namespace Proofs.Sftp
open Wolf Wolf.Wire Wolf.Buffer Wolf.Sftp Wolf.NameList Spec.Wire Spec.Sftp Spec.Path Proofs.Exchange Props.Wire Proofs.Path

/-- A call that opens and closes nothing, on paths in the jail and descriptors of open handles. -/
structure Tame (E : Env) (s : Sess) (j : Option (List Bytes)) (type : Nat) (c : Posix.Call) : Prop where
  paths : type ≠ 12 → ∀ p ∈ paths c, Inside j E.isLink p
  look : type = 12 → ∀ p ∈ Spec.Sftp.paths c, ∃ x ∈ s.dirs, ∃ n ∈ E.entries, p = place (components x.name) n
  modes : ∀ m ∈ modes c, m < 512
  fds : ∀ fd ∈ fds c, ∃ f ∈ s.files, f.fd = fd
  o1 : opened c = []
  o2 : closed c = []
  o3 : openedDir c = []
  o4 : closedDir c = []

/-- The tables are the same, but for end-of-directory flags. -/
structure Same (s s' : Sess) : Prop where
  files : s'.files = s.files
  next : s'.nextId = s.nextId
  confine : s'.confine = s.confine
  dirs : s'.dirs.map (fun x => (x.dir, x.name, x.id)) = s.dirs.map fun x => (x.dir, x.name, x.id)
  default : s'.default = s.default ∨ s.default = none ∧ ∃ cs, s'.default = some (render cs) ∧ ∀ c ∈ cs, Spec.Path.Name c

theorem Same.refl (s : Sess) : Same s s := ⟨rfl, rfl, rfl, rfl, .inl rfl⟩

/-- No reply, or a packet with this kind of reply. -/
def Answers (type id : Nat) (reply : Option Bytes) : Prop :=
  reply = none ∨ ∃ r, Kind type r ∧ r.Fits ∧ reply = some (r.packet id)

inductive Shape (E : Env) (s : Sess) (j : Option (List Bytes)) (type id : Nat) : Out → Prop
  | tame {ret s' calls reply} : Same s s' → (type ≠ 12 → s'.dirs = s.dirs) → (∀ c ∈ calls, Tame E s j type c) → Answers type id reply → (∀ h, reply ≠ some ((Reply.handle h).packet id)) →
      Shape E s j type id ⟨ret, s', calls, reply⟩
  | opened {p st fl m fd} : type = 3 → Inside j E.isLink p → m < 512 → s.files.length < 64 →
      Shape E s j type id ⟨none, addFile s fd p, [.stat p st, .open p fl m (some fd)], some ((Reply.handle (encodeId s.nextId)).packet id)⟩
  | undone {ret p st fl m fd ok reply} : type = 3 → Inside j E.isLink p → m < 512 → Answers type id reply →
      (∀ h, reply ≠ some ((Reply.handle h).packet id)) →
      Shape E s j type id ⟨ret, skipId s, [.stat p st, .open p fl m (some fd), .close fd ok], reply⟩
  | openedDir {ret p dir reply} : type = 11 → Inside j E.isLink p → s.dirs.length < 64 →
      (reply = none ∧ ¬ Rich E ∨ reply = some ((Reply.handle (encodeId s.nextId)).packet id)) →
      Shape E s j type id ⟨ret, addDir s dir p, [.opendir p (some dir)], reply⟩
  | undoneDir {ret p dir} : type = 11 → Inside j E.isLink p → Shape E s j type id ⟨ret, s, [.opendir p (some dir), .closedir dir], none⟩
  | closed {ret h f ok reply} : type = 4 → fileOf s h = some f → Answers type id reply → (∀ h, reply ≠ some ((Reply.handle h).packet id)) →
      Shape E s j type id ⟨ret, dropFile s h, [.close f.fd ok], reply⟩
  | closedDir {ret h x reply} : type = 4 → dirOf s h = some x → Answers type id reply → (∀ h, reply ≠ some ((Reply.handle h).packet id)) →
      Shape E s j type id ⟨ret, dropDir s h, [.closedir x.dir], reply⟩

theorem status_fits (c : Nat) (m : Bytes) (hc : c < 2 ^ 32) (hm : m.length < 1000) : (said c m).Fits := by
  refine ⟨?_, hc⟩
  simp [said, Reply.body, encString, enc32_length, english_len]
  omega

theorem packet_inj_type {id id' : Nat} {r r' : Reply} (h : r.packet id = r'.packet id') : r.type = r'.type := by
  rw [packet_eq, packet_eq] at h
  simp only [hdr, List.append_assoc] at h
  have := (List.append_inj h (by rw [enc32_length, enc32_length])).2
  simp at this
  exact this.1

theorem not_handle {r : Reply} (h : r.type ≠ 102) (id : Nat) : ∀ x, some (r.packet id) ≠ some ((Reply.handle x).packet id) := by
  intro x he
  exact h (packet_inj_type (Option.some.inj he))

theorem answers_status (type id c : Nat) (m : Bytes) (hc : c < 2 ^ 32) (hm : m.length < 1000) :
    Answers type id (some ((said c m).packet id)) := .inr ⟨said c m, trivial, status_fits c m hc hm, rfl⟩

variable {E : Env} {s : Sess} {d j : Option (List Bytes)} {type id : Nat}

theorem shape_stop (e : Err) : Shape E s j type id (stop s e) := .tame (.refl s) (fun _ => rfl) (by simp) (.inl rfl) (by simp)

theorem shape_ans {s' : Sess} {calls : List Posix.Call} {r : Reply} {ret : Option Err} (h1 : Same s s') (hd : type ≠ 12 → s'.dirs = s.dirs) (h2 : ∀ c ∈ calls, Tame E s j type c)
    (hk : Kind type r) (hf : r.Fits) (ht : r.type ≠ 102) : Shape E s j type id (ans E s' calls id r ret) := by
  unfold ans
  split
  · exact .tame h1 hd h2 (.inr ⟨r, hk, hf, rfl⟩) (not_handle ht id)
  · exact .tame h1 hd h2 (.inl rfl) (by simp)

theorem shape_said {calls : List Posix.Call} {c : Nat} {m : Bytes} {ret : Option Err} (hc : c < 2 ^ 32) (hm : m.length < 1000)
    (h2 : ∀ c ∈ calls, Tame E s j type c) : Shape E s j type id (ans E s calls id (said c m) ret) :=
  shape_ans (.refl s) (fun _ => rfl) h2 trivial (status_fits c m hc hm) (show (101:Byte) ≠ 102 by decide)

theorem shape_denied : Shape E s j type id (denied E s id) := shape_said (by decide) (by decide) (by simp)

theorem inside_admit (hs : Dirs s d j) {p : Bytes} {cs : List Bytes} (h : verdict d j E.isLink p = .admit cs) : Inside j E.isLink (render cs) := by
  obtain ⟨h1, h2, _, _⟩ := verdict_admit h
  exact ⟨cs, ⟨rfl, by rw [h1]; exact target_names hs.dNames p⟩, h2⟩

/-- A call on paths alone. -/
theorem tame_path (ht : type ≠ 12) {c : Posix.Call} (hp : ∀ p ∈ paths c, Inside j E.isLink p) (hm : ∀ m ∈ modes c, m < 512) (hf : fds c = [])
    (h1 : opened c = []) (h2 : closed c = []) (h3 : openedDir c = []) (h4 : closedDir c = []) : Tame E s j type c :=
  ⟨fun _ => hp, fun h => absurd h ht, hm, by simp [hf], h1, h2, h3, h4⟩

/-- A call on a descriptor. -/
theorem tame_fd {c : Posix.Call} {f : FileH} {h : Bytes} (hf : fileOf s h = some f) (hc : fds c = [f.fd]) (hp : paths c = [])
    (hm : ∀ m ∈ modes c, m < 512) (h1 : opened c = []) (h2 : closed c = []) (h3 : openedDir c = []) (h4 : closedDir c = []) : Tame E s j type c :=
  ⟨by simp [hp], by simp [hp], hm, by rw [hc]; intro fd hfd; simp at hfd; exact ⟨f, List.mem_of_find?_eq_some hf, hfd.symm⟩, h1, h2, h3, h4⟩

theorem shape_rmdir (hE : Good E) (hs : Dirs s d j) (data : Bytes) (hw : data.length < 2 ^ 32) (ht : type ≠ 12) :
    ∃ o, recvRmdir E s id data data.length = some o ∧ Shape E s j type id o := by
  refine ⟨_, rmdir_eq hE hs id data hw, ?_⟩
  cases string data with
  | none => exact shape_stop _
  | some r =>
    dsimp only
    cases hv : verdict d j E.isLink r.1 with
    | deny => exact shape_denied
    | tooLong => exact shape_said (by decide) (by decide) (by simp)
    | admit cs =>
      have hin := inside_admit hs hv
      dsimp only
      split
      · exact shape_said (by decide) (by decide) (by
          intro c hc; simp at hc; subst hc; exact tame_path ht (by simpa [paths] using hin) (by simp [modes]) rfl rfl rfl rfl rfl)
      · exact shape_said (by decide) (by decide) (by
          intro c hc; simp at hc; subst hc; exact tame_path ht (by simpa [paths] using hin) (by simp [modes]) rfl rfl rfl rfl rfl)

theorem shape_mkdir (hE : Good E) (hs : Dirs s d j) (data : Bytes) (hw : data.length < 2 ^ 32) (ht : type ≠ 12) :
    ∃ o, recvMkdir E s id data data.length = some o ∧ Shape E s j type id o := by
  refine ⟨_, mkdir_eq hE hs id data hw, ?_⟩
  cases string data with
  | none => exact shape_stop _
  | some r =>
    dsimp only
    cases hv : verdict d j E.isLink r.1 with
    | deny => exact shape_denied
    | tooLong => exact shape_stop _
    | admit cs =>
      have hin := inside_admit hs hv
      dsimp only
      cases attrs r.2 with
      | none => exact shape_stop _
      | some a =>
        have hm := newMode_lt 0o755 a.1
        dsimp only
        split
        · exact shape_said (by decide) (by decide) (by
            intro c hc; simp at hc; subst hc
            exact tame_path ht (by simpa [paths] using hin) (by simpa [modes] using hm) rfl rfl rfl rfl rfl)
        · exact shape_said (by decide) (by decide) (by
            intro c hc; simp at hc; subst hc
            exact tame_path ht (by simpa [paths] using hin) (by simpa [modes] using hm) rfl rfl rfl rfl rfl)

theorem shape_remove (hE : Good E) (hs : Dirs s d j) (data : Bytes) (hw : data.length < 2 ^ 32) (ht : type ≠ 12) :
    ∃ o, recvRemove E s id data data.length = some o ∧ Shape E s j type id o := by
  refine ⟨_, remove_eq hE hs id data hw, ?_⟩
  cases string data with
  | none => exact shape_stop _
  | some r =>
    dsimp only
    split
    · exact shape_stop _
    cases hv : verdict d j E.isLink r.1 with
    | deny => exact shape_denied
    | tooLong => exact shape_said (by decide) (by decide) (by simp)
    | admit cs =>
      have hin := inside_admit hs hv
      dsimp only
      split
      · exact shape_said (by decide) (by decide) (by
          intro c hc; simp at hc; subst hc; exact tame_path ht (by simpa [paths] using hin) (by simp [modes]) rfl rfl rfl rfl rfl)
      · exact shape_said (by decide) (by decide) (by
          intro c hc; simp at hc; subst hc; exact tame_path ht (by simpa [paths] using hin) (by simp [modes]) rfl rfl rfl rfl rfl)

theorem shape_rename (hE : Good E) (hs : Dirs s d j) (data : Bytes) (hw : data.length < 2 ^ 32) (ht : type ≠ 12) :
    ∃ o, recvRename E s id data data.length = some o ∧ Shape E s j type id o := by
  refine ⟨_, rename_eq hE hs id data hw, ?_⟩
  have hno : ∀ e, Shape E s j type id (notRenamed E s id e) := fun e => shape_said (by decide) (by decide) (by simp)
  cases string data with
  | none => exact hno _
  | some r =>
    dsimp only
    cases hv : verdict d j E.isLink r.1 with
    | deny => exact shape_denied
    | tooLong => exact hno _
    | admit cs =>
      have hin := inside_admit hs hv
      dsimp only
      cases string r.2 with
      | none => exact hno _
      | some r' =>
        dsimp only
        cases hv' : verdict d j E.isLink r'.1 with
        | deny => exact shape_denied
        | tooLong => exact hno _
        | admit cs' =>
          have hin' := inside_admit hs hv'
          dsimp only
          split
          · exact shape_said (by decide) (by decide) (by
              intro c hc; simp at hc; subst hc
              exact tame_path ht (by simpa [paths] using ⟨hin, hin'⟩) (by simp [modes]) rfl rfl rfl rfl rfl)
          · exact shape_said (by decide) (by decide) (by
              intro c hc; simp at hc; subst hc
              exact tame_path ht (by simpa [paths] using ⟨hin, hin'⟩) (by simp [modes]) rfl rfl rfl rfl rfl)

theorem attrs_fits (st : Posix.Stat) : (Reply.attrs (toAttrs (ofStat st))).Fits := by
  have h1 := (attrs_length (.inr ⟨st, rfl⟩ : Sendable (ofStat st)))
  refine ⟨?_, ?_⟩
  · show (encAttrs _).length + 5 < _
    omega
  · unfold Attrs.Fits toAttrs ofStat
    simp [Nat.testBit]
    omega

theorem shape_statAns {calls : List Posix.Call} {res : Option Posix.Stat} {m : Bytes} (hk : type = 7 ∨ type = 8 ∨ type = 17) (hm : m.length < 1000)
    (h2 : ∀ c ∈ calls, Tame E s j type c) : Shape E s j type id (statAns E s id calls res m) := by
  unfold statAns
  cases res with
  | none => exact shape_said (by decide) hm h2
  | some st => exact shape_ans (.refl s) (fun _ => rfl) h2 hk (attrs_fits st) (by simp [Reply.type])

theorem shape_stat (hE : Good E) (hs : Dirs s d j) (link : Bool) (data : Bytes) (hw : data.length < 2 ^ 32) (hk : type = 7 ∨ type = 8 ∨ type = 17) :
    ∃ o, recvStat link E s id data data.length = some o ∧ Shape E s j type id o := by
  have ht : type ≠ 12 := by omega
  refine ⟨_, stat_eq hE hs link id data hw, ?_⟩
  cases string data with
  | none => exact shape_stop _
  | some r =>
    dsimp only
    cases hv : verdict d j E.isLink r.1 with
    | deny => exact shape_denied
    | tooLong => exact shape_said (by decide) (by cases link <;> decide) (by simp)
    | admit cs =>
      have hin := inside_admit hs hv
      dsimp only
      split
      · exact shape_statAns hk (by decide) (by
          intro c hc; simp at hc; subst hc; exact tame_path ht (by simpa [paths] using hin) (by simp [modes]) rfl rfl rfl rfl rfl)
      · exact shape_statAns hk (by decide) (by
          intro c hc; simp at hc; subst hc; exact tame_path ht (by simpa [paths] using hin) (by simp [modes]) rfl rfl rfl rfl rfl)

theorem shape_setAns {rest : Bytes} {chmod : Nat → Bool → Posix.Call} (hc : ∀ m ok, m < 512 → Tame E s j type (chmod m ok)) :
    Shape E s j type id (setAns E s id rest chmod) := by
  unfold setAns
  cases attrs rest with
  | none => exact shape_said (by decide) (by decide) (by simp)
  | some a =>
    dsimp only
    cases a.1.perm with
    | none => exact shape_said (by decide) (by decide) (by simp)
    | some m =>
      have hm : m &&& 0o777 < 512 := Nat.lt_of_le_of_lt Nat.and_le_right (by decide)
      dsimp only
      split
      · exact shape_said (by decide) (by decide) (by intro c h; simp at h; subst h; exact hc _ _ hm)
      · exact shape_said (by decide) (by decide) (by intro c h; simp at h; subst h; exact hc _ _ hm)

theorem shape_setstat (hE : Good E) (hs : Dirs s d j) (data : Bytes) (hw : data.length < 2 ^ 32) (ht : type ≠ 12) :
    ∃ o, recvSetStat E s id data data.length = some o ∧ Shape E s j type id o := by
  refine ⟨_, setstat_eq hE hs id data hw, ?_⟩
  cases string data with
  | none => exact shape_stop _
  | some r =>
    dsimp only
    cases hv : verdict d j E.isLink r.1 with
    | deny => exact shape_denied
    | tooLong => exact shape_said (by decide) (by decide) (by simp)
    | admit cs =>
      have hin := inside_admit hs hv
      exact shape_setAns fun m ok hm => tame_path ht (by simpa [paths] using hin) (by simpa [modes] using hm) rfl rfl rfl rfl rfl

theorem shape_fsetstat (hE : Good E) (hi : Ids s) (data : Bytes) (hw : data.length < 2 ^ 32) :
    ∃ o, recvFsetStat E s id data data.length = some o ∧ Shape E s j type id o := by
  refine ⟨_, fsetstat_eq hE hi id data hw, ?_⟩
  cases string data with
  | none => exact shape_stop _
  | some r =>
    dsimp only
    cases hf : fileOf s r.1 with
    | none => exact shape_said (by decide) (by decide) (by simp)
    | some f => exact shape_setAns fun m ok hm => tame_fd hf rfl rfl (by simpa [modes] using hm) rfl rfl rfl rfl

theorem shape_fstat (hE : Good E) (hi : Ids s) (data : Bytes) (hw : data.length < 2 ^ 32) (hk : type = 7 ∨ type = 8 ∨ type = 17) :
    ∃ o, recvFstat E s id data data.length = some o ∧ Shape E s j type id o := by
  refine ⟨_, fstat_eq hE hi id data hw, ?_⟩
  cases string data with
  | none => exact shape_stop _
  | some r =>
    dsimp only
    cases hf : fileOf s r.1 with
    | none => exact shape_stop _
    | some f => exact shape_statAns hk (by decide) (by
        intro c hc; simp at hc; subst hc; exact tame_fd hf rfl rfl (by simp [modes]) rfl rfl rfl rfl)

theorem ans_cases (E : Env) (s : Sess) (calls : List Posix.Call) (id : Nat) (r : Reply) (ret : Option Err) :
    ∃ ret' reply, ans E s calls id r ret = ⟨ret', s, calls, reply⟩ ∧ (reply = none ∧ ¬ Rich E ∨ reply = some (r.packet id)) := by
  unfold ans
  split
  · exact ⟨_, _, rfl, .inr rfl⟩
  · rename_i h
    exact ⟨_, _, rfl, .inl ⟨rfl, fun hR => h (hR.alloc _)⟩⟩

theorem said_cases (E : Env) (s : Sess) (calls : List Posix.Call) (type id c : Nat) (m : Bytes) (ret : Option Err) (hc : c < 2 ^ 32) (hm : m.length < 1000) :
    ∃ ret' reply, ans E s calls id (said c m) ret = ⟨ret', s, calls, reply⟩ ∧ Answers type id reply ∧
      ∀ h, reply ≠ some ((Reply.handle h).packet id) := by
  obtain ⟨a, b, h1, h2⟩ := ans_cases E s calls id (said c m) ret
  refine ⟨a, b, h1, ?_, ?_⟩
  · rcases h2 with ⟨rfl, _⟩ | rfl
    · exact .inl rfl
    · exact answers_status type id c m hc hm
  · rcases h2 with ⟨rfl, _⟩ | rfl
    · simp
    · exact not_handle (r := said c m) (show (101:Byte) ≠ 102 by decide) id

theorem shape_close (hE : Good E) (hi : Ids s) (data : Bytes) (hw : data.length < 2 ^ 32) (ht : type = 4) :
    ∃ o, recvClose E s id data data.length = some o ∧ Shape E s j type id o := by
  refine ⟨_, close_eq hE hi id data hw, ?_⟩
  cases string data with
  | none => exact shape_stop _
  | some r =>
    dsimp only
    split
    · exact shape_stop _
    cases hd : dirOf s r.1 with
    | some x =>
      obtain ⟨a, b, h1, h2, h3⟩ := said_cases E (dropDir s r.1) [.closedir x.dir] type id 0 (asc "Closed File") none (by decide) (by decide)
      dsimp only
      rw [h1]
      exact .closedDir ht hd h2 h3
    | none =>
      dsimp only
      cases hf : fileOf s r.1 with
      | none => exact shape_said (by decide) (by decide) (by simp)
      | some f =>
        dsimp only
        split
        · obtain ⟨a, b, h1, h2, h3⟩ := said_cases E (dropFile s r.1) [.close f.fd true] type id 0 (asc "Closed File") none (by decide) (by decide)
          rw [h1]
          exact .closed ht hf h2 h3
        · obtain ⟨a, b, h1, h2, h3⟩ := said_cases E (dropFile s r.1) [.close f.fd false] type id 4 (asc "Close File Error") (some .badFile)
            (by decide) (by decide)
          rw [h1]
          exact .closed ht hf h2 h3

theorem shape_open (hE : Good E) (hs : Dirs s d j) (hid : s.reqId = id) (data : Bytes) (hw : data.length < 2 ^ 32) (ht : type = 3) :
    ∃ o, recvOpen E s id data data.length = some o ∧ Shape E s j type id o := by
  have ht' : type ≠ 12 := by omega
  refine ⟨_, open_eq hE hs id hid data hw, ?_⟩
  cases string data with
  | none => exact shape_stop _
  | some r =>
    dsimp only
    cases hv : verdict d j E.isLink r.1 with
    | deny => exact shape_denied
    | tooLong => exact shape_stop _
    | admit cs =>
      have hin := inside_admit hs hv
      dsimp only
      split
      · exact shape_said (by decide) (by decide) (by simp)
      · rename_i hlen
        cases uint32 r.2 with
        | none => exact shape_stop _
        | some pf =>
          dsimp only
          cases attrs pf.2 with
          | none => exact shape_stop _
          | some a =>
            have hm := newMode_lt 0o644 a.1
            dsimp only
            have t1 : Tame E s j type (.stat (render cs) (E.stat (render cs))) :=
              tame_path ht' (by simpa [paths] using hin) (by simp [modes]) rfl rfl rfl rfl rfl
            split
            · cases hfd : E.fd with
              | none =>
                dsimp only
                exact shape_said (by decide) (by decide) (by
                  intro c hc
                  simp at hc
                  rcases hc with rfl | rfl
                  · exact t1
                  · exact tame_path ht' (by simpa [paths] using hin) (by simpa [modes] using hm) rfl rfl rfl rfl rfl)
              | some fd =>
                dsimp only
                unfold openAns
                split
                · split
                  · exact .opened ht hin hm (by omega)
                  · exact .undone ht hin hm (.inl rfl) (by simp)
                · obtain ⟨x, y, h1, h2, h3⟩ := said_cases E (skipId s) ([.stat (render cs) (E.stat (render cs)),
                    .open (render cs) (flagsOf pf.1) (newMode 0o644 a.1) (some fd)] ++ [.close fd E.ok2]) type id 4 (asc "Internal Failure")
                    (some .fatal) (by decide) (by decide)
                  rw [h1]
                  exact .undone ht hin hm h2 h3
            · exact shape_said (by decide) (by decide) (by intro c hc; simp at hc; subst hc; exact t1)

theorem shape_opendir (hE : Good E) (hs : Dirs s d j) (hid : s.reqId = id) (data : Bytes) (hw : data.length < 2 ^ 32) (ht : type = 11) :
    ∃ o, recvOpenDir E s id data data.length = some o ∧ Shape E s j type id o := by
  have ht' : type ≠ 12 := by omega
  refine ⟨_, opendir_eq hE hs id hid data hw, ?_⟩
  cases string data with
  | none => exact shape_stop _
  | some r =>
    dsimp only
    cases hv : verdict d j E.isLink r.1 with
    | deny => exact shape_denied
    | tooLong => exact shape_stop _
    | admit cs =>
      have hin := inside_admit hs hv
      dsimp only
      split
      · exact shape_said (by decide) (by decide) (by simp)
      · rename_i hlen
        cases E.fd with
        | none =>
          dsimp only
          exact shape_said (by decide) (by decide) (by
            intro c hc; simp at hc; subst hc; exact tame_path ht' (by simpa [paths] using hin) (by simp [modes]) rfl rfl rfl rfl rfl)
        | some dir =>
          dsimp only
          split
          · obtain ⟨x, y, h1, h2⟩ := ans_cases E (addDir s dir (render cs)) [.opendir (render cs) (some dir)] id (.handle (encodeId s.nextId)) none
            rw [h1]
            exact .openedDir ht hin (by omega) h2
          · exact .undoneDir ht hin

theorem lookCalls_tame {x : DirH} {cs : List Bytes} {n : Bytes} (hx : x ∈ s.dirs) (hc : components x.name = cs) (hn : n ∈ E.entries) (ht : type = 12) :
    ∀ c ∈ lookCalls E cs n, Tame E s j type c := by
  intro c h
  unfold lookCalls at h
  split at h
  · simp at h
    subst h
    refine ⟨fun h => absurd ht h, fun _ p hp => ?_, by simp [modes], by simp [fds], rfl, rfl, rfl, rfl⟩
    simp [paths] at hp
    exact ⟨x, hx, n, hn, by rw [hp, hc]⟩
  · simp at h

theorem listing_tame {x : DirH} {cs : List Bytes} (hx : x ∈ s.dirs) (hc : components x.name = cs) (ht : type = 12) : ∀ (ns : List Bytes),
    (∀ n ∈ ns, n ∈ E.entries) → ∀ c ∈ (listing E x.dir cs ns).2, Tame E s j type c
  | [], _, c, h => by
    simp [listing] at h
    subst h
    exact ⟨by simp [paths], by simp [paths], by simp [modes], by simp [fds], rfl, rfl, rfl, rfl⟩
  | n :: ns, hns, c, h => by
    have t1 : Tame E s j type (.readdir x.dir (some n)) :=
      ⟨by simp [paths], by simp [paths], by simp [modes], by simp [fds], rfl, rfl, rfl, rfl⟩
    unfold listing at h
    cases he : entryOf E cs n with
    | none =>
      rw [he] at h
      rcases List.mem_cons.1 h with rfl | h
      · exact t1
      · exact lookCalls_tame hx hc (hns n (by simp)) ht c h
    | some e =>
      rw [he] at h
      simp only [List.cons_append, List.mem_cons, List.mem_append] at h
      rcases h with rfl | h | h
      · exact t1
      · exact lookCalls_tame hx hc (hns n (by simp)) ht c h
      · exact listing_tame hx hc ht ns (fun m hm => hns m (by simp [hm])) c h

theorem setEof_same (x : Nat × Nat) : Same s (setEof s x) := by
  refine ⟨rfl, rfl, rfl, ?_, .inl rfl⟩
  unfold setEof
  rw [List.map_map]
  apply List.map_congr_left
  intro y _
  simp only [Function.comp]
  split <;> rfl

theorem names_fits (hE : Good E) (dir : Nat) (cs : List Bytes) :
    (Reply.names ((listing E dir cs E.entries).1.reverse.map toName)).Fits := by
  obtain ⟨h1, h2⟩ := listing_sum hE dir cs E.entries
  have h3 := listing_sendable hE dir cs
  refine ⟨?_, ?_⟩
  · have := names_length (listing E dir cs E.entries).1.reverse (fun n hn => (h3.1 n hn).1)
    have h4 := h3.2
    simp only [Reply.body, List.length_append, this, enc32_length]
    have := hE.few
    rw [List.map_reverse, List.sum_reverse] at *
    omega
  · intro n hn
    simp only [List.mem_map] at hn
    obtain ⟨e, he, rfl⟩ := hn
    rcases (h3.1 e he).1 with h | ⟨st, h⟩
    · show (toAttrs e.atrb).Fits
      rw [h]
      unfold Attrs.Fits toAttrs
      simp [Nat.testBit]
    · show (toAttrs e.atrb).Fits
      rw [h]
      exact (attrs_fits st).2

theorem shape_readdir (hE : Good E) (hs : Dirs s d j) (hi : Ids s)
    (hdn : ∀ x ∈ s.dirs, ∃ cs, x.name = render cs ∧ ∀ c ∈ cs, Spec.Path.Name c) (data : Bytes) (hw : data.length < 2 ^ 32) (ht : type = 12) :
    ∃ o, recvReadDir E s id data data.length = some o ∧ Shape E s j type id o := by
  refine ⟨_, readdir_eq hE hs hi hdn id data hw, ?_⟩
  cases string data with
  | none => exact shape_stop _
  | some r =>
    dsimp only
    split
    · exact shape_stop _
    cases hd : dirOf s r.1 with
    | none => exact shape_stop _
    | some x =>
      have hx : x ∈ s.dirs := List.mem_of_find?_eq_some hd
      have hl := listing_tame (E := E) (j := j) hx rfl ht E.entries (fun _ h => h)
      dsimp only
      split
      · exact shape_said (by decide) (by decide) (by simp)
      · split
        · exact shape_said (by decide) (by decide) hl
        · exact shape_ans (setEof_same _) (fun h => absurd ht h) hl (.inl ht) (names_fits hE _ _) (by simp [Reply.type])

theorem shape_readAns {calls : List Posix.Call} {n c : Nat} {m : Bytes} {ret : Option Err} (hc : c < 2 ^ 32) (hm : m.length < 1000)
    (h2 : ∀ c ∈ calls, Tame E s j type c) : Shape E s j type id (readAns E s calls id n (said c m) ret) := by
  unfold readAns
  split
  · exact .tame (.refl s) (fun _ => rfl) h2 (answers_status _ _ _ _ hc hm) (not_handle (r := said c m) (show (101:Byte) ≠ 102 by decide) id)
  · exact .tame (.refl s) (fun _ => rfl) h2 (.inl rfl) (by simp)

theorem shape_read (hE : Good E) (hi : Ids s) (hid : s.reqId = id) (data : Bytes) (hw : data.length < 2 ^ 32) (ht : type = 5) :
    ∃ o, recvRead E s id data data.length = some o ∧ Shape E s j type id o := by
  refine ⟨_, read_eq hE hi id hid data hw, ?_⟩
  cases string data with
  | none => exact shape_stop _
  | some r =>
    dsimp only
    cases hf : fileOf s r.1 with
    | none => exact shape_said (by decide) (by decide) (by simp)
    | some f =>
      dsimp only
      cases uint64 r.2 with
      | none => exact shape_stop _
      | some r1 =>
        dsimp only
        cases uint32 r1.2 with
        | none => exact shape_stop _
        | some r2 =>
          dsimp only
          have t : ∀ x, ∀ c ∈ [Posix.Call.pread f.fd r2.1 r1.1 x], Tame E s j type c := by
            intro x c hc
            simp at hc
            subst hc
            exact tame_fd hf rfl rfl (by simp [modes]) rfl rfl rfl rfl
          split
          · exact shape_stop _
          split
          · exact shape_stop _
          split
          · cases hp : E.pread r2.1 with
            | none => exact shape_readAns (by decide) (by decide) (t _)
            | some l =>
              cases l with
              | nil => exact shape_readAns (by decide) (by decide) (t _)
              | cons b l =>
                dsimp only
                have hl := hE.pread _ _ hp
                have hf : (Reply.data (b :: l)).Fits := by
                  refine ⟨?_, trivial⟩
                  simp [Reply.body, encString, enc32_length] at hl ⊢
                  omega
                exact .tame (.refl s) (fun _ => rfl) (t _) (.inr ⟨.data (b :: l), ht, hf, rfl⟩) (not_handle (by simp [Reply.type]) id)
          · exact shape_readAns (by decide) (by decide) (by simp)

theorem string_length {m v r : Bytes} (h : string m = some (v, r)) : v.length ≤ m.length := by
  unfold string uint32 at h
  split at h
  · cases h
  · rename_i n rest hu
    by_cases h4 : 4 ≤ m.length
    · rw [if_pos h4] at hu
      simp only [Option.some.injEq, Prod.mk.injEq] at hu
      split at h
      · simp only [Option.some.injEq, Prod.mk.injEq] at h
        rw [← h.1, ← hu.2]
        simp
        omega
      · cases h
    · rw [if_neg h4] at hu; cases hu

theorem uint64_rest {m : Bytes} {n : Nat} {r : Bytes} (h : uint64 m = some (n, r)) : r.length ≤ m.length := by
  unfold uint64 at h
  split at h
  · simp only [Option.some.injEq, Prod.mk.injEq] at h
    rw [← h.2]
    simp
  · cases h

theorem string_rest {m v r : Bytes} (h : string m = some (v, r)) : r.length ≤ m.length := by
  unfold string uint32 at h
  split at h
  · cases h
  · rename_i n rest hu
    by_cases h4 : 4 ≤ m.length
    · rw [if_pos h4] at hu
      simp only [Option.some.injEq, Prod.mk.injEq] at hu
      split at h
      · simp only [Option.some.injEq, Prod.mk.injEq] at h
        rw [← h.2, ← hu.2]
        simp
      · cases h
    · rw [if_neg h4] at hu; cases hu

theorem shape_write (hE : Good E) (hi : Ids s) (data : Bytes) (hw : data.length < 2 ^ 32) :
    ∃ o, recvWrite E s id data data.length = some o ∧ Shape E s j type id o := by
  refine ⟨_, write_eq hE hi id data hw, ?_⟩
  cases hs : string data with
  | none => exact shape_said (by decide) (by decide) (by simp)
  | some r =>
    dsimp only
    cases hf : fileOf s r.1 with
    | none => exact shape_said (by decide) (by decide) (by simp)
    | some f =>
      dsimp only
      cases h1 : uint64 r.2 with
      | none => exact shape_stop _
      | some r1 =>
        dsimp only
        cases h2 : string r1.2 with
        | none => exact shape_stop _
        | some r2 =>
          have l1 := string_rest (v := r.1) (r := r.2) hs
          have l2 := uint64_rest (n := r1.1) (r := r1.2) h1
          have l3 := string_length (v := r2.1) (r := r2.2) h2
          obtain ⟨cs, x, w, e1, _, _, _, e5, _⟩ := writeLoop_spec hE f.fd r2.1 r1.1 (by omega) (r2.1.length + 1) 0 0
            (r1.1 % 2 ^ 32, r1.1 / 2 ^ 32) [] (by omega) (by omega) (by omega) (by simp only; omega)
          have t : ∀ c ∈ cs, Tame E s j type c := by
            intro c hc
            obtain ⟨a, b, e, rfl⟩ := e5 c hc
            exact tame_fd hf rfl rfl (by simp [modes]) rfl rfl rfl rfl
          dsimp only
          unfold writeAns
          rw [e1]
          simp only [List.nil_append]
          split
          · exact shape_said (by decide) (by decide) t
          · exact shape_said (by decide) (by decide) t

theorem tame_getcwd (x : Option Bytes) : Tame E s j type (.getcwd x) :=
  ⟨by simp [paths], by simp [paths], by simp [modes], by simp [fds], rfl, rfl, rfl, rfl⟩

theorem tame_realCalls : ∀ c ∈ realCalls E s, Tame E s j type c := by
  intro c hc
  unfold realCalls at hc
  split at hc
  · simp at hc; subst hc; exact tame_getcwd _
  · simp at hc

theorem startDir_names (hE : Good E) (hs : Dirs s d j) {cs : List Bytes} (h : startDir d E.cwd = some cs) : ∀ c ∈ cs, Spec.Path.Name c := by
  unfold startDir at h
  cases hd : d with
  | some x => rw [hd] at h; cases h; exact hs.dNames _ hd
  | none =>
    rw [hd] at h
    simp only [Option.map_eq_some_iff] at h
    obtain ⟨w, hw, rfl⟩ := h
    exact resolve_names (by simp) (components_mem _ (hE.cwd w hw))

theorem same_default (hE : Good E) (hs : Dirs s d j) {cs : List Bytes} (h : startDir d E.cwd = some cs) :
    Same s { s with default := some (render cs) } := by
  refine ⟨rfl, rfl, rfl, rfl, ?_⟩
  cases hd : d with
  | some x =>
    left
    rw [hs.default, hd]
    unfold startDir at h
    rw [hd] at h
    cases h
    rfl
  | none =>
    right
    exact ⟨by rw [hs.default, hd]; rfl, cs, rfl, startDir_names hE hs h⟩

theorem shape_realpath (hE : Good E) (hs : Dirs s d j) (data : Bytes) (hw : data.length < 2 ^ 32) (ht : type = 16) :
    ∃ o, recvRealPath E s id data data.length = some o ∧ Shape E s j type id o := by
  classical
  refine ⟨_, realpath_eq hE hs id data hw, ?_⟩
  cases string data with
  | none => exact shape_stop _
  | some r =>
    dsimp only
    split
    · exact shape_stop _
    split
    · exact shape_said (by decide) (by decide) tame_realCalls
    · rename_i cs hcs
      have hst : startDir d E.cwd = some cs := by
        split at hcs
        · exact hcs
        · cases hcs
      have hsm := same_default hE hs hst
      split
      · rename_i hsh
        split
        · refine .tame hsm (fun _ => rfl) tame_realCalls (.inr ⟨.names [(render (target (some cs) r.1), render (target (some cs) r.1), {})], .inr ht, ?_, rfl⟩)
            (not_handle (by simp [Reply.type]) id)
          have hlen : (render (target (some cs) r.1)).length < 256 := by
            have := hsh.2 (components (Path.str r.1)).length
            rw [show (components (r.1.takeWhile (· ≠ 0))).take (components (Path.str r.1)).length = components (r.1.takeWhile (· ≠ 0)) from
              List.take_length] at this
            exact this
          refine ⟨?_, ?_⟩
          · have he4 : encAttrs {} = encUint32 0 := by decide
            simp [Reply.body, encName, encString, enc32_length, he4]
            omega
          · intro n hn
            simp at hn
            subst hn
            simp [Attrs.Fits]
        · exact .tame hsm (fun _ => rfl) tame_realCalls (.inl rfl) (by simp)
      · exact .tame hsm (fun _ => rfl) tame_realCalls (.inl rfl) (by simp)

theorem shape_unknown (hE : Good E) (data : Bytes) : ∃ o, recvUnknown E s id data = some o ∧ Shape E s j type id o := by
  refine ⟨_, recvUnknown_eq hE s id data, ?_⟩
  split
  · exact .tame (.refl s) (fun _ => rfl) (by simp) (answers_status type id 4 _ (by decide) (by decide)) (not_handle (r := unsupported) (by decide) id)
  · exact .tame (.refl s) (fun _ => rfl) (by simp) (.inl rfl) (by simp)

/-- What holds between requests. -/
structure Held (s : Sess) : Prop where
  ids : Ids s
  names : ∀ x ∈ s.dirs, ∃ cs, x.name = render cs ∧ ∀ c ∈ cs, Spec.Path.Name c

theorem handle_shape (hE : Good E) (hs : Dirs s d j) (hh : Held s) (data : Bytes) (hw : data.length < 2 ^ 32) :
    ∃ o, handle E s type id data = some o ∧ Shape E { s with reqId := id } j type id o := by
  have hs' : Dirs { s with reqId := id } d j := ⟨hs.default, hs.confine, hs.dNames, hs.jNames⟩
  have hi' : Ids { s with reqId := id } := ⟨hh.ids.files, hh.ids.dirs, hh.ids.next⟩
  unfold handle
  dsimp only
  by_cases h16 : type = 16
  · rw [if_pos h16]; exact shape_realpath hE hs' data hw h16
  rw [if_neg h16]
  by_cases h15 : type = 15
  · rw [if_pos h15]; exact shape_rmdir hE hs' data hw (by omega)
  rw [if_neg h15]
  by_cases h14 : type = 14
  · rw [if_pos h14]; exact shape_mkdir hE hs' data hw (by omega)
  rw [if_neg h14]
  by_cases h17 : type = 17
  · rw [if_pos h17]; exact shape_stat hE hs' false data hw (by omega)
  rw [if_neg h17]
  by_cases h7 : type = 7
  · rw [if_pos h7]; exact shape_stat hE hs' true data hw (by omega)
  rw [if_neg h7]
  by_cases h8 : type = 8
  · rw [if_pos h8]; exact shape_fstat hE hi' data hw (by omega)
  rw [if_neg h8]
  by_cases h3 : type = 3
  · rw [if_pos h3]; exact shape_open hE hs' rfl data hw h3
  rw [if_neg h3]
  by_cases h5 : type = 5
  · rw [if_pos h5]; exact shape_read hE hi' rfl data hw h5
  rw [if_neg h5]
  by_cases h6 : type = 6
  · rw [if_pos h6]; exact shape_write hE hi' data hw
  rw [if_neg h6]
  by_cases h4 : type = 4
  · rw [if_pos h4]; exact shape_close hE hi' data hw h4
  rw [if_neg h4]
  by_cases h13 : type = 13
  · rw [if_pos h13]; exact shape_remove hE hs' data hw (by omega)
  rw [if_neg h13]
  by_cases h18 : type = 18
  · rw [if_pos h18]; exact shape_rename hE hs' data hw (by omega)
  rw [if_neg h18]
  by_cases h9 : type = 9
  · rw [if_pos h9]; exact shape_setstat hE hs' data hw (by omega)
  rw [if_neg h9]
  by_cases h10 : type = 10
  · rw [if_pos h10]; exact shape_fsetstat hE hi' data hw
  rw [if_neg h10]
  by_cases h11 : type = 11
  · rw [if_pos h11]; exact shape_opendir hE hs' rfl data hw h11
  rw [if_neg h11]
  by_cases h12 : type = 12
  · rw [if_pos h12]; exact shape_readdir hE hs' hi' hh.names data hw h12
  rw [if_neg h12]
  exact shape_unknown hE data

end Proofs.Sftp
