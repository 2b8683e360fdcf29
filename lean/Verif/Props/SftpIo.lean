import Verif.Props.Sftp
import Verif.Proofs.SftpDirs
/-!
# The SFTP server: handles, the jail, input and output: C57 - C61, C64
-/

namespace Props.Sftp
open Wolf Wolf.Sftp Wolf.NameList Spec.Wire Spec.Sftp Spec.Path Proofs.Sftp

section
variable {d j : Option (List Bytes)} {t : List Event} {s : Sess}

/-! ## C57: handles -/

/-- C57: no handle is given twice in a session. -/
theorem C57_unique (hR : Reached d j t s) : (t.filterMap granted).Nodup :=
  let ⟨_, _, h0, h⟩ := hR.from_; (trace_unique h0 h hR.few).1

theorem fold_none (new : Posix.Call → List Nat) (h : Bytes) : ∀ (b : List Event) (m : Bytes → Option Nat), m h = none →
    (∀ x ∈ b, granted x ≠ some h) → b.foldl (grant new) m h = none
  | [], _, hm, _ => hm
  | e :: b, m, hm, hg => by
    rw [List.foldl_cons]
    apply fold_none new h b _ ?_ fun x hx => hg x (by simp [hx])
    have he := hg e (by simp)
    have key : (if closing e = some h then none else m h) = none := by split <;> simp [hm]
    unfold grant
    cases hge : granted e with
    | none => exact key
    | some y =>
      cases e.2.calls.flatMap new with
      | nil => exact key
      | cons a l =>
        dsimp only
        rw [if_neg (fun hy => he (by rw [hge, hy]))]
        exact hm

/-- C57: after a CLOSE request with a handle the client was given - whether it succeeded or not - the handle stands for
nothing, for the rest of the session. (For what a handle stands for see `held`; `C56_fstat`, `C56_close`, `C59_read` and
`C59_write` show that requests work on it, `C56_no_handle` that they fail if it is nothing.) -/
theorem C57_dead (hR : Reached d j t s) {a b : List Event} {e : Event} (ht : t = a ++ e :: b) {h : Bytes} (hg : h ∈ a.filterMap granted)
    (hc : closing e = some h) : held t h = none ∧ heldDir t h = none ∧ fileOf s h = none := by
  have hu := C57_unique hR
  obtain ⟨s0, d0, h0, hT⟩ := hR.from_
  obtain ⟨s', _, _, _, hs, _, hid, _⟩ := trace_shape h0 hT hR.few ht
  have ht4 : e.1.type = 4 := by
    unfold closing at hc
    split at hc
    · assumption
    · cases hc
  obtain ⟨k1, k2⟩ := shape_close_none hs ht4
  have hgn := granted_none hid k1 k2
  have hlater : ∀ x ∈ b, granted x ≠ some h := by
    intro x hx he
    rw [ht, List.filterMap_append, List.filterMap_cons, hgn, List.nodup_append] at hu
    exact hu.2.2 h hg h (List.mem_filterMap.2 ⟨x, hx, he⟩) rfl
  have key : ∀ new m, (a ++ e :: b).foldl (grant new) m h = none := by
    intro new m
    rw [List.foldl_append, List.foldl_cons]
    apply fold_none new h b _ ?_ hlater
    rw [grant_none hgn, if_pos hc]
  refine ⟨by unfold held; rw [ht]; exact key _ _, by unfold heldDir; rw [ht]; exact key _ _, ?_⟩
  exact held_none hR (by unfold held; rw [ht]; exact key _ _)

/-- C57: a descriptor that is used was opened for a handle which is not closed. -/
theorem C57_used (hR : Reached d j t s) {a b : List Event} {e : Event} (ht : t = a ++ e :: b) (c : Posix.Call) (hc : c ∈ e.2.calls) (fd : Nat)
    (hf : fd ∈ fds c) : ∃ h, held a h = some fd := by
  obtain ⟨s0, d0, h0, hT⟩ := hR.from_
  obtain ⟨s', hT', hi, _, hs, _, _, _⟩ := trace_shape h0 hT hR.few ht
  have key : ∃ f ∈ s'.files, f.fd = fd := by
    obtain ⟨r, o⟩ := e
    dsimp only at hs hc
    cases hs with
    | tame _ _ h => exact (h c hc).fds fd hf
    | _ =>
      simp only [List.mem_cons, List.not_mem_nil, or_false] at hc
      rcases hc with rfl | rfl | rfl <;> simp [fds] at hf
  obtain ⟨f, hf1, hf2⟩ := key
  have hl : a.length < 2 ^ 64 := by
    have h1 := hR.few
    rw [ht, List.length_append] at h1
    omega
  exact ⟨encodeId f.id, by rw [← trace_files h0 hT' hl, mem_fileOf hi hf1, ← hf2]; rfl⟩

/-- C57: everything that was opened is closed, or open for a handle; no more than 64 files are open at a time. -/
theorem C57_balance (hR : Reached d j t s) :
    ∃ L, List.Perm ((callsOf t).flatMap opened) ((callsOf t).flatMap closed ++ L) ∧ L.length ≤ 64 ∧ ∀ fd, fd ∈ L ↔ ∃ h, held t h = some fd := by
  obtain ⟨s0, d0, h0, hT⟩ := hR.from_
  refine ⟨s.files.map (·.fd), (trace_balance h0 hT hR.few).1, by rw [List.length_map]; exact (inv hR).files, fun fd => ?_⟩
  rw [List.mem_map]
  constructor
  · rintro ⟨f, hf, rfl⟩
    exact ⟨encodeId f.id, by rw [← trace_files h0 hT hR.few, mem_fileOf (inv hR) hf]; rfl⟩
  · rintro ⟨h, hh⟩
    obtain ⟨f, h1, h2⟩ := held_some hR hh
    exact ⟨f, List.mem_of_find?_eq_some h1, h2⟩

/-- C57 for directories. A directory may stay open without a handle if there was no memory for the reply that has the handle. -/
theorem C57_balance_dir (hR : Reached d j t s) :
    ∃ L, List.Perm ((callsOf t).flatMap openedDir) ((callsOf t).flatMap closedDir ++ L) ∧ L.length ≤ 64 ∧
      (∀ fd h, heldDir t h = some fd → fd ∈ L) ∧ ((∀ e ∈ t, Rich e.1.E) → ∀ fd, fd ∈ L → ∃ h, heldDir t h = some fd) := by
  obtain ⟨s0, d0, h0, hT⟩ := hR.from_
  obtain ⟨k1, k2⟩ := trace_dirs h0 hT hR.few
  refine ⟨s.dirs.map (·.dir), (trace_balance h0 hT hR.few).2, by rw [List.length_map]; exact (inv hR).dirs', fun fd h hh => ?_, fun hr fd hm => ?_⟩
  · have := k1 h fd hh
    rw [Option.map_eq_some_iff] at this
    obtain ⟨x, hx, he⟩ := this
    exact List.mem_map.2 ⟨x, List.mem_of_find?_eq_some hx, he⟩
  · rw [List.mem_map] at hm
    obtain ⟨f, hf, rfl⟩ := hm
    exact ⟨encodeId f.id, by rw [← k2 hr, mem_dirOf (inv hR) hf]; rfl⟩

/-! ## C58: the jail -/

/-- C58, all requests but READDIR. Whatever requests a session had: every path that went to the file system is canonical, in
the jail, and - unless the jail is the whole file system - nothing between the jail and it was a symbolic link when the
request was checked.

Missing: READDIR looks at the entries of open directories, and ".." of the jail is outside (`C58_dotdot`). -/
theorem C58_partial (hR : Reached d j t s) (e : Event) (he : e ∈ t) (c : Posix.Call) (hc : c ∈ e.2.calls) (p : Bytes) (hp : p ∈ paths c) :
    if e.1.type ≠ 12 then Inside j e.1.E.isLink p
    else ∃ cs n, (∀ x ∈ cs, Spec.Path.Name x) ∧ (∀ r, j = some r → r <+: cs) ∧ n ∈ e.1.E.entries ∧ p = place cs n := by
  obtain ⟨s0, d0, h0, hT⟩ := hR.from_
  obtain ⟨a, b, ht⟩ := List.append_of_mem he
  obtain ⟨s', hT', hi, _, hs, _, _, _⟩ := trace_shape h0 hT hR.few ht
  obtain ⟨r, o⟩ := e
  dsimp only at hs hc ⊢
  have one : ∀ {q : Bytes} {x : Posix.Call}, r.type ≠ 12 → Inside j r.E.isLink q → x = c → (∀ p ∈ paths x, p = q) →
      if r.type ≠ 12 then Inside j r.E.isLink p
      else ∃ cs n, (∀ x ∈ cs, Spec.Path.Name x) ∧ (∀ r, j = some r → r <+: cs) ∧ n ∈ r.E.entries ∧ p = place cs n := by
    intro q x ht hin hx hq
    rw [if_pos ht]
    rw [← hx] at hp
    rw [hq p hp]
    exact hin
  cases hs with
  | tame _ _ h =>
    by_cases h12 : r.type ≠ 12
    · rw [if_pos h12]; exact (h c hc).paths h12 p hp
    · rw [if_neg h12]
      obtain ⟨x, hx, n, hn, hpl⟩ := (h c hc).look (by omega) p hp
      obtain ⟨cs, hcan, hpre⟩ := hi.inside x hx
      refine ⟨cs, n, hcan.2, hpre, hn, ?_⟩
      rw [hpl, hcan.1, components_render cs hcan.2]
  | opened ht hin =>
    simp only [List.mem_cons, List.not_mem_nil, or_false] at hc
    rcases hc with rfl | rfl <;> exact one (by omega) hin rfl (by simp [paths])
  | undone ht hin =>
    simp only [List.mem_cons, List.not_mem_nil, or_false] at hc
    rcases hc with rfl | rfl | rfl <;> exact one (by omega) hin rfl (by simp [paths])
  | openedDir ht hin =>
    simp only [List.mem_cons, List.not_mem_nil, or_false] at hc
    rcases hc with rfl <;> exact one (by omega) hin rfl (by simp [paths])
  | undoneDir ht hin =>
    simp only [List.mem_cons, List.not_mem_nil, or_false] at hc
    rcases hc with rfl | rfl <;> exact one (by omega) hin rfl (by simp [paths])
  | closed =>
    simp only [List.mem_cons, List.not_mem_nil, or_false] at hc
    rw [hc] at hp
    simp [paths] at hp
  | closedDir =>
    simp only [List.mem_cons, List.not_mem_nil, or_false] at hc
    rw [hc] at hp
    simp [paths] at hp

/-- C58 for READDIR: a proper name (no '/', no '\', not "..") is looked at where it is. -/
theorem C58_entry (cs : List Bytes) (n : Bytes) (hn : Spec.Path.Name n) : place cs n = render (cs ++ [n]) := by
  unfold place
  have h1 : components n = [n] := Proofs.Path.components_name n hn.1 fun b hb => (hn.2.2.2 b hb).1
  rw [h1, resolve_id [n] cs (by simpa using hn)]

/-- C58: the start directory of a session does not change, once it is set. -/
theorem C58_start {s0 : Sess} {cs : List Bytes} (h0 : Fresh s0 (some cs) j) (hT : Trace s0 t s) (hl : t.length < 2 ^ 64) :
    Reached (some cs) j t s := by
  refine ⟨⟨s0, some cs, h0, hT⟩, hl, ?_⟩
  induction hT with
  | nil => exact h0.dirs
  | @snoc t s' r o hT hE hid hb ho ih =>
    simp only [List.length_append, List.length_cons, List.length_nil, Nat.zero_add] at hl
    have ih := ih (by omega)
    have hi := trace_inv h0 hT (by omega)
    obtain ⟨o', h1, h2⟩ := handle_shape (type := r.type) (id := r.id) hE ih hi.held r.body hb
    rw [ho] at h1
    cases h1
    cases h2 with
    | tame hs =>
      have hd : s'.default = some (render cs) := ih.1
      rcases hs.default with hh | ⟨hh, _⟩
      · exact ⟨by rw [hh]; exact ih.1, by rw [hs.confine]; exact ih.2, ih.3, ih.4⟩
      · rw [show ({ s' with reqId := r.id } : Sess).default = some (render cs) from hd] at hh; cases hh
    | _ => exact ⟨ih.1, ih.2, ih.3, ih.4⟩

/-! ## C59: reading and writing -/

/-- C59 for WRITE (6): the calls change the file of the handle only; they store a prefix of the data at the offset, and the
reply is OK exactly if that is all of the data. -/
theorem C59_write (hR : Reached d j t s) {E : Env} (hE : Good E) (id : Nat) (body h rest rest' rest'' dat : Bytes) (off fd : Nat)
    (hb : body.length < 2 ^ 32) (hp : string body = some (h, rest)) (ho : uint64 rest = some (off, rest')) (hd : string rest' = some (dat, rest''))
    (hh : held t h = some fd) :
    ∃ o w, handle E s 6 id body = some o ∧ w ≤ dat.length ∧ (∀ c ∈ o.calls, ∃ x a res, c = .pwrite fd x a res) ∧
      (∀ f, o.calls.foldl (applyCall fd) f = store f off (dat.take w)) ∧ Status E o id (if w = dat.length then 0 else 4) := by
  obtain ⟨f, hf, rfl⟩ := held_some hR hh
  have l1 := string_rest hp
  have l2 := uint64_rest ho
  have l3 := string_length hd
  obtain ⟨cs, x, w, e1, _, e3, e4, e5, e6⟩ := writeLoop_spec hE f.fd dat off (by omega) (dat.length + 1) 0 0
    (off % 2 ^ 32, off / 2 ^ 32) [] (by omega) (by omega) (by omega) (by simp only; omega)
  refine ⟨_, w, write_eq hE (ids' hR id) id body hb, e3, ?_⟩
  rw [hp]
  dsimp only
  rw [show fileOf { s with reqId := id } h = some f from hf]
  dsimp only
  rw [ho]
  dsimp only
  rw [hd]
  dsimp only [writeAns]
  rw [e1]
  simp only [List.nil_append]
  have hnil : ∀ g : Nat → Option UInt8, store g off [] = g := fun g => by
    funext i
    unfold store
    rw [if_neg (by rw [List.length_nil]; omega)]
  have hcalls : ∀ g, cs.foldl (applyCall f.fd) g = store g off (dat.take w) := fun g => by
    rw [← e6 g, List.take_zero, hnil]
  by_cases hw : x < 0 ∨ w ≠ dat.length
  · have hne : w ≠ dat.length := by
      rcases hw with h | h
      · have := e4 h; omega
      · exact h
    rw [if_pos hw, if_neg hne]
    rw [(ans_st ..).2]
    exact ⟨e5, hcalls, status_ans ..⟩
  · have he : w = dat.length := by omega
    rw [if_neg hw, if_pos he]
    rw [(ans_st ..).2]
    exact ⟨e5, hcalls, status_ans ..⟩

/-- C59 for READ (5) of at most 32768 bytes: one `pread` with the length and offset of the request; its bytes are the reply.
No bytes is the end of the file. -/
theorem C59_read (hR : Reached d j t s) {E : Env} (hE : Good E) (hr : Rich E) (id : Nat) (body h rest rest' rest'' : Bytes) (off n fd : Nat)
    (hb : body.length < 2 ^ 32) (hp : string body = some (h, rest)) (ho : uint64 rest = some (off, rest')) (hn : uint32 rest' = some (n, rest''))
    (hh : held t h = some fd) (hmax : n ≤ 32768) (hoff : off ≤ maxOff) :
    ∃ o res, handle E s 5 id body = some o ∧ o.calls = [.pread fd n off res] ∧ match res with
      | some [] => Status E o id 1
      | some dat => Says E o id (.data dat)
      | none => Status E o id 4 := by
  obtain ⟨f, hf, rfl⟩ := held_some hR hh
  refine ⟨_, E.pread n, read_eq hE (ids' hR id) id rfl body hb, ?_⟩
  rw [hp]
  dsimp only
  rw [show fileOf { s with reqId := id } h = some f from hf]
  dsimp only
  rw [ho]
  dsimp only
  rw [hn]
  dsimp only
  have ha : ¬ E.alloc (n + 13) = none := fun h => by have := hr.alloc (n + 13); rw [h] at this; cases this
  have hm : ∀ r, (mem E r || decide (r.body.length ≤ n + 4)) = true := fun r => by
    rw [show mem E r = true from hr.alloc _]; rfl
  rw [if_neg (by omega), if_neg ha, if_pos hoff]
  cases E.pread n with
  | none => dsimp only [readAns]; rw [if_pos (hm _)]; exact ⟨rfl, _, _, .inl rfl⟩
  | some l =>
    cases l with
    | nil => dsimp only [readAns]; rw [if_pos (hm _)]; exact ⟨rfl, _, _, .inl rfl⟩
    | cons b l => exact ⟨rfl, .inl rfl⟩

/-! ## C60: modes and open flags -/

/-- C60: no call gives a file or directory a mode with bits beyond the nine permission bits: no set-user-id, set-group-id or
sticky bit. -/
theorem C60_modes (hR : Reached d j t s) (e : Event) (he : e ∈ t) (c : Posix.Call) (hc : c ∈ e.2.calls) (m : Nat) (hm : m ∈ modes c) : m < 0o1000 := by
  obtain ⟨s0, d0, h0, hT⟩ := hR.from_
  obtain ⟨a, b, ht⟩ := List.append_of_mem he
  obtain ⟨s', hT', hi, _, hs, _, _, _⟩ := trace_shape h0 hT hR.few ht
  obtain ⟨r, o⟩ := e
  dsimp only at hs hc
  cases hs with
  | tame _ _ h => exact (h c hc).modes m hm
  | opened _ _ hlt =>
    simp only [List.mem_cons, List.not_mem_nil, or_false] at hc
    rcases hc with rfl | rfl
    · simp [modes] at hm
    · simp [modes] at hm; rw [hm]; exact hlt
  | undone _ _ hlt =>
    simp only [List.mem_cons, List.not_mem_nil, or_false] at hc
    rcases hc with rfl | rfl | rfl
    · simp [modes] at hm
    · simp [modes] at hm; rw [hm]; exact hlt
    · simp [modes] at hm
  | _ =>
    simp only [List.mem_cons, List.not_mem_nil, or_false] at hc
    rcases hc with rfl | rfl <;> simp [modes] at hm

/-- C60 for OPEN (3): less than 64 files open, memory for the reply. What is there must be a regular file, or nothing; `open`
gets the path, exactly the access and flags of the request, the permission bits of the request or 0644; if it succeeds the
client gets a handle it did not have before, and the handle stands for the new descriptor from then on. -/
theorem C60_open (hR : Reached d j t s) {E : Env} (hE : Good E) (hr : Rich E) (id : Nat) (body p rest rest' rest'' : Bytes) (pf : Nat)
    (a : Attrs) (hb : body.length < 2 ^ 32) (hp : string body = some (p, rest)) (hf : uint32 rest = some (pf, rest'))
    (ha : Spec.Sftp.attrs rest' = some (a, rest'')) (hn : s.files.length < 64) :
    ∃ o, handle E s 3 id body = some o ∧ match verdict d j E.isLink p with
      | .admit cs => ∃ st : Option Posix.Stat, if st.all regular then
          ∃ res, o.calls = [.stat (render cs) st, .open (render cs) (flagsOf pf) (newMode 0o644 a) res] ∧ match res with
            | some fd => ∃ h, Says E o id (.handle h) ∧ h ∉ t.filterMap granted ∧ (fileOf o.st h).map (·.fd) = some fd
            | none => Status E o id 4
        else o.calls = [.stat (render cs) st] ∧ Status E o id 4
      | .deny => o.calls = [] ∧ Status E o id 3
      | .tooLong => o.calls = [] ∧ o.reply = none := by
  refine ⟨_, open_eq hE (dirs' hR id) id rfl body hb, ?_⟩
  rw [hp]
  dsimp only
  cases verdict d j E.isLink p with
  | deny => exact ⟨(ans_st ..).2, status_ans ..⟩
  | tooLong => exact ⟨rfl, rfl⟩
  | admit cs =>
    dsimp only
    rw [if_neg (by omega), hf]
    dsimp only
    rw [ha]
    dsimp only
    refine ⟨E.stat (render cs), ?_⟩
    by_cases hreg : (E.stat (render cs)).all regular = true
    · rw [if_pos hreg, if_pos hreg]
      cases E.fd with
      | none => exact ⟨none, (ans_st ..).2, status_ans ..⟩
      | some fd =>
        refine ⟨some fd, ?_⟩
        dsimp only [openAns]
        rw [if_pos hr.node, if_pos (show mem E _ = true from hr.alloc _)]
        refine ⟨rfl, encodeId s.nextId, .inl rfl, ?_, ?_⟩
        · intro hm
          obtain ⟨s0, d0, h0, hT⟩ := hR.from_
          obtain ⟨i, h1, h2, h3⟩ := (trace_unique h0 hT hR.few).2 _ hm
          have := encodeId_inj (inv hR).held.ids.next h1 h2
          rw [this] at h3
          omega
        · simp only [fileOf, addFile, List.find?_cons, decide_true, Option.map_some]
    · rw [if_neg hreg, if_neg hreg]
      exact ⟨(ans_st ..).2, status_ans ..⟩

/-! ## C61: listings -/

/-- The entries of a reply to READDIR: for each name what is there (nothing if `lstat` fails), the last one first. -/
def entries (E : Env) (cs : List Bytes) (long : Bytes → Bytes) : List (Bytes × Bytes × Attrs) :=
  (E.entries.map fun n => (n, long n, ((E.stat (place cs n)).map attrsOf).getD {})).reverse

theorem listing_all {E : Env} {dir : Nat} {cs : List Bytes} {long : Bytes → Bytes} (hlong : ∀ n a, E.longName n a = some (long n)) :
    ∀ (ns : List Bytes), (∀ n ∈ ns, (render cs).length + 1 + n.length < 256) →
    ((listing E dir cs ns).1.map toName) = ns.map fun n => (n, long n, ((E.stat (place cs n)).map attrsOf).getD {})
  | [], _ => rfl
  | n :: ns, h => by
    have ih := listing_all hlong (dir := dir) ns fun m hm => h m (by simp [hm])
    unfold listing
    have he : entryOf E cs n = some ⟨n, long n, entryAttr E cs n⟩ := by
      unfold entryOf
      rw [if_pos (h n (by simp)), hlong]
      rfl
    rw [he]
    simp only [List.map_cons, ih]
    congr 1
    unfold toName entryAttr
    cases E.stat (place cs n) with
    | none => simp only [Option.map_none, Option.getD_none]; rfl
    | some st => simp only [Option.map_some, Option.getD_some, attrs_ofStat]

/-- C61, the part that holds. A handle was given for the directory `p` and is not closed; the names in the directory are short
enough. If no READDIR request for it was answered with names before, the reply has all the names the system delivers, with
their attributes; if there are no names, or if names were sent before, the reply is the end of the directory.

Missing: the first name that makes a path of 256 bytes or more ends the listing without a trace (`C61_truncated`). -/
theorem C61_partial (hR : Reached d j t s) {a b : List Event} {e : Event} (ht : t = a ++ e :: b) {h p : Bytes} {dir : Nat}
    (hg : granted e = some h) (hc : e.2.calls = [.opendir p (some dir)]) (hno : ∀ x ∈ b, closing x ≠ some h) (hrich : ∀ x ∈ b, Rich x.1.E)
    {E : Env} (hE : Good E) (long : Bytes → Bytes) (hlong : ∀ n a, E.longName n a = some (long n))
    (id : Nat) (body rest : Bytes) (hb : body.length < 2 ^ 32) (hp : string body = some (h, rest)) :
    ∃ cs o, Canonical p cs ∧ handle E s 12 id body = some o ∧ ((∀ n ∈ E.entries, p.length + 1 + n.length < 256) →
      ((E.entries = [] ∨ ∃ z ∈ b, Lists z h) → Status E o id 1) ∧
      (E.entries ≠ [] → (¬ ∃ z ∈ b, Lists z h) → Says E o id (.names (entries E cs long)))) := by
  obtain ⟨s0, d0, h0, hT⟩ := hR.from_
  obtain ⟨x, h1, h2, h3, h4⟩ := dir_after h0 hT hR.few ht hg hc hno hrich
  obtain ⟨cs, hcan, _⟩ := (inv hR).inside x (List.mem_of_find?_eq_some h1)
  have hx' : dirOf { s with reqId := id } h = some x := h1
  have hnm := (inv hR).held.names
  refine ⟨cs, _, by rw [← h3]; exact hcan, readdir_eq hE (dirs' hR id) (ids' hR id) hnm id body hb, ?_⟩
  intro hs
  have h8 : h.length = 8 := by
    by_cases h8 : h.length = 8
    · exact h8
    · rw [dirOf_short h8] at h1; cases h1
  rw [hp]
  dsimp only
  rw [if_neg (by omega), hx']
  dsimp only
  have hcomp : components x.name = cs := by rw [hcan.1]; exact components_render cs hcan.2
  have hlen : (render cs).length = p.length := by rw [← h3, hcan.1]
  have hl := listing_all (dir := x.dir) (cs := cs) hlong E.entries fun n hn => by rw [hlen]; exact hs n hn
  have hnil : (listing E x.dir (components x.name) E.entries).1 = [] ↔ E.entries = [] := by
    rw [hcomp, ← List.map_eq_nil_iff (f := toName), hl, List.map_eq_nil_iff]
  by_cases heof : x.isEof = true
  · rw [if_pos heof]
    exact ⟨fun _ => status_ans .., fun _ h => absurd (h4.1 heof) h⟩
  · rw [if_neg heof]
    have hz : ¬ ∃ z ∈ b, Lists z h := fun hz => heof (h4.2 hz)
    by_cases hn : E.entries = []
    · rw [if_pos (hnil.2 hn)]
      exact ⟨fun _ => status_ans .., fun h => absurd hn h⟩
    · rw [if_neg (fun h => hn (hnil.1 h))]
      refine ⟨fun h => by rcases h with h | h; exact absurd h hn; exact absurd h hz, fun _ _ => ?_⟩
      have : (listing E x.dir (components x.name) E.entries).1.reverse.map toName = entries E cs long := by
        rw [List.map_reverse, hcomp, hl]; rfl
      rw [this]
      exact says_ans ..

/-! ## C64: every request is answered -/

/-- The well formed requests the server does not answer: READ of more than 32768 bytes; FSTAT and READDIR with a handle that
does not stand for a file or directory; CLOSE with a handle of more than 256 bytes; OPEN, OPENDIR and MKDIR with a path
that is too long, REMOVE with one of more than 256 bytes; REALPATH with a path of 256 bytes or more or of something whose path is. -/
def Silent (t : List Event) (d : Option (List Bytes)) (E : Env) (type : Nat) (body : Bytes) : Prop :=
  ∃ p rest, string body = some (p, rest) ∧
    ((type = 5 ∧ held t p ≠ none ∧ ∃ off r n r', uint64 rest = some (off, r) ∧ uint32 r = some (n, r') ∧ n > 32768) ∨
    (type = 8 ∧ held t p = none) ∨ (type = 12 ∧ heldDir t p = none) ∨ (type = 4 ∧ p.length > 256) ∨
    ((type = 3 ∨ type = 11 ∨ type = 14) ∧ ¬ Short d p) ∨ (type = 13 ∧ p.length > 256) ∨
    (type = 16 ∧ (p.length ≥ 256 ∨ cwdShort d E.cwd ∧ ∃ cs, startDir d E.cwd = some cs ∧ ¬ Short (some cs) p)))

theorem ans_some {E : Env} (hr : Rich E) (s : Sess) (calls : List Posix.Call) (id : Nat) (r : Reply) (ret : Option Err) :
    (ans E s calls id r ret).reply ≠ none := by
  unfold ans
  rw [if_pos (show mem E r = true from hr.alloc _)]
  exact fun h => nomatch h

theorem stat_some {E : Env} (hr : Rich E) (s : Sess) (id : Nat) (calls : List Posix.Call) (res : Option Posix.Stat) (m : Bytes) :
    (statAns E s id calls res m).reply ≠ none := by
  unfold statAns
  cases res <;> exact ans_some hr _ _ _ _ _

theorem set_some {E : Env} (hr : Rich E) (s : Sess) (id : Nat) (rest : Bytes) (chmod : Nat → Bool → Posix.Call) {a : Attrs × Bytes}
    (ha : Spec.Sftp.attrs rest = some a) : (setAns E s id rest chmod).reply ≠ none := by
  unfold setAns
  rw [ha]
  obtain ⟨a, b⟩ := a
  dsimp only
  cases a.perm with
  | none => exact ans_some hr _ _ _ _ _
  | some m => dsimp only; cases E.ok <;> exact ans_some hr _ _ _ _ _

theorem verdict_long {d j : Option (List Bytes)} {isLink : Bytes → Bool} {p : Bytes} :
    verdict d j isLink p = .tooLong ↔ ¬ Short d p := by
  unfold verdict
  by_cases h : Short d p
  · rw [if_pos h]
    exact ⟨fun hh => (by revert hh; split <;> exact fun hh => nomatch hh), fun hn => absurd h hn⟩
  · rw [if_neg h]
    exact ⟨fun _ => h, fun _ => rfl⟩

/-- C64, the part that holds: there is enough memory, the body of the request matches the grammar of its type. Then the server
answers - exactly - every request that is not on the list above. Missing: the requests on the list (`C64_silent`), for which a client
waits forever. -/
theorem C64_partial (hR : Reached d j t s) (hrich : ∀ e ∈ t, Rich e.1.E) {E : Env} (hE : Good E) (hr : Rich E) (type id : Nat) (body : Bytes)
    (hb : body.length < 2 ^ 32) (hg : Parses type body) :
    ∃ o, handle E s type id body = some o ∧ (o.reply = none ↔ Silent t d E type body) := by
  have hs := dirs' hR id
  have hi := ids' hR id
  have hfile : ∀ h, fileOf { s with reqId := id } h = none ↔ held t h = none := fun h => by
    obtain ⟨_, _, h0, hT⟩ := hR.from_
    rw [← trace_files h0 hT hR.few, Option.map_eq_none_iff]; rfl
  have hdir : ∀ h, dirOf { s with reqId := id } h = none ↔ heldDir t h = none := fun h => by
    obtain ⟨_, _, h0, hT⟩ := hR.from_
    rw [← (trace_dirs h0 hT hR.few).2 hrich, Option.map_eq_none_iff]; rfl
  -- a reply, not silent
  have yes : ∀ {o : Out}, o.reply ≠ none → ¬ Silent t d E type body → (o.reply = none ↔ Silent t d E type body) :=
    fun h1 h2 => ⟨fun h => absurd h h1, fun h => absurd h h2⟩
  have no : ∀ {o : Out}, o.reply = none → Silent t d E type body → (o.reply = none ↔ Silent t d E type body) :=
    fun h1 h2 => ⟨fun _ => h2, fun _ => h1⟩
  have free : (type = 15 ∨ type = 17 ∨ type = 7 ∨ type = 6 ∨ type = 18 ∨ type = 9 ∨ type = 10) ∨ type < 3 ∨ 18 < type → ¬ Silent t d E type body := by
    rintro h ⟨p, rest, hp, hc⟩
    omega
  unfold Parses at hg
  by_cases h16 : type = 16
  · subst h16
    rw [if_neg (by omega), if_neg (by omega), if_neg (by omega), if_neg (by omega), if_neg (by omega), if_pos (by omega)] at hg
    obtain ⟨⟨p, rest⟩, hp⟩ := hg
    refine ⟨_, realpath_eq hE hs id body hb, ?_⟩
    rw [hp]
    dsimp only
    by_cases hl : p.length ≥ 256
    · rw [if_pos hl]; exact no rfl ⟨p, rest, hp, by simp [hl]⟩
    rw [if_neg hl]
    by_cases hc : cwdShort d E.cwd
    · rw [if_pos hc]
      cases hst : startDir d E.cwd with
      | none =>
        refine yes (ans_some hr _ _ _ _ _) ?_
        rintro ⟨p', rest', hp', hc'⟩
        rw [hp] at hp'; cases hp'
        simp [hl, hst] at hc'
      | some cs =>
        dsimp only
        by_cases hsh : Short (some cs) p
        · rw [if_pos hsh, if_pos (by rw [show mem E _ = true from hr.alloc _]; rfl)]
          refine yes (fun h => nomatch h) ?_
          rintro ⟨p', rest', hp', hc'⟩
          rw [hp] at hp'; cases hp'
          simp [hl, hst, hsh] at hc'
        · rw [if_neg hsh]
          exact no rfl ⟨p, rest, hp, by simp [hst, hsh, hc]⟩
    · rw [if_neg hc]
      refine yes (ans_some hr _ _ _ _ _) ?_
      rintro ⟨p', rest', hp', hc'⟩
      rw [hp] at hp'; cases hp'
      simp [hl, hc] at hc'
  by_cases h15 : type = 15
  · subst h15
    rw [if_neg (by omega), if_neg (by omega), if_neg (by omega), if_neg (by omega), if_neg (by omega), if_pos (by omega)] at hg
    obtain ⟨⟨p, rest⟩, hp⟩ := hg
    refine ⟨_, rmdir_eq hE hs id body hb, ?_⟩
    rw [hp]
    refine yes ?_ (free (by omega))
    dsimp only
    cases verdict d j E.isLink p with
    | admit cs => dsimp only; cases E.ok <;> exact ans_some hr _ _ _ _ _
    | _ => exact ans_some hr _ _ _ _ _
  by_cases h14 : type = 14
  · subst h14
    rw [if_neg (by omega), if_neg (by omega), if_neg (by omega), if_pos (by omega)] at hg
    obtain ⟨p, rest, a, hp, ha⟩ := hg
    refine ⟨_, mkdir_eq hE hs id body hb, ?_⟩
    rw [hp]
    dsimp only
    have hv : Silent t d E 14 body ↔ verdict d j E.isLink p = .tooLong := by
      rw [verdict_long]
      exact ⟨fun ⟨p', r', hp', hc⟩ => by rw [hp] at hp'; cases hp'; simpa using hc, fun h => ⟨p, rest, hp, by simpa using h⟩⟩
    rw [hv]
    cases verdict d j E.isLink p with
    | admit cs =>
      dsimp only; rw [ha]; obtain ⟨a, b⟩ := a; dsimp only
      refine ⟨fun h => ?_, fun h => nomatch h⟩
      revert h
      cases E.ok <;> exact fun h => absurd h (ans_some hr _ _ _ _ _)
    | deny => exact ⟨fun h => absurd h (ans_some hr _ _ _ _ _), fun h => nomatch h⟩
    | tooLong => exact ⟨fun _ => rfl, fun _ => rfl⟩
  by_cases h17 : type = 17
  · subst h17
    rw [if_neg (by omega), if_neg (by omega), if_neg (by omega), if_neg (by omega), if_neg (by omega), if_pos (by omega)] at hg
    obtain ⟨⟨p, rest⟩, hp⟩ := hg
    refine ⟨_, stat_eq hE hs false id body hb, ?_⟩
    rw [hp]
    refine yes ?_ (free (by omega))
    dsimp only
    cases verdict d j E.isLink p with
    | admit cs => exact stat_some hr _ _ _ _ _
    | _ => exact ans_some hr _ _ _ _ _
  by_cases h7 : type = 7
  · subst h7
    rw [if_neg (by omega), if_neg (by omega), if_neg (by omega), if_neg (by omega), if_neg (by omega), if_pos (by omega)] at hg
    obtain ⟨⟨p, rest⟩, hp⟩ := hg
    refine ⟨_, stat_eq hE hs true id body hb, ?_⟩
    rw [hp]
    refine yes ?_ (free (by omega))
    dsimp only
    cases verdict d j E.isLink p with
    | admit cs => exact stat_some hr _ _ _ _ _
    | _ => exact ans_some hr _ _ _ _ _
  by_cases h8 : type = 8
  · subst h8
    rw [if_neg (by omega), if_neg (by omega), if_neg (by omega), if_neg (by omega), if_neg (by omega), if_pos (by omega)] at hg
    obtain ⟨⟨p, rest⟩, hp⟩ := hg
    refine ⟨_, fstat_eq hE hi id body hb, ?_⟩
    rw [hp]
    dsimp only
    cases hf : fileOf { s with reqId := id } p with
    | none => exact no rfl ⟨p, rest, hp, by simp [(hfile p).1 hf]⟩
    | some f =>
      refine yes (stat_some hr _ _ _ _ _) ?_
      rintro ⟨p', rest', hp', hc'⟩
      rw [hp] at hp'; cases hp'
      simp only [← hfile, hf] at hc'
      simp at hc'
  by_cases h3 : type = 3
  · subst h3
    rw [if_pos rfl] at hg
    obtain ⟨p, rest, pf, r', a, hp, hu, ha⟩ := hg
    refine ⟨_, open_eq hE hs id rfl body hb, ?_⟩
    rw [hp]
    dsimp only
    have hv : Silent t d E 3 body ↔ verdict d j E.isLink p = .tooLong := by
      rw [verdict_long]
      exact ⟨fun ⟨p', r', hp', hc⟩ => by rw [hp] at hp'; cases hp'; simpa using hc, fun h => ⟨p, rest, hp, by simpa using h⟩⟩
    rw [hv]
    cases verdict d j E.isLink p with
    | admit cs =>
      dsimp only
      refine ⟨fun h => ?_, fun h => nomatch h⟩
      revert h
      by_cases h64 : 64 ≤ s.files.length
      · rw [if_pos h64]; exact fun h => absurd h (ans_some hr _ _ _ _ _)
      rw [if_neg h64, hu]; dsimp only; rw [ha]; obtain ⟨a, b⟩ := a; dsimp only
      by_cases hreg : (E.stat (render cs)).all regular = true
      · rw [if_pos hreg]
        cases E.fd with
        | none => exact fun h => absurd h (ans_some hr _ _ _ _ _)
        | some fd =>
          dsimp only [openAns]
          rw [if_pos hr.node, if_pos (show mem E _ = true from hr.alloc _)]
          exact fun h => nomatch h
      · rw [if_neg hreg]; exact fun h => absurd h (ans_some hr _ _ _ _ _)
    | deny => exact ⟨fun h => absurd h (ans_some hr _ _ _ _ _), fun h => nomatch h⟩
    | tooLong => exact ⟨fun _ => rfl, fun _ => rfl⟩
  by_cases h5 : type = 5
  · subst h5
    rw [if_neg (by omega), if_pos (by omega)] at hg
    obtain ⟨p, rest, off, r, n, hp, hu, hn⟩ := hg
    obtain ⟨n, r'⟩ := n
    refine ⟨_, read_eq hE hi id rfl body hb, ?_⟩
    rw [hp]
    dsimp only
    cases hf : fileOf { s with reqId := id } p with
    | none =>
      refine yes (ans_some hr _ _ _ _ _) ?_
      rintro ⟨p', rest', hp', hc'⟩
      rw [hp] at hp'; cases hp'
      simp [(hfile p).1 hf] at hc'
    | some f =>
      dsimp only
      rw [hu]; dsimp only; rw [hn]; dsimp only
      by_cases hmax : n > 32768
      · rw [if_pos hmax]
        refine no rfl ⟨p, rest, hp, .inl ⟨rfl, ?_, off, r, n, r', hu, hn, hmax⟩⟩
        rw [ne_eq, ← hfile, hf]; exact fun h => nomatch h
      · have ha : ¬ E.alloc (n + 13) = none := fun h => by have := hr.alloc (n + 13); rw [h] at this; cases this
        have hm : ∀ r, (mem E r || decide (r.body.length ≤ n + 4)) = true := fun r => by
          rw [show mem E r = true from hr.alloc _]; rfl
        rw [if_neg hmax, if_neg ha]
        refine yes ?_ ?_
        · by_cases hoff : off ≤ maxOff
          · rw [if_pos hoff]
            cases E.pread n with
            | none => dsimp only [readAns]; rw [if_pos (hm _)]; exact fun h => nomatch h
            | some l =>
              cases l with
              | nil => dsimp only [readAns]; rw [if_pos (hm _)]; exact fun h => nomatch h
              | cons b l => exact fun h => nomatch h
          · rw [if_neg hoff]
            dsimp only [readAns]; rw [if_pos (hm _)]; exact fun h => nomatch h
        · rintro ⟨p', rest', hp', hc'⟩
          rw [hp] at hp'; cases hp'
          rcases hc' with ⟨_, _, off', r1, n', r2, k1, k2, k3⟩ | hc'
          · rw [hu] at k1; cases k1; rw [hn] at k2; cases k2; omega
          · omega
  by_cases h6 : type = 6
  · subst h6
    rw [if_neg (by omega), if_neg (by omega), if_pos (by omega)] at hg
    obtain ⟨p, rest, off, r, dat, hp, hu, hn⟩ := hg
    obtain ⟨dat, r'⟩ := dat
    refine ⟨_, write_eq hE hi id body hb, ?_⟩
    rw [hp]
    refine yes ?_ (free (by omega))
    dsimp only
    cases hf : fileOf { s with reqId := id } p with
    | none => exact ans_some hr _ _ _ _ _
    | some f =>
      dsimp only
      rw [hu]; dsimp only; rw [hn]; dsimp only [writeAns]
      split <;> exact ans_some hr _ _ _ _ _
  by_cases h4 : type = 4
  · subst h4
    rw [if_neg (by omega), if_neg (by omega), if_neg (by omega), if_neg (by omega), if_neg (by omega), if_pos (by omega)] at hg
    obtain ⟨⟨p, rest⟩, hp⟩ := hg
    refine ⟨_, close_eq hE hi id body hb, ?_⟩
    rw [hp]
    dsimp only
    by_cases hl : p.length > 256
    · rw [if_pos hl]; exact no rfl ⟨p, rest, hp, by simp [hl]⟩
    rw [if_neg hl]
    refine yes ?_ ?_
    · cases dirOf { s with reqId := id } p with
      | some _ => exact ans_some hr _ _ _ _ _
      | none =>
        dsimp only
        cases fileOf { s with reqId := id } p with
        | none => exact ans_some hr _ _ _ _ _
        | some f => dsimp only; cases E.ok <;> exact ans_some hr _ _ _ _ _
    · rintro ⟨p', rest', hp', hc'⟩
      rw [hp] at hp'; cases hp'
      omega
  by_cases h13 : type = 13
  · subst h13
    rw [if_neg (by omega), if_neg (by omega), if_neg (by omega), if_neg (by omega), if_neg (by omega), if_pos (by omega)] at hg
    obtain ⟨⟨p, rest⟩, hp⟩ := hg
    refine ⟨_, remove_eq hE hs id body hb, ?_⟩
    rw [hp]
    dsimp only
    by_cases hl : p.length > 256
    · rw [if_pos hl]; exact no rfl ⟨p, rest, hp, by simp [hl]⟩
    rw [if_neg hl]
    refine yes ?_ ?_
    · cases verdict d j E.isLink p with
      | admit cs => dsimp only; cases E.ok <;> exact ans_some hr _ _ _ _ _
      | _ => exact ans_some hr _ _ _ _ _
    · rintro ⟨p', rest', hp', hc'⟩
      rw [hp] at hp'; cases hp'
      omega
  by_cases h18 : type = 18
  · subst h18
    rw [if_neg (by omega), if_neg (by omega), if_neg (by omega), if_neg (by omega), if_pos (by omega)] at hg
    obtain ⟨p, rest, q, hp, hq⟩ := hg
    obtain ⟨q, rest'⟩ := q
    refine ⟨_, rename_eq hE hs id body hb, ?_⟩
    rw [hp]
    refine yes ?_ (free (by omega))
    dsimp only
    cases verdict d j E.isLink p with
    | admit cs =>
      dsimp only; rw [hq]; dsimp only
      cases verdict d j E.isLink q with
      | admit cs => dsimp only; cases E.ok <;> exact ans_some hr _ _ _ _ _
      | _ => exact ans_some hr _ _ _ _ _
    | _ => exact ans_some hr _ _ _ _ _
  by_cases h9 : type = 9
  · subst h9
    rw [if_neg (by omega), if_neg (by omega), if_neg (by omega), if_pos (by omega)] at hg
    obtain ⟨p, rest, a, hp, ha⟩ := hg
    refine ⟨_, setstat_eq hE hs id body hb, ?_⟩
    rw [hp]
    refine yes ?_ (free (by omega))
    dsimp only
    cases verdict d j E.isLink p with
    | admit cs => exact set_some hr _ _ _ _ ha
    | _ => exact ans_some hr _ _ _ _ _
  by_cases h10 : type = 10
  · subst h10
    rw [if_neg (by omega), if_neg (by omega), if_neg (by omega), if_pos (by omega)] at hg
    obtain ⟨p, rest, a, hp, ha⟩ := hg
    refine ⟨_, fsetstat_eq hE hi id body hb, ?_⟩
    rw [hp]
    refine yes ?_ (free (by omega))
    dsimp only
    cases fileOf { s with reqId := id } p with
    | some f => exact set_some hr _ _ _ _ ha
    | none => exact ans_some hr _ _ _ _ _
  by_cases h11 : type = 11
  · subst h11
    rw [if_neg (by omega), if_neg (by omega), if_neg (by omega), if_neg (by omega), if_neg (by omega), if_pos (by omega)] at hg
    obtain ⟨⟨p, rest⟩, hp⟩ := hg
    refine ⟨_, opendir_eq hE hs id rfl body hb, ?_⟩
    rw [hp]
    dsimp only
    have hv : Silent t d E 11 body ↔ verdict d j E.isLink p = .tooLong := by
      rw [verdict_long]
      exact ⟨fun ⟨p', r', hp', hc⟩ => by rw [hp] at hp'; cases hp'; simpa using hc, fun h => ⟨p, rest, hp, by simpa using h⟩⟩
    rw [hv]
    cases verdict d j E.isLink p with
    | admit cs =>
      dsimp only
      refine ⟨fun h => ?_, fun h => nomatch h⟩
      revert h
      by_cases h64 : 64 ≤ s.dirs.length
      · rw [if_pos h64]; exact fun h => absurd h (ans_some hr _ _ _ _ _)
      rw [if_neg h64]
      cases E.fd with
      | none => exact fun h => absurd h (ans_some hr _ _ _ _ _)
      | some fd => dsimp only; rw [if_pos hr.node]; exact fun h => absurd h (ans_some hr _ _ _ _ _)
    | deny => exact ⟨fun h => absurd h (ans_some hr _ _ _ _ _), fun h => nomatch h⟩
    | tooLong => exact ⟨fun _ => rfl, fun _ => rfl⟩
  by_cases h12 : type = 12
  · subst h12
    rw [if_neg (by omega), if_neg (by omega), if_neg (by omega), if_neg (by omega), if_neg (by omega), if_pos (by omega)] at hg
    obtain ⟨⟨p, rest⟩, hp⟩ := hg
    refine ⟨_, readdir_eq hE hs hi (inv hR).held.names id body hb, ?_⟩
    rw [hp]
    dsimp only
    by_cases hl : p.length > 256
    · rw [if_pos hl]
      have : dirOf { s with reqId := id } p = none := dirOf_short (by omega)
      exact no rfl ⟨p, rest, hp, by simp [(hdir p).1 this]⟩
    rw [if_neg hl]
    cases hf : dirOf { s with reqId := id } p with
    | none => exact no rfl ⟨p, rest, hp, by simp [(hdir p).1 hf]⟩
    | some x =>
      refine yes ?_ ?_
      · dsimp only
        split
        · exact ans_some hr _ _ _ _ _
        · split <;> exact ans_some hr _ _ _ _ _
      · rintro ⟨p', rest', hp', hc'⟩
        rw [hp] at hp'; cases hp'
        simp only [← hdir, hf] at hc'
        simp at hc'
  have hu : handle E s type id body = recvUnknown E { s with reqId := id } id body := by
    unfold handle
    rw [if_neg h16, if_neg h15, if_neg h14, if_neg h17, if_neg h7, if_neg h8, if_neg h3, if_neg h5, if_neg h6, if_neg h4, if_neg h13, if_neg h18,
      if_neg h9, if_neg h10, if_neg h11, if_neg h12]
  rw [hu]
  refine ⟨_, recvUnknown_eq hE _ id body, ?_⟩
  rw [if_pos (by rw [show mem E unsupported = true from hr.alloc _]; rfl)]
  refine yes (fun h => nomatch h) ?_
  rintro ⟨p, rest, hp, hc⟩
  omega

end

/-! ## What does not hold, and cases -/

/-- OPENDIR of the jail. -/
def reqDir : Req := ⟨demo, 11, 8, encString (asc "/jail")⟩
def start2 : Sess := { start0 with dirs := [⟨5, asc "/jail", false, (0, 0)⟩], nextId := (1, 0), reqId := 8 }
def outDir : Out := ⟨none, start2, [.opendir (asc "/jail") (some 5)], some ((Reply.handle [0, 0, 0, 0, 0, 0, 0, 0]).packet 8)⟩
theorem dir_ok : handle demo start0 11 8 reqDir.body = some outDir := by decide +kernel
theorem reached2 : Reached (some jail) (some jail) [(reqDir, outDir)] start2 :=
  C58_start start0_fresh (.snoc (t := []) .nil demo_good (by decide) (by decide) dir_ok) (by decide)
theorem demo_rich : Rich demo := ⟨fun _ => rfl, rfl⟩

/-- C58 fails for READDIR: the jail is "/jail", the client opens it and lists it, and the server looks at "/" to tell the client the
owner, the permissions and the times of "..". -/
theorem C58_dotdot : (handle demo start2 12 9 (encString [0, 0, 0, 0, 0, 0, 0, 0])).map (·.calls) =
    some [.readdir 5 (some (asc "a")), .lstat (asc "/jail/a") none, .readdir 5 (some (asc "..")), .lstat (asc "/") none, .readdir 5 none] ∧
    ¬ Inside (some jail) demo.isLink (asc "/") := by
  refine ⟨by decide +kernel, ?_⟩
  rintro ⟨cs, hc, hf⟩
  have : cs = [] := by
    have h1 := components_render cs hc.2
    rw [← hc.1] at h1
    rw [← h1]
    decide
  subst this
  exact absurd (hf jail rfl).1.length_le (by decide)

/-- C61 fails: a directory has the entries "a", then one with a name of 255 bytes (Linux allows it), then "b". The reply is that there is
"a" and the next READDIR is told that this is all. -/
def long : Env := { demo with entries := [asc "a", List.replicate 255 120, asc "b"] }
theorem C61_truncated : (handle long start2 12 9 (encString [0, 0, 0, 0, 0, 0, 0, 0])).map (·.reply.bind decode) =
      some (some (9, .names [(asc "a", asc "a", {})])) ∧
    ((handle long start2 12 9 (encString [0, 0, 0, 0, 0, 0, 0, 0])).bind fun o =>
      (handle long o.st 12 10 (encString [0, 0, 0, 0, 0, 0, 0, 0])).map (·.reply.bind decode)) =
      some (some (10, .status 1 (asc "No More Files In Directory") (asc "English"))) := by decide +kernel

/-- C64 fails: READ of 32769 bytes from an open file; FSTAT and READDIR with a handle nobody was given. -/
theorem C64_silent :
    (handle demo start1 5 9 (encString [0, 0, 0, 0, 0, 0, 0, 0] ++ encUint64 0 ++ encUint32 32769)).map (·.reply) = some none ∧
    (handle demo start1 8 9 (encString [0, 0, 0, 0, 0, 0, 0, 1])).map (·.reply) = some none ∧
    (handle demo start1 12 9 (encString [0, 0, 0, 0, 0, 0, 0, 1])).map (·.reply) = some none := by decide +kernel

-- C57: a handle is given, closed, and stands for nothing
def reqClose : Req := ⟨demo, 4, 9, encString [0, 0, 0, 0, 0, 0, 0, 0]⟩
def outClose : Out := ⟨none, { start1 with files := [], reqId := 9 }, [.close 5 true], some ((Reply.status 0 (asc "Closed File") (asc "English")).packet 9)⟩
theorem reached3 : Reached (some jail) (some jail) ([(reqOpen, outOpen)] ++ [(reqClose, outClose)]) outClose.st :=
  C58_start start0_fresh (.snoc (t := [(reqOpen, outOpen)]) (.snoc (t := []) .nil demo_good (by decide) (by decide) open_ok) demo_good (by decide)
    (by decide) (by decide +kernel)) (by decide)
example : [0, 0, 0, 0, 0, 0, 0, 0] ∈ [(reqOpen, outOpen)].filterMap granted ∧ closing (reqClose, outClose) = some [0, 0, 0, 0, 0, 0, 0, 0] := by
  decide +kernel
example : held ([(reqOpen, outOpen)] ++ [(reqClose, outClose)]) [0, 0, 0, 0, 0, 0, 0, 0] = none :=
  (C57_dead reached3 (a := [(reqOpen, outOpen)]) (b := []) rfl (by decide +kernel) (by decide +kernel)).1
-- C58: a request whose path stays in the jail, and what `Inside` says of it
example : Inside (some jail) demo.isLink (asc "/jail/f") :=
  (C58_partial reached1 (reqOpen, outOpen) (by simp) (.stat (asc "/jail/f") none) (by simp [outOpen]) (asc "/jail/f") (by simp [paths]))
-- C59: a file system that writes at most 2 bytes at a time
example : (handle { demo with pwrites := fun _ n => min n 2 } start1 6 9
    (encString [0, 0, 0, 0, 0, 0, 0, 0] ++ encUint64 100 ++ encString (asc "abcde"))).map (fun o => (o.calls, o.reply.bind decode)) =
    some ([.pwrite 5 (asc "abcde") 100 2, .pwrite 5 (asc "cde") 102 2, .pwrite 5 (asc "e") 104 1],
      some (9, .status 0 (asc "Write File Success") (asc "English"))) := by decide +kernel
-- C61: a listing
example : granted (reqDir, outDir) = some [0, 0, 0, 0, 0, 0, 0, 0] ∧
    (handle demo start2 12 9 (encString [0, 0, 0, 0, 0, 0, 0, 0])).map (·.reply.bind decode) =
      some (some (9, .names [(asc "..", asc "..", {}), (asc "a", asc "a", {})])) := by decide +kernel
-- C64: requests that are answered
example : Parses 15 (encString (asc "x")) ∧ ¬ Silent [] (some jail) demo 15 (encString (asc "x")) := by
  refine ⟨⟨(asc "x", []), by decide⟩, ?_⟩
  rintro ⟨p, rest, _, hc⟩
  omega

end Props.Sftp
