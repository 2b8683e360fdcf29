import Verif.Proofs.SftpLeak
/-!
# The SFTP server: C55 - C61, C64, C65
-/

namespace Props.Sftp
open Wolf Wolf.Sftp Wolf.NameList Spec.Wire Spec.Sftp Spec.Path Proofs.Sftp

/-! ## A session -/

/-- An environment: new memory is full of 170. -/
def demo : Env :=
  { alloc := fun n => some (List.replicate n 170), node := true, stack := List.replicate 256 85, isLink := fun _ => false, cwd := some (asc "/home"),
    ok := true, ok2 := true, stat := fun _ => none, fstat := none, fd := some 5, pwrites := fun _ n => n, pread := fun n => some ((asc "hi").take n),
    entries := [asc "a", asc ".."], longName := fun n _ => some n }

theorem demo_good : Good demo where
  alloc := by intro n m h; cases h; simp
  stack := List.length_replicate
  cwd := by intro d h; cases h; decide
  pread := by intro n d h; cases h; simp; omega
  pwrites := by intro i n; exact Int.le_refl _
  entries := by decide
  few := by decide
  longName := by intro n a l h; cases h; omega

def jail : List Bytes := [asc "jail"]

def start0 : Sess := ⟨some (asc "/jail"), some (asc "/jail"), [], [], (0, 0), 0⟩

theorem start0_fresh : Fresh start0 (some jail) (some jail) where
  dirs := ⟨rfl, rfl, by intro cs h; cases h; unfold jail Spec.Path.Name; decide, by intro cs h; cases h; unfold jail Spec.Path.Name; decide⟩
  noFiles := rfl
  noDirs := rfl
  first := rfl

/-- OPEN "f" for writing, creating it. -/
def reqOpen : Req := ⟨demo, 3, 7, encString (asc "f") ++ encUint32 10 ++ encUint32 0⟩

def start1 : Sess := { start0 with files := [⟨5, asc "/jail/f", (0, 0)⟩], nextId := (1, 0), reqId := 7 }

def outOpen : Out :=
  ⟨none, start1, [.stat (asc "/jail/f") none, .open (asc "/jail/f") ⟨.wronly, false, true, false, false⟩ 0o644 (some 5)],
    some ((Reply.handle [0, 0, 0, 0, 0, 0, 0, 0]).packet 7)⟩

theorem open_ok : handle demo start0 3 7 reqOpen.body = some outOpen := by decide +kernel

/-- A session with an open file. -/
theorem reached1 : Reached (some jail) (some jail) [(reqOpen, outOpen)] start1 :=
  ⟨⟨start0, some jail, start0_fresh, .snoc (t := []) .nil demo_good (by decide) (by decide) open_ok⟩, by decide, ⟨start0_fresh.dirs.1, start0_fresh.dirs.2, start0_fresh.dirs.3, start0_fresh.dirs.4⟩⟩

theorem reached0 : Reached (some jail) (some jail) [] start0 := ⟨⟨start0, some jail, start0_fresh, .nil⟩, by decide, start0_fresh.dirs⟩

/-! ## Lemmas -/

section
variable {s : Sess} {d j : Option (List Bytes)} {t : List Event}

theorem inv (hR : Reached d j t s) : Inv j t.length s := let ⟨_, _, h0, h⟩ := hR.from_; trace_inv h0 h hR.few

theorem dirs' (hR : Reached d j t s) (id : Nat) : Dirs { s with reqId := id } d j := ⟨hR.dirs.1, hR.dirs.2, hR.dirs.3, hR.dirs.4⟩

theorem ids' (hR : Reached d j t s) (id : Nat) : Ids { s with reqId := id } :=
  let h := (inv hR).held.ids; ⟨h.files, h.dirs, h.next⟩

theorem says_ans {E : Env} (s : Sess) (calls : List Posix.Call) (id : Nat) (r : Reply) (ret : Option Err) : Says E (ans E s calls id r ret) id r := by
  unfold ans
  split
  · exact .inl rfl
  · rename_i h; exact .inr ⟨rfl, fun hr => h (hr.alloc _)⟩

theorem status_ans {E : Env} (s : Sess) (calls : List Posix.Call) (id c : Nat) (m : Bytes) (ret : Option Err) :
    Status E (ans E s calls id (said c m) ret) id c := ⟨m, english, says_ans ..⟩

theorem held_some (hR : Reached d j t s) {h : Bytes} {fd : Nat} (hh : held t h = some fd) : ∃ f, fileOf s h = some f ∧ f.fd = fd := by
  obtain ⟨_, _, h0, hT⟩ := hR.from_
  rw [← trace_files h0 hT hR.few, Option.map_eq_some_iff] at hh
  exact hh

theorem held_none (hR : Reached d j t s) {h : Bytes} (hh : held t h = none) : fileOf s h = none := by
  obtain ⟨_, _, h0, hT⟩ := hR.from_
  rw [← trace_files h0 hT hR.few, Option.map_eq_none_iff] at hh
  exact hh

theorem attrs_ofStat (st : Posix.Stat) : toAttrs (ofStat st) = attrsOf st := by
  unfold toAttrs ofStat attrsOf
  simp [Nat.testBit]
  omega
end

/-! ## C55: replies are well formed -/

/-- C55. Whatever requests a session had and whatever bytes follow the id of the next one, the handler comes to an end
without undefined behaviour; it sends nothing or one packet; the packet carries the id of the request, a client reads in it
exactly one reply, and the reply is a status or of the kind the request asks for. -/
theorem C55 {d j : Option (List Bytes)} {t : List Event} {s : Sess} (hR : Reached d j t s) (r : Req) (hE : Good r.E) (hid : r.id < 2 ^ 32)
    (hb : r.body.length < 2 ^ 32) :
    ∃ o, handle r.E s r.type r.id r.body = some o ∧
      (o.reply = none ∨ ∃ p rep, o.reply = some p ∧ decode p = some (r.id, rep) ∧ p = rep.packet r.id ∧ Kind r.type rep) := by
  obtain ⟨o, h1, h2⟩ := handle_shape (type := r.type) (id := r.id) hE hR.dirs (inv hR).held r.body hb
  refine ⟨o, h1, ?_⟩
  have key : Answers r.type r.id o.reply := by
    cases h2 with
    | tame _ _ _ h => exact h
    | opened ht => exact .inr ⟨.handle _, Or.inl ht, handle_fits _, rfl⟩
    | undone _ _ _ h => exact h
    | openedDir ht _ _ h =>
      rcases h with ⟨rfl, _⟩ | rfl
      · exact .inl rfl
      · exact .inr ⟨.handle _, Or.inr ht, handle_fits _, rfl⟩
    | undoneDir => exact .inl rfl
    | closed _ _ h => exact h
    | closedDir _ _ h => exact h
  rcases key with h | ⟨rep, hk, hf, h⟩
  · exact .inl h
  · exact .inr ⟨_, rep, h, decode_packet _ hid _ hf, rfl, hk⟩

-- a READ of the open file
example : (handle demo start1 5 9 (encString [0, 0, 0, 0, 0, 0, 0, 0] ++ encUint64 3 ++ encUint32 10)).map (·.reply.bind decode) =
    some (some (9, .data (asc "hi"))) ∧ Reached (some jail) (some jail) [(reqOpen, outOpen)] start1 := ⟨by decide +kernel, reached1⟩

/-! ## C65: replies do not depend on old contents of memory -/

/-- C65. A handler whose allocations and local arrays have other contents does exactly the same: the same calls, the same
reply, the same session. So no byte of a reply comes from old contents of memory. -/
theorem C65 {d j : Option (List Bytes)} {t : List Event} {s : Sess} (hR : Reached d j t s) (E : Env) (hE : Good E) (alloc : Nat → Option Bytes)
    (stack : Bytes) (hE' : Good { E with alloc := alloc, stack := stack }) (ha : ∀ n, (alloc n).isSome = (E.alloc n).isSome)
    (type id : Nat) (body : Bytes) (hb : body.length < 2 ^ 32) :
    handle { E with alloc := alloc, stack := stack } s type id body = handle E s type id body :=
  handle_other hE hE' ha hR.dirs (inv hR).held type id body hb

example : Good { demo with alloc := fun n => some (List.replicate n 1), stack := List.replicate 256 2 } where
  alloc := by intro n m h; cases h; simp
  stack := List.length_replicate
  cwd := demo_good.cwd
  pread := demo_good.pread
  pwrites := demo_good.pwrites
  entries := demo_good.entries
  few := demo_good.few
  longName := demo_good.longName

/-! ## C56: replies tell what happened -/

section
variable {d j : Option (List Bytes)} {t : List Event} {s : Sess}

/-- C56 for RMDIR (15). -/
theorem C56_rmdir (hR : Reached d j t s) {E : Env} (hE : Good E) (id : Nat) (body p rest : Bytes) (hb : body.length < 2 ^ 32)
    (hp : string body = some (p, rest)) :
    ∃ o, handle E s 15 id body = some o ∧ match verdict d j E.isLink p with
      | .admit cs => ∃ ok, o.calls = [.rmdir (render cs) ok] ∧ Status E o id (if ok then 0 else 4)
      | .deny => o.calls = [] ∧ Status E o id 3
      | .tooLong => o.calls = [] ∧ Status E o id 4 := by
  refine ⟨_, rmdir_eq hE (dirs' hR id) id body hb, ?_⟩
  rw [hp]
  dsimp only
  cases verdict d j E.isLink p with
  | deny => exact ⟨(ans_st ..).2, status_ans ..⟩
  | tooLong => exact ⟨(ans_st ..).2, status_ans ..⟩
  | admit cs =>
    dsimp only
    cases E.ok
    · exact ⟨false, (ans_st ..).2, status_ans ..⟩
    · exact ⟨true, (ans_st ..).2, status_ans ..⟩

/-- C56 for REMOVE (13). Longer paths than 256 bytes get no reply (C64). -/
theorem C56_remove (hR : Reached d j t s) {E : Env} (hE : Good E) (id : Nat) (body p rest : Bytes) (hb : body.length < 2 ^ 32)
    (hp : string body = some (p, rest)) :
    ∃ o, handle E s 13 id body = some o ∧ match verdict d j E.isLink p with
      | .admit cs => ∃ ok, o.calls = [.remove (render cs) ok] ∧ Status E o id (if ok then 0 else 4)
      | .deny => o.calls = [] ∧ Status E o id 3
      | .tooLong => o.calls = [] ∧ if p.length > 256 then o.reply = none else Status E o id 4 := by
  refine ⟨_, remove_eq hE (dirs' hR id) id body hb, ?_⟩
  rw [hp]
  dsimp only
  have hlen : ∀ v, verdict d j E.isLink p = v → v ≠ .tooLong → ¬ p.length > 256 := by
    intro v hv hne h
    unfold verdict at hv
    rw [if_neg (fun hs => by have := hs.1; omega)] at hv
    exact hne hv.symm
  cases hv : verdict d j E.isLink p with
  | deny => rw [if_neg (hlen _ hv (fun h => nomatch h))]; exact ⟨(ans_st ..).2, status_ans ..⟩
  | tooLong =>
    dsimp only
    by_cases h : p.length > 256
    · rw [if_pos h, if_pos h]; exact ⟨rfl, rfl⟩
    · rw [if_neg h, if_neg h]; exact ⟨(ans_st ..).2, status_ans ..⟩
  | admit cs =>
    rw [if_neg (hlen _ hv (fun h => nomatch h))]
    dsimp only
    cases E.ok
    · exact ⟨false, (ans_st ..).2, status_ans ..⟩
    · exact ⟨true, (ans_st ..).2, status_ans ..⟩

/-- C56 for MKDIR (14). The new directory gets the permission bits the client asked for, or 0755. -/
theorem C56_mkdir (hR : Reached d j t s) {E : Env} (hE : Good E) (id : Nat) (body p rest : Bytes) (a : Attrs) (rest' : Bytes)
    (hb : body.length < 2 ^ 32) (hp : string body = some (p, rest)) (ha : Spec.Sftp.attrs rest = some (a, rest')) :
    ∃ o, handle E s 14 id body = some o ∧ match verdict d j E.isLink p with
      | .admit cs => ∃ ok, o.calls = [.mkdir (render cs) (newMode 0o755 a) ok] ∧ Status E o id (if ok then 0 else 4)
      | .deny => o.calls = [] ∧ Status E o id 3
      | .tooLong => o.calls = [] ∧ o.reply = none := by
  refine ⟨_, mkdir_eq hE (dirs' hR id) id body hb, ?_⟩
  rw [hp]
  dsimp only
  cases verdict d j E.isLink p with
  | deny => exact ⟨(ans_st ..).2, status_ans ..⟩
  | tooLong => exact ⟨rfl, rfl⟩
  | admit cs =>
    dsimp only
    rw [ha]
    dsimp only
    cases E.ok
    · exact ⟨false, (ans_st ..).2, status_ans ..⟩
    · exact ⟨true, (ans_st ..).2, status_ans ..⟩

/-- C56 for RENAME (18). -/
theorem C56_rename (hR : Reached d j t s) {E : Env} (hE : Good E) (id : Nat) (body p rest q rest' : Bytes)
    (hb : body.length < 2 ^ 32) (hp : string body = some (p, rest)) (hq : string rest = some (q, rest')) :
    ∃ o, handle E s 18 id body = some o ∧ match verdict d j E.isLink p, verdict d j E.isLink q with
      | .admit cs, .admit cs' => ∃ ok, o.calls = [.rename (render cs) (render cs') ok] ∧ Status E o id (if ok then 0 else 4)
      | .deny, _ => o.calls = [] ∧ Status E o id 3
      | .admit _, .deny => o.calls = [] ∧ Status E o id 3
      | _, _ => o.calls = [] ∧ Status E o id 4 := by
  refine ⟨_, rename_eq hE (dirs' hR id) id body hb, ?_⟩
  rw [hp]
  dsimp only
  cases verdict d j E.isLink p with
  | deny => exact ⟨(ans_st ..).2, status_ans ..⟩
  | tooLong => exact ⟨(ans_st ..).2, status_ans ..⟩
  | admit cs =>
    dsimp only
    rw [hq]
    dsimp only
    cases verdict d j E.isLink q with
    | deny => exact ⟨(ans_st ..).2, status_ans ..⟩
    | tooLong => exact ⟨(ans_st ..).2, status_ans ..⟩
    | admit cs' =>
      dsimp only
      cases E.ok
      · exact ⟨false, (ans_st ..).2, status_ans ..⟩
      · exact ⟨true, (ans_st ..).2, status_ans ..⟩

theorem says_stat {E : Env} (s : Sess) (id : Nat) (calls : List Posix.Call) (res : Option Posix.Stat) (m : Bytes) :
    (statAns E s id calls res m).calls = calls ∧ match res with
      | some st => Says E (statAns E s id calls res m) id (.attrs (attrsOf st))
      | none => Status E (statAns E s id calls res m) id 4 := by
  unfold statAns
  cases res with
  | none => exact ⟨(ans_st ..).2, status_ans ..⟩
  | some st => exact ⟨(ans_st ..).2, by dsimp only; rw [attrs_ofStat]; exact says_ans ..⟩

/-- C56 for STAT (17) and LSTAT (7): the reply has the size, owner, permissions and times the system call delivered. -/
theorem C56_stat (hR : Reached d j t s) {E : Env} (hE : Good E) (link : Bool) (id : Nat) (body p rest : Bytes) (hb : body.length < 2 ^ 32)
    (hp : string body = some (p, rest)) :
    ∃ o, handle E s (if link then 7 else 17) id body = some o ∧ match verdict d j E.isLink p with
      | .admit cs => ∃ res, o.calls = [if link then .lstat (render cs) res else .stat (render cs) res] ∧ match res with
        | some st => Says E o id (.attrs (attrsOf st))
        | none => Status E o id 4
      | .deny => o.calls = [] ∧ Status E o id 3
      | .tooLong => o.calls = [] ∧ Status E o id 4 := by
  have h1 : handle E s (if link then 7 else 17) id body = recvStat link E { s with reqId := id } id body body.length := by cases link <;> rfl
  rw [h1]
  refine ⟨_, stat_eq hE (dirs' hR id) link id body hb, ?_⟩
  rw [hp]
  dsimp only
  cases verdict d j E.isLink p with
  | deny => exact ⟨(ans_st ..).2, status_ans ..⟩
  | tooLong => exact ⟨(ans_st ..).2, status_ans ..⟩
  | admit cs =>
    cases link
    · exact ⟨E.stat (render cs), says_stat ..⟩
    · exact ⟨E.stat (render cs), says_stat ..⟩

/-- C56 for FSTAT (8) of an open handle. -/
theorem C56_fstat (hR : Reached d j t s) {E : Env} (hE : Good E) (id : Nat) (body h rest : Bytes) (fd : Nat) (hb : body.length < 2 ^ 32)
    (hp : string body = some (h, rest)) (hh : held t h = some fd) :
    ∃ o, handle E s 8 id body = some o ∧ ∃ res, o.calls = [.fstat fd res] ∧ match res with
        | some st => Says E o id (.attrs (attrsOf st))
        | none => Status E o id 4 := by
  obtain ⟨f, hf, rfl⟩ := held_some hR hh
  refine ⟨_, fstat_eq hE (ids' hR id) id body hb, ?_⟩
  rw [hp]
  dsimp only
  rw [show fileOf { s with reqId := id } h = some f from hf]
  exact ⟨E.fstat, says_stat ..⟩

theorem says_set {E : Env} (s : Sess) (id : Nat) (rest : Bytes) (chmod : Nat → Bool → Posix.Call) (a : Attrs) (r : Bytes)
    (ha : Spec.Sftp.attrs rest = some (a, r)) : match a.perm with
      | some m => ∃ ok, (setAns E s id rest chmod).calls = [chmod (m &&& 0o777) ok] ∧ Status E (setAns E s id rest chmod) id (if ok then 0 else 4)
      | none => (setAns E s id rest chmod).calls = [] ∧ Status E (setAns E s id rest chmod) id 0 := by
  unfold setAns
  rw [ha]
  dsimp only
  cases a.perm with
  | none => exact ⟨(ans_st ..).2, status_ans ..⟩
  | some m =>
    dsimp only
    cases E.ok
    · exact ⟨false, (ans_st ..).2, status_ans ..⟩
    · exact ⟨true, (ans_st ..).2, status_ans ..⟩

/-- C56 for SETSTAT (9), the part that holds: the permission bits are set if they are there. Missing: a size, owner or
times in the request are not applied and the reply is OK all the same (`C56_setstat_lie`). -/
theorem C56_setstat_partial (hR : Reached d j t s) {E : Env} (hE : Good E) (id : Nat) (body p rest : Bytes) (a : Attrs) (rest' : Bytes)
    (hb : body.length < 2 ^ 32) (hp : string body = some (p, rest)) (ha : Spec.Sftp.attrs rest = some (a, rest')) :
    ∃ o, handle E s 9 id body = some o ∧ match verdict d j E.isLink p with
      | .admit cs => (match a.perm with
        | some m => ∃ ok, o.calls = [.chmod (render cs) (m &&& 0o777) ok] ∧ Status E o id (if ok then 0 else 4)
        | none => o.calls = [] ∧ Status E o id 0)
      | .deny => o.calls = [] ∧ Status E o id 3
      | .tooLong => o.calls = [] ∧ Status E o id 4 := by
  refine ⟨_, setstat_eq hE (dirs' hR id) id body hb, ?_⟩
  rw [hp]
  dsimp only
  cases verdict d j E.isLink p with
  | deny => exact ⟨(ans_st ..).2, status_ans ..⟩
  | tooLong => exact ⟨(ans_st ..).2, status_ans ..⟩
  | admit cs => exact says_set (E := E) _ _ _ (.chmod (render cs)) a rest' ha

/-- C56 for FSETSTAT (10) of an open handle, the part that holds (as above). -/
theorem C56_fsetstat_partial (hR : Reached d j t s) {E : Env} (hE : Good E) (id : Nat) (body h rest : Bytes) (a : Attrs) (rest' : Bytes) (fd : Nat)
    (hb : body.length < 2 ^ 32) (hp : string body = some (h, rest)) (ha : Spec.Sftp.attrs rest = some (a, rest')) (hh : held t h = some fd) :
    ∃ o, handle E s 10 id body = some o ∧ match a.perm with
        | some m => ∃ ok, o.calls = [.fchmod fd (m &&& 0o777) ok] ∧ Status E o id (if ok then 0 else 4)
        | none => o.calls = [] ∧ Status E o id 0 := by
  obtain ⟨f, hf, rfl⟩ := held_some hR hh
  refine ⟨_, fsetstat_eq hE (ids' hR id) id body hb, ?_⟩
  rw [hp]
  dsimp only
  rw [show fileOf { s with reqId := id } h = some f from hf]
  exact says_set (E := E) _ _ _ (.fchmod f.fd) a rest' ha

/-- C56 for CLOSE (4): the handle of a file. Success means that `close` succeeded. -/
theorem C56_close (hR : Reached d j t s) {E : Env} (hE : Good E) (id : Nat) (body h rest : Bytes) (fd : Nat) (hb : body.length < 2 ^ 32)
    (hp : string body = some (h, rest)) (hh : held t h = some fd) :
    ∃ o, handle E s 4 id body = some o ∧ ∃ ok, o.calls = [.close fd ok] ∧ Status E o id (if ok then 0 else 4) := by
  obtain ⟨f, hf, rfl⟩ := held_some hR hh
  refine ⟨_, close_eq hE (ids' hR id) id body hb, ?_⟩
  rw [hp]
  dsimp only
  have h8 : h.length = 8 := by
    by_cases h8 : h.length = 8
    · exact h8
    · rw [fileOf_short h8] at hf; cases hf
  rw [if_neg (by omega), show fileOf { s with reqId := id } h = some f from hf]
  have hd : dirOf { s with reqId := id } h = none := by
    cases hd : dirOf { s with reqId := id } h with
    | none => rfl
    | some g => exact absurd (disjoint (inv hR) hf hd) _root_.id
  rw [hd]
  dsimp only
  cases E.ok
  · exact ⟨false, (ans_st ..).2, status_ans ..⟩
  · exact ⟨true, (ans_st ..).2, status_ans ..⟩

/-- C56 for a handle that is not open: WRITE, READ, CLOSE and FSETSTAT fail and touch nothing. -/
theorem C56_no_handle (hR : Reached d j t s) {E : Env} (hE : Good E) (type id : Nat) (body h rest : Bytes) (hb : body.length < 2 ^ 32)
    (ht : type = 4 ∧ dirOf s h = none ∧ h.length ≤ 256 ∨ type = 5 ∨ type = 6 ∨ type = 10)
    (hp : string body = some (h, rest)) (hh : held t h = none) :
    ∃ o, handle E s type id body = some o ∧ o.calls = [] ∧ Status E o id 4 := by
  have hf : fileOf { s with reqId := id } h = none := held_none hR hh
  rcases ht with ⟨rfl, hd, hl⟩ | rfl | rfl | rfl
  · refine ⟨_, close_eq hE (ids' hR id) id body hb, ?_⟩
    rw [hp]
    dsimp only
    rw [if_neg (by omega), show dirOf { s with reqId := id } h = none from hd, hf]
    exact ⟨(ans_st ..).2, status_ans ..⟩
  · refine ⟨_, read_eq hE (ids' hR id) id rfl body hb, ?_⟩
    rw [hp]
    dsimp only
    rw [hf]
    exact ⟨(ans_st ..).2, status_ans ..⟩
  · refine ⟨_, write_eq hE (ids' hR id) id body hb, ?_⟩
    rw [hp]
    dsimp only
    rw [hf]
    exact ⟨(ans_st ..).2, status_ans ..⟩
  · refine ⟨_, fsetstat_eq hE (ids' hR id) id body hb, ?_⟩
    rw [hp]
    dsimp only
    rw [hf]
    exact ⟨(ans_st ..).2, status_ans ..⟩
end

/-- C56 fails for SETSTAT: a client asks to truncate a file to 0 bytes, nothing is done, and the reply is OK. -/
theorem C56_setstat_lie : (handle demo start0 9 7 (encString (asc "f") ++ encAttrs { size := some 0 })).map
    (fun o => (o.calls, o.reply.bind decode)) = some ([], some (7, .status 0 (asc "Set Attributes") (asc "English"))) := by decide +kernel

-- a directory is removed; one outside the jail is not
example : (handle demo start0 15 7 (encString (asc "x/../y"))).map (fun o => (o.calls, (o.reply.bind decode).map (·.1))) =
    some ([.rmdir (asc "/jail/y") true], some 7) ∧
    (handle demo start0 15 7 (encString (asc "../etc"))).map (fun o => (o.calls, o.reply.bind decode)) =
      some ([], some (7, .status 3 (asc "Permission denied") (asc "English"))) := by decide +kernel
example : string (encString (asc "x/../y")) = some (asc "x/../y", []) := by decide
-- the handle of the file that was opened
example : held [(reqOpen, outOpen)] [0, 0, 0, 0, 0, 0, 0, 0] = some 5 ∧ held [(reqOpen, outOpen)] [0, 0, 0, 0, 0, 0, 0, 1] = none := by decide +kernel

end Props.Sftp
