import Verif.Proofs.SftpMore
/-! What each handler does, in the terms of the specification. -/

namespace Proofs.Sftp
open Wolf Wolf.Wire Wolf.Buffer Wolf.Sftp Wolf.NameList Spec.Wire Spec.Sftp Spec.Path Proofs.Exchange Props.Wire

theorem msgFrom_zero (m : Bytes) : msgFrom m m.length 0 = m := by simp [msgFrom]

theorem str0 (data : Bytes) (hw : data.length < 2 ^ 32) :
    (∃ e i, getStr data data.length 0 = .err e i ∧ string data = none) ∨
    (∃ v i, getStr data data.length 0 = .ok v i ∧ i ≤ data.length ∧ string data = some (v, msgFrom data data.length i)) := by
  have := getStr_cases (mem' := data) 0 (Nat.le_refl _) hw
  rwa [msgFrom_zero] at this

/-- Status replies. -/
def said (code : Nat) (m : Bytes) : Reply := .status code m english

variable {E : Env} {s : Sess} {d j : Option (List Bytes)}

theorem finish' (hE : Good E) (s : Sess) (calls : List Posix.Call) (st id : Nat) (msg : Bytes) (ret : Option Err)
    (hm : msg.length < 1000) : finish E s calls st id msg ret = some (ans E s calls id (said st msg) ret) := finish_eq hE s calls st id msg ret hm

/-- A refusal. -/
def denied (E : Env) (s : Sess) (id : Nat) : Out := ans E s [] id (said 3 (asc "Permission denied")) (some .badFile)

theorem rmdir_eq (hE : Good E) (hs : Dirs s d j) (id : Nat) (data : Bytes) (hw : data.length < 2 ^ 32) :
    recvRmdir E s id data data.length = some (match string data with
      | none => stop s .bufferE
      | some (p, _) => match verdict d j E.isLink p with
        | .admit cs => if E.ok then ans E s [.rmdir (render cs) true] id (said 0 (asc "Removed Directory")) none
          else ans E s [.rmdir (render cs) false] id (said 4 (asc "Remove Directory Error")) (some .badFile)
        | .deny => denied E s id
        | .tooLong => ans E s [] id (said 4 (asc "Remove Directory Error")) (some .badFile)) := by
  unfold recvRmdir denied
  rcases str0 data hw with ⟨e, i, h1, h2⟩ | ⟨p, i, h1, h2, h3⟩
  · simp only [h1, h2]
  · simp only [h1, h3, clean_eq hE hs]
    cases hv : verdict d j E.isLink p with
    | admit cs =>
      simp only
      rw [finish' hE _ _ _ _ _ _ (by decide), finish' hE _ _ _ _ _ _ (by decide)]
      cases E.ok <;> rfl
    | deny => simp only [if_true]; exact finish' hE _ _ _ _ _ _ (by decide)
    | tooLong => simp only [if_neg (longErr_ne p)]; exact finish' hE _ _ _ _ _ _ (by decide)

theorem mkdirMode_eq (a : Attr) : mkdirMode a = newMode 0o755 (toAttrs a) := by
  unfold mkdirMode newMode toAttrs safeMode
  cases a.flags.testBit 2 <;> simp

theorem openMode_eq (a : Attr) : openMode a = newMode 0o644 (toAttrs a) := by
  unfold openMode newMode toAttrs safeMode
  cases a.flags.testBit 2 <;> simp

theorem newMode_lt (n : Nat) (a : Attrs) : newMode n a < 512 := by
  unfold newMode
  exact Nat.lt_of_le_of_lt Nat.and_le_right (by decide)

theorem mkdir_eq (hE : Good E) (hs : Dirs s d j) (id : Nat) (data : Bytes) (hw : data.length < 2 ^ 32) :
    recvMkdir E s id data data.length = some (match string data with
      | none => stop s .bufferE
      | some (p, rest) => match verdict d j E.isLink p with
        | .admit cs => match attrs rest with
          | none => stop s .bufferE
          | some (a, _) =>
            if E.ok then ans E s [.mkdir (render cs) (newMode 0o755 a) true] id (said 0 (asc "Created Directory")) none
            else ans E s [.mkdir (render cs) (newMode 0o755 a) false] id (said 4 (asc "Create Directory Error")) (some .badFile)
        | .deny => denied E s id
        | .tooLong => stop s (longErr p)) := by
  unfold recvMkdir denied
  rcases str0 data hw with ⟨e, i, h1, h2⟩ | ⟨p, i, h1, h2, h3⟩
  · simp only [h1, h2]
  · simp only [h1, h3, clean_eq hE hs]
    cases hv : verdict d j E.isLink p with
    | admit cs =>
      simp only
      rcases parseAttributes_cases (mem' := data) i (Nat.le_refl _) hw with ⟨e, k, g1, g2⟩ | ⟨a, k, g1, g2, g3, g4⟩
      · simp only [g1, g2]
      · simp only [g1, g4]
        rw [finish' hE _ _ _ _ _ _ (by decide), finish' hE _ _ _ _ _ _ (by decide), mkdirMode_eq]
        cases E.ok <;> rfl
    | deny => simp only [if_true]; exact finish' hE _ _ _ _ _ _ (by decide)
    | tooLong => simp only [if_neg (longErr_ne p)]

theorem remove_eq (hE : Good E) (hs : Dirs s d j) (id : Nat) (data : Bytes) (hw : data.length < 2 ^ 32) :
    recvRemove E s id data data.length = some (match string data with
      | none => stop s .bufferE
      | some (p, _) => if p.length > 256 then stop s .bufferE else match verdict d j E.isLink p with
        | .admit cs => if E.ok then ans E s [.remove (render cs) true] id (said 0 (asc "Removed File")) none
          else ans E s [.remove (render cs) false] id (said 4 (asc "Remove File Error")) (some .badFile)
        | .deny => denied E s id
        | .tooLong => ans E s [] id (said 4 (asc "Remove File Error")) (some (longErr p))) := by
  unfold recvRemove denied
  rcases str0 data hw with ⟨e, i, h1, h2⟩ | ⟨p, i, h1, h2, h3⟩
  · simp only [h1, h2]
  · simp only [h1, h3, clean_eq hE hs, show Path.MAX_FILENAME = 256 from rfl]
    by_cases hp : p.length > 256
    · rw [if_pos hp, if_pos hp]
    rw [if_neg hp, if_neg hp]
    cases hv : verdict d j E.isLink p with
    | admit cs =>
      simp only
      rw [finish' hE _ _ _ _ _ _ (by decide), finish' hE _ _ _ _ _ _ (by decide)]
      cases E.ok <;> rfl
    | deny => simp only [if_true]; exact finish' hE _ _ _ _ _ _ (by decide)
    | tooLong => simp only [if_neg (longErr_ne p)]; exact finish' hE _ _ _ _ _ _ (by decide)

theorem renameFail_deny (hE : Good E) (id : Nat) : renameFail E s id .permissions = some (denied E s id) := by
  unfold renameFail denied
  rw [if_pos rfl]; exact finish' hE _ _ _ _ _ _ (by decide)

/-- A rename that did not take place. -/
def notRenamed (E : Env) (s : Sess) (id : Nat) (e : Err) : Out := ans E s [] id (said 4 (asc "Rename File Error")) (some e)

theorem renameFail_other (hE : Good E) (id : Nat) {e : Err} (h : e ≠ .permissions) : renameFail E s id e = some (notRenamed E s id e) := by
  unfold renameFail notRenamed
  rw [if_neg h]; exact finish' hE _ _ _ _ _ _ (by decide)

theorem rename_eq (hE : Good E) (hs : Dirs s d j) (id : Nat) (data : Bytes) (hw : data.length < 2 ^ 32) :
    recvRename E s id data data.length = some (match string data with
      | none => notRenamed E s id .bufferE
      | some (p, rest) => match verdict d j E.isLink p with
        | .deny => denied E s id
        | .tooLong => notRenamed E s id (longErr p)
        | .admit cs => match string rest with
          | none => notRenamed E s id .bufferE
          | some (q, _) => match verdict d j E.isLink q with
            | .deny => denied E s id
            | .tooLong => notRenamed E s id (longErr q)
            | .admit cs' =>
              if E.ok then ans E s [.rename (render cs) (render cs') true] id (said 0 (asc "Renamed File")) none
              else ans E s [.rename (render cs) (render cs') false] id (said 4 (asc "Rename File Error")) (some .badFile)) := by
  unfold recvRename
  rcases str0 data hw with ⟨e, i, h1, h2⟩ | ⟨p, i, h1, h2, h3⟩
  · simp only [h1, h2]; exact renameFail_other hE id (by decide)
  · simp only [h1, h3, clean_eq hE hs]
    cases hv : verdict d j E.isLink p with
    | deny => exact renameFail_deny hE id
    | tooLong => exact renameFail_other hE id (longErr_ne p)
    | admit cs =>
      simp only
      rcases getStr_cases (mem' := data) i (Nat.le_refl _) hw with ⟨e, k, g1, g2⟩ | ⟨q, k, g1, g2, g3⟩
      · simp only [g1, g2]; exact renameFail_other hE id (by decide)
      · simp only [g1, g3]
        cases hv' : verdict d j E.isLink q with
        | deny => exact renameFail_deny hE id
        | tooLong => exact renameFail_other hE id (longErr_ne q)
        | admit cs' =>
          simp only
          rw [finish' hE _ _ _ _ _ _ (by decide), finish' hE _ _ _ _ _ _ (by decide)]
          cases E.ok <;> rfl

/-- The answer to STAT, LSTAT and FSTAT. -/
def statAns (E : Env) (s : Sess) (id : Nat) (calls : List Posix.Call) (res : Option Posix.Stat) (msg : Bytes) : Out :=
  match res with
  | none => ans E s calls id (said 4 msg) (some .badFile)
  | some st => ans E s calls id (.attrs (toAttrs (ofStat st))) none

theorem answerStat_eq (hE : Good E) (id : Nat) (calls : List Posix.Call) (res : Option Posix.Stat) (msg : Bytes) (hm : msg.length < 1000) :
    answerStat E s id calls res msg = some (statAns E s id calls res msg) := by
  unfold answerStat statAns
  cases res with
  | none => exact finish' hE _ _ _ _ _ _ hm
  | some st =>
    simp only [newAttrs_eq hE id (ofStat st) (.inr ⟨st, rfl⟩), fresh, ans]
    cases mem E (.attrs (toAttrs (ofStat st))) <;> rfl

theorem stat_eq (hE : Good E) (hs : Dirs s d j) (link : Bool) (id : Nat) (data : Bytes) (hw : data.length < 2 ^ 32) :
    recvStat link E s id data data.length = some (match string data with
      | none => stop s .bufferE
      | some (p, _) => match verdict d j E.isLink p with
        | .admit cs => if link then statAns E s id [.lstat (render cs) (E.stat (render cs))] (E.stat (render cs)) (asc "LSTAT error")
          else statAns E s id [.stat (render cs) (E.stat (render cs))] (E.stat (render cs)) (asc "STAT error")
        | .deny => denied E s id
        | .tooLong => ans E s [] id (said 4 (if link then asc "LSTAT error" else asc "STAT error")) (some .badFile)) := by
  unfold recvStat denied
  rcases str0 data hw with ⟨e, i, h1, h2⟩ | ⟨p, i, h1, h2, h3⟩
  · simp only [h1, h2]
  · simp only [h1, h3, clean_eq hE hs]
    cases hv : verdict d j E.isLink p with
    | admit cs =>
      simp only
      rw [answerStat_eq hE _ _ _ _ (by decide), answerStat_eq hE _ _ _ _ (by decide)]
      cases link <;> rfl
    | deny => simp only [if_true]; exact finish' hE _ _ _ _ _ _ (by decide)
    | tooLong => simp only [if_neg (longErr_ne p)]; exact finish' hE _ _ _ _ _ _ (by cases link <;> decide)

/-- The result of SETSTAT and FSETSTAT with the object found. -/
def setAns (E : Env) (s : Sess) (id : Nat) (rest : Bytes) (chmod : Nat → Bool → Posix.Call) : Out :=
  match attrs rest with
  | none => ans E s [] id (said 4 (asc "Unable to parse attributes error")) (some .badFile)
  | some (a, _) => match a.perm with
    | none => ans E s [] id (said 0 (asc "Set Attributes")) none
    | some m => if E.ok then ans E s [chmod (m &&& 0o777) true] id (said 0 (asc "Set Attributes")) none
      else ans E s [chmod (m &&& 0o777) false] id (said 4 (asc "Unable to set attributes error")) (some .badFile)

theorem setStat_eq (hE : Good E) (id : Nat) (data : Bytes) (i : Nat) (chmod : Nat → Bool → Posix.Call) (hw : data.length < 2 ^ 32) :
    setStat E s id data data.length i chmod = some (setAns E s id (msgFrom data data.length i) chmod) := by
  unfold setStat setAns setAttrCalls safeMode
  rcases parseAttributes_cases (mem' := data) i (Nat.le_refl _) hw with ⟨e, k, g1, g2⟩ | ⟨a, k, g1, g2, g3, g4⟩
  · simp only [g1, g2]; exact finish' hE _ _ _ _ _ _ (by decide)
  · simp only [g1, g4, toAttrs]
    cases a.flags.testBit 2 with
    | false => simp only [Bool.false_eq_true, if_false, if_true]; exact finish' hE _ _ _ _ _ _ (by decide)
    | true =>
      simp only [if_true]
      rw [finish' hE _ _ _ _ _ _ (by decide), finish' hE _ _ _ _ _ _ (by decide)]
      cases E.ok <;> rfl

theorem setstat_eq (hE : Good E) (hs : Dirs s d j) (id : Nat) (data : Bytes) (hw : data.length < 2 ^ 32) :
    recvSetStat E s id data data.length = some (match string data with
      | none => stop s .bufferE
      | some (p, rest) => match verdict d j E.isLink p with
        | .admit cs => setAns E s id rest (.chmod (render cs))
        | .deny => denied E s id
        | .tooLong => ans E s [] id (said 4 (asc "Unable to set attributes error")) (some .badFile)) := by
  unfold recvSetStat denied
  rcases str0 data hw with ⟨e, i, h1, h2⟩ | ⟨p, i, h1, h2, h3⟩
  · simp only [h1, h2]
  · simp only [h1, h3, clean_eq hE hs]
    cases hv : verdict d j E.isLink p with
    | admit cs => exact setStat_eq hE id data i _ hw
    | deny => simp only [if_true]; exact finish' hE _ _ _ _ _ _ (by decide)
    | tooLong => simp only [if_neg (longErr_ne p)]; exact finish' hE _ _ _ _ _ _ (by decide)

/-! ## Handles -/

theorem encodeId_length (i : Nat × Nat) : (encodeId i).length = 8 := rfl

theorem encUint32_inj {a b : Nat} (ha : a < 2 ^ 32) (hb : b < 2 ^ 32) (h : encUint32 a = encUint32 b) : a = b := by
  have := congrArg beNat h
  rwa [beNat_encUint32 _ ha, beNat_encUint32 _ hb] at this

theorem encodeId_inj {a b : Nat × Nat} (ha : Id a) (hb : Id b) (h : encodeId a = encodeId b) : a = b := by
  rw [encodeId_eq, encodeId_eq] at h
  obtain ⟨h1, h2⟩ := List.append_inj h (by rw [enc32_length, enc32_length])
  exact Prod.ext (encUint32_inj ha.1 hb.1 h1) (encUint32_inj ha.2 hb.2 h2)

theorem decodeId_some {h : Bytes} (hl : h.length = 8) : ∃ id, decodeId h = some id ∧ Id id ∧ encodeId id = h := by
  match h, hl with
  | [a, b, c, e, f, g, i, k], _ =>
    have h1 : beNat [a, b, c, e] < 2 ^ 32 := by simpa using beNat_lt [a, b, c, e]
    have h2 : beNat [f, g, i, k] < 2 ^ 32 := by simpa using beNat_lt [f, g, i, k]
    refine ⟨_, rfl, ⟨?_, ?_⟩, ?_⟩
    · rw [ato32_beNat]; exact h1
    · show ato32 f g i k < _
      rw [ato32_beNat]; exact h2
    · rw [encodeId_eq]
      simp only [ato32_beNat]
      have e1 : encUint32 (beNat [a, b, c, e]) = [a, b, c, e] := beNat_inj _ _ rfl (beNat_encUint32 _ h1)
      have e2 : encUint32 (beNat [f, g, i, k]) = [f, g, i, k] := beNat_inj _ _ rfl (beNat_encUint32 _ h2)
      rw [e1, e2]
      rfl

theorem id_iff {i : Nat × Nat} {h : Bytes} {id : Nat × Nat} (hi : Id i) (hid : Id id) (he : encodeId id = h) : i = id ↔ encodeId i = h :=
  ⟨fun h' => by rw [h', he], fun h' => encodeId_inj hi hid (by rw [h', he])⟩

theorem find_congr {α : Type} {p q : α → Bool} : ∀ (l : List α), (∀ x ∈ l, p x = q x) → l.find? p = l.find? q
  | [], _ => rfl
  | x :: l, h => by
    simp only [List.find?_cons, h x (by simp)]
    rw [find_congr l fun y hy => h y (by simp [hy])]

theorem eraseP_congr {α : Type} {p q : α → Bool} : ∀ (l : List α), (∀ x ∈ l, p x = q x) → l.eraseP p = l.eraseP q
  | [], _ => rfl
  | x :: l, h => by
    simp only [List.eraseP_cons, h x (by simp)]
    rw [eraseP_congr l fun y hy => h y (by simp [hy])]

theorem findFile_eq (hi : Ids s) {h : Bytes} {id : Nat × Nat} (hid : Id id) (he : encodeId id = h) : findFile s id = fileOf s h :=
  find_congr _ fun f hf => by rw [decide_eq_decide]; exact id_iff (hi.files f hf) hid he

theorem findDir_eq (hi : Ids s) {h : Bytes} {id : Nat × Nat} (hid : Id id) (he : encodeId id = h) :
    (s.dirs.find? fun d => decide (d.id = id)) = dirOf s h :=
  find_congr _ fun f hf => by rw [decide_eq_decide]; exact id_iff (hi.dirs f hf) hid he

theorem fileOf_short {h : Bytes} (hl : h.length ≠ 8) : fileOf s h = none := by
  unfold fileOf
  rw [List.find?_eq_none]
  intro f _ hf
  rw [decide_eq_true_eq] at hf
  exact hl (by rw [← hf, encodeId_length])

theorem dirOf_short {h : Bytes} (hl : h.length ≠ 8) : dirOf s h = none := by
  unfold dirOf
  rw [List.find?_eq_none]
  intro f _ hf
  rw [decide_eq_true_eq] at hf
  exact hl (by rw [← hf, encodeId_length])

theorem fstat_eq (hE : Good E) (hi : Ids s) (id : Nat) (data : Bytes) (hw : data.length < 2 ^ 32) :
    recvFstat E s id data data.length = some (match string data with
      | none => stop s .bufferE
      | some (h, _) => match fileOf s h with
        | none => stop s .badFile
        | some f => statAns E s id [.fstat f.fd E.fstat] E.fstat (asc "STAT error")) := by
  unfold recvFstat
  rcases str0 data hw with ⟨e, i, h1, h2⟩ | ⟨h, i, h1, h2, h3⟩
  · simp only [h1, h2]
  · simp only [h1, h3]
    by_cases hl : h.length = 8
    · rw [if_neg (by rw [hl]; decide)]
      obtain ⟨hid, e1, e2, e3⟩ := decodeId_some hl
      simp only [e1, findFile_eq hi e2 e3]
      cases fileOf s h with
      | none => rfl
      | some f => exact answerStat_eq hE _ _ _ _ (by decide)
    · rw [if_pos (show h.length ≠ HANDLE_ID_SZ from hl), fileOf_short hl]

theorem fsetstat_eq (hE : Good E) (hi : Ids s) (id : Nat) (data : Bytes) (hw : data.length < 2 ^ 32) :
    recvFsetStat E s id data data.length = some (match string data with
      | none => stop s .bufferE
      | some (h, rest) => match fileOf s h with
        | none => ans E s [] id (said 4 (asc "Unable to set attributes error")) (some .badFile)
        | some f => setAns E s id rest (.fchmod f.fd)) := by
  unfold recvFsetStat
  rcases str0 data hw with ⟨e, i, h1, h2⟩ | ⟨h, i, h1, h2, h3⟩
  · simp only [h1, h2]
  · simp only [h1, h3]
    by_cases hl : h.length = 8
    · rw [if_neg (by rw [hl]; decide)]
      obtain ⟨hid, e1, e2, e3⟩ := decodeId_some hl
      simp only [e1, findFile_eq hi e2 e3]
      cases fileOf s h with
      | none => exact finish' hE _ _ _ _ _ _ (by decide)
      | some f => exact setStat_eq hE id data i _ hw
    · rw [if_pos (show h.length ≠ HANDLE_ID_SZ from hl), fileOf_short hl]; exact finish' hE _ _ _ _ _ _ (by decide)

/-- The next id. -/
def succId (i : Nat × Nat) : Nat × Nat := Path.addAssign64 i 1

/-- The session with one more file, directory. -/
def addFile (s : Sess) (fd : Nat) (name : Bytes) : Sess :=
  { s with nextId := succId s.nextId, files := ⟨fd, name, s.nextId⟩ :: s.files }
def addDir (s : Sess) (dir : Nat) (name : Bytes) : Sess :=
  { s with nextId := succId s.nextId, dirs := ⟨dir, name, false, s.nextId⟩ :: s.dirs }

/-- The session with one id used up. -/
def skipId (s : Sess) : Sess := { s with nextId := succId s.nextId }

/-- The session without a file, without a directory. -/
def dropFile (s : Sess) (h : Bytes) : Sess := { s with files := s.files.eraseP fun f => decide (encodeId f.id = h) }
def dropDir (s : Sess) (h : Bytes) : Sess := { s with dirs := s.dirs.eraseP fun f => decide (encodeId f.id = h) }

theorem removeFile_eq (hi : Ids s) {h : Bytes} {id : Nat × Nat} (hid : Id id) (he : encodeId id = h) : removeFile s id = dropFile s h := by
  unfold removeFile dropFile
  rw [eraseP_congr s.files (q := fun f => decide (encodeId f.id = h))
    (fun f hf => by rw [decide_eq_decide]; exact id_iff (hi.files f hf) hid he)]

theorem closeDir_eq (hi : Ids s) {h : Bytes} {id : Nat × Nat} (hid : Id id) (he : encodeId id = h) :
    closeDir s id = (dirOf s h).map fun d => (d, dropDir s h) := by
  unfold closeDir dropDir
  rw [findDir_eq hi hid he, eraseP_congr s.dirs (q := fun f => decide (encodeId f.id = h))
    (fun f hf => by rw [decide_eq_decide]; exact id_iff (hi.dirs f hf) hid he)]

theorem close_eq (hE : Good E) (hi : Ids s) (id : Nat) (data : Bytes) (hw : data.length < 2 ^ 32) :
    recvClose E s id data data.length = some (match string data with
      | none => stop s .bufferE
      | some (h, _) => if h.length > 256 then stop s .bufferE else match dirOf s h with
        | some d => ans E (dropDir s h) [.closedir d.dir] id (said 0 (asc "Closed File")) none
        | none => match fileOf s h with
          | none => ans E s [] id (said 4 (asc "Close File Error")) (some .badFile)
          | some f => if E.ok then ans E (dropFile s h) [.close f.fd true] id (said 0 (asc "Closed File")) none
            else ans E (dropFile s h) [.close f.fd false] id (said 4 (asc "Close File Error")) (some .badFile)) := by
  unfold recvClose
  by_cases h4 : data.length < 4
  · have : string data = none := by unfold string uint32; rw [if_neg (by omega)]
    rw [if_pos h4, this]
  rw [if_neg h4]
  match data, h4, hw with
  | [], h4, _ => exact absurd (by simp) h4
  | [_], h4, _ => exact absurd (by simp) h4
  | [_, _], h4, _ => exact absurd (by simp) h4
  | [_, _, _], h4, _ => exact absurd (by simp) h4
  | a :: b :: c :: e :: rest, h4, hw =>
    have hs : string (a :: b :: c :: e :: rest) =
        if beNat [a, b, c, e] ≤ rest.length then some (rest.take (beNat [a, b, c, e]), rest.drop (beNat [a, b, c, e])) else none := by
      unfold string uint32
      rw [if_pos (by simp)]
      simp
    have hv := beNat_lt [a, b, c, e]
    simp only [List.length_cons, List.length_nil] at hv
    simp only [hs, ato32_beNat]
    generalize beNat [a, b, c, e] = v at *
    simp only [List.length_cons] at hw ⊢
    by_cases hsz : v ≤ rest.length
    · rw [if_pos hsz]
      simp only [List.length_take, show min v rest.length = v by omega]
      by_cases hm : v > 256
      · rw [if_pos hm, if_pos (.inr hm)]
      · rw [if_neg hm, if_neg (by unfold add32 MAX_HANDLE; omega)]
        by_cases h8 : v = 8
        · subst h8
          rw [if_neg (by decide)]
          obtain ⟨hid, e1, e2, e3⟩ := decodeId_some (h := rest.take 8) (by simp; omega)
          simp only [e1, closeDir_eq hi e2 e3, findFile_eq hi e2 e3, removeFile_eq hi e2 e3]
          cases dirOf s (rest.take 8) with
          | some d => exact finish' hE _ _ _ _ _ _ (by decide)
          | none =>
            simp only [Option.map_none]
            cases fileOf s (rest.take 8) with
            | none => exact finish' hE _ _ _ _ _ _ (by decide)
            | some f =>
              simp only
              rw [finish' hE _ _ _ _ _ _ (by decide), finish' hE _ _ _ _ _ _ (by decide)]
              cases E.ok <;> rfl
        · rw [if_pos (show v ≠ HANDLE_ID_SZ from h8)]
          have hl : (rest.take v).length ≠ 8 := by simp; omega
          rw [dirOf_short hl, fileOf_short hl]
          exact finish' hE _ _ _ _ _ _ (by decide)
    · rw [if_neg hsz, if_pos (by unfold add32 MAX_HANDLE; omega)]

/-! ## Opening -/

theorem capped_eq {α : Type} : ∀ (l : List α) (n : Nat), n < 64 → capped l n = decide (64 ≤ l.length + n)
  | [], n, h => by
    have : ¬ 64 ≤ n := by omega
    simp [capped, this]
  | _ :: l, n, h => by
    unfold capped
    by_cases h1 : n + 1 ≥ MAX_HANDLES
    · rw [if_pos h1]
      unfold MAX_HANDLES at h1
      have : 64 ≤ l.length + 1 + n := by omega
      simp [this]
    · rw [if_neg h1, capped_eq l (n + 1) (by unfold MAX_HANDLES at h1; omega)]
      simp only [List.length_cons, decide_eq_decide]
      omega

/-- The result of OPEN once the file is open. -/
def openAns (E : Env) (s : Sess) (id : Nat) (name : Bytes) (calls : List Posix.Call) (fd : Nat) : Out :=
  if E.node then
    if mem E (.handle (encodeId s.nextId)) then ⟨none, addFile s fd name, calls, some ((Reply.handle (encodeId s.nextId)).packet id)⟩
    else ⟨some .memory, skipId s, calls ++ [.close fd E.ok2], none⟩
  else ans E (skipId s) (calls ++ [.close fd E.ok2]) id (said 4 (asc "Internal Failure")) (some .fatal)

theorem openStore_eq (hE : Good E) (id : Nat) (hid : s.reqId = id) (name : Bytes) (calls : List Posix.Call) (fd : Nat) (hn : name.length < 256)
    (hc : s.files.length < 64) : openStore E s id name calls fd = some (openAns E s id name calls fd) := by
  subst hid
  have hcap : capped s.files 0 = false := by rw [capped_eq _ _ (by omega)]; simp; omega
  have hname : ¬ name.length + 1 > Path.MAX_FILENAME := by unfold Path.MAX_FILENAME; omega
  unfold openStore openAns nextId addFails
  simp only [hcap, Bool.false_or, decide_eq_false hname, Bool.or_false]
  cases hnode : E.node with
  | false =>
    simp only [Bool.not_false, if_true, newStatus_eq hE FTP_FAILURE s.reqId (asc "Internal Failure") (by decide), fresh, ans]
    show _ = some (if mem E (.status 4 (asc "Internal Failure") english) then _ else _)
    unfold FTP_FAILURE
    cases mem E (.status 4 (asc "Internal Failure") english) <;> rfl
  | true =>
    simp only [Bool.not_true, Bool.false_eq_true, if_false, if_true, newHandle_eq hE, fresh]
    cases mem E (.handle (encodeId s.nextId)) with
    | true => rfl
    | false =>
      simp only [Bool.false_eq_true, if_false, removeFile]
      rw [List.eraseP_cons_of_pos (by simp)]
      rfl

theorem flags_eq (pf : Nat) : openFlags pf = flagsOf pf := by
  unfold openFlags flagsOf
  cases pf.testBit 0 <;> cases pf.testBit 1 <;> rfl

theorem type_bits (m : Nat) : m % 2 ^ 32 &&& 0o770000 = m / 4096 % 64 * 4096 := by
  have h1 : m / 4096 % 64 * 4096 = ((m >>> 12) % 2 ^ 6) <<< 12 := by simp [Nat.shiftRight_eq_div_pow, Nat.shiftLeft_eq]
  rw [h1, show (0o770000 : Nat) = (2 ^ 6 - 1) <<< 12 by decide]
  apply Nat.eq_of_testBit_eq
  intro i
  simp only [Nat.testBit_and, Nat.testBit_mod_two_pow, Nat.testBit_shiftLeft, Nat.testBit_two_pow_sub_one, Nat.testBit_shiftRight]
  by_cases h : 12 ≤ i
  · by_cases h' : i - 12 < 6
    · have h2 : i < 32 := by omega
      simp [h, h', h2, show 12 + (i - 12) = i by omega]
    · simp [h']
  · simp [h]

theorem regular_eq : isRegular = regular := by
  funext st
  unfold isRegular regular ofStat
  simp only [type_bits, decide_eq_decide]
  omega

theorem open_eq (hE : Good E) (hs : Dirs s d j) (id : Nat) (hid : s.reqId = id) (data : Bytes) (hw : data.length < 2 ^ 32) :
    recvOpen E s id data data.length = some (match string data with
      | none => stop s .bufferE
      | some (p, rest) => match verdict d j E.isLink p with
        | .deny => denied E s id
        | .tooLong => stop s .fatal
        | .admit cs => if 64 ≤ s.files.length then ans E s [] id (said 4 (asc "Too Many Open File Handles")) (some .badFile)
          else match uint32 rest with
            | none => stop s .bufferE
            | some (pf, rest) => match attrs rest with
              | none => stop s .badFile
              | some (a, _) =>
                if (E.stat (render cs)).all regular then match E.fd with
                  | none => ans E s [.stat (render cs) (E.stat (render cs)), .open (render cs) (flagsOf pf) (newMode 0o644 a) none] id
                      (said 4 (asc "Open File Error")) (some .badFile)
                  | some fd => openAns E s id (render cs)
                      [.stat (render cs) (E.stat (render cs)), .open (render cs) (flagsOf pf) (newMode 0o644 a) (some fd)] fd
                else ans E s [.stat (render cs) (E.stat (render cs))] id (said 4 (asc "Not A File")) (some .fatal)) := by
  unfold recvOpen denied
  rcases str0 data hw with ⟨e, i, h1, h2⟩ | ⟨p, i, h1, h2, h3⟩
  · simp only [h1, h2]
  · simp only [h1, h3, clean_eq hE hs]
    cases hv : verdict d j E.isLink p with
    | deny => simp only [if_true]; exact finish' hE _ _ _ _ _ _ (by decide)
    | tooLong => simp only [if_neg (longErr_ne p)]
    | admit cs =>
      simp only [capped_eq s.files 0 (by omega), Nat.add_zero, decide_eq_true_eq]
      by_cases hc : 64 ≤ s.files.length
      · rw [if_pos hc, if_pos hc]; exact finish' hE _ _ _ _ _ _ (by decide)
      rw [if_neg hc, if_neg hc]
      rcases Proofs.Reader.u32 (mem := data) i (Nat.le_refl _) hw with ⟨e, k, g1, g2⟩ | ⟨pf, k, g1, g2, g3, g4⟩
      · simp only [g1, g2]
      · simp only [g1, g4]
        rcases parseAttributes_cases (mem' := data) k (Nat.le_refl _) hw with ⟨e, l, f1, f2⟩ | ⟨a, l, f1, f2, f3, f4⟩
        · simp only [f1, f2]
        · simp only [f1, f4, openFile, openMode_eq, flags_eq, regular_eq]
          by_cases hr : (E.stat (render cs)).all regular = true
          · rw [if_pos hr, if_pos hr]
            cases hfd : E.fd with
            | none => exact finish' hE _ _ _ _ _ _ (by decide)
            | some fd => exact openStore_eq hE id hid _ _ _ (verdict_admit hv).2.2.1 (by omega)
          · rw [if_neg hr, if_neg hr]; exact finish' hE _ _ _ _ _ _ (by decide)

theorem opendir_eq (hE : Good E) (hs : Dirs s d j) (id : Nat) (hid : s.reqId = id) (data : Bytes) (hw : data.length < 2 ^ 32) :
    recvOpenDir E s id data data.length = some (match string data with
      | none => stop s .bufferE
      | some (p, _) => match verdict d j E.isLink p with
        | .deny => denied E s id
        | .tooLong => stop s .bufferE
        | .admit cs => if 64 ≤ s.dirs.length then ans E s [] id (said 4 (asc "Too Many Open Directory Handles")) (some .badFile)
          else match E.fd with
            | none => ans E s [.opendir (render cs) none] id (said 2 (asc "Unable To Open Directory")) (some .badFile)
            | some dir =>
              if E.node then ans E (addDir s dir (render cs)) [.opendir (render cs) (some dir)] id (.handle (encodeId s.nextId)) none
              else ⟨some .memory, s, [.opendir (render cs) (some dir), .closedir dir], none⟩) := by
  subst hid
  unfold recvOpenDir denied
  rcases str0 data hw with ⟨e, i, h1, h2⟩ | ⟨p, i, h1, h2, h3⟩
  · simp only [h1, h2]
  · simp only [h1, h3, clean_eq hE hs]
    cases hv : verdict d j E.isLink p with
    | deny => simp only [if_true]; exact finish' hE _ _ _ _ _ _ (by decide)
    | tooLong => simp only [if_neg (longErr_ne p)]
    | admit cs =>
      simp only [capped_eq s.dirs 0 (by omega), Nat.add_zero, decide_eq_true_eq]
      by_cases hc : 64 ≤ s.dirs.length
      · rw [if_pos hc, if_pos hc]; exact finish' hE _ _ _ _ _ _ (by decide)
      rw [if_neg hc, if_neg hc]
      cases hfd : E.fd with
      | none => exact finish' hE _ _ _ _ _ _ (by decide)
      | some dir =>
        simp only [openDirStore, nextId]
        cases hnode : E.node with
        | false => rfl
        | true =>
          simp only [Bool.not_true, Bool.false_eq_true, if_false, if_true, newHandle_eq hE, fresh, ans]
          cases mem E (.handle (encodeId s.nextId)) <;> rfl

end Proofs.Sftp
