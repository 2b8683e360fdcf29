import Verif.Model.SshdPid
import Verif.Spec.SshdPid
import Verif.Proofs.ScpMsg
/-!
# C150: the daemon's PID file
-/

namespace Props.SshdPid
open Wolf Wolf.SshdPid Spec.SshdPid
open Wolf.Scp (dec)

theorem buf_spec (pid : Nat) (h : pid < 2 ^ 31) : (dec pid).take 11 = dec pid ∧ Spec.Scp.Decimal (dec pid) pid := by
  have := Proofs.Scp.dec_spec pid 10 (by omega) (by omega) (by omega)
  exact ⟨List.take_of_length_le (by omega), this.1⟩

/-- C150: what is not the daemon's own is left as it is: a symbolic link and its target, a file with other names, of another
owner, or not a regular one. There are no symbolic links where they are not supported. -/
theorem C150_unsafe (e : Env) (d : Option Entry) (hl : e.symlinks = false → ∀ t, d ≠ some (.link t)) (h : ¬ Fine e.euid d) :
    (savePid e d).dir = d := by
  unfold savePid
  rcases d with _ | ⟨i | t⟩
  · exact absurd (.inl rfl) h
  · have hi : ¬ Own e.euid i := fun ho => h (.inr ⟨i, rfl, ho⟩)
    simp only [openPid]
    rw [if_neg (by simp)]
    by_cases hr : e.reopens = true
    · rw [if_pos hr]
      simp only
      rw [if_pos ?_]
      by_cases h1 : i.reg = false
      · exact .inr (.inl h1)
      by_cases h2 : i.nlink = 1
      · refine .inr (.inr (.inr ⟨fun h3 => hi ⟨by simpa using h1, h2, .inl h3⟩, fun h3 => hi ⟨by simpa using h1, h2, .inr h3⟩⟩))
      · exact .inr (.inr (.inl h2))
    · rw [if_neg hr]
  · cases hs : e.symlinks with
    | false => exact absurd rfl (hl hs t)
    | true =>
      cases hn : e.nofollow with
      | false => rw [if_pos ⟨rfl, rfl, rfl⟩]
      | true =>
        rw [if_neg (by simp)]
        simp [openPid, hn]

/-- The file that is written to, if one is. -/
theorem save_cases (e : Env) (d : Option Entry) (hd : Fine e.euid d) :
    ((savePid e d).dir = d) ∨
    (∃ i created, Own e.euid i ∧ (created = true → d = none ∧ i.data = []) ∧ (created = false → d = some (.file i)) ∧ e.fstat = true ∧
      ((savePid e d).dir = (if created then remove e (some (.file i)) else d) ∨
       (savePid e d).dir = (if created then remove e (some (.file { i with mode := 0o644 })) else some (.file { i with mode := 0o644 })) ∨
       (e.fchmod = true ∧ e.ftruncate = true ∧
         (savePid e d).dir = writePid e (some (.file { i with mode := 0o644, data := [] })) { i with mode := 0o644, data := [] }))) ∨
    (d = none ∧ e.creates = true ∧ (savePid e d).dir = some (.file ⟨true, 1, e.newUid, e.newMode, []⟩) ∧
      (e.fstat = false ∨ (e.newUid ≠ e.euid ∧ e.newUid ≠ 0))) := by
  have key : ∀ (i : Inode) (created : Bool), i.reg = true → i.nlink = 1 → (i.uid = e.euid ∨ i.uid = 0) → e.fstat = true →
      ¬ (e.fstat = false ∨ i.reg = false ∨ i.nlink ≠ 1 ∨ (i.uid ≠ e.euid ∧ i.uid ≠ 0)) := by
    rintro i _ h1 h2 h3 h4 (h | h | h | ⟨h, h'⟩)
    · rw [h4] at h; cases h
    · rw [h1] at h; cases h
    · exact h h2
    · exact h3.elim h h'
  unfold savePid
  rcases hd with rfl | ⟨i, rfl, ho⟩
  · rw [if_neg (by simp)]
    simp only [openPid]
    by_cases hc : e.creates = true
    · rw [if_pos hc]
      simp only
      by_cases hb : e.fstat = true ∧ (e.newUid = e.euid ∨ e.newUid = 0)
      · rw [if_neg (key ⟨true, 1, e.newUid, e.newMode, []⟩ true rfl rfl hb.2 hb.1)]
        refine .inr (.inl ⟨⟨true, 1, e.newUid, e.newMode, []⟩, true, ⟨rfl, rfl, hb.2⟩, fun _ => ⟨trivial, rfl⟩, (fun h => by cases h), hb.1, ?_⟩)
        cases hf : e.fchmod with
        | false => exact .inl rfl
        | true =>
          cases ht : e.ftruncate with
          | false => exact .inr (.inl rfl)
          | true => exact .inr (.inr ⟨rfl, rfl, rfl⟩)
      · refine .inr (.inr ⟨trivial, hc, ?_, ?_⟩)
        · rw [if_pos ?_]
          cases hs : e.fstat with
          | false => exact .inl rfl
          | true => exact .inr (.inr (.inr ⟨fun h => hb ⟨hs, .inl h⟩, fun h => hb ⟨hs, .inr h⟩⟩))
        · cases hs : e.fstat with
          | false => exact .inl rfl
          | true => exact .inr ⟨fun h => hb ⟨hs, .inl h⟩, fun h => hb ⟨hs, .inr h⟩⟩
    · rw [if_neg hc]; exact .inl rfl
  · rw [if_neg (by simp)]
    simp only [openPid]
    by_cases hr : e.reopens = true
    · rw [if_pos hr]
      simp only
      by_cases hs : e.fstat = true
      · rw [if_neg (key i false ho.reg ho.one ho.owner hs)]
        refine .inr (.inl ⟨i, false, ho, (fun h => by cases h), fun _ => rfl, hs, ?_⟩)
        cases hf : e.fchmod with
        | false => exact .inl rfl
        | true =>
          cases ht : e.ftruncate with
          | false => exact .inr (.inl rfl)
          | true => exact .inr (.inr ⟨rfl, rfl, rfl⟩)
      · rw [if_pos (.inl (by simpa using hs))]; exact .inl rfl
    · rw [if_neg hr]; exact .inl rfl

/-- C150: whatever fails, a reader finds nothing, what there was before, or the whole number of the process; never a part of it or an
empty file. Missing: that is so only if the file can be removed, and a new one can be examined and belongs to the daemon's user; see
`C150_empty`. -/
theorem C150_partial (e : Env) (d : Option Entry) (hl : e.symlinks = false → ∀ t, d ≠ some (.link t)) (hp : e.pid < 2 ^ 31)
    (hu : e.unlink = true) (hn : d = none → e.fstat = true ∧ (e.newUid = e.euid ∨ e.newUid = 0)) :
    Readable e.euid e.pid d (savePid e d).dir := by
  by_cases hf : Fine e.euid d
  · rcases save_cases e d hf with h | ⟨i, created, ho, hc, hnc, _, h⟩ | ⟨h, _, _, h'⟩
    · exact .inr (.inl h)
    · rcases h with h | h | ⟨_, _, h⟩
      · cases created with
        | true => rw [h]; exact .inl (by simp [remove, hu])
        | false => rw [h]; exact .inr (.inl rfl)
      · cases created with
        | true => rw [h]; exact .inl (by simp [remove, hu])
        | false => rw [h]; exact .inr (.inr (.inl ⟨i, _, hnc rfl, rfl, rfl, ho.reg, ho.one, ho.owner⟩))
      · rw [h]
        unfold writePid
        by_cases h1 : e.fdopen = false
        · rw [if_pos h1]; exact .inl (by simp [remove, hu])
        rw [if_neg h1]
        simp only
        by_cases h2 : e.fwrite = ((dec e.pid).take 11).length ∧ e.fclose = true
        · rw [if_pos h2, (buf_spec e.pid hp).1]
          exact .inr (.inr (.inr ⟨_, rfl, (buf_spec e.pid hp).2, rfl, ho.reg, ho.one, ho.owner⟩))
        · rw [if_neg h2]; exact .inl (by simp [remove, hu])
    · obtain ⟨h1, h2⟩ := hn h
      rcases h' with h' | ⟨h3, h4⟩
      · rw [h1] at h'; cases h'
      · exact (h2.elim h3 h4).elim
  · exact .inr (.inl (C150_unsafe e d hl hf))

/-- C150: if all calls succeed and what is there is the daemon's own, the number is written. -/
theorem C150_written (e : Env) (d : Option Entry) (hp : e.pid < 2 ^ 31) (hd : Fine e.euid d)
    (h1 : e.creates = true) (h2 : e.reopens = true) (h3 : e.fstat = true) (h4 : e.fchmod = true) (h5 : e.ftruncate = true)
    (h6 : e.fdopen = true) (h7 : e.fwrite = (dec e.pid).length) (h8 : e.fclose = true) (h9 : e.newUid = e.euid) :
    ∃ j, (savePid e d).dir = some (.file j) ∧ Spec.Scp.Decimal j.data e.pid ∧ j.mode = 0o644 ∧ Own e.euid j := by
  obtain ⟨b1, b2⟩ := buf_spec e.pid hp
  rcases hd with rfl | ⟨i, rfl, ho⟩
  · refine ⟨⟨true, 1, e.newUid, 0o644, dec e.pid⟩, ?_, b2, rfl, rfl, rfl, .inl h9⟩
    simp [savePid, openPid, h1, h3, h4, h5, h9, writePid, h6, h7, h8, b1, put]
  · refine ⟨{ i with mode := 0o644, data := dec e.pid }, ?_, b2, rfl, ho.reg, ho.one, ho.owner⟩
    rcases ho.owner with h | h <;>
      simp [savePid, openPid, h2, h3, h4, h5, writePid, h6, h7, h8, b1, put, ho.reg, ho.one, h]

/-- C150: the descriptor is closed once, if there is one. -/
theorem C150_closed (e : Env) (d : Option Entry) : (savePid e d).acts = [] ∨ (savePid e d).acts = [.opened, .closed] := by
  unfold savePid
  repeat' split
  all_goals first | exact .inl rfl | exact .inr rfl

/-- An environment in which all succeeds. -/
def mEnv : Env := ⟨true, true, 0, 123, true, 0, 0o600, true, true, true, true, true, 3, true, 0, true⟩

/-- C150: the missing part is false. A new file is not removed if it cannot be examined, or belongs to another user: an empty one is
left. -/
theorem C150_empty : ∃ e, e.unlink = true ∧ ¬ Readable e.euid e.pid none (savePid e none).dir := by
  refine ⟨{ mEnv with newUid := 65534 }, rfl, ?_⟩
  have h : (savePid { mEnv with newUid := 65534 } none).dir = some (.file ⟨true, 1, 65534, 0o600, []⟩) := by decide +kernel
  rw [h]
  rintro (h | h | ⟨i, j, h, _⟩ | ⟨j, h, hd, _⟩)
  · cases h
  · cases h
  · cases h
  · cases h; exact hd.1 rfl

/-- The hypotheses of `C150_partial` and `C150_written` are met. -/
example : savePid mEnv none = ⟨some (.file ⟨true, 1, 0, 0o644, [49, 50, 51]⟩), [.opened, .closed]⟩ := by decide +kernel

example : (savePid { mEnv with fwrite := 2, got := 2 } (some (.file ⟨true, 1, 0, 0o600, [7]⟩))).dir = none := by decide +kernel

/-- Those of `C150_unsafe`. -/
example : ¬ Fine 0 (some (.link ⟨true, 1, 0, 0o600, [7]⟩)) := by
  rintro (h | ⟨_, h, _⟩)
  · cases h
  · cases h

end Props.SshdPid
