import Verif.Spec.IdentCert
import Verif.Props.IdentKey
/-!
# C157: telling the type of a certificate
-/

namespace Props.IdentCert
open Wolf.IdentKey (Id identify)
open Wolf.IdentCert Spec.IdentCert

private theorem decides_wanted (k : Wolf.IdentKey.Env) (ks : List Wolf.IdentKey.Kind) (r : Wolf.IdentKey.Ret) :
    Spec.IdentKey.Decides { k with isPrivate := false, wanted := false } ks r ↔ Spec.IdentKey.Decides { k with isPrivate := false } ks r := by
  have t : ∀ x i, Spec.IdentKey.Takes { k with isPrivate := false, wanted := false } x i ↔
      Spec.IdentKey.Takes { k with isPrivate := false } x i := by intro x i; cases x <;> exact Iff.rfl
  have f : ∀ x, Spec.IdentKey.Refuses { k with isPrivate := false, wanted := false } x ↔
      Spec.IdentKey.Refuses { k with isPrivate := false } x := by intro x; cases x <;> exact Iff.rfl
  constructor
  · intro h
    induction h with
    | nothing => exact .nothing
    | takes h => exact .takes ((t _ _).1 h)
    | refuses h => exact .refuses ((f _).1 h)
    | next h1 h2 _ ih => exact .next (fun i h => h1 i ((t _ _).2 h)) (fun h => h2 ((f _).2 h)) ih
  · intro h
    induction h with
    | nothing => exact .nothing
    | takes h => exact .takes ((t _ _).2 h)
    | refuses h => exact .refuses ((f _).2 h)
    | next h1 h2 _ ih => exact .next (fun i h => h1 i ((t _ _).1 h)) (fun h => h2 ((f _).1 h)) ih

private theorem told_iff (e : Env) (i : Id) : told e = .plain i ↔
    e.key.alloc = true ∧ Spec.IdentKey.Decides { e.key with isPrivate := false } [.rsa, .ecc, .mldsa, .ed] (.key i) := by
  have h1 : told e = .plain i ↔ (identify (asked e)).1 = .key i := by
    unfold told
    cases (identify (asked e)).1 <;> simp
  rw [h1]
  by_cases ha : e.key.alloc = true
  · rw [Props.IdentKey.C153 (asked e) ha]
    exact ⟨fun h => ⟨ha, (decides_wanted ..).1 h⟩, fun h => (decides_wanted ..).2 h.2⟩
  · constructor
    · intro h
      unfold identify at h
      rw [if_pos (show (asked e).alloc = false from eq_false_of_ne_true ha)] at h
      cases h
    · exact fun h => absurd h.1 ha

private theorem certKey_iff (e : Env) (i : Id) : (certKey e).1 = .plain i ↔ HasKey e i := by
  unfold certKey HasKey
  by_cases h1 : e.small = true ∧ e.allocCert = false
  · rw [if_pos h1]
    refine ⟨(fun h => by cases h), fun h => ?_⟩
    have := h.1 h1.1
    rw [h1.2] at this; cases this
  rw [if_neg h1]
  have h1' : e.small = true → e.allocCert = true := fun h => eq_true_of_ne_false (fun h' => h1 ⟨h, h'⟩)
  simp only
  by_cases h2 : e.parse = false
  · rw [if_pos h2]
    exact ⟨(fun h => by cases h), fun h => by have := h.2.1; rw [h2] at this; cases this⟩
  rw [if_neg h2]
  cases h3 : e.len with
  | none => exact ⟨(fun h => by cases h), fun ⟨_, _, ⟨n, hn⟩, _⟩ => by cases hn⟩
  | some n =>
    simp only
    by_cases h4 : e.allocKey = false
    · rw [if_pos h4]
      exact ⟨(fun h => by cases h), fun h => by have := h.2.2.2.1; rw [h4] at this; cases this⟩
    rw [if_neg h4]
    by_cases h5 : e.get = false
    · rw [if_pos h5]
      exact ⟨(fun h => by cases h), fun h => by have := h.2.2.2.2.1; rw [h5] at this; cases this⟩
    rw [if_neg h5]
    simp only
    rw [told_iff]
    exact ⟨fun h => ⟨h1', eq_true_of_ne_false h2, ⟨n, rfl⟩, eq_true_of_ne_false h4, eq_true_of_ne_false h5, h⟩,
      fun h => h.2.2.2.2.2⟩

private theorem certType_iff (e : Env) (i j : Id) : certType e i = some j ↔ i = j ∧ Supported e i := by
  unfold Supported
  cases i <;> simp only [certType, reduceCtorEq, ne_eq, not_true_eq_false, false_and, and_false, not_false_eq_true, true_and]
  all_goals
    split
    · rename_i h; simp [h]
    · rename_i h; simp [h]

private theorem certKey_not_cert (e : Env) (i : Id) : (certKey e).1 ≠ .cert i := by
  unfold certKey
  by_cases h1 : e.small = true ∧ e.allocCert = false
  · rw [if_pos h1]; exact (fun h => by cases h)
  rw [if_neg h1]
  simp only
  by_cases h2 : e.parse = false
  · rw [if_pos h2]; exact (fun h => by cases h)
  rw [if_neg h2]
  cases h3 : e.len with
  | none => exact (fun h => by cases h)
  | some n =>
    simp only
    by_cases h4 : e.allocKey = false
    · rw [if_pos h4]; exact (fun h => by cases h)
    rw [if_neg h4]
    by_cases h5 : e.get = false
    · rw [if_pos h5]; exact (fun h => by cases h)
    rw [if_neg h5]
    simp only
    unfold told
    cases (identify (asked e)).1 <;> exact (fun h => by cases h)

/-- C157: a certificate is told to be of a type exactly if its key is of that type and there is an algorithm for certificates of it;
the name of a plain key is never told. -/
theorem C157 (e : Env) (i : Id) :
    ((identifyCert e).1 = .cert i ↔ HasKey e i ∧ Supported e i) ∧ (identifyCert e).1 ≠ .plain i := by
  have hk := certKey_iff e
  have hc := certKey_not_cert e
  unfold identifyCert
  generalize certKey e = x at hk hc
  obtain ⟨r, tr⟩ := x
  simp only at hk hc
  cases r with
  | plain j =>
    simp only
    have hj := (hk j).1 rfl
    cases h : certType e j with
    | none =>
      refine ⟨⟨(fun h => by cases h), fun ⟨h1, h2⟩ => ?_⟩, (fun h => by cases h)⟩
      have := (hk i).2 h1
      injection this with this
      subst this
      rw [(certType_iff e j j).2 ⟨rfl, h2⟩] at h
      cases h
    | some k =>
      obtain ⟨rfl, hs⟩ := (certType_iff e j k).1 h
      refine ⟨⟨fun h => ?_, fun ⟨h1, _⟩ => ?_⟩, (fun h => by cases h)⟩
      · injection h with h; subst h; exact ⟨hj, hs⟩
      · have := (hk i).2 h1
        injection this with this
        rw [this]
  | cert j => exact absurd rfl (hc j)
  | memory => exact ⟨⟨(fun h => by cases h), fun h => by cases (hk i).2 h.1⟩, (fun h => by cases h)⟩
  | parse => exact ⟨⟨(fun h => by cases h), fun h => by cases (hk i).2 h.1⟩, (fun h => by cases h)⟩
  | algo => exact ⟨⟨(fun h => by cases h), fun h => by cases (hk i).2 h.1⟩, (fun h => by cases h)⟩
  | key r => exact ⟨⟨(fun h => by cases h), fun h => by cases (hk i).2 h.1⟩, (fun h => by cases h)⟩

/-- C157: all that is allocated and initialised is freed once, whatever fails. Without a small stack, the decoder is on the stack. -/
theorem C157_memory (e : Env) : after ⟨!e.small, false, none⟩ (identifyCert e).2 = some ⟨!e.small, false, none⟩ := by
  have h0 : (identifyCert e).2 = (certKey e).2 := by
    unfold identifyCert
    generalize certKey e = x
    obtain ⟨r, tr⟩ := x
    cases r with
    | plain i => simp only; cases certType e i <;> rfl
    | _ => rfl
  rw [h0]
  unfold certKey
  by_cases h1 : e.small = true ∧ e.allocCert = false
  · rw [if_pos h1]; rfl
  rw [if_neg h1]
  simp only
  by_cases h2 : e.parse = false
  · rw [if_pos h2]; cases e.small <;> rfl
  rw [if_neg h2]
  cases h3 : e.len with
  | none => simp only; cases e.small <;> rfl
  | some n =>
    simp only
    by_cases h4 : e.allocKey = false
    · rw [if_pos h4]; cases e.small <;> rfl
    rw [if_neg h4]
    by_cases h5 : e.get = false
    · rw [if_pos h5]; cases e.small <;> rfl
    rw [if_neg h5]
    cases e.small <;> simp [after, step]

/-- A certificate with a key on P-384. -/
def env : Env where
  small := true
  x509 := fun _ => true
  allocCert := true
  allocKey := true
  parse := true
  len := some 120
  get := true
  key := { Props.IdentKey.env with eccDec := fun p => if p then none else some .secp384r1 }

example : identifyCert env = (.cert .p384, [.alloc, .init, .keyAlloc 120, .keyFill 120, .keyFree, .free, .release]) ∧
    (identifyCert { env with x509 := fun _ => false }).1 = .algo ∧
    (identifyCert { env with key := { Props.IdentKey.env with edPub := true } }).1 = .algo ∧
    identifyCert { env with small := false, get := false } = (.parse, [.init, .keyAlloc 120, .keyFree, .free]) ∧
    (identifyCert { env with key := Props.IdentKey.env }).1 = .key .unimplemented := by decide

/-- `HasKey` and `Supported` hold of it. -/
example : HasKey env .p384 ∧ Supported env .p384 := (C157 env .p384).1.1 (by decide)

end Props.IdentCert
