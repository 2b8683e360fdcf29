import Verif.Spec.SshdFile
/-!
# The walk up to the root
-/

namespace Proofs.SshdFile
open Wolf Wolf.Sshd Spec.SshdFile

theorem and_bit (m i : Nat) : m &&& 2 ^ i = 0 ↔ m.testBit i = false := by
  constructor
  · intro h
    have := congrArg (fun n => n.testBit i) h
    simp [Nat.testBit_and] at this
    exact this
  · intro h
    apply Nat.eq_of_testBit_eq
    intro j
    rw [Nat.testBit_and, Nat.testBit_two_pow, Nat.zero_testBit]
    by_cases hj : i = j
    · subst hj; simp [h]
    · simp [hj]

theorem and_two (m i j : Nat) :
    m &&& (2 ^ i ||| 2 ^ j) = 0 ↔ m.testBit i = false ∧ m.testBit j = false := by
  rw [← and_bit, ← and_bit, Nat.and_or_distrib_left]
  constructor
  · intro h
    constructor
    · apply Nat.eq_of_testBit_eq; intro k
      have := congrArg (fun n => n.testBit k) h
      simp only [Nat.testBit_or, Nat.zero_testBit, Bool.or_eq_false_iff] at this
      rw [this.1, Nat.zero_testBit]
    · apply Nat.eq_of_testBit_eq; intro k
      have := congrArg (fun n => n.testBit k) h
      simp only [Nat.testBit_or, Nat.zero_testBit, Bool.or_eq_false_iff] at this
      rw [this.2, Nat.zero_testBit]
  · rintro ⟨h1, h2⟩; rw [h1, h2]; rfl

theorem writable_iff (s : Stat) : s.mode &&& 0o022 ≠ 0 ↔ WritableByOthers s := by
  have := and_two s.mode 4 1
  rw [show (2 ^ 4 ||| 2 ^ 1 : Nat) = 0o022 by decide] at this
  rw [WritableByOthers, ne_eq, this]
  cases s.mode.testBit 4 <;> cases s.mode.testBit 1 <;> simp

theorem readable_iff (s : Stat) : s.mode &&& 0o044 ≠ 0 ↔ ReadableByOthers s := by
  have := and_two s.mode 5 2
  rw [show (2 ^ 5 ||| 2 ^ 2 : Nat) = 0o044 by decide] at this
  rw [ReadableByOthers, ne_eq, this]
  cases s.mode.testBit 5 <;> cases s.mode.testBit 2 <;> simp

theorem sticky_iff (s : Stat) : s.mode &&& 0o1000 = 0 ↔ ¬Sticky s := by
  have := and_bit s.mode 9
  rw [show (2 ^ 9 : Nat) = 0o1000 by decide] at this
  rw [Sticky, this]
  cases s.mode.testBit 9 <;> simp

theorem dirOk_iff (W : World) (d : Bytes) : dirOk W d = true ↔ SafeDir W d := by
  rw [dirOk, SafeDir]
  cases W.stat d with
  | none => simp
  | some s =>
    simp only [Option.some.injEq, exists_eq_left']
    by_cases h1 : s.isDir = true
    · rw [if_neg (by simp [h1])]
      have hc : (s.mode &&& 0o022 ≠ 0 ∧ s.mode &&& 0o1000 = 0) ↔ WritableByOthers s ∧ ¬Sticky s := by
        rw [writable_iff, sticky_iff]
      by_cases h2 : WritableByOthers s ∧ ¬Sticky s
      · rw [if_pos (hc.2 h2)]
        constructor
        · intro h; cases h
        · rintro ⟨_, h⟩; exact absurd (h h2.1) h2.2
      · rw [if_neg (fun h => h2 (hc.1 h))]
        simp only [true_iff]
        refine ⟨h1, fun hw => ?_⟩
        by_cases hs : Sticky s
        · exact hs
        · exact absurd ⟨hw, hs⟩ h2
    · rw [if_pos (by simpa using h1)]
      constructor
      · intro h; cases h
      · rintro ⟨h, _⟩; exact absurd h h1

theorem lastSlash_none {p : Bytes} (h : lastSlash p = none) : (47 : UInt8) ∉ p := by
  induction p with
  | nil => simp
  | cons c t ih =>
    rw [lastSlash] at h
    cases ht : lastSlash t with
    | some i => rw [ht] at h; cases h
    | none =>
      rw [ht] at h
      simp only at h
      split at h
      · cases h
      · rename_i hc
        simp only [List.mem_cons, not_or]
        exact ⟨fun e => hc e.symm, ih ht⟩

theorem lastSlash_some {p : Bytes} : ∀ {i : Nat}, lastSlash p = some i →
    ∃ rest, p = p.take i ++ 47 :: rest ∧ (47 : UInt8) ∉ rest ∧ i < p.length := by
  induction p with
  | nil => intro i h; cases h
  | cons c t ih =>
    intro i h
    rw [lastSlash] at h
    cases ht : lastSlash t with
    | some j =>
      rw [ht] at h
      simp only [Option.some.injEq] at h
      subst h
      obtain ⟨rest, h1, h2, h3⟩ := ih ht
      refine ⟨rest, ?_, h2, by simpa using h3⟩
      rw [List.take_succ_cons, List.cons_append, ← h1]
    | none =>
      rw [ht] at h
      simp only at h
      split at h
      · rename_i hc
        cases h
        exact ⟨t, by rw [hc]; simp, lastSlash_none ht, by simp⟩
      · cases h

/-- What stands before a slash of `q ++ '/' ++ rest`, where `rest` has none: `q`, or what stands before a slash of `q`. -/
theorem before_slash {q rest d r : Bytes} (hn : (47 : UInt8) ∉ rest) (h : q ++ 47 :: rest = d ++ 47 :: r) :
    d = q ∨ ∃ r', q = d ++ 47 :: r' := by
  rcases List.append_eq_append_iff.1 h with ⟨a, h1, h2⟩ | ⟨a, h1, h2⟩
  · cases a with
    | nil => left; simpa using h1
    | cons x a =>
      simp only [List.cons_append, List.cons.injEq] at h2
      exact absurd (by rw [h2.2]; simp) hn
  · cases a with
    | nil => left; simpa using h1.symm
    | cons x a =>
      simp only [List.cons_append, List.cons.injEq] at h2
      right; exact ⟨a, by rw [h1, h2.1]⟩

theorem walkUp_iff (W : World) : ∀ fuel p, p.length ≤ fuel → p.head? = some 47 →
    (walkUp W fuel p = true ↔ ∀ d, OnTheWay d p → SafeDir W d) := by
  intro fuel
  induction fuel with
  | zero =>
    intro p hl hh
    have : p = [] := List.eq_nil_of_length_eq_zero (by omega)
    subst this; cases hh
  | succ fuel ih =>
    intro p hl hh
    rw [walkUp]
    cases hs : lastSlash p with
    | none =>
      have := lastSlash_none hs
      cases p with
      | nil => cases hh
      | cons c t => simp at hh; subst hh; exact absurd (by simp) this
    | some i =>
      simp only
      obtain ⟨rest, h1, h2, h3⟩ := lastSlash_some hs
      by_cases hi : i = 0
      · -- the only slash is the first byte
        subst hi
        simp only [if_true]
        have hp : p.take 1 = [47] := by rw [h1]; simp
        rw [hp]
        have hw : ∀ d, OnTheWay d p ↔ d = [47] := by
          intro d
          constructor
          · rintro (h | ⟨hd, r, h⟩)
            · exact h
            · rw [h1] at h
              rcases before_slash h2 h with e | ⟨r', e⟩
              · simp at e; exact absurd e hd
              · simp at e
          · intro h; exact .inl h
        simp only [hw, forall_eq, if_true]
        rw [← dirOk_iff]
        cases dirOk W [47] <;> simp
      · simp only [hi, if_false]
        generalize hq : p.take i = q at h1 ⊢
        have hql : q.length = i := by rw [← hq, List.length_take]; omega
        have hqh : q.head? = some 47 := by
          cases q with
          | nil => simp at hql; omega
          | cons x q => rw [h1] at hh; simpa using hh
        by_cases hroot : q = [47]
        · rw [hroot]
          have hw : ∀ d, OnTheWay d p ↔ d = [47] := by
            intro d
            constructor
            · rintro (h | ⟨hd, r, h⟩)
              · exact h
              · rw [h1] at h
                rcases before_slash h2 h with e | ⟨r', e⟩
                · rw [e, hroot]
                · rw [hroot] at e
                  cases d with
                  | nil => exact absurd rfl hd
                  | cons x d => simp at e
            · intro h; exact .inl h
          simp only [hw, forall_eq, if_true]
          rw [← dirOk_iff]
          cases dirOk W [47] <;> simp
        · rw [if_neg hroot]
          have hw : ∀ d, OnTheWay d p ↔ d = q ∨ OnTheWay d q := by
            intro d
            constructor
            · rintro (h | ⟨hd, r, h⟩)
              · exact .inr (.inl h)
              · rw [h1] at h
                rcases before_slash h2 h with e | ⟨r', e⟩
                · exact .inl e
                · exact .inr (.inr ⟨hd, r', e⟩)
            · rintro (h | h | ⟨hd, r, h⟩)
              · subst h
                refine .inr ⟨?_, rest, h1⟩
                intro e; rw [e] at hqh; cases hqh
              · exact .inl h
              · exact .inr ⟨hd, r ++ 47 :: rest, by rw [h1, h]; simp⟩
          have ih' := ih q (by omega) hqh
          constructor
          · intro h
            split at h
            · rename_i hd
              intro d hd'
              rcases (hw d).1 hd' with rfl | hd'
              · exact (dirOk_iff _ _).1 hd
              · exact ih'.1 h d hd'
            · cases h
          · intro h
            rw [if_pos ((dirOk_iff _ _).2 (h q ((hw q).2 (.inl rfl))))]
            exact ih'.2 (fun d hd => h d ((hw d).2 (.inr hd)))

theorem leafOk_iff (lst st : Stat) (u : Nat) (rr : Bool) :
    leafOk lst st u rr = true ↔ st.isReg = true ∧ (st.dev = lst.dev ∧ st.ino = lst.ino) ∧
      (st.uid = u ∨ st.uid = 0) ∧ ¬WritableByOthers st ∧ (rr = true → ¬ReadableByOthers st) := by
  rw [← writable_iff, ← readable_iff, leafOk]
  by_cases h1 : st.isReg = true
  · rw [if_neg (by simp [h1])]
    by_cases h2 : st.uid ≠ u ∧ st.uid ≠ 0
    · rw [if_pos h2]
      constructor
      · intro h; cases h
      · rintro ⟨_, _, h | h, _⟩
        · exact absurd h h2.1
        · exact absurd h h2.2
    · rw [if_neg h2]
      have h2' : st.uid = u ∨ st.uid = 0 := by
        by_cases a : st.uid = u
        · exact .inl a
        · by_cases b : st.uid = 0
          · exact .inr b
          · exact absurd ⟨a, b⟩ h2
      by_cases h3 : st.mode &&& 0o022 ≠ 0
      · rw [if_pos h3]
        constructor
        · intro h; cases h
        · rintro ⟨_, _, _, h, _⟩; exact absurd h3 h
      · rw [if_neg h3]
        by_cases h4 : rr = true ∧ st.mode &&& 0o044 ≠ 0
        · rw [if_pos h4]
          constructor
          · intro h; cases h
          · rintro ⟨_, _, _, _, h⟩; exact absurd h4.2 (h h4.1)
        · rw [if_neg h4]
          by_cases h5 : st.dev ≠ lst.dev ∨ st.ino ≠ lst.ino
          · rw [if_pos h5]
            constructor
            · intro h; cases h
            · rintro ⟨_, ⟨a, b⟩, _⟩
              rcases h5 with h5 | h5
              · exact absurd a h5
              · exact absurd b h5
          · rw [if_neg h5]
            simp only [true_iff]
            refine ⟨h1, ⟨?_, ?_⟩, h2', h3, fun hr hm => h4 ⟨hr, hm⟩⟩
            · exact Decidable.byContradiction fun h => h5 (.inl h)
            · exact Decidable.byContradiction fun h => h5 (.inr h)
  · rw [if_pos (by simpa using h1)]
    constructor
    · intro h; cases h
    · rintro ⟨h, _⟩; exact absurd h h1

theorem open_iff {W : World} (hW : Absolute W) (path : Bytes) (u : Nat) (rr : Bool) (contents : Bytes) :
    openSecureFile W path u rr = some contents ↔ Trusted W path u rr contents := by
  rw [openSecureFile]
  constructor
  · intro h
    cases hl : W.lstat path with
    | none => rw [hl] at h; cases h
    | some lst =>
      rw [hl] at h; simp only at h
      by_cases h1 : lst.isReg = true
      · rw [if_neg (by simp [h1])] at h
        cases hr : W.realpath path with
        | none => rw [hr] at h; cases h
        | some r =>
          rw [hr] at h; simp only at h
          cases ho : W.openRead r with
          | none => rw [ho] at h; cases h
          | some p =>
            obtain ⟨st, cts⟩ := p
            rw [ho] at h; simp only at h
            split at h
            · rename_i hleaf
              split at h
              · rename_i hw
                cases h
                obtain ⟨a, b, c, d, e⟩ := (leafOk_iff _ _ _ _).1 hleaf
                exact ⟨lst, r, st, hl, h1, hr, ho, a, b, c, d, e, (walkUp_iff W _ _ (Nat.le_refl _) (hW _ _ hr)).1 hw⟩
              · cases h
            · cases h
      · rw [if_pos (by simpa using h1)] at h; cases h
  · rintro ⟨lst, r, st, hl, h1, hr, ho, a, b, c, d, e, f⟩
    simp only [hl, hr, ho]
    rw [if_neg (by simp [h1]), if_pos ((leafOk_iff _ _ _ _).2 ⟨a, b, c, d, e⟩),
      if_pos ((walkUp_iff W _ _ (Nat.le_refl _) (hW _ _ hr)).2 f)]

end Proofs.SshdFile
