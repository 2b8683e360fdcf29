import Verif.Proofs.CleanPath

namespace Proofs.Path
open Wolf Wolf.Buffer Wolf.Path Spec.Path

/-! ## Doubled delimiters -/

/-- No doubled '/'. -/
def Single (s : Bytes) : Prop := ∀ i : Nat, ¬ (s[i]? = some 47 ∧ s[i + 1]? = some 47)

theorem undup_single (s : Bytes) : Single (undup s) := by
  fun_induction undup s with
  | case1 => intro i h; simp at h
  | case2 a => intro i h; simp at h
  | case3 a b r h ih => exact ih
  | case4 a b r h ih =>
    intro i hi
    cases i with
    | zero =>
      have hb : (undup (b :: r))[0]? = some b := by
        match r with
        | [] => simp [undup]
        | c :: r =>
          have : ∀ (r : Bytes) (b : Byte), (undup (b :: r))[0]? = some b := by
            intro r
            induction r with
            | nil => intro b; simp [undup]
            | cons c r ih =>
              intro b
              unfold undup
              by_cases hc : b = 47 ∧ c = 47
              · rw [if_pos hc, ih c, hc.1, hc.2]
              · rw [if_neg hc]; simp
          exact this (c :: r) b
      simp only [List.getElem?_cons_zero, Option.some.injEq, Nat.zero_add, List.getElem?_cons_succ] at hi
      rw [hb] at hi
      exact h ⟨hi.1, by simpa using hi.2⟩
    | succ i => exact ih i (by simpa using hi)

theorem Cut.single {s s' : Bytes} (h : Cut s s') (hs : Single s) (hc : 58 ∉ s) : Single s' := by
  obtain ⟨p, u, pr, e, hu, hp, _, hpr, hpr2, _, e'⟩ := h.ex
  rw [e']
  unfold orRoot
  split
  · intro i h; cases i <;> simp at h
  · intro i ⟨h1, h2⟩
    have hl : (p.take pr).length = pr := by simp; omega
    by_cases ha : i + 1 < pr
    · rw [List.getElem?_append_left (by omega), List.getElem?_take_of_lt (by omega)] at h1 h2
      apply hs i
      rw [e, List.getElem?_append_left (by omega), List.getElem?_append_left (by omega)]
      exact ⟨h1, h2⟩
    · by_cases hb : i + 1 = pr
      · rw [List.getElem?_append_left (by omega), List.getElem?_take_of_lt (by omega)] at h1
        apply hs i
        rw [e, List.getElem?_append_left (by omega), List.getElem?_append_left (by omega)]
        refine ⟨h1, ?_⟩
        have := hpr2 (by omega)
        rw [List.getD_eq_getElem?_getD, ← hb, List.getElem?_eq_getElem (show i + 1 < p.length by omega)] at this
        rw [List.getElem?_eq_getElem (show i + 1 < p.length by omega)]
        simp only [Option.getD_some] at this
        rcases this with h | h
        · rw [h]
        · exfalso
          apply hc
          rw [e, ← h]
          exact List.mem_append_left _ (List.getElem_mem _)
      · rw [List.getElem?_append_right (by omega), hl] at h1 h2
        apply hs (p.length + 3 + (i - pr))
        rw [e, show p ++ 47 :: 46 :: 46 :: u = (p ++ [47, 46, 46]) ++ u by simp,
          List.getElem?_append_right (by simp), List.getElem?_append_right (by simp; omega)]
        constructor
        · rw [← h1]; congr 1; simp
        · rw [← h2]; congr 1; simp; omega

theorem Cut.sub58 {s s' : Bytes} (h : Cut s s') (hc : 58 ∉ s) : 58 ∉ s' := by
  obtain ⟨p, u, pr, e, _, hp, _, hpr, _, _, e'⟩ := h.ex
  rw [e']
  unfold orRoot
  split
  · decide
  · rw [e] at hc
    intro h
    apply hc
    rcases List.mem_append.1 h with h | h
    · exact List.mem_append_left _ (List.mem_of_mem_take h)
    · simp [h]

theorem Cuts.single {s s' : Bytes} (h : Cuts s s') (hs : Single s) (hc : 58 ∉ s) : Single s' := by
  induction h with
  | done _ => exact hs
  | cut h _ ih => exact ih (h.single hs hc) (h.sub58 hc)

theorem unslash_prefix (s : Bytes) : unslash s <+: s := by
  unfold unslash
  split
  · exact List.dropLast_prefix s
  · exact List.prefix_refl s

theorem Single.pre {s t : Bytes} (h : Single s) (hp : t <+: s) : Single t := by
  obtain ⟨r, rfl⟩ := hp
  intro i ⟨h1, h2⟩
  have l1 : i < t.length := (List.getElem?_eq_some_iff.1 h1).1
  have l2 : i + 1 < t.length := (List.getElem?_eq_some_iff.1 h2).1
  exact h i ⟨by rw [List.getElem?_append_left l1]; exact h1, by rw [List.getElem?_append_left l2]; exact h2⟩

/-! ## Absolute paths in pieces -/

theorem slashes_ne (s : Bytes) : slashes s ≠ [] := by
  cases s with
  | nil => simp [slashes]
  | cons b bs =>
    unfold slashes
    by_cases hb : b = 47
    · rw [if_pos hb]; simp
    · rw [if_neg hb]; cases slashes bs <;> simp

/-- The string with these pieces. -/
def joined : List Bytes → Bytes
  | [] => []
  | q :: qs => q ++ flat qs

theorem joined_slashes (s : Bytes) : joined (slashes s) = s := by
  induction s with
  | nil => rfl
  | cons b bs ih =>
    unfold slashes
    by_cases hb : b = 47
    · rw [if_pos hb]
      cases hs : slashes bs with
      | nil => exact absurd hs (slashes_ne bs)
      | cons c cs =>
        rw [hs] at ih
        simp only [joined] at ih ⊢
        rw [flat_cons]; subst hb; simp [ih]
    · rw [if_neg hb]
      cases hs : slashes bs with
      | nil => exact absurd hs (slashes_ne bs)
      | cons c cs =>
        rw [hs] at ih
        simp only [joined] at ih ⊢
        simp [ih]

theorem slashes_mem (s : Bytes) : ∀ q ∈ slashes s, ∀ b ∈ q, b ≠ 47 ∧ b ∈ s := by
  induction s with
  | nil => intro q hq; simp [slashes] at hq; subst hq; simp
  | cons x s ih =>
    intro q hq b hb
    unfold slashes at hq
    by_cases hx : x = 47
    · rw [if_pos hx] at hq
      rcases List.mem_cons.1 hq with e | hq
      · subst e; simp at hb
      · exact ⟨(ih q hq b hb).1, by simp [(ih q hq b hb).2]⟩
    · rw [if_neg hx] at hq
      cases hs : slashes s with
      | nil => exact absurd hs (slashes_ne s)
      | cons y ys =>
        rw [hs] at hq ih
        dsimp only at hq
        rcases List.mem_cons.1 hq with e | hq
        · subst e
          rcases List.mem_cons.1 hb with e | hb
          · subst e; exact ⟨hx, by simp⟩
          · have := ih y (by simp) b hb
            exact ⟨this.1, by simp [this.2]⟩
        · have := ih q (by simp [hq]) b hb
          exact ⟨this.1, by simp [this.2]⟩

theorem slashes_piece : ∀ (t r : Bytes), (∀ b ∈ t, b ≠ 47) → ∀ c cs, slashes r = c :: cs → slashes (t ++ r) = (t ++ c) :: cs
  | [], r, _, c, cs, h => h
  | b :: t, r, hb, c, cs, h => by
    rw [List.cons_append]
    unfold slashes
    rw [if_neg (hb b (by simp)), slashes_piece t r (fun x hx => hb x (by simp [hx])) c cs h]
    rfl

theorem slashes_flat (qs : List Bytes) (h : ∀ q ∈ qs, ∀ b ∈ q, b ≠ 47) : slashes (flat qs) = [] :: qs := by
  induction qs with
  | nil => rfl
  | cons q qs ih =>
    rw [flat_cons, List.cons_append]
    unfold slashes
    rw [if_pos rfl, slashes_piece q (flat qs) (h q (by simp)) [] qs (ih (fun x hx => h x (by simp [hx])))]
    simp

/-- Pieces an absolute path without ':' is made of. -/
def Free (qs : List Bytes) : Prop := ∀ q ∈ qs, ∀ b ∈ q, b ≠ 47 ∧ b ≠ 58

theorem Free.one {q : Bytes} {qs : List Bytes} (h : Free (q :: qs)) : ∀ b ∈ q, b ≠ 47 := fun b hb => (h q (by simp) b hb).1
theorem Free.rest {q : Bytes} {qs : List Bytes} (h : Free (q :: qs)) : Free qs := fun x hx => h x (by simp [hx])

/-- The first loop on pieces. -/
def undotP : List Bytes → List Bytes
  | [] => []
  | [q] => [q]
  | q :: q2 :: qs => if q = [46] then undotP (q2 :: qs) else q :: undotP (q2 :: qs)

/-- The second loop on pieces. -/
def undupP : List Bytes → List Bytes
  | [] => []
  | [q] => [q]
  | q :: q2 :: qs => if q = [] then undupP (q2 :: qs) else q :: undupP (q2 :: qs)

theorem undot_47 (y : Byte) (X : Bytes) : undot y (47 :: X) = 47 :: undot 47 X := by
  cases X with
  | nil => simp [undot]
  | cons x X => simp [undot]

theorem undot_piece : ∀ (q : Bytes) (prev : Byte) (X : Bytes), (∀ b ∈ q, b ≠ 47) → (q ≠ [46] ∨ prev ≠ 47) →
    undot prev (q ++ 47 :: X) = q ++ 47 :: undot 47 X
  | [], prev, X, _, _ => undot_47 prev X
  | [b], prev, X, _, h => by
    simp only [List.cons_append, List.nil_append]
    rw [undot, if_neg (by
      rintro ⟨h1, h2, _⟩
      subst h1 h2
      rcases h with h | h
      · exact h rfl
      · exact h rfl), undot_47]
  | b :: c :: q, prev, X, hq, _ => by
    have hc : c ≠ 47 := hq c (by simp)
    have hb : b ≠ 47 := hq b (by simp)
    simp only [List.cons_append]
    rw [undot, if_neg (by rintro ⟨_, _, h⟩; exact hc h)]
    have := undot_piece (c :: q) b X (fun x hx => hq x (by simp [hx])) (Or.inr hb)
    simp only [List.cons_append] at this
    rw [this]

theorem undot_noslash : ∀ (q : Bytes) (prev : Byte), (∀ b ∈ q, b ≠ 47) → undot prev q = q
  | [], _, _ => rfl
  | [b], _, _ => rfl
  | b :: c :: q, prev, h => by
    unfold undot
    rw [if_neg (by rintro ⟨_, _, h3⟩; exact h c (by simp) h3), undot_noslash (c :: q) b (fun x hx => h x (by simp [hx]))]

theorem undot_flat : ∀ (qs : List Bytes), qs ≠ [] → (∀ q ∈ qs, ∀ b ∈ q, b ≠ 47) →
    47 :: undot 47 (joined qs) = flat (undotP qs) ∧ undotP qs ≠ []
  | [], h, _ => absurd rfl h
  | [q], _, h => by
    simp only [joined, undotP, flat_nil, List.append_nil]
    rw [undot_noslash q 47 (h q (by simp))]
    exact ⟨by simp [flat_cons, flat_nil], by simp⟩
  | q :: q2 :: qs, _, h => by
    obtain ⟨ih, ihn⟩ := undot_flat (q2 :: qs) (by simp) (fun x hx => h x (by simp [hx]))
    have hj : joined (q :: q2 :: qs) = q ++ 47 :: joined (q2 :: qs) := by simp [joined, flat_cons]
    rw [hj]
    unfold undotP
    by_cases hq : q = [46]
    · subst hq
      rw [if_pos rfl]
      have : undot 47 ([46] ++ 47 :: joined (q2 :: qs)) = undot 47 (joined (q2 :: qs)) := by simp [undot]
      rw [this]
      exact ⟨ih, ihn⟩
    · rw [if_neg hq, undot_piece q 47 _ (h q (by simp)) (Or.inl hq), ih]
      exact ⟨by simp [flat_cons], by simp⟩

theorem undup_skip (a : Byte) (Z : Bytes) (h : a ≠ 47) : undup (a :: Z) = a :: undup Z := by
  cases Z with
  | nil => simp [undup]
  | cons z Z => simp [undup, h]

theorem undup_piece : ∀ (q X : Bytes), (∀ b ∈ q, b ≠ 47) → undup (q ++ X) = q ++ undup X
  | [], _, _ => rfl
  | b :: q, X, h => by
    rw [List.cons_append, undup_skip _ _ (h b (by simp)), undup_piece q X (fun x hx => h x (by simp [hx]))]
    rfl

theorem undup_flat : ∀ (qs : List Bytes), qs ≠ [] → (∀ q ∈ qs, ∀ b ∈ q, b ≠ 47) →
    undup (flat qs) = flat (undupP qs) ∧ undupP qs ≠ []
  | [], h, _ => absurd rfl h
  | [q], _, h => by
    refine ⟨?_, by simp [undupP]⟩
    have hq := h q (by simp)
    simp only [flat_cons, flat_nil, undupP, List.append_nil]
    cases q with
    | nil => simp [undup]
    | cons b q =>
      have : undup (47 :: b :: q) = 47 :: undup (b :: q) := by simp [undup, hq b (by simp)]
      rw [this]
      have := undup_piece (b :: q) [] hq
      simp [undup] at this
      rw [this]
  | q :: q2 :: qs, _, h => by
    obtain ⟨ih, ihn⟩ := undup_flat (q2 :: qs) (by simp) (fun x hx => h x (by simp [hx]))
    have hq := h q (by simp)
    unfold undupP
    by_cases hq0 : q = []
    · subst hq0
      rw [if_pos rfl, ← ih]
      refine ⟨?_, ihn⟩
      rw [flat_cons, flat_cons]
      simp [undup]
    · rw [if_neg hq0]
      refine ⟨?_, by simp⟩
      rw [flat_cons q, flat_cons q, ← ih]
      cases q with
      | nil => exact absurd rfl hq0
      | cons b q =>
        have : undup (47 :: (b :: q) ++ flat (q2 :: qs)) = 47 :: undup ((b :: q) ++ flat (q2 :: qs)) := by
          simp [undup, hq b (by simp)]
        rw [this, undup_piece _ _ hq]
        rfl

/-- What the loops leave: only the last piece can be empty or ".". -/
structure Inv (qs : List Bytes) : Prop where
  ne : qs ≠ []
  free : Free qs
  full : [] ∉ qs.dropLast
  nodot : [46] ∉ qs.dropLast

/-- The object named by the pieces. -/
def res (qs : List Bytes) : List Bytes := resolve [] (qs.filter (· ≠ []))

theorem undotP_sub (qs : List Bytes) : (undotP qs).Sublist qs := by
  fun_induction undotP qs with
  | case1 => exact List.Sublist.refl _
  | case2 => exact List.Sublist.refl _
  | case3 q2 qs ih => exact ih.cons _
  | case4 q q2 qs h ih => exact ih.cons_cons _

theorem undupP_sub (qs : List Bytes) : (undupP qs).Sublist qs := by
  fun_induction undupP qs with
  | case1 => exact List.Sublist.refl _
  | case2 => exact List.Sublist.refl _
  | case3 q2 qs ih => exact ih.cons _
  | case4 q q2 qs h ih => exact ih.cons_cons _

theorem undotP_dropLast (qs : List Bytes) : [46] ∉ (undotP qs).dropLast := by
  fun_induction undotP qs with
  | case1 => simp
  | case2 => simp
  | case3 q2 qs ih => exact ih
  | case4 q q2 qs h ih =>
    cases hu : undotP (q2 :: qs) with
    | nil => simp
    | cons y ys =>
      rw [hu] at ih
      rw [List.dropLast_cons_cons]
      intro hm
      rcases List.mem_cons.1 hm with e | hm
      · exact h e.symm
      · exact ih hm

theorem undupP_dropLast (qs : List Bytes) : [] ∉ (undupP qs).dropLast := by
  fun_induction undupP qs with
  | case1 => simp
  | case2 => simp
  | case3 q2 qs ih => exact ih
  | case4 q q2 qs h ih =>
    cases hu : undupP (q2 :: qs) with
    | nil => simp
    | cons y ys =>
      rw [hu] at ih
      rw [List.dropLast_cons_cons]
      intro hm
      rcases List.mem_cons.1 hm with e | hm
      · exact h e.symm
      · exact ih hm

theorem undupP_dot (qs : List Bytes) (h : [46] ∉ qs.dropLast) : [46] ∉ (undupP qs).dropLast := by
  fun_induction undupP qs with
  | case1 => simp
  | case2 => simp
  | case3 q2 qs ih =>
    rw [List.dropLast_cons_cons] at h
    exact ih (fun x => h (by simp [x]))
  | case4 q q2 qs hq ih =>
    rw [List.dropLast_cons_cons] at h
    have ih := ih (fun x => h (by simp [x]))
    cases hu : undupP (q2 :: qs) with
    | nil => simp
    | cons y ys =>
      rw [hu] at ih
      rw [List.dropLast_cons_cons]
      intro hm
      rcases List.mem_cons.1 hm with e | hm
      · exact h (by simp [← e])
      · exact ih hm

theorem resolve_dot (qs : List Bytes) : ∀ d, resolve d ((undotP qs).filter (· ≠ [])) = resolve d (qs.filter (· ≠ [])) := by
  fun_induction undotP qs with
  | case1 => intro d; rfl
  | case2 => intro d; rfl
  | case3 q2 qs ih =>
    intro d
    rw [ih d]
    simp [resolve, go]
  | case4 q q2 qs h ih =>
    intro d
    by_cases hq : q = []
    · simp only [hq, List.filter_cons, ne_eq, not_true_eq_false, decide_false] at ih ⊢
      exact ih d
    · rw [List.filter_cons, List.filter_cons]
      simp only [ne_eq, hq, not_false_eq_true, decide_true, if_true]
      exact ih (go d q)

theorem resolve_dup (qs : List Bytes) : (undupP qs).filter (· ≠ []) = qs.filter (· ≠ []) := by
  fun_induction undupP qs with
  | case1 => rfl
  | case2 => rfl
  | case3 q2 qs ih => rw [ih]; simp
  | case4 q q2 qs h ih => rw [List.filter_cons, ih, List.filter_cons (x := q)]

/-- After the first two loops. -/
theorem tidy_abs (t : Bytes) (hc : 58 ∉ t) : ∃ qs, tidy (47 :: t) = flat qs ∧ Inv qs ∧ res qs = posixResolve (47 :: t) := by
  have hfree : Free (slashes t) := fun q hq b hb => by
    have := slashes_mem t q hq b hb
    exact ⟨this.1, fun e => hc (e ▸ this.2)⟩
  have h1 := undot_flat (slashes t) (slashes_ne t) (fun q hq b hb => (hfree q hq b hb).1)
  rw [joined_slashes] at h1
  have hf1 : Free (undotP (slashes t)) := fun q hq => hfree q ((undotP_sub _).subset hq)
  have h2 := undup_flat (undotP (slashes t)) h1.2 (fun q hq b hb => (hf1 q hq b hb).1)
  refine ⟨undupP (undotP (slashes t)), ?_, ⟨h2.2, ?_, ?_, ?_⟩, ?_⟩
  · have : undots (47 :: t) = flat (undotP (slashes t)) := h1.1
    unfold tidy
    rw [this, h2.1]
  · exact fun q hq => hf1 q ((undupP_sub _).subset hq)
  · exact undupP_dropLast _
  · exact undupP_dot _ (undotP_dropLast _)
  · unfold res posixResolve
    rw [resolve_dup, resolve_dot]
    have : slashes (47 :: t) = [] :: slashes t := by rw [slashes.eq_2, if_pos rfl]
    rw [this]; simp

/-- A '/' in the path is the begin of a piece. -/
theorem flat_split : ∀ (qs : List Bytes) (p w : Bytes), (∀ q ∈ qs, ∀ b ∈ q, b ≠ 47) → flat qs = p ++ 47 :: w →
    ∃ a b, qs = a ++ b ∧ p = flat a ∧ 47 :: w = flat b
  | [], p, w, _, h => by simp [flat_nil] at h
  | q :: qs, p, w, hf, h => by
    cases p with
    | nil => exact ⟨[], q :: qs, rfl, rfl, by simpa using h.symm⟩
    | cons x p =>
      rw [flat_cons] at h
      simp at h
      obtain ⟨e1, e2⟩ := h
      subst e1
      have hq := hf q (by simp)
      -- the piece `q` is a prefix of `p`
      have key : ∀ (q p : Bytes), (∀ b ∈ q, b ≠ 47) → q ++ flat qs = p ++ 47 :: w → ∃ p', p = q ++ p' ∧ flat qs = p' ++ 47 :: w := by
        intro q
        induction q with
        | nil => intro p _ e; exact ⟨p, rfl, e⟩
        | cons b q ih =>
          intro p hb e
          cases p with
          | nil => simp at e; exact absurd e.1 (hb b (by simp))
          | cons y p =>
            simp at e
            obtain ⟨p', g1, g2⟩ := ih p (fun x hx => hb x (by simp [hx])) e.2
            exact ⟨p', by simp [g1, e.1], g2⟩
      obtain ⟨p', g1, g2⟩ := key q p hq e2
      obtain ⟨a, b, k1, k2, k3⟩ := flat_split qs p' w (fun x hx => hf x (by simp [hx])) g2
      exact ⟨q :: a, b, by simp [k1], by simp [flat_cons, g1, k2], k3⟩

theorem dd_flat {b : List Bytes} (hf : ∀ q ∈ b, ∀ x ∈ q, x ≠ 47) (u : Bytes) (hu : u = [] ∨ ∃ v, u = 47 :: v)
    (h : 47 :: 46 :: 46 :: u = flat b) : ∃ b', b = [46, 46] :: b' ∧ flat b' = u := by
  cases b with
  | nil => simp [flat_nil] at h
  | cons y b =>
    rw [flat_cons] at h
    simp at h
    have hy := hf y (by simp)
    have e1 : ([46, 46] ++ u).takeWhile (· ≠ 47) = [46, 46] := by
      rcases hu with rfl | ⟨v, rfl⟩ <;> simp
    have e2 : (y ++ flat b).takeWhile (· ≠ 47) = y := by
      rw [takeWhile_all y (fun x hx => by simpa using hy x hx)]
      cases b <;> simp [flat_nil, flat_cons]
    have : y = [46, 46] := by rw [← e1, ← e2]; exact congrArg _ h.symm
    subst this
    exact ⟨b, rfl, by simpa using h.symm⟩

theorem dd_mem {qs : List Bytes} (h : [46, 46] ∈ qs.tail) :
    ∃ a b : Bytes, flat qs = a ++ b ∧ a ≠ [] ∧ DD b := by
  cases qs with
  | nil => simp at h
  | cons q qs =>
    obtain ⟨m, n, e⟩ := List.append_of_mem (show [46, 46] ∈ qs from h)
    refine ⟨flat (q :: m), flat ([46, 46] :: n), ?_, flat_ne (by simp), flat n, by simp [flat_cons], ?_⟩
    · rw [e, ← flat_append]; simp
    · cases n with
      | nil => left; rfl
      | cons c n => right; exact ⟨_, by rw [flat_cons]; rfl⟩

theorem resolve_append (d a b : List Bytes) : resolve d (a ++ b) = resolve (resolve d a) b := by
  simp [resolve, List.foldl_append]

theorem go_back (d : List Bytes) (x : Bytes) (h1 : x ≠ [46]) (h2 : x ≠ [46, 46]) : go (go d x) [46, 46] = d := by
  unfold go
  rw [if_neg h1, if_neg h2, if_neg (by decide), if_pos rfl]
  simp

/-- A cut on pieces. -/
theorem Cut.pieces {qs : List Bytes} {s' : Bytes} (h : Cut (flat qs) s') (hi : Inv qs) :
    ∃ qs', s' = flat qs' ∧ Inv qs' ∧ res qs' = res qs := by
  obtain ⟨p, u, pr, e, hu, hp, hfirst, hpr, hpr1, hpr2, e'⟩ := h.ex
  have hf47 : ∀ q ∈ qs, ∀ b ∈ q, b ≠ 47 := fun q hq b hb => (hi.free q hq b hb).1
  obtain ⟨c, b0, hq, hp0, hb0⟩ := flat_split qs p _ hf47 e
  obtain ⟨b, hb1, hb2⟩ := dd_flat (fun q hx => hf47 q (by simp [hq, hx])) u hu hb0
  have hcne : c ≠ [] := by intro e0; subst e0; rw [flat_nil] at hp0; exact hp hp0
  obtain ⟨a, x, rfl⟩ : ∃ a x, c = a ++ [x] := ⟨c.dropLast, c.getLast hcne, (List.dropLast_concat_getLast hcne).symm⟩
  subst hb1
  have hxf : ∀ y ∈ x, y ≠ 47 ∧ y ≠ 58 := hi.free x (by simp [hq])
  rw [flat_snoc] at hp0
  have hplen : p.length = (flat a).length + 1 + x.length := by rw [hp0]; simp; omega
  -- where the cut begins
  have hpre : pr = (flat a).length := by
    rcases Nat.lt_trichotomy pr (flat a).length with hlt | heq | hgt
    · exfalso
      have := (hpr2 (flat a).length hlt (by omega)).1
      apply this
      rw [hp0]; simp
    · exact heq
    · exfalso
      have hin : p.getD pr 0 ∈ x := by
        rw [hp0, List.getD_eq_getElem?_getD, List.getElem?_append_right (by omega)]
        obtain ⟨j, hj⟩ : ∃ j, pr - (flat a).length = j + 1 := ⟨pr - (flat a).length - 1, by omega⟩
        rw [hj, List.getElem?_cons_succ, List.getElem?_eq_getElem (show j < x.length by omega)]
        simp
      rcases hpr1 (by omega) with h47 | h58
      · exact (hxf _ hin).1 h47
      · exact (hxf _ hin).2 h58
  have htake : p.take pr = flat a := by rw [hp0, hpre]; simp
  rw [htake, ← hb2, ← flat_append] at e'
  -- no earlier ".."
  have hnone : [46, 46] ∉ (a ++ [x]).tail := by
    intro hm
    obtain ⟨m, n, e1, e2, e3⟩ := dd_mem hm
    obtain ⟨v, e4, e5⟩ := e3
    have hle := hfirst m (n ++ flat ([46, 46] :: b)) (by rw [hq, flat_append, e1]; simp) e2 ⟨v ++ flat ([46, 46] :: b), by rw [e4]; simp, by
      right
      rcases e5 with rfl | ⟨w, rfl⟩
      · exact ⟨_, by rw [flat_cons]; rfl⟩
      · exact ⟨_, by simp; rfl⟩⟩
    have : (flat (a ++ [x])).length = m.length + n.length := by rw [e1]; simp
    rw [flat_snoc, ← hp0, e4] at this
    simp at this
    omega
  have hxm : x ∈ qs.dropLast := by
    rw [hq, List.dropLast_append_of_ne_nil (by simp)]
    simp
  have hx0 : x ≠ [] := fun e0 => hi.full (e0 ▸ hxm)
  have hx1 : x ≠ [46] := fun e0 => hi.nodot (e0 ▸ hxm)
  have hres : resolve [] ((a ++ b).filter (· ≠ [])) = res qs := by
    unfold res
    rw [hq]
    simp only [List.filter_append, List.filter_cons, List.filter_nil, ne_eq, hx0, not_false_eq_true, decide_true, if_true,
      reduceCtorEq]
    rw [resolve_append, resolve_append, resolve_append]
    rw [show ∀ d : List Bytes, resolve d ([46, 46] :: b.filter fun x => decide ¬x = []) =
      resolve (go d [46, 46]) (b.filter fun x => decide ¬x = []) from fun d => rfl]
    congr 1
    by_cases hxx : x = [46, 46]
    · have : a = [] := by
        cases a with
        | nil => rfl
        | cons y a => exfalso; exact hnone (by simp [hxx])
      subst this
      subst hxx
      rfl
    · have := go_back (resolve [] (a.filter fun x => decide ¬x = [])) x hx1 hxx
      simpa [resolve] using this.symm
  by_cases hab : a ++ b = []
  · refine ⟨[[]], ?_, ⟨by simp, ?_, by simp, by simp⟩, ?_⟩
    · rw [e', hab]; rfl
    · intro q hq'; simp at hq'; subst hq'; simp
    · rw [← hres, hab]; rfl
  · refine ⟨a ++ b, ?_, ⟨hab, ?_, ?_, ?_⟩, hres⟩
    · rw [e']; unfold orRoot; rw [if_neg (flat_ne hab)]
    · intro q hq'
      exact hi.free q (by rw [hq]; simp at hq' ⊢; rcases hq' with h | h <;> simp [h])
    all_goals
      have hsub : ∀ y ∈ (a ++ b).dropLast, y ∈ qs.dropLast := by
        intro y hy
        rw [hq]
        cases b with
        | nil =>
          simp at hy
          rw [List.dropLast_append_of_ne_nil (by simp)]
          simp
          exact Or.inl (List.dropLast_sublist _ |>.subset hy)
        | cons z b =>
          rw [List.dropLast_append_of_ne_nil (by simp)] at hy
          rw [List.dropLast_append_of_ne_nil (by simp)]
          rw [List.dropLast_cons_of_ne_nil (by simp)]
          simp at hy ⊢
          rcases hy with h | h <;> simp [h]
      first
        | exact fun h => hi.full (hsub _ h)
        | exact fun h => hi.nodot (hsub _ h)

theorem Cuts.pieces {s s' : Bytes} (h : Cuts s s') : ∀ qs, s = flat qs → Inv qs →
    ∃ qs', s' = flat qs' ∧ Inv qs' ∧ res qs' = res qs ∧ [46, 46] ∉ qs'.tail := by
  induction h with
  | @done s hd =>
    intro qs e hi
    refine ⟨qs, e, hi, rfl, ?_⟩
    intro hm
    obtain ⟨a, b, e1, e2, e3⟩ := dd_mem hm
    exact hd a b (e.trans e1) e2 e3
  | cut hc _ ih =>
    intro qs e hi
    subst e
    obtain ⟨qs1, e1, hi1, hr1⟩ := hc.pieces hi
    obtain ⟨qs2, e2, hi2, hr2, h2⟩ := ih qs1 e1 hi1
    exact ⟨qs2, e2, hi2, hr2.trans hr1, h2⟩

/-- The trailing delimiter. -/
theorem unslash_pieces {qs : List Bytes} (hi : Inv qs) (hd : [46, 46] ∉ qs.tail) :
    ∃ qs', unslash (flat qs) = flat qs' ∧ Inv qs' ∧ res qs' = res qs ∧ [46, 46] ∉ qs'.tail ∧
      ((flat qs').length > 3 → [] ∉ qs') := by
  obtain ⟨a, q, rfl⟩ : ∃ a x, qs = a ++ [x] := ⟨qs.dropLast, qs.getLast hi.ne, (List.dropLast_concat_getLast hi.ne).symm⟩
  have hfull := hi.full
  have hnodot := hi.nodot
  rw [List.dropLast_concat] at hfull hnodot
  unfold unslash
  by_cases hc : (flat (a ++ [q])).length > 3 ∧ (flat (a ++ [q]))[(flat (a ++ [q])).length - 1]? = some 47
  · rw [if_pos hc]
    have hq0 : q = [] := by
      apply Classical.byContradiction
      intro hq
      obtain ⟨d, b, rfl⟩ : ∃ d b, q = d ++ [b] := ⟨q.dropLast, q.getLast hq, (List.dropLast_concat_getLast hq).symm⟩
      have hb := (hi.free (d ++ [b]) (by simp) b (by simp)).1
      rw [flat_snoc, show flat a ++ 47 :: (d ++ [b]) = (flat a ++ 47 :: d) ++ [b] by simp] at hc
      have := hc.2
      simp at this
      exact hb this
    subst hq0
    have hane : a ≠ [] := by
      intro e; subst e
      have := hc.1
      simp [flat_cons, flat_nil] at this
    refine ⟨a, by rw [flat_snoc, List.dropLast_concat], ⟨hane, fun x hx => hi.free x (by simp [hx]), ?_, ?_⟩, ?_, ?_, fun _ => hfull⟩
    · exact fun h => hfull (List.dropLast_sublist _ |>.subset h)
    · exact fun h => hnodot (List.dropLast_sublist _ |>.subset h)
    · unfold res; simp
    · intro h
      apply hd
      cases a with
      | nil => simp at h
      | cons y a => simp at h ⊢; exact h
  · rw [if_neg hc]
    refine ⟨a ++ [q], rfl, hi, rfl, hd, ?_⟩
    intro hlen hm
    rcases List.mem_append.1 hm with h | h
    · exact hfull h
    · simp at h
      apply hc
      refine ⟨hlen, ?_⟩
      subst h
      rw [flat_snoc]
      simp

end Proofs.Path
