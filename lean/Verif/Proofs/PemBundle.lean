import Verif.Spec.PemBundle
/-!
# Proofs about loading files of certificates
-/

namespace Proofs.PemBundle
open Wolf (Byte Bytes)
open Wolf.PemBundle Spec.PemBundle

/-! ## Searching -/

theorem prefix_line {n l : Bytes} {X : Bytes} (h10 : (10 : Byte) ∉ n) (h : n <+: l ++ 10 :: X) : n <+: l := by
  rcases List.prefix_or_prefix_of_prefix h (List.prefix_append l (10 :: X)) with h' | ⟨s, hs⟩
  · exact h'
  · cases s with
    | nil => rw [List.append_nil] at hs; rw [hs]; exact List.prefix_refl _
    | cons y s =>
      rw [← hs, List.prefix_append_right_inj] at h
      have : y = 10 := (List.cons_prefix_cons.1 h).1
      exact absurd (by rw [← hs, this]; simp) h10

theorem find_line {n : Bytes} (h10 : (10 : Byte) ∉ n) (hn : n ≠ []) (l X : Bytes) (hl : ¬ n <:+: l) :
    find n (l ++ 10 :: X) = (find n X).map (· + (l.length + 1)) := by
  induction l with
  | nil =>
    show (if n.isPrefixOf (10 :: X) then _ else _) = _
    rw [if_neg]
    · rfl
    · rw [List.isPrefixOf_iff_prefix]
      intro h
      have := prefix_line (l := []) h10 h
      exact hn (List.prefix_nil.1 this)
  | cons x l ih =>
    show (if n.isPrefixOf (x :: (l ++ 10 :: X)) then some 0 else (find n (l ++ 10 :: X)).map (· + 1)) = _
    rw [if_neg]
    · rw [ih (fun h => hl (h.trans (List.infix_cons (List.infix_refl _)))), Option.map_map]
      congr 1
    · rw [List.isPrefixOf_iff_prefix]
      intro h
      exact hl (prefix_line (l := x :: l) h10 h).isInfix

theorem find_lines {n : Bytes} (h10 : (10 : Byte) ∉ n) (hn : n ≠ []) (ls : List Bytes) (X : Bytes) (hl : ∀ l ∈ ls, ¬ n <:+: l) :
    find n (lines ls ++ X) = (find n X).map (· + (lines ls).length) := by
  induction ls with
  | nil => show find n X = _; simp [lines]
  | cons l ls ih =>
    have : lines (l :: ls) ++ X = l ++ 10 :: (lines ls ++ X) := by simp [lines]
    rw [this, find_line h10 hn l _ (hl l List.mem_cons_self), ih (fun l h => hl l (List.mem_cons_of_mem _ h)), Option.map_map]
    congr 1
    funext i
    simp only [lines, List.flatMap_cons, List.length_append, List.length_singleton, Function.comp]
    omega

theorem find_skip {n : Bytes} (a X : Bytes) (h : (List.range a.length).all (fun i => !n.isPrefixOf ((a ++ X).drop i)) = true) :
    find n (a ++ X) = (find n X).map (· + a.length) := by
  rw [List.all_eq_true] at h
  have h' : ∀ i < a.length, n.isPrefixOf ((a ++ X).drop i) = false := fun i hi => by
    simpa using h i (List.mem_range.2 hi)
  clear h
  induction a with
  | nil => simp
  | cons x a ih =>
    show (if n.isPrefixOf (x :: (a ++ X)) then some 0 else (find n (a ++ X)).map (· + 1)) = _
    have h0 := h' 0 (by simp)
    rw [if_neg (by
      show ¬ n.isPrefixOf ((x :: a ++ X).drop 0) = true
      rw [h0]; simp), ih (fun i hi => by
        have := h' (i + 1) (by simp; omega)
        simpa using this), Option.map_map]
    congr 1

theorem find_here (n X : Bytes) (h0 : n ≠ []) : find n (n ++ X) = some 0 := by
  cases n with
  | nil => exact absurd rfl h0
  | cons x n =>
    show (if (x :: n).isPrefixOf (x :: (n ++ X)) then _ else _) = _
    rw [if_pos (by rw [List.isPrefixOf_iff_prefix]; exact List.prefix_append (x :: n) X)]

theorem find_free {n : Bytes} (l : Bytes) (hl : ¬ n <:+: l) : find n l = none := by
  induction l with
  | nil => rfl
  | cons x l ih =>
    show (if n.isPrefixOf (x :: l) then _ else _) = _
    rw [if_neg (by
      rw [List.isPrefixOf_iff_prefix]
      exact fun h => hl h.isInfix), ih (fun h => hl (h.trans (List.infix_cons (List.infix_refl _))))]
    rfl

theorem find_some {n : Bytes} {b : Bytes} {i : Nat} (h : find n b = some i) : n <+: b.drop i := by
  induction b generalizing i with
  | nil => cases h
  | cons x b ih =>
    unfold find at h
    by_cases hp : n.isPrefixOf (x :: b) = true
    · rw [if_pos hp] at h
      cases h
      exact List.isPrefixOf_iff_prefix.1 hp
    · rw [if_neg hp] at h
      cases hf : find n b with
      | none => rw [hf] at h; cases h
      | some j =>
        rw [hf] at h
        cases h
        exact ih hf

/-- Nothing before the place found. -/
theorem find_first {n : Bytes} {b : Bytes} {i : Nat} (h : find n b = some i) : ∀ j < i, ¬ n <+: b.drop j := by
  induction b generalizing i with
  | nil => cases h
  | cons x b ih =>
    unfold find at h
    by_cases hp : n.isPrefixOf (x :: b) = true
    · rw [if_pos hp] at h
      cases h
      intro j hj
      exact absurd hj (Nat.not_lt_zero _)
    · rw [if_neg hp] at h
      cases hf : find n b with
      | none => rw [hf] at h; cases h
      | some k =>
        rw [hf] at h
        cases h
        intro j hj
        cases j with
        | zero => exact fun h => hp (List.isPrefixOf_iff_prefix.2 h)
        | succ j => exact ih hf j (Nat.lt_of_succ_lt_succ hj)

/-! ## Headers and footers -/

theorem header_ne (k : Kind) : header k ≠ [] := by cases k <;> decide
theorem footer_ne (k : Kind) : footer k ≠ [] := by cases k <;> decide
theorem header_10 (k : Kind) : (10 : Byte) ∉ header k := by cases k <;> decide
theorem footer_10 (k : Kind) : (10 : Byte) ∉ footer k := by cases k <;> decide
theorem header_45 (k : Kind) : (45 : Byte) ∈ header k := by cases k <;> decide
theorem footer_45 (k : Kind) : (45 : Byte) ∈ footer k := by cases k <;> decide

theorem blank_free {t n : Bytes} (h : Blank t) (hn : (45 : Byte) ∈ n) : ¬ n <:+: t := by
  intro hi
  rcases h 45 (hi.subset hn) with h | h | h <;> cases h

theorem blank_cons {t : Bytes} (h : Blank t) (X : Bytes) : ∃ y Y, t ++ 10 :: X = y :: Y ∧ (y = 10 ∨ y = 32 ∨ y = 9 ∨ y = 13) := by
  cases t with
  | nil => exact ⟨10, X, rfl, Or.inl rfl⟩
  | cons y t => exact ⟨y, t ++ 10 :: X, rfl, Or.inr (h y List.mem_cons_self)⟩

theorem skip_header (j k : Kind) (hjk : j ≠ k) (y : Byte) (Y : Bytes) (hy : y = 10 ∨ y = 32 ∨ y = 9 ∨ y = 13) :
    find (header j) (header k ++ y :: Y) = (find (header j) (y :: Y)).map (· + (header k).length) := by
  apply find_skip
  cases j <;> cases k
  · exact absurd rfl hjk
  · rcases hy with rfl | rfl | rfl | rfl <;> rfl
  · rcases hy with rfl | rfl | rfl | rfl <;> rfl
  · exact absurd rfl hjk

theorem skip_footer (j k : Kind) (y : Byte) (Y : Bytes) (hy : y = 10 ∨ y = 32 ∨ y = 9 ∨ y = 13) :
    find (header j) (footer k ++ y :: Y) = (find (header j) (y :: Y)).map (· + (footer k).length) := by
  apply find_skip
  cases j <;> cases k <;> rcases hy with rfl | rfl | rfl | rfl <;> rfl

/-- The header of one form in a block of the other, up to its footer. -/
theorem find_other {tr : Bool} {j k : Kind} (hj : Form tr j) (hjk : j ≠ k) {t1 : Bytes} (h1 : Blank t1) (body : List Bytes)
    (hb : ∀ l ∈ body, Free tr l) (X : Bytes) :
    find (header j) (header k ++ (t1 ++ 10 :: (lines body ++ X))) =
      (find (header j) X).map (· + ((header k).length + (t1.length + 1 + (lines body).length))) := by
  obtain ⟨y, Y, e, hy⟩ := blank_cons h1 (lines body ++ X)
  rw [e, skip_header j k hjk y Y hy, ← e, find_line (header_10 j) (header_ne j) t1 _ (blank_free h1 (header_45 j)),
    find_lines (header_10 j) (header_ne j) body X (fun l hl => hb l hl j hj), Option.map_map, Option.map_map]
  congr 1
  funext i
  simp only [Function.comp]
  omega

theorem find_rest {tr : Bool} {j : Kind} (hj : Form tr j) {t1 : Bytes} (h1 : Blank t1) (body : List Bytes)
    (hb : ∀ l ∈ body, Free tr l) (X : Bytes) :
    find (header j) (t1 ++ 10 :: (lines body ++ X)) = (find (header j) X).map (· + (t1.length + 1 + (lines body).length)) := by
  rw [find_line (header_10 j) (header_ne j) t1 _ (blank_free h1 (header_45 j)),
    find_lines (header_10 j) (header_ne j) body X (fun l hl => hb l hl j hj), Option.map_map]
  congr 1
  funext i
  simp only [Function.comp]
  omega

/-! ## Cursors -/

/-- Where the next header of a form is, from offset `o` on, where `R` begins. -/
noncomputable def cur (tr : Bool) (k : Kind) (R : Bytes) (o : Nat) : Option Nat :=
  if k = .cert ∨ tr = true then (find (header k) R).map (· + o) else none

theorem cur_form {tr : Bool} {k : Kind} (h : Form tr k) (R : Bytes) (o : Nat) : cur tr k R o = (find (header k) R).map (· + o) :=
  if_pos h

theorem cur_ge {tr : Bool} {k : Kind} {R : Bytes} {o p : Nat} (h : cur tr k R o = some p) : o ≤ p := by
  unfold cur at h
  by_cases hf : k = .cert ∨ tr = true
  · rw [if_pos hf] at h
    cases hh : find (header k) R with
    | none => rw [hh] at h; cases h
    | some i => rw [hh] at h; cases h; exact Nat.le_add_left _ _
  · rw [if_neg hf] at h; cases h

/-- All that is before `R` has no header of this form. -/
theorem cur_shift {tr : Bool} {k : Kind} {A R : Bytes} {o : Nat}
    (h : Form tr k → find (header k) (A ++ R) = (find (header k) R).map (· + A.length)) :
    cur tr k (A ++ R) o = cur tr k R (o + A.length) := by
  unfold cur
  by_cases hf : k = .cert ∨ tr = true
  · rw [if_pos hf, if_pos hf, h hf, Option.map_map]
    congr 1
    funext i
    simp only [Function.comp]
    omega
  · rw [if_neg hf, if_neg hf]

theorem nextHeader_ge {nc nt : Option Nat} {b q : Nat} (hbq : b ≤ q) (hc : ∀ p, nc = some p → q ≤ p)
    (ht : ∀ p, nt = some p → q ≤ p) : (nextHeader nc nt b = none ∧ nc = none ∧ nt = none) ∨
      ∃ p, nextHeader nc nt b = some p ∧ q ≤ p ∧ (∀ c, nc = some c → p ≤ c) ∧ (∀ t, nt = some t → p ≤ t) := by
  have fc : nc.filter (b ≤ ·) = nc := by
    cases nc with
    | none => rfl
    | some p => have := hc p rfl; simp; omega
  have ft : nt.filter (b ≤ ·) = nt := by
    cases nt with
    | none => rfl
    | some p => have := ht p rfl; simp; omega
  unfold nextHeader
  simp only [fc, ft]
  cases nc with
  | none =>
    cases nt with
    | none => exact Or.inl ⟨rfl, rfl, rfl⟩
    | some t => exact Or.inr ⟨t, rfl, ht t rfl, fun c h => (by cases h), fun t' h => (by cases h; exact Nat.le_refl _)⟩
  | some c =>
    cases nt with
    | none => exact Or.inr ⟨c, rfl, hc c rfl, fun c' h => (by cases h; exact Nat.le_refl _), fun t' h => (by cases h)⟩
    | some t =>
      refine Or.inr ?_
      by_cases h : t < c
      · exact ⟨t, by simp only [if_pos h], ht t rfl, fun c' h' => (by cases h'; omega), fun t' h' => (by cases h'; exact Nat.le_refl _)⟩
      · exact ⟨c, by simp only [if_neg h], hc c rfl, fun c' h' => (by cases h'; exact Nat.le_refl _), fun t' h' => (by cases h'; omega)⟩

/-- The form whose header is there is picked, if that of the other is further on. -/
theorem pick_at (tr : Bool) (k : Kind) (R : Bytes) (o : Nat) (hk : cur tr k R o = some o)
    (ho : ∀ j, j ≠ k → ∀ p, cur tr j R o = some p → o < p) : pick (cur tr .cert R o) (cur tr .trusted R o) = some (k, o) := by
  cases k with
  | cert =>
    rw [hk]
    cases ht : cur tr .trusted R o with
    | none => rfl
    | some t =>
      have := ho .trusted (by simp) t ht
      show (if t < o then _ else _) = _
      rw [if_neg (by omega)]
  | trusted =>
    rw [hk]
    cases hc : cur tr .cert R o with
    | none => rfl
    | some c =>
      have := ho .cert (by simp) c hc
      show (if o < c then _ else _) = _
      rw [if_pos this]

/-! ## A round of the loop -/

/-- The cursors after a header of form `k` at `P.length` was picked. -/
theorem cursors {tr : Bool} {k : Kind} {A R : Bytes} {o : Nat} (hk : Form tr k)
    (hs : ∀ j, Form tr j → find (header j) (A ++ R) = (find (header j) R).map (· + A.length))
    (hs' : ∀ j, Form tr j → j ≠ k → find (header j) (header k ++ (A ++ R)) = (find (header j) R).map (· + ((header k).length + A.length)))
    (j : Kind) :
    (if k = j then (find (header k) (A ++ R)).map (· + (o + (header k).length)) else cur tr j (header k ++ (A ++ R)) o) =
      cur tr j R (o + ((header k).length + A.length)) := by
  by_cases hkj : k = j
  · subst hkj
    rw [if_pos rfl, hs k hk, cur_form hk, Option.map_map]
    congr 1
    funext i
    simp only [Function.comp]
    omega
  · rw [if_neg hkj, ← List.append_assoc, cur_shift (A := header k ++ A) (R := R), List.length_append]
    intro hj
    rw [List.append_assoc, hs' j hj (Ne.symm hkj), List.length_append]

theorem other_gt {tr : Bool} {k : Kind} {A R : Bytes} {o : Nat}
    (hs' : ∀ j, Form tr j → j ≠ k → find (header j) (header k ++ (A ++ R)) = (find (header j) R).map (· + ((header k).length + A.length)))
    (j : Kind) (hjk : j ≠ k) (p : Nat) (h : cur tr j (header k ++ (A ++ R)) o = some p) : o < p := by
  by_cases hj : Form tr j
  · rw [cur_form hj, hs' j hj hjk] at h
    have hl := List.length_pos_iff.2 (header_ne k)
    cases hf : find (header j) R with
    | none => rw [hf] at h; cases h
    | some i => rw [hf] at h; cases h; show o < i + ((header k).length + A.length) + o; omega
  · rw [show cur tr j (header k ++ (A ++ R)) o = none from if_neg hj] at h; cases h

theorem guard {nc nt : Option Nat} {L b : Nat} (hb : b ≤ L) (hc : ∀ p, nc = some p → p ≤ L) (ht : ∀ p, nt = some p → p ≤ L) :
    ¬ (wraps (nextHeader nc nt b) b = true ∨ L - b < searchSz (nextHeader nc nt b) L b) := by
  have key : ∀ p, nextHeader nc nt b = some p → b ≤ p ∧ p ≤ L := by
    intro p hp
    have fc : ∀ x, nc.filter (b ≤ ·) = some x → b ≤ x ∧ x ≤ L := by
      intro x h
      cases nc with
      | none => cases h
      | some c =>
        have := hc c rfl
        by_cases hcb : b ≤ c
        · rw [Option.filter_some_pos (by simpa using hcb)] at h; cases h; exact ⟨hcb, this⟩
        · rw [Option.filter_some_neg (by simpa using hcb)] at h; cases h
    have ft : ∀ x, nt.filter (b ≤ ·) = some x → b ≤ x ∧ x ≤ L := by
      intro x h
      cases nt with
      | none => cases h
      | some c =>
        have := ht c rfl
        by_cases hcb : b ≤ c
        · rw [Option.filter_some_pos (by simpa using hcb)] at h; cases h; exact ⟨hcb, this⟩
        · rw [Option.filter_some_neg (by simpa using hcb)] at h; cases h
    unfold nextHeader at hp
    simp only at hp
    cases h1 : nt.filter (b ≤ ·) with
    | none =>
      rw [h1] at hp
      cases h2 : nc.filter (b ≤ ·) with
      | none => rw [h2] at hp; cases hp
      | some c => rw [h2] at hp; cases hp; exact fc _ h2
    | some t =>
      rw [h1] at hp
      cases h2 : nc.filter (b ≤ ·) with
      | none => rw [h2] at hp; cases hp; exact ft _ h1
      | some c =>
        rw [h2] at hp
        simp only at hp
        split at hp
        · cases hp; exact ft _ h1
        · cases hp; exact fc _ h2
  generalize nextHeader nc nt b = x at key
  cases x with
  | none =>
    rintro (h | h)
    · cases h
    · have h' : L - b < L - b := h
      omega
  | some p =>
    obtain ⟨k1, k2⟩ := key p rfl
    rintro (h | h)
    · have h' : p < b := of_decide_eq_true h
      omega
    · have h' : L - b < p - b := h
      omega

theorem find_le {n b : Bytes} {i : Nat} (h : find n b = some i) : i ≤ b.length := by
  induction b generalizing i with
  | nil => cases h
  | cons x b ih =>
    unfold find at h
    split at h
    · cases h; omega
    · cases hf : find n b with
      | none => rw [hf] at h; cases h
      | some j =>
        rw [hf] at h
        cases h
        have := ih hf
        show j + 1 ≤ b.length + 1
        omega

/-- One round, up to the search for the footer. -/
theorem round {tr : Bool} (good : Nat → Bool) {k : Kind} {P A R : Bytes} (hk : Form tr k)
    (hs : ∀ j, Form tr j → find (header j) (A ++ R) = (find (header j) R).map (· + A.length))
    (hs' : ∀ j, Form tr j → j ≠ k → find (header j) (header k ++ (A ++ R)) = (find (header j) R).map (· + ((header k).length + A.length)))
    (fuel used : Nat) (hu : used ≤ P.length) (l : Log) :
    ∃ m, (∀ j p, cur tr j R 0 = some p → m ≤ p) ∧
      loop good (P ++ (header k ++ (A ++ R))) (fuel + 1) used (cur tr .cert (header k ++ (A ++ R)) P.length)
        (cur tr .trusted (header k ++ (A ++ R)) P.length) l =
      match find (footer k) (A ++ R.take m) with
      | none => loop good (P ++ (header k ++ (A ++ R))) fuel (P.length + (header k).length)
          (cur tr .cert R (P.length + ((header k).length + A.length))) (cur tr .trusted R (P.length + ((header k).length + A.length)))
          { l with failed := l.failed + 1 }
      | some i => loop good (P ++ (header k ++ (A ++ R))) fuel (P.length + (P.length + (header k).length + i - P.length + (footer k).length))
          (cur tr .cert R (P.length + ((header k).length + A.length))) (cur tr .trusted R (P.length + ((header k).length + A.length)))
          (hand good l k (((P ++ (header k ++ (A ++ R))).drop P.length).take (P.length + (header k).length + i - P.length + (footer k).length))) := by
  have hl := List.length_pos_iff.2 (header_ne k)
  have hc : cur tr k (header k ++ (A ++ R)) P.length = some P.length := by
    rw [cur_form hk, find_here _ _ (header_ne k)]; simp
  have hp := pick_at tr k (header k ++ (A ++ R)) P.length hc (other_gt hs')
  have hd : (P ++ (header k ++ (A ++ R))).drop (P.length + (header k).length) = A ++ R := by
    rw [← List.append_assoc, ← List.length_append, List.drop_left]
  have hlen : (P ++ (header k ++ (A ++ R))).length = P.length + (header k).length + A.length + R.length := by
    simp only [List.length_append]; omega
  have c1 := cursors (o := P.length) hk hs hs' .cert
  have c2 := cursors (o := P.length) hk hs hs' .trusted
  have hge : ∀ j p, cur tr j R (P.length + ((header k).length + A.length)) = some p →
      P.length + ((header k).length + A.length) ≤ p := fun j p h => cur_ge h
  have hsh : ∀ j o, cur tr j R o = (cur tr j R 0).map (· + o) := by
    intro j o
    unfold cur
    by_cases hf : j = .cert ∨ tr = true
    · rw [if_pos hf, if_pos hf, Option.map_map]; congr 1
    · rw [if_neg hf, if_neg hf]; rfl
  have hnext := nextHeader_ge (nc := cur tr .cert R (P.length + ((header k).length + A.length)))
    (nt := cur tr .trusted R (P.length + ((header k).length + A.length))) (b := P.length + (header k).length)
    (q := P.length + ((header k).length + A.length)) (by omega) (hge .cert) (hge .trusted)
  have key : ∃ m, (∀ j p, cur tr j R 0 = some p → m ≤ p) ∧
      (A ++ R).take (searchSz (nextHeader (cur tr .cert R (P.length + ((header k).length + A.length)))
        (cur tr .trusted R (P.length + ((header k).length + A.length))) (P.length + (header k).length))
        (P ++ (header k ++ (A ++ R))).length (P.length + (header k).length)) = A ++ R.take m := by
    rcases hnext with ⟨h, h1, h2⟩ | ⟨p, h, hq, h1, h2⟩
    · refine ⟨R.length, ?_, ?_⟩
      · intro j p hp
        rw [hsh] at h1 h2
        cases j
        · rw [Option.map_eq_none_iff.1 h1] at hp; cases hp
        · rw [Option.map_eq_none_iff.1 h2] at hp; cases hp
      · rw [h, hlen]
        unfold searchSz
        simp only
        rw [List.take_of_length_le (by rw [List.length_append]; omega), List.take_length]
    · refine ⟨p - (P.length + ((header k).length + A.length)), ?_, ?_⟩
      · intro j i hi
        rw [hsh] at h1 h2
        cases j
        · rw [hi] at h1; have : p ≤ i + (P.length + ((header k).length + A.length)) := h1 _ rfl; omega
        · rw [hi] at h2; have : p ≤ i + (P.length + ((header k).length + A.length)) := h2 _ rfl; omega
      · rw [h]
        unfold searchSz
        simp only
        rw [List.take_append, List.take_of_length_le (by omega)]
        congr 2
        omega
  obtain ⟨m, hm, ht⟩ := key
  refine ⟨m, hm, ?_⟩
  show (if used < _ then _ else _) = _
  rw [if_pos (by omega), hp]
  simp only
  have hin : ∀ j p, cur tr j R (P.length + ((header k).length + A.length)) = some p → p ≤ (P ++ (header k ++ (A ++ R))).length := by
    intro j p h
    rw [hsh] at h
    cases hf : cur tr j R 0 with
    | none => rw [hf] at h; cases h
    | some i =>
      rw [hf] at h
      cases h
      have hi : i ≤ R.length := by
        unfold cur at hf
        split at hf
        · cases hg : find (header j) R with
          | none => rw [hg] at hf; cases hf
          | some i' => rw [hg] at hf; cases hf; exact find_le hg
        · cases hf
      show i + (P.length + ((header k).length + A.length)) ≤ _
      omega
  have hg := guard (b := P.length + (header k).length) (by omega) (hin .cert) (hin .trusted)
  rw [if_neg (by omega), hd]
  simp only [c1, c2]
  rw [if_neg (by rw [show (A ++ R).length = (P ++ (header k ++ (A ++ R))).length - (P.length + (header k).length) by rw [hlen, List.length_append]; omega]; exact hg)]
  simp only [ht]
  rfl

/-- A whole block. -/
theorem step_whole {tr : Bool} (good : Nat → Bool) {k : Kind} {P t1 R : Bytes} {body : List Bytes} (hk : Form tr k) (h1 : Blank t1)
    (hb : ∀ l ∈ body, Inside tr k l)
    (hf : ∀ j, find (header j) (footer k ++ R) = (find (header j) R).map (· + (footer k).length))
    (fuel used : Nat) (hu : used ≤ P.length) (l : Log) :
    loop good (P ++ (block k t1 body ++ R)) (fuel + 1) used (cur tr .cert (block k t1 body ++ R) P.length)
        (cur tr .trusted (block k t1 body ++ R) P.length) l =
      loop good (P ++ (block k t1 body ++ R)) fuel (P.length + (block k t1 body).length)
        (cur tr .cert R (P.length + (block k t1 body).length)) (cur tr .trusted R (P.length + (block k t1 body).length))
        (hand good l k (block k t1 body)) := by
  have hA : block k t1 body ++ R = header k ++ ((t1 ++ 10 :: (lines body ++ footer k)) ++ R) := by
    unfold block; rw [List.append_assoc]
  have hA' : (t1 ++ 10 :: (lines body ++ footer k)) ++ R = t1 ++ 10 :: (lines body ++ (footer k ++ R)) := by simp
  have hAl : (t1 ++ 10 :: (lines body ++ footer k)).length = t1.length + 1 + (lines body).length + (footer k).length := by
    simp only [List.length_append, List.length_cons]; omega
  have hbl : (block k t1 body).length = (header k).length + (t1 ++ 10 :: (lines body ++ footer k)).length := List.length_append
  obtain ⟨m, _, hm⟩ := round good (tr := tr) (k := k) (P := P) (A := t1 ++ 10 :: (lines body ++ footer k)) (R := R) hk
    (by
      intro j hj
      rw [hA', find_rest hj h1 body (fun l hl => (hb l hl).1), hf j, Option.map_map, hAl]
      congr 1
      funext i
      simp only [Function.comp]
      omega)
    (by
      intro j hj hjk
      rw [hA', find_other hj hjk h1 body (fun l hl => (hb l hl).1), hf j, Option.map_map, hAl]
      congr 1
      funext i
      simp only [Function.comp]
      omega) fuel used hu l
  have hfind : find (footer k) ((t1 ++ 10 :: (lines body ++ footer k)) ++ R.take m) = some (t1.length + 1 + (lines body).length) := by
    rw [show (t1 ++ 10 :: (lines body ++ footer k)) ++ R.take m = t1 ++ 10 :: (lines body ++ (footer k ++ R.take m)) by simp,
      find_line (footer_10 k) (footer_ne k) t1 _ (blank_free h1 (footer_45 k)),
      find_lines (footer_10 k) (footer_ne k) body _ (fun l hl => (hb l hl).2), find_here _ _ (footer_ne k)]
    simp only [Option.map_some]
    congr 1
    omega
  rw [hfind] at hm
  simp only at hm
  rw [hA, hm, hbl, hAl]
  have e1 : P.length + (P.length + (header k).length + (t1.length + 1 + (lines body).length) - P.length + (footer k).length) =
      P.length + ((header k).length + (t1.length + 1 + (lines body).length + (footer k).length)) := by omega
  have e2 : ((P ++ (header k ++ ((t1 ++ 10 :: (lines body ++ footer k)) ++ R))).drop P.length).take
      (P.length + (header k).length + (t1.length + 1 + (lines body).length) - P.length + (footer k).length) = block k t1 body := by
    rw [List.drop_left, ← hA, show P.length + (header k).length + (t1.length + 1 + (lines body).length) - P.length + (footer k).length =
      (block k t1 body).length by rw [hbl, hAl]; omega, List.take_left]
  rw [e1, e2]

/-- A block that is cut off. -/
theorem step_cut {tr : Bool} (good : Nat → Bool) {k : Kind} {P t1 R : Bytes} {body : List Bytes} (hk : Form tr k) (h1 : Blank t1)
    (hb : ∀ l ∈ body, Inside tr k l) (hR : R = [] ∨ ∃ j, cur tr j R 0 = some 0)
    (fuel used : Nat) (hu : used ≤ P.length) (l : Log) :
    loop good (P ++ (render (.cut k t1 body) ++ R)) (fuel + 1) used (cur tr .cert (render (.cut k t1 body) ++ R) P.length)
        (cur tr .trusted (render (.cut k t1 body) ++ R) P.length) l =
      loop good (P ++ (render (.cut k t1 body) ++ R)) fuel (P.length + (header k).length)
        (cur tr .cert R (P.length + (render (.cut k t1 body)).length)) (cur tr .trusted R (P.length + (render (.cut k t1 body)).length))
        { l with failed := l.failed + 1 } := by
  have hA : render (.cut k t1 body) ++ R = header k ++ ((t1 ++ 10 :: lines body) ++ R) := by
    show (header k ++ (t1 ++ 10 :: lines body)) ++ R = _
    rw [List.append_assoc]
  have hA' : (t1 ++ 10 :: lines body) ++ R = t1 ++ 10 :: (lines body ++ R) := by simp
  have hAl : (t1 ++ 10 :: lines body).length = t1.length + 1 + (lines body).length := by
    simp only [List.length_append, List.length_cons]; omega
  have hbl : (render (.cut k t1 body)).length = (header k).length + (t1 ++ 10 :: lines body).length := List.length_append
  obtain ⟨m, hm0, hm⟩ := round good (tr := tr) (k := k) (P := P) (A := t1 ++ 10 :: lines body) (R := R) hk
    (by
      intro j hj
      rw [hA', find_rest hj h1 body (fun l hl => (hb l hl).1), hAl])
    (by
      intro j hj hjk
      rw [hA', find_other hj hjk h1 body (fun l hl => (hb l hl).1), hAl]) fuel used hu l
  have hRm : R.take m = [] := by
    rcases hR with h | ⟨j, h⟩
    · rw [h]; exact List.take_nil
    · have := hm0 j 0 h
      rw [show m = 0 by omega]; rfl
  have hfind : find (footer k) ((t1 ++ 10 :: lines body) ++ R.take m) = none := by
    rw [hRm, List.append_nil, show t1 ++ 10 :: lines body = t1 ++ 10 :: (lines body ++ []) by simp,
      find_line (footer_10 k) (footer_ne k) t1 _ (blank_free h1 (footer_45 k)),
      find_lines (footer_10 k) (footer_ne k) body _ (fun l hl => (hb l hl).2)]
    rfl
  rw [hfind] at hm
  simp only at hm
  rw [hA, hm, hbl]

/-! ## A whole file -/

/-- What an entry does to the counters. -/
def enter (good : Nat → Bool) (l : Log) : Entry → Log
  | .whole k t1 body _ _ => hand good l k (block k t1 body)
  | .cut _ _ _ => { l with failed := l.failed + 1 }

def enterLast (good : Nat → Bool) (l : Log) : Last → Log
  | none => l
  | some (k, t1, body, _) => hand good l k (block k t1 body)

theorem starts {tr : Bool} {es : List Entry} {z : Last} (hes : ∀ e ∈ es, Ok tr e) (hz : OkLast tr z) :
    es.flatMap render ++ renderLast z = [] ∨ ∃ j, cur tr j (es.flatMap render ++ renderLast z) 0 = some 0 := by
  have key : ∀ k X, Form tr k → ∃ j, cur tr j (header k ++ X) 0 = some 0 := fun k X hk =>
    ⟨k, by rw [cur_form hk, find_here _ _ (header_ne k)]; rfl⟩
  cases es with
  | nil =>
    cases z with
    | none => exact Or.inl rfl
    | some x =>
      obtain ⟨k, t1, body, t2⟩ := x
      refine Or.inr ?_
      show ∃ j, cur tr j ((header k ++ (t1 ++ 10 :: (lines body ++ footer k))) ++ t2) 0 = some 0
      rw [List.append_assoc]
      exact key k _ hz.1
  | cons e es =>
    refine Or.inr ?_
    have := hes e List.mem_cons_self
    rw [List.flatMap_cons]
    cases e with
    | whole k t1 body t2 after =>
      show ∃ j, cur tr j (((header k ++ (t1 ++ 10 :: (lines body ++ footer k))) ++ (t2 ++ 10 :: lines after)) ++ _ ++ _) 0 = some 0
      rw [List.append_assoc, List.append_assoc, List.append_assoc]
      exact key k _ this.1
    | cut k t1 body =>
      show ∃ j, cur tr j ((header k ++ (t1 ++ 10 :: lines body)) ++ _ ++ _) 0 = some 0
      rw [List.append_assoc, List.append_assoc]
      exact key k _ this.1

theorem loop_nil (good : Nat → Bool) (inp : Bytes) (fuel used : Nat) (l : Log) : loop good inp (fuel + 1) used none none l = some l := by
  show (if used < inp.length then some l else some l) = some l
  by_cases h : used < inp.length
  · rw [if_pos h]
  · rw [if_neg h]

theorem cur_nil (tr : Bool) (k : Kind) (o : Nat) : cur tr k [] o = none := by
  unfold cur
  by_cases h : k = .cert ∨ tr = true
  · rw [if_pos h]; rfl
  · rw [if_neg h]

theorem cur_lines {tr : Bool} (j : Kind) (ls : List Bytes) (hl : ∀ l ∈ ls, Free tr l) (R : Bytes) (o : Nat) :
    cur tr j (lines ls ++ R) o = cur tr j R (o + (lines ls).length) :=
  cur_shift fun hj => find_lines (header_10 j) (header_ne j) ls R (fun l h => hl l h j hj)

theorem cur_after {tr : Bool} (j : Kind) {t2 : Bytes} (h2 : Blank t2) (ls : List Bytes) (hl : ∀ l ∈ ls, Free tr l) (R : Bytes) (o : Nat) :
    cur tr j ((t2 ++ 10 :: lines ls) ++ R) o = cur tr j R (o + (t2 ++ 10 :: lines ls).length) := by
  refine cur_shift fun hj => ?_
  rw [show (t2 ++ 10 :: lines ls) ++ R = t2 ++ 10 :: (lines ls ++ R) by simp, find_rest hj h2 ls hl]
  congr 1
  funext i
  simp only [List.length_append, List.length_cons]
  omega

theorem footer_end (j k : Kind) {t2 : Bytes} (h2 : Blank t2) :
    find (header j) (footer k ++ t2) = (find (header j) t2).map (· + (footer k).length) := by
  cases t2 with
  | nil => apply find_skip; cases j <;> cases k <;> rfl
  | cons y Y => exact skip_footer j k y Y (Or.inr (h2 y List.mem_cons_self))

theorem walk {tr : Bool} (good : Nat → Bool) (z : Last) (hz : OkLast tr z) : ∀ (es : List Entry), (∀ e ∈ es, Ok tr e) →
    ∀ (P : Bytes) (fuel used : Nat) (l : Log), used ≤ P.length → es.length + 2 ≤ fuel →
    loop good (P ++ (es.flatMap render ++ renderLast z)) fuel used (cur tr .cert (es.flatMap render ++ renderLast z) P.length)
      (cur tr .trusted (es.flatMap render ++ renderLast z) P.length) l = some (enterLast good (es.foldl (enter good) l) z) := by
  intro es
  induction es with
  | nil =>
    intro _ P fuel used l hu hf
    obtain ⟨n, rfl⟩ : ∃ n, fuel = n + 1 + 1 := ⟨fuel - 2, by simp only [List.length_nil] at hf; omega⟩
    cases z with
    | none =>
      show loop good (P ++ []) (n + 1 + 1) used (cur tr .cert [] P.length) (cur tr .trusted [] P.length) l = some l
      rw [cur_nil, cur_nil, loop_nil]
    | some x =>
      obtain ⟨k, t1, body, t2⟩ := x
      obtain ⟨hk, h1, hb, h2⟩ := hz
      show loop good (P ++ (block k t1 body ++ t2)) (n + 1 + 1) used (cur tr .cert (block k t1 body ++ t2) P.length)
        (cur tr .trusted (block k t1 body ++ t2) P.length) l = some (hand good l k (block k t1 body))
      rw [step_whole good hk h1 hb (fun j => footer_end j k h2) _ _ hu]
      have hc : ∀ j o, cur tr j t2 o = none := by
        intro j o
        unfold cur
        by_cases h : j = .cert ∨ tr = true
        · rw [if_pos h, find_free t2 (blank_free h2 (header_45 j))]; rfl
        · rw [if_neg h]
      rw [hc, hc, loop_nil]
  | cons e es ih =>
    intro hes P fuel used l hu hf
    obtain ⟨n, rfl⟩ : ∃ n, fuel = n + 1 := ⟨fuel - 1, by omega⟩
    have he := hes e List.mem_cons_self
    have hes' : ∀ e ∈ es, Ok tr e := fun e h => hes e (List.mem_cons_of_mem _ h)
    have hn : es.length + 2 ≤ n := by simp only [List.length_cons] at hf; omega
    rw [List.flatMap_cons, List.append_assoc, List.foldl_cons]
    generalize hT : es.flatMap render ++ renderLast z = T at ih ⊢
    cases e with
    | whole k t1 body t2 after =>
      obtain ⟨hk, h1, hb, h2, ha⟩ := he
      have hE : render (.whole k t1 body t2 after) ++ T = block k t1 body ++ ((t2 ++ 10 :: lines after) ++ T) := by
        show (block k t1 body ++ (t2 ++ 10 :: lines after)) ++ T = _
        rw [List.append_assoc]
      rw [hE, step_whole good hk h1 hb (R := (t2 ++ 10 :: lines after) ++ T) (by
        intro j
        obtain ⟨y, Y, e, hy⟩ := blank_cons h2 (lines after ++ T)
        rw [show (t2 ++ 10 :: lines after) ++ T = t2 ++ 10 :: (lines after ++ T) by simp, e]
        exact skip_footer j k y Y hy) _ _ hu, cur_after .cert h2 after ha, cur_after .trusted h2 after ha]
      have := ih hes' (P ++ (block k t1 body ++ (t2 ++ 10 :: lines after))) n (P.length + (block k t1 body).length)
        (hand good l k (block k t1 body)) (by simp only [List.length_append]; omega) hn
      rw [show (P ++ (block k t1 body ++ (t2 ++ 10 :: lines after))) ++ T = P ++ (block k t1 body ++ ((t2 ++ 10 :: lines after) ++ T)) by
          simp only [List.append_assoc],
        show (P ++ (block k t1 body ++ (t2 ++ 10 :: lines after))).length = P.length + (block k t1 body).length + (t2 ++ 10 :: lines after).length by
          simp only [List.length_append]; omega] at this
      exact this
    | cut k t1 body =>
      obtain ⟨hk, h1, hb⟩ := he
      have hs := starts hes' hz
      rw [hT] at hs
      rw [step_cut good hk h1 hb hs _ _ hu]
      have := ih hes' (P ++ render (.cut k t1 body)) n (P.length + (header k).length) { l with failed := l.failed + 1 } (by
        rw [List.length_append]
        have : (render (.cut k t1 body)).length = (header k).length + (t1 ++ 10 :: lines body).length := List.length_append
        omega) hn
      rw [List.append_assoc, List.length_append] at this
      exact this

theorem entries_le (es : List Entry) : es.length ≤ (es.flatMap render).length := by
  induction es with
  | nil => exact Nat.le_refl _
  | cons e es ih =>
    rw [List.flatMap_cons, List.length_append, List.length_cons]
    have : 1 ≤ (render e).length := by
      cases e with
      | whole k t1 body t2 after =>
        have := List.length_pos_iff.2 (header_ne k)
        simp only [render, block, List.length_append]
        omega
      | cut k t1 body =>
        have := List.length_pos_iff.2 (header_ne k)
        simp only [render, List.length_append]
        omega
    omega

/-- A file is walked through. -/
theorem load_file {tr : Bool} (good : Nat → Bool) (pre : List Bytes) (hp : ∀ l ∈ pre, Free tr l) (es : List Entry)
    (hes : ∀ e ∈ es, Ok tr e) (z : Last) (hz : OkLast tr z) (hne : file pre es z ≠ []) :
    load tr good (file pre es z) = some (retOf (enterLast good (es.foldl (enter good) {}) z), enterLast good (es.foldl (enter good) {}) z) := by
  have hc : ∀ j, cur tr j (file pre es z) 0 = cur tr j (es.flatMap render ++ renderLast z) (lines pre).length := by
    intro j
    show cur tr j (lines pre ++ _) 0 = _
    rw [cur_lines j pre hp, Nat.zero_add]
  have h1 : find (header .cert) (file pre es z) = cur tr .cert (es.flatMap render ++ renderLast z) (lines pre).length := by
    rw [← hc, cur_form (Or.inl rfl)]
    simp
  have h2 : (if tr = true then find (header .trusted) (file pre es z) else none) =
      cur tr .trusted (es.flatMap render ++ renderLast z) (lines pre).length := by
    rw [← hc]
    unfold cur
    cases tr
    · rfl
    · simp
  unfold load
  rw [h1, h2]
  have hl : es.length ≤ (file pre es z).length := by
    have := entries_le es
    show _ ≤ (lines pre ++ (es.flatMap render ++ renderLast z)).length
    simp only [List.length_append]
    omega
  have hpos := List.length_pos_iff.2 hne
  have := walk good z hz es hes (lines pre) (2 * (file pre es z).length + 1) 0 {} (Nat.zero_le _) (by omega)
  rw [show lines pre ++ (es.flatMap render ++ renderLast z) = file pre es z from rfl] at this
  rw [this]
  rfl

/-! ## The counters -/

theorem goods_succ (good : Nat → Bool) (n : Nat) : goods good (n + 1) = goods good n + if good n then 1 else 0 := by
  unfold goods
  rw [List.range_succ, List.countP_append, List.countP_singleton]

/-- The counters after these blocks were handed over and `c` were cut off. -/
structure Tally (good : Nat → Bool) (l : Log) (c : Nat) : Prop where
  loaded : l.loaded = goods good l.handed.length
  failed : l.loaded + l.failed = l.handed.length + c

theorem hand_tally {good : Nat → Bool} {l : Log} {c : Nat} (h : Tally good l c) (k : Kind) (b : Bytes) :
    Tally good (hand good l k b) c ∧ (hand good l k b).handed = l.handed ++ [(k, b)] := by
  obtain ⟨h1, h2⟩ := h
  unfold hand
  by_cases hg : good l.handed.length = true
  · rw [if_pos hg]
    refine ⟨⟨?_, ?_⟩, rfl⟩
    · show l.loaded + 1 = goods good (l.handed ++ [(k, b)]).length
      rw [List.length_append, List.length_singleton, goods_succ, if_pos hg, h1]
    · show l.loaded + 1 + l.failed = (l.handed ++ [(k, b)]).length + c
      rw [List.length_append, List.length_singleton]
      omega
  · rw [if_neg hg]
    refine ⟨⟨?_, ?_⟩, rfl⟩
    · show l.loaded = goods good (l.handed ++ [(k, b)]).length
      rw [List.length_append, List.length_singleton, goods_succ, if_neg hg, h1]
      rfl
    · show l.loaded + (l.failed + 1) = (l.handed ++ [(k, b)]).length + c
      rw [List.length_append, List.length_singleton]
      omega

theorem fold_tally (good : Nat → Bool) (es : List Entry) : ∀ (l : Log) (c : Nat), Tally good l c →
    Tally good (es.foldl (enter good) l) (c + cuts es) ∧
    (es.foldl (enter good) l).handed = l.handed ++ blocks es none := by
  induction es with
  | nil => intro l c h; exact ⟨h, by simp [blocks]⟩
  | cons e es ih =>
    intro l c h
    rw [List.foldl_cons]
    cases e with
    | whole k t1 body t2 after =>
      obtain ⟨a, b⟩ := hand_tally h k (block k t1 body)
      obtain ⟨a', b'⟩ := ih (hand good l k (block k t1 body)) c a
      refine ⟨?_, ?_⟩
      · rw [show cuts (.whole k t1 body t2 after :: es) = cuts es by simp [cuts]]
        exact a'
      · rw [show enter good l (.whole k t1 body t2 after) = hand good l k (block k t1 body) from rfl, b', b]
        simp [blocks]
    | cut k t1 body =>
      obtain ⟨a', b'⟩ := ih { l with failed := l.failed + 1 } (c + 1) ⟨h.loaded, by
        have := h.failed
        show l.loaded + (l.failed + 1) = l.handed.length + (c + 1)
        omega⟩
      refine ⟨?_, ?_⟩
      · rw [show cuts (.cut k t1 body :: es) = cuts es + 1 by simp [cuts], show c + (cuts es + 1) = c + 1 + cuts es by omega]
        exact a'
      · rw [show enter good l (.cut k t1 body) = { l with failed := l.failed + 1 } from rfl, b']
        simp [blocks]

theorem all_tally (good : Nat → Bool) (es : List Entry) (z : Last) :
    Tally good (enterLast good (es.foldl (enter good) {}) z) (cuts es) ∧
    (enterLast good (es.foldl (enter good) {}) z).handed = blocks es z := by
  obtain ⟨a, b⟩ := fold_tally good es {} 0 ⟨rfl, rfl⟩
  rw [Nat.zero_add] at a
  cases z with
  | none => exact ⟨a, by rw [show enterLast good (es.foldl (enter good) {}) none = es.foldl (enter good) {} from rfl, b]; simp⟩
  | some x =>
    obtain ⟨k, t1, body, t2⟩ := x
    obtain ⟨a', b'⟩ := hand_tally a k (block k t1 body)
    refine ⟨a', ?_⟩
    rw [show enterLast good (es.foldl (enter good) {}) (some (k, t1, body, t2)) =
      hand good (es.foldl (enter good) {}) k (block k t1 body) from rfl, b', b]
    simp [blocks]

/-! ## Any input -/

/-- A cursor points at a header. -/
def At (inp : Bytes) (k : Kind) (c : Option Nat) : Prop := ∀ p, c = some p → header k <+: inp.drop p

/-- What is left for a cursor. -/
def left (inp : Bytes) : Option Nat → Nat
  | none => 0
  | some p => inp.length - p

theorem at_find {inp : Bytes} {k : Kind} {o : Nat} : At inp k ((find (header k) (inp.drop o)).map (· + o)) := by
  intro p h
  cases hf : find (header k) (inp.drop o) with
  | none => rw [hf] at h; cases h
  | some i =>
    rw [hf] at h
    cases h
    have := find_some hf
    rw [List.drop_drop] at this
    show header k <+: inp.drop (i + o)
    rw [Nat.add_comm]
    exact this

theorem at_len {inp : Bytes} {k : Kind} {p : Nat} (h : header k <+: inp.drop p) : p + (header k).length ≤ inp.length := by
  have h1 := h.length_le
  have h2 := List.length_pos_iff.2 (header_ne k)
  rw [List.length_drop] at h1
  omega

theorem pick_at' {inp : Bytes} {nc nt : Option Nat} {k : Kind} {p : Nat} (hc : At inp .cert nc) (ht : At inp .trusted nt)
    (h : pick nc nt = some (k, p)) : header k <+: inp.drop p ∧ (k = .cert ∧ nc = some p ∨ k = .trusted ∧ nt = some p) := by
  cases nc with
  | none =>
    cases nt with
    | none => cases h
    | some t => cases h; exact ⟨ht _ rfl, Or.inr ⟨rfl, rfl⟩⟩
  | some c =>
    cases nt with
    | none => cases h; exact ⟨hc _ rfl, Or.inl ⟨rfl, rfl⟩⟩
    | some t =>
      unfold pick at h
      by_cases hlt : t < c
      · simp only [if_pos hlt] at h; cases h; exact ⟨ht _ rfl, Or.inr ⟨rfl, rfl⟩⟩
      · simp only [if_neg hlt] at h; cases h; exact ⟨hc _ rfl, Or.inl ⟨rfl, rfl⟩⟩

/-- The search for a needle that ends a text finds its first place only. -/
theorem find_take {n : Bytes} (hn : n ≠ []) (a c : Bytes) (h : find n (a ++ (n ++ c)) = some a.length) :
    find n (a ++ n) = some a.length := by
  have hne := find_first h
  rw [find_skip a n]
  · rw [show find n n = find n (n ++ []) by rw [List.append_nil], find_here n [] hn]
    simp
  · rw [List.all_eq_true]
    intro j hj
    rw [List.mem_range] at hj
    have := hne j hj
    rw [Bool.not_eq_true', ← Bool.not_eq_true, List.isPrefixOf_iff_prefix]
    intro hpre
    refine this (hpre.trans ?_)
    rw [← List.append_assoc, List.drop_append (l₁ := a ++ n)]
    exact List.prefix_append _ _

theorem find_split {n b : Bytes} {i : Nat} (hn : n ≠ []) (h : find n b = some i) : ∃ a c, b = a ++ (n ++ c) ∧ a.length = i := by
  obtain ⟨c, hc⟩ := find_some h
  have hl : i ≤ b.length := by
    have h1 := congrArg List.length hc
    have h2 := List.length_pos_iff.2 hn
    rw [List.length_append, List.length_drop] at h1
    omega
  exact ⟨b.take i, c, by rw [hc, List.take_append_drop], by rw [List.length_take]; omega⟩

theorem loop_any (good : Nat → Bool) (inp : Bytes) : ∀ (fuel used : Nat) (nc nt : Option Nat) (l : Log) (c : Nat),
    At inp .cert nc → At inp .trusted nt → left inp nc + left inp nt < fuel → (∀ x ∈ l.handed, Sound inp x) → Tally good l c →
    ∃ l', loop good inp fuel used nc nt l = some l' ∧ (∀ x ∈ l'.handed, Sound inp x) ∧ ∃ c, Tally good l' c := by
  intro fuel
  induction fuel with
  | zero => intro used nc nt l c _ _ h; omega
  | succ fuel ih =>
    intro used nc nt l c hc ht hf hs hty
    unfold loop
    by_cases hu : used < inp.length
    · rw [if_pos hu]
      cases hp : pick nc nt with
      | none => exact ⟨l, rfl, hs, c, hty⟩
      | some x =>
        obtain ⟨k, p⟩ := x
        obtain ⟨hh, hk⟩ := pick_at' hc ht hp
        have hlen := at_len hh
        have hl0 := List.length_pos_iff.2 (header_ne k)
        simp only
        rw [if_neg (by omega)]
        have hnext : ∀ q, (find (header k) (inp.drop (p + (header k).length))).map (· + (p + (header k).length)) = some q →
            p + (header k).length ≤ q := by
          intro q h
          cases hf : find (header k) (inp.drop (p + (header k).length)) with
          | none => rw [hf] at h; cases h
          | some i => rw [hf] at h; cases h; exact Nat.le_add_left _ _
        have hleft : left inp ((find (header k) (inp.drop (p + (header k).length))).map (· + (p + (header k).length))) < inp.length - p := by
          cases hq : (find (header k) (inp.drop (p + (header k).length))).map (· + (p + (header k).length)) with
          | none => show 0 < _; omega
          | some q =>
            have := hnext q hq
            show inp.length - q < _
            omega
        have hc' : At inp .cert (if k = .cert then (find (header k) (inp.drop (p + (header k).length))).map (· + (p + (header k).length)) else nc) := by
          by_cases h : k = .cert
          · rw [if_pos h, h]; exact at_find
          · rw [if_neg h]; exact hc
        have ht' : At inp .trusted (if k = .trusted then (find (header k) (inp.drop (p + (header k).length))).map (· + (p + (header k).length)) else nt) := by
          by_cases h : k = .trusted
          · rw [if_pos h, h]; exact at_find
          · rw [if_neg h]; exact ht
        have hf' : left inp (if k = .cert then (find (header k) (inp.drop (p + (header k).length))).map (· + (p + (header k).length)) else nc) +
            left inp (if k = .trusted then (find (header k) (inp.drop (p + (header k).length))).map (· + (p + (header k).length)) else nt) < fuel := by
          rcases hk with ⟨h1, h2⟩ | ⟨h1, h2⟩
          · subst h1
            rw [if_pos rfl, if_neg (by simp)]
            rw [h2] at hf
            have : left inp (some p) = inp.length - p := rfl
            omega
          · subst h1
            rw [if_neg (by simp), if_pos rfl]
            rw [h2] at hf
            have : left inp (some p) = inp.length - p := rfl
            omega
        generalize (if k = .cert then (find (header k) (inp.drop (p + (header k).length))).map (· + (p + (header k).length)) else nc) = nc' at *
        generalize (if k = .trusted then (find (header k) (inp.drop (p + (header k).length))).map (· + (p + (header k).length)) else nt) = nt' at *
        have hg := guard (nc := nc') (nt := nt') (L := inp.length) (b := p + (header k).length) (by omega) (fun q h => (by have := at_len (hc' q h); omega))
          (fun q h => (by have := at_len (ht' q h); omega))
        rw [if_neg (by rw [List.length_drop]; exact hg)]
        generalize searchSz (nextHeader nc' nt' (p + (header k).length)) inp.length (p + (header k).length) = m
        cases hfo : find (footer k) ((inp.drop (p + (header k).length)).take m) with
        | none =>
          exact ih _ _ _ _ (c + 1) hc' ht' hf' hs ⟨hty.loaded, by
            have := hty.failed
            show l.loaded + (l.failed + 1) = l.handed.length + (c + 1)
            omega⟩
        | some o =>
          simp only
          obtain ⟨a, d, hb, ha⟩ := find_split (footer_ne k) hfo
          rw [hb, ← ha] at hfo
          have hfa := find_take (footer_ne k) a d hfo
          have hin : inp.drop p = (header k ++ (a ++ footer k)) ++ (d ++ (inp.drop (p + (header k).length)).drop m) := by
            obtain ⟨e, he⟩ := hh
            have h1 : inp.drop (p + (header k).length) = e := by
              rw [← List.drop_drop, ← he, List.drop_left]
            have h2 : e = (a ++ (footer k ++ d)) ++ e.drop m := by
              rw [← hb, h1, List.take_append_drop]
            rw [h1, ← he]
            conv => lhs; rw [h2]
            simp only [List.append_assoc]
          have hblk : (inp.drop p).take (p + (header k).length + o - p + (footer k).length) = header k ++ (a ++ footer k) := by
            rw [hin]
            apply List.take_left'
            simp only [List.length_append]
            omega
          obtain ⟨y1, y2⟩ := hand_tally hty k (header k ++ (a ++ footer k))
          rw [hblk]
          refine ih _ _ _ _ c hc' ht' hf' ?_ y1
          rw [y2]
          intro x hx
          rcases List.mem_append.1 hx with hx | hx
          · exact hs x hx
          · rw [List.mem_singleton] at hx
            subst hx
            refine ⟨a, rfl, ?_, find_first hfa⟩
            refine (List.IsPrefix.isInfix ?_).trans (List.drop_suffix p inp).isInfix
            show header k ++ (a ++ footer k) <+: inp.drop p
            rw [hin]
            exact List.prefix_append _ _
    · rw [if_neg hu]
      exact ⟨l, rfl, hs, c, hty⟩

theorem load_any (tr : Bool) (good : Nat → Bool) (inp : Bytes) :
    ∃ l, load tr good inp = some (retOf l, l) ∧ (∀ x ∈ l.handed, Sound inp x) ∧ ∃ c, Tally good l c := by
  have hh : ∀ k, At inp k (find (header k) inp) := by
    intro k p h
    exact find_some h
  have hl : ∀ k, left inp (find (header k) inp) ≤ inp.length := by
    intro k
    cases find (header k) inp with
    | none => exact Nat.zero_le _
    | some p => exact Nat.sub_le _ _
  obtain ⟨l, h1, h2, h3⟩ := loop_any good inp (2 * inp.length + 1) 0 (find (header .cert) inp)
    (if tr then find (header .trusted) inp else none) {} 0 (hh .cert) (by
      cases tr
      · intro p h; cases h
      · exact hh .trusted) (by
      have h1 := hl .cert
      have h2 := hl .trusted
      cases tr
      · show left inp _ + 0 < _; omega
      · show left inp _ + left inp (find (header .trusted) inp) < _; omega) (fun x hx => by cases hx) ⟨rfl, rfl⟩
  refine ⟨l, ?_, h2, h3⟩
  unfold load
  rw [h1]
  rfl

end Proofs.PemBundle
