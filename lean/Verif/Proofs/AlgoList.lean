import Verif.Proofs.NameList
/-! Helper lemmas about `CheckAlgoList`. -/

namespace Wolf.NameList
open Wolf Wolf.Wire

/-- Category number used by the specification. -/
def AlgoType.num : AlgoType → Nat
  | .kex => 0 | .key => 1 | .cipher => 2 | .mac => 3 | .other => 4

theorem AlgoType.num_inj {a b : AlgoType} (h : a.num = b.num) : a = b := by
  cases a <;> cases b <;> simp [num] at h <;> rfl

def specRows (t : Table) : List Spec.NameList.Row := t.map (fun e => ⟨e.id, e.type.num, e.name⟩)

theorem find_specRows (t : Table) (n : Bytes) :
    (specRows t).find? (fun r => r.name = n) = (t.find? (fun e => e.name = n)).map (fun e => ⟨e.id, e.type.num, e.name⟩) := by
  unfold specRows
  rw [List.find?_map]; rfl

theorem nameToIdType_eq (t : Table) (n : Bytes) :
    nameToIdType t n = match t.find? (fun e => e.name = n) with
      | none => (ID_UNKNOWN, .other)
      | some e => (e.id, e.type) := by
  induction t with
  | nil => simp [nameToIdType]
  | cons e t ih =>
    unfold nameToIdType
    by_cases h : n = e.name
    · subst h; simp
    · have h' : ¬ e.name = n := fun h' => h h'.symm
      simp only [h, and_false, if_false]
      rw [ih]
      simp [List.find?_cons, h']

/-- The loop on elements. `ne` says the whole list is non-empty. -/
def chk (t : Table) (ty : AlgoType) (ne : Bool) : List Bytes → Nat → Option Nat
  | [], u => some u
  | w :: ws, u =>
    if w = [] then
      if ws ≠ [] ∨ ne = false then none else chk t ty ne ws u
    else
      if (nameToIdType t w).1 = ID_NONE then none
      else if (nameToIdType t w).1 ≠ ID_UNKNOWN then
        if (nameToIdType t w).2 ≠ ty then none else chk t ty ne ws (u+1)
      else chk t ty ne ws u

theorem pre_length (cur : Bytes) (ws : List Bytes) (h : ws ≠ []) : (pre cur ws).length = ws.length := by
  cases ws with
  | nil => exact absurd rfl h
  | cons w ws => simp [pre]

theorem checkLoop_eq (t : Table) (ty : AlgoType) (l : Bytes) (i start u : Nat)
    (hs : start ≤ i) (hi : i ≤ l.length) :
    checkAlgoLoop t ty l i start u
      = chk t ty (!l.isEmpty) (pre ((l.take i).drop start) (Spec.NameList.split comma (l.drop i))) u := by
  generalize hn : l.length - i = n
  induction n generalizing i start u with
  | zero =>
    have : i = l.length := by omega
    subst this
    rw [checkAlgoLoop]
    have hend : ∀ u', checkAlgoLoop t ty l (l.length+1) (l.length+1) u' = some u' := by
      intro u'
      rw [checkAlgoLoop, dif_neg (by omega)]
    simp only [Nat.le_refl, dite_true, true_or, if_true, List.take_length, List.drop_length,
      Spec.NameList.split, pre, List.append_nil, chk, hend]
    have hnil : (l.drop start = []) ↔ l.length - start = 0 := by
      rw [List.drop_eq_nil_iff]; omega
    have ht : (l.drop start).take (l.length - start) = l.drop start := by
      apply List.take_of_length_le; simp
    by_cases h0 : l.length - start = 0
    · simp only [h0, if_true, hnil.2 h0]
      by_cases hl : l = [] <;> simp [hl]
    · have hd : ¬ (l.drop start = []) := fun h => h0 (hnil.1 h)
      simp only [h0, if_false, hd, ht]
  | succ n ih =>
    have hlt : i < l.length := by omega
    rw [checkAlgoLoop]
    have hget : l[i]? = some l[i] := List.getElem?_eq_getElem hlt
    have hdrop : l.drop i = l[i] :: l.drop (i+1) := List.drop_eq_getElem_cons hlt
    have hne : i ≠ l.length := by omega
    have hlne : l ≠ [] := by intro h; simp [h] at hlt
    rw [dif_pos hi, hget, hdrop]
    simp only [hne, false_or, Option.some.injEq]
    by_cases hc : l[i] = comma
    · rw [if_pos hc]
      have hsp : Spec.NameList.split comma (l[i] :: l.drop (i+1)) = [] :: Spec.NameList.split comma (l.drop (i+1)) := by
        conv => lhs; rw [Spec.NameList.split]
        simp [hc]
      rw [hsp]
      simp only [pre, List.append_nil]
      conv => rhs; rw [chk]
      have hlen : ((l.take i).drop start).length = i - start := by simp; omega
      have hnil : ((l.take i).drop start = []) ↔ i - start = 0 := by
        rw [← hlen]; exact List.length_eq_zero_iff.symm
      have hnext : ∀ u', checkAlgoLoop t ty l (i+1) (i+1) u'
          = chk t ty (!l.isEmpty) (Spec.NameList.split comma (l.drop (i+1))) u' := by
        intro u'
        rw [ih (i+1) (i+1) u' (Nat.le_refl _) hlt (by omega)]
        have : (l.take (i+1)).drop (i+1) = [] := by
          rw [List.drop_eq_nil_iff]; simp; omega
        rw [this, pre_nil]
      by_cases h0 : i - start = 0
      · simp only [h0, if_true, hnil.2 h0]
        simp [split_ne_nil, hne]
      · have hd : ¬ ((l.take i).drop start = []) := fun h => h0 (hnil.1 h)
        simp only [h0, if_false, hd]
        have htk : (l.drop start).take (i - start) = (l.take i).drop start := by
          rw [List.drop_take]
        rw [htk]
        simp only [hnext]
    · rw [if_neg hc]
      rw [ih (i+1) start u (by omega) hlt (by omega), pre_cons _ _ _ _ hc]
      congr 2
      rw [List.take_add_one, hget]
      simp only [Option.toList]
      rw [List.drop_append_of_le_length (by simp; omega)]

/-- An acceptable element. -/
def good (t : Table) (ty : AlgoType) (w : Bytes) : Bool :=
  !w.isEmpty && ((nameToIdType t w).1 != ID_NONE) &&
    ((nameToIdType t w).1 == ID_UNKNOWN || (nameToIdType t w).2 == ty)

def supp (t : Table) (w : Bytes) : Bool := (nameToIdType t w).1 != ID_UNKNOWN

theorem chk_trailing (t : Table) (ty : AlgoType) (ws : List Bytes) (u : Nat) :
    chk t ty true (ws ++ [[]]) u =
      if ws.all (good t ty) then some (u + ws.countP (supp t)) else none := by
  induction ws generalizing u with
  | nil => simp [chk]
  | cons w ws ih =>
    simp only [List.cons_append, chk]
    by_cases hw : w = []
    · simp [hw, good]
    · have hwe : w.isEmpty = false := by simpa using hw
      simp only [hw, if_false, List.all_cons, good, hwe, List.countP_cons, supp]
      by_cases h1 : (nameToIdType t w).1 = ID_NONE
      · simp [h1]
      · by_cases h2 : (nameToIdType t w).1 = ID_UNKNOWN
        · have : ID_UNKNOWN ≠ ID_NONE := by decide
          simp only [h1, if_false, h2, ih]
          simp [this, good, supp]
        · by_cases h3 : (nameToIdType t w).2 = ty
          · simp only [h1, if_false, h2, h3, ih]
            simp [h1, h2, h3, good, supp, Nat.add_assoc, Nat.add_comm]
          · simp [h1, h2, h3]

theorem chk_plain (t : Table) (ty : AlgoType) (ne : Bool) (ws : List Bytes) (u : Nat)
    (hl : ws.getLast? ≠ some []) :
    chk t ty ne ws u =
      if ws.all (good t ty) then some (u + ws.countP (supp t)) else none := by
  induction ws generalizing u with
  | nil => simp [chk]
  | cons w ws ih =>
    simp only [chk]
    by_cases hw : w = []
    · have : ws ≠ [] := by
        intro h; apply hl; simp [h, hw]
      simp [hw, good, this]
    · have hwe : w.isEmpty = false := by simpa using hw
      have hl' : ws.getLast? ≠ some [] := by
        intro h; apply hl
        rw [List.getLast?_cons, h]; rfl
      have ih' := fun u => ih u hl'
      simp only [hw, if_false, List.all_cons, good, hwe, List.countP_cons, supp]
      by_cases h1 : (nameToIdType t w).1 = ID_NONE
      · simp [h1]
      · by_cases h2 : (nameToIdType t w).1 = ID_UNKNOWN
        · have : ID_UNKNOWN ≠ ID_NONE := by decide
          simp only [h1, if_false, h2, ih']
          simp [this, good, supp]
        · by_cases h3 : (nameToIdType t w).2 = ty
          · simp only [h1, if_false, h2, h3, ih']
            simp [h1, h2, h3, good, supp, Nat.add_assoc, Nat.add_comm]
          · simp [h1, h2, h3]

theorem split_snoc_comma (c : UInt8) (l : Bytes) :
    Spec.NameList.split c (l ++ [c]) = Spec.NameList.split c l ++ [[]] := by
  induction l with
  | nil => simp [Spec.NameList.split]
  | cons b l ih =>
    simp only [List.cons_append, Spec.NameList.split]
    by_cases h : b = c
    · simp [h, ih]
    · simp only [h, if_false, ih]
      cases hs : Spec.NameList.split c l with
      | nil => exact absurd hs (split_ne_nil c l)
      | cons w ws => simp

theorem split_snoc (c x : UInt8) (l : Bytes) (hx : x ≠ c) :
    ∃ ws w, Spec.NameList.split c (l ++ [x]) = ws ++ [w ++ [x]] := by
  induction l with
  | nil => exact ⟨[], [], by simp [Spec.NameList.split, hx]⟩
  | cons b l ih =>
    obtain ⟨ws, w, h⟩ := ih
    simp only [List.cons_append, Spec.NameList.split]
    by_cases hb : b = c
    · exact ⟨[] :: ws, w, by simp [hb, h]⟩
    · simp only [hb, if_false, h]
      cases ws with
      | nil => exact ⟨[], b :: w, by simp⟩
      | cons v ws => exact ⟨(b :: v) :: ws, w, by simp⟩

theorem checkAlgoList_eq (t : Table) (ty : AlgoType) (l : Bytes) :
    checkAlgoList t ty l =
      ((Spec.NameList.split 44 (Spec.NameList.body l)).all (good t ty) &&
        (Spec.NameList.split 44 (Spec.NameList.body l)).any (supp t)) := by
  have hloop := checkLoop_eq t ty l 0 0 0 (Nat.le_refl _) (Nat.zero_le _)
  simp only [List.take_zero, List.drop_nil, List.drop_zero, pre_nil] at hloop
  have fin : ∀ ws : List Bytes, (match (if ws.all (good t ty) = true then some (0 + ws.countP (supp t)) else none) with
        | none => false
        | some u => !(u == 0)) = (ws.all (good t ty) && ws.any (supp t)) := by
    intro ws
    by_cases h : ws.all (good t ty) = true
    · simp only [h, if_true, Bool.true_and, Nat.zero_add]
      rw [Bool.eq_iff_iff]
      simp only [Bool.not_eq_true', beq_eq_false_iff_ne, ne_eq, List.countP_eq_zero, List.any_eq_true]
      simp
    · simp [h]
  unfold checkAlgoList
  rw [hloop]
  rcases List.eq_nil_or_concat l with h | ⟨b, x, h⟩
  · subst h
    simp [Spec.NameList.body, Spec.NameList.split, chk, good]
  · rw [List.concat_eq_append] at h
    subst h
    have hne : (!(b ++ [x]).isEmpty) = true := by simp
    rw [hne]
    by_cases hx : x = 44
    · subst hx
      have hb : Spec.NameList.body (b ++ [44]) = b := by simp [Spec.NameList.body]
      have : comma = 44 := rfl
      rw [hb, this, split_snoc_comma, chk_trailing]
      exact fin _
    · have hb : Spec.NameList.body (b ++ [x]) = b ++ [x] := by simp [Spec.NameList.body, hx]
      have : comma = 44 := rfl
      rw [hb, this, chk_plain]
      · exact fin _
      · obtain ⟨ws, w, h⟩ := split_snoc 44 x b hx
        rw [h]; simp

end Wolf.NameList
