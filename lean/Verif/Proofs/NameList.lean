import Verif.Model.NameList
import Verif.Spec.NameList
/-! Helper lemmas about name-list parsing. -/

namespace Wolf.NameList
open Wolf Wolf.Wire

/-- Table rows as the specification sees them. -/
def rows (t : Table) : List (Nat × Bytes) := t.map (fun e => (e.id, e.name))

/-- No row carries the "unknown" identifier. -/
def WF (t : Table) : Prop := ∀ e ∈ t, e.id ≠ ID_UNKNOWN

theorem nameToId_eq (t : Table) (n : Bytes) :
    nameToId t n = (Spec.NameList.supported (rows t) n).getD ID_UNKNOWN := by
  unfold nameToId
  induction t with
  | nil => simp [nameToIdType, Spec.NameList.supported, rows]
  | cons e t ih =>
    unfold nameToIdType
    by_cases h : n = e.name
    · subst h; simp [Spec.NameList.supported, rows]
    · have h' : ¬ e.name = n := fun h' => h h'.symm
      simp only [h, and_false, if_false]
      rw [ih]
      simp [Spec.NameList.supported, rows, h']

theorem supported_ne (t : Table) (h : WF t) (n : Bytes) (i : Nat)
    (hs : Spec.NameList.supported (rows t) n = some i) : i ≠ ID_UNKNOWN := by
  unfold Spec.NameList.supported rows at hs
  simp only [Option.map_eq_some_iff] at hs
  obtain ⟨r, hr, rfl⟩ := hs
  have := List.mem_of_find?_eq_some hr
  simp only [List.mem_map] at this
  obtain ⟨e, he, rfl⟩ := this
  exact h e he

/-- Prefix the first element of a split. -/
def pre (cur : Bytes) : List Bytes → List Bytes
  | [] => [cur]
  | w :: ws => (cur ++ w) :: ws

theorem split_ne_nil (c : UInt8) (l : Bytes) : Spec.NameList.split c l ≠ [] := by
  cases l with
  | nil => simp [Spec.NameList.split]
  | cons b bs =>
    unfold Spec.NameList.split
    split
    · simp
    · split <;> simp

theorem pre_nil (c : UInt8) (l : Bytes) : pre [] (Spec.NameList.split c l) = Spec.NameList.split c l := by
  have := split_ne_nil c l
  cases h : Spec.NameList.split c l with
  | nil => exact absurd h this
  | cons w ws => simp [pre]

theorem pre_cons (c b : UInt8) (cur l : Bytes) (h : b ≠ c) :
    pre cur (Spec.NameList.split c (b :: l)) = pre (cur ++ [b]) (Spec.NameList.split c l) := by
  conv => lhs; rw [Spec.NameList.split]
  simp only [h, if_false]
  cases hs : Spec.NameList.split c l with
  | nil => exact absurd hs (split_ne_nil c l)
  | cons w ws => simp [pre]

/-- What the loop does to a list of elements. -/
def proc (t : Table) (cap : Nat) : List Bytes → List Nat → Nat → NL
  | [], ids, _ => .ok ids
  | w :: ws, ids, tok =>
    if w = [] then .ok ids
    else if tok + 1 > MAX_NAMELIST_CNT then .err .bufferE
    else if nameToId t w ≠ ID_UNKNOWN ∨ ids.length = 0 then
      if ids.length ≥ cap then .err .bufferE else proc t cap ws (ids ++ [nameToId t w]) (tok+1)
    else proc t cap ws ids (tok+1)

theorem loop_eq_proc (t : Table) (cap : Nat) (l : Bytes) (i start : Nat) (ids : List Nat) (tok : Nat)
    (hs : start ≤ i) (hi : i ≤ l.length) :
    nameListLoop t cap l l.length i start ids tok
      = proc t cap (pre ((l.take i).drop start) (Spec.NameList.split comma (l.drop i))) ids tok := by
  generalize hn : l.length - i = n
  induction n generalizing i start ids tok with
  | zero =>
    have : i = l.length := by omega
    subst this
    rw [nameListLoop]
    simp only [Nat.le_refl, dite_true, if_true, List.take_length, List.drop_length,
      Spec.NameList.split, pre, List.append_nil, proc]
    have hnil : (l.drop start = []) ↔ l.length - start = 0 := by
      rw [List.drop_eq_nil_iff]; omega
    by_cases h0 : l.length - start = 0
    · simp [h0, hnil.2 h0]
    · have hd : ¬ (l.drop start = []) := fun h => h0 (hnil.1 h)
      simp only [h0, if_false, hd]
      split
      · rfl
      · rw [if_pos (by omega)]
        have ht : (l.drop start).take (l.length - start) = l.drop start := by
          apply List.take_of_length_le; simp
        rw [ht]
        have hend : ∀ ids' tok', nameListLoop t cap l l.length (l.length+1) (l.length+1) ids' tok' = .ok ids' := by
          intro ids' tok'
          rw [nameListLoop]
          simp
        simp only [hend]
  | succ n ih =>
    have hlt : i < l.length := by omega
    rw [nameListLoop]
    have hget : l[i]? = some l[i] := List.getElem?_eq_getElem hlt
    have hdrop : l.drop i = l[i] :: l.drop (i+1) := List.drop_eq_getElem_cons hlt
    have hne : i ≠ l.length := by omega
    rw [dif_pos hi, if_neg hne, hget, hdrop]
    simp only [Option.map_some]
    by_cases hc : l[i] = comma
    · have hb : (l[i] == comma) = true := by simp [hc]
      rw [hb]
      simp only
      have hsp : Spec.NameList.split comma (l[i] :: l.drop (i+1)) = [] :: Spec.NameList.split comma (l.drop (i+1)) := by
        conv => lhs; rw [Spec.NameList.split]
        simp [hc]
      rw [hsp]
      simp only [pre, List.append_nil]
      conv => rhs; rw [proc]
      have hlen : ((l.take i).drop start).length = i - start := by simp; omega
      have hnil : ((l.take i).drop start = []) ↔ i - start = 0 := by
        rw [← hlen]; exact List.length_eq_zero_iff.symm
      by_cases h0 : i - start = 0
      · simp [h0, hnil.2 h0]
      · have hd : ¬ ((l.take i).drop start = []) := fun h => h0 (hnil.1 h)
        simp only [h0, if_false, hd]
        have htk : (l.drop start).take (i - start) = (l.take i).drop start := by
          rw [List.drop_take]
        rw [if_pos (by omega : start + (i - start) ≤ l.length), htk]
        have hnext : ∀ ids' tok', nameListLoop t cap l l.length (i+1) (i+1) ids' tok'
            = proc t cap (Spec.NameList.split comma (l.drop (i+1))) ids' tok' := by
          intro ids' tok'
          rw [ih (i+1) (i+1) ids' tok' (Nat.le_refl _) hlt (by omega)]
          have : (l.take (i+1)).drop (i+1) = [] := by
            rw [List.drop_eq_nil_iff]; simp; omega
          rw [this, pre_nil]
        simp only [hnext]
    · have hb : (l[i] == comma) = false := by simp [hc]
      rw [hb]
      simp only
      rw [ih (i+1) start ids tok (by omega) hlt (by omega), pre_cons _ _ _ _ hc]
      congr 2
      rw [List.take_add_one, hget]
      simp only [Option.toList]
      rw [List.drop_append_of_le_length (by simp; omega)]

/-- Identifiers kept: the first whatever it is, then the supported ones. -/
def keep : List Nat → List Nat
  | [] => []
  | x :: xs => x :: xs.filter (fun i => i ≠ ID_UNKNOWN)

theorem proc_tail (t : Table) (cap : Nat) (ws : List Bytes) (ids : List Nat) (tok : Nat)
    (h0 : ids ≠ []) (hcap : ids.length ≤ cap) (htok : tok ≤ MAX_NAMELIST_CNT) :
    let ns := ws.takeWhile (fun w => !w.isEmpty)
    let add := (ns.map (nameToId t)).filter (fun i => i ≠ ID_UNKNOWN)
    proc t cap ws ids tok =
      if tok + ns.length ≤ MAX_NAMELIST_CNT ∧ ids.length + add.length ≤ cap
      then .ok (ids ++ add) else .err .bufferE := by
  induction ws generalizing ids tok with
  | nil => simp [proc, hcap, htok]
  | cons w ws ih =>
    rw [proc]
    by_cases hw : w = []
    · subst hw; simp [hcap, htok]
    · have hwe : (!w.isEmpty) = true := by simpa using hw
      simp only [hw, if_false, List.takeWhile_cons, hwe, if_true, List.length_cons, List.map_cons]
      have hil : ¬ ids.length = 0 := by simpa using h0
      by_cases ht : tok + 1 > MAX_NAMELIST_CNT
      · rw [if_pos ht, if_neg (by omega)]
      · rw [if_neg ht]
        by_cases hid : nameToId t w = ID_UNKNOWN
        · rw [if_neg (by simp [hid, h0])]
          have := ih ids (tok+1) h0 hcap (by omega)
          simp only at this
          rw [this]
          simp only [hid, ne_eq, not_true_eq_false, decide_false, List.filter_cons_of_neg, Bool.false_eq_true, not_false_eq_true]
          congr 1
          simp only [eq_iff_iff]
          constructor <;> intro h <;> exact ⟨by omega, h.2⟩
        · rw [if_pos (Or.inl hid)]
          have hf : List.filter (fun i => decide (i ≠ ID_UNKNOWN)) (nameToId t w :: List.map (nameToId t) (ws.takeWhile (fun w => !w.isEmpty)))
              = nameToId t w :: List.filter (fun i => decide (i ≠ ID_UNKNOWN)) (List.map (nameToId t) (ws.takeWhile (fun w => !w.isEmpty))) := by
            rw [List.filter_cons_of_pos]; simpa using hid
          rw [hf]
          by_cases hc : ids.length ≥ cap
          · rw [if_pos hc, if_neg]
            simp only [List.length_cons]; omega
          · rw [if_neg hc]
            have := ih (ids ++ [nameToId t w]) (tok+1) (by simp) (by simp; omega) (by omega)
            simp only at this
            rw [this]
            simp only [List.length_append, List.length_cons, List.length_nil, List.append_assoc, List.cons_append, List.nil_append]
            congr 1
            simp only [eq_iff_iff]
            constructor <;> intro h <;> exact ⟨by omega, by omega⟩

theorem proc_eq (t : Table) (cap : Nat) (ws : List Bytes) :
    let ns := ws.takeWhile (fun w => !w.isEmpty)
    proc t cap ws [] 0 =
      if ns.length ≤ MAX_NAMELIST_CNT ∧ (keep (ns.map (nameToId t))).length ≤ cap
      then .ok (keep (ns.map (nameToId t))) else .err .bufferE := by
  cases ws with
  | nil => simp [proc, keep]
  | cons w ws =>
    rw [proc]
    by_cases hw : w = []
    · subst hw; simp [keep]
    · have hwe : (!w.isEmpty) = true := by simpa using hw
      simp only [hw, if_false, List.takeWhile_cons, hwe, if_true, List.length_cons, List.map_cons,
        List.length_nil, or_true, keep, List.nil_append]
      rw [if_neg (by simp [MAX_NAMELIST_CNT])]
      by_cases hc : 0 ≥ cap
      · rw [if_pos hc, if_neg]; omega
      · rw [if_neg hc]
        have := proc_tail t cap ws [nameToId t w] (0+1) (by simp) (by simp; omega) (by simp [MAX_NAMELIST_CNT])
        simp only at this
        rw [this]
        simp only [List.length_cons, List.length_nil, List.cons_append, List.nil_append]
        congr 1
        simp only [eq_iff_iff]
        constructor <;> intro h <;> exact ⟨by omega, by omega⟩

theorem getNameListRaw_eq (t : Table) (cap : Nat) (l : Bytes) :
    getNameListRaw t cap l l.length =
      if l.length ≤ MAX_NAMELIST_SZ ∧ (Spec.NameList.names l).length ≤ MAX_NAMELIST_CNT ∧
         (keep ((Spec.NameList.names l).map (nameToId t))).length ≤ cap
      then .ok (keep ((Spec.NameList.names l).map (nameToId t))) else .err .bufferE := by
  unfold getNameListRaw
  by_cases h : l.length > MAX_NAMELIST_SZ
  · rw [if_pos h, if_neg]; omega
  · rw [if_neg h, loop_eq_proc t cap l 0 0 [] 0 (Nat.le_refl _) (by omega)]
    simp only [List.take_zero, List.drop_nil, List.drop_zero]
    rw [pre_nil]
    have := proc_eq t cap (Spec.NameList.split comma l)
    simp only at this
    rw [this]
    have hn : List.takeWhile (fun w => !w.isEmpty) (Spec.NameList.split comma l) = Spec.NameList.names l := rfl
    rw [hn]
    congr 1
    simp only [eq_iff_iff]
    constructor <;> intro h' <;> first | exact ⟨by omega, h'⟩ | exact h'.2

end Wolf.NameList
