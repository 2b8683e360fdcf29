import Verif.Model.Kex
import Verif.Spec.Kex
import Verif.Proofs.Wire
import Verif.Proofs.AlgoList
/-! Helper lemmas for negotiation. -/

namespace Wolf.Kex
open Wolf Wolf.Wire Wolf.NameList

theorem bind_ok {α β} {r : Res α} {f : α → Nat → Res β} {v : β} {j : Nat} :
    Res.bind r f = .ok v j ↔ ∃ a i, r = .ok a i ∧ f a i = .ok v j := by
  cases r with
  | ub => simp [Res.bind]
  | err e i => simp [Res.bind]
  | ok a i =>
    simp only [Res.bind, Res.ok.injEq]
    constructor
    · intro h; exact ⟨a, i, ⟨rfl, rfl⟩, h⟩
    · rintro ⟨a', i', ⟨rfl, rfl⟩, h⟩; exact h

/-- Keep supported identifiers. -/
def known (l : List Nat) : List Nat := l.filter (fun i => i ≠ ID_UNKNOWN)

theorem matchInner_eq (x : Nat) (r : List Nat) : matchInner x r = r.contains x := by
  induction r with
  | nil => simp [matchInner]
  | cons y ys ih =>
    unfold matchInner
    by_cases h : x = y
    · simp [h]
    · simp [h, ih]

theorem matchOuter_eq (l r : List Nat) :
    matchOuter l r = (l.find? (fun c => r.contains c)).getD ID_UNKNOWN := by
  induction l with
  | nil => simp [matchOuter]
  | cons x xs ih =>
    unfold matchOuter
    rw [matchInner_eq, List.find?_cons]
    cases h : r.contains x <;> simp [ih]

theorem match_nonempty (l r : List Nat) :
    (if l.length > 0 ∧ r.length > 0 then matchOuter l r else ID_UNKNOWN)
      = (Spec.NameList.choose l r).getD ID_UNKNOWN := by
  unfold Spec.NameList.choose
  cases l with
  | nil => simp
  | cons a l =>
    cases r with
    | nil =>
      have : List.find? (fun c => ([] : List Nat).contains c) (a :: l) = none := by
        rw [List.find?_eq_none]; simp
      rw [this]; simp
    | cons b r =>
      rw [if_pos (by simp), matchOuter_eq]

theorem matchIdLists_eq (s : Side) (peer own : List Nat) :
    matchIdLists s peer own = (Spec.Kex.pick (s == .server) peer own).getD ID_UNKNOWN := by
  unfold matchIdLists Spec.Kex.pick
  cases s with
  | server => simp [match_nonempty]
  | client => simp [match_nonempty]

theorem choose_known_of {a b : List Nat} {x : Nat} (h : Spec.NameList.choose a b = some x)
    (hx : x ≠ ID_UNKNOWN) : Spec.NameList.choose (known a) (known b) = some x := by
  unfold Spec.NameList.choose at *
  induction a with
  | nil => simp at h
  | cons y ys ih =>
    rw [List.find?_cons] at h
    by_cases hc : b.contains y = true
    · rw [hc] at h
      simp only [Option.some.injEq] at h
      subst h
      have : known (y :: ys) = y :: known ys := by
        unfold known; rw [List.filter_cons_of_pos]; simpa using hx
      rw [this, List.find?_cons]
      have hk : (known b).contains y = true := by
        unfold known
        simp only [List.contains_eq_mem, decide_eq_true_eq, List.mem_filter] at hc ⊢
        exact ⟨hc, hx⟩
      rw [hk]
    · have hcf : b.contains y = false := by simpa using hc
      rw [hcf] at h
      simp only at h
      have hk : (known b).contains y = false := by
        unfold known
        simp only [List.contains_eq_mem, decide_eq_false_iff_not, List.mem_filter] at hcf ⊢
        exact fun hh => hcf hh.1
      by_cases hy : y = ID_UNKNOWN
      · have : known (y :: ys) = known ys := by
          unfold known; rw [List.filter_cons_of_neg]; simpa using hy
        rw [this]; exact ih h
      · have : known (y :: ys) = y :: known ys := by
          unfold known; rw [List.filter_cons_of_pos]; simpa using hy
        rw [this, List.find?_cons, hk]
        exact ih h

theorem choose_of_known {a b : List Nat} {x : Nat}
    (h : Spec.NameList.choose (known a) (known b) = some x)
    (hu : ¬ (ID_UNKNOWN ∈ a ∧ ID_UNKNOWN ∈ b)) : Spec.NameList.choose a b = some x := by
  unfold Spec.NameList.choose at *
  induction a with
  | nil => simp [known] at h
  | cons y ys ih =>
    have hu' : ¬ (ID_UNKNOWN ∈ ys ∧ ID_UNKNOWN ∈ b) := fun hh => hu ⟨by simp [hh.1], hh.2⟩
    by_cases hy : y = ID_UNKNOWN
    · have hk : known (y :: ys) = known ys := by
        unfold known; rw [List.filter_cons_of_neg]; simpa using hy
      rw [hk] at h
      have hb : b.contains y = false := by
        simp only [List.contains_eq_mem, decide_eq_false_iff_not]
        intro hm
        exact hu ⟨by simp [hy], hy ▸ hm⟩
      rw [List.find?_cons, hb]
      exact ih h hu'
    · have hk : known (y :: ys) = y :: known ys := by
        unfold known; rw [List.filter_cons_of_pos]; simpa using hy
      rw [hk, List.find?_cons] at h
      have hc : (known b).contains y = b.contains y := by
        unfold known
        rw [Bool.eq_iff_iff]
        simp only [List.contains_eq_mem, decide_eq_true_eq, List.mem_filter]
        constructor
        · exact fun hh => hh.1
        · exact fun hh => ⟨hh, by simpa using hy⟩
      rw [hc] at h
      rw [List.find?_cons]
      cases hb : b.contains y
      · rw [hb] at h; exact ih h hu'
      · rw [hb] at h; exact h

theorem pick_known_of {s : Bool} {peer own : List Nat} {x : Nat}
    (h : Spec.Kex.pick s peer own = some x) (hx : x ≠ ID_UNKNOWN) :
    Spec.Kex.pick s (known peer) (known own) = some x := by
  unfold Spec.Kex.pick at *
  cases s
  · simp only [Bool.false_eq_true, if_false] at h ⊢; exact choose_known_of h hx
  · simp only [if_true] at h ⊢; exact choose_known_of h hx

theorem pick_of_known {s : Bool} {peer own : List Nat} {x : Nat}
    (h : Spec.Kex.pick s (known peer) (known own) = some x)
    (hu : ¬ (ID_UNKNOWN ∈ peer ∧ ID_UNKNOWN ∈ own)) : Spec.Kex.pick s peer own = some x := by
  unfold Spec.Kex.pick at *
  cases s
  · simp only [Bool.false_eq_true, if_false] at h ⊢
    exact choose_of_known h (fun hh => hu ⟨hh.2, hh.1⟩)
  · simp only [if_true] at h ⊢; exact choose_of_known h hu

theorem matchOr_ok {c : Cfg} {peer own : List Nat} {e : Err} {i j a : Nat}
    (h : matchOr c peer own e i = .ok a j) :
    j = i ∧ a ≠ ID_UNKNOWN ∧ Spec.Kex.pick (c.side == .server) peer own = some a := by
  unfold matchOr at h
  rw [matchIdLists_eq] at h
  simp only at h
  split at h
  · simp at h
  · rename_i hne
    simp only [Res.ok.injEq] at h
    refine ⟨h.2.symm, h.1 ▸ hne, ?_⟩
    cases hp : Spec.Kex.pick (c.side == .server) peer own with
    | none => rw [hp] at hne; simp at hne
    | some x => rw [hp] at h; simp at h; rw [h.1]

theorem matchOr_of {c : Cfg} {peer own : List Nat} {e : Err} {i a : Nat}
    (h : Spec.Kex.pick (c.side == .server) peer own = some a) (ha : a ≠ ID_UNKNOWN) :
    matchOr c peer own e i = .ok a i := by
  unfold matchOr
  rw [matchIdLists_eq, h]
  simp [ha]

theorem known_keep (l : List Nat) : known (keep l) = known l := by
  cases l with
  | nil => rfl
  | cons x xs =>
    unfold keep known
    by_cases hx : x = ID_UNKNOWN
    · rw [List.filter_cons_of_neg (by simpa using hx), List.filter_cons_of_neg (by simpa using hx),
        List.filter_filter]
      simp
    · rw [List.filter_cons_of_pos (by simpa using hx), List.filter_cons_of_pos (by simpa using hx),
        List.filter_filter]
      simp

theorem known_ids (t : Table) (hwf : WF t) (l : Bytes) :
    known ((Spec.NameList.names l).map (nameToId t)) = Spec.Kex.ids (rows t) l := by
  unfold known Spec.Kex.ids
  induction Spec.NameList.names l with
  | nil => rfl
  | cons n ns ih =>
    rw [List.map_cons, List.filterMap_cons, nameToId_eq]
    cases hs : Spec.NameList.supported (rows t) n with
    | none =>
      rw [List.filter_cons_of_neg (by simp)]
      exact ih
    | some i =>
      have := supported_ne t hwf n i hs
      rw [List.filter_cons_of_pos (by simpa using this), ih]; rfl

/-- `UNKNOWN` is kept only for a list whose first name is not supported. -/
theorem unknown_mem_keep (t : Table) (hwf : WF t) (l : Bytes)
    (h : ID_UNKNOWN ∈ keep ((Spec.NameList.names l).map (nameToId t))) :
    ∃ n ns, Spec.NameList.names l = n :: ns ∧ Spec.NameList.supported (rows t) n = none := by
  cases hn : Spec.NameList.names l with
  | nil => rw [hn] at h; simp [keep] at h
  | cons n ns =>
    refine ⟨n, ns, rfl, ?_⟩
    rw [hn] at h
    simp only [List.map_cons, keep, List.mem_cons, List.mem_filter] at h
    rcases h with h | h
    · rw [nameToId_eq] at h
      cases hs : Spec.NameList.supported (rows t) n with
      | none => rfl
      | some i => rw [hs] at h; exact absurd h.symm (supported_ne t hwf n i hs)
    · simp at h

theorem names_body (l : Bytes) : Spec.NameList.names (Spec.NameList.body l) = Spec.NameList.names l := by
  unfold Spec.NameList.body
  split
  · rename_i h
    rcases List.eq_nil_or_concat l with h' | ⟨b, x, h'⟩
    · subst h'; rfl
    · rw [List.concat_eq_append] at h'
      subst h'
      simp at h
      subst h
      rw [List.dropLast_concat]
      unfold Spec.NameList.names
      rw [split_snoc_comma]
      generalize Spec.NameList.split 44 b = ws
      induction ws with
      | nil => simp
      | cons w ws ih =>
        simp only [List.cons_append, List.takeWhile_cons]
        split
        · rw [ih]
        · rfl
  · rfl

theorem take_algoListSz (l : Bytes) : l.take (algoListSz l) = Spec.NameList.body l := by
  unfold algoListSz Spec.NameList.body
  rw [List.getLast?_eq_getElem?]
  have hc : (comma : UInt8) = 44 := rfl
  rw [hc]
  by_cases hl : l.length > 0
  · simp only [hl, true_and]
    split
    · rw [List.dropLast_eq_take]
    · rw [List.take_length]
  · have : l = [] := by
      cases l with
      | nil => rfl
      | cons _ _ => simp at hl
    subst this; simp

theorem algoListSz_le (l : Bytes) : algoListSz l ≤ l.length := by
  unfold algoListSz; split <;> omega

theorem loop_take (t : Table) (cap : Nat) (l : Bytes) (sz i start : Nat) (ids : List Nat) (tok : Nat)
    (hsz : sz ≤ l.length) (hs : start ≤ i) :
    nameListLoop t cap l sz i start ids tok = nameListLoop t cap (l.take sz) sz i start ids tok := by
  generalize hn : sz + 1 - i = n
  induction n generalizing i start ids tok with
  | zero =>
    rw [nameListLoop, dif_neg (by omega), nameListLoop, dif_neg (by omega)]
  | succ n ih =>
    rw [nameListLoop]
    conv => rhs; rw [nameListLoop]
    have hi : i ≤ sz := by omega
    rw [dif_pos hi, dif_pos hi]
    have hg : (if i = sz then some true else (l[i]?).map (fun c => c == comma))
        = (if i = sz then some true else ((l.take sz)[i]?).map (fun c => c == comma)) := by
      by_cases h : i = sz
      · simp [h]
      · simp only [h, if_false]
        rw [List.getElem?_take_of_lt (by omega)]
    simp only
    rw [← hg]
    have htk : (l.drop start).take (i - start) = ((l.take sz).drop start).take (i - start) := by
      rw [List.drop_take, List.take_take, Nat.min_eq_left (by omega)]
    have hlen : (start + (i - start) ≤ (l.take sz).length) ↔ (start + (i - start) ≤ l.length) := by
      rw [List.length_take, Nat.min_eq_left hsz]; omega
    rw [← htk]
    simp only [hlen]
    have ih1 := fun ids tok => ih (i+1) (i+1) ids tok (Nat.le_refl _) (by omega)
    have ih2 := ih (i+1) start ids tok (by omega) (by omega)
    simp only [ih1, ih2]

theorem ownIds_eq (c : Cfg) (l : Bytes) (i : Nat) :
    ownIds c l i =
      if (algoListSz l) ≤ MAX_NAMELIST_SZ ∧ (Spec.NameList.names l).length ≤ MAX_NAMELIST_CNT ∧
         (keep ((Spec.NameList.names l).map (nameToId c.tbl))).length ≤ ID_LIST_MAX
      then .ok (keep ((Spec.NameList.names l).map (nameToId c.tbl))) i else .err .bufferE i := by
  have hlen : (Spec.NameList.body l).length = algoListSz l := by
    rw [← take_algoListSz, List.length_take, Nat.min_eq_left (algoListSz_le l)]
  have h := getNameListRaw_eq c.tbl ID_LIST_MAX (Spec.NameList.body l)
  rw [hlen, names_body] at h
  have h2 : getNameListRaw c.tbl ID_LIST_MAX l (algoListSz l)
      = getNameListRaw c.tbl ID_LIST_MAX (Spec.NameList.body l) (algoListSz l) := by
    unfold getNameListRaw
    rw [loop_take c.tbl ID_LIST_MAX l (algoListSz l) 0 0 [] 0 (algoListSz_le l) (Nat.le_refl _),
      take_algoListSz]
  unfold ownIds
  rw [h2, h]
  split <;> rename_i heq <;> split at heq <;> simp_all

theorem getNameList_eq (t : Table) (cap : Nat) (p : Bytes) (i : Nat) (hp : p.length < 2^32) (h0 : p ≠ []) :
    getNameList t cap p p.length i =
      match Spec.Wire.string (p.drop i) with
      | none => getNameList t cap p p.length i
      | some (s, _) =>
        match getNameListRaw t cap s s.length with
        | .ub => .ub
        | .err e => .err e (i + 4 + s.length)
        | .ok ids => .ok ids (i + 4 + s.length) := by
  have h := getStringRef_eq p p.length i (Nat.le_refl _) hp
  rw [List.take_length] at h
  cases hs : Spec.Wire.string (p.drop i) with
  | none => rfl
  | some v =>
    obtain ⟨s, rest⟩ := v
    have hd := deref_string p p.length i s rest (Nat.le_refl _) (by rw [List.take_length]; exact hs)
    rw [hs] at h
    unfold getNameList
    rw [if_neg (by simpa using h0)]
    simp only at h
    rw [h]
    simp only [hd.1]
    have : (if s = [] then (⟨none, 0⟩ : StrRef) else ⟨some (i + 4), s.length⟩).sz = s.length := by
      split <;> simp_all
    rw [this]
    cases getNameListRaw t cap s s.length <;> rfl

theorem getNameList_ok {t : Table} {cap : Nat} {p : Bytes} {i j : Nat} {ids : List Nat}
    (hp : p.length < 2^32) (h : getNameList t cap p p.length i = .ok ids j) :
    ∃ s, Spec.Wire.string (p.drop i) = some (s, p.drop j) ∧
      ids = keep ((Spec.NameList.names s).map (nameToId t)) := by
  have h0 : p ≠ [] := by
    intro h0; subst h0; simp [getNameList] at h
  cases hs : Spec.Wire.string (p.drop i) with
  | none =>
    unfold getNameList at h
    rw [if_neg (by simpa using h0)] at h
    have hr := getStringRef_eq p p.length i (Nat.le_refl _) hp
    rw [List.take_length, hs] at hr
    rw [hr] at h
    by_cases hc : i + 4 ≤ p.length <;> simp [hc] at h
  | some v =>
    obtain ⟨s, rest⟩ := v
    have hd := deref_string p p.length i s rest (Nat.le_refl _) (by rw [List.take_length]; exact hs)
    have he := getNameList_eq t cap p i hp h0
    rw [hs] at he
    simp only at he
    rw [he, getNameListRaw_eq] at h
    split at h <;> rename_i heq
    · simp at h
    · simp at h
    · split at heq
      · simp only [NL.ok.injEq] at heq
        simp only [Res.ok.injEq] at h
        refine ⟨s, ?_, ?_⟩
        · have := hd.2.2; rw [List.take_length] at this; rw [this, h.2]
        · rw [← h.1, ← heq]
      · simp at heq

theorem getNameList_of {t : Table} {cap : Nat} {p : Bytes} {i : Nat} {s rest : Bytes}
    (hp : p.length < 2^32) (h : Spec.Wire.string (p.drop i) = some (s, rest))
    (h1 : s.length ≤ MAX_NAMELIST_SZ) (h2 : (Spec.NameList.names s).length ≤ MAX_NAMELIST_CNT)
    (h3 : (keep ((Spec.NameList.names s).map (nameToId t))).length ≤ cap) :
    ∃ j, getNameList t cap p p.length i = .ok (keep ((Spec.NameList.names s).map (nameToId t))) j ∧
      rest = p.drop j := by
  have h0 : p ≠ [] := by
    intro h0; subst h0; simp [Spec.Wire.string, Spec.Wire.uint32] at h
  have he := getNameList_eq t cap p i hp h0
  rw [h] at he
  simp only at he
  rw [getNameListRaw_eq, if_pos ⟨h1, h2, h3⟩] at he
  have hd := deref_string p p.length i s rest (Nat.le_refl _) (by rw [List.take_length]; exact h)
  rw [List.take_length] at hd
  exact ⟨_, he, hd.2.2⟩

end Wolf.Kex
