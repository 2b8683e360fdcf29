import Verif.Spec.HostKeys
/-! The table of host keys is the store. -/

namespace Proofs.HostKeys
open Wolf (Byte Bytes)
open Wolf.HostKeys Spec.HostKeys

def fmtOf : Bool × Key → Fmt
  | (true, k) => .plain k
  | (false, k) => .cert k

theorem fmtOf_inj {x y : Bool × Key} (h : fmtOf x = fmtOf y) : x = y := by
  obtain ⟨b, k⟩ := x
  obtain ⟨b', k'⟩ := y
  cases b <;> cases b' <;> simp_all [fmtOf]

def slotOf (t : Store) : Bool × Key → Slot
  | (true, k) => { fmt := some (.plain k), key := t.key k }
  | (false, k) => { fmt := some (.cert k), key := t.key k, cert := t.cert k }

def slotAt (t : Store) (o : List (Bool × Key)) (i : Nat) : Slot :=
  match o[i]? with
  | some x => slotOf t x
  | none => {}

/-- The context that has a store, loaded in an order. -/
def mk (c : Cfg) (t : Store) (o : List (Bool × Key)) : St :=
  { slots := slotAt t o, count := o.length, algos := o.flatMap (names c) }

/-- The store is what the order says. -/
structure Ok (c : Cfg) (t : Store) (o : List (Bool × Key)) : Prop where
  nodup : o.Nodup
  len : o.length ≤ 16
  key : ∀ k, (true, k) ∈ o ↔ (t.key k).isSome
  cert : ∀ k, (false, k) ∈ o ↔ (t.cert k).isSome
  x509 : ∀ k, (false, k) ∈ o → hasX509 c k = true

theorem ctfi (c : Cfg) (k : Key) : certTypeForId c (.plain k) = if hasX509 c k then .cert k else .plain k := by
  cases k <;> rfl

theorem slotOf_fmt (t : Store) (x : Bool × Key) : (slotOf t x).fmt = some (fmtOf x) := by
  obtain ⟨b, k⟩ := x
  cases b <;> rfl

def Fmts (s : St) (o : List (Bool × Key)) : Prop :=
  s.count = o.length ∧ ∀ i, (s.slots i).fmt = o[i]?.map fmtOf

theorem mk_Fmts (c : Cfg) (t : Store) (o : List (Bool × Key)) : Fmts (mk c t o) o := by
  refine ⟨rfl, fun i => ?_⟩
  show (slotAt t o i).fmt = _
  unfold slotAt
  cases o[i]? with
  | none => rfl
  | some x => exact slotOf_fmt t x

theorem nodup_at {o : List (Bool × Key)} (h : o.Nodup) {i j : Nat} (hi : i < o.length) (hj : j < o.length)
    (e : o[i] = o[j]) : i = j := by
  have h := List.pairwise_iff_getElem.1 h
  rcases Nat.lt_trichotomy i j with hlt | heq | hgt
  · exact absurd e (h i j hi hj hlt)
  · exact heq
  · exact absurd e.symm (h j i hj hi hgt)

theorem at_inj {o : List (Bool × Key)} (h : o.Nodup) {i j : Nat} {x : Bool × Key} (h1 : o[i]? = some x) (h2 : o[j]? = some x) :
    i = j := by
  obtain ⟨hi, e1⟩ := List.getElem?_eq_some_iff.1 h1
  obtain ⟨hj, e2⟩ := List.getElem?_eq_some_iff.1 h2
  exact nodup_at h hi hj (e1.trans e2.symm)

theorem find_at {s : St} {o : List (Bool × Key)} (h : Fmts s o) (hn : o.Nodup) {i : Nat} {x : Bool × Key}
    (hx : o[i]? = some x) : find s (fmtOf x) = some i := by
  unfold find
  rw [List.find?_range_eq_some]
  refine ⟨?_, ?_, ?_⟩
  · rw [h.2 i, hx]; simp
  · rw [h.1]
    obtain ⟨hi, _⟩ := List.getElem?_eq_some_iff.1 hx
    exact List.mem_range.2 hi
  · intro j hj
    simp only [Bool.not_eq_true', decide_eq_false_iff_not]
    intro hf
    rw [h.2 j] at hf
    cases hj' : o[j]? with
    | none => rw [hj'] at hf; cases hf
    | some y =>
      rw [hj'] at hf
      have := fmtOf_inj (Option.some.inj hf)
      have := at_inj hn hj' (this ▸ hx)
      omega

theorem find_none {s : St} {o : List (Bool × Key)} (h : Fmts s o) {x : Bool × Key} (hx : x ∉ o) :
    find s (fmtOf x) = none := by
  unfold find
  rw [List.find?_range_eq_none]
  intro i _
  simp only [Bool.not_eq_true', decide_eq_false_iff_not]
  intro hf
  rw [h.2 i] at hf
  cases hi : o[i]? with
  | none => rw [hi] at hf; cases hf
  | some y =>
    rw [hi] at hf
    have := fmtOf_inj (Option.some.inj hf)
    exact hx (this ▸ List.mem_of_getElem? hi)

/-! ## The algorithms -/

theorem names_length (c : Cfg) (x : Bool × Key) : (names c x).length ≤ if x = (true, .rsa) then 3 else 1 := by
  obtain ⟨b, k⟩ := x
  cases b
  · simp [names]
  · cases k <;> simp [names]
    cases c.sha512 <;> cases c.sha256 <;> cases c.sha1 <;> decide

theorem add_lt {l : List Name} (n : Name) (h : l.length < 18) : add l n = l ++ [n] := if_pos h

theorem addSlot_eq (c : Cfg) (l : List Name) (s : Slot) (x : Bool × Key) (hs : s.fmt = some (fmtOf x))
    (hl : l.length ≤ if x = (true, .rsa) then 15 else 17) : addSlot c l s = l ++ names c x := by
  obtain ⟨b, k⟩ := x
  unfold addSlot
  rw [hs]
  cases b
  · have hl : l.length ≤ 17 := by simpa using hl
    exact add_lt _ (by omega)
  · by_cases hk : k = .rsa
    · subst hk
      have hl : l.length ≤ 15 := by simpa using hl
      simp only [fmtOf, names]
      have h0 : l.length < 18 := by omega
      have h1 : (l ++ [Name.rsaSha512]).length < 18 := by simp; omega
      have h2 : (l ++ [Name.rsaSha256]).length < 18 := by simp; omega
      have h3 : (l ++ [Name.rsaSha512] ++ [Name.rsaSha256]).length < 18 := by simp; omega
      cases c.sha512 <;> cases c.sha256 <;> cases c.sha1 <;> simp only [if_true, if_false, Bool.false_eq_true, add_lt _ h0, add_lt _ h1, add_lt _ h2, add_lt _ h3] <;> simp
    · have hl : l.length ≤ 17 := by simpa [hk] using hl
      cases k <;> first | exact absurd rfl hk | exact add_lt _ (by omega)

theorem names_total (c : Cfg) (o : List (Bool × Key)) (hn : o.Nodup) :
    (o.flatMap (names c)).length ≤ o.length + if (true, Key.rsa) ∈ o then 2 else 0 := by
  induction o with
  | nil => simp
  | cons x o ih =>
    obtain ⟨h1, h2⟩ := List.nodup_cons.1 hn
    have ih := ih h2
    rw [List.flatMap_cons, List.length_append, List.length_cons]
    have hx := names_length c x
    by_cases hr : x = (true, .rsa)
    · subst hr
      rw [if_pos rfl] at hx
      rw [if_neg h1] at ih
      rw [if_pos List.mem_cons_self]
      omega
    · rw [if_neg hr] at hx
      have : (true, Key.rsa) ∈ x :: o ↔ (true, Key.rsa) ∈ o := by
        rw [List.mem_cons]
        exact ⟨fun h => h.resolve_left (fun h => hr h.symm), Or.inr⟩
      simp only [this]
      omega

theorem refresh_fold (c : Cfg) (s : St) (o : List (Bool × Key)) (h : Fmts s o) (hn : o.Nodup) (hl : o.length ≤ 16) :
    ∀ n, n ≤ o.length → (List.range n).foldl (fun l i => addSlot c l (s.slots i)) [] = (o.take n).flatMap (names c) := by
  intro n
  induction n with
  | zero => intro _; rfl
  | succ n ih =>
    intro hle
    rw [List.range_succ, List.foldl_append, ih (by omega)]
    have hx : o[n]? = some o[n] := List.getElem?_eq_getElem (by omega)
    have htk : o.take (n + 1) = o.take n ++ [o[n]] := by
      rw [List.take_add_one, hx]; rfl
    have hnd : (o.take n ++ [o[n]]).Nodup := htk ▸ hn.sublist (List.take_sublist _ _)
    have hnot : o[n] ∉ o.take n := by
      rw [List.nodup_append] at hnd
      intro hm
      exact hnd.2.2 _ hm _ (List.mem_singleton.2 rfl) rfl
    have hlen := names_total c (o.take n) (hn.sublist (List.take_sublist _ _))
    have htl : (o.take n).length = n := by rw [List.length_take]; omega
    rw [htl] at hlen
    rw [htk, List.flatMap_append, List.foldl_cons, List.foldl_nil, List.flatMap_cons, List.flatMap_nil, List.append_nil]
    refine addSlot_eq c _ _ _ (by rw [h.2 n, hx]; rfl) ?_
    by_cases hr : o[n] = (true, .rsa)
    · rw [if_pos hr]
      rw [if_neg (hr ▸ hnot)] at hlen
      omega
    · rw [if_neg hr]
      by_cases hm : (true, Key.rsa) ∈ o.take n
      · rw [if_pos hm] at hlen; omega
      · rw [if_neg hm] at hlen; omega

theorem refresh_eq (c : Cfg) (s : St) (o : List (Bool × Key)) (h : Fmts s o) (hn : o.Nodup) (hl : o.length ≤ 16) :
    (refresh c s).algos = o.flatMap (names c) := by
  have := refresh_fold c s o h hn hl o.length (Nat.le_refl _)
  rw [List.take_length] at this
  rw [← this, ← h.1]
  rfl

theorem St.ext {a b : St} (h1 : a.slots = b.slots) (h2 : a.count = b.count) (h3 : a.algos = b.algos)
    (h4 : a.outside = b.outside) : a = b := by
  cases a; cases b; simp_all

theorem refresh_mk (c : Cfg) (s : St) (t : Store) (o : List (Bool × Key)) (hs : s.slots = slotAt t o)
    (hc : s.count = o.length) (ho : s.outside = false) (hn : o.Nodup) (hl : o.length ≤ 16) : refresh c s = mk c t o := by
  have hf : Fmts s o := ⟨hc, fun i => by rw [hs]; exact (mk_Fmts c t o).2 i⟩
  exact St.ext hs hc (refresh_eq c s o hf hn hl) ho

/-! ## A private key -/

theorem write_lt {s : St} {i : Nat} (x : Slot) (h : i < 16) :
    write s i x = { s with slots := fun j => if j = i then x else s.slots j } := if_pos h

/-- The end of `SetHostPrivateKey`, once the key is in its slot. -/
theorem key_end (c : Cfg) (s : St) (t : Store) (o : List (Bool × Key)) (k : Key) (der : Bytes) (i : Nat)
    (hn : o.Nodup) (hl : o.length ≤ 16) (hx : ∀ k, (false, k) ∈ o → hasX509 c k = true) (hi : o[i]? = some (true, k))
    (hs : s.slots = fun j => if j = i then { fmt := some (.plain k), key := some der } else slotAt t o j)
    (hc : s.count = o.length) (ho : s.outside = false) :
    (updateHostCertificates c s (some i) none true).1 = true ∧
    refresh c (updateHostCertificates c s (some i) none true).2 = mk c (t.load true k der) o := by
  have hi16 : i < 16 := by obtain ⟨h, _⟩ := List.getElem?_eq_some_iff.1 hi; omega
  have hf : Fmts s o := by
    refine ⟨hc, fun j => ?_⟩
    rw [hs]
    by_cases hj : j = i
    · simp only [if_pos hj]; rw [hj, hi]; rfl
    · simp only [if_neg hj]; exact (mk_Fmts c t o).2 j
  have hsi : s.slots i = { fmt := some (.plain k), key := some der } := by rw [hs]; simp only [if_true]
  have hother : ∀ j, j ≠ i → o[j]? ≠ some (false, k) → slotAt t o j = slotAt (t.load true k der) o j := by
    intro j h1 h2
    unfold slotAt
    cases hj : o[j]? with
    | none => rfl
    | some x =>
      obtain ⟨b, k'⟩ := x
      have : k' ≠ k := by
        intro hk
        subst hk
        cases b
        · exact h2 hj
        · exact h1 (at_inj hn hj hi)
      cases b <;> simp [slotOf, Store.load, this]
  have hself : ({ fmt := some (.plain k), key := some der } : Slot) = slotAt (t.load true k der) o i := by
    unfold slotAt
    rw [hi]
    simp [slotOf, Store.load]
  unfold updateHostCertificates
  simp only [hsi, Option.bind_some, ctfi]
  by_cases hh : hasX509 c k = true
  · rw [if_pos hh]
    by_cases hm : (false, k) ∈ o
    · obtain ⟨h, hlt, he⟩ := List.getElem_of_mem hm
      have hh' : o[h]? = some (false, k) := by rw [List.getElem?_eq_getElem hlt, he]
      have hne : h ≠ i := fun e => by rw [e, hi] at hh'; simp at hh'
      rw [show (Fmt.cert k) = fmtOf (false, k) from rfl, find_at hf hn hh']
      simp only [if_true]
      refine ⟨trivial, ?_⟩
      rw [write_lt _ (by omega)]
      refine refresh_mk c _ _ o ?_ hc ho hn hl
      funext j
      by_cases hj : j = h
      · subst hj
        simp only [if_true]
        rw [hs]
        simp only [if_neg hne]
        unfold slotAt
        rw [hh']
        simp [slotOf, Store.load]
      · simp only [if_neg hj]
        rw [hs]
        by_cases hji : j = i
        · simp only [if_pos hji]; rw [hji]; exact hself
        · simp only [if_neg hji]
          exact hother j hji (fun e => hj (at_inj hn e hh'))
    · rw [show (Fmt.cert k) = fmtOf (false, k) from rfl, find_none hf hm]
      refine ⟨rfl, ?_⟩
      refine refresh_mk c _ _ o ?_ hc ho hn hl
      rw [hs]
      funext j
      by_cases hji : j = i
      · simp only [if_pos hji]; rw [hji]; exact hself
      · simp only [if_neg hji]
        exact hother j hji (fun e => hm (List.mem_of_getElem? e))
  · rw [if_neg hh, show (Fmt.plain k) = fmtOf (true, k) from rfl, find_at hf hn hi]
    simp only [if_true]
    refine ⟨trivial, ?_⟩
    rw [write_lt _ hi16]
    refine refresh_mk c _ _ o ?_ hc ho hn hl
    funext j
    by_cases hji : j = i
    · simp only [if_pos hji]; rw [hji, hsi]; exact hself
    · simp only [if_neg hji]
      rw [hs]
      simp only [if_neg hji]
      exact hother j hji (fun e => hh (hx k (List.mem_of_getElem? e)))

theorem slotAt_append {t : Store} {o : List (Bool × Key)} {x : Bool × Key} {j : Nat} (hj : j ≠ o.length) :
    slotAt t o j = slotAt t (o ++ [x]) j := by
  unfold slotAt
  by_cases h : j < o.length
  · rw [List.getElem?_append_left h]
  · rw [List.getElem?_eq_none (by omega), List.getElem?_eq_none (by rw [List.length_append, List.length_singleton]; omega)]

theorem slotAt_end {t : Store} {o : List (Bool × Key)} : slotAt t o o.length = {} := by
  unfold slotAt
  rw [List.getElem?_eq_none (Nat.le_refl _)]

theorem nodup_snoc {o : List (Bool × Key)} {x : Bool × Key} (hn : o.Nodup) (hx : x ∉ o) : (o ++ [x]).Nodup := by
  rw [List.nodup_append]
  refine ⟨hn, by simp, fun a ha b hb e => ?_⟩
  rw [List.mem_singleton.1 hb] at e
  exact hx (e ▸ ha)

/-- What the store and the order become, and whether it is taken. -/
def next (r : Store × List (Bool × Key)) (isKey : Bool) (k : Key) (der : Bytes) : Bool × Store × List (Bool × Key) :=
  if (isKey, k) ∈ r.2 then (true, r.1.load isKey k der, r.2)
  else if r.2.length < 16 then (true, r.1.load isKey k der, r.2 ++ [(isKey, k)])
  else (false, r)

theorem setKey_eq (c : Cfg) (t : Store) (o : List (Bool × Key)) (h : Ok c t o) (k : Key) (der : Bytes) :
    setHostPrivateKey c (mk c t o) (.plain k) der true =
      ((next (t, o) true k der).1, mk c (next (t, o) true k der).2.1 (next (t, o) true k der).2.2) := by
  unfold setHostPrivateKey next
  by_cases hm : (true, k) ∈ o
  · obtain ⟨i, hlt, he⟩ := List.getElem_of_mem hm
    have hi : o[i]? = some (true, k) := by rw [List.getElem?_eq_getElem hlt, he]
    have hl := h.len
    have hlook := find_at (mk_Fmts c t o) h.nodup hi
    simp only [fmtOf] at hlook
    simp only [hlook, Option.getD_some, if_pos hm]
    rw [if_neg (show ¬ maxKeys ≤ i by show ¬ 16 ≤ i; omega)]
    have hfmt : ((mk c t o).slots i).fmt = some (.plain k) := by rw [(mk_Fmts c t o).2 i, hi]; rfl
    rw [if_pos hfmt, write_lt _ (by omega)]
    have hend := key_end c { mk c t o with slots := fun j => if j = i then { (mk c t o).slots i with key := some der } else (mk c t o).slots j }
      t o k der i h.nodup h.len h.x509 hi (by
        funext j
        by_cases hj : j = i
        · simp only [if_pos hj]
          show ({ slotAt t o i with key := some der } : Slot) = _
          unfold slotAt; rw [hi]; rfl
        · simp only [if_neg hj]; rfl) rfl rfl
    rw [if_pos hend.1, hend.2]
  · have hlook := find_none (mk_Fmts c t o) hm
    simp only [fmtOf] at hlook
    simp only [hlook, Option.getD_none, if_neg hm]
    show (if maxKeys ≤ o.length then _ else _) = _
    by_cases hl : o.length < 16
    · rw [if_neg (show ¬ maxKeys ≤ o.length by show ¬ 16 ≤ o.length; omega), if_pos hl]
      have hempty : (mk c t o).slots o.length = {} := slotAt_end
      show (let s := if ((mk c t o).slots o.length).fmt = some (.plain k) then mk c t o
        else write { mk c t o with count := o.length + 1 } o.length { (mk c t o).slots o.length with fmt := some (.plain k) }
        let s := write s o.length { s.slots o.length with key := some der }
        let u := updateHostCertificates c s (some o.length) none true
        if u.1 then (true, refresh c u.2) else (false, u.2)) = _
      rw [hempty]
      have hne : ¬ (({} : Slot).fmt = some (Fmt.plain k)) := by simp
      rw [if_neg hne, write_lt _ hl]
      simp only [if_true]
      rw [write_lt _ hl]
      have hi : (o ++ [(true, k)])[o.length]? = some (true, k) := by simp
      have hend := key_end c { mk c t o with
          slots := fun j => if j = o.length then { fmt := some (.plain k), key := some der } else
            (if j = o.length then { fmt := some (.plain k) } else (mk c t o).slots j),
          count := o.length + 1 }
        t (o ++ [(true, k)]) k der o.length (nodup_snoc h.nodup hm) (by simp; omega)
        (fun k' hk' => by
          rcases List.mem_append.1 hk' with h' | h'
          · exact h.x509 k' h'
          · simp at h') hi (by
          funext j
          by_cases hj : j = o.length
          · simp only [if_pos hj]
          · simp only [if_neg hj]; exact slotAt_append hj) (by simp) rfl
      rw [if_pos hend.1, hend.2]
    · rw [if_pos (show maxKeys ≤ o.length by show 16 ≤ o.length; omega), if_neg hl]

/-! ## A certificate -/

theorem scan_fold (c : Cfg) (s : St) (f : Fmt) (P Q : Nat → Prop)
    (hP : ∀ i, P i ↔ (s.slots i).fmt = some f)
    (hQ : ∀ i, Q i ↔ ((s.slots i).fmt ≠ some f ∧ (s.slots i).fmt.map (certTypeForId c) = some f))
    (uP : ∀ i j, P i → P j → i = j) (uQ : ∀ i j, Q i → Q j → i = j) (n : Nat) :
    let r := (List.range n).foldl (fun (r : Option Nat × Option Nat) i =>
      if (s.slots i).fmt = some f then (some i, r.2)
      else if (s.slots i).fmt.map (certTypeForId c) = some f then (r.1, some i)
      else r) (none, none)
    (∀ i, i < n → P i → r.1 = some i) ∧ ((∀ i, i < n → ¬ P i) → r.1 = none) ∧
    (∀ i, i < n → Q i → r.2 = some i) ∧ ((∀ i, i < n → ¬ Q i) → r.2 = none) := by
  induction n with
  | zero => exact ⟨fun i h => absurd h (Nat.not_lt_zero _), fun _ => rfl, fun i h => absurd h (Nat.not_lt_zero _), fun _ => rfl⟩
  | succ n ih =>
    simp only [List.range_succ, List.foldl_append, List.foldl_cons, List.foldl_nil]
    simp only at ih
    generalize (List.range n).foldl _ (none, none) = r at ih ⊢
    obtain ⟨i1, i2, i3, i4⟩ := ih
    by_cases h1 : (s.slots n).fmt = some f
    · rw [if_pos h1]
      have hp := (hP n).2 h1
      have hq : ¬ Q n := fun h => ((hQ n).1 h).1 h1
      refine ⟨fun i _ hi => by rw [uP i n hi hp], fun h => absurd hp (h n (by omega)), fun i hi h => ?_, fun h => ?_⟩
      · have : i ≠ n := fun e => hq (e ▸ h)
        exact i3 i (by omega) h
      · exact i4 fun i hi => h i (by omega)
    · rw [if_neg h1]
      have hp : ¬ P n := fun h => h1 ((hP n).1 h)
      by_cases h2 : (s.slots n).fmt.map (certTypeForId c) = some f
      · rw [if_pos h2]
        have hq := (hQ n).2 ⟨h1, h2⟩
        refine ⟨fun i hi h => ?_, fun h => ?_, fun i _ hi => by rw [uQ i n hi hq], fun h => absurd hq (h n (by omega))⟩
        · have : i ≠ n := fun e => hp (e ▸ h)
          exact i1 i (by omega) h
        · exact i2 fun i hi => h i (by omega)
      · rw [if_neg h2]
        have hq : ¬ Q n := fun h => h2 ((hQ n).1 h).2
        refine ⟨fun i hi h => ?_, fun h => i2 fun i hi => h i (by omega), fun i hi h => ?_, fun h => i4 fun i hi => h i (by omega)⟩
        · have : i ≠ n := fun e => hp (e ▸ h)
          exact i1 i (by omega) h
        · have : i ≠ n := fun e => hq (e ▸ h)
          exact i3 i (by omega) h

theorem certScan_eq (c : Cfg) (t : Store) (o : List (Bool × Key)) (hn : o.Nodup) (k : Key) (hx : hasX509 c k = true) :
    (∀ i, o[i]? = some (false, k) → (certScan c (mk c t o) (.cert k)).1 = some i) ∧
    ((false, k) ∉ o → (certScan c (mk c t o) (.cert k)).1 = none) ∧
    (∀ i, o[i]? = some (true, k) → (certScan c (mk c t o) (.cert k)).2 = some i) ∧
    ((true, k) ∉ o → (certScan c (mk c t o) (.cert k)).2 = none) := by
  have hP : ∀ i, o[i]? = some (false, k) ↔ ((mk c t o).slots i).fmt = some (.cert k) := by
    intro i
    rw [(mk_Fmts c t o).2 i]
    cases o[i]? with
    | none => simp
    | some y =>
      simp only [Option.map_some, Option.some.injEq]
      constructor
      · intro e; subst e; rfl
      · intro e; exact fmtOf_inj (y := (false, k)) e
  have hQ : ∀ i, o[i]? = some (true, k) ↔ (((mk c t o).slots i).fmt ≠ some (.cert k) ∧
      ((mk c t o).slots i).fmt.map (certTypeForId c) = some (.cert k)) := by
    intro i
    rw [(mk_Fmts c t o).2 i]
    cases o[i]? with
    | none => simp
    | some y =>
      obtain ⟨b, k'⟩ := y
      cases b
      · simp [fmtOf, certTypeForId]
      · simp only [Option.map_some, fmtOf, ctfi]
        constructor
        · intro e
          have : k' = k := by simpa using e
          subst this
          rw [if_pos hx]
          exact ⟨by simp, rfl⟩
        · rintro ⟨_, e⟩
          by_cases hx' : hasX509 c k' = true
          · rw [if_pos hx'] at e
            have : k' = k := by simpa using e
            rw [this]
          · rw [if_neg hx'] at e
            simp at e
  obtain ⟨h1, h2, h3, h4⟩ := scan_fold c (mk c t o) (.cert k) _ _ hP hQ (fun i j hi hj => at_inj hn hi hj)
    (fun i j hi hj => at_inj hn hi hj) o.length
  refine ⟨fun i hi => h1 i ?_ hi, fun hm => h2 fun i _ hi => hm (List.mem_of_getElem? hi), fun i hi => h3 i ?_ hi,
    fun hm => h4 fun i _ hi => hm (List.mem_of_getElem? hi)⟩
  · exact (List.getElem?_eq_some_iff.1 hi).1
  · exact (List.getElem?_eq_some_iff.1 hi).1

/-- What copying the key into a slot does. -/
theorem update_copy (c : Cfg) (t : Store) (o : List (Bool × Key)) (h : Ok c t o) (k : Key) (hx : hasX509 c k = true)
    (d : Nat) (hd : d < 16) (hk : o[d]? = some (false, k) ∨ o[d]? = none) :
    (updateHostCertificates c (mk c t o) (certScan c (mk c t o) (.cert k)).2 (some d) true) =
      (true, { mk c t o with slots := fun j => if j = d then { slotAt t o d with key := t.key k } else slotAt t o j }) := by
  obtain ⟨_, _, h3, h4⟩ := certScan_eq c t o h.nodup k hx
  unfold updateHostCertificates
  by_cases hm : (true, k) ∈ o
  · obtain ⟨i, hlt, he⟩ := List.getElem_of_mem hm
    have hi : o[i]? = some (true, k) := by rw [List.getElem?_eq_getElem hlt, he]
    rw [h3 i hi]
    simp only [if_true]
    rw [write_lt _ hd]
    have : ((mk c t o).slots i).key = t.key k := by
      show (slotAt t o i).key = _
      unfold slotAt; rw [hi]; rfl
    rw [this]
    rfl
  · rw [h4 hm]
    have hnone : t.key k = none := by
      cases hk' : t.key k with
      | none => rfl
      | some v => exact absurd ((h.key k).2 (by rw [hk']; rfl)) hm
    have hsame : ({ slotAt t o d with key := t.key k } : Slot) = slotAt t o d := by
      unfold slotAt
      rcases hk with hk | hk
      · rw [hk]; rfl
      · rw [hk, hnone]
    rw [hsame]
    simp only
    congr 1
    refine St.ext ?_ rfl rfl rfl
    funext j
    show slotAt t o j = _
    by_cases hj : j = d
    · simp only [if_pos hj]; rw [hj]
    · simp only [if_neg hj]

theorem cert_slots (t : Store) (o : List (Bool × Key)) (k : Key) (der : Bytes) (d : Nat) (hn : o.Nodup)
    (hd : o[d]? = some (false, k)) (j : Nat) :
    (if j = d then ({ fmt := some (.cert k), key := t.key k, cert := some der } : Slot) else slotAt t o j) =
      slotAt (t.load false k der) o j := by
  by_cases hj : j = d
  · rw [if_pos hj, hj]
    unfold slotAt
    rw [hd]
    simp [slotOf, Store.load]
  · rw [if_neg hj]
    unfold slotAt
    cases h : o[j]? with
    | none => rfl
    | some x =>
      obtain ⟨b, k'⟩ := x
      cases b
      · have : k' ≠ k := fun e => hj (at_inj hn (e ▸ h) hd)
        simp [slotOf, Store.load, this]
      · simp [slotOf, Store.load]

theorem setCert_eq (c : Cfg) (t : Store) (o : List (Bool × Key)) (h : Ok c t o) (k : Key) (hx : hasX509 c k = true) (der : Bytes) :
    setHostCertificate c (mk c t o) (.cert k) der true =
      ((next (t, o) false k der).1, mk c (next (t, o) false k der).2.1 (next (t, o) false k der).2.2) := by
  obtain ⟨h1, h2, _, _⟩ := certScan_eq c t o h.nodup k hx
  have hl := h.len
  unfold setHostCertificate next
  by_cases hm : (false, k) ∈ o
  · obtain ⟨d, hlt, he⟩ := List.getElem_of_mem hm
    have hd : o[d]? = some (false, k) := by rw [List.getElem?_eq_getElem hlt, he]
    simp only [h1 d hd, Option.getD_some, if_pos hm]
    rw [if_neg (show ¬ maxKeys ≤ d by show ¬ 16 ≤ d; omega)]
    rw [update_copy c t o h k hx d (by omega) (Or.inl hd)]
    have hsd : slotAt t o d = { fmt := some (.cert k), key := t.key k, cert := t.cert k } := by
      unfold slotAt; rw [hd]; rfl
    simp only [if_true, hsd]
    rw [write_lt _ (by omega)]
    rw [refresh_mk c _ (t.load false k der) o ?_ rfl rfl h.nodup h.len]
    funext j
    rw [← cert_slots t o k der d h.nodup hd j]
    by_cases hj : j = d
    · simp only [if_pos hj]
    · simp only [if_neg hj]
  · simp only [h2 hm, Option.getD_none, if_neg hm]
    show (if maxKeys ≤ o.length then _ else _) = _
    by_cases hl : o.length < 16
    · rw [if_neg (show ¬ maxKeys ≤ o.length by show ¬ 16 ≤ o.length; omega), if_pos hl]
      show (let u := updateHostCertificates c (mk c t o) (certScan c (mk c t o) (.cert k)).2 (some o.length) true
        if u.1 then
          let s := u.2
          let s := if (s.slots o.length).fmt = some (.cert k) then s
            else write { s with count := s.count + 1 } o.length { s.slots o.length with fmt := some (.cert k) }
          (true, refresh c (write s o.length { s.slots o.length with cert := some der }))
        else (false, u.2)) = _
      rw [update_copy c t o h k hx o.length hl (Or.inr (List.getElem?_eq_none (Nat.le_refl _)))]
      simp only [if_true, slotAt_end]
      have hne : ¬ ((none : Option Fmt) = some (Fmt.cert k)) := by simp
      simp only [if_neg hne]
      rw [write_lt _ hl, write_lt _ hl]
      have hd : (o ++ [(false, k)])[o.length]? = some (false, k) := by simp
      rw [refresh_mk c _ (t.load false k der) (o ++ [(false, k)]) ?_ (by simp [mk]) rfl (nodup_snoc h.nodup hm) (by simp; omega)]
      funext j
      rw [← cert_slots t (o ++ [(false, k)]) k der o.length (nodup_snoc h.nodup hm) hd j]
      by_cases hj : j = o.length
      · subst hj; simp only [if_true]
      · simp only [if_neg hj]
        exact slotAt_append hj
    · rw [if_pos (show maxKeys ≤ o.length by show 16 ≤ o.length; omega), if_neg hl]

/-! ## Histories -/

theorem load_key_isSome (t : Store) (b : Bool) (k k' : Key) (der : Bytes) :
    ((t.load b k der).key k').isSome = true ↔ (b = true ∧ k' = k) ∨ (t.key k').isSome = true := by
  cases b
  · simp [Store.load]
  · by_cases hk : k' = k
    · simp [Store.load, hk]
    · simp [Store.load, hk]

theorem load_cert_isSome (t : Store) (b : Bool) (k k' : Key) (der : Bytes) :
    ((t.load b k der).cert k').isSome = true ↔ (b = false ∧ k' = k) ∨ (t.cert k').isSome = true := by
  cases b
  · by_cases hk : k' = k
    · simp [Store.load, hk]
    · simp [Store.load, hk]
  · simp [Store.load]

theorem next_Ok (c : Cfg) {t : Store} {o : List (Bool × Key)} (h : Ok c t o) (b : Bool) (k : Key)
    (hx : b = false → hasX509 c k = true) (der : Bytes) : Ok c (next (t, o) b k der).2.1 (next (t, o) b k der).2.2 := by
  unfold next
  by_cases hm : (b, k) ∈ o
  · simp only [if_pos hm]
    refine ⟨h.nodup, h.len, fun k' => ?_, fun k' => ?_, h.x509⟩
    · rw [load_key_isSome, h.key]
      refine ⟨Or.inr, ?_⟩
      rintro (⟨rfl, rfl⟩ | h')
      · exact (h.key _).1 hm
      · exact h'
    · rw [load_cert_isSome, h.cert]
      refine ⟨Or.inr, ?_⟩
      rintro (⟨rfl, rfl⟩ | h')
      · exact (h.cert _).1 hm
      · exact h'
  · simp only [if_neg hm]
    by_cases hl : o.length < 16
    · simp only [if_pos hl]
      refine ⟨nodup_snoc h.nodup hm, by simp; omega, fun k' => ?_, fun k' => ?_, fun k' hk' => ?_⟩
      · rw [load_key_isSome, List.mem_append, h.key]
        constructor
        · rintro (h' | h')
          · exact Or.inr h'
          · have := List.mem_singleton.1 h'
            exact Or.inl ⟨(Prod.mk.inj this).1.symm, (Prod.mk.inj this).2⟩
        · rintro (⟨rfl, rfl⟩ | h')
          · exact Or.inr (List.mem_singleton.2 rfl)
          · exact Or.inl h'
      · rw [load_cert_isSome, List.mem_append, h.cert]
        constructor
        · rintro (h' | h')
          · exact Or.inr h'
          · have := List.mem_singleton.1 h'
            exact Or.inl ⟨(Prod.mk.inj this).1.symm, (Prod.mk.inj this).2⟩
        · rintro (⟨rfl, rfl⟩ | h')
          · exact Or.inr (List.mem_singleton.2 rfl)
          · exact Or.inl h'
      · rcases List.mem_append.1 hk' with h' | h'
        · exact h.x509 k' h'
        · have := List.mem_singleton.1 h'
          rw [(Prod.mk.inj this).2]
          exact hx (Prod.mk.inj this).1.symm
    · simp only [if_neg hl]
      exact h

theorem given_x509 {c : Cfg} {l : Lib} {a : Call} {k : Key} {der : Bytes} (h : given c l a = some (k, der))
    (hb : a.isKey = false) : hasX509 c k = true := by
  unfold given at h
  cases hd : derOf l a.isKey a.fmt a.inp with
  | none => rw [hd] at h; cases h
  | some d =>
    rw [hd] at h
    simp only [Option.bind_some, hb, Bool.false_eq_true, if_false] at h
    cases hk : l.certKey d with
    | none => rw [hk] at h; cases h
    | some k' =>
      rw [hk] at h
      simp only [Option.bind_some] at h
      by_cases hx : hasX509 c k' = true
      · rw [if_pos hx] at h
        have := (Prod.mk.inj (Option.some.inj h)).1
        rw [← this]; exact hx
      · rw [if_neg hx] at h; cases h

theorem process_eq (c : Cfg) (l : Lib) {t : Store} {o : List (Bool × Key)} (h : Ok c t o) (a : Call) (ha : a.alloc = true) :
    process c l (mk c t o) a = match given c l a with
      | none => (false, mk c t o)
      | some (k, der) => ((next (t, o) a.isKey k der).1, mk c (next (t, o) a.isKey k der).2.1 (next (t, o) a.isKey k der).2.2) := by
  unfold process given
  cases derOf l a.isKey a.fmt a.inp with
  | none => rfl
  | some der =>
    simp only [Option.bind_some]
    cases hb : a.isKey
    · simp only [Bool.false_eq_true, if_false]
      unfold identifyCert
      cases l.certKey der with
      | none => rfl
      | some k =>
        simp only [Option.bind_some, ctfi]
        by_cases hx : hasX509 c k = true
        · simp only [if_pos hx]
          rw [if_neg (by simp)]
          simp only [ha]
          exact setCert_eq c t o h k hx der
        · simp only [if_neg hx, if_true]
    · simp only [if_true]
      cases keyTypeOf l a.fmt der with
      | none => rfl
      | some k =>
        simp only [Option.map_some, ha]
        exact setKey_eq c t o h k der

theorem store_cons (c : Cfg) (l : Lib) (a : Call) (as : List Call) (r : Store × List (Bool × Key)) :
    store c l (a :: as) r = match given c l a with
      | none => store c l as r
      | some (k, der) => store c l as (next r a.isKey k der).2 := by
  show (match given c l a with
    | none => store c l as r
    | some (k, der) =>
      if (a.isKey, k) ∈ r.2 then store c l as (r.1.load a.isKey k der, r.2)
      else if r.2.length < 16 then store c l as (r.1.load a.isKey k der, r.2 ++ [(a.isKey, k)])
      else store c l as r) = _
  cases given c l a with
  | none => rfl
  | some x =>
    obtain ⟨k, der⟩ := x
    simp only [next]
    by_cases h1 : (a.isKey, k) ∈ r.2
    · simp only [if_pos h1]
    · simp only [if_neg h1]
      by_cases h2 : r.2.length < 16
      · simp only [if_pos h2]
      · simp only [if_neg h2]

theorem run_eq (c : Cfg) (l : Lib) (as : List Call) (ha : ∀ a ∈ as, a.alloc = true) :
    ∀ t o, Ok c t o → run c l as (mk c t o) = mk c (store c l as (t, o)).1 (store c l as (t, o)).2 ∧
      Ok c (store c l as (t, o)).1 (store c l as (t, o)).2 := by
  induction as with
  | nil => intro t o h; exact ⟨rfl, h⟩
  | cons a as ih =>
    intro t o h
    have ih := ih fun b hb => ha b (List.mem_cons_of_mem _ hb)
    rw [store_cons]
    show run c l as (process c l (mk c t o) a).2 = _ ∧ _
    rw [process_eq c l h a (ha a List.mem_cons_self)]
    cases hg : given c l a with
    | none => exact ih t o h
    | some x =>
      obtain ⟨k, der⟩ := x
      exact ih _ _ (next_Ok c h a.isKey k (fun hb => given_x509 hg hb) der)

theorem init_mk (c : Cfg) : ({} : St) = mk c {} [] := St.ext (by funext i; rfl) rfl rfl rfl

theorem init_Ok (c : Cfg) : Ok c {} [] :=
  ⟨List.nodup_nil, by decide, fun k => by simp, fun k => by simp, fun k h => by cases h⟩

theorem reach (c : Cfg) (l : Lib) (as : List Call) (ha : ∀ a ∈ as, a.alloc = true) :
    run c l as {} = mk c (store c l as ({}, [])).1 (store c l as ({}, [])).2 ∧
      Ok c (store c l as ({}, [])).1 (store c l as ({}, [])).2 := by
  rw [init_mk c]
  exact run_eq c l as ha _ _ (init_Ok c)

theorem chosen_mk (c : Cfg) {t : Store} {o : List (Bool × Key)} (h : Ok c t o) (x : Bool × Key) :
    chosen (mk c t o) (fmtOf x) = if x ∈ o then some (slotOf t x) else none := by
  unfold chosen
  by_cases hm : x ∈ o
  · obtain ⟨i, hlt, he⟩ := List.getElem_of_mem hm
    have hi : o[i]? = some x := by rw [List.getElem?_eq_getElem hlt, he]
    rw [if_pos hm, find_at (mk_Fmts c t o) h.nodup hi]
    show some (slotAt t o i) = _
    unfold slotAt
    rw [hi]
  · rw [if_neg hm, find_none (mk_Fmts c t o) hm]
    rfl

/-! ## Memory -/

/-- Nothing written outside the table, whatever can be allocated. -/
def In (s : St) : Prop := s.count ≤ 16 ∧ s.outside = false

theorem write_In {s : St} (h : In s) {i : Nat} (hi : i < 16) (x : Slot) : In (write s i x) := by
  rw [write_lt x hi]; exact h

theorem find_lt {s : St} (h : In s) {f : Fmt} {i : Nat} (e : find s f = some i) : i < 16 := by
  unfold find at e
  have := List.mem_range.1 (List.mem_of_find?_eq_some e)
  have := h.1
  omega

theorem update_In {c : Cfg} {s : St} (h : In s) (k d : Option Nat) (hd : ∀ i, d = some i → i < 16) (alloc : Bool) :
    In (updateHostCertificates c s k d alloc).2 := by
  unfold updateHostCertificates
  cases k with
  | none => cases d <;> exact h
  | some k =>
    cases d with
    | none =>
      simp only
      cases e : (s.slots k).fmt.bind fun f => find s (certTypeForId c f) with
      | none => exact h
      | some i =>
        simp only
        cases alloc
        · exact h
        · obtain ⟨f, _, e⟩ := Option.bind_eq_some_iff.1 e
          exact write_In h (find_lt h e) _
    | some i =>
      simp only
      cases alloc
      · exact h
      · exact write_In h (hd i rfl) _

/-- The format of a slot in use stays; a new one takes the first free slot. -/
theorem scan_bound (c : Cfg) (s : St) (f : Fmt) (n : Nat) :
    ∀ i, ((List.range n).foldl (fun (r : Option Nat × Option Nat) i =>
      if (s.slots i).fmt = some f then (some i, r.2)
      else if (s.slots i).fmt.map (certTypeForId c) = some f then (r.1, some i)
      else r) (none, none)).1 = some i → i < n ∧ (s.slots i).fmt = some f := by
  induction n with
  | zero => intro i h; cases h
  | succ n ih =>
    intro i
    simp only [List.range_succ, List.foldl_append, List.foldl_cons, List.foldl_nil]
    by_cases h1 : (s.slots n).fmt = some f
    · rw [if_pos h1]
      intro e
      have : n = i := Option.some.inj e
      subst this
      exact ⟨by omega, h1⟩
    · rw [if_neg h1]
      by_cases h2 : (s.slots n).fmt.map (certTypeForId c) = some f
      · rw [if_pos h2]
        intro e
        have := ih i e
        exact ⟨by omega, this.2⟩
      · rw [if_neg h2]
        intro e
        have := ih i e
        exact ⟨by omega, this.2⟩

theorem find_fmt {s : St} {f : Fmt} {i : Nat} (e : find s f = some i) : (s.slots i).fmt = some f := by
  unfold find at e
  have := List.find?_some e
  simpa using this

theorem write_fmt {s : St} {i : Nat} {x : Slot} (hx : x.fmt = (s.slots i).fmt) (j : Nat) :
    ((write s i x).slots j).fmt = (s.slots j).fmt := by
  unfold write
  by_cases h : i < maxKeys
  · rw [if_pos h]
    by_cases hj : j = i
    · subst hj; simp only [if_true]; exact hx
    · simp only [if_neg hj]
  · rw [if_neg h]

theorem write_count {s : St} {i : Nat} {x : Slot} : (write s i x).count = s.count := by
  unfold write
  by_cases h : i < maxKeys
  · rw [if_pos h]
  · rw [if_neg h]

theorem update_fmt (c : Cfg) (s : St) (k d : Option Nat) (alloc : Bool) (j : Nat) :
    ((updateHostCertificates c s k d alloc).2.slots j).fmt = (s.slots j).fmt ∧
    (updateHostCertificates c s k d alloc).2.count = s.count := by
  unfold updateHostCertificates
  cases k with
  | none => cases d <;> exact ⟨rfl, rfl⟩
  | some k =>
    cases d with
    | none =>
      simp only
      cases e : (s.slots k).fmt.bind fun f => find s (certTypeForId c f) with
      | none => exact ⟨rfl, rfl⟩
      | some i =>
        simp only
        cases alloc
        · exact ⟨rfl, rfl⟩
        · exact ⟨write_fmt (x := { s.slots i with key := (s.slots k).key }) rfl j, write_count⟩
    | some i =>
      simp only
      cases alloc
      · exact ⟨rfl, rfl⟩
      · exact ⟨write_fmt (x := { s.slots i with key := (s.slots k).key }) rfl j, write_count⟩

theorem setKey_In {c : Cfg} {s : St} (h : In s) (f : Fmt) (der : Bytes) (alloc : Bool) :
    In (setHostPrivateKey c s f der alloc).2 := by
  unfold setHostPrivateKey
  simp only
  by_cases hd : maxKeys ≤ (find s f).getD s.count
  · rw [if_pos hd]; exact h
  · rw [if_neg hd]
    have hd : (find s f).getD s.count < 16 := by have : maxKeys = 16 := rfl; omega
    have h1 : In (if (s.slots ((find s f).getD s.count)).fmt = some f then s
        else write { s with count := s.count + 1 } ((find s f).getD s.count)
          { s.slots ((find s f).getD s.count) with fmt := some f }) := by
      by_cases hf : (s.slots ((find s f).getD s.count)).fmt = some f
      · rw [if_pos hf]; exact h
      · rw [if_neg hf]
        refine write_In (s := { s with count := s.count + 1 }) ⟨?_, h.2⟩ hd _
        show s.count + 1 ≤ 16
        cases e : find s f with
        | none => rw [e] at hd; simp only [Option.getD_none] at hd; omega
        | some i => exact absurd (by rw [e]; exact find_fmt e) hf
    generalize (if (s.slots ((find s f).getD s.count)).fmt = some f then s
        else write { s with count := s.count + 1 } ((find s f).getD s.count)
          { s.slots ((find s f).getD s.count) with fmt := some f }) = s1 at h1 ⊢
    have h2 := write_In h1 hd { s1.slots ((find s f).getD s.count) with key := some der }
    have h3 := update_In (c := c) h2 (some ((find s f).getD s.count)) none (fun i e => by cases e) alloc
    by_cases hu : (updateHostCertificates c (write s1 ((find s f).getD s.count) { s1.slots ((find s f).getD s.count) with key := some der })
        (some ((find s f).getD s.count)) none alloc).1 = true
    · rw [if_pos hu]; exact h3
    · rw [if_neg hu]; exact h3

theorem setCert_In {c : Cfg} {s : St} (h : In s) (f : Fmt) (der : Bytes) (alloc : Bool) :
    In (setHostCertificate c s f der alloc).2 := by
  unfold setHostCertificate
  simp only
  have hb := scan_bound c s f s.count
  change ∀ i, (certScan c s f).1 = some i → _ at hb
  generalize certScan c s f = r at hb ⊢
  by_cases hd : maxKeys ≤ r.1.getD s.count
  · rw [if_pos hd]; exact h
  · rw [if_neg hd]
    have hd : r.1.getD s.count < 16 := by have : maxKeys = 16 := rfl; omega
    have h1 := update_In (c := c) h r.2 (some (r.1.getD s.count)) (fun i e => by cases e; exact hd) alloc
    have hfm := update_fmt c s r.2 (some (r.1.getD s.count)) alloc (r.1.getD s.count)
    generalize updateHostCertificates c s r.2 (some (r.1.getD s.count)) alloc = u at h1 hfm ⊢
    by_cases hu : u.1 = true
    · rw [if_pos hu]
      show In (refresh c _)
      have h2 : In (if (u.2.slots (r.1.getD s.count)).fmt = some f then u.2
          else write { u.2 with count := u.2.count + 1 } (r.1.getD s.count) { u.2.slots (r.1.getD s.count) with fmt := some f }) := by
        by_cases hf : (u.2.slots (r.1.getD s.count)).fmt = some f
        · rw [if_pos hf]; exact h1
        · rw [if_neg hf]
          refine write_In (s := { u.2 with count := u.2.count + 1 }) ⟨?_, h1.2⟩ hd _
          show u.2.count + 1 ≤ 16
          rw [hfm.2]
          cases e : r.1 with
          | none => rw [e] at hd; simp only [Option.getD_none] at hd; omega
          | some i =>
            refine absurd ?_ hf
            rw [hfm.1, e]
            exact (hb i e).2
      exact write_In h2 hd _
    · rw [if_neg hu]; exact h1

theorem process_In {c : Cfg} {l : Lib} {s : St} (h : In s) (a : Call) : In (process c l s a).2 := by
  unfold process
  cases derOf l a.isKey a.fmt a.inp with
  | none => exact h
  | some der =>
    simp only
    cases a.isKey
    · simp only [Bool.false_eq_true, if_false]
      cases identifyCert c l der with
      | none => exact h
      | some f => exact setCert_In h f der _
    · simp only [if_true]
      cases keyTypeOf l a.fmt der with
      | none => exact h
      | some k => exact setKey_In h _ der _

theorem run_In (c : Cfg) (l : Lib) (as : List Call) : ∀ s, In s → In (run c l as s) := by
  induction as with
  | nil => intro s h; exact h
  | cons a as ih => intro s h; exact ih _ (process_In h a)

end Proofs.HostKeys
