import Verif.Model.KnownHosts
import Verif.Spec.KnownHosts
import Verif.Proofs.Wire
/-!
# Lemmas for C105 to C108
-/

namespace Proofs.KnownHosts
open Wolf Wolf.KnownHosts Spec.KnownHosts

/-! ## Parts -/

theorem parts_cons (d b : UInt8) (t : List UInt8) : parts d (b :: t) =
    if b = d then [] :: parts d t else match parts d t with | p :: ps => (b :: p) :: ps | [] => [[b]] := rfl

theorem parts_eq (d : UInt8) (s : List UInt8) :
    parts d s = s.takeWhile (· ≠ d) :: (match s.dropWhile (· ≠ d) with | [] => [] | _ :: t => parts d t) := by
  induction s with
  | nil => rfl
  | cons b t ih =>
    rw [parts_cons]
    by_cases h : b = d
    · rw [if_pos h]
      simp [List.takeWhile, List.dropWhile, h]
    · rw [if_neg h, ih]
      simp [List.takeWhile, List.dropWhile, h]

theorem parts_ne (d : UInt8) (s : List UInt8) : parts d s ≠ [] := by rw [parts_eq]; simp

theorem parts_append (d : UInt8) (a b : List UInt8) : parts d (a ++ d :: b) = parts d a ++ parts d b := by
  induction a with
  | nil => simp [parts]
  | cons x t ih =>
    rw [List.cons_append, parts_cons, parts_cons]
    by_cases h : x = d
    · rw [if_pos h, if_pos h, ih]; rfl
    · rw [if_neg h, if_neg h, ih]
      cases hp : parts d t with
      | nil => exact absurd hp (parts_ne d t)
      | cons p ps => rfl

theorem parts_none (d : UInt8) (s : List UInt8) (h : d ∉ s) : parts d s = [s] := by
  induction s with
  | nil => rfl
  | cons x t ih =>
    rw [parts_cons]
    rw [if_neg (fun e => h (by rw [e]; simp)), ih (fun e => h (by simp [e]))]

/-! ## Lines -/

/-- What an entry means for a key. -/
def look (target type key : List UInt8) : Option Entry → Line
  | none => .nothing
  | some e =>
    if target = e.host then if type = e.type then if key = e.key then .found else .bad else .nothing
    else if type = e.type ∧ key = e.key then .other else .nothing

theorem lookLine_eq (target type key line : List UInt8) : lookLine target type key line = look target type key (entryOf line) := by
  unfold lookLine
  by_cases h : line = []
  · rw [if_pos h, h]; rfl
  · rw [if_neg h]
    unfold entryOf chomp
    generalize (if line.getLast? = some 13 then line.dropLast else line) = l
    simp only [strsep]
    rw [parts_eq]
    generalize l.takeWhile _ = a
    cases h1 : l.dropWhile (fun x => decide (x ≠ 32)) with
    | nil => rfl
    | cons _ l1 =>
      simp only
      rw [parts_eq]
      generalize l1.takeWhile _ = b
      cases h2 : l1.dropWhile (fun x => decide (x ≠ 32)) with
      | nil => rfl
      | cons _ l2 =>
        simp only
        rw [parts_eq]
        rfl

/-- What the entries of a file mean for a key. -/
def verdict (target type key : List UInt8) (es : List Entry) : Option Bool :=
  (es.find? fun e => e.host = target ∧ e.type = type).map fun e => decide (e.key = key)

theorem scan_eq (target type key cursor : List UInt8) (other : Bool) :
    let f := scan target type key cursor other
    let v := verdict target type key ((parts 10 cursor).filterMap entryOf)
    (f.found = true ↔ v = some true) ∧ (f.bad = true ↔ v = some false) := by
  induction hn : cursor.length using Nat.strongRecOn generalizing cursor other with
  | ind n ih =>
    rw [scan, parts_eq]
    simp only [strsep]
    rw [lookLine_eq]
    cases he : entryOf (List.takeWhile (fun x => decide (x ≠ 10)) cursor) with
    | none =>
      simp only [look]
      rw [List.filterMap_cons_none he]
      have hle : (cursor.dropWhile (fun x => decide (x ≠ 10))).length ≤ cursor.length := (List.dropWhile_suffix _).length_le
      split
      · rename_i h1
        split at h1
        · rename_i h2
          rw [h2]
          simp [verdict]
        · cases h1
      · rename_i r h1
        split at h1
        · cases h1
        · rename_i b t h2
          cases h1
          rw [h2] at hle ⊢
          simp only [List.length_cons] at hle
          exact ih _ (by omega) _ _ rfl
    | some e =>
      rw [List.filterMap_cons_some he]
      by_cases h1 : target = e.host ∧ type = e.type
      · obtain ⟨rfl, rfl⟩ := h1
        by_cases hk : key = e.key
        · simp [look, hk, verdict]
        · have hk' : ¬ e.key = key := fun h => hk h.symm
          simp [look, hk, hk', verdict]
      · have hv : ∀ es, verdict target type key (e :: es) = verdict target type key es := by
          intro es
          unfold verdict
          rw [List.find?_cons_of_neg (by simp only [decide_eq_true_eq]; intro h; exact h1 ⟨h.1.symm, h.2.symm⟩)]
        rw [hv]
        have hle : (cursor.dropWhile (fun x => decide (x ≠ 10))).length ≤ cursor.length := (List.dropWhile_suffix _).length_le
        have hl : look target type key (some e) = .other ∨ look target type key (some e) = .nothing := by
          unfold look
          simp only
          by_cases h2 : target = e.host
          · rw [if_pos h2, if_neg (fun h => h1 ⟨h2, h⟩)]; exact .inr rfl
          · rw [if_neg h2]
            by_cases h3 : type = e.type ∧ key = e.key
            · rw [if_pos h3]; exact .inl rfl
            · rw [if_neg h3]; exact .inr rfl
        have tail : ∀ (o : Bool),
            let f := (match h : (match cursor.dropWhile (fun x => decide (x ≠ 10)) with | [] => none | _ :: t => some t) with
              | none => ({ other := o } : Flags)
              | some rest => scan target type key rest o)
            let v := verdict target type key (List.filterMap entryOf (match cursor.dropWhile (fun x => decide (x ≠ 10)) with | [] => [] | _ :: t => parts 10 t))
            (f.found = true ↔ v = some true) ∧ (f.bad = true ↔ v = some false) := by
          intro o
          cases h2 : cursor.dropWhile (fun x => decide (x ≠ 10)) with
          | nil => simp [verdict]
          | cons b t =>
            rw [h2] at hle
            simp only [List.length_cons] at hle
            exact ih _ (by omega) _ _ rfl
        rcases hl with hl | hl
        · rw [hl]; exact tail _
        · rw [hl]; exact tail _

theorem verdict_known (target type key file : List UInt8) (b : Bool) :
    verdict target type key (entries file) = some b ↔ ∃ k, knownKey file target type = some k ∧ decide (k = key) = b := by
  unfold verdict knownKey
  cases (entries file).find? fun e => decide (e.host = target ∧ e.type = type) with
  | none => simp
  | some e => simp

theorem keyType_eq (k : List UInt8) : keyType k = typeOf k := by
  unfold keyType typeOf
  match k with
  | [] => rfl
  | [_] => rfl
  | [_, _] => rfl
  | [_, _, _] => rfl
  | a :: b :: c :: d :: rest =>
    simp only
    have : Wire.ato32 a b c d = ((a.toNat * 256 + b.toNat) * 256 + c.toNat) * 256 + d.toNat := by
      rw [Wire.ato32_eq]
    rw [this]
    generalize ((a.toNat * 256 + b.toNat) * 256 + c.toNat) * 256 + d.toNat = n
    by_cases h : n > rest.length ∨ n > 53
    · rw [if_pos h, if_neg (by omega)]
    · rw [if_neg h, if_pos (by omega)]; rfl

theorem storable_iff (f : List UInt8) : storable f = true ↔ Plain f := by
  unfold storable Plain
  simp only [ne_eq, decide_eq_true_eq, List.all_eq_true, Bool.decide_and, Bool.and_eq_true, decide_not, Bool.not_eq_true',
    decide_eq_false_iff_not]
  refine and_congr Iff.rfl (forall_congr' fun b => imp_congr Iff.rfl ?_)
  rw [not_or, UInt8.not_le]

/-! ## Adding -/

theorem takeWhile_all (s : List UInt8) (h : 0 ∉ s) : s.takeWhile (· ≠ 0) = s := by
  induction s with
  | nil => rfl
  | cons x t ih =>
    have hx : x ≠ 0 := fun e => h (by rw [e]; simp)
    rw [List.takeWhile_cons_of_pos (by simp [hx]), ih (fun e => h (by simp [e]))]

theorem plain_not {f : List UInt8} (h : Plain f) (b : UInt8) (hb : b ≤ 32) : b ∉ f := by
  intro hm
  have := (h.2 b hm).1
  exact absurd hb (UInt8.not_le.2 this)

theorem entry_plain {n t k : List UInt8} (hn : Plain n) (ht : Plain t) (hk : Plain k) :
    entryOf (n ++ [32] ++ t ++ [32] ++ k) = some ⟨n, t, k⟩ := by
  unfold entryOf chomp
  have h13 : ¬ (n ++ [32] ++ t ++ [32] ++ k).getLast? = some 13 := by
    intro h
    have hm : (n ++ [32] ++ t ++ [32] ++ k).getLast? = k.getLast? := by
      rw [List.getLast?_append]
      cases h : k.getLast? with
      | none => rw [List.getLast?_eq_none_iff] at h; exact absurd h hk.1
      | some x => rfl
    rw [hm] at h
    exact plain_not hk 13 (by decide) (List.mem_of_getLast? h)
  rw [if_neg h13]
  rw [show n ++ [32] ++ t ++ [32] ++ k = n ++ 32 :: (t ++ 32 :: k) by simp]
  rw [parts_append, parts_append, parts_none _ _ (plain_not hn 32 (by decide)), parts_none _ _ (plain_not ht 32 (by decide)),
    parts_none _ _ (plain_not hk 32 (by decide))]
  rfl

theorem entries_append {file n t k : List UInt8} (h0 : 0 ∉ file) (hn : Plain n) (ht : Plain t) (hk : Plain k) (nl : Bool)
    (hnl : nl = true ∨ file.getLast? = some 10 ∨ file = []) : entries (file ++ entry nl n t k) = entries file ++ [⟨n, t, k⟩] := by
  have hline : 10 ∉ n ++ [32] ++ t ++ [32] ++ k := by
    simp only [List.mem_append, List.mem_singleton, not_or]
    exact ⟨⟨⟨⟨plain_not hn 10 (by decide), by decide⟩, plain_not ht 10 (by decide)⟩, by decide⟩, plain_not hk 10 (by decide)⟩
  have hz : 0 ∉ n ++ [32] ++ t ++ [32] ++ k := by
    simp only [List.mem_append, List.mem_singleton, not_or]
    exact ⟨⟨⟨⟨plain_not hn 0 (by decide), by decide⟩, plain_not ht 0 (by decide)⟩, by decide⟩, plain_not hk 0 (by decide)⟩
  have h00 : 0 ∉ entry nl n t k := by
    unfold entry
    cases nl
    · rw [if_neg (by decide), List.nil_append]
      intro h
      rcases List.mem_append.1 h with h | h
      · exact hz h
      · exact absurd h (by decide)
    · rw [if_pos rfl]
      intro h
      rcases List.mem_append.1 h with h | h
      · rw [show [10] ++ n ++ [32] ++ t ++ [32] ++ k = [10] ++ (n ++ [32] ++ t ++ [32] ++ k) by simp] at h
        rcases List.mem_append.1 h with h | h
        · exact absurd h (by decide)
        · exact hz h
      · exact absurd h (by decide)
  unfold entries
  rw [takeWhile_all _ h0, takeWhile_all _ (by intro h; rcases List.mem_append.1 h with h | h; exact h0 h; exact h00 h)]
  have hlast : (parts 10 (n ++ [32] ++ t ++ [32] ++ k ++ [10])).filterMap entryOf = [⟨n, t, k⟩] := by
    rw [show n ++ [32] ++ t ++ [32] ++ k ++ [10] = (n ++ [32] ++ t ++ [32] ++ k) ++ 10 :: [] by simp]
    rw [parts_append, parts_none _ _ hline, List.filterMap_append, List.filterMap_cons_some (entry_plain hn ht hk)]
    rfl
  have key : ∀ f : List UInt8, (parts 10 (f ++ 10 :: (n ++ [32] ++ t ++ [32] ++ k ++ [10]))).filterMap entryOf =
      (parts 10 f).filterMap entryOf ++ [⟨n, t, k⟩] := by
    intro f
    rw [parts_append, List.filterMap_append, hlast]
  cases nl with
  | true =>
    have : file ++ entry true n t k = file ++ 10 :: (n ++ [32] ++ t ++ [32] ++ k ++ [10]) := by simp [entry]
    rw [this, key]
  | false =>
    have he : entry false n t k = n ++ [32] ++ t ++ [32] ++ k ++ [10] := by simp [entry]
    rw [he]
    rcases hnl with h | h | h
    · cases h
    · obtain ⟨f, rfl⟩ : ∃ f, file = f ++ [10] := by
        have hne : file ≠ [] := by rintro rfl; cases h
        rw [List.getLast?_eq_some_getLast hne] at h
        refine ⟨file.dropLast, ?_⟩
        have := List.dropLast_concat_getLast hne
        rw [Option.some.inj h] at this
        exact this.symm
      rw [List.append_assoc, List.singleton_append, key, show f ++ [10] = f ++ 10 :: [] from rfl, parts_append, List.filterMap_append]
      simp [parts, entryOf, chomp]
    · subst h
      rw [List.nil_append, hlast]
      rfl

/-! ## Destinations -/

theorem strchr_none {c : UInt8} {s : List UInt8} : strchr c s = none ↔ c ∉ s := by
  induction s with
  | nil => simp [strchr]
  | cons x t ih =>
    unfold strchr at ih ⊢
    by_cases h : x = c
    · simp [List.dropWhile, h]
    · simp only [List.dropWhile, h, ne_eq, not_false_eq_true, decide_true, List.takeWhile] at ih ⊢
      constructor
      · intro hn
        simp only [List.mem_cons, not_or]
        refine ⟨fun e => h e.symm, ih.1 ?_⟩
        split at hn
        · rfl
        · cases hn
      · intro hn
        have := ih.2 (fun e => hn (by simp [e]))
        split at this
        · rfl
        · cases this

theorem strchr_some {c : UInt8} {s a b : List UInt8} : strchr c s = some (a, b) ↔ s = a ++ c :: b ∧ c ∉ a := by
  induction s generalizing a with
  | nil => simp [strchr]
  | cons x t ih =>
    unfold strchr at ih ⊢
    by_cases h : x = c
    · subst h
      simp only [List.dropWhile, ne_eq, not_true_eq_false, decide_false, List.takeWhile, Option.some.injEq, Prod.mk.injEq]
      constructor
      · rintro ⟨rfl, rfl⟩; simp
      · rintro ⟨h1, h2⟩
        cases a with
        | nil => simp at h1; exact ⟨rfl, h1⟩
        | cons y a' => rw [List.cons_append, List.cons.injEq] at h1; exact absurd (by rw [h1.1]; simp) h2
    · simp only [List.dropWhile, h, ne_eq, not_false_eq_true, decide_true, List.takeWhile] at ih ⊢
      constructor
      · intro hs
        split at hs
        · cases hs
        · rename_i y r h2
          rw [Option.some.injEq, Prod.mk.injEq] at hs
          obtain ⟨rfl, rfl⟩ := hs
          have := (ih (a := List.takeWhile (fun x => decide ¬ x = c) t)).1 (by rw [h2])
          refine ⟨by rw [List.cons_append, ← this.1], ?_⟩
          simp only [List.mem_cons, not_or]
          exact ⟨fun e => h e.symm, this.2⟩
      · rintro ⟨h1, h2⟩
        cases a with
        | nil => rw [List.nil_append, List.cons.injEq] at h1; exact absurd h1.1 h
        | cons y a' =>
          rw [List.cons_append, List.cons.injEq] at h1
          obtain ⟨rfl, h1⟩ := h1
          have := (ih (a := a')).2 ⟨h1, fun e => h2 (by simp [e])⟩
          split at this
          · cases this
          · simp only [Option.some.injEq, Prod.mk.injEq] at this ⊢
            exact ⟨by rw [this.1], this.2⟩

theorem takeWhile_append {p : UInt8 → Bool} {a : List UInt8} (h : ∀ b ∈ a, p b = true) (r : List UInt8) :
    (a ++ r).takeWhile p = a ++ r.takeWhile p ∧ (a ++ r).dropWhile p = r.dropWhile p := by
  induction a with
  | nil => exact ⟨rfl, rfl⟩
  | cons x t ih =>
    have hx := h x (by simp)
    have := ih (fun b hb => h b (by simp [hb]))
    rw [List.cons_append, List.takeWhile_cons_of_pos hx, List.dropWhile_cons_of_pos hx, this.1, this.2]
    exact ⟨rfl, rfl⟩

theorem takeWhile_mem {p : UInt8 → Bool} {a : List UInt8} : ∀ b ∈ a.takeWhile p, p b = true := by
  intro b hb
  induction a with
  | nil => cases hb
  | cons x t ih =>
    by_cases hx : p x = true
    · rw [List.takeWhile_cons_of_pos hx] at hb
      rcases List.mem_cons.1 hb with rfl | hb
      · exact hx
      · exact ih hb
    · rw [List.takeWhile_cons_of_neg hx] at hb; cases hb

theorem isSpace_iff (b : UInt8) : isSpace b = true ↔ b = 32 ∨ (9 ≤ b ∧ b ≤ 13) := by simp [isSpace]
theorem isDigit_iff (b : UInt8) : isDigit b = true ↔ 48 ≤ b ∧ b ≤ 57 := by simp [isDigit]

/-- The sign. -/
def signOf : List UInt8 → Bool × List UInt8
  | 45 :: t => (true, t)
  | 43 :: t => (false, t)
  | s => (false, s)

theorem strtol_eq (s : List UInt8) : strtol s =
    let r := signOf (s.dropWhile isSpace)
    if r.2.takeWhile isDigit = [] then none
    else some (if r.1 then - (digits (r.2.takeWhile isDigit) : Int) else digits (r.2.takeWhile isDigit), r.2.dropWhile isDigit) := by
  rfl

theorem signOf_cases (s : List UInt8) : (∃ t, s = 45 :: t ∧ signOf s = (true, t)) ∨ (∃ t, s = 43 :: t ∧ signOf s = (false, t)) ∨
    signOf s = (false, s) := by
  unfold signOf
  split
  · exact .inl ⟨_, rfl, rfl⟩
  · exact .inr (.inl ⟨_, rfl, rfl⟩)
  · exact .inr (.inr rfl)

theorem parsePort_some (t : List UInt8) (old n : Nat) (h : t ≠ []) : parsePort t old = some n ↔ PortText t n := by
  unfold parsePort
  rw [if_neg h, strtol_eq]
  simp only
  have hsplit : t = t.takeWhile isSpace ++ t.dropWhile isSpace := (List.takeWhile_append_dropWhile).symm
  constructor
  · intro hp
    by_cases hd : (signOf (t.dropWhile isSpace)).2.takeWhile isDigit = []
    · rw [if_pos hd] at hp; cases hp
    · rw [if_neg hd] at hp
      simp only at hp
      by_cases hc : (signOf (t.dropWhile isSpace)).2.dropWhile isDigit ≠ [] ∨
          (if (signOf (t.dropWhile isSpace)).1 = true then - (digits ((signOf (t.dropWhile isSpace)).2.takeWhile isDigit) : Int)
            else digits ((signOf (t.dropWhile isSpace)).2.takeWhile isDigit)) < 1 ∨
          (if (signOf (t.dropWhile isSpace)).1 = true then - (digits ((signOf (t.dropWhile isSpace)).2.takeWhile isDigit) : Int)
            else digits ((signOf (t.dropWhile isSpace)).2.takeWhile isDigit)) > 65535
      · rw [if_pos hc] at hp; cases hp
      · rw [if_neg hc] at hp
        have hall : ∀ r : List UInt8, r.dropWhile isDigit = [] → r.takeWhile isDigit = r := by
          intro r hr
          have := List.takeWhile_append_dropWhile (p := isDigit) (l := r)
          rwa [hr, List.append_nil] at this
        rcases signOf_cases (t.dropWhile isSpace) with ⟨r, h1, h2⟩ | ⟨r, h1, h2⟩ | h2
        · rw [h2] at hc
          simp only [if_true] at hc
          omega
        · rw [h2] at hc hp hd
          simp only [Bool.false_eq_true, if_false, not_or, ne_eq, Decidable.not_not] at hc hp hd
          have hr := hall r hc.1
          rw [hr] at hc hp hd
          refine ⟨t.takeWhile isSpace, [43], r, ?_, fun b hb => (isSpace_iff b).1 (takeWhile_mem b hb), .inr rfl, hd,
            fun b hb => (isDigit_iff b).1 (takeWhile_mem b (by rw [hr]; exact hb)), ?_, ?_⟩
          · rw [List.append_assoc, List.singleton_append, ← h1]; exact hsplit
          · simp only [Int.toNat_natCast, Option.some.injEq] at hp; exact hp.symm
          · simp only [Int.toNat_natCast, Option.some.injEq] at hp; omega
        · rw [h2] at hc hp hd
          simp only [Bool.false_eq_true, if_false, not_or, ne_eq, Decidable.not_not] at hc hp hd
          have hr := hall _ hc.1
          rw [hr] at hc hp hd
          refine ⟨t.takeWhile isSpace, [], t.dropWhile isSpace, ?_, fun b hb => (isSpace_iff b).1 (takeWhile_mem b hb), .inl rfl, hd,
            fun b hb => (isDigit_iff b).1 (takeWhile_mem b (by rw [hr]; exact hb)), ?_, ?_⟩
          · rw [List.append_nil]; exact hsplit
          · simp only [Int.toNat_natCast, Option.some.injEq] at hp; exact hp.symm
          · simp only [Int.toNat_natCast, Option.some.injEq] at hp; omega
  · rintro ⟨ws, sign, ds, rfl, hws, hsign, hds, hdig, rfl, h1, h2⟩
    have hw := takeWhile_append (p := isSpace) (a := ws) (fun b hb => (isSpace_iff b).2 (hws b hb)) (sign ++ ds)
    rw [← List.append_assoc] at hw
    obtain ⟨d0, dt, rfl⟩ : ∃ x y, ds = x :: y := by cases ds with | nil => exact absurd rfl hds | cons x y => exact ⟨x, y, rfl⟩
    have hd0 := hdig d0 (by simp)
    have hns : isSpace d0 = false := by
      rw [Bool.eq_false_iff, ne_eq, isSpace_iff]
      rintro (h | h)
      · rw [h] at hd0; exact absurd hd0.1 (by decide)
      · exact absurd (UInt8.le_trans hd0.1 h.2) (by decide)
    have hdrop : (ws ++ sign ++ d0 :: dt).dropWhile isSpace = sign ++ d0 :: dt := by
      rw [hw.2]
      rcases hsign with rfl | rfl
      · rw [List.nil_append, List.dropWhile_cons_of_neg (by simp [hns])]
      · rw [List.singleton_append, List.dropWhile_cons_of_neg (by decide)]
    rw [hdrop]
    have hsg : signOf (sign ++ d0 :: dt) = (false, d0 :: dt) := by
      rcases hsign with rfl | rfl
      · rw [List.nil_append]
        rcases signOf_cases (d0 :: dt) with ⟨r, e, _⟩ | ⟨r, e, _⟩ | e
        · rw [List.cons.injEq] at e; rw [e.1] at hd0; exact absurd hd0.1 (by decide)
        · rw [List.cons.injEq] at e; rw [e.1] at hd0; exact absurd hd0.1 (by decide)
        · exact e
      · rfl
    rw [hsg]
    have ht := takeWhile_append (p := isDigit) (a := d0 :: dt) (fun b hb => (isDigit_iff b).2 (hdig b hb)) []
    rw [List.append_nil] at ht
    simp only [List.takeWhile_nil, List.dropWhile_nil, List.append_nil] at ht
    simp only [ht.1, ht.2, Bool.false_eq_true, if_false]
    rw [if_neg (by simp)]
    have hn : digits (d0 :: dt) = number (d0 :: dt) := rfl
    simp only [hn]
    rw [if_neg (by simp only [ne_eq, not_true_eq_false, false_or]; omega)]
    simp

end Proofs.KnownHosts
