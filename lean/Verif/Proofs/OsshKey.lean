import Verif.Spec.OsshKey
import Verif.Proofs.OsshWire
/-! Reading a private key file is exactly the reading of its encoding; its objects are freed once. -/

namespace Proofs.OsshKey
open Wolf Wolf.Wire Wolf.OsshKey Spec.Wire Spec.OsshKey Props.Wire Proofs.Ossh
open Wolf.OsshCert (view)
open Spec.OsshCert (ascii encStrings NonNegative)

theorem next_ok {α β : Type} {e : KErr} {r : Res α} {f : α → Nat → Ret β} {b : β} :
    next e r f = .ok b ↔ ∃ v i, r = .ok v i ∧ f v i = .ok b := by
  unfold next
  cases r <;> simp [and_assoc]

theorem next_ub {α β : Type} {e : KErr} {r : Res α} {f : α → Nat → Ret β} :
    next e r f = .ub ↔ r = .ub ∨ ∃ v i, r = .ok v i ∧ f v i = .ub := by
  unfold next
  cases r <;> simp [and_assoc]

/-- The strings agree with what kind each is. -/
inductive Fits : List Bool → List Bytes → Prop where
  | nil : Fits [] []
  | cons {m ms b bs} : (m = true → NonNegative b) → Fits ms bs → Fits (m :: ms) (b :: bs)

variable {mem : Bytes} {len : Nat}

theorem encStrings_cons (b : Bytes) (bs : List Bytes) : encStrings (b :: bs) = encString b ++ encStrings bs := rfl

theorem parts_inv {e : KErr} (hl : len ≤ mem.length) (hw : len < 2 ^ 32) (ms : List Bool) :
    ∀ {idx : Nat} {bs : List Bytes} {j : Nat}, readParts e mem len ms idx = .ok (bs, j) →
      Fits ms bs ∧ msgFrom mem len idx = encStrings bs ++ msgFrom mem len j := by
  induction ms with
  | nil =>
    intro idx bs j h
    simp only [readParts, Ret.ok.injEq, Prod.mk.injEq] at h
    obtain ⟨rfl, rfl⟩ := h
    exact ⟨.nil, rfl⟩
  | cons m ms ih =>
    intro idx bs j h
    unfold readParts at h
    obtain ⟨r, i, h1, h2⟩ := next_ok.1 h
    have hs : ∃ s, r = refAt idx s ∧ msgFrom mem len idx = encString s ++ msgFrom mem len i ∧ (m = true → NonNegative s) := by
      cases m with
      | true =>
        obtain ⟨s, a, _, _, _, c, d⟩ := mpint_inv hl hw h1
        exact ⟨s, a, c, fun _ => d⟩
      | false =>
        obtain ⟨s, a, _, _, _, c⟩ := str_inv hl hw h1
        exact ⟨s, a, c, fun h => by cases h⟩
    obtain ⟨s, rfl, hm, hn⟩ := hs
    rw [str_deref hl hm hw] at h2
    simp only at h2
    cases hr : readParts e mem len ms i with
    | ub => rw [hr] at h2; cases h2
    | err e' => rw [hr] at h2; cases h2
    | ok p =>
      obtain ⟨bs', j'⟩ := p
      rw [hr] at h2
      simp only [Ret.ok.injEq, Prod.mk.injEq] at h2
      obtain ⟨rfl, rfl⟩ := h2
      obtain ⟨a, b⟩ := ih hr
      exact ⟨.cons hn a, by rw [hm, b, encStrings_cons, List.append_assoc]⟩

theorem parts_fwd {e : KErr} (hl : len ≤ mem.length) (hw : len < 2 ^ 32) {ms : List Bool} {bs : List Bytes} (hf : Fits ms bs) :
    ∀ {idx : Nat} {rest : Bytes}, msgFrom mem len idx = encStrings bs ++ rest →
      ∃ j, readParts e mem len ms idx = .ok (bs, j) ∧ msgFrom mem len j = rest := by
  induction hf with
  | nil => intro idx rest h; exact ⟨idx, rfl, h⟩
  | @cons m ms b bs hn _ ih =>
    intro idx rest h
    rw [encStrings_cons, List.append_assoc] at h
    have hr : (if m then getMpint mem len idx else getStringRef mem len idx) = .ok (refAt idx b) (idx + 4 + b.length) ∧
        msgFrom mem len (idx + 4 + b.length) = encStrings bs ++ rest := by
      cases m with
      | true => exact mpint_fwd hl hw h (hn rfl)
      | false => exact str_fwd hl hw h
    obtain ⟨j, hj, hm⟩ := ih hr.2
    refine ⟨j, ?_, hm⟩
    unfold readParts
    rw [hr.1]
    simp only [next]
    rw [str_deref hl h hw]
    simp only
    rw [hj]

theorem parts_ne_ub {e : KErr} (hl : len ≤ mem.length) (hw : len < 2 ^ 32) (ms : List Bool) :
    ∀ idx, readParts e mem len ms idx ≠ .ub := by
  induction ms with
  | nil => intro idx h; cases h
  | cons m ms ih =>
    intro idx h
    unfold readParts at h
    rcases next_ub.1 h with h | ⟨r, i, h1, h2⟩
    · cases m with
      | true => exact mpint_ne_ub idx hl hw h
      | false => exact str_ne_ub idx hl hw h
    · have hs : ∃ s, r = refAt idx s ∧ msgFrom mem len idx = encString s ++ msgFrom mem len i := by
        cases m with
        | true =>
          obtain ⟨s, a, _, _, _, c, d⟩ := mpint_inv hl hw h1
          exact ⟨s, a, c⟩
        | false =>
          obtain ⟨s, a, _, _, _, c⟩ := str_inv hl hw h1
          exact ⟨s, a, c⟩
      obtain ⟨s, rfl, hm⟩ := hs
      rw [str_deref hl hm hw] at h2
      simp only at h2
      cases hr : readParts e mem len ms i with
      | ub => exact ih i hr
      | err e' => rw [hr] at h2; cases h2
      | ok p => rw [hr] at h2; cases h2

/-! ## One type -/

/-- The objects can be had. -/
def flags (E : Env) (k : Kind) : Bool :=
  E.init && (match fam k with | .mldsa => E.params | .comp => E.params && E.tradInit | _ => true)

theorem readKey_ok {E : Env} {k : Kind} {idx : Nat} {ps : List Bytes} {i : Nat} :
    readKey E k mem len idx = .ok (ps, i) ↔
      readParts (failure (fam k)) mem len (shape (fam k)) idx = .ok (ps, i) ∧ takes E k ps = true := by
  unfold readKey
  cases readParts (failure (fam k)) mem len (shape (fam k)) idx with
  | ub => simp
  | err e => simp
  | ok p =>
    obtain ⟨qs, j⟩ := p
    simp only
    by_cases h : takes E k qs = true
    · rw [if_pos h]
      simp only [Ret.ok.injEq, Prod.mk.injEq]
      constructor
      · rintro ⟨rfl, rfl⟩; exact ⟨⟨rfl, rfl⟩, h⟩
      · rintro ⟨⟨rfl, rfl⟩, _⟩; exact ⟨rfl, rfl⟩
    · rw [if_neg h]
      simp only [reduceCtorEq, Ret.ok.injEq, Prod.mk.injEq, false_iff]
      rintro ⟨⟨rfl, rfl⟩, h'⟩; exact h h'

theorem load_ok {E : Env} {k : Kind} {idx : Nat} {ps : List Bytes} {i : Nat} :
    (load E k mem len idx).1 = .ok (ps, i) ↔ flags E k = true ∧ readKey E k mem len idx = .ok (ps, i) := by
  unfold load flags
  cases fam k <;> cases E.init <;> cases E.params <;> cases E.tradInit <;> simp

theorem load_ub {E : Env} {k : Kind} {idx : Nat} (hl : len ≤ mem.length) (hw : len < 2 ^ 32) :
    (load E k mem len idx).1 ≠ .ub := by
  have h : readKey E k mem len idx ≠ .ub := by
    intro h
    unfold readKey at h
    cases hp : readParts (failure (fam k)) mem len (shape (fam k)) idx with
    | ub => exact parts_ne_ub hl hw _ _ hp
    | err e => rw [hp] at h; cases h
    | ok p =>
      rw [hp] at h
      simp only at h
      split at h <;> cases h
  unfold load
  cases fam k <;> cases E.init <;> cases E.params <;> cases E.tradInit <;> simp [h]

theorem fits_parts (k : Kind) (ps : List Bytes) : Fits (shape (fam k)) ps ↔ Parts k ps := by
  have h2 : Fits [false, false] ps ↔ ∃ pub priv, ps = [pub, priv] := by
    constructor
    · intro h
      cases h with
      | cons _ h => cases h with
        | cons _ h => cases h; exact ⟨_, _, rfl⟩
    · rintro ⟨a, b, rfl⟩
      exact .cons (fun h => by cases h) (.cons (fun h => by cases h) .nil)
  have h3 : Fits [false, false, true] ps ↔ ∃ c q d, ps = [c, q, d] ∧ NonNegative d := by
    constructor
    · intro h
      cases h with
      | cons _ h => cases h with
        | cons _ h => cases h with
          | cons hn h => cases h; exact ⟨_, _, _, rfl, hn rfl⟩
    · rintro ⟨a, b, c, rfl, hn⟩
      exact .cons (fun h => by cases h) (.cons (fun h => by cases h) (.cons (fun _ => hn) .nil))
  have h6 : Fits [true, true, true, true, true, true] ps ↔ ps.length = 6 ∧ ∀ p ∈ ps, NonNegative p := by
    constructor
    · intro h
      cases h with
      | cons a1 h => cases h with
        | cons a2 h => cases h with
          | cons a3 h => cases h with
            | cons a4 h => cases h with
              | cons a5 h => cases h with
                | cons a6 h =>
                  cases h
                  refine ⟨rfl, ?_⟩
                  intro p hp
                  simp only [List.mem_cons, List.not_mem_nil, or_false] at hp
                  rcases hp with rfl | rfl | rfl | rfl | rfl | rfl
                  · exact a1 rfl
                  · exact a2 rfl
                  · exact a3 rfl
                  · exact a4 rfl
                  · exact a5 rfl
                  · exact a6 rfl
    · rintro ⟨h, hn⟩
      match ps, h with
      | [a, b, c, d, e, f], _ =>
        exact .cons (fun _ => hn _ (by simp)) (.cons (fun _ => hn _ (by simp)) (.cons (fun _ => hn _ (by simp))
          (.cons (fun _ => hn _ (by simp)) (.cons (fun _ => hn _ (by simp)) (.cons (fun _ => hn _ (by simp)) .nil)))))
  cases k
  case rsa => exact h6
  case p256 => exact h3
  case p384 => exact h3
  case p521 => exact h3
  all_goals exact h2

theorem comp_iff (E : Env) (k : Kind) (sz : Nat × Nat × Nat) (pub priv : Bytes) :
    (decide (pub.length = sz.1 + sz.2.1) && decide (priv.length = seedSz + sz.2.2) &&
      E.seedPub k (priv.take seedSz) == some (pub.take sz.1) &&
      E.tradPub k (priv.drop seedSz) (pub.drop sz.1) == some (pub.drop sz.1)) = true ↔
    ∃ mpub tpub seed tpriv, pub = mpub ++ tpub ∧ priv = seed ++ tpriv ∧
      mpub.length = sz.1 ∧ tpub.length = sz.2.1 ∧ seed.length = 32 ∧ tpriv.length = sz.2.2 ∧
      E.seedPub k seed = some mpub ∧ E.tradPub k tpriv tpub = some tpub := by
  have hs : seedSz = 32 := rfl
  simp only [Bool.and_eq_true, decide_eq_true_eq, beq_iff_eq]
  constructor
  · rintro ⟨⟨⟨h1, h2⟩, h3⟩, h4⟩
    refine ⟨pub.take sz.1, pub.drop sz.1, priv.take 32, priv.drop 32, (List.take_append_drop _ _).symm,
      (List.take_append_drop _ _).symm, ?_, ?_, ?_, ?_, h3, h4⟩
    · rw [List.length_take]; omega
    · rw [List.length_drop]; omega
    · rw [List.length_take]; omega
    · rw [List.length_drop]; omega
  · rintro ⟨m, t, s, p, rfl, rfl, h1, h2, h3, h4, h5, h6⟩
    rw [List.length_append, List.length_append, ← h1, show seedSz = s.length from h3.symm, List.take_left, List.take_left, List.drop_left,
      List.drop_left]
    exact ⟨⟨⟨by omega, by omega⟩, h5⟩, h6⟩

theorem agrees_iff (E : Env) (k : Kind) (ps : List Bytes) (hp : Parts k ps) :
    Agrees E k ps ↔ E.built k = true ∧ flags E k = true ∧ takes E k ps = true := by
  unfold Agrees flags
  cases k
  case rsa => simp [fam, takes]
  case p256 => obtain ⟨c, q, d, rfl, _⟩ := hp; simp [fam, takes]
  case p384 => obtain ⟨c, q, d, rfl, _⟩ := hp; simp [fam, takes]
  case p521 => obtain ⟨c, q, d, rfl, _⟩ := hp; simp [fam, takes]
  case ed25519 =>
    obtain ⟨a, ka, rfl⟩ := hp
    simp only [fam, takes, Bool.and_true]
    by_cases h : ka.length < a.length
    · rw [if_pos h]; simp; omega
    · rw [if_neg h]
      constructor
      · rintro ⟨a, b, _, c⟩; exact ⟨a, b, c⟩
      · rintro ⟨a, b, c⟩; exact ⟨a, b, by omega, c⟩
  case ml44 => obtain ⟨a, ka, rfl⟩ := hp; simp [fam, takes, and_assoc]
  case ml65 => obtain ⟨a, ka, rfl⟩ := hp; simp [fam, takes, and_assoc]
  case ml87 => obtain ⟨a, ka, rfl⟩ := hp; simp [fam, takes, and_assoc]
  all_goals
    obtain ⟨a, ka, rfl⟩ := hp
    simp only [fam, takes, Bool.and_eq_true]
    have hc := comp_iff E
    simp only [Bool.and_eq_true] at hc
    rw [hc]
    simp only [and_assoc]
    exact Iff.rfl

/-! ## The names -/

theorem rows_names : rows.map (·.1) = rows.map (fun r => name r.2) := by decide +kernel

theorem rows_nodup : (rows.map (·.1)).Nodup := by decide +kernel

theorem rows_all (k : Kind) : (name k, k) ∈ rows := by cases k <;> decide +kernel

theorem row_name {r : Bytes × Kind} (h : r ∈ rows) : r.1 = name r.2 := by
  have h' := rows_names
  have : ∀ r ∈ rows, r.1 = name r.2 := List.map_inj_left.1 h'
  exact this r h

theorem kindOf_some {E : Env} {n : Bytes} {k : Kind} : kindOf E n = some k ↔ n = name k ∧ E.built k = true := by
  unfold kindOf
  constructor
  · intro h
    obtain ⟨r, hr, rfl⟩ := Option.map_eq_some_iff.1 h
    have h1 := List.find?_some hr
    have h2 := List.mem_filter.1 (List.mem_of_find?_eq_some hr)
    simp only [beq_iff_eq] at h1
    exact ⟨by rw [← h1]; exact row_name h2.1, h2.2⟩
  · rintro ⟨rfl, hb⟩
    have hm : (name k, k) ∈ rows.filter fun r => E.built r.2 := List.mem_filter.2 ⟨rows_all k, hb⟩
    cases hf : (rows.filter fun r => E.built r.2).find? fun r => r.1 == name k with
    | none =>
      have := List.find?_eq_none.1 hf _ hm
      simp at this
    | some r =>
      have h1 := List.find?_some hf
      have h2 := List.mem_filter.1 (List.mem_of_find?_eq_some hf)
      simp only [beq_iff_eq] at h1
      have hn := row_name h2.1
      rw [h1] at hn
      have : k = r.2 := by
        have hi : ∀ a b : Kind, name a = name b → a = b := by
          intro a b hab
          cases a <;> cases b <;> first | rfl | (exfalso; revert hab; decide +kernel)
        exact hi _ _ hn
      rw [this]; rfl

/-! ## The padding -/

theorem counted_iff (pad : Bytes) : ∀ n, counted n pad = true ↔ ∀ i, ∀ h : i < pad.length, (pad[i]).toNat = i + n := by
  induction pad with
  | nil => intro n; simp [counted]
  | cons b bs ih =>
    intro n
    unfold counted
    simp only [Bool.and_eq_true, beq_iff_eq]
    rw [ih]
    constructor
    · rintro ⟨h1, h2⟩ i hi
      cases i with
      | zero => simp [← h1]
      | succ i =>
        have := h2 i (by simp at hi; omega)
        simp only [List.getElem_cons_succ]
        omega
    · intro h
      refine ⟨?_, ?_⟩
      · have := h 0 (by simp)
        simp at this
        omega
      · intro i hi
        have := h (i + 1) (by simp; omega)
        simp only [List.getElem_cons_succ] at this
        omega

/-! ## The private part -/

theorem private_inv {E : Env} {k : Kind} {ps : List Bytes} (hl : len ≤ mem.length) (hw : len < 2 ^ 32)
    (h : (privateList E mem len).1 = .ok (k, ps)) :
    ∃ check comment pad, check < 2 ^ 32 ∧ Parts k ps ∧ Agrees E k ps ∧
      mem.take len = encUint32 check ++ (encUint32 check ++ (encString (name k) ++ (encStrings ps ++ (encString comment ++ pad)))) ∧
      (len % 8 = 0 → Counts pad) := by
  unfold privateList at h
  cases h1 : getUint32 mem len 0 with
  | ub => rw [h1] at h; cases h
  | err e i => rw [h1] at h; cases h
  | ok c1 i1 =>
    rw [h1] at h
    simp only at h
    cases h2 : getUint32 mem len i1 with
    | ub => rw [h2] at h; cases h
    | err e i => rw [h2] at h; cases h
    | ok c2 i2 =>
      rw [h2] at h
      simp only at h
      by_cases hc : c1 ≠ c2
      · rw [if_pos hc] at h; cases h
      rw [if_neg hc] at h
      have hc : c1 = c2 := Classical.not_not.1 hc
      subst hc
      cases h3 : getStringRef mem len i2 with
      | ub => rw [h3] at h; cases h
      | err e i => rw [h3] at h; cases h
      | ok r i3 =>
        rw [h3] at h
        simp only at h
        obtain ⟨s, rfl, _, _, hs, m3⟩ := str_inv hl hw h3
        rw [str_deref hl m3 hw] at h
        simp only at h
        cases hk : kindOf E s with
        | none => rw [hk] at h; cases h
        | some k' =>
          rw [hk] at h
          simp only at h
          cases hy : load E k' mem len i3 with
          | mk r4 y =>
            rw [hy] at h
            cases r4 with
            | ub => cases h
            | err e => cases h
            | ok p =>
              obtain ⟨ps', i4⟩ := p
              simp only at h
              cases h5 : getSkip mem len i4 with
              | ub => rw [h5] at h; cases h
              | err e i => rw [h5] at h; cases h
              | ok u i5 =>
                rw [h5] at h
                simp only at h
                by_cases hp : len % 8 = 0 ∧ ¬ counted 1 ((mem.take len).drop i5) = true
                · rw [if_pos hp] at h; cases h
                rw [if_neg hp] at h
                simp only [Ret.ok.injEq, Prod.mk.injEq] at h
                obtain ⟨rfl, rfl⟩ := h
                have hld : (load E k' mem len i3).1 = .ok (ps', i4) := by rw [hy]
                obtain ⟨hfl, hrk⟩ := load_ok.1 hld
                obtain ⟨hrp, htk⟩ := readKey_ok.1 hrk
                obtain ⟨hfit, m4⟩ := parts_inv hl hw _ hrp
                have hparts := (fits_parts k' ps').1 hfit
                obtain ⟨cm, _, _, _, m5⟩ := skip_inv hl hw h5
                obtain ⟨_, _, hv, m1⟩ := u32_inv hl hw h1
                obtain ⟨_, _, _, m2⟩ := u32_inv hl hw h2
                obtain ⟨rfl, hb⟩ := kindOf_some.1 hk
                refine ⟨c1, cm, msgFrom mem len i5, hv, hparts, (agrees_iff E k' ps' hparts).2 ⟨hb, hfl, htk⟩, ?_, ?_⟩
                · have : mem.take len = msgFrom mem len 0 := rfl
                  rw [this, m1, m2, m3, m4, m5]
                · intro h8
                  have : counted 1 ((mem.take len).drop i5) = true := by
                    cases hcb : counted 1 ((mem.take len).drop i5) with
                    | true => rfl
                    | false => exact absurd ⟨h8, by rw [hcb]; simp⟩ hp
                  exact (counted_iff _ 1).1 this

theorem private_fwd {E : Env} {k : Kind} {ps : List Bytes} {check : Nat} {comment pad : Bytes} (hl : len ≤ mem.length)
    (hw : len < 2 ^ 32) (hv : check < 2 ^ 32) (hp : Parts k ps) (ha : Agrees E k ps)
    (hm : mem.take len = encUint32 check ++ (encUint32 check ++ (encString (name k) ++ (encStrings ps ++ (encString comment ++ pad)))))
    (hpad : len % 8 = 0 → Counts pad) : (privateList E mem len).1 = .ok (k, ps) := by
  obtain ⟨hb, hfl, htk⟩ := (agrees_iff E k ps hp).1 ha
  have m0 : msgFrom mem len 0 = _ := hm
  obtain ⟨h1, m1⟩ := u32_fwd hl hw hv m0
  obtain ⟨h2, m2⟩ := u32_fwd hl hw hv m1
  obtain ⟨h3, m3⟩ := str_fwd hl hw m2
  obtain ⟨i4, h4, m4⟩ := parts_fwd (e := failure (fam k)) hl hw ((fits_parts k ps).2 hp) m3
  obtain ⟨h5, m5⟩ := skip_fwd hl hw m4
  have hld := load_ok.2 ⟨hfl, readKey_ok.2 ⟨h4, htk⟩⟩
  unfold privateList
  rw [h1]; simp only
  rw [h2]; simp only
  rw [if_neg (fun h => h rfl), h3]
  simp only
  rw [str_deref hl m2 hw]
  simp only
  rw [kindOf_some.2 ⟨rfl, hb⟩]
  simp only
  cases hy : load E k mem len (0 + 4 + 4 + 4 + (name k).length) with
  | mk r y =>
    rw [hy] at hld
    cases hld
    simp only
    rw [h5]
    simp only
    rw [if_neg]
    rintro ⟨h8, hc⟩
    apply hc
    have : (mem.take len).drop (i4 + 4 + comment.length) = pad := m5
    rw [this]
    exact (counted_iff _ 1).2 (hpad h8)

theorem private_ne_ub {E : Env} (hl : len ≤ mem.length) (hw : len < 2 ^ 32) : (privateList E mem len).1 ≠ .ub := by
  intro h
  unfold privateList at h
  cases h1 : getUint32 mem len 0 with
  | ub => exact u32_ne_ub _ hl hw h1
  | err e i => rw [h1] at h; cases h
  | ok c1 i1 =>
    rw [h1] at h
    simp only at h
    cases h2 : getUint32 mem len i1 with
    | ub => exact u32_ne_ub _ hl hw h2
    | err e i => rw [h2] at h; cases h
    | ok c2 i2 =>
      rw [h2] at h
      simp only at h
      by_cases hc : c1 ≠ c2
      · rw [if_pos hc] at h; cases h
      rw [if_neg hc] at h
      cases h3 : getStringRef mem len i2 with
      | ub => exact str_ne_ub _ hl hw h3
      | err e i => rw [h3] at h; cases h
      | ok r i3 =>
        rw [h3] at h
        simp only at h
        obtain ⟨s, rfl, _, _, hs, m3⟩ := str_inv hl hw h3
        rw [str_deref hl m3 hw] at h
        simp only at h
        cases hk : kindOf E s with
        | none => rw [hk] at h; cases h
        | some k' =>
          rw [hk] at h
          simp only at h
          cases hy : load E k' mem len i3 with
          | mk r4 y =>
            have hnu := @load_ub mem len E k' i3 hl hw
            rw [hy] at h hnu
            cases r4 with
            | ub => exact hnu rfl
            | err e => cases h
            | ok p =>
              obtain ⟨ps', i4⟩ := p
              simp only at h
              cases h5 : getSkip mem len i4 with
              | ub => exact skip_ne_ub _ hl hw h5
              | err e i => rw [h5] at h; cases h
              | ok u i5 =>
                rw [h5] at h
                simp only at h
                split at h <;> cases h

/-! ## The file -/

theorem magic_eq : magic = ascii "openssh-key-v1" ++ [0] := rfl

theorem take_view {idx : Nat} {s rest : Bytes} (hl : len ≤ mem.length) (hm : msgFrom mem len idx = encString s ++ rest) :
    (view mem (refAt idx s)).take s.length = s ∧ s.length ≤ (view mem (refAt idx s)).length := str_view hl hm

theorem whole_inv {E : Env} {m : Bytes} {k : Kind} {ps : List Bytes} (hw : m.length < 2 ^ 32)
    (h : (getOpenSshKey E m m.length).1 = .ok (k, ps)) :
    ∃ f : File, m = encode f ∧ Readable f ∧ f.kind = k ∧ f.parts = ps ∧ Agrees E k ps := by
  have hl : m.length ≤ m.length := Nat.le_refl _
  unfold getOpenSshKey at h
  by_cases h1 : m.length < magic.length
  · rw [if_pos h1] at h; cases h
  rw [if_neg h1, if_neg h1] at h
  by_cases h2 : m.take magic.length ≠ magic
  · rw [if_pos h2] at h; cases h
  rw [if_neg h2] at h
  have h2 : m.take magic.length = magic := Classical.not_not.1 h2
  simp only at h
  split at h
  · cases h
  · cases h
  · rename_i r sz hh
    obtain ⟨_, i1, a1, hh⟩ := next_ok.1 hh
    obtain ⟨_, i2, a2, hh⟩ := next_ok.1 hh
    obtain ⟨_, i3, a3, hh⟩ := next_ok.1 hh
    obtain ⟨cnt, i4, a4, hh⟩ := next_ok.1 hh
    by_cases hc : cnt ≠ 1
    · rw [if_pos hc] at hh; cases hh
    rw [if_neg hc] at hh
    have hc : cnt = 1 := Classical.not_not.1 hc
    subst hc
    obtain ⟨_, i5, a5, hh⟩ := next_ok.1 hh
    obtain ⟨r', i6, a6, hh⟩ := next_ok.1 hh
    by_cases hz : r'.sz = 0
    · rw [if_pos hz] at hh; cases hh
    rw [if_neg hz] at hh
    simp only [Ret.ok.injEq, Prod.mk.injEq] at hh
    obtain ⟨rfl, rfl⟩ := hh
    obtain ⟨s1, _, _, _, m1⟩ := skip_inv hl hw a1
    obtain ⟨s2, _, _, _, m2⟩ := skip_inv hl hw a2
    obtain ⟨s3, _, _, _, m3⟩ := skip_inv hl hw a3
    obtain ⟨_, _, _, m4⟩ := u32_inv hl hw a4
    obtain ⟨s5, _, _, _, _, m5⟩ := str_inv hl hw a5
    obtain ⟨s6, rfl, _, _, hs6, m6⟩ := str_inv hl hw a6
    rw [refAt_sz] at h
    obtain ⟨ht, hle⟩ := take_view hl m6
    obtain ⟨check, comment, pad, hv, hp, ha, hm, hpad⟩ := private_inv hle hs6 h
    rw [ht] at hm
    refine ⟨⟨s1, s2, s3, s5, check, k, ps, comment, pad, msgFrom m m.length i6⟩, ?_, ⟨hv, hp, ?_⟩, rfl, rfl, ha⟩
    · have e0 : m = magic ++ msgFrom m m.length magic.length := by
        have : msgFrom m m.length magic.length = m.drop magic.length := by unfold msgFrom; rw [List.take_length]
        rw [this]
        conv => lhs; rw [← List.take_append_drop magic.length m]
        rw [h2]
      conv => lhs; rw [e0]
      rw [m1, m2, m3, m4, m5, m6]
      unfold encode privatePart
      rw [← magic_eq, ← hm]
    · intro h8
      apply hpad
      rw [hm]; exact h8

theorem whole_fwd {E : Env} {f : File} (hw : (encode f).length < 2 ^ 32) (hf : Readable f) (ha : Agrees E f.kind f.parts) :
    (getOpenSshKey E (encode f) (encode f).length).1 = .ok (f.kind, f.parts) := by
  have hl : (encode f).length ≤ (encode f).length := Nat.le_refl _
  have hlen : (encode f).length = magic.length + (encString f.cipher ++ (encString f.kdf ++ (encString f.kdfOptions ++ (encUint32 1 ++
    (encString f.pub ++ (encString (privatePart f) ++ f.rest)))))).length := by
    unfold encode; rw [← magic_eq, List.length_append]
  have hm : msgFrom (encode f) (encode f).length magic.length = encString f.cipher ++ (encString f.kdf ++ (encString f.kdfOptions ++
      (encUint32 1 ++ (encString f.pub ++ (encString (privatePart f) ++ f.rest))))) := by
    unfold msgFrom
    rw [List.take_length]
    unfold encode
    rw [← magic_eq, List.drop_left]
  have ht : (encode f).take magic.length = magic := by
    unfold encode
    rw [← magic_eq, List.take_left]
  generalize hmem : encode f = mem at *
  obtain ⟨a1, m1⟩ := skip_fwd hl hw hm
  obtain ⟨a2, m2⟩ := skip_fwd hl hw m1
  obtain ⟨a3, m3⟩ := skip_fwd hl hw m2
  obtain ⟨a4, m4⟩ := u32_fwd hl hw (by decide) m3
  obtain ⟨a5, m5⟩ := str_fwd hl hw m4
  obtain ⟨a6, m6⟩ := str_fwd hl hw m5
  obtain ⟨htv, hle⟩ := take_view hl m5
  have hpl : (privatePart f).length < 2 ^ 32 := by
    have := congrArg List.length m5
    rw [msgFrom_length _ _ _ hl, List.length_append, enc_length] at this
    omega
  have hz : (privatePart f).length ≠ 0 := by
    unfold privatePart
    rw [List.length_append]
    have : (encUint32 f.check).length = 4 := rfl
    omega
  unfold getOpenSshKey
  rw [if_neg (by omega), if_neg (by omega), if_neg (fun h => h ht)]
  simp only [a1, a2, a3, a4, a5, a6, next]
  rw [if_neg (fun h => h rfl), if_neg (by rw [refAt_sz]; exact hz)]
  simp only
  rw [refAt_sz]
  exact private_fwd hle hpl hf.check hf.parts ha (by rw [htv]; rfl) hf.pad

theorem whole_ne_ub {E : Env} {m : Bytes} {n : Nat} (hl : n ≤ m.length) (hw : n < 2 ^ 32) : (getOpenSshKey E m n).1 ≠ .ub := by
  intro h
  unfold getOpenSshKey at h
  by_cases h1 : n < magic.length
  · rw [if_pos h1] at h; cases h
  rw [if_neg h1, if_neg (by omega)] at h
  by_cases h2 : m.take magic.length ≠ magic
  · rw [if_pos h2] at h; cases h
  rw [if_neg h2] at h
  simp only at h
  split at h
  · rename_i hh
    rcases next_ub.1 hh with hh | ⟨_, i1, a1, hh⟩
    · exact skip_ne_ub _ hl hw hh
    rcases next_ub.1 hh with hh | ⟨_, i2, a2, hh⟩
    · exact skip_ne_ub _ hl hw hh
    rcases next_ub.1 hh with hh | ⟨_, i3, a3, hh⟩
    · exact skip_ne_ub _ hl hw hh
    rcases next_ub.1 hh with hh | ⟨_, i4, a4, hh⟩
    · exact u32_ne_ub _ hl hw hh
    split at hh
    · cases hh
    rcases next_ub.1 hh with hh | ⟨_, i5, a5, hh⟩
    · exact str_ne_ub _ hl hw hh
    rcases next_ub.1 hh with hh | ⟨_, i6, a6, hh⟩
    · exact str_ne_ub _ hl hw hh
    split at hh <;> cases hh
  · cases h
  · rename_i r sz hh
    obtain ⟨_, i1, a1, hh⟩ := next_ok.1 hh
    obtain ⟨_, i2, a2, hh⟩ := next_ok.1 hh
    obtain ⟨_, i3, a3, hh⟩ := next_ok.1 hh
    obtain ⟨cnt, i4, a4, hh⟩ := next_ok.1 hh
    split at hh
    · cases hh
    obtain ⟨_, i5, a5, hh⟩ := next_ok.1 hh
    obtain ⟨r', i6, a6, hh⟩ := next_ok.1 hh
    split at hh
    · cases hh
    simp only [Ret.ok.injEq, Prod.mk.injEq] at hh
    obtain ⟨rfl, rfl⟩ := hh
    obtain ⟨s6, rfl, _, _, hs6, m6⟩ := str_inv hl hw a6
    rw [refAt_sz] at h
    exact private_ne_ub (take_view hl m6).2 hs6 h

/-! ## The objects -/

/-- Cleaning what was left frees what is live, and nothing twice. -/
def Owned (y : Key) : Prop := y.twice = false ∧ (clean y).twice = false ∧ (clean y).obj ≠ .live ∧ (clean y).trad ≠ .live

theorem owned_load (E : Env) (k : Kind) (idx : Nat) : Owned (load E k mem len idx).2 := by
  unfold load Owned clean
  cases hf : fam k <;> cases E.init <;> cases E.params <;> cases E.tradInit <;> cases hq : ok? (readKey E k mem len idx) <;>
    simp [hf, hq, free]

theorem owned_empty : Owned {} := by unfold Owned; decide

theorem owned_clean {y : Key} (h : Owned y) : Owned { clean y with kind := none } := ⟨h.2.1, h.2.1, h.2.2.1, h.2.2.2⟩

theorem of_load {E : Env} {k : Kind} {m : Bytes} {n i : Nat} {r : Ret (List Bytes × Nat)} {y : Key} (h : load E k m n i = (r, y)) :
    Owned y := by
  have ho := @owned_load m n E k i
  rw [h] at ho
  exact ho

theorem owned_private (E : Env) (m : Bytes) (n : Nat) : Owned (privateList E m n).2 := by
  unfold privateList
  split
  · exact owned_empty
  · exact owned_empty
  · split
    · exact owned_empty
    · exact owned_empty
    · split
      · exact owned_empty
      · split
        · exact owned_empty
        · exact owned_empty
        · split
          · exact owned_empty
          · split
            · exact owned_empty
            · split
              · rename_i hy; exact of_load hy
              · rename_i hy; exact of_load hy
              · rename_i hy
                split
                · exact of_load hy
                · exact of_load hy
                · split
                  · exact owned_clean (of_load hy)
                  · exact of_load hy

theorem owned_whole (E : Env) (m : Bytes) (n : Nat) : Owned (getOpenSshKey E m n).2 := by
  unfold getOpenSshKey
  split
  · exact owned_empty
  · split
    · exact owned_empty
    · split
      · exact owned_empty
      · simp only
        split
        · exact owned_empty
        · exact owned_empty
        · exact owned_private E _ _

end Proofs.OsshKey
