import Verif.Model.SshdCert
import Verif.Spec.SshdCert
import Verif.Proofs.SshdKeys
import Verif.Proofs.OsshWire
/-!
# Principals, prefixes and address lists
-/

namespace Proofs.SshdCert
open Wolf Wolf.Sshd Wolf.Wire Spec.SshdCert
open Spec.NameList (split)
open Proofs.SshdKeys (split_none split_cut cut_cases cstr_clean takeWhile_self_iff dropWhile_nil_iff)
open Spec.Wire (encString beNat)

/-! ## Principals -/

theorem principal_step (name : Bytes) (fuel : Nat) (rest : Bytes) :
    principalLoop name (fuel + 1) rest =
      match Spec.Wire.string rest with
      | none => false
      | some (s, r) => if s = name then true else principalLoop name fuel r := by
  match rest with
  | [] => rfl
  | [_] => rfl
  | [_, _] => rfl
  | [_, _, _] => rfl
  | a :: b :: c :: d :: t =>
    rw [principalLoop]
    have hu : Spec.Wire.uint32 (a :: b :: c :: d :: t) = some (ato32 a b c d, t) := by
      rw [Spec.Wire.uint32, if_pos (by simp), ato32_beNat]; rfl
    simp only [Spec.Wire.string, hu]
    generalize ato32 a b c d = n
    by_cases h : n ≤ t.length
    · rw [if_neg (by omega), if_pos h]
      simp only
      by_cases he : t.take n = name
      · rw [if_pos he]
        have hn : n = name.length := by rw [← he, List.length_take]; omega
        rw [if_pos ⟨hn, by rw [← hn]; exact he⟩]
      · rw [if_neg he, if_neg]
        rintro ⟨h1, h2⟩
        rw [← h1] at h2; exact he h2
    · rw [if_pos (by omega), if_neg h]

theorem principalLoop_iff {name : Bytes} (hn : name.length < 2 ^ 32) :
    ∀ fuel region, region.length ≤ fuel → (principalLoop name fuel region = true ↔ Principal region name) := by
  intro fuel
  induction fuel with
  | zero =>
    intro region hl
    have : region = [] := List.eq_nil_of_length_eq_zero (by omega)
    subst this
    constructor
    · intro h; simp [principalLoop] at h
    · rintro ⟨b, a, h, _⟩
      have := congrArg List.length h
      simp [encString, Spec.Wire.encUint32] at this
  | succ fuel ih =>
    intro region hl
    rw [principal_step]
    constructor
    · intro h
      cases hs : Spec.Wire.string region with
      | none => rw [hs] at h; cases h
      | some p =>
        obtain ⟨s, r⟩ := p
        rw [hs] at h
        simp only at h
        obtain ⟨e, hlen⟩ := Proofs.Ossh.string_inv hs
        by_cases hc : s = name
        · subst hc
          exact ⟨[], r, by simp [encStrings, e], by simp⟩
        · rw [if_neg hc] at h
          have hr : r.length ≤ fuel := by
            have := congrArg List.length e
            rw [List.length_append, Proofs.Ossh.enc_length] at this
            omega
          obtain ⟨b, a, e2, hb⟩ := (ih r hr).1 h
          refine ⟨s :: b, a, ?_, ?_⟩
          · rw [e, e2]; simp [encStrings]
          · intro x hx
            rcases List.mem_cons.1 hx with rfl | hx
            · exact hlen
            · exact hb x hx
    · rintro ⟨b, a, e, hb⟩
      cases b with
      | nil =>
        simp only [encStrings, List.map_nil, List.flatten_nil, List.nil_append] at e
        rw [e, Proofs.Ossh.string_enc _ _ hn]
        simp
      | cons s ss =>
        have e' : region = encString s ++ (encStrings ss ++ encString name ++ a) := by
          rw [e]; simp [encStrings]
        rw [e', Proofs.Ossh.string_enc _ _ (hb s (by simp))]
        simp only
        split
        · rfl
        · refine (ih _ ?_).2 ⟨ss, a, rfl, fun x hx => hb x (by simp [hx])⟩
          rw [e', List.length_append, Proofs.Ossh.enc_length] at hl
          omega

theorem principal_iff {name region : Bytes} (hn : name.length < 2 ^ 32) :
    osshCertCheckPrincipal region name = .success ↔ Principal region name := by
  rw [osshCertCheckPrincipal]
  by_cases h : region = []
  · rw [if_pos h]
    constructor
    · intro h; cases h
    · intro hp
      have := (principalLoop_iff hn region.length region (Nat.le_refl _)).2 hp
      subst h; simp [principalLoop] at this
  · rw [if_neg h]
    have := principalLoop_iff hn region.length region (Nat.le_refl _)
    constructor
    · intro hs
      split at hs
      · rename_i hl; exact this.1 hl
      · cases hs
    · intro hp; rw [if_pos (this.2 hp)]

/-! ## Prefixes -/

theorem mask_eq : ∀ r : Fin 8, ∀ x : Fin 256, r.val ≠ 0 →
    ((UInt8.ofNat x.val &&& UInt8.ofNat (0xFF <<< (8 - r.val))).toNat = x.val / 2 ^ (8 - r.val) * 2 ^ (8 - r.val)) := by
  decide +kernel

theorem mask_iff {r : Nat} (hr : r < 8) (h0 : r ≠ 0) (x y : UInt8) :
    ((x &&& UInt8.ofNat (0xFF <<< (8 - r))) = (y &&& UInt8.ofNat (0xFF <<< (8 - r)))) ↔
      x.toNat / 2 ^ (8 - r) = y.toNat / 2 ^ (8 - r) := by
  have hx := mask_eq ⟨r, hr⟩ ⟨x.toNat, x.toNat_lt⟩ h0
  have hy := mask_eq ⟨r, hr⟩ ⟨y.toNat, y.toNat_lt⟩ h0
  simp only [UInt8.ofNat_toNat] at hx hy
  rw [← UInt8.toNat_inj, hx, hy]
  constructor
  · intro h; exact Nat.eq_of_mul_eq_mul_right (Nat.two_pow_pos _) h
  · intro h; rw [h]

/-- The comparison byte by byte. -/
def pm (a b : Bytes) (bits : Nat) : Prop :=
  a.take (bits / 8) = b.take (bits / 8) ∧
    (bits % 8 ≠ 0 → (a[bits / 8]?.getD 0).toNat / 2 ^ (8 - bits % 8) = (b[bits / 8]?.getD 0).toNat / 2 ^ (8 - bits % 8))

theorem pm_iff : ∀ (a b : Bytes) (bits : Nat), a.length = b.length → bits ≤ 8 * a.length →
    (pm a b bits ↔ beNat a / 2 ^ (8 * a.length - bits) = beNat b / 2 ^ (8 * a.length - bits)) := by
  intro a
  induction a with
  | nil =>
    intro b bits hl hb
    have : b = [] := List.eq_nil_of_length_eq_zero hl.symm
    subst this
    simp at hb; subst hb
    simp [pm]
  | cons x xs ih =>
    intro b bits hl hb
    cases b with
    | nil => simp at hl
    | cons y ys =>
      have hl' : xs.length = ys.length := by simpa using hl
      simp only [List.length_cons] at hb
      rw [beNat_cons, beNat_cons, ← hl', List.length_cons]
      have hX := beNat_lt xs
      have hY := beNat_lt ys
      rw [← hl'] at hY
      have p256 : (256 : Nat) ^ xs.length = 2 ^ (8 * xs.length) := by
        rw [Nat.pow_mul]
      rw [p256] at hX hY ⊢
      by_cases h8 : 8 ≤ bits
      · -- whole first byte
        obtain ⟨m, rfl⟩ : ∃ m, bits = m + 8 := ⟨bits - 8, by omega⟩
        have hm : m ≤ 8 * xs.length := by omega
        have e1 : 8 * (xs.length + 1) - (m + 8) = 8 * xs.length - m := by omega
        rw [e1]
        have e2 : (2 : Nat) ^ (8 * xs.length) = 2 ^ m * 2 ^ (8 * xs.length - m) := by
          rw [← Nat.pow_add]; congr 1; omega
        have ihm := ih ys m hl' hm
        have hpm : pm (x :: xs) (y :: ys) (m + 8) ↔ x = y ∧ pm xs ys m := by
          have d1 : (m + 8) / 8 = m / 8 + 1 := by omega
          have d2 : (m + 8) % 8 = m % 8 := by omega
          simp only [pm, d1, d2, List.take_succ_cons, List.cons.injEq, List.getElem?_cons_succ]
          constructor
          · rintro ⟨⟨h1, h2⟩, h3⟩; exact ⟨h1, h2, h3⟩
          · rintro ⟨h1, h2, h3⟩; exact ⟨⟨h1, h2⟩, h3⟩
        rw [hpm, ihm]
        have q : ∀ (z : Nat) (w : Nat), (z * 2 ^ (8 * xs.length) + w) / 2 ^ (8 * xs.length - m) =
            z * 2 ^ m + w / 2 ^ (8 * xs.length - m) := by
          intro z w
          rw [e2, ← Nat.mul_assoc, Nat.add_comm, Nat.add_mul_div_right _ _ (Nat.two_pow_pos _), Nat.add_comm]
        rw [q, q]
        have bx : beNat xs / 2 ^ (8 * xs.length - m) < 2 ^ m := by
          rw [Nat.div_lt_iff_lt_mul (Nat.two_pow_pos _), ← e2]; exact hX
        have by' : beNat ys / 2 ^ (8 * xs.length - m) < 2 ^ m := by
          rw [Nat.div_lt_iff_lt_mul (Nat.two_pow_pos _), ← e2]; exact hY
        constructor
        · rintro ⟨rfl, h⟩; rw [h]
        · intro h
          have h1 := congrArg (· / 2 ^ m) h
          have h2 := congrArg (· % 2 ^ m) h

          rw [Nat.add_comm, Nat.add_mul_div_right _ _ (Nat.two_pow_pos _), Nat.div_eq_of_lt bx, Nat.add_comm (y.toNat * _),
            Nat.add_mul_div_right _ _ (Nat.two_pow_pos _), Nat.div_eq_of_lt by', Nat.zero_add, Nat.zero_add] at h1
          rw [Nat.mul_add_mod_of_lt bx, Nat.mul_add_mod_of_lt by'] at h2
          exact ⟨UInt8.toNat_inj.1 h1, h2⟩
      · -- only bits of the first byte
        have hlt : bits < 8 := by omega
        have d1 : bits / 8 = 0 := by omega
        have d2 : bits % 8 = bits := by omega
        have e1 : 8 * (xs.length + 1) - bits = 8 * xs.length + (8 - bits) := by omega
        rw [e1, Nat.pow_add, ← Nat.div_div_eq_div_mul, ← Nat.div_div_eq_div_mul]
        have q : ∀ (z w : Nat), w < 2 ^ (8 * xs.length) → (z * 2 ^ (8 * xs.length) + w) / 2 ^ (8 * xs.length) = z := by
          intro z w hw
          rw [Nat.add_comm, Nat.add_mul_div_right _ _ (Nat.two_pow_pos _), Nat.div_eq_of_lt hw, Nat.zero_add]
        rw [q _ _ hX, q _ _ hY]
        simp only [pm, d1, d2, List.take_zero, true_and, List.getElem?_cons_zero, Option.getD_some]
        by_cases h0 : bits = 0
        · subst h0
          simp only [ne_eq, not_true_eq_false, false_implies, true_iff]
          have hx := x.toNat_lt; have hy := y.toNat_lt
          rw [Nat.div_eq_of_lt (by simpa using hx), Nat.div_eq_of_lt (by simpa using hy)]
        · constructor
          · intro h; exact h h0
          · intro h _; exact h

theorem prefix_iff {a b : Bytes} {bits : Nat} (hl : a.length = b.length) :
    osshPrefixMatch a b bits b.length = true ↔
      bits ≤ 8 * b.length ∧ beNat a / 2 ^ (8 * b.length - bits) = beNat b / 2 ^ (8 * b.length - bits) := by
  rw [osshPrefixMatch]
  by_cases hb : bits > b.length * 8
  · rw [if_pos hb]
    constructor
    · intro h; cases h
    · rintro ⟨h, _⟩; omega
  · rw [if_neg hb]
    have hb' : bits ≤ 8 * a.length := by omega
    rw [← hl, ← pm_iff a b bits hl hb', pm]
    by_cases hf : bits / 8 > 0 ∧ a.take (bits / 8) ≠ b.take (bits / 8)
    · rw [if_pos hf]
      constructor
      · intro h; cases h
      · rintro ⟨_, h, _⟩; exact absurd h hf.2
    · rw [if_neg hf]
      have htake : a.take (bits / 8) = b.take (bits / 8) := by
        by_cases h0 : bits / 8 > 0
        · by_cases h : a.take (bits / 8) = b.take (bits / 8)
          · exact h
          · exact absurd ⟨h0, h⟩ hf
        · have : bits / 8 = 0 := by omega
          rw [this]; simp
      by_cases hr : bits % 8 ≠ 0
      · rw [if_pos hr]
        simp only [decide_eq_true_eq]
        rw [mask_iff (Nat.mod_lt _ (by decide)) hr]
        constructor
        · intro h; exact ⟨hb', htake, fun _ => h⟩
        · rintro ⟨_, _, h⟩; exact h hr
      · rw [if_neg hr]
        simp only [true_iff]
        exact ⟨hb', htake, fun h => absurd h hr⟩

theorem inside_iff {x a : Bytes} {bits : Nat} (hb : bits ≤ 8 * a.length) :
    Inside a bits x ↔ x.length = a.length ∧ osshPrefixMatch x a bits a.length = true := by
  constructor
  · rintro ⟨h1, h2⟩; exact ⟨h1, (prefix_iff h1).2 ⟨hb, h2⟩⟩
  · rintro ⟨h1, h2⟩; exact ⟨h1, ((prefix_iff h1).1 h2).2⟩

/-! ## Entries -/

def val (d : Bytes) (n : Nat) : Nat := d.foldl (fun n c => 10 * n + (c.toNat - 48)) n

theorem val_ge (d : Bytes) : ∀ n, n ≤ val d n := by
  induction d with
  | nil => intro n; exact Nat.le_refl _
  | cons c t ih =>
    intro n
    have := ih (10 * n + (c.toNat - 48))
    simp only [val, List.foldl_cons] at this ⊢
    omega

theorem digit_iff (c : UInt8) : (48 ≤ c ∧ c ≤ 57) ↔ (48 ≤ c.toNat ∧ c.toNat ≤ 57) := by
  rw [UInt8.le_iff_toNat_le, UInt8.le_iff_toNat_le]; rfl

theorem prefixLoop_iff : ∀ (d : Bytes) (n m : Nat), n ≤ 128 →
    (prefixLoop d n = some m ↔ (∀ c ∈ d, 48 ≤ c.toNat ∧ c.toNat ≤ 57) ∧ m = val d n ∧ m ≤ 128) := by
  intro d
  induction d with
  | nil =>
    intro n m hn
    simp only [prefixLoop, Option.some.injEq, List.not_mem_nil, false_implies, implies_true, true_and, val, List.foldl_nil]
    constructor
    · rintro rfl; exact ⟨rfl, hn⟩
    · rintro ⟨rfl, _⟩; rfl
  | cons c t ih =>
    intro n m hn
    rw [prefixLoop]
    by_cases hc : 48 ≤ c ∧ c ≤ 57
    · rw [if_pos hc]
      simp only
      have hv : val (c :: t) n = val t (n * 10 + (c.toNat - 48)) := by
        simp only [val, List.foldl_cons, Nat.mul_comm]
      have hd := (digit_iff c).1 hc
      by_cases hb : n * 10 + (c.toNat - 48) > 128
      · rw [if_pos hb]
        constructor
        · intro h; cases h
        · rintro ⟨_, h1, h2⟩
          have := val_ge t (n * 10 + (c.toNat - 48))
          omega
      · rw [if_neg hb, ih _ _ (by omega), hv]
        constructor
        · rintro ⟨h1, h2, h3⟩
          refine ⟨fun x hx => ?_, h2, h3⟩
          rcases List.mem_cons.1 hx with rfl | hx
          · exact hd
          · exact h1 x hx
        · rintro ⟨h1, h2, h3⟩
          exact ⟨fun x hx => h1 x (by simp [hx]), h2, h3⟩
    · rw [if_neg hc]
      constructor
      · intro h; cases h
      · rintro ⟨h, _⟩
        exact absurd ((digit_iff c).2 (h c (by simp))) hc

theorem address_eq (N : Net) (t : Bytes) :
    entryAddr N t = address N.pton4 N.pton6 t := by
  rw [address, entryAddr]; cases N.pton4 t <;> rfl

theorem address_len {N : Net} (hR : Readers N.pton4 N.pton6) {t a : Bytes}
    (h : address N.pton4 N.pton6 t = some a) : a.length = 4 ∨ a.length = 16 := by
  rw [address] at h
  cases h4 : N.pton4 t with
  | some v =>
    rw [h4] at h; simp at h; subst h
    exact .inl (hR.1 _ _ h4)
  | none => rw [h4] at h; simp at h; exact .inr (hR.2.1 _ _ h)

theorem address_head {N : Net} (hR : Readers N.pton4 N.pton6) {t a : Bytes}
    (h : address N.pton4 N.pton6 t = some a) : t ≠ [] ∧ t.head? ≠ some 33 := by
  have hh : ¬(t = [] ∨ t.head? = some 33) := by
    intro hc
    obtain ⟨h1, h2⟩ := hR.2.2 t hc
    rw [address, h1, h2] at h; cases h
  exact ⟨fun e => hh (.inl e), fun e => hh (.inr e)⟩

theorem readEntry_iff {N : Net} (hR : Readers N.pton4 N.pton6) (e a : Bytes) (bits : Nat) :
    readEntry N e = some (a, bits) ↔ Range N.pton4 N.pton6 e a bits := by
  have key : e ≠ [] → e.head? ≠ some 33 → (readEntry N e = some (a, bits) ↔ Range N.pton4 N.pton6 e a bits) := by
    intro h1 h2
    rw [readEntry, if_neg h1, if_neg h2]
    simp only [address_eq]
    rcases cut_cases 47 e with hn | ⟨t, d, hn, he⟩
    · have t1 : e.takeWhile (fun c => decide (c ≠ 47)) = e :=
        takeWhile_self_iff.2 (fun x hx => by simp; rintro rfl; exact hn hx)
      have t2 : e.dropWhile (fun c => decide (c ≠ 47)) = [] :=
        dropWhile_nil_iff.2 (fun x hx => by simp; rintro rfl; exact hn hx)
      simp only [t1, t2]
      constructor
      · intro h
        cases ha : address N.pton4 N.pton6 e with
        | none => simp only [ha] at h; cases h
        | some v =>
          simp only [ha, Option.some.injEq, Prod.mk.injEq] at h
          obtain ⟨rfl, rfl⟩ := h
          exact .inl ⟨hn, ha, by omega⟩
      · rintro (⟨_, ha, rfl⟩ | ⟨t, d, rfl, _⟩)
        · simp only [ha, Option.some.injEq, Prod.mk.injEq, true_and]; omega
        · exact absurd (by simp) hn
    · have hall : ∀ x ∈ t, decide (x ≠ 47) = true := fun x hx => by simp; rintro rfl; exact hn hx
      have t1 : e.takeWhile (fun c => decide (c ≠ 47)) = t := by
        rw [he, List.takeWhile_append_of_pos hall]; simp
      have t2 : e.dropWhile (fun c => decide (c ≠ 47)) = 47 :: d := by
        rw [he, List.dropWhile_append_of_pos hall]; simp
      simp only [t1, t2]
      have uniq : ∀ t' d', e = t' ++ 47 :: d' → 47 ∉ t' → t' = t ∧ d' = d := by
        intro t' d' h' hn'
        have hall' : ∀ x ∈ t', decide (x ≠ 47) = true := fun x hx => by simp; rintro rfl; exact hn' hx
        have u1 : e.takeWhile (fun c => decide (c ≠ 47)) = t' := by
          rw [h', List.takeWhile_append_of_pos hall']; simp
        have u2 : e.dropWhile (fun c => decide (c ≠ 47)) = 47 :: d' := by
          rw [h', List.dropWhile_append_of_pos hall']; simp
        rw [t1] at u1; rw [t2] at u2
        simp at u2
        exact ⟨u1.symm, u2.symm⟩
      constructor
      · intro h
        by_cases hd : d = []
        · rw [if_pos hd] at h; cases h
        · rw [if_neg hd] at h
          cases hp : prefixLoop d 0 with
          | none => simp only [hp, Option.map_none] at h; cases h
          | some n =>
            simp only [hp, Option.map_some] at h
            cases ha : address N.pton4 N.pton6 t with
            | none => simp only [ha] at h; cases h
            | some v =>
              simp only [ha] at h
              by_cases hl : n > v.length * 8
              · rw [if_pos hl] at h; cases h
              · rw [if_neg hl] at h
                simp only [Option.some.injEq, Prod.mk.injEq] at h
                obtain ⟨rfl, rfl⟩ := h
                obtain ⟨q1, q2, _⟩ := (prefixLoop_iff d 0 n (by decide)).1 hp
                exact .inr ⟨t, d, he, hn, ha, ⟨hd, q1, q2⟩, by omega⟩
      · rintro (⟨hno, _⟩ | ⟨t', d', h', hn', ha, ⟨hd, q1, q2⟩, hl⟩)
        · exact absurd (by rw [he]; simp) hno
        · obtain ⟨rfl, rfl⟩ := uniq t' d' h' hn'
          have hb : bits ≤ 128 := by
            rcases address_len hR ha with h | h <;> omega
          have hp := (prefixLoop_iff d' 0 bits (by decide)).2 ⟨q1, q2, hb⟩
          rw [if_neg hd]
          simp only [hp, Option.map_some, ha]
          rw [if_neg (by omega)]
  by_cases h1 : e = []
  · subst h1
    constructor
    · intro h; simp [readEntry] at h
    · rintro (⟨_, ha, _⟩ | ⟨t, d, h, _⟩)
      · exact absurd rfl (address_head hR ha).1
      · simp at h
  · by_cases h2 : e.head? = some 33
    · constructor
      · intro h; rw [readEntry, if_neg h1, if_pos h2] at h; cases h
      · rintro (⟨_, ha, _⟩ | ⟨t, d, h, _, ha, _⟩)
        · exact absurd h2 (address_head hR ha).2
        · obtain ⟨q1, q2⟩ := address_head hR ha
          cases t with
          | nil => exact absurd rfl q1
          | cons x t => rw [h] at h2; exact absurd h2 (by simpa using q2)
    · exact key h1 h2

/-! ## The list -/

/-- The entry lets the peer in. -/
def Hit (N : Net) (peer e : Bytes) : Prop :=
  ∃ a n, Range N.pton4 N.pton6 e a n ∧ Inside a n peer

def Good (N : Net) (e : Bytes) : Prop := ∃ a n, Range N.pton4 N.pton6 e a n

theorem range_bits {N : Net} {e a : Bytes} {n : Nat}
    (h : Range N.pton4 N.pton6 e a n) : n ≤ 8 * a.length := by
  rcases h with ⟨_, _, rfl⟩ | ⟨_, _, _, _, _, _, h⟩
  · exact Nat.le_refl _
  · exact h

theorem range_fun {N : Net} (hR : Readers N.pton4 N.pton6) {e a a' : Bytes} {n n' : Nat}
    (h : Range N.pton4 N.pton6 e a n) (h' : Range N.pton4 N.pton6 e a' n') : a = a' ∧ n = n' := by
  have h1 := (readEntry_iff hR _ _ _).2 h
  have h2 := (readEntry_iff hR _ _ _).2 h'
  rw [h1] at h2
  simpa using h2

/-- One step on a list without zero bytes. -/
theorem entry_step {N : Net} (hR : Readers N.pton4 N.pton6) {peer list : Bytes} (h0 : (0 : UInt8) ∉ list)
    (hne : list ≠ []) (fuel : Nat) (allow : Bool) {ent rest : Bytes}
    (h1 : list.takeWhile (fun c => c ≠ 44) = ent) (h2 : (list.dropWhile (fun c => c ≠ 44)).drop 1 = rest) :
    (sourceLoop N peer (fuel + 1) list allow = true ↔
      ent.length < 80 ∧ Good N ent ∧
        ((Hit N peer ent ∧ sourceLoop N peer fuel rest true = true) ∨
         (¬Hit N peer ent ∧ sourceLoop N peer fuel rest allow = true))) := by
  have hc : cstr ent = ent := by
    apply cstr_clean
    intro h; rw [← h1] at h
    exact h0 ((List.takeWhile_prefix _).sublist.mem h)
  rw [sourceLoop, if_neg hne]
  simp only [h1, h2, hc]
  by_cases hl : ent.length ≥ CIDR_ENTRY_SZ
  · rw [if_pos hl]
    constructor
    · intro h; cases h
    · rintro ⟨h, _⟩; have : ent.length ≥ 80 := hl; omega
  · rw [if_neg hl]
    have hl' : ent.length < 80 := by have : ¬ent.length ≥ 80 := hl; omega
    cases hr : readEntry N ent with
    | none =>
      constructor
      · intro h; cases h
      · rintro ⟨_, ⟨a, n, hg⟩, _⟩
        rw [(readEntry_iff hR _ _ _).2 hg] at hr; cases hr
    | some p =>
      obtain ⟨a, n⟩ := p
      have hg := (readEntry_iff hR _ _ _).1 hr
      have hHit : Hit N peer ent ↔ peer.length = a.length ∧ osshPrefixMatch peer a n a.length = true := by
        constructor
        · rintro ⟨a', n', h, hi⟩
          obtain ⟨rfl, rfl⟩ := range_fun hR hg h
          exact (inside_iff (range_bits hg)).1 hi
        · intro h
          exact ⟨a, n, hg, (inside_iff (range_bits hg)).2 h⟩
      simp only
      by_cases hlen : a.length ≠ peer.length
      · rw [if_pos hlen]
        have hno : ¬Hit N peer ent := by rw [hHit]; rintro ⟨h, _⟩; exact hlen h.symm
        constructor
        · intro h; exact ⟨hl', ⟨a, n, hg⟩, .inr ⟨hno, h⟩⟩
        · rintro ⟨_, _, ⟨h, _⟩ | ⟨_, h⟩⟩
          · exact absurd h hno
          · exact h
      · rw [if_neg hlen]
        have hlen : peer.length = a.length := by
          by_cases h : a.length = peer.length
          · exact h.symm
          · exact absurd h hlen
        by_cases hp : osshPrefixMatch peer a n a.length = true
        · rw [if_pos hp]
          have hyes : Hit N peer ent := hHit.2 ⟨hlen, hp⟩
          constructor
          · intro h; exact ⟨hl', ⟨a, n, hg⟩, .inl ⟨hyes, h⟩⟩
          · rintro ⟨_, _, ⟨_, h⟩ | ⟨hc, _⟩⟩
            · exact h
            · exact absurd hyes hc
        · rw [if_neg hp]
          have hno : ¬Hit N peer ent := by rw [hHit]; rintro ⟨_, h⟩; exact hp h
          constructor
          · intro h; exact ⟨hl', ⟨a, n, hg⟩, .inr ⟨hno, h⟩⟩
          · rintro ⟨_, _, ⟨h, _⟩ | ⟨_, h⟩⟩
            · exact absurd h hno
            · exact h

theorem source_nil {N : Net} {peer : Bytes} (fuel : Nat) (allow : Bool) :
    sourceLoop N peer fuel [] allow = allow := by
  cases fuel <;> simp [sourceLoop]

theorem sourceLoop_iff {N : Net} (hR : Readers N.pton4 N.pton6) {peer : Bytes} :
    ∀ (fuel : Nat) (list : Bytes) (allow : Bool), list.length ≤ fuel → list ≠ [] → (0 : UInt8) ∉ list →
      list.getLast? ≠ some 44 →
      (sourceLoop N peer fuel list allow = true ↔
        (∀ e ∈ split 44 list, e.length < 80 ∧ Good N e) ∧ (allow = true ∨ ∃ e ∈ split 44 list, Hit N peer e)) := by
  intro fuel
  induction fuel with
  | zero =>
    intro list allow hl hne
    exact absurd (List.eq_nil_of_length_eq_zero (by omega)) hne
  | succ fuel ih =>
    intro list allow hl hne h0 hlast
    rcases cut_cases 44 list with hn | ⟨t, d, hn, he⟩
    · have t1 : list.takeWhile (fun c => decide (c ≠ 44)) = list :=
        takeWhile_self_iff.2 (fun x hx => by simp; rintro rfl; exact hn hx)
      have t2 : (list.dropWhile (fun c => decide (c ≠ 44))).drop 1 = [] := by
        rw [dropWhile_nil_iff.2 (fun x hx => by simp; rintro rfl; exact hn hx)]; rfl
      rw [entry_step hR h0 hne fuel allow t1 t2, split_none hn, source_nil, source_nil]
      simp only [List.mem_singleton, forall_eq, exists_eq_left]
      constructor
      · rintro ⟨h1, h2, ⟨h3, _⟩ | ⟨_, h3⟩⟩
        · exact ⟨⟨h1, h2⟩, .inr h3⟩
        · exact ⟨⟨h1, h2⟩, .inl h3⟩
      · rintro ⟨⟨h1, h2⟩, h3⟩
        refine ⟨h1, h2, ?_⟩
        by_cases hh : Hit N peer list
        · exact .inl ⟨hh, trivial⟩
        · rcases h3 with h3 | h3
          · exact .inr ⟨hh, h3⟩
          · exact absurd h3 hh
    · have hall : ∀ x ∈ t, decide (x ≠ 44) = true := fun x hx => by simp; rintro rfl; exact hn hx
      have t1 : list.takeWhile (fun c => decide (c ≠ 44)) = t := by
        rw [he, List.takeWhile_append_of_pos hall]; simp
      have t2 : (list.dropWhile (fun c => decide (c ≠ 44))).drop 1 = d := by
        rw [he, List.dropWhile_append_of_pos hall]; simp
      have hd : d ≠ [] := by
        rintro rfl
        rw [he] at hlast
        simp at hlast
      have hd0 : (0 : UInt8) ∉ d := fun h => h0 (by rw [he]; simp [h])
      have hdl : d.getLast? ≠ some 44 := by
        intro h; apply hlast
        rw [he, List.getLast?_append]
        cases d with
        | nil => exact absurd rfl hd
        | cons x xs => rw [List.getLast?_cons_cons, h]; rfl
      have hlen : d.length ≤ fuel := by rw [he] at hl; simp at hl; omega
      rw [entry_step hR h0 hne fuel allow t1 t2, ih d true hlen hd hd0 hdl, ih d allow hlen hd hd0 hdl, he, split_cut hn]
      simp only [List.mem_cons, forall_eq_or_imp, exists_eq_or_imp, true_or, and_true]
      constructor
      · rintro ⟨h1, h2, ⟨h3, h4⟩ | ⟨_, h4, h5⟩⟩
        · exact ⟨⟨⟨h1, h2⟩, h4⟩, .inr (.inl h3)⟩
        · refine ⟨⟨⟨h1, h2⟩, h4⟩, ?_⟩
          rcases h5 with h5 | h5
          · exact .inl h5
          · exact .inr (.inr h5)
      · rintro ⟨⟨⟨h1, h2⟩, h4⟩, h5⟩
        refine ⟨h1, h2, ?_⟩
        by_cases hh : Hit N peer t
        · exact .inl ⟨hh, h4⟩
        · refine .inr ⟨hh, h4, ?_⟩
          rcases h5 with h5 | h5 | h5
          · exact .inl h5
          · exact absurd h5 hh
          · exact .inr h5

theorem peerAddr_eq {N : Net} (hR : Readers N.pton4 N.pton6) (p : Bytes) :
    peerAddr N p = (address N.pton4 N.pton6 p).map unmapped := by
  rw [peerAddr, address]
  cases h4 : N.pton4 p with
  | some v =>
    have := hR.1 _ _ h4
    simp [unmapped, this]
  | none =>
    simp only [Option.or_eq_right_of_none rfl]
    cases h6 : N.pton6 p with
    | none => rfl
    | some v =>
      have := hR.2.1 _ _ h6
      simp only [Option.map_some, unmapped, this, v4mapped, true_and, decide_eq_true_eq]
      split <;> rfl

/-- On lists without zero bytes that do not end with a comma: entries shorter than 80 bytes, and the peer is
permitted. -/
theorem source_iff {N : Net} (hR : Readers N.pton4 N.pton6) {list peerIp : Bytes} (hne : list ≠ [])
    (h0 : (0 : UInt8) ∉ list) (hlast : list.getLast? ≠ some 44) :
    osshSourceAddrMatch N list peerIp = true ↔
      (∀ e ∈ split 44 list, e.length < 80) ∧ Permits N.pton4 N.pton6 list peerIp := by
  rw [osshSourceAddrMatch, peerAddr_eq hR, Permits]
  cases ha : address N.pton4 N.pton6 peerIp with
  | none => simp
  | some x =>
    simp only [Option.map_some]
    rw [sourceLoop_iff hR _ _ _ (Nat.le_refl _) hne h0 hlast]
    constructor
    · rintro ⟨h1, h2⟩
      refine ⟨fun e he => (h1 e he).1, fun e he => (h1 e he).2, x, rfl, ?_⟩
      rcases h2 with h2 | h2
      · cases h2
      · exact h2
    · rintro ⟨h1, h2, y, hy, h3⟩
      obtain rfl : x = y := by simpa using hy
      exact ⟨fun e he => ⟨h1 e he, h2 e he⟩, .inr h3⟩

end Proofs.SshdCert
