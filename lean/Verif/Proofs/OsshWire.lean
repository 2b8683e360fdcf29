import Verif.Model.OsshCert
import Verif.Spec.OsshCert
import Verif.Props.Wire
/-! Readers chained one after the other, against encodings. -/

namespace Proofs.Ossh
open Wolf Wolf.Wire Wolf.NameList Wolf.OsshCert Spec.Wire Props.Wire

theorem uint32_inv {msg rest : List UInt8} {n : Nat} (h : uint32 msg = some (n, rest)) :
    msg = encUint32 n ++ rest := by
  obtain ⟨h4, hn, hr⟩ := uint32_some h
  unfold uint32 at h
  rw [if_pos h4] at h
  simp only [Option.some.injEq, Prod.mk.injEq] at h
  have hl : (msg.take 4).length = (encUint32 n).length := by
    simp [encUint32]; omega
  have he : msg.take 4 = encUint32 n := by
    apply beNat_inj _ _ hl
    rw [h.1, beNat_encUint32 n hn]
  rw [← he, ← h.2, List.take_append_drop]

theorem uint32_enc (n : Nat) (hn : n < 2 ^ 32) (r : Bytes) : uint32 (encUint32 n ++ r) = some (n, r) := by
  have h4 : (encUint32 n).length = 4 := rfl
  unfold uint32
  rw [if_pos (by simp [h4]), List.take_append_of_le_length (by rw [h4]; omega), List.drop_append_of_le_length (by rw [h4]; omega)]
  rw [List.take_of_length_le (by rw [h4]; omega), List.drop_eq_nil_of_le (by rw [h4]; omega), beNat_encUint32 n hn]
  rfl

theorem string_inv {msg s rest : List UInt8} (h : Spec.Wire.string msg = some (s, rest)) :
    msg = encString s ++ rest ∧ s.length < 2 ^ 32 := by
  unfold Spec.Wire.string at h
  split at h
  · cases h
  · rename_i n r hu
    split at h
    · rename_i hn
      simp only [Option.some.injEq, Prod.mk.injEq] at h
      obtain ⟨rfl, rfl⟩ := h
      have := uint32_inv hu
      have hb := (uint32_some hu).2.1
      refine ⟨?_, by rw [List.length_take]; omega⟩
      rw [this]
      unfold encString
      rw [List.length_take, Nat.min_eq_left hn, List.append_assoc, List.take_append_drop]
    · cases h

theorem string_enc (s rest : Bytes) (hs : s.length < 2 ^ 32) : Spec.Wire.string (encString s ++ rest) = some (s, rest) := by
  unfold Spec.Wire.string encString
  rw [List.append_assoc, uint32_enc _ hs]
  simp

theorem enc_length (s : Bytes) : (encString s).length = s.length + 4 := by
  simp [encString, encUint32]

theorem encString_inj {s s' r r' : List UInt8} (hs : s.length < 2 ^ 32) (hs' : s'.length < 2 ^ 32)
    (h : encString s ++ r = encString s' ++ r') : s = s' ∧ r = r' := by
  have h1 := string_enc s r hs
  have h2 := string_enc s' r' hs'
  rw [h, h2] at h1
  simp only [Option.some.injEq, Prod.mk.injEq] at h1
  exact ⟨h1.1.symm, h1.2.symm⟩

theorem msgFrom_length (mem : Bytes) (len idx : Nat) (hl : len ≤ mem.length) : (msgFrom mem len idx).length = len - idx := by
  simp [msgFrom, List.length_drop, List.length_take]; omega

/-- The reference the reader makes for the string `s` found at `idx`. -/
def refAt (idx : Nat) (s : Bytes) : StrRef := if s = [] then ⟨none, 0⟩ else ⟨some (idx + 4), s.length⟩

theorem refAt_sz (idx : Nat) (s : Bytes) : (refAt idx s).sz = s.length := by
  unfold refAt; split <;> simp_all

theorem refAt_off (idx : Nat) (s : Bytes) : (refAt idx s).off = none ↔ s = [] := by
  unfold refAt; split <;> simp_all

theorem andThen_ok {α β : Type} {r : Res α} {f : α → Nat → Res β} {b : β} {j : Nat} :
    andThen r f = .ok b j ↔ ∃ v i, r = .ok v i ∧ f v i = .ok b j := by
  unfold andThen
  cases r <;> simp [and_assoc]

theorem andThen_ub {α β : Type} {r : Res α} {f : α → Nat → Res β} :
    andThen r f = .ub ↔ r = .ub ∨ ∃ v i, r = .ok v i ∧ f v i = .ub := by
  unfold andThen
  cases r <;> simp [and_assoc]

theorem andThen_of_ok {α β : Type} {r : Res α} {f : α → Nat → Res β} {v : α} {i : Nat}
    (h : r = .ok v i) : andThen r f = f v i := by rw [h]; rfl

variable {mem : Bytes} {len : Nat}

theorem str_ne_ub (idx : Nat) (hl : len ≤ mem.length) (hw : len < 2 ^ 32) : getStringRef mem len idx ≠ .ub := by
  intro h
  have := C01_getStringRef mem len idx hl hw
  rw [h] at this; exact this

theorem mpint_ne_ub (idx : Nat) (hl : len ≤ mem.length) (hw : len < 2 ^ 32) : getMpint mem len idx ≠ .ub := by
  intro h
  have := C01_getMpint mem len idx hl hw
  rw [h] at this; exact this

theorem u32_ne_ub (idx : Nat) (hl : len ≤ mem.length) (hw : len < 2 ^ 32) : getUint32 mem len idx ≠ .ub := by
  intro h
  have := C01_getUint32 mem len idx hl hw
  rw [h] at this; exact this

theorem u64_ne_ub (idx : Nat) (hl : len ≤ mem.length) (hw : len < 2 ^ 32) : getUint64 mem len idx ≠ .ub := by
  intro h
  have := C01_getUint64 mem len idx hl hw
  rw [h] at this; exact this

/-- A string found: the reference, the cursor, the bytes. -/
theorem str_inv {idx i : Nat} {r : StrRef} (hl : len ≤ mem.length) (hw : len < 2 ^ 32)
    (h : getStringRef mem len idx = .ok r i) :
    ∃ s, r = refAt idx s ∧ i = idx + 4 + s.length ∧ i ≤ len ∧ s.length < 2 ^ 32 ∧
      msgFrom mem len idx = encString s ++ msgFrom mem len i := by
  have he := getStringRef_eq mem len idx hl hw
  rw [h] at he
  cases hs : Spec.Wire.string ((mem.take len).drop idx) with
  | none => rw [hs] at he; simp only at he; split at he <;> cases he
  | some p =>
    obtain ⟨s, rest⟩ := p
    rw [hs] at he
    simp only [Res.ok.injEq] at he
    obtain ⟨h1, h2, h3⟩ := deref_string mem len idx s rest hl hs
    obtain ⟨h4, h5⟩ := string_inv hs
    refine ⟨s, he.1, he.2, by omega, h5, ?_⟩
    rw [he.2]
    show (mem.take len).drop idx = _
    rw [h4, h3]; rfl

/-- A string standing at the cursor is found. -/
theorem str_fwd {idx : Nat} {s rest : Bytes} (hl : len ≤ mem.length) (hw : len < 2 ^ 32)
    (hm : msgFrom mem len idx = encString s ++ rest) :
    getStringRef mem len idx = .ok (refAt idx s) (idx + 4 + s.length) ∧
      msgFrom mem len (idx + 4 + s.length) = rest := by
  have hlen := msgFrom_length mem len idx hl
  have hsl : s.length < 2 ^ 32 := by
    have := congrArg List.length hm
    rw [hlen, List.length_append, enc_length] at this; omega
  have hs := string_enc s rest hsl
  rw [← hm] at hs
  have he := getStringRef_eq mem len idx hl hw
  rw [show (mem.take len).drop idx = msgFrom mem len idx from rfl, hs] at he
  obtain ⟨h1, h2, h3⟩ := deref_string mem len idx s rest hl hs
  exact ⟨he, h3.symm⟩

theorem str_deref {idx : Nat} {s rest : Bytes} (hl : len ≤ mem.length)
    (hm : msgFrom mem len idx = encString s ++ rest) (hw : len < 2 ^ 32) : deref mem (refAt idx s) = some s := by
  have hsl : s.length < 2 ^ 32 := by
    have := congrArg List.length hm
    rw [msgFrom_length mem len idx hl, List.length_append, enc_length] at this; omega
  have hs := string_enc s rest hsl
  rw [← hm] at hs
  exact (deref_string mem len idx s rest hl hs).1

/-- The memory behind the reference starts with the string. -/
theorem str_view {idx : Nat} {s rest : Bytes} (hl : len ≤ mem.length)
    (hm : msgFrom mem len idx = encString s ++ rest) :
    (view mem (refAt idx s)).take s.length = s ∧ s.length ≤ (view mem (refAt idx s)).length := by
  unfold refAt view
  by_cases h : s = []
  · subst h; simp
  · simp only [h, if_false]
    have hlen : len - idx = s.length + 4 + rest.length := by
      have := congrArg List.length hm
      rw [msgFrom_length mem len idx hl, List.length_append, enc_length] at this; omega
    have hs0 : 0 < s.length := by cases s <;> simp_all
    have hd : (mem.take len).drop (idx + 4) = s ++ rest := by
      have : (mem.take len).drop (idx + 4) = ((mem.take len).drop idx).drop 4 := by
        rw [List.drop_drop]
      rw [this]
      show (msgFrom mem len idx).drop 4 = _
      rw [hm]; simp [encString, encUint32]
    constructor
    · have : (mem.drop (idx+4)).take s.length = ((mem.take len).drop (idx+4)).take s.length := by
        rw [List.drop_take, List.take_take]; congr 1; omega
      rw [this, hd]; simp
    · rw [List.length_drop]; omega

/-- So a reader working behind the reference reads the string. -/
theorem str_msg {idx : Nat} {s rest : Bytes} (hl : len ≤ mem.length)
    (hm : msgFrom mem len idx = encString s ++ rest) :
    msgFrom (view mem (refAt idx s)) s.length 0 = s := by
  unfold msgFrom
  rw [(str_view hl hm).1]; rfl

theorem u32_inv {idx i v : Nat} (hl : len ≤ mem.length) (hw : len < 2 ^ 32)
    (h : getUint32 mem len idx = .ok v i) :
    i = idx + 4 ∧ i ≤ len ∧ v < 2 ^ 32 ∧ msgFrom mem len idx = encUint32 v ++ msgFrom mem len i := by
  have := C01_getUint32 mem len idx hl hw
  rw [h] at this
  obtain ⟨h1, h2, h3⟩ := this
  exact ⟨h2, h1, (uint32_some h3).2.1, uint32_inv h3⟩

theorem u32_fwd {idx v : Nat} {rest : Bytes} (hl : len ≤ mem.length) (hw : len < 2 ^ 32) (hv : v < 2 ^ 32)
    (hm : msgFrom mem len idx = encUint32 v ++ rest) :
    getUint32 mem len idx = .ok v (idx + 4) ∧ msgFrom mem len (idx + 4) = rest := by
  have hs := uint32_enc v hv rest
  rw [← hm] at hs
  have he := getUint32_eq mem len idx hl hw
  rw [show (mem.take len).drop idx = msgFrom mem len idx from rfl, hs] at he
  refine ⟨he, ?_⟩
  have : msgFrom mem len (idx + 4) = (msgFrom mem len idx).drop 4 := by
    unfold msgFrom; rw [List.drop_drop]
  rw [this, hm]; rfl

theorem u64_inv {idx i v : Nat} (hl : len ≤ mem.length) (hw : len < 2 ^ 32)
    (h : getUint64 mem len idx = .ok v i) :
    i = idx + 8 ∧ i ≤ len ∧ v < 2 ^ 64 ∧ msgFrom mem len idx = Spec.OsshCert.encUint64 v ++ msgFrom mem len i := by
  unfold getUint64 at h
  cases h1 : getUint32 mem len idx with
  | ub => rw [h1] at h; cases h
  | err e j => rw [h1] at h; cases h
  | ok hi j =>
    rw [h1] at h
    simp only at h
    obtain ⟨rfl, _, hhi, hm1⟩ := u32_inv hl hw h1
    cases h2 : getUint32 mem len (idx + 4) with
    | ub => rw [h2] at h; cases h
    | err e j => rw [h2] at h; cases h
    | ok lo k =>
      rw [h2] at h
      simp only [Res.ok.injEq] at h
      obtain ⟨rfl, hk, hlo, hm2⟩ := u32_inv hl hw h2
      obtain ⟨hv, rfl⟩ := h
      have : v = hi * 2 ^ 32 + lo := by
        rw [← hv, ← Nat.shiftLeft_add_eq_or_of_lt (by omega : lo < 2^32), Nat.shiftLeft_eq]
      refine ⟨rfl, hk, by omega, ?_⟩
      rw [hm1, hm2, Spec.OsshCert.encUint64, List.append_assoc]
      have e1 : v / 2 ^ 32 = hi := by omega
      have e2 : v % 2 ^ 32 = lo := by omega
      rw [e1, e2]

theorem u64_fwd {idx v : Nat} {rest : Bytes} (hl : len ≤ mem.length) (hw : len < 2 ^ 32) (hv : v < 2 ^ 64)
    (hm : msgFrom mem len idx = Spec.OsshCert.encUint64 v ++ rest) :
    getUint64 mem len idx = .ok v (idx + 8) ∧ msgFrom mem len (idx + 8) = rest := by
  rw [Spec.OsshCert.encUint64, List.append_assoc] at hm
  obtain ⟨h1, hm1⟩ := u32_fwd hl hw (by omega) hm
  obtain ⟨h2, hm2⟩ := u32_fwd hl hw (by omega) hm1
  refine ⟨?_, hm2⟩
  unfold getUint64
  rw [h1]; simp only; rw [h2]; simp only
  congr 1
  rw [← Nat.shiftLeft_add_eq_or_of_lt (by omega : v % 2 ^ 32 < 2^32), Nat.shiftLeft_eq]
  omega

theorem mpint_inv {idx i : Nat} {r : StrRef} (hl : len ≤ mem.length) (hw : len < 2 ^ 32)
    (h : getMpint mem len idx = .ok r i) :
    ∃ s, r = refAt idx s ∧ i = idx + 4 + s.length ∧ i ≤ len ∧ s.length < 2 ^ 32 ∧
      msgFrom mem len idx = encString s ++ msgFrom mem len i ∧ Spec.OsshCert.NonNegative s := by
  have hm := C01_getMpint mem len idx hl hw
  rw [h] at hm
  obtain ⟨_, s0, hd0, _, hp⟩ := hm
  unfold getMpint at h
  cases h1 : getStringRef mem len idx with
  | ub => rw [h1] at h; cases h
  | err e j => rw [h1] at h; cases h
  | ok r1 j =>
    obtain ⟨s, rfl, rfl, hj, hsl, hms⟩ := str_inv hl hw h1
    rw [h1] at h
    simp only at h
    have hr : refAt idx s = r ∧ idx + 4 + s.length = i := by
      split at h
      · split at h
        · cases h
        · split at h
          · cases h
          · split at h
            · cases h
            · simpa using h
      · simpa using h
    obtain ⟨rfl, rfl⟩ := hr
    refine ⟨s, rfl, rfl, hj, hsl, hms, ?_⟩
    rw [hms] at hp
    unfold mpint at hp
    rw [string_enc s _ hsl] at hp
    intro x rest hx
    subst hx
    simp only at hp
    split at hp
    · assumption
    · cases hp

theorem mpint_fwd {idx : Nat} {s rest : Bytes} (hl : len ≤ mem.length) (hw : len < 2 ^ 32)
    (hm : msgFrom mem len idx = encString s ++ rest) (hn : Spec.OsshCert.NonNegative s) :
    getMpint mem len idx = .ok (refAt idx s) (idx + 4 + s.length) ∧
      msgFrom mem len (idx + 4 + s.length) = rest := by
  obtain ⟨h1, h2⟩ := str_fwd hl hw hm
  have hsl : s.length < 2 ^ 32 := by
    have := congrArg List.length hm
    rw [msgFrom_length mem len idx hl, List.length_append, enc_length] at this; omega
  refine ⟨?_, h2⟩
  have hc := C01_getMpint mem len idx hl hw
  have hp : ∃ q, mpint (msgFrom mem len idx) = some q := by
    rw [hm]; unfold mpint; rw [string_enc s _ hsl]
    cases s with
    | nil => exact ⟨_, rfl⟩
    | cons x t => simp only; rw [if_pos (hn x t rfl)]; exact ⟨_, rfl⟩
  obtain ⟨q, hq⟩ := hp
  cases hg : getMpint mem len idx with
  | ub => rw [hg] at hc; exact hc.elim
  | err e i => rw [hg] at hc; rw [hq] at hc; cases hc.2
  | ok r i =>
    obtain ⟨s', rfl, rfl, _, hsl', hm', _⟩ := mpint_inv hl hw hg
    rw [hm] at hm'
    obtain ⟨rfl, _⟩ := encString_inj hsl hsl' hm'
    rfl

theorem skip_str {idx i : Nat} {u : Unit} (hl : len ≤ mem.length) (hw : len < 2 ^ 32)
    (h : getSkip mem len idx = .ok u i) : ∃ r, getStringRef mem len idx = .ok r i := by
  unfold getSkip getSize at h
  unfold getStringRef
  cases hu : getUint32 mem len idx with
  | ub => rw [hu] at h; simp at h
  | err e k => rw [hu] at h; simp at h
  | ok v k =>
    have hk := u32_inv hl hw hu
    rw [hu] at h
    simp only at h ⊢
    by_cases hs : v > sub32 len k
    · rw [if_pos hs] at h; simp at h
    · rw [if_neg hs] at h
      simp only at h
      by_cases hc : k ≤ len ∧ v ≤ sub32 len k
      · rw [if_pos hc] at h ⊢
        simp only [Res.ok.injEq, true_and] at h
        by_cases hz : v ≠ 0
        · rw [if_pos hz]; exact ⟨_, by rw [h]⟩
        · rw [if_neg hz]
          have hz : v = 0 := by omega
          subst hz
          have : add32 k 0 = k := by unfold add32; omega
          rw [this] at h; exact ⟨_, by rw [h]⟩
      · rw [if_neg hc] at h; simp at h

theorem skip_inv {idx i : Nat} {u : Unit} (hl : len ≤ mem.length) (hw : len < 2 ^ 32)
    (h : getSkip mem len idx = .ok u i) :
    ∃ s, i = idx + 4 + s.length ∧ i ≤ len ∧ s.length < 2 ^ 32 ∧
      msgFrom mem len idx = encString s ++ msgFrom mem len i := by
  obtain ⟨r, hr⟩ := skip_str hl hw h
  obtain ⟨s, _, h2, h3, h4, h5⟩ := str_inv hl hw hr
  exact ⟨s, h2, h3, h4, h5⟩

theorem skip_ne_ub (idx : Nat) (hl : len ≤ mem.length) (hw : len < 2 ^ 32) : getSkip mem len idx ≠ .ub := by
  intro h
  unfold getSkip getSize at h
  cases hu : getUint32 mem len idx with
  | ub => exact u32_ne_ub idx hl hw hu
  | err e k => rw [hu] at h; simp at h
  | ok v k =>
    rw [hu] at h
    simp only at h
    by_cases hs : v > sub32 len k
    · rw [if_pos hs] at h; simp at h
    · rw [if_neg hs] at h
      simp only at h
      split at h <;> cases h

theorem skip_fwd {idx : Nat} {s rest : Bytes} (hl : len ≤ mem.length) (hw : len < 2 ^ 32)
    (hm : msgFrom mem len idx = encString s ++ rest) :
    getSkip mem len idx = .ok () (idx + 4 + s.length) ∧ msgFrom mem len (idx + 4 + s.length) = rest := by
  obtain ⟨h1, h2⟩ := str_fwd hl hw hm
  have hlen := congrArg List.length hm
  rw [msgFrom_length mem len idx hl, List.length_append, enc_length] at hlen
  refine ⟨?_, h2⟩
  have hu : uint32 (msgFrom mem len idx) = some (s.length, s ++ rest) := by
    rw [hm, encString, List.append_assoc, uint32_enc _ (by omega)]
  unfold getSkip getSize
  rw [getUint32_eq mem len idx hl hw, show (mem.take len).drop idx = msgFrom mem len idx from rfl, hu]
  simp only
  rw [if_neg (by unfold sub32; omega)]
  simp only
  rw [if_pos (by unfold sub32; omega)]
  simp only [Res.ok.injEq, add32, true_and]
  omega

end Proofs.Ossh
