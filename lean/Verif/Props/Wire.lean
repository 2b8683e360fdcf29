import Verif.Proofs.Wire
/-!
# C01, C02, C03: wire primitives

`msgFrom mem len k` is the part of the message still unread when the cursor is at `k`.
-/

namespace Props.Wire
open Wolf Wolf.Wire

/-- The unread part of the `len`-byte message at cursor `k`. -/
def msgFrom (mem : Bytes) (len k : Nat) : Bytes := (mem.take len).drop k

/-! ## C01: bounds and exactness of every reader -/

/-- C01, boolean/byte. -/
theorem C01_getBoolean (mem : Bytes) (len idx : Nat) (hl : len ≤ mem.length) (hw : len < 2^32) :
    match getBoolean mem len idx with
    | .ub => False
    | .err _ i => i = idx ∧ Spec.Wire.byte (msgFrom mem len idx) = none
    | .ok v i => i ≤ len ∧ Spec.Wire.byte (msgFrom mem len idx) = some (v, msgFrom mem len i) := by
  unfold getBoolean msgFrom
  by_cases h : idx < len
  · rw [if_pos h, List.getElem?_eq_getElem (by omega)]
    have h' : idx < (mem.take len).length := by simp [List.length_take]; omega
    rw [List.drop_eq_getElem_cons h']
    simp [Spec.Wire.byte, add32, List.getElem_take]
    have : (idx + 1) % 4294967296 = idx + 1 := by omega
    simp [this]; omega
  · rw [if_neg h]
    have : (mem.take len).drop idx = [] := by
      apply List.drop_eq_nil_of_le; simp [List.length_take]; omega
    simp [this, Spec.Wire.byte]

/-- C01, uint32. -/
theorem C01_getUint32 (mem : Bytes) (len idx : Nat) (hl : len ≤ mem.length) (hw : len < 2^32) :
    match getUint32 mem len idx with
    | .ub => False
    | .err _ i => i = idx ∧ Spec.Wire.uint32 (msgFrom mem len idx) = none
    | .ok v i => i ≤ len ∧ i = idx + 4 ∧
        Spec.Wire.uint32 (msgFrom mem len idx) = some (v, msgFrom mem len i) := by
  rw [getUint32_eq mem len idx hl hw]
  unfold msgFrom
  cases h : Spec.Wire.uint32 ((mem.take len).drop idx) with
  | none => simp
  | some p =>
    obtain ⟨v, rest⟩ := p
    obtain ⟨h4, _, hr⟩ := uint32_some h
    simp [List.length_drop, List.length_take] at h4
    simp [hr]; omega

/-- C01, uint64. -/
theorem C01_getUint64 (mem : Bytes) (len idx : Nat) (hl : len ≤ mem.length) (hw : len < 2^32) :
    match getUint64 mem len idx with
    | .ub => False
    | .err _ i => (i = idx ∨ i = idx + 4 ∧ i ≤ len) ∧ Spec.Wire.uint64 (msgFrom mem len idx) = none
    | .ok v i => i ≤ len ∧ i = idx + 8 ∧
        Spec.Wire.uint64 (msgFrom mem len idx) = some (v, msgFrom mem len i) := by
  unfold getUint64
  have hlen : ((mem.take len).drop idx).length = len - idx := by
    simp [List.length_drop, List.length_take]; omega
  have hlen4 : ((mem.take len).drop (idx+4)).length = len - (idx+4) := by
    simp [List.length_drop, List.length_take]; omega
  rw [getUint32_eq mem len idx hl hw]
  cases h : Spec.Wire.uint32 ((mem.take len).drop idx) with
  | none =>
    have h8 : ¬ 4 ≤ ((mem.take len).drop idx).length := by
      intro hc; unfold Spec.Wire.uint32 at h; rw [if_pos hc] at h; simp at h
    simp [Spec.Wire.uint64, msgFrom]; omega
  | some p =>
    obtain ⟨v, rest⟩ := p
    obtain ⟨h4, hv, hr⟩ := uint32_some h
    simp only
    rw [getUint32_eq mem len (idx+4) hl hw]
    cases h2 : Spec.Wire.uint32 ((mem.take len).drop (idx+4)) with
    | none =>
      have h8 : ¬ 4 ≤ ((mem.take len).drop (idx+4)).length := by
        intro hc; unfold Spec.Wire.uint32 at h2; rw [if_pos hc] at h2; simp at h2
      simp [Spec.Wire.uint64, msgFrom]; omega
    | some q =>
      obtain ⟨w, rest2⟩ := q
      obtain ⟨h5, hw2, hr2⟩ := uint32_some h2
      simp only
      refine ⟨by omega, trivial, ?_⟩
      unfold Spec.Wire.uint64 msgFrom
      rw [if_pos (by omega), List.drop_drop]
      congr 1
      congr 1
      · have hv' : v = Spec.Wire.beNat (((mem.take len).drop idx).take 4) := by
          unfold Spec.Wire.uint32 at h; rw [if_pos h4] at h; simp at h; exact h.1.symm
        have hw' : w = Spec.Wire.beNat (((mem.take len).drop (idx+4)).take 4) := by
          unfold Spec.Wire.uint32 at h2; rw [if_pos h5] at h2; simp at h2; exact h2.1.symm
        have hsplit : ((mem.take len).drop idx).take 8
            = ((mem.take len).drop idx).take 4 ++ ((mem.take len).drop (idx+4)).take 4 := by
          rw [show idx + 4 = idx + 4 from rfl, ← List.drop_drop, ← List.take_add]
        rw [hsplit, beNat_append, ← hv', ← hw']
        have : (((mem.take len).drop (idx+4)).take 4).length = 4 := by
          simp only [List.length_take, hlen4]; omega
        rw [this, ← Nat.shiftLeft_add_eq_or_of_lt (by omega : w < 2^32), Nat.shiftLeft_eq]

/-- C01, string reference: the reference designates exactly the string's bytes. -/
theorem C01_getStringRef (mem : Bytes) (len idx : Nat) (hl : len ≤ mem.length) (hw : len < 2^32) :
    match getStringRef mem len idx with
    | .ub => False
    | .err _ i => (i = idx ∨ i = idx + 4 ∧ i ≤ len) ∧ Spec.Wire.string (msgFrom mem len idx) = none
    | .ok r i => i ≤ len ∧ ∃ s, deref mem r = some s ∧ i = idx + 4 + s.length ∧
        Spec.Wire.string (msgFrom mem len idx) = some (s, msgFrom mem len i) := by
  rw [getStringRef_eq mem len idx hl hw]
  unfold msgFrom
  cases h : Spec.Wire.string ((mem.take len).drop idx) with
  | none => by_cases hc' : idx + 4 ≤ len <;> simp [hc']
  | some p =>
    obtain ⟨s, rest⟩ := p
    obtain ⟨h1, h2, h3⟩ := deref_string mem len idx s rest hl h
    exact ⟨h2, s, h1, rfl, by rw [h3]⟩

/-- C01, mpint: a string that is not negative. -/
theorem C01_getMpint (mem : Bytes) (len idx : Nat) (hl : len ≤ mem.length) (hw : len < 2^32) :
    match getMpint mem len idx with
    | .ub => False
    | .err _ i => (i = idx ∨ i ≤ len) ∧ Spec.Wire.mpint (msgFrom mem len idx) = none
    | .ok r i => i ≤ len ∧ ∃ s, deref mem r = some s ∧ i = idx + 4 + s.length ∧
        Spec.Wire.mpint (msgFrom mem len idx) = some (s, msgFrom mem len i) := by
  unfold getMpint
  rw [getStringRef_eq mem len idx hl hw]
  unfold msgFrom Spec.Wire.mpint
  cases h : Spec.Wire.string ((mem.take len).drop idx) with
  | none => by_cases hc' : idx + 4 ≤ len <;> simp [hc']
  | some p =>
    obtain ⟨s, rest⟩ := p
    obtain ⟨h1, h2, h3⟩ := deref_string mem len idx s rest hl h
    cases s with
    | nil => simpa [h3, deref] using h2
    | cons b bs =>
      have hb : mem[idx + 4]? = some b := by
        simp only [deref, List.length_cons] at h1
        simp only [reduceCtorEq, if_false] at h1
        split at h1
        · simp only [Option.some.injEq] at h1
          have := congrArg (fun l => l[0]?) h1
          simpa [List.getElem?_take, List.getElem?_drop] using this
        · simp at h1
      simp only [reduceCtorEq, if_false, List.length_cons, Nat.zero_lt_succ, if_true, gt_iff_lt, hb]
      have hbit : ((b &&& 0x80) ≠ 0) ↔ ¬ b.toNat < 128 := by
        rw [high_bit]; omega
      by_cases hn : b.toNat < 128
      · have : ¬ ((b &&& 0x80) ≠ 0) := by rw [hbit]; simp [hn]
        simp only [this, if_false, hn, if_true]
        refine ⟨by simpa using h2, b :: bs, by simpa using h1, by simp, by simp [h3]⟩
      · have : ((b &&& 0x80) ≠ 0) := by rw [hbit]; exact hn
        simp only [List.length_cons] at h2
        rw [if_pos this]
        simp only [hn, if_false]
        exact ⟨Or.inr h2, trivial⟩

/-- C01, length field: the value read fits in what remains of the message. -/
theorem C01_getSize (mem : Bytes) (len idx : Nat) (hl : len ≤ mem.length) (hw : len < 2^32) :
    match getSize mem len idx with
    | .ub => False
    | .err _ i => (i = idx ∨ i = idx + 4 ∧ i ≤ len) ∧ Spec.Wire.string (msgFrom mem len idx) = none
    | .ok v i => i = idx + 4 ∧ i + v ≤ len ∧
        Spec.Wire.uint32 (msgFrom mem len idx) = some (v, msgFrom mem len i) := by
  have hlen : ((mem.take len).drop idx).length = len - idx := by
    simp [List.length_drop, List.length_take]; omega
  have hu := getUint32_eq mem len idx hl hw
  cases h : Spec.Wire.uint32 ((mem.take len).drop idx) with
  | none =>
    rw [h] at hu
    have e : getSize mem len idx = .err .bufferE idx := by unfold getSize; rw [hu]
    rw [e]
    refine ⟨Or.inl rfl, ?_⟩
    unfold msgFrom Spec.Wire.string
    rw [h]
  | some p =>
    obtain ⟨v, rest⟩ := p
    obtain ⟨h4, hv, hr⟩ := uint32_some h
    rw [hlen] at h4
    have hrl : rest.length = len - (idx + 4) := by rw [hr]; simp [List.length_drop]; omega
    have hsub : sub32 len (idx+4) = len - (idx + 4) := by unfold sub32; omega
    rw [h] at hu
    by_cases hgt : v > len - (idx + 4)
    · have e : getSize mem len idx = .err .bufferE (idx + 4) := by
        unfold getSize; rw [hu]; simp only; rw [hsub, if_pos hgt]
      rw [e]
      refine ⟨Or.inr ⟨rfl, by omega⟩, ?_⟩
      unfold msgFrom Spec.Wire.string
      rw [h]
      simp only
      rw [if_neg (by omega)]
    · have e : getSize mem len idx = .ok v (idx + 4) := by
        unfold getSize; rw [hu]; simp only; rw [hsub, if_neg hgt]
      rw [e]
      refine ⟨rfl, by omega, ?_⟩
      unfold msgFrom
      rw [h, hr, List.drop_drop]

/-- C01, skip a string. -/
theorem C01_getSkip (mem : Bytes) (len idx : Nat) (hl : len ≤ mem.length) (hw : len < 2^32) :
    match getSkip mem len idx with
    | .ub => False
    | .err _ i => (i = idx ∨ i = idx + 4 ∧ i ≤ len) ∧ Spec.Wire.string (msgFrom mem len idx) = none
    | .ok _ i => i ≤ len ∧ ∃ s,
        Spec.Wire.string (msgFrom mem len idx) = some (s, msgFrom mem len i) := by
  unfold getSkip
  have hs := C01_getSize mem len idx hl hw
  revert hs
  cases getSize mem len idx with
  | ub => simp
  | err e i => simp
  | ok v i =>
    simp only
    rintro ⟨rfl, h2, h3⟩
    have hsub : sub32 len (idx+4) = len - (idx + 4) := by unfold sub32; omega
    rw [hsub, if_pos (by omega)]
    simp only [add32]
    have : (idx + 4 + v) % 4294967296 = idx + 4 + v := by omega
    rw [this]
    refine ⟨h2, (msgFrom mem len (idx+4)).take v, ?_⟩
    unfold Spec.Wire.string
    rw [h3]
    have hml : (msgFrom mem len (idx+4)).length = len - (idx + 4) := by
      simp [msgFrom, List.length_drop, List.length_take]; omega
    simp only [hml]
    rw [if_pos (by omega)]
    simp only [msgFrom, List.drop_drop]

/-- C01, copy into a destination of `cap` bytes: at most `cap` bytes are written (terminator
included), they are the string's first bytes, and the cursor moves past the whole string. -/
theorem C01_getString (cap : Nat) (mem : Bytes) (len idx : Nat) (hl : len ≤ mem.length)
    (hw : len < 2^32) (hc : cap < 2^32) :
    match getString cap mem len idx with
    | .ub => False
    | .err _ i => (i = idx ∨ i = idx + 4 ∧ i ≤ len) ∧
        (cap = 0 ∨ Spec.Wire.string (msgFrom mem len idx) = none)
    | .ok d i => d.length ≤ cap ∧ i ≤ len ∧ ∃ s,
        d = s.take (cap - 1) ++ [0] ∧
        Spec.Wire.string (msgFrom mem len idx) = some (s, msgFrom mem len i) := by
  unfold getString
  by_cases h0 : cap = 0
  · simp [h0]
  rw [if_neg h0, getStringRef_eq mem len idx hl hw]
  unfold msgFrom
  cases h : Spec.Wire.string ((mem.take len).drop idx) with
  | none => by_cases hc' : idx + 4 ≤ len <;> simp [hc']
  | some p =>
    obtain ⟨s, rest⟩ := p
    obtain ⟨h1, h2, h3⟩ := deref_string mem len idx s rest hl h
    by_cases hs : s = []
    · subst hs
      have : 0 < cap := by omega
      have h0' : ¬ 0 ≥ cap := by omega
      simp only [List.length_nil, Nat.add_zero] at h2
      simp only [if_true, h0', if_false, ne_eq, not_true_eq_false, false_and, this, List.length_nil,
        Nat.add_zero, List.nil_append, List.length_cons]
      refine ⟨by omega, h2, [], by simp, ?_⟩
      rw [h3]; rfl
    · have hs0 : s.length ≠ 0 := by simpa using hs
      have hsub : sub32 cap 1 = cap - 1 := by unfold sub32; omega
      simp only [hs, if_false, hsub, ne_eq, hs0, not_false_eq_true, reduceCtorEq, and_self, if_true]
      simp only [hs, if_false, deref] at h1
      rw [if_pos (by omega)] at h1
      simp only [Option.some.injEq] at h1
      have key : ∀ n, n ≤ s.length → deref mem ⟨some (idx+4), n⟩ = some (s.take n) := by
        intro n hn
        simp only [deref]
        rw [if_pos (by omega), ← h1, List.take_take, Nat.min_eq_left hn]
      by_cases hge : s.length ≥ cap
      · simp only [hge, if_true]
        rw [key (cap - 1) (by omega)]
        simp only
        rw [if_pos (by omega)]
        refine ⟨?_, h2, s, rfl, by rw [h3]⟩
        simp [List.length_take]; omega
      · simp only [hge, if_false]
        rw [key s.length (Nat.le_refl _)]
        simp only
        rw [if_pos (by omega)]
        refine ⟨?_, h2, s, ?_, by rw [h3]⟩
        · simp [List.length_take]; omega
        · rw [List.take_of_length_le (Nat.le_refl _), List.take_of_length_le (by omega)]

/-- C01, copy into a fresh allocation: the terminator is inside the allocation and the copy is
the whole string. -/
theorem C01_getStringAlloc (mem : Bytes) (len idx : Nat) (hl : len ≤ mem.length)
    (hw : len < 2^32) :
    match getStringAlloc mem len idx with
    | .ub => False
    | .err _ i => (i = idx ∨ i = idx + 4 ∧ i ≤ len) ∧ Spec.Wire.string (msgFrom mem len idx) = none
    | .ok s i => i ≤ len ∧
        Spec.Wire.string (msgFrom mem len idx) = some (s, msgFrom mem len i) := by
  unfold getStringAlloc
  rw [getStringRef_eq mem len idx hl hw]
  unfold msgFrom
  cases h : Spec.Wire.string ((mem.take len).drop idx) with
  | none => by_cases hc' : idx + 4 ≤ len <;> simp [hc']
  | some p =>
    obtain ⟨s, rest⟩ := p
    obtain ⟨h1, h2, h3⟩ := deref_string mem len idx s rest hl h
    simp only [h1]
    have : (if s = [] then (⟨none, 0⟩ : StrRef) else ⟨some (idx + 4), s.length⟩).sz = s.length := by
      split <;> simp_all
    rw [this, if_pos (by unfold add32; omega)]
    exact ⟨h2, by rw [h3]⟩

/-- Non-vacuity: a message with a hostile length 0xFFFFFFFF is rejected, an honest one accepted,
both under the hypotheses of the theorems. -/
example : getStringRef [0xff, 0xff, 0xff, 0xff, 1, 2] 6 0 = .err .bufferE 4 := by decide
example : getStringRef [9, 0, 0, 0, 2, 7, 8, 5] 8 1 = .ok ⟨some 5, 2⟩ 7 := by decide
example : getUint32 [1, 2, 3, 4] 4 4294967295 = .err .bufferE 4294967295 := by decide
example : getString 3 [0, 0, 0, 4, 97, 98, 99, 100] 8 0 = .ok [97, 98, 0] 8 := by decide
example : getMpint [0, 0, 0, 1, 0x80] 5 0 = .err .parseE 5 := by decide

/-! ## C02: round trips -/

/-- C02, uint32: whatever precedes and follows. -/
theorem C02_uint32 (pre post : Bytes) (v : Nat) (hv : v < 2^32)
    (hw : (pre ++ c32toa v ++ post).length < 2^32) :
    getUint32 (pre ++ c32toa v ++ post) (pre ++ c32toa v ++ post).length pre.length
      = .ok v (pre.length + 4) := by
  rw [getUint32_eq _ _ _ (Nat.le_refl _) hw]
  have : ((pre ++ c32toa v ++ post).take (pre ++ c32toa v ++ post).length).drop pre.length
      = c32toa v ++ post := by
    rw [List.take_length, List.append_assoc, List.drop_left]
  rw [this]
  have hu : Spec.Wire.uint32 (c32toa v ++ post) = some (v, post) := by
    unfold Spec.Wire.uint32
    rw [if_pos (by simp [c32toa]), c32toa_eq]
    have := beNat_encUint32 v hv
    simpa [Spec.Wire.encUint32] using this
  rw [hu]

/-- C02, boolean. -/
theorem C02_boolean (pre post : Bytes) (b : Byte) (hw : (pre ++ b :: post).length < 2^32) :
    getBoolean (pre ++ b :: post) (pre ++ b :: post).length pre.length = .ok b (pre.length + 1) := by
  simp [getBoolean, add32]
  simp at hw
  omega

/-- C02, string: the reader returns a reference to exactly the bytes written. -/
theorem C02_string (pre s post : Bytes)
    (hw : (pre ++ (c32toa s.length ++ s) ++ post).length < 2^32) :
    let msg := pre ++ (c32toa s.length ++ s) ++ post
    ∃ r, getStringRef msg msg.length pre.length = .ok r (pre.length + 4 + s.length) ∧
      deref msg r = some s ∧
      getStringAlloc msg msg.length pre.length = .ok s (pre.length + 4 + s.length) := by
  intro msg
  have hd : (msg.take msg.length).drop pre.length = c32toa s.length ++ s ++ post := by
    rw [List.take_length]; simp only [msg]; rw [List.append_assoc, List.drop_left]
  have hs : s.length < 2^32 := by simp [List.length_append] at hw; omega
  have hp : Spec.Wire.string ((msg.take msg.length).drop pre.length) = some (s, post) := by
    rw [hd]
    unfold Spec.Wire.string
    have hu : Spec.Wire.uint32 (c32toa s.length ++ s ++ post) = some (s.length, s ++ post) := by
      unfold Spec.Wire.uint32
      rw [if_pos (by simp [c32toa]), c32toa_eq]
      have := beNat_encUint32 s.length hs
      simpa [Spec.Wire.encUint32] using this
    rw [hu]; simp
  have h1 := getStringRef_eq msg msg.length pre.length (Nat.le_refl _) hw
  rw [hp] at h1
  obtain ⟨h2, h3, h4⟩ := deref_string msg msg.length pre.length s post (Nat.le_refl _) hp
  refine ⟨_, h1, h2, ?_⟩
  unfold getStringAlloc
  rw [h1]
  simp only [h2]
  have : (if s = [] then (⟨none, 0⟩ : StrRef) else ⟨some (pre.length + 4), s.length⟩).sz = s.length := by
    split <;> simp_all
  rw [this, if_pos (by
    have : s.length + 4 < 2^32 := by simp [List.length_append, c32toa] at hw; omega
    unfold add32; omega)]

example : getUint32 ([7] ++ c32toa 0xdeadbeef ++ [1, 2]) 7 1 = .ok 0xdeadbeef 5 := by decide

/-! ## C03: mpint normalisation -/

/-- The bytes of an mpint made by `CreateMpint` from a non-empty buffer: padding and buffer. -/
def mpintBytes (buf : Bytes) (pad0 : Nat) : Bytes :=
  List.replicate (createMpint buf pad0).2 0 ++ (createMpint buf pad0).1

/-- C03: for every non-empty big-endian number the mpint produced is *the* canonical encoding
of its value, is never longer than the number plus one byte, and needs no room to the right of
the buffer. -/
theorem C03_canonical (buf : Bytes) (pad0 : Nat) (hne : buf ≠ []) :
    Spec.Wire.CanonicalMpint (mpintBytes buf pad0) (Spec.Wire.beNat buf) ∧
    (createMpint buf pad0).1.length ≤ buf.length ∧ (createMpint buf pad0).2 ≤ 1 := by
  have hl : buf.length ≠ 0 := by simpa using hne
  have hle := leadingZeros_le buf
  unfold mpintBytes createMpint
  rw [if_neg hl]
  by_cases hz : leadingZeros buf = buf.length
  · simp only [hz, if_true]
    refine ⟨⟨?_, ?_, ?_⟩, by simp, by simp⟩
    · rw [beNat_all_zero buf hz]; simp [Spec.Wire.beNat]
    · intro b rest h; simp at h
    · intro rest h; simp at h
  · simp only [hz, if_false]
    obtain ⟨c, rest, hd, hc, hg⟩ := drop_leadingZeros buf (by omega)
    rw [hg]
    have hval : Spec.Wire.beNat (c :: rest) = Spec.Wire.beNat buf := by
      rw [← hd]; exact beNat_drop_zeros buf _ (Nat.le_refl _)
    have hz0 : Spec.Wire.beNat (0 :: c :: rest) = Spec.Wire.beNat buf := by
      rw [beNat_cons, hval]; simp
    have hcz : ∀ r', c :: rest = 0 :: r' → False := by
      intro r' h; simp at h; exact hc h.1
    by_cases hb : (c &&& 0x80) ≠ 0
    · have h128 := (high_bit c).1 hb
      rw [if_pos hb]
      by_cases hi : leadingZeros buf > 0
      · have hdp := drop_pred_leadingZeros buf hi
        rw [hd] at hdp
        simp only [hi, and_self, if_true]
        rw [hdp]
        refine ⟨⟨by simpa using hz0, ?_, ?_⟩, ?_, by simp⟩
        · intro b r h; simp at h; rw [← h.1]; decide
        · intro r h; simp at h; exact ⟨c, rest, h.symm, h128⟩
        · have := congrArg List.length hdp; simp at this ⊢; omega
      · have hz : leadingZeros buf = 0 := by omega
        rw [hz] at hd
        simp only [hi, false_and, if_false]
        rw [hz]
        simp only [List.drop_zero] at hd ⊢
        rw [hd]
        refine ⟨⟨?_, ?_, ?_⟩, by simp, by simp⟩
        · rw [hd] at hz0; simpa using hz0
        · intro b r h; simp at h; rw [← h.1]; decide
        · intro r h; simp at h; exact ⟨c, rest, h.symm, h128⟩
    · have hnb : ¬ ((c &&& 0x80) ≠ 0) := hb
      have hlt : c.toNat < 128 := by
        rw [high_bit] at hb; omega
      simp only [hnb, if_false, and_false]
      simp only [show ¬ ((0:Nat) = 1) by decide, and_false, if_false, hd]
      refine ⟨⟨by simpa using hval, ?_, ?_⟩, ?_, by simp⟩
      · intro b r h; simp at h; rw [← h.1]; exact hlt
      · intro r h; simp at h; exact absurd h.1 hc
      · have := congrArg List.length hd; simp at this ⊢; omega

/-- C03: equal numbers have equal encodings, so both peers feed the same bytes to the hash
whatever buffer (with or without leading zeros) they start from. -/
theorem C03_deterministic (buf1 buf2 : Bytes) (p1 p2 : Nat) (h1 : buf1 ≠ []) (h2 : buf2 ≠ [])
    (h : Spec.Wire.beNat buf1 = Spec.Wire.beNat buf2) : mpintBytes buf1 p1 = mpintBytes buf2 p2 := by
  refine canonical_unique _ _ (Spec.Wire.beNat buf1) (C03_canonical buf1 p1 h1).1 ?_
  rw [h]; exact (C03_canonical buf2 p2 h2).1

/-- C03/C02: what is put on the wire is read back by `GetMpint`, as the same number. -/
theorem C03_roundtrip (buf pre post : Bytes) (hne : buf ≠ [])
    (hw : (pre ++ mpintOnWire (createMpint buf 0) ++ post).length < 2^32) :
    let msg := pre ++ mpintOnWire (createMpint buf 0) ++ post
    ∃ r i s, getMpint msg msg.length pre.length = .ok r i ∧ deref msg r = some s ∧
      Spec.Wire.beNat s = Spec.Wire.beNat buf := by
  intro msg
  have hc := (C03_canonical buf 0 hne).1
  have hm : mpintOnWire (createMpint buf 0)
      = c32toa (mpintBytes buf 0).length ++ mpintBytes buf 0 := by
    simp [mpintOnWire, mpintBytes, Nat.add_comm]
  have hw' := hw
  rw [hm] at hw'
  obtain ⟨r, h1, h2, _⟩ := C02_string pre (mpintBytes buf 0) post hw'
  have hmsg : msg = pre ++ (c32toa (mpintBytes buf 0).length ++ mpintBytes buf 0) ++ post := by
    simp only [msg, hm]
  rw [← hmsg] at h1 h2
  have hmp := C01_getMpint msg msg.length pre.length (Nat.le_refl _) hw
  have hsr := C01_getStringRef msg msg.length pre.length (Nat.le_refl _) hw
  rw [h1] at hsr
  simp only at hsr
  obtain ⟨_, s, hs1, _, hs3⟩ := hsr
  have hss : s = mpintBytes buf 0 := by rw [h2] at hs1; simpa using hs1.symm
  subst hss
  have hspec : Spec.Wire.mpint (msgFrom msg msg.length pre.length)
      = some (mpintBytes buf 0, msgFrom msg msg.length (pre.length + 4 + (mpintBytes buf 0).length)) := by
    unfold Spec.Wire.mpint
    rw [hs3]
    cases hb : mpintBytes buf 0 with
    | nil => rfl
    | cons b bs => simp only; rw [if_pos (hc.2.1 b bs hb)]
  revert hmp
  cases hg : getMpint msg msg.length pre.length with
  | ub => simp
  | err e i => simp [hspec]
  | ok r' i =>
    simp only
    rintro ⟨_, s', hs1', _, hs3'⟩
    rw [hspec] at hs3'
    simp at hs3'
    exact ⟨r', i, s', rfl, hs1', by rw [← hs3'.1]; exact hc.1⟩

example : createMpint [0, 0, 0x80, 1] 0 = ([0, 0x80, 1], 0) := by decide
example : createMpint [0x80, 1] 0 = ([0x80, 1], 1) := by decide
example : createMpint [0, 0] 1 = ([], 0) := by decide

end Props.Wire
