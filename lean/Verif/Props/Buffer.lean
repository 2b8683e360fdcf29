import Verif.Spec.Buffer
/-!
# C38: byte buffers
-/

namespace Props.Buffer
open Wolf Wolf.Buffer Spec.Buffer

theorem sub32_le {a b : Nat} (h : b ≤ a) (ha : a < 2^32) : sub32 a b = a - b := by
  unfold sub32; omega

theorem unread_length {b : Buf} (h : Ok b) : (unread b).length = b.length - b.idx := by
  have := h.cursor; have := h.fits; have := h.mem
  simp [unread]; omega

theorem read_unread {b : Buf} (h : Ok b) : Wolf.Buffer.read b.mem b.idx (b.length - b.idx) = some (unread b) := by
  have := h.cursor; have := h.fits; have := h.mem
  unfold Wolf.Buffer.read
  rw [if_pos (by omega)]; rfl

theorem write_zero {m d : Bytes} (h : d.length ≤ m.length) :
    write m 0 d = some (d ++ m.drop d.length) := by
  unfold write
  rw [if_pos (by omega)]; simp

/-- C38: growing keeps the unread bytes, and afterwards there is room for `sz` more bytes after
them; if memory runs out nothing changes. No memory is touched outside the buffers. -/
theorem C38_grow_partial (alloc : Nat → Option Bytes) (ha : Allocator alloc) (b : Buf) (hb : Ok b) (sz : Nat)
    (hsz : sz + (b.length - b.idx) < 2^32) :
    ∃ r b', growBuffer alloc b sz = some (r, b') ∧ Ok b' ∧ unread b' = unread b ∧
      ((r = none ∧ b'.length + sz ≤ b'.bufferSz) ∨ (r = some .memory ∧ b' = b ∧ ∃ n, alloc n = none)) := by
  obtain ⟨h1, h2, h3, h4, h5⟩ := hb
  have hb : Ok b := ⟨h1, h2, h3, h4, h5⟩
  have hu : sub32 b.length b.idx = b.length - b.idx := sub32_le h1 (by omega)
  have hn : sub32 (add32 sz b.length) b.idx = sz + (b.length - b.idx) := by
    unfold sub32 add32; omega
  have hr := read_unread hb
  have hl := unread_length hb
  unfold growBuffer
  simp only [hu, hn]
  by_cases hg : sz + (b.length - b.idx) > b.bufferSz
  · rw [if_pos hg]
    cases hm : alloc (sz + (b.length - b.idx)) with
    | none => exact ⟨_, _, rfl, hb, rfl, .inr ⟨rfl, rfl, _, hm⟩⟩
    | some m =>
      have hml := ha _ _ hm
      simp only
      by_cases h0 : b.length > 0
      · rw [if_pos h0, hr]
        simp only
        rw [write_zero (by omega)]
        refine ⟨_, _, rfl, ⟨by simp, by simp, by simp; omega, by simp; omega, by simp⟩, ?_,
          .inl ⟨rfl, by simp; omega⟩⟩
        unfold unread at hl ⊢
        simp only [List.drop_zero, Nat.sub_zero]
        rw [List.take_append_of_le_length (by omega), List.take_of_length_le (by omega)]
      · rw [if_neg h0]
        have e0 : b.length = 0 := by omega
        have e1 : b.idx = 0 := by omega
        refine ⟨_, _, rfl, ⟨by simp, by simp, by simp; omega, by simp; omega, by simp⟩, ?_,
          .inl ⟨rfl, by simp; omega⟩⟩
        simp [unread, e0]
  · rw [if_neg hg]
    by_cases h0 : b.length > 0
    · rw [if_pos h0, hr]
      simp only
      rw [write_zero (by omega)]
      refine ⟨_, _, rfl, ⟨by simp, by simp; omega, by simp; omega, h4, h5⟩, ?_,
        .inl ⟨rfl, by simp; omega⟩⟩
      unfold unread at hl ⊢
      simp only [List.drop_zero, Nat.sub_zero]
      rw [List.take_append_of_le_length (by omega), List.take_of_length_le (by omega)]
    · rw [if_neg h0]
      exact ⟨_, _, rfl, hb, rfl, .inl ⟨rfl, by omega⟩⟩

/-- Writing after the unread bytes of a buffer with room. -/
theorem write_append {b : Buf} (hb : Ok b) (data : Bytes) (hr : b.length + data.length ≤ b.bufferSz) :
    ∃ m, write b.mem b.length data = some m ∧
      Ok { b with mem := m, length := add32 b.length data.length } ∧
      unread { b with mem := m, length := add32 b.length data.length } = unread b ++ data := by
  obtain ⟨h1, h2, h3, h4, h5⟩ := hb
  have ha : add32 b.length data.length = b.length + data.length := by unfold add32; omega
  unfold write
  rw [if_pos (by omega)]
  refine ⟨_, rfl, ⟨by simp [ha]; omega, by simp [ha]; omega, by simp; omega, h4, h5⟩, ?_⟩
  unfold unread
  simp only [ha]
  rw [List.append_assoc, List.drop_append_of_le_length (by simp; omega), ← List.append_assoc,
    List.take_append_of_le_length (by simp; omega), List.take_append, List.length_drop,
    List.length_take]
  have e : b.length + data.length - b.idx - (min b.length b.mem.length - b.idx) = data.length := by omega
  rw [e, List.take_of_length_le (Nat.le_refl _), List.take_of_length_le (by simp; omega)]
  rw [List.drop_take]

/-- C38: appending adds the data after the unread bytes; it is refused only when the result would
not fit in 32 bits or memory runs out, and then nothing changes. -/
theorem C38_append (alloc : Nat → Option Bytes) (ha : Allocator alloc) (b : Buf) (hb : Ok b)
    (data : Bytes) :
    ∃ r b', appendBuffer alloc b data = some (r, b') ∧ Ok b' ∧
      ((r = none ∧ unread b' = unread b ++ data) ∨
       (r = some .memory ∧ b' = b ∧ ∃ n, alloc n = none) ∨
       (r = some .overflowE ∧ b' = b ∧ 2^32 ≤ (unread b).length + data.length)) := by
  obtain ⟨h1, h2, h3, h4, h5⟩ := hb
  have hb : Ok b := ⟨h1, h2, h3, h4, h5⟩
  have hu : sub32 b.length b.idx = b.length - b.idx := sub32_le h1 (by omega)
  have hl := unread_length hb
  unfold appendBuffer
  simp only [hu]
  have hmx : sub32 4294967295 (b.length - b.idx) = 4294967295 - (b.length - b.idx) :=
    sub32_le (by omega) (by omega)
  rw [hmx]
  by_cases ho : data.length > 4294967295 - (b.length - b.idx)
  · rw [if_pos ho]
    exact ⟨_, _, rfl, hb, .inr (.inr ⟨rfl, rfl, by omega⟩)⟩
  · rw [if_neg ho]
    have hneed : add32 (b.length - b.idx) data.length = b.length - b.idx + data.length := by
      unfold add32; omega
    rw [hneed]
    generalize hgs : (if b.length - b.idx + data.length > b.bufferSz then
        sub32 (if b.bufferSz ≤ 2147483647 ∧ add32 b.bufferSz b.bufferSz > b.length - b.idx + data.length
          then add32 b.bufferSz b.bufferSz else b.length - b.idx + data.length) (b.length - b.idx)
        else data.length) = gs
    have hgs' : data.length ≤ gs ∧ gs + (b.length - b.idx) < 2^32 := by
      rw [← hgs]
      split
      · split
        · rename_i hd
          obtain ⟨d1, d2⟩ := hd
          have hdd : add32 b.bufferSz b.bufferSz = b.bufferSz + b.bufferSz := by unfold add32; omega
          rw [hdd] at d2 ⊢
          rw [sub32_le (by omega) (by omega)]
          omega
        · rw [sub32_le (by omega) (by omega)]; omega
      · omega
    obtain ⟨r, b', hg, hok, hun, hcase⟩ := C38_grow_partial alloc ha b hb gs hgs'.2
    rw [hg]
    rcases hcase with ⟨rfl, hroom⟩ | ⟨rfl, rfl, n, hn⟩
    · simp only
      obtain ⟨m, hw, hok', hun'⟩ := write_append hok data (by omega)
      rw [hw]
      exact ⟨_, _, rfl, hok', .inl ⟨rfl, by rw [hun', hun]⟩⟩
    · exact ⟨_, _, rfl, hb, .inr (.inl ⟨rfl, rfl, n, hn⟩)⟩

/-- C38: shrinking keeps the unread bytes of a heap buffer, and of any buffer that has none or whose
unread part does not overlap its destination (all callers, see DESIGN.md). -/
theorem C38_shrink_partial (static : Bytes) (hs : static.length = 16) (b : Buf) (hb : Ok b)
    (hov : b.dyn = true ∨ b.idx = b.length ∨ b.length ≤ 2 * b.idx) :
    ∃ b', shrinkBuffer static b false = some b' ∧ Ok b' ∧ unread b' = unread b := by
  obtain ⟨h1, h2, h3, h4, h5⟩ := hb
  have hb : Ok b := ⟨h1, h2, h3, h4, h5⟩
  have hu : sub32 b.length b.idx = b.length - b.idx := sub32_le h1 (by omega)
  have hl := unread_length hb
  have hm16 : (if b.dyn = true then static else b.mem).length = 16 := by
    cases hd : b.dyn
    · simp; rw [h3]; exact h5 hd
    · simpa using hs
  unfold shrinkBuffer
  simp only [hu, STATIC_BUFFER_LEN, true_and, Bool.false_eq_true, if_false]
  by_cases hbig : b.length - b.idx > 16
  · rw [if_pos hbig]; exact ⟨_, rfl, hb, rfl⟩
  · rw [if_neg hbig]
    by_cases h0 : b.length - b.idx = 0
    · rw [if_neg (by omega), h0]
      exact ⟨_, rfl, ⟨Nat.le_refl 0, by simp, hm16, by simp, by simp⟩, by simp [unread, h0]⟩
    · have hno : ¬ (b.dyn = false ∧ b.idx < b.length - b.idx) := by
        rintro ⟨hd, hlt⟩
        rcases hov with h | h | h
        · rw [h] at hd; cases hd
        · omega
        · omega
      rw [if_pos h0, if_neg hno, read_unread hb]
      simp only
      rw [write_zero (by omega)]
      refine ⟨_, rfl, ⟨by simp, by simp; omega, by simp; omega, by simp, by simp⟩, ?_⟩
      unfold unread at hl ⊢
      simp only [List.drop_zero, Nat.sub_zero]
      rw [List.take_append_of_le_length (by omega), List.take_of_length_le (by omega)]

/-- C38: a forced free leaves an empty buffer. -/
theorem C38_free (static : Bytes) (b : Buf) :
    ∃ b', shrinkBuffer static b true = some b' ∧ Ok b' ∧ unread b' = [] := by
  unfold shrinkBuffer
  simp only [STATIC_BUFFER_LEN, Bool.true_eq_false, false_and, if_false, if_true, Option.map_some]
  exact ⟨_, rfl, ⟨by simp, by simp, by simp, by simp, by simp⟩, by simp [unread]⟩

/-- C38: taking `n` of the unread bytes. -/
theorem C38_consume (b : Buf) (hb : Ok b) (n : Nat) (hn : n ≤ (unread b).length) :
    Ok (consume b n) ∧ unread (consume b n) = (unread b).drop n := by
  obtain ⟨h1, h2, h3, h4, h5⟩ := hb
  rw [unread_length ⟨h1, h2, h3, h4, h5⟩] at hn
  have ha : add32 b.idx n = b.idx + n := by unfold add32; omega
  refine ⟨⟨by simp [consume, ha]; omega, h2, h3, h4, h5⟩, ?_⟩
  simp only [unread, consume, ha]
  rw [List.drop_take, List.drop_drop]
  congr 1; omega

/-- C38: a new buffer is empty. -/
theorem C38_init (size : Nat) (hz : size < 2^32) (alloc : Option Bytes)
    (ha : ∀ m, alloc = some m → m.length = size) :
    match bufferInit size alloc with
    | (none, some b) => Ok b ∧ unread b = [] ∧ size ≤ b.bufferSz
    | (some e, none) => e = .memory ∧ alloc = none
    | _ => False := by
  unfold bufferInit
  simp only [STATIC_BUFFER_LEN]
  by_cases h : size ≤ 16
  · simp only [h, if_true, Nat.lt_irrefl, if_false, gt_iff_lt]
    exact ⟨⟨by simp, by simp, by simp, by simp, by simp⟩, by simp [unread], trivial⟩
  · simp only [h, if_false]
    rw [if_pos (by omega)]
    cases alloc with
    | none => simp
    | some m =>
      have := ha m rfl
      exact ⟨⟨by simp, by simp, by simpa using this, by simpa using hz, by simp⟩, by simp [unread],
        Nat.le_refl _⟩

/-- C38, what `GrowBuffer` does not check: a size that wraps gives a buffer without the room asked
for, reported as success. -/
theorem C38_grow_wrap_witness :
    ∃ b, Ok b ∧ growBuffer (fun _ => none) b 4294967295 = some (none, b) ∧ b.length ≠ 0 :=
  ⟨⟨List.replicate 16 7, 16, 8, 0, false⟩, ⟨by simp, by simp, by simp, by simp, by simp⟩, by decide, by decide⟩

/-- C38, `ShrinkBuffer` on the inline buffer with fewer bytes consumed than left copies overlapping
memory with `memcpy`. No caller does that: they shrink drained or heap buffers. -/
theorem C38_shrink_overlap_witness :
    ∃ b, Ok b ∧ shrinkBuffer (List.replicate 16 0) b false = none :=
  ⟨⟨List.replicate 16 7, 16, 8, 1, false⟩, ⟨by simp, by simp, by simp, by simp, by simp⟩, by decide⟩

/-- A heap buffer with 3 unread bytes of 20 meets the hypotheses; one append fits, one grows. -/
example :
    let b : Buf := ⟨List.replicate 17 0 ++ [1, 2, 3], 20, 20, 17, true⟩
    Ok b ∧ unread b = [1, 2, 3] ∧
    (appendBuffer (fun n => some (List.replicate n 0)) b [4, 5]).map (fun r => unread r.2) = some [1, 2, 3, 4, 5] ∧
    (appendBuffer (fun n => some (List.replicate n 0)) b (List.replicate 18 9)).map
      (fun r => (r.2.bufferSz, unread r.2)) = some (40, [1, 2, 3] ++ List.replicate 18 9) :=
  ⟨⟨by simp, by simp, by simp, by simp, by simp⟩, by decide, by decide, by decide⟩

end Props.Buffer
