import Verif.Model.ScpMsg
import Verif.Spec.Scp
/-!
# Parsing of SCP messages
-/

namespace Proofs.Scp
open Wolf Wolf.Buffer Wolf.Path Wolf.Scp Spec.Scp

theorem getElem?_take_drop (mem : Bytes) (sz idx : Nat) (h : sz ≤ mem.length) (hi : idx < sz) :
    ∃ b, mem[idx]? = some b ∧ (mem.take sz).drop idx = b :: (mem.take sz).drop (idx + 1) := by
  have hl : idx < mem.length := by omega
  refine ⟨mem[idx], List.getElem?_eq_getElem hl, ?_⟩
  rw [List.drop_eq_getElem_cons (by simp; omega)]
  simp

/-- Searching a space is searching it in the window. -/
theorem findSpace_eq (mem : Bytes) (sz : Nat) (h : sz ≤ mem.length) : ∀ n idx, n = sz - idx →
    findSpace mem n idx = some (if 32 ∈ (mem.take sz).drop idx then
      some (idx + (((mem.take sz).drop idx).takeWhile (· ≠ 32)).length) else none) := by
  intro n
  induction n with
  | zero =>
    intro idx e
    have : (mem.take sz).drop idx = [] := by simp; omega
    simp [findSpace, this]
  | succ n ih =>
    intro idx e
    obtain ⟨b, hb, hd⟩ := getElem?_take_drop mem sz idx h (by omega)
    rw [findSpace, hb]
    simp only []
    rw [hd]
    by_cases h32 : b = 32
    · subst h32; simp
    · rw [if_neg h32, ih (idx + 1) (by omega)]
      have h2 : ¬ (32 : Byte) = b := fun e => h32 e.symm
      by_cases hm : 32 ∈ (mem.take sz).drop (idx + 1)
      · rw [if_pos hm, if_pos (by simp [hm]), List.takeWhile_cons_of_pos (by simpa using h32)]
        congr 2; simp; omega
      · rw [if_neg hm, if_neg (by simp [hm, h2])]

theorem findSpaceIn_eq (mem : Bytes) (sz idx : Nat) (h : sz ≤ mem.length) :
    findSpaceIn mem sz idx = some (if 32 ∈ (mem.take sz).drop idx then
      some (idx + (((mem.take sz).drop idx).takeWhile (· ≠ 32)).length) else none) :=
  findSpace_eq mem sz h _ idx rfl

/-- The value of digits read so far. -/
abbrev val10 (v : Nat) (f : Bytes) : Nat := f.foldl (fun v b => v * 10 + (b.toNat - 48)) v

theorem val10_ge (f : Bytes) : ∀ v, v ≤ val10 v f := by
  induction f with
  | nil => intro v; exact Nat.le_refl v
  | cons b f ih =>
    intro v
    show v ≤ val10 (v * 10 + (b.toNat - 48)) f
    have := ih (v * 10 + (b.toNat - 48))
    omega

theorem uintLoop_eq (max : Nat) (f : Bytes) : ∀ v, v ≤ max →
    uintLoop max v f = if (∀ b ∈ f, 48 ≤ b ∧ b ≤ 57) ∧ val10 v f ≤ max then some (val10 v f) else none := by
  induction f with
  | nil => intro v h; simp [uintLoop, val10, h]
  | cons b f ih =>
    intro v h
    have hv : val10 v (b :: f) = val10 (v * 10 + (b.toNat - 48)) f := rfl
    rw [uintLoop, hv]
    by_cases hb : b < 48 ∨ b > 57
    · rw [if_pos hb, if_neg]
      intro ⟨hh, _⟩
      have := hh b (by simp)
      rcases hb with hb | hb
      · exact absurd this.1 (by simpa using hb)
      · exact absurd this.2 (by simpa using hb)
    · have hd : 48 ≤ b ∧ b ≤ 57 := by
        constructor
        · exact UInt8.not_lt.mp (fun x => hb (Or.inl x))
        · exact UInt8.not_lt.mp (fun x => hb (Or.inr x))
      rw [if_neg hb]
      simp only []
      have hge := val10_ge f (v * 10 + (b.toNat - 48))
      by_cases ho : b.toNat - 48 > max ∨ v > (max - (b.toNat - 48)) / 10
      · rw [if_pos ho, if_neg]
        intro ⟨_, hm⟩
        omega
      · rw [if_neg ho, ih _ (by omega)]
        simp only [List.mem_cons, forall_eq_or_imp, hd, true_and, and_self]

theorem uintLoop_some (max : Nat) (f : Bytes) (r : Nat) (hf : f ≠ []) :
    uintLoop max 0 f = some r ↔ Decimal f r ∧ r ≤ max := by
  rw [uintLoop_eq max f 0 (Nat.zero_le _)]
  unfold Decimal number
  constructor
  · intro h
    split at h
    · rename_i hh
      cases h
      exact ⟨⟨hf, hh.1, rfl⟩, hh.2⟩
    · cases h
  · rintro ⟨⟨_, h1, h2⟩, h3⟩
    subst h2
    rw [if_pos ⟨h1, h3⟩]

theorem read_window (mem : Bytes) (sz idx n : Nat) (h : sz ≤ mem.length) (hn : idx + n ≤ sz) :
    read mem idx n = some (((mem.take sz).drop idx).take n) := by
  unfold Buffer.read
  rw [if_pos (by omega)]
  congr 1
  rw [List.drop_take, List.take_take]
  congr 1; omega

theorem takeWhile_len (p : Byte → Bool) (l : Bytes) : l.take (l.takeWhile p).length = l.takeWhile p := by
  induction l with
  | nil => rfl
  | cons b l ih => by_cases hb : p b <;> simp [List.takeWhile_cons, hb, ih]

theorem not_mem_takeWhile (c : Byte) (l : Bytes) : c ∉ l.takeWhile (· ≠ c) := by
  induction l with
  | nil => simp
  | cons b l ih =>
    by_cases hb : b = c
    · simp [hb]
    · rw [List.takeWhile_cons_of_pos (by simpa using hb)]
      simp only [List.mem_cons, not_or]
      exact ⟨fun e => hb e.symm, ih⟩

theorem takeWhile_le (p : Byte → Bool) (l : Bytes) : (l.takeWhile p).length ≤ l.length :=
  (List.takeWhile_prefix p).length_le

/-- A number ended by a space, in the window from `idx` to `sz`. -/
theorem field_eq (mem : Bytes) (sz idx max : Nat) (h : sz ≤ mem.length) (w : Bytes) (hw : (mem.take sz).drop idx = w) :
    (match findSpaceIn mem sz idx with
      | none => none
      | some none => some none
      | some (some sp) => (parseUInt mem idx (sp - idx) max).map fun r => r.map fun v => (v, sp)) =
    some (if 32 ∈ w ∧ w.takeWhile (· ≠ 32) ≠ [] then
      (uintLoop max 0 (w.takeWhile (· ≠ 32))).map fun v => (v, idx + (w.takeWhile (· ≠ 32)).length) else none) := by
  rw [findSpaceIn_eq mem sz idx h, hw]
  by_cases hm : 32 ∈ w
  · rw [if_pos hm]
    simp only [Nat.add_sub_cancel_left]
    unfold parseUInt
    by_cases h0 : w.takeWhile (· ≠ 32) = []
    · rw [h0]; simp
    · rw [if_neg (by simpa using h0), if_pos ⟨hm, h0⟩]
      have hl : idx + w.length ≤ sz ∨ w = [] := by
        by_cases hi : idx ≤ sz
        · left; rw [← hw]; simp; omega
        · right; rw [← hw]; simp; omega
      rcases hl with hl | hl
      · have : (w.takeWhile (· ≠ 32)).length ≤ w.length := takeWhile_le _ w
        rw [read_window mem sz idx _ h (by omega), hw, takeWhile_len]
        simp
      · subst hl; simp at hm
  · rw [if_neg hm, if_neg (fun x => hm x.1)]


/-! ## The mode -/

theorem octDigits_eq (f : Bytes) : ∀ v, octDigits v f =
    if ∀ b ∈ f, 48 ≤ b ∧ b ≤ 55 then some (f.foldl (fun v b => v * 8 + (b.toNat - 48)) v) else none := by
  induction f with
  | nil => intro v; simp [octDigits]
  | cons b f ih =>
    intro v
    rw [octDigits]
    by_cases hb : b < 48 ∨ b > 55
    · rw [if_pos hb, if_neg]
      intro hh
      have := hh b (by simp)
      rcases hb with hb | hb
      · exact absurd this.1 (by simpa using hb)
      · exact absurd this.2 (by simpa using hb)
    · have hd : 48 ≤ b ∧ b ≤ 55 := by
        constructor
        · exact UInt8.not_lt.mp (fun x => hb (Or.inl x))
        · exact UInt8.not_lt.mp (fun x => hb (Or.inr x))
      rw [if_neg hb, ih]
      simp only [List.mem_cons, forall_eq_or_imp, hd, true_and, and_self, List.foldl_cons]

theorem octDigits_some (f : Bytes) (r : Nat) (h4 : f.length = 4) : octDigits 0 f = some r ↔ Octal4 f r := by
  rw [octDigits_eq]
  unfold Octal4 number
  constructor
  · intro h
    split at h
    · rename_i hh; cases h; exact ⟨h4, hh, rfl⟩
    · cases h
  · rintro ⟨_, h1, h2⟩
    subst h2
    rw [if_pos h1]

/-- The buffer behind a message. -/
abbrev image (m old : Bytes) : Bytes := m ++ [0] ++ old

theorem image_take (m old : Bytes) : (image m old).take (m.length + 1) = m ++ [0] := by
  have : m.length + 1 = (m ++ [0]).length := by simp
  rw [this]; exact List.take_left' rfl

theorem image_len (m old : Bytes) : m.length + 1 ≤ (image m old).length := by simp

theorem image_drop (m old : Bytes) (i : Nat) (h : i ≤ m.length) : (image m old).drop i = m.drop i ++ [0] ++ old := by
  unfold image
  rw [List.append_assoc, List.drop_append_of_le_length h, List.append_assoc]

/-- The mode never makes a memory error; it is accepted exactly if four octal digits follow the letter. -/
theorem getMode_eq (m old : Bytes) : getMode (image m old) (m.length + 1) 0 =
    some (match m with
      | c :: a :: b :: d :: e :: t =>
        if c ≠ 67 ∧ c ≠ 68 then .error .badArgument
        else match octDigits 0 [a, b, d, e] with
          | none => .error .badArgument
          | some v => .ok (v % 512, 6)
      | _ => .error .badArgument) := by
  unfold getMode
  by_cases h4 : m.length + 1 < OCTET_LEN + 1
  · rw [if_pos h4]
    match m, h4 with
    | [], _ => rfl
    | [_], _ => rfl
    | [_, _], _ => rfl
    | [_, _, _], _ => rfl
    | _ :: _ :: _ :: _ :: t, h => simp [OCTET_LEN] at h; omega
  · rw [if_neg h4]
    match m, h4 with
    | [], h => simp [OCTET_LEN] at h
    | [_], h => simp [OCTET_LEN] at h
    | [_, _], h => simp [OCTET_LEN] at h
    | [_, _, _], h => simp [OCTET_LEN] at h
    | [c, a, b, d], _ =>
      have e0 : (image [c, a, b, d] old)[0]? = some c := rfl
      have e1 : read (image [c, a, b, d] old) (0 + 1) OCTET_LEN = some [a, b, d, 0] := by
        rw [read_window (image [c, a, b, d] old) 5 _ _ (by simp) (by simp [OCTET_LEN])]; rfl
      simp only [e0, e1]
      by_cases hc : (c ≠ 67 ∧ c ≠ 68) ∨ 0 + 1 > [c, a, b, d].length + 1
      · rw [if_pos hc]
      · rw [if_neg hc]
        have : octDigits 0 [a, b, d, 0] = none := by
          rw [octDigits_eq, if_neg]
          intro h
          have := (h 0 (by simp)).1
          exact absurd this (by decide)
        rw [this]
    | c :: a :: b :: d :: e :: t, _ =>
      have e0 : (image (c :: a :: b :: d :: e :: t) old)[0]? = some c := rfl
      have e1 : read (image (c :: a :: b :: d :: e :: t) old) (0 + 1) OCTET_LEN = some [a, b, d, e] := by
        rw [read_window _ _ _ _ (image_len _ _) (by simp [OCTET_LEN]), image_take]; rfl
      simp only [e0, e1]
      by_cases hc : c ≠ 67 ∧ c ≠ 68
      · rw [if_pos (Or.inl hc), if_pos hc]
      · rw [if_neg hc, if_neg]
        · cases octDigits 0 [a, b, d, e] with
          | none => rfl
          | some v => simp [OCTET_LEN, maskMode]
        · rintro (h | h)
          · exact hc h
          · simp at h

/-! ## The size -/

/-- What stands in front of the first space. -/
abbrev word (w : Bytes) : Bytes := w.takeWhile (· ≠ 32)

theorem word_append (w t : Bytes) (h : 32 ∈ w) : word (w ++ t) = word w := by
  unfold word
  rw [List.takeWhile_append, if_neg]
  intro hl
  have : w.takeWhile (· ≠ 32) = w := (List.takeWhile_prefix _).eq_of_length hl
  rw [← this] at h
  exact not_mem_takeWhile 32 _ h

theorem word_lt (w : Bytes) (h : 32 ∈ w) : (word w).length < w.length := by
  rcases Nat.lt_or_ge (word w).length w.length with h' | h'
  · exact h'
  · exfalso
    have : word w = w := (List.takeWhile_prefix _).eq_of_length (Nat.le_antisymm (List.takeWhile_prefix _).length_le h')
    rw [← this] at h
    exact not_mem_takeWhile 32 _ h

/-- The search in the buffer of a message. -/
theorem findSpace_image (m old : Bytes) (i : Nat) (hi : i ≤ m.length) :
    findSpaceIn (image m old) (m.length + 1) i =
      some (if 32 ∈ m.drop i then some (i + (word (m.drop i)).length) else none) := by
  have hw : ((image m old).take (m.length + 1)).drop i = m.drop i ++ [0] := by
    rw [image_take, List.drop_append_of_le_length hi]
  rw [findSpaceIn_eq _ _ _ (image_len _ _), hw]
  by_cases h : 32 ∈ m.drop i
  · have hwa : (m.drop i ++ [0]).takeWhile (· ≠ 32) = (m.drop i).takeWhile (· ≠ 32) := word_append _ _ h
    rw [if_pos (by simp [h]), if_pos h, hwa]
  · rw [if_neg (by simp [h]), if_neg h]

/-- A number in the buffer of a message. -/
theorem parse_image (m old : Bytes) (i n max : Nat) (hn : i + n ≤ m.length) :
    parseUInt (image m old) i n max =
      some (if n = 0 then none else uintLoop max 0 ((m.drop i).take n)) := by
  unfold parseUInt
  by_cases h0 : n = 0
  · rw [if_pos h0, if_pos h0]
  · rw [if_neg h0, if_neg h0, read_window _ (m.length + 1) _ _ (image_len _ _) (by omega), image_take,
      List.drop_append_of_le_length (by omega), List.take_append_of_le_length (by simp; omega)]

theorem getSize_eq (m old : Bytes) (i : Nat) (hi : i ≤ m.length) :
    getSize (image m old) (m.length + 1) i =
    some (if 32 ∈ m.drop i ∧ word (m.drop i) ≠ [] then
      match uintLoop 4294967295 0 (word (m.drop i)) with
      | none => .error .scpBadMsg
      | some v => .ok (v, i + (word (m.drop i)).length + 1)
    else .error .scpBadMsg) := by
  unfold getSize
  rw [findSpace_image m old i hi]
  by_cases h : 32 ∈ m.drop i
  · have hlt := word_lt _ h
    simp only [List.length_drop] at hlt
    have hif : (if m.length + 1 ≥ i + (word (m.drop i)).length + 1 then i + (word (m.drop i)).length + 1
        else i + (word (m.drop i)).length) = i + (word (m.drop i)).length + 1 := if_pos (by omega)
    have htk : (m.drop i).take (word (m.drop i)).length = word (m.drop i) := takeWhile_len _ _
    rw [if_pos h]
    simp only [Nat.add_sub_cancel_left, parse_image m old i _ _ (show i + (word (m.drop i)).length ≤ m.length by omega), hif, htk]
    by_cases h0 : word (m.drop i) = []
    · rw [if_pos (by rw [h0]; rfl), if_neg (fun x => x.2 h0)]
    · rw [if_neg (by simpa using h0), if_pos ⟨h, h0⟩]
      cases uintLoop 4294967295 0 (word (m.drop i)) <;> rfl
  · rw [if_neg h, if_neg (fun x => h x.1)]

/-! ## The name -/

theorem getName_eq (m old : Bytes) (i : Nat) (hi : i ≤ m.length) :
    getName (image m old) (m.length + 1) i =
    some (if badName ((m.drop i).takeWhile (· ≠ 0)) then .error .scpBadMsg
      else .ok ((m.drop i).takeWhile (· ≠ 0))) := by
  unfold getName strlen
  rw [image_drop m old i hi, if_pos (by simp)]
  have htw : (m.drop i ++ [0] ++ old).takeWhile (· ≠ 0) = (m.drop i).takeWhile (· ≠ 0) := by
    rw [List.append_assoc, List.takeWhile_append]
    split
    · rename_i h
      have : (m.drop i).takeWhile (· ≠ 0) = m.drop i := (List.takeWhile_prefix _).eq_of_length h
      rw [this]; simp
    · rfl
  rw [htw]
  have hle : ((m.drop i).takeWhile (· ≠ 0)).length ≤ (m.drop i).length := takeWhile_le _ _
  simp only [List.length_drop] at hle
  have hr : read (image m old) i ((m.drop i).takeWhile (· ≠ 0)).length = some ((m.drop i).takeWhile (· ≠ 0)) := by
    rw [read_window _ (m.length + 1) _ _ (image_len _ _) (by omega), image_take, List.drop_append_of_le_length hi,
      List.take_append_of_le_length (by simp only [List.length_drop]; omega)]
    exact congrArg some (takeWhile_len _ _)
  simp only []
  rw [if_neg (by omega), hr]
  simp only []
  split <;> rfl

theorem badName_iff (n : Bytes) (h0 : 0 ∉ n) : badName n = false ↔ Plain n := by
  unfold badName Plain
  constructor
  · intro h
    simp only [Bool.or_eq_false_iff, Bool.and_eq_false_imp, decide_eq_false_iff_not, decide_eq_true_eq,
      List.any_eq_false, Bool.or_eq_true, Bool.and_eq_true, not_or] at h
    obtain ⟨⟨⟨h1, h2⟩, h3⟩, h4⟩ := h
    refine ⟨fun e => h1 (by rw [e]; rfl), fun e => h2 (by rw [e]; rfl) (by rw [e]; rfl), ?_, ?_, ?_, h0⟩
    · intro e; exact absurd (h3 ⟨by rw [e]; rfl, by rw [e]; rfl⟩) (by rw [e]; simp)
    · intro e; exact (h4 47 e).1 rfl
    · intro e; exact (h4 92 e).2 rfl
  · rintro ⟨h1, h2, h3, h4, h5, _⟩
    simp only [Bool.or_eq_false_iff, Bool.and_eq_false_imp, decide_eq_false_iff_not, decide_eq_true_eq,
      List.any_eq_false, Bool.or_eq_true, Bool.and_eq_true, not_or]
    refine ⟨⟨⟨by simpa using h1, ?_⟩, ?_⟩, ?_⟩
    · intro hl h
      match n, hl, h with
      | [x], _, h => simp at h; exact h2 (by rw [h])
    · rintro ⟨hl, ha⟩ hb
      match n, hl, ha, hb with
      | [x, y], _, ha, hb => simp at ha hb; exact h3 (by rw [ha, hb])
    · intro c hc
      exact ⟨fun e => h4 (e ▸ hc), fun e => h5 (e ▸ hc)⟩


/-! ## Entries -/

theorem word_split (w : Bytes) (h : 32 ∈ w) : ∃ t, w = word w ++ [32] ++ t := by
  induction w with
  | nil => simp at h
  | cons b w ih =>
    by_cases hb : b = 32
    · subst hb; exact ⟨w, by simp [word]⟩
    · obtain ⟨t, ht⟩ := ih (by simpa [Ne.symm hb] using h)
      refine ⟨t, ?_⟩
      have : word (b :: w) = b :: word w := List.takeWhile_cons_of_pos (by simpa using hb)
      rw [this]; simp only [List.cons_append]; rw [← ht]

theorem word_of (d t : Bytes) (h : 32 ∉ d) : word (d ++ [32] ++ t) = d := by
  induction d with
  | nil => simp [word]
  | cons b d ih =>
    simp only [List.mem_cons, not_or] at h
    have : word (b :: d ++ [32] ++ t) = b :: word (d ++ [32] ++ t) :=
      List.takeWhile_cons_of_pos (by simpa using fun e => h.1 e.symm)
    rw [this, ih h.2]

theorem upto0 (n rest : Bytes) (h : 0 ∉ n) (hr : rest = [] ∨ rest.head? = some 0) :
    (n ++ rest).takeWhile (· ≠ 0) = n := by
  induction n with
  | nil =>
    rcases hr with hr | hr
    · simp [hr]
    · cases rest with
      | nil => simp at hr
      | cons c r => simp at hr; simp [hr]
  | cons b n ih =>
    simp only [List.mem_cons, not_or] at h
    rw [List.cons_append, List.takeWhile_cons_of_pos (by simpa using fun e => h.1 e.symm), ih h.2]

theorem upto0_split (t : Bytes) : ∃ rest, t = t.takeWhile (· ≠ 0) ++ rest ∧ (rest = [] ∨ rest.head? = some 0) := by
  induction t with
  | nil => exact ⟨[], rfl, Or.inl rfl⟩
  | cons b t ih =>
    by_cases hb : b = 0
    · subst hb; exact ⟨0 :: t, by simp, Or.inr rfl⟩
    · obtain ⟨r, hr, hh⟩ := ih
      refine ⟨r, ?_, hh⟩
      rw [List.takeWhile_cons_of_pos (by simpa using hb), List.cons_append, ← hr]

theorem decimal_nospace {d : Bytes} {v : Nat} (h : Decimal d v) : 32 ∉ d := by
  intro hm
  exact absurd (h.2.1 32 hm).1 (by decide)

/-- Mode and size of an entry. -/
theorem getEntry_total (rename : Bool) (m old : Bytes) : ∃ r, getEntry rename (image m old) (m.length + 1) = some r := by
  unfold getEntry
  rw [getMode_eq]
  match m with
  | [] => exact ⟨_, rfl⟩
  | [_] => exact ⟨_, rfl⟩
  | [_, _] => exact ⟨_, rfl⟩
  | [_, _, _] => exact ⟨_, rfl⟩
  | [_, _, _, _] => exact ⟨_, rfl⟩
  | c :: a :: b :: d :: e :: t =>
    simp only []
    by_cases hc : c ≠ 67 ∧ c ≠ 68
    · rw [if_pos hc]; exact ⟨_, rfl⟩
    · rw [if_neg hc]
      cases octDigits 0 [a, b, d, e] with
      | none => exact ⟨_, rfl⟩
      | some v =>
        simp only []
        cases t with
        | nil =>
          have : getSize (image [c, a, b, d, e] old) ([c, a, b, d, e].length + 1) 6 = some (.error .scpBadMsg) := rfl
          rw [this]; exact ⟨_, rfl⟩
        | cons x t =>
          have hl : 6 ≤ (c :: a :: b :: d :: e :: x :: t).length := by simp only [List.length_cons]; omega
          rw [getSize_eq _ old 6 hl]
          by_cases hs : 32 ∈ (c :: a :: b :: d :: e :: x :: t).drop 6 ∧ word ((c :: a :: b :: d :: e :: x :: t).drop 6) ≠ []
          · rw [if_pos hs]
            cases uintLoop 4294967295 0 (word ((c :: a :: b :: d :: e :: x :: t).drop 6)) with
            | none => exact ⟨_, rfl⟩
            | some n =>
              simp only []
              cases rename with
              | true => exact ⟨_, rfl⟩
              | false =>
                have hlt := word_lt _ hs.1
                simp only [List.length_drop] at hlt
                rw [getName_eq _ old _ (by omega)]
                simp only [Bool.false_eq_true, if_false]
                cases badName (((c :: a :: b :: d :: e :: x :: t).drop (6 + (word ((c :: a :: b :: d :: e :: x :: t).drop 6)).length + 1)).takeWhile (· ≠ 0)) with
                | true => exact ⟨_, rfl⟩
                | false => exact ⟨_, rfl⟩
          · rw [if_neg hs]; exact ⟨_, rfl⟩

/-- What is accepted for an entry, exactly. -/
theorem getEntry_iff (m old : Bytes) (mode size : Nat) (name : Bytes) :
    getEntry false (image m old) (m.length + 1) = some (.ok (mode, size, some name)) ↔
      Announces 67 m mode size name ∨ Announces 68 m mode size name := by
  constructor
  · intro h
    unfold getEntry at h
    rw [getMode_eq] at h
    match m, h with
    | [], h => cases h
    | [_], h => cases h
    | [_, _], h => cases h
    | [_, _, _], h => cases h
    | [_, _, _, _], h => cases h
    | c :: a :: b :: d :: e :: t, h =>
      simp only [] at h
      by_cases hc : c ≠ 67 ∧ c ≠ 68
      · rw [if_pos hc] at h; cases h
      · rw [if_neg hc] at h
        cases ho : octDigits 0 [a, b, d, e] with
        | none => rw [ho] at h; cases h
        | some v =>
          rw [ho] at h
          simp only [] at h
          have hov := (octDigits_some [a, b, d, e] v rfl).mp ho
          cases t with
          | nil =>
            have : getSize (image [c, a, b, d, e] old) ([c, a, b, d, e].length + 1) 6 = some (.error .scpBadMsg) := rfl
            rw [this] at h; cases h
          | cons x t =>
            have hl : 6 ≤ (c :: a :: b :: d :: e :: x :: t).length := by simp only [List.length_cons]; omega
            have hdrop : (c :: a :: b :: d :: e :: x :: t).drop 6 = t := rfl
            rw [getSize_eq _ old 6 hl, hdrop] at h
            by_cases hs : 32 ∈ t ∧ word t ≠ []
            · rw [if_pos hs] at h
              cases hu : uintLoop 4294967295 0 (word t) with
              | none => rw [hu] at h; cases h
              | some n =>
                rw [hu] at h
                simp only [] at h
                have hdec := (uintLoop_some _ _ n hs.2).mp hu
                have hlt := word_lt _ hs.1
                obtain ⟨u, hu2⟩ := word_split t hs.1
                rw [getName_eq _ old _ (by simp only [List.length_cons]; omega)] at h
                have hd2 : (c :: a :: b :: d :: e :: x :: t).drop (6 + (word t).length + 1) = u := by
                  have : (c :: a :: b :: d :: e :: x :: t).drop (6 + (word t).length + 1) = t.drop ((word t).length + 1) := by
                    rw [show 6 + (word t).length + 1 = (word t).length + 1 + 6 by omega]; rfl
                  rw [this]
                  have h1 : (word t).length + 1 = (word t ++ [32]).length := by simp
                  rw [h1]
                  have h2 := congrArg (List.drop (word t ++ [32]).length) hu2
                  exact h2.trans (List.drop_left' rfl)
                rw [hd2] at h
                simp only [Bool.false_eq_true, if_false] at h
                have h0 : 0 ∉ u.takeWhile (· ≠ 0) := not_mem_takeWhile 0 u
                cases hb : badName (u.takeWhile (· ≠ 0)) with
                | true => rw [hb] at h; cases h
                | false =>
                  rw [hb] at h
                  simp only [Bool.false_eq_true, if_false, Option.some.injEq, Except.ok.injEq, Prod.mk.injEq] at h
                  obtain ⟨hm, hn, hnm⟩ := h
                  have hp := (badName_iff _ h0).mp hb
                  obtain ⟨rest, hr1, hr2⟩ := upto0_split u
                  rw [hnm] at hp hr1
                  have key : ∀ l, c = l → Announces l (c :: a :: b :: d :: e :: x :: t) mode size name := by
                    intro l hcl
                    subst hcl
                    refine ⟨[a, b, d, e], x, word t, rest, v, ?_, hov, hm.symm, hn ▸ hdec.1, by have := hdec.2; omega, hp, hr2⟩
                    have h2 : t = word t ++ [32] ++ (name ++ rest) := by rw [← hr1]; exact hu2
                    have h3 := congrArg (fun z => c :: a :: b :: d :: e :: x :: z) h2
                    exact h3.trans (by simp)
                  by_cases h67 : c = 67
                  · left; exact key 67 h67
                  · right; exact key 68 (by
                      rcases Decidable.em (c = 68) with h | h
                      · exact h
                      · exact absurd ⟨h67, h⟩ hc)
            · rw [if_neg hs] at h; cases h
  · intro h
    have key : ∀ l : Byte, l = 67 ∨ l = 68 → Announces l m mode size name →
        getEntry false (image m old) (m.length + 1) = some (.ok (mode, size, some name)) := by
      rintro l hl ⟨o, sp, d, rest, v, hm, ho, hmode, hd, hsz, hp, hr⟩
      match o, ho with
      | [a, b, c, e], ho =>
        have hov := (octDigits_some [a, b, c, e] v rfl).mpr ho
        have hnc : ¬ (l ≠ 67 ∧ l ≠ 68) := by rintro ⟨h1, h2⟩; rcases hl with h | h; exact h1 h; exact h2 h
        have hm' : m = l :: a :: b :: c :: e :: sp :: (d ++ [32] ++ (name ++ rest)) := by rw [hm]; simp
        unfold getEntry
        rw [getMode_eq, hm']
        simp only []
        rw [if_neg hnc, hov]
        simp only []
        have hw := word_of d (name ++ rest) (decimal_nospace hd)
        have hdrop : (l :: a :: b :: c :: e :: sp :: (d ++ [32] ++ (name ++ rest))).drop 6 = d ++ [32] ++ (name ++ rest) := rfl
        have hu := (uintLoop_some 4294967295 d size hd.1).mpr ⟨hd, by omega⟩
        rw [getSize_eq _ old 6 (by simp only [List.length_cons]; omega), hdrop, hw, if_pos ⟨by simp, hd.1⟩, hu]
        simp only []
        rw [getName_eq _ old _ (by simp only [List.length_cons, List.length_append]; omega)]
        have hd2 : (l :: a :: b :: c :: e :: sp :: (d ++ [32] ++ (name ++ rest))).drop (6 + d.length + 1) = name ++ rest := by
          rw [show 6 + d.length + 1 = (d ++ [32]).length + 6 by simp; omega]
          show (d ++ [32] ++ (name ++ rest)).drop (d ++ [32]).length = _
          exact List.drop_left' rfl
        rw [hd2, upto0 name rest hp.2.2.2.2.2 hr, (badName_iff name hp.2.2.2.2.2).mpr hp, hmode]
        rfl
    rcases h with h | h
    · exact key 67 (Or.inl rfl) h
    · exact key 68 (Or.inr rfl) h


/-! ## Times -/

theorem getTimeField_eq (m old : Bytes) (from_ i : Nat) (hi : i ≤ m.length)
    (hf : findSpaceIn (image m old) (m.length + 1) from_ =
      some (if 32 ∈ m.drop i then some (i + (word (m.drop i)).length) else none)) :
    getTimeField (image m old) (m.length + 1) from_ i =
    some (if 32 ∈ m.drop i ∧ word (m.drop i) ≠ [] then
      match uintLoop 18446744073709551615 0 (word (m.drop i)) with
      | none => .error .scpTimestamp
      | some v => .ok (v, i + (word (m.drop i)).length + 1)
    else .error .scpTimestamp) := by
  unfold getTimeField
  rw [hf]
  by_cases h : 32 ∈ m.drop i
  · have hlt := word_lt _ h
    simp only [List.length_drop] at hlt
    have hif : i + (word (m.drop i)).length + 1 < m.length + 1 := by omega
    have htk : (m.drop i).take (word (m.drop i)).length = word (m.drop i) := takeWhile_len _ _
    rw [if_pos h]
    simp only [Nat.add_sub_cancel_left, parse_image m old i _ _ (show i + (word (m.drop i)).length ≤ m.length by omega), hif, htk,
      if_true]
    by_cases h0 : word (m.drop i) = []
    · rw [if_pos (by rw [h0]; rfl), if_neg (fun x => x.2 h0)]
    · rw [if_neg (by simpa using h0), if_pos ⟨h, h0⟩]
      cases uintLoop 18446744073709551615 0 (word (m.drop i)) <;> rfl
  · rw [if_neg h, if_neg (fun x => h x.1)]

theorem image_get (m old : Bytes) (i : Nat) (hi : i ≤ m.length) :
    (image m old)[i]? = some ((m.drop i).headD 0) := by
  have h := image_drop m old i hi
  have h1 : (image m old)[i]? = ((image m old).drop i)[0]? := by rw [List.getElem?_drop]; simp
  rw [h1, h]
  cases m.drop i <;> rfl

/-- What follows a "0 ". -/
def zeroSp (k : Nat) : Bytes → Except Err Nat
  | 48 :: 32 :: _ => .ok (k + 2)
  | _ => .error .scpTimestamp

theorem zeroSp_bad (k : Nat) (u : Bytes) (h : ¬ ∃ x, u = 48 :: 32 :: x) : zeroSp k u = .error .scpTimestamp := by
  unfold zeroSp
  split
  · rename_i x; exact absurd ⟨x, rfl⟩ h
  · rfl

theorem skipZero_eq (m old : Bytes) (i : Nat) (hi : i ≤ m.length) :
    skipZero (image m old) (m.length + 1) i = some (zeroSp i (m.drop i)) := by
  unfold skipZero
  rw [image_get m old i hi]
  by_cases hz : ∃ x, m.drop i = 48 :: 32 :: x
  · obtain ⟨x, hx⟩ := hz
    have hl := congrArg List.length hx
    simp only [List.length_drop, List.length_cons] at hl
    have h1 : m.drop (i + 1) = 32 :: x := by
      have : m.drop (i + 1) = (m.drop i).drop 1 := by rw [List.drop_drop]
      rw [this, hx]; rfl
    rw [hx, image_get m old (i + 1) (by omega), h1]
    have h2 : ¬ (m.length + 1 ≤ i + 1) := by omega
    have h3 : ¬ (m.length + 1 ≤ i + 2) := by omega
    simp [zeroSp, h2, h3]
  · rw [zeroSp_bad _ _ hz]
    cases hd : m.drop i with
    | nil => simp
    | cons b t =>
      have hl := congrArg List.length hd
      simp only [List.length_drop, List.length_cons] at hl
      have h1 : m.drop (i + 1) = t := by
        have : m.drop (i + 1) = (m.drop i).drop 1 := by rw [List.drop_drop]
        rw [this, hd]; rfl
      rw [image_get m old (i + 1) (by omega), h1]
      by_cases hb : b = 48
      · subst hb
        cases t with
        | nil => simp
        | cons c t =>
          have hc : c ≠ 32 := fun h => hz ⟨t, by rw [hd, h]⟩
          simp [hc]
      · simp [hb]

theorem findSpace_T (t old : Bytes) : findSpaceIn (image (84 :: t) old) ((84 :: t).length + 1) 0 =
    some (if 32 ∈ (84 :: t).drop 1 then some (1 + (word ((84 :: t).drop 1)).length) else none) := by
  rw [findSpace_image _ _ _ (by simp)]
  simp only [List.drop_zero, List.drop_succ_cons, List.mem_cons]
  have : word (84 :: t) = 84 :: word t := List.takeWhile_cons_of_pos (by decide)
  rw [this]
  have h : ((32 : Byte) = 84 ∨ 32 ∈ t) ↔ 32 ∈ t := by
    constructor
    · rintro (h | h)
      · exact absurd h (by decide)
      · exact h
    · exact Or.inr
  by_cases hm : 32 ∈ t
  · rw [if_pos (h.mpr hm), if_pos hm]; simp; omega
  · rw [if_neg (fun x => hm (h.mp x)), if_neg hm]

/-- The result for a message that begins with `T`. -/
theorem getTimes_T (t old : Bytes) : ∃ r, getTimes (image (84 :: t) old) ((84 :: t).length + 1) 0 = some r ∧
    ∀ mt at_, r = .ok (mt, at_) ↔ Times (84 :: t) mt at_ := by
  have e0 : (image (84 :: t) old)[0]? = some 84 := rfl
  unfold getTimes
  simp only [e0]
  rw [if_neg (by simp), getTimeField_eq _ old 0 1 (by simp) (findSpace_T t old)]
  simp only [List.drop_succ_cons, List.drop_zero]
  -- the three ways a `Times` message is cut
  have split_times : ∀ mt at_, Times (84 :: t) mt at_ → ∃ d e rest, t = d ++ [32] ++ ([48, 32] ++ (e ++ [32] ++ rest)) ∧
      Decimal d mt ∧ Decimal e at_ ∧ mt < 18446744073709551616 ∧ at_ < 18446744073709551616 := by
    rintro mt at_ ⟨d, e, rest, hm, h1, h2, h3, h4⟩
    refine ⟨d, e, rest, ?_, h1, h2, h3, h4⟩
    have : (84 : Byte) :: t = 84 :: (d ++ [32] ++ ([48, 32] ++ (e ++ [32] ++ rest))) := by rw [hm]; simp
    exact (List.cons.inj this).2
  have hfst : ∀ mt at_, Times (84 :: t) mt at_ → 32 ∈ t ∧ word t ≠ [] ∧ uintLoop 18446744073709551615 0 (word t) = some mt := by
    intro mt at_ h
    obtain ⟨d, e, rest, ht, hd, _, hm, _⟩ := split_times mt at_ h
    have hw : word t = d := by rw [ht]; exact word_of _ _ (decimal_nospace hd)
    refine ⟨by rw [ht]; simp, by rw [hw]; exact hd.1, ?_⟩
    rw [hw]
    exact (uintLoop_some _ d mt hd.1).mpr ⟨hd, by omega⟩
  by_cases hs : 32 ∈ t ∧ word t ≠ []
  · rw [if_pos hs]
    cases hu : uintLoop 18446744073709551615 0 (word t) with
    | none =>
      refine ⟨_, rfl, fun mt at_ => ⟨(fun h => nomatch h), fun h => ?_⟩⟩
      have := (hfst mt at_ h).2.2
      rw [hu] at this; cases this
    | some v =>
      simp only []
      have hlt := word_lt _ hs.1
      obtain ⟨u, hu2⟩ := word_split t hs.1
      have hdec := (uintLoop_some _ _ v hs.2).mp hu
      have hdu : (84 :: t).drop (1 + (word t).length + 1) = u := by
        have h1 : (84 :: t).drop (1 + (word t).length + 1) = t.drop (word t ++ [32]).length := by
          rw [show 1 + (word t).length + 1 = (word t ++ [32]).length + 1 by simp; omega]; rfl
        rw [h1]
        exact (congrArg (List.drop (word t ++ [32]).length) hu2).trans (List.drop_left' rfl)
      rw [skipZero_eq _ old _ (by simp only [List.length_cons]; omega), hdu]
      -- in a `Times` message "0 " comes next
      have hsnd : ∀ mt at_, Times (84 :: t) mt at_ → ∃ e rest, u = 48 :: 32 :: (e ++ [32] ++ rest) ∧ Decimal e at_ ∧
          at_ < 18446744073709551616 ∧ mt = v := by
        intro mt at_ h
        obtain ⟨d, e, rest, ht, hd, he, hm, ha⟩ := split_times mt at_ h
        have hw : word t = d := by rw [ht]; exact word_of _ _ (decimal_nospace hd)
        refine ⟨e, rest, ?_, he, ha, ?_⟩
        · rw [hw] at hu2
          rw [hu2] at ht
          exact List.append_cancel_left ht
        · have := (hfst mt at_ h).2.2
          rw [hu] at this
          exact (Option.some.inj this).symm
      by_cases hz : ∃ x, u = 48 :: 32 :: x
      · obtain ⟨x, hx⟩ := hz
        rw [hx]
        simp only [zeroSp]
        have hlx : 1 + (word t).length + 1 + 2 ≤ (84 :: t).length := by
          have := congrArg List.length hdu
          rw [hx] at this
          simp only [List.length_drop, List.length_cons] at this ⊢
          omega
        have hdx : (84 :: t).drop (1 + (word t).length + 1 + 2) = x := by
          have : (84 :: t).drop (1 + (word t).length + 1 + 2) = ((84 :: t).drop (1 + (word t).length + 1)).drop 2 := by
            rw [List.drop_drop]
          rw [this, hdu, hx]; rfl
        rw [getTimeField_eq _ old _ _ hlx (findSpace_image _ old _ hlx), hdx]
        have hthd : ∀ mt at_, Times (84 :: t) mt at_ → 32 ∈ x ∧ word x ≠ [] ∧
            uintLoop 18446744073709551615 0 (word x) = some at_ ∧ mt = v := by
          intro mt at_ h
          obtain ⟨e, rest, hu3, he, ha, hv⟩ := hsnd mt at_ h
          rw [hx] at hu3
          have hxe : x = e ++ [32] ++ rest := by simpa using hu3
          have hw : word x = e := by rw [hxe]; exact word_of _ _ (decimal_nospace he)
          refine ⟨by rw [hxe]; simp, by rw [hw]; exact he.1, ?_, hv⟩
          rw [hw]
          exact (uintLoop_some _ e at_ he.1).mpr ⟨he, by omega⟩
        by_cases hs2 : 32 ∈ x ∧ word x ≠ []
        · rw [if_pos hs2]
          cases hu4 : uintLoop 18446744073709551615 0 (word x) with
          | none =>
            refine ⟨_, rfl, fun mt at_ => ⟨(fun h => nomatch h), fun h => ?_⟩⟩
            have := (hthd mt at_ h).2.2.1
            rw [hu4] at this; cases this
          | some w =>
            refine ⟨_, rfl, fun mt at_ => ⟨fun h => ?_, fun h => ?_⟩⟩
            · cases h
              have hdec2 := (uintLoop_some _ _ w hs2.2).mp hu4
              obtain ⟨r, hr⟩ := word_split x hs2.1
              refine ⟨word t, word x, r, ?_, hdec.1, hdec2.1, by have := hdec.2; omega, by have := hdec2.2; omega⟩
              have h2 : t = word t ++ [32] ++ (48 :: 32 :: (word x ++ [32] ++ r)) := by rw [← hr, ← hx]; exact hu2
              exact (congrArg (fun z => (84 : Byte) :: z) h2).trans (by simp)
            · obtain ⟨_, _, h3, h4⟩ := hthd mt at_ h
              rw [hu4] at h3
              rw [← Option.some.inj h3, h4]
        · rw [if_neg hs2]
          refine ⟨_, rfl, fun mt at_ => ⟨(fun h => nomatch h), fun h => ?_⟩⟩
          have := hthd mt at_ h
          exact absurd ⟨this.1, this.2.1⟩ hs2
      · rw [zeroSp_bad _ _ hz]
        refine ⟨_, rfl, fun mt at_ => ⟨(fun h => nomatch h), fun h => ?_⟩⟩
        obtain ⟨e, rest, hu3, _⟩ := hsnd mt at_ h
        exact absurd ⟨_, hu3⟩ hz
  · rw [if_neg hs]
    refine ⟨_, rfl, fun mt at_ => ⟨(fun h => nomatch h), fun h => ?_⟩⟩
    have := hfst mt at_ h
    exact absurd ⟨this.1, this.2.1⟩ hs

/-! ## The switch -/

theorem parseMsg_image (r : Bool) (m old : Bytes) :
    parseMsg r (m ++ [10]) old = decode r (image m old) (m.length + 1) := by
  unfold parseMsg Wolf.Buffer.write
  have h1 : (m ++ [10] ++ old).take m.length = m := by simp
  have h2 : (m ++ [10] ++ old).drop (m.length + 1) = old := by
    rw [show m.length + 1 = (m ++ [10]).length by simp]; exact List.drop_left' rfl
  have h3 : m.length + 1 ≤ (m ++ [10] ++ old).length := by simp
  simp only [List.length_append, List.length_cons, List.length_nil, Nat.zero_add, Nat.add_sub_cancel]
  rw [if_pos (by simp), h1, h2]

theorem image_head (m old : Bytes) : (image m old)[0]? = some (m.headD 0) := by
  cases m <;> rfl

/-- Reading a message is always defined, whatever it holds and whatever is behind it in memory. -/
theorem parse_total (r : Bool) (m old : Bytes) : ∃ x, parseMsg r (m ++ [10]) old = some x := by
  rw [parseMsg_image]
  unfold decode
  rw [image_head]
  simp only []
  obtain ⟨e, he⟩ := getEntry_total r m old
  rw [he]
  by_cases h1 : m.headD 0 = 67
  · rw [if_pos h1]; exact ⟨_, rfl⟩
  rw [if_neg h1]
  by_cases h2 : m.headD 0 = 68
  · rw [if_pos h2]; exact ⟨_, rfl⟩
  rw [if_neg h2]
  by_cases h3 : m.headD 0 = 69
  · rw [if_pos h3]; exact ⟨_, rfl⟩
  rw [if_neg h3]
  by_cases h4 : m.headD 0 = 84
  · rw [if_pos h4]
    cases m with
    | nil => cases h4
    | cons c t =>
      simp only [List.headD_cons] at h4
      subst h4
      obtain ⟨x, hx, _⟩ := getTimes_T t old
      rw [hx]; exact ⟨_, rfl⟩
  · rw [if_neg h4]; exact ⟨_, rfl⟩

/-- When the first byte is `C`. -/
theorem parse_C (r : Bool) (t old : Bytes) : parseMsg r ((67 :: t) ++ [10]) old =
    (getEntry r (image (67 :: t) old) ((67 :: t).length + 1)).map fun x => x.map fun (m, n, nm) => .file m n nm := by
  rw [parseMsg_image]; unfold decode; rw [image_head]; rfl

theorem parse_D (r : Bool) (t old : Bytes) : parseMsg r ((68 :: t) ++ [10]) old =
    (getEntry r (image (68 :: t) old) ((68 :: t).length + 1)).map fun x => x.map fun (m, n, nm) => .dir m n nm := by
  rw [parseMsg_image]; unfold decode; rw [image_head]; rfl

theorem parse_T (r : Bool) (t old : Bytes) : parseMsg r ((84 :: t) ++ [10]) old =
    (getTimes (image (84 :: t) old) ((84 :: t).length + 1) 0).map fun x => x.map fun (m, a) => .times m a := by
  rw [parseMsg_image]; unfold decode; rw [image_head]; rfl

theorem parse_E (r : Bool) (t old : Bytes) : parseMsg r ((69 :: t) ++ [10]) old = some (.ok .endDir) := by
  rw [parseMsg_image]; unfold decode; rw [image_head]; rfl

theorem parse_other (r : Bool) (m old : Bytes) (h : m.head? ≠ some 67 ∧ m.head? ≠ some 68 ∧ m.head? ≠ some 69 ∧ m.head? ≠ some 84) :
    parseMsg r (m ++ [10]) old = some (.error .scpBadMsg) := by
  rw [parseMsg_image]; unfold decode; rw [image_head]
  cases m with
  | nil => rfl
  | cons c t =>
    simp only [List.head?_cons, ne_eq, Option.some.injEq] at h
    obtain ⟨h1, h2, h3, h4⟩ := h
    simp [h1, h2, h3, h4]

theorem announces_head {l : Byte} {m : Bytes} {a b : Nat} {n : Bytes} (h : Announces l m a b n) : ∃ t, m = l :: t := by
  obtain ⟨o, sp, d, rest, v, hm, _⟩ := h
  exact ⟨o ++ [sp] ++ d ++ [32] ++ n ++ rest, by rw [hm]; simp⟩

theorem times_head {m : Bytes} {a b : Nat} (h : Times m a b) : ∃ t, m = 84 :: t := by
  obtain ⟨d, e, rest, hm, _⟩ := h
  exact ⟨d ++ [32, 48, 32] ++ e ++ [32] ++ rest, by rw [hm]; simp⟩

/-- If a name was read, it was read from the message. -/
theorem getEntry_name {mem : Bytes} {sz m n : Nat} {nm : Option Bytes} (h : getEntry false mem sz = some (.ok (m, n, nm))) :
    ∃ x, nm = some x := by
  unfold getEntry at h
  split at h
  · cases h
  · cases h
  · split at h
    · cases h
    · cases h
    · simp only [Bool.false_eq_true, if_false] at h
      split at h
      · cases h
      · cases h
      · simp only [Option.some.injEq, Except.ok.injEq, Prod.mk.injEq] at h
        exact ⟨_, h.2.2.symm⟩

theorem map_ok {α β} {f : α → β} {o : Option (Except Err α)} {y : β}
    (h : (o.map fun x => x.map f) = some (.ok y)) : ∃ a, o = some (.ok a) ∧ f a = y := by
  cases o with
  | none => cases h
  | some x =>
    cases x with
    | error e => cases h
    | ok a =>
      simp only [Option.map_some, Except.map, Option.some.injEq, Except.ok.injEq] at h
      exact ⟨a, rfl, h⟩

/-- What is understood, when the name is looked at. -/
def Means (m : Bytes) : Msg → Prop
  | .file mode size (some name) => Announces 67 m mode size name
  | .dir mode size (some name) => Announces 68 m mode size name
  | .endDir => m.head? = some 69
  | .times mt at_ => Times m mt at_
  | _ => False

theorem parse_iff (m old : Bytes) (x : Msg) : parseMsg false (m ++ [10]) old = some (.ok x) ↔ Means m x := by
  cases m with
  | nil =>
    rw [parse_other false [] old (by simp)]
    constructor
    · intro h; cases h
    · intro h
      cases x with
      | file a b n => cases n with
        | none => exact h.elim
        | some n => obtain ⟨t, ht⟩ := announces_head h; cases ht
      | dir a b n => cases n with
        | none => exact h.elim
        | some n => obtain ⟨t, ht⟩ := announces_head h; cases ht
      | endDir => cases h
      | times a b => obtain ⟨t, ht⟩ := times_head h; cases ht
  | cons c t =>
    by_cases h1 : c = 67
    · subst h1
      rw [parse_C]
      constructor
      · intro h
        obtain ⟨⟨a, b, n⟩, ha, hx⟩ := map_ok h
        obtain ⟨n', hn⟩ := getEntry_name ha
        subst hn
        subst hx
        rcases (getEntry_iff _ old a b n').mp ha with h | h
        · exact h
        · obtain ⟨t', ht⟩ := announces_head h; cases ht
      · intro h
        cases x with
        | file a b n => cases n with
          | none => exact h.elim
          | some n => rw [(getEntry_iff _ old a b n).mpr (Or.inl h)]; rfl
        | dir a b n => cases n with
          | none => exact h.elim
          | some n => obtain ⟨t', ht⟩ := announces_head h; cases ht
        | endDir => cases h
        | times a b => obtain ⟨t', ht⟩ := times_head h; cases ht
    by_cases h2 : c = 68
    · subst h2
      rw [parse_D]
      constructor
      · intro h
        obtain ⟨⟨a, b, n⟩, ha, hx⟩ := map_ok h
        obtain ⟨n', hn⟩ := getEntry_name ha
        subst hn
        subst hx
        rcases (getEntry_iff _ old a b n').mp ha with h | h
        · obtain ⟨t', ht⟩ := announces_head h; cases ht
        · exact h
      · intro h
        cases x with
        | file a b n => cases n with
          | none => exact h.elim
          | some n => obtain ⟨t', ht⟩ := announces_head h; cases ht
        | dir a b n => cases n with
          | none => exact h.elim
          | some n => rw [(getEntry_iff _ old a b n).mpr (Or.inr h)]; rfl
        | endDir => cases h
        | times a b => obtain ⟨t', ht⟩ := times_head h; cases ht
    by_cases h3 : c = 69
    · subst h3
      rw [parse_E]
      constructor
      · intro h; cases h; rfl
      · intro h
        cases x with
        | file a b n => cases n with
          | none => exact h.elim
          | some n => obtain ⟨t', ht⟩ := announces_head h; cases ht
        | dir a b n => cases n with
          | none => exact h.elim
          | some n => obtain ⟨t', ht⟩ := announces_head h; cases ht
        | endDir => rfl
        | times a b => obtain ⟨t', ht⟩ := times_head h; cases ht
    by_cases h4 : c = 84
    · subst h4
      rw [parse_T]
      obtain ⟨r, hr, hiff⟩ := getTimes_T t old
      rw [hr]
      constructor
      · intro h
        obtain ⟨⟨a, b⟩, ha, hx⟩ := map_ok h
        subst hx
        exact (hiff a b).mp (Option.some.inj ha)
      · intro h
        cases x with
        | file a b n => cases n with
          | none => exact h.elim
          | some n => obtain ⟨t', ht⟩ := announces_head h; cases ht
        | dir a b n => cases n with
          | none => exact h.elim
          | some n => obtain ⟨t', ht⟩ := announces_head h; cases ht
        | endDir => cases h
        | times a b => rw [(hiff a b).mpr h]; rfl
    · rw [parse_other false (c :: t) old (by simp [h1, h2, h3, h4])]
      constructor
      · intro h; cases h
      · intro h
        cases x with
        | file a b n => cases n with
          | none => exact h.elim
          | some n => obtain ⟨t', ht⟩ := announces_head h; cases ht; exact absurd rfl h1
        | dir a b n => cases n with
          | none => exact h.elim
          | some n => obtain ⟨t', ht⟩ := announces_head h; cases ht; exact absurd rfl h2
        | endDir => simp only [Means, List.head?_cons, Option.some.injEq] at h; exact absurd h h3
        | times a b => obtain ⟨t', ht⟩ := times_head h; cases ht; exact absurd rfl h4

/-! ## Writing, then reading -/

theorem digit_toNat (k : Nat) (h : k < 10) : (UInt8.ofNat (48 + k)).toNat = 48 + k := by
  simp only [UInt8.toNat_ofNat']; omega

theorem decLoop_spec : ∀ f n k acc, 1 ≤ f → n < 10 ^ f → 1 ≤ k → n < 10 ^ k →
    ∃ ds, decLoop f n acc = ds ++ acc ∧ Decimal ds n ∧ ds.length ≤ k := by
  intro f
  induction f with
  | zero => intro n k acc h; omega
  | succ f ih =>
    intro n k acc _ hn hk hnk
    have hlt : n % 10 < 10 := Nat.mod_lt _ (by omega)
    have htn := digit_toNat (n % 10) hlt
    have hdig : 48 ≤ UInt8.ofNat (48 + n % 10) ∧ UInt8.ofNat (48 + n % 10) ≤ 57 := by
      constructor
      · rw [UInt8.le_iff_toNat_le, htn]; simp
      · rw [UInt8.le_iff_toNat_le, htn]; simp; omega
    unfold decLoop
    simp only []
    by_cases h0 : n / 10 = 0
    · rw [if_pos h0]
      refine ⟨[UInt8.ofNat (48 + n % 10)], rfl, ⟨by simp, by simpa using hdig, ?_⟩, hk⟩
      simp only [number, List.foldl_cons, List.foldl_nil, htn]
      omega
    · rw [if_neg h0]
      have hf : 1 ≤ f := by
        rcases Nat.eq_zero_or_pos f with h | h
        · subst h; simp at hn; omega
        · exact h
      have hk2 : 1 ≤ k - 1 := by
        rcases Nat.eq_or_lt_of_le hk with h | h
        · rw [← h] at hnk; simp at hnk; omega
        · omega
      have hp : ∀ j, 1 ≤ j → n < 10 ^ j → n / 10 < 10 ^ (j - 1) := by
        intro j hj h
        have : 10 ^ j = 10 ^ (j - 1) * 10 := by rw [← Nat.pow_succ]; congr 1; omega
        omega
      have hpf := hp (f + 1) (by omega) hn
      rw [show f + 1 - 1 = f by omega] at hpf
      obtain ⟨ds, h1, h2, h3⟩ := ih (n / 10) (k - 1) (UInt8.ofNat (48 + n % 10) :: acc) hf hpf hk2 (hp k hk hnk)
      refine ⟨ds ++ [UInt8.ofNat (48 + n % 10)], by rw [h1]; simp, ⟨by simp, ?_, ?_⟩, by simp; omega⟩
      · intro b hb
        rcases List.mem_append.mp hb with h | h
        · exact h2.2.1 b h
        · rw [List.mem_singleton] at h; subst h; exact hdig
      · have hn2 := h2.2.2
        unfold number at hn2 ⊢
        rw [List.foldl_append, hn2]
        simp only [List.foldl_cons, List.foldl_nil, htn]
        omega

theorem dec_spec (n k : Nat) (h : n < 10 ^ 20) (hk : 1 ≤ k) (hnk : n < 10 ^ k) :
    Decimal (dec n) n ∧ (dec n).length ≤ k := by
  obtain ⟨ds, h1, h2, h3⟩ := decLoop_spec 20 n k [] (by omega) h hk hnk
  unfold dec
  rw [h1]
  simpa using And.intro h2 h3

theorem oct4_spec (m : Nat) (h : m < 4096) : Octal4 (oct4 m) m := by
  have h1 : m / 512 % 8 < 8 := Nat.mod_lt _ (by omega)
  have h2 : m / 64 % 8 < 8 := Nat.mod_lt _ (by omega)
  have h3 : m / 8 % 8 < 8 := Nat.mod_lt _ (by omega)
  have h4 : m % 8 < 8 := Nat.mod_lt _ (by omega)
  have hd : ∀ k, k < 8 → 48 ≤ UInt8.ofNat (48 + k) ∧ UInt8.ofNat (48 + k) ≤ 55 := by
    intro k hk
    have := digit_toNat k (by omega)
    constructor
    · rw [UInt8.le_iff_toNat_le, this]; simp
    · rw [UInt8.le_iff_toNat_le, this]; simp; omega
  refine ⟨rfl, ?_, ?_⟩
  · intro b hb
    simp only [oct4, List.mem_cons, List.not_mem_nil, or_false] at hb
    rcases hb with h | h | h | h <;> subst h
    · exact hd _ h1
    · exact hd _ h2
    · exact hd _ h3
    · exact hd _ h4
  · simp only [oct4, number, List.foldl_cons, List.foldl_nil]
    rw [digit_toNat _ (by omega), digit_toNat _ (by omega), digit_toNat _ (by omega), digit_toNat _ (by omega)]
    omega

theorem file_text (mode size : Nat) (name : Bytes) (hs : size < 4294967296) (hn : name.length ≤ 1005) :
    fileHeader mode size name = [67] ++ oct4 (maskMode mode) ++ [32] ++ dec size ++ [32] ++ name ++ [10] := by
  have h := (dec_spec size 10 (by omega) (by omega) (by omega)).2
  unfold fileHeader snprintf MSG_SZ
  apply List.take_of_length_le
  simp only [List.length_append, List.length_cons, List.length_nil, oct4]
  omega

theorem dir_text (mode : Nat) (name : Bytes) (hn : name.length ≤ 1014) :
    dirHeader mode name = [68] ++ oct4 (maskMode mode) ++ [32, 48, 32] ++ name ++ [10] := by
  unfold dirHeader snprintf MSG_SZ
  apply List.take_of_length_le
  simp only [List.length_append, List.length_cons, List.length_nil, oct4]
  omega

theorem times_text (m a : Nat) (hm : m < 18446744073709551616) (ha : a < 18446744073709551616) :
    timesHeader m a = [84] ++ dec m ++ [32, 48, 32] ++ dec a ++ [32, 48, 10] := by
  have h := (dec_spec m 20 (by omega) (by omega) (by omega)).2
  have h' := (dec_spec a 20 (by omega) (by omega) (by omega)).2
  unfold timesHeader snprintf MSG_SZ
  apply List.take_of_length_le
  simp only [List.length_append, List.length_cons, List.length_nil]
  omega

theorem file_announces (mode size : Nat) (name : Bytes) (hs : size < 4294967296) (hp : Plain name) :
    Announces 67 ([67] ++ oct4 (maskMode mode) ++ [32] ++ dec size ++ [32] ++ name) (mode % 512) size name := by
  refine ⟨oct4 (maskMode mode), 32, dec size, [], mode % 512, by simp, oct4_spec (mode % 512) (by omega), by omega, ?_, hs, hp, Or.inl rfl⟩
  exact (dec_spec size 10 (by omega) (by omega) (by omega)).1

theorem dir_announces (mode : Nat) (name : Bytes) (hp : Plain name) :
    Announces 68 ([68] ++ oct4 (maskMode mode) ++ [32, 48, 32] ++ name) (mode % 512) 0 name := by
  refine ⟨oct4 (maskMode mode), 32, [48], [], mode % 512, by simp, oct4_spec (mode % 512) (by omega), by omega, ?_, by omega, hp, Or.inl rfl⟩
  exact ⟨by simp, by decide, by decide⟩

theorem times_times (m a : Nat) (hm : m < 18446744073709551616) (ha : a < 18446744073709551616) :
    Times ([84] ++ dec m ++ [32, 48, 32] ++ dec a ++ [32, 48]) m a := by
  refine ⟨dec m, dec a, [48], by simp, ?_, ?_, hm, ha⟩
  · exact (dec_spec m 20 (by omega) (by omega) (by omega)).1
  · exact (dec_spec a 20 (by omega) (by omega) (by omega)).1

end Proofs.Scp
