import Verif.Model.Path
import Verif.Spec.Path

namespace Proofs.Path
open Wolf Wolf.Buffer Wolf.Path Spec.Path

theorem isDelim_eq (b : Byte) : isDelim b = isSep b := by
  simp only [isDelim, isSep]
  by_cases h1 : b = 47 <;> by_cases h2 : b = 92 <;> simp [h1, h2]

/-! ## Strings in memory -/

theorem takeWhile_all {p : Byte → Bool} : ∀ (a : Bytes), (∀ b ∈ a, p b = true) → ∀ r, (a ++ r).takeWhile p = a ++ r.takeWhile p
  | [], _, r => rfl
  | b :: a, h, r => by
    rw [List.cons_append, List.takeWhile_cons, h b (by simp), if_pos rfl,
      takeWhile_all a (fun x hx => h x (by simp [hx])) r, List.cons_append]

theorem dropWhile_all {p : Byte → Bool} : ∀ (a : Bytes), (∀ b ∈ a, p b = true) → ∀ r, (a ++ r).dropWhile p = r.dropWhile p
  | [], _, r => rfl
  | b :: a, h, r => by
    rw [List.cons_append, List.dropWhile_cons, h b (by simp), if_pos rfl,
      dropWhile_all a (fun x hx => h x (by simp [hx])) r]

theorem strlen_str {p : Bytes} (h : 0 ∉ p) (r : Bytes) : strlen (p ++ 0 :: r) = some p.length := by
  unfold strlen
  rw [if_pos (by simp), takeWhile_all p (fun b hb => by simpa using fun e : b = 0 => h (e ▸ hb))]
  simp

theorem str_str {p : Bytes} (h : 0 ∉ p) (r : Bytes) : str (p ++ 0 :: r) = p := by
  unfold str
  rw [takeWhile_all p (fun b hb => by simpa using fun e : b = 0 => h (e ▸ hb))]
  simp

theorem write_at (p r d : Bytes) (h : d.length ≤ r.length) :
    write (p ++ r) p.length d = some (p ++ d ++ r.drop d.length) := by
  unfold write
  rw [if_pos (by simp; omega)]
  simp

theorem write_at' (p r d : Bytes) (n : Nat) (hn : n = p.length) (h : d.length ≤ r.length) :
    write (p ++ r) n d = some (p ++ d ++ r.drop d.length) := by
  rw [hn]; exact write_at p r d h

theorem wstrncat_str {p s : Bytes} (h : 0 ∉ p) (r : Bytes) (hs : s.length ≤ r.length) :
    wstrncat (p ++ 0 :: r) s = some (some (p ++ s ++ 0 :: r.drop s.length)) := by
  unfold wstrncat
  rw [strlen_str h]
  dsimp only
  rw [if_pos (by simp; omega), write_at _ _ _ (by simp; omega)]
  simp

/-! ## Rendering -/

/-- Each component behind a '/'. -/
def flat (cs : List Bytes) : Bytes := cs.flatMap (47 :: ·)

theorem flat_nil : flat [] = [] := rfl
theorem flat_cons (c : Bytes) (cs : List Bytes) : flat (c :: cs) = 47 :: c ++ flat cs := by simp [flat]
theorem flat_append (a b : List Bytes) : flat (a ++ b) = flat a ++ flat b := by simp [flat]
theorem flat_snoc (a : List Bytes) (c : Bytes) : flat (a ++ [c]) = flat a ++ 47 :: c := by simp [flat]

theorem render_eq (cs : List Bytes) (h : cs ≠ []) : render cs = flat cs := by
  cases cs with
  | nil => exact absurd rfl h
  | cons c cs => rfl

theorem flat_ne {cs : List Bytes} (h : cs ≠ []) : flat cs ≠ [] := by
  cases cs with
  | nil => exact absurd rfl h
  | cons c cs => simp [flat_cons]

theorem flat_no_zero {cs : List Bytes} (h : ∀ c ∈ cs, Name c) : 0 ∉ flat cs := by
  intro h0
  simp only [flat, List.mem_flatMap] at h0
  obtain ⟨c, hc, h0⟩ := h0
  rcases List.mem_cons.1 h0 with h0 | h0
  · exact absurd h0 (by decide)
  · exact ((h c hc).2.2.2 0 h0).2 rfl

theorem render_no_zero {cs : List Bytes} (h : ∀ c ∈ cs, Name c) : 0 ∉ render cs := by
  by_cases e : cs = []
  · subst e; decide
  · rw [render_eq cs e]; exact flat_no_zero h

theorem render_len_one {cs : List Bytes} (h : ∀ c ∈ cs, Name c) : (render cs).length = 1 ↔ cs = [] := by
  constructor
  · intro hl
    cases cs with
    | nil => rfl
    | cons c cs =>
      rw [render_eq _ (by simp), flat_cons] at hl
      have := (h c (by simp)).1
      cases c with
      | nil => exact absurd rfl this
      | cons b c => simp at hl
  · intro e; subst e; rfl

theorem render_pos (cs : List Bytes) : 1 ≤ (render cs).length := by
  cases cs with
  | nil => decide
  | cons c cs => rw [render_eq _ (by simp), flat_cons]; simp

theorem render_snoc_length (cs : List Bytes) (h : ∀ c ∈ cs, Name c) (c : Bytes) :
    (render (cs ++ [c])).length = (render cs).length + (if (render cs).length ≠ 1 then 1 else 0) + c.length := by
  rw [render_eq _ (by simp), flat_snoc]
  by_cases e : cs = []
  · subst e; simp [flat_nil, render]; omega
  · rw [if_pos (fun x => e ((render_len_one h).1 x)), render_eq _ e]; simp; omega

/-- The part in front of the last component. -/
theorem strrchr_snoc (a : Bytes) {c : Bytes} (hc : ∀ b ∈ c, b ≠ 47) : strrchr (a ++ 47 :: c) = some a.length := by
  unfold strrchr
  rw [if_pos (by simp)]
  have : (a ++ 47 :: c).reverse = c.reverse ++ 47 :: a.reverse := by simp
  rw [this, takeWhile_all _ (fun b hb => by simpa using hc b (by simpa using hb))]
  simp

/-! ## Tokens -/

theorem split_ne : ∀ (s : Bytes), split s ≠ []
  | [] => by simp [split]
  | b :: bs => by
    unfold split
    by_cases hb : isSep b = true
    · rw [if_pos hb]; simp
    · rw [if_neg hb]; cases split bs <;> simp

theorem split_name : ∀ (t r : Bytes), (∀ b ∈ t, isSep b = false) → ∀ c cs, split r = c :: cs → split (t ++ r) = (t ++ c) :: cs
  | [], r, _, c, cs, h => h
  | b :: t, r, hb, c, cs, h => by
    rw [List.cons_append]
    unfold split
    rw [if_neg (by simp [hb b (by simp)]), split_name t r (fun x hx => hb x (by simp [hx])) c cs h]
    rfl

theorem components_sep (b : Byte) (s : Bytes) (hb : isSep b = true) : components (b :: s) = components s := by
  have h1 : split (b :: s) = [] :: split s := by
    rw [split.eq_2, if_pos hb]
  unfold components
  rw [h1]; simp

theorem _root_.List.all_takeWhile' {p : Byte → Bool} : ∀ {l : Bytes} {x : Byte}, x ∈ l.takeWhile p → p x = true
  | [], _, h => by simp at h
  | b :: l, x, h => by
    rw [List.takeWhile_cons] at h
    by_cases hb : p b = true
    · rw [if_pos hb] at h
      rcases List.mem_cons.1 h with e | h
      · exact e ▸ hb
      · exact List.all_takeWhile' h
    · rw [if_neg hb] at h; simp at h

theorem components_nil : components [] = [] := by decide

theorem components_name (t : Bytes) (ht : t ≠ []) (hs : ∀ b ∈ t, isSep b = false) : components t = [t] := by
  have := split_name t [] hs [] [] rfl
  simp at this
  unfold components
  rw [this]; simp [ht]

theorem components_name_sep (t : Bytes) (ht : t ≠ []) (hs : ∀ b ∈ t, isSep b = false) (b : Byte) (hb : isSep b = true) (r : Bytes) :
    components (t ++ b :: r) = t :: components r := by
  have h1 : split (b :: r) = [] :: split r := by
    rw [split.eq_2, if_pos hb]
  have := split_name t (b :: r) hs [] _ h1
  unfold components
  rw [this]; simp [ht]

theorem components_strtok (s : Bytes) :
    components s = match strtok s with | none => [] | some (t, r) => t :: components r := by
  induction s with
  | nil => decide
  | cons b s ih =>
    by_cases hb : isSep b = true
    · rw [components_sep b s hb, ih]
      have : strtok (b :: s) = strtok s := by
        unfold strtok
        rw [List.dropWhile_cons, isDelim_eq, if_pos hb]
      rw [this]
    · have hb' : isDelim b = false := by rw [isDelim_eq]; simpa using hb
      have hd : (b :: s).dropWhile isDelim = b :: s := by
        rw [List.dropWhile_cons, if_neg (by simp [hb'])]
      unfold strtok
      simp only [hd, List.cons_ne_nil, if_false]
      obtain ⟨t, u, e, ht, hu⟩ : ∃ t u : Bytes, b :: s = t ++ u ∧ (∀ x ∈ t, isSep x = false) ∧
          (u = [] ∨ ∃ x v, u = x :: v ∧ isSep x = true) := by
        refine ⟨(b :: s).takeWhile (fun b => !isSep b), (b :: s).dropWhile (fun b => !isSep b), by simp [List.takeWhile_append_dropWhile], ?_, ?_⟩
        · intro x hx; simpa using List.all_takeWhile' hx
        · cases hc : (b :: s).dropWhile (fun b => !isSep b) with
          | nil => exact Or.inl rfl
          | cons x v =>
            refine Or.inr ⟨x, v, rfl, ?_⟩
            have := List.head?_dropWhile_not (fun b => !isSep b) (b :: s)
            rw [hc] at this; simpa using this
      have hne : t ≠ [] := by
        intro ht0
        subst ht0
        rcases hu with hu | ⟨x, v, hu, hx⟩
        · subst hu; simp at e
        · subst hu; simp at e; rw [e.1] at hb; exact hb hx
      rw [e, takeWhile_all t (fun x hx => by rw [isDelim_eq]; simp [ht x hx]),
        dropWhile_all t (fun x hx => by rw [isDelim_eq]; simp [ht x hx])]
      rcases hu with hu | ⟨x, v, hu, hx⟩
      · subst hu
        simpa [components_nil] using components_name t hne ht
      · subst hu
        rw [components_name_sep t hne ht x hx v]
        simp [isDelim_eq, hx]

theorem components_mem (s : Bytes) (h : 0 ∉ s) : ∀ c ∈ components s, c ≠ [] ∧ ∀ b ∈ c, isSep b = false ∧ b ≠ 0 := by
  have key : ∀ (s : Bytes), ∀ c ∈ split s, ∀ b ∈ c, isSep b = false ∧ b ∈ s := by
    intro s
    induction s with
    | nil => intro c hc; simp [split] at hc; subst hc; simp
    | cons x s ih =>
      intro c hc b hb
      unfold split at hc
      by_cases hx : isSep x = true
      · rw [if_pos hx] at hc
        rcases List.mem_cons.1 hc with e | hc
        · subst e; simp at hb
        · exact ⟨(ih c hc b hb).1, by simp [(ih c hc b hb).2]⟩
      · rw [if_neg hx] at hc
        cases hsp : split s with
        | nil => exact absurd hsp (split_ne s)
        | cons y ys =>
          rw [hsp] at hc ih
          dsimp only at hc
          rcases List.mem_cons.1 hc with e | hc
          · subst e
            rcases List.mem_cons.1 hb with e | hb
            · subst e; exact ⟨by simpa using hx, by simp⟩
            · have := ih y (by simp) b hb
              exact ⟨this.1, by simp [this.2]⟩
          · have := ih c (by simp [hc]) b hb
            exact ⟨this.1, by simp [this.2]⟩
  intro c hc
  unfold components at hc
  rw [List.mem_filter] at hc
  refine ⟨by simpa using hc.2, fun b hb => ⟨(key s c hc.1 b hb).1, fun e => h (e ▸ (key s c hc.1 b hb).2)⟩⟩

theorem strtok_len {s t r : Bytes} (h : strtok s = some (t, r)) : r.length < s.length := by
  unfold strtok at h
  by_cases he : s.dropWhile isDelim = []
  · simp [he] at h
  · simp only [he, if_false] at h
    injection h with h
    injection h with h1 h2
    subst h2
    have h3 : (s.dropWhile isDelim).length ≤ s.length := (List.dropWhile_sublist _).length_le
    have h4 : ((s.dropWhile isDelim).dropWhile (fun b => !isDelim b)).length ≤ (s.dropWhile isDelim).length := (List.dropWhile_sublist _).length_le
    have h5 : 0 < (s.dropWhile isDelim).length := List.length_pos_iff.2 he
    simp
    omega

theorem strtok_zero {s t r : Bytes} (h : strtok s = some (t, r)) (hz : 0 ∉ s) : 0 ∉ r := by
  unfold strtok at h
  by_cases he : s.dropWhile isDelim = []
  · simp [he] at h
  · simp only [he, if_false] at h
    injection h with h
    injection h with h1 h2
    subst h2
    intro hm
    exact hz ((List.dropWhile_sublist _).subset ((List.dropWhile_sublist _).subset (List.mem_of_mem_drop hm)))

/-! ## One segment -/

/-- What holds between segments: the memory holds the path of the directory `cs`. -/
structure Holds (n : Nat) (mem : Bytes) (curSz : Nat) (cs : List Bytes) : Prop where
  len : mem.length = n
  cur : curSz = (render cs).length
  names : ∀ c ∈ cs, Name c
  str : ∃ rest, mem = render cs ++ 0 :: rest

theorem Holds.fits {n mem curSz cs} (h : Holds n mem curSz cs) : (render cs).length < n := by
  obtain ⟨rest, e⟩ := h.str
  have := h.len; rw [e] at this; simp at this; omega

theorem go_names {cs : List Bytes} {c : Bytes} (h : ∀ x ∈ cs, Name x) (hc : c ≠ [] ∧ ∀ b ∈ c, isSep b = false ∧ b ≠ 0) :
    ∀ x ∈ go cs c, Name x := by
  intro x hx
  unfold go at hx
  by_cases h1 : c = [46]
  · rw [if_pos h1] at hx; exact h x hx
  · rw [if_neg h1] at hx
    by_cases h2 : c = [46, 46]
    · rw [if_pos h2] at hx; exact h x (List.dropLast_sublist _ |>.subset hx)
    · rw [if_neg h2] at hx
      rcases List.mem_append.1 hx with hx | hx
      · exact h x hx
      · simp at hx; subst hx; exact ⟨hc.1, h1, h2, hc.2⟩

theorem appendSeg_ok {n mem curSz cs} (h : Holds n mem curSz cs) (hn : n < 2 ^ 32) (seg : Bytes) (hseg : Name seg) :
    (n ≤ (render (cs ++ [seg])).length → appendSeg mem curSz seg = some (some .invalidPath, mem, curSz)) ∧
    ((render (cs ++ [seg])).length < n → ∃ mem' cur', appendSeg mem curSz seg = some (none, mem', cur') ∧
      Holds n mem' cur' (cs ++ [seg])) := by
  have hfit := h.fits
  have hlen := render_snoc_length cs h.names seg
  have hpos := render_pos cs
  have hadd : add32 curSz (if curSz ≠ 1 then 1 else 0) = (render cs).length + (if (render cs).length ≠ 1 then 1 else 0) := by
    rw [h.cur]; unfold add32; split <;> omega
  constructor
  · intro hbig
    unfold appendSeg
    dsimp only
    rw [if_pos]
    rw [hadd, h.len]
    omega
  · intro hsmall
    unfold appendSeg
    dsimp only
    rw [if_neg (by rw [hadd, h.len]; omega)]
    obtain ⟨rest, e⟩ := h.str
    have hz := render_no_zero h.names
    have hlm := h.len
    rw [e] at hlm
    simp at hlm
    by_cases hc : cs = []
    · subst hc
      have hcur : curSz = 1 := h.cur
      subst hcur
      simp only [ne_eq, not_true_eq_false, if_false]
      have hrl : seg.length ≤ rest.length := by
        rw [if_neg (by decide)] at hlen
        simp [render] at hlm
        rw [show (render ([] : List Bytes)).length = 1 from rfl] at hlen
        omega
      rw [e, wstrncat_str hz rest hrl]
      dsimp only
      refine ⟨_, _, rfl, ⟨?_, ?_, ?_, ?_⟩⟩
      · simp [render] at hlm ⊢; omega
      · rw [hlen]
        simp [render, add32] at *
        omega
      · intro c hc; simp at hc; subst hc; exact hseg
      · refine ⟨rest.drop seg.length, ?_⟩
        simp [render]
    · have hne : (render cs).length ≠ 1 := fun x => hc ((render_len_one h.names).1 x)
      have hcur := h.cur
      have hcne : curSz ≠ 1 := by rw [hcur]; exact hne
      rw [if_pos hne] at hlen
      simp only [if_pos hcne]
      rw [e, wstrncat_str hz rest (by simp; omega)]
      dsimp only
      have hz2 : 0 ∉ render cs ++ [47] := by simp [hz]
      rw [wstrncat_str hz2 _ (by simp; omega)]
      dsimp only
      refine ⟨_, _, rfl, ⟨?_, ?_, ?_, ?_⟩⟩
      · simp; omega
      · rw [hlen, hcur]; unfold add32; omega
      · intro c hc
        rcases List.mem_append.1 hc with hc | hc
        · exact h.names c hc
        · simp at hc; subst hc; exact hseg
      · refine ⟨(rest.drop [47].length).drop seg.length, ?_⟩
        rw [render_eq (cs ++ [seg]) (by simp), flat_snoc, render_eq cs hc]
        simp

theorem dropSeg_ok {n mem curSz cs} (h : Holds n mem curSz cs) :
    ∃ mem' cur', dropSeg mem curSz = some (none, mem', cur') ∧ Holds n mem' cur' cs.dropLast := by
  obtain ⟨rest, e⟩ := h.str
  have hz := render_no_zero h.names
  have hlm := h.len
  unfold dropSeg
  rw [e, strlen_str hz]
  dsimp only
  rw [List.take_left']
  rotate_left
  · rfl
  by_cases hc : cs = []
  · subst hc
    have : strrchr (render []) = some 0 := by decide
    rw [this]
    dsimp only
    rw [if_pos rfl, show render [] ++ 0 :: rest = [47] ++ (0 :: rest) from rfl,
      write_at' [47] (0 :: rest) [0] 1 rfl (by simp)]
    refine ⟨_, _, rfl, ?_, rfl, by simp, ⟨rest, by simp [render]⟩⟩
    rw [e] at hlm; simp [render] at hlm ⊢; omega
  · obtain ⟨a, c, rfl⟩ : ∃ a c, cs = a ++ [c] := ⟨cs.dropLast, cs.getLast hc, (List.dropLast_concat_getLast hc).symm⟩
    have hcn := h.names c (by simp)
    have h47 : ∀ b ∈ c, b ≠ 47 := fun b hb e => by
      have := (hcn.2.2.2 b hb).1
      subst e; exact absurd this (by decide)
    have han : ∀ x ∈ a, Name x := fun x hx => h.names x (by simp [hx])
    rw [render_eq _ hc, flat_snoc, strrchr_snoc _ h47]
    rw [render_eq _ hc, flat_snoc] at e
    rw [e] at hlm
    simp at hlm
    rw [List.dropLast_concat]
    by_cases ha : a = []
    · subst ha
      simp only [flat_nil, List.length_nil, List.nil_append, if_true]
      rw [show 47 :: c ++ 0 :: rest = [47] ++ (c ++ 0 :: rest) from rfl,
        write_at' [47] (c ++ 0 :: rest) [0] 1 rfl (by simp; omega)]
      refine ⟨_, _, rfl, ?_, rfl, by simp, ⟨_, by simp [render]; rfl⟩⟩
      simp [flat_nil] at hlm ⊢; omega
    · have hpos : (flat a).length ≠ 0 := by simpa using flat_ne ha
      dsimp only
      rw [if_neg hpos, show flat a ++ 47 :: c ++ 0 :: rest = flat a ++ (47 :: c ++ 0 :: rest) by simp,
        write_at' (flat a) (47 :: c ++ 0 :: rest) [0] _ rfl (by simp)]
      have hza := flat_no_zero han
      refine ⟨_, _, rfl, ?_, ?_, han, ⟨(47 :: c ++ 0 :: rest).drop 1, ?_⟩⟩
      · simp; omega
      · simp [strlen_str hza, render_eq a ha]
      · rw [render_eq a ha]; simp

/-! ## The loop -/

/-- A directory and its path fit `n` bytes with the terminator. -/
def fit (n : Nat) (cs : List Bytes) : Prop := (render cs).length < n

theorem realLoop_ok {n : Nat} (hn : n < 2 ^ 32) : ∀ (fuel : Nat) (tail mem : Bytes) (curSz : Nat) (cs : List Bytes),
    Holds n mem curSz cs → 0 ∉ tail → tail.length ≤ fuel →
    ∃ r mem', realLoop fuel mem curSz tail = some (r, mem') ∧ mem'.length = n ∧
      ((r = none ∧ (∃ cur, Holds n mem' cur (resolve cs (components tail))) ∧
          ∀ k, fit n (resolve cs ((components tail).take k))) ∨
        (r = some .invalidPath ∧ ∃ k, ¬ fit n (resolve cs ((components tail).take k)))) := by
  intro fuel
  induction fuel with
  | zero =>
    intro tail mem curSz cs h hz hf
    have : tail = [] := List.length_eq_zero_iff.1 (by omega)
    subst this
    refine ⟨none, mem, rfl, h.len, Or.inl ⟨rfl, ⟨curSz, by simpa [components_nil, resolve] using h⟩, ?_⟩⟩
    intro k; simpa [components_nil, resolve, fit] using h.fits
  | succ fuel ih =>
    intro tail mem curSz cs h hz hf
    have hcomp := components_strtok tail
    unfold realLoop
    cases ht : strtok tail with
    | none =>
      rw [ht] at hcomp
      dsimp only at hcomp
      dsimp only
      refine ⟨none, mem, rfl, h.len, Or.inl ⟨rfl, ⟨curSz, by simpa [hcomp, resolve] using h⟩, ?_⟩⟩
      intro k; simpa [hcomp, resolve, fit] using h.fits
    | some tr =>
      obtain ⟨seg, r⟩ := tr
      rw [ht] at hcomp
      dsimp only at hcomp
      dsimp only
      have hseg := components_mem tail hz seg (by rw [hcomp]; simp)
      have hlen := strtok_len ht
      have hzr := strtok_zero ht hz
      have hstep : (fit n (go cs seg) ∧ ∃ mem' cur', realSeg mem curSz seg = some (none, mem', cur') ∧ Holds n mem' cur' (go cs seg)) ∨
          (¬ fit n (go cs seg) ∧ ∃ c, realSeg mem curSz seg = some (some .invalidPath, mem, c)) := by
        unfold realSeg
        by_cases h1 : seg = [46]
        · rw [if_pos h1]
          have : go cs seg = cs := by unfold go; rw [if_pos h1]
          rw [this]
          exact Or.inl ⟨h.fits, _, _, rfl, h⟩
        · rw [if_neg h1]
          by_cases h2 : seg = [46, 46]
          · rw [if_pos h2]
            have : go cs seg = cs.dropLast := by unfold go; rw [if_neg h1, if_pos h2]
            rw [this]
            obtain ⟨m, c, e, hh⟩ := dropSeg_ok h
            exact Or.inl ⟨hh.fits, m, c, e, hh⟩
          · rw [if_neg h2]
            have : go cs seg = cs ++ [seg] := by unfold go; rw [if_neg h1, if_neg h2]
            rw [this]
            have hap := appendSeg_ok h hn seg ⟨hseg.1, h1, h2, hseg.2⟩
            by_cases hb : (render (cs ++ [seg])).length < n
            · obtain ⟨m, c, e, hh⟩ := hap.2 hb
              exact Or.inl ⟨hb, m, c, e, hh⟩
            · exact Or.inr ⟨hb, curSz, hap.1 (by omega)⟩
      rcases hstep with ⟨hfit, mem', cur', e, hh⟩ | ⟨hfit, c, e⟩
      · rw [e]
        dsimp only
        obtain ⟨res, mem2, e2, hl2, hcase⟩ := ih r mem' cur' (go cs seg) hh hzr (by omega)
        refine ⟨res, mem2, e2, hl2, ?_⟩
        rw [hcomp]
        rcases hcase with ⟨hr, hhold, hall⟩ | ⟨hr, k, hk⟩
        · refine Or.inl ⟨hr, by simpa [resolve] using hhold, ?_⟩
          intro k
          cases k with
          | zero => simpa [resolve, fit] using h.fits
          | succ k => simpa [resolve] using hall k
        · exact Or.inr ⟨hr, k + 1, by simpa [resolve] using hk⟩
      · rw [e]
        dsimp only
        refine ⟨_, mem, rfl, h.len, Or.inr ⟨rfl, 1, ?_⟩⟩
        rw [hcomp]
        simpa [resolve] using hfit

theorem isRelative_eq (s : Bytes) : isRelative s = relative s := by
  unfold isRelative isWinPath
  match s with
  | [] => rfl
  | [a] => simp [relative, isDelim_eq]
  | a :: b :: r =>
    simp [relative, isDelim_eq]
    by_cases hb : b = 58 <;> simp [hb]

/-- `wolfSSH_RealPath`. -/
theorem realPath_ok (default : Option Bytes) (dcs : List Bytes) (inp out : Bytes)
    (hd : ∀ d, default = some d → Canonical d dcs) (hd0 : default = none → dcs = [])
    (hz : 0 ∉ inp) (h2 : 2 ≤ out.length) (hn : out.length < 2 ^ 32) :
    ∃ r mem, realPath default inp out = some (r, mem) ∧ mem.length = out.length ∧
      ((r = none ∧ (∃ cur, Holds out.length mem cur (resolve (start dcs inp) (components inp))) ∧
          ∀ k, fit out.length (resolve (start dcs inp) ((components inp).take k))) ∨
        (r = some .invalidPath ∧ ∃ k, ¬ fit out.length (resolve (start dcs inp) ((components inp).take k)))) := by
  have hroot : Holds out.length (47 :: List.replicate (out.length - 1) 0) 1 [] := by
    refine ⟨by simp; omega, rfl, by simp, ⟨List.replicate (out.length - 2) 0, ?_⟩⟩
    have : out.length - 1 = out.length - 2 + 1 := by omega
    rw [this, List.replicate_succ]; rfl
  have hrootrun : ∃ mem, write (47 :: List.replicate (out.length - 1) 0) 1 [0] = some mem ∧ Holds out.length mem 1 [] := by
    have : (47 : Byte) :: List.replicate (out.length - 1) 0 = [47] ++ List.replicate (out.length - 1) 0 := rfl
    refine ⟨_, by rw [this]; exact write_at' [47] _ [0] 1 rfl (by simp; omega), ?_⟩
    refine ⟨by simp; omega, rfl, by simp, ⟨_, by simp [render]; rfl⟩⟩
  unfold realPath
  rw [if_neg (by omega)]
  dsimp only
  rw [isRelative_eq]
  by_cases hrel : relative inp = true
  · rw [if_pos hrel]
    have hst : start dcs inp = dcs := by unfold start; rw [if_pos hrel]
    rw [hst]
    cases default with
    | none =>
      have := hd0 rfl
      subst this
      obtain ⟨m, e, hh⟩ := hrootrun
      dsimp only
      rw [e]
      exact realLoop_ok hn inp.length inp m 1 [] hh hz (by omega)
    | some d =>
      obtain ⟨hdr, hdn⟩ := hd d rfl
      dsimp only
      by_cases hbig : d.length ≥ out.length
      · rw [if_pos hbig]
        refine ⟨_, _, rfl, by simp; omega, Or.inr ⟨rfl, 0, ?_⟩⟩
        unfold fit
        simp [resolve]
        rw [← hdr]; omega
      · rw [if_neg hbig]
        rw [write_at' d _ [0] d.length rfl (by simp; omega)]
        refine realLoop_ok hn inp.length inp _ d.length dcs ⟨by simp; omega, by rw [hdr], hdn, ⟨(List.replicate (out.length - d.length) 0).drop 1, ?_⟩⟩ hz (by omega)
        rw [← hdr]; simp
  · rw [if_neg hrel]
    have hst : start dcs inp = [] := by unfold start; rw [if_neg hrel]
    rw [hst]
    obtain ⟨m, e, hh⟩ := hrootrun
    dsimp only
    rw [e]
    exact realLoop_ok hn inp.length inp m 1 [] hh hz (by omega)

end Proofs.Path
