import Verif.Spec.SshdShell
/-! Nothing is reordered or lost in the relay. -/

namespace Proofs.SshdShell
open Wolf (Byte Bytes)
open Wolf.SshdShell Spec.SshdShell

/-! ## Output -/

def ho (s : St) : Bytes := if s.ext then [] else s.held
def he (s : St) : Bytes := if s.ext then s.held else []

/-- All that was written is sent, held or not read yet. -/
structure Eqs (s : St) : Prop where
  out : s.wroteOut = s.sentOut ++ ho s ++ s.outPipe
  err : s.wroteErr = s.sentErr ++ he s ++ s.errPipe
  dropped : s.dropped = false

structure Pre (s : St) : Prop where
  out : s.sentOut <+: s.wroteOut
  err : s.sentErr <+: s.wroteErr

theorem Eqs.pre {s : St} (h : Eqs s) : Pre s := by
  refine ⟨?_, ?_⟩
  · rw [h.out, List.append_assoc]; exact List.prefix_append _ _
  · rw [h.err, List.append_assoc]; exact List.prefix_append _ _

/-- The rest of what stays true. -/
structure Aux (s : St) : Prop where
  empty : s.outEmpty = true → s.outPipe = [] ∧ s.outOpen = false
  held : s.held.length ≤ bufSz
  fate : s.fate = some .done → s.held = [] ∧ s.outEmpty = true ∧ s.peer = false

/-- While the loop runs. -/
structure Inv (s : St) : Prop where
  eqs : Eqs s
  aux : Aux s

/-- At any time: or a send has failed and the loop was left. -/
def Any (s : St) : Prop := Inv s ∨ (Pre s ∧ Aux s ∧ s.dropped = true ∧ s.fate = some .broke)

theorem child_Inv {s : St} (h : Inv s) (e : Env) : Inv (child s e) := by
  obtain ⟨⟨h1, h2, h3⟩, ⟨h4, h5, h6⟩⟩ := h
  refine ⟨⟨?_, ?_, h3⟩, ⟨?_, h5, h6⟩⟩
  · show (if s.outOpen then s.wroteOut ++ e.out else s.wroteOut) =
      s.sentOut ++ ho s ++ (if s.outOpen then s.outPipe ++ e.out else s.outPipe)
    cases s.outOpen
    · simpa using h1
    · simp only [if_true]; rw [h1, List.append_assoc]
  · show (if s.errOpen then s.wroteErr ++ e.err else s.wroteErr) =
      s.sentErr ++ he s ++ (if s.errOpen then s.errPipe ++ e.err else s.errPipe)
    cases s.errOpen
    · simpa using h2
    · simp only [if_true]; rw [h2, List.append_assoc]
  · intro ho
    obtain ⟨a, b⟩ := h4 ho
    refine ⟨?_, ?_⟩
    · show (if s.outOpen then s.outPipe ++ e.out else s.outPipe) = []
      rw [b]; exact a
    · show (s.outOpen && !e.outEnd) = false
      rw [b]; rfl

theorem stop_Inv {s : St} (h : Inv s) : Inv (stop s) :=
  ⟨⟨h.eqs.out, h.eqs.err, h.eqs.dropped⟩, ⟨h.aux.empty, h.aux.held, fun e => by cases e⟩⟩

/-- Only what is not about the output differs. -/
structure SameOut (s t : St) : Prop where
  e1 : t.wroteOut = s.wroteOut
  e2 : t.wroteErr = s.wroteErr
  e3 : t.sentOut = s.sentOut
  e4 : t.sentErr = s.sentErr
  e5 : t.held = s.held
  e6 : t.ext = s.ext
  e7 : t.outPipe = s.outPipe
  e8 : t.errPipe = s.errPipe
  e9 : t.dropped = s.dropped
  e10 : t.outEmpty = s.outEmpty
  e11 : t.outOpen = s.outOpen
  e12 : t.fate = s.fate ∨ t.fate = some .broke
  e13 : s.peer = false → t.peer = false
  e14 : t.errOpen = s.errOpen

theorem SameOut.inv {s t : St} (h : SameOut s t) (hi : Inv s) : Inv t := by
  refine ⟨⟨?_, ?_, ?_⟩, ⟨?_, ?_, ?_⟩⟩
  · rw [h.e1, h.e3, h.e7]; simp only [ho, h.e5, h.e6]; exact hi.eqs.out
  · rw [h.e2, h.e4, h.e8]; simp only [he, h.e5, h.e6]; exact hi.eqs.err
  · rw [h.e9]; exact hi.eqs.dropped
  · rw [h.e10, h.e7, h.e11]; exact hi.aux.empty
  · rw [h.e5]; exact hi.aux.held
  · intro e
    rcases h.e12 with h' | h'
    · rw [h'] at e
      obtain ⟨a, b, c⟩ := hi.aux.fate e
      exact ⟨by rw [h.e5]; exact a, by rw [h.e10]; exact b, h.e13 c⟩
    · rw [h'] at e; cases e

theorem SameOut.rfl' (s : St) : SameOut s s := ⟨rfl, rfl, rfl, rfl, rfl, rfl, rfl, rfl, rfl, rfl, rfl, Or.inl rfl, id, rfl⟩

theorem input_same (s : St) (e : Env) : SameOut s (input s e).2 := by
  unfold input
  simp only
  by_cases h : s.chan.take bufSz = [] ∨ e.readFails = true
  · rw [if_pos h]; exact ⟨rfl, rfl, rfl, rfl, rfl, rfl, rfl, rfl, rfl, rfl, rfl, Or.inr rfl, id, rfl⟩
  · rw [if_neg h]
    cases s.stdin
    · exact ⟨rfl, rfl, rfl, rfl, rfl, rfl, rfl, rfl, rfl, rfl, rfl, Or.inr rfl, id, rfl⟩
    · simp only [if_true]
      cases e.toChild with
      | none => exact ⟨rfl, rfl, rfl, rfl, rfl, rfl, rfl, rfl, rfl, rfl, rfl, Or.inr rfl, id, rfl⟩
      | some n => exact ⟨rfl, rfl, rfl, rfl, rfl, rfl, rfl, rfl, rfl, rfl, rfl, Or.inl rfl, id, rfl⟩

theorem SameOut.trans' {s t u : St} (h : SameOut s t) (h' : SameOut t u) : SameOut s u := by
  refine ⟨h'.e1.trans h.e1, h'.e2.trans h.e2, h'.e3.trans h.e3, h'.e4.trans h.e4, h'.e5.trans h.e5, h'.e6.trans h.e6,
    h'.e7.trans h.e7, h'.e8.trans h.e8, h'.e9.trans h.e9, h'.e10.trans h.e10, h'.e11.trans h.e11, ?_, fun e => h'.e13 (h.e13 e),
    h'.e14.trans h.e14⟩
  rcases h'.e12 with e | e
  · rw [e]; exact h.e12
  · exact Or.inr e

theorem worker_same (pipes : Bool) (s : St) (e : Env) : SameOut s (worker pipes s e).2 := by
  have h0 : SameOut s { s with wantWrite := false } :=
    ⟨rfl, rfl, rfl, rfl, rfl, rfl, rfl, rfl, rfl, rfl, rfl, Or.inl rfl, id, rfl⟩
  unfold worker
  simp only
  cases e.work with
  | data b =>
    simp only
    by_cases h : s.held = []
    · rw [if_pos h]
      exact SameOut.trans' (t := recv { s with wantWrite := false } b)
        ⟨rfl, rfl, rfl, rfl, rfl, rfl, rfl, rfl, rfl, rfl, rfl, Or.inl rfl, id, rfl⟩ (input_same _ e)
    · rw [if_neg h]; exact ⟨rfl, rfl, rfl, rfl, rfl, rfl, rfl, rfl, rfl, rfl, rfl, Or.inl rfl, id, rfl⟩
  | other => exact h0
  | closed => exact ⟨rfl, rfl, rfl, rfl, rfl, rfl, rfl, rfl, rfl, rfl, rfl, Or.inl rfl, fun _ => rfl, rfl⟩
  | wantWrite b eof => exact ⟨rfl, rfl, rfl, rfl, rfl, rfl, rfl, rfl, rfl, rfl, rfl, Or.inl rfl, id, rfl⟩
  | rekeying b eof => exact ⟨rfl, rfl, rfl, rfl, rfl, rfl, rfl, rfl, rfl, rfl, rfl, Or.inl rfl, id, rfl⟩
  | wantRead => exact h0
  | success eof =>
    simp only
    by_cases h : ((s.eof || eof) && pipes) = true
    · rw [if_pos h]; exact ⟨rfl, rfl, rfl, rfl, rfl, rfl, rfl, rfl, rfl, rfl, rfl, Or.inl rfl, id, rfl⟩
    · rw [if_neg h]; exact ⟨rfl, rfl, rfl, rfl, rfl, rfl, rfl, rfl, rfl, rfl, rfl, Or.inl rfl, id, rfl⟩
  | fail => exact ⟨rfl, rfl, rfl, rfl, rfl, rfl, rfl, rfl, rfl, rfl, rfl, Or.inr rfl, id, rfl⟩

theorem drop_Any {s : St} (h : Inv s) : Any { stop s with dropped := true } :=
  Or.inr ⟨⟨h.eqs.pre.out, h.eqs.pre.err⟩, ⟨h.aux.empty, h.aux.held, fun e => by cases e⟩, rfl, rfl⟩

theorem took_le (n k : Nat) : took n k ≤ k := Nat.min_le_right _ _

/-- Sending what is held. -/
theorem resend_Any {s : St} (hf : s.fate = none) (h : Inv s) (e : Env) : Any (resend s e).2 ∧
    ((resend s e).1 = true → Inv (resend s e).2 ∧ (resend s e).2.held = [] ∧ (resend s e).2.fate = none) := by
  unfold resend
  by_cases hh : s.held = []
  · rw [if_pos hh]; exact ⟨Or.inl h, fun _ => ⟨h, hh, hf⟩⟩
  rw [if_neg hh]
  cases e.resend with
  | again => exact ⟨Or.inl h, fun e => by cases e⟩
  | wantWrite =>
    refine ⟨Or.inl (SameOut.inv (s := s) ?_ h), fun e => by cases e⟩
    exact ⟨rfl, rfl, rfl, rfl, rfl, rfl, rfl, rfl, rfl, rfl, rfl, Or.inl rfl, id, rfl⟩
  | fail => exact ⟨drop_Any h, fun e => by cases e⟩
  | sent n =>
    simp only
    have hs : Inv { log s s.ext (s.held.take (took n s.held.length)) with held := s.held.drop (took n s.held.length) } := by
      cases hx : s.ext
      · refine ⟨⟨?_, ?_, ?_⟩, ⟨?_, ?_, ?_⟩⟩
        · have := h.eqs.out
          simp only [log, Bool.false_eq_true, if_false, ho, hx] at this ⊢
          rw [this, List.append_assoc s.sentOut (s.held.take _), List.take_append_drop]
        · have := h.eqs.err
          simp only [log, Bool.false_eq_true, if_false, he, hx] at this ⊢
          exact this
        · exact h.eqs.dropped
        · exact h.aux.empty
        · have := h.aux.held
          show (s.held.drop _).length ≤ _
          rw [List.length_drop]; omega
        · intro e
          have e : s.fate = some .done := e
          rw [hf] at e; cases e
      · refine ⟨⟨?_, ?_, ?_⟩, ⟨?_, ?_, ?_⟩⟩
        · have := h.eqs.out
          simp only [log, if_true, ho, hx] at this ⊢
          exact this
        · have := h.eqs.err
          simp only [log, if_true, he, hx] at this ⊢
          rw [this, List.append_assoc s.sentErr (s.held.take _), List.take_append_drop]
        · exact h.eqs.dropped
        · exact h.aux.empty
        · have := h.aux.held
          show (s.held.drop _).length ≤ _
          rw [List.length_drop]; omega
        · intro e
          have e : s.fate = some .done := e
          rw [hf] at e; cases e
    have hfs : (log s s.ext (s.held.take (took n s.held.length))).fate = none := by
      cases s.ext <;> exact hf
    by_cases hk : s.held.drop (took n s.held.length) = []
    · rw [if_neg (by simpa using hk)]
      have h2 : Inv { log s s.ext (s.held.take (took n s.held.length)) with
          held := s.held.drop (took n s.held.length), ext := false } := by
        refine ⟨⟨?_, ?_, hs.eqs.dropped⟩, ⟨hs.aux.empty, hs.aux.held, hs.aux.fate⟩⟩
        · have := hs.eqs.out
          simp only [ho, hk] at this ⊢
          simpa using this
        · have := hs.eqs.err
          simp only [he, hk] at this ⊢
          simpa using this
      exact ⟨Or.inl h2, fun _ => ⟨h2, hk, hfs⟩⟩
    · rw [if_pos hk]
      exact ⟨Or.inl hs, fun e => by cases e⟩

/-- Sending what was read; `b`: those bytes, already taken from the pipe. -/
theorem forward_Any {s : St} {ext : Bool} {b : Bytes} (hf : s.fate = none) (hh : s.held = []) (hb : b.length ≤ bufSz)
    (ho' : s.wroteOut = s.sentOut ++ (if ext then [] else b) ++ s.outPipe)
    (he' : s.wroteErr = s.sentErr ++ (if ext then b else []) ++ s.errPipe)
    (hd : s.dropped = false) (ha : s.outEmpty = true → s.outPipe = [] ∧ s.outOpen = false) (r : Send) :
    Any (forward s ext b r).2 ∧
    ((forward s ext b r).1 = true → Inv (forward s ext b r).2 ∧ (ext = true → (forward s ext b r).2.held = []) ∧
      (forward s ext b r).2.fate = none) := by
  have hnd : ∀ {p : Prop}, s.fate = some .done → p := fun e => by rw [hf] at e; cases e
  have hhold : Inv { s with held := b, ext := ext } := by
    refine ⟨⟨?_, ?_, hd⟩, ⟨ha, hb, fun e => hnd e⟩⟩
    · cases ext <;> simpa [ho] using ho'
    · cases ext <;> simpa [he] using he'
  unfold forward
  cases r with
  | again => exact ⟨Or.inl hhold, fun e => by cases e⟩
  | wantWrite =>
    refine ⟨Or.inl (SameOut.inv (s := { s with held := b, ext := ext }) ?_ hhold), fun e => by cases e⟩
    exact ⟨rfl, rfl, rfl, rfl, rfl, rfl, rfl, rfl, rfl, rfl, rfl, Or.inl rfl, id, rfl⟩
  | fail =>
    refine ⟨Or.inr ⟨⟨?_, ?_⟩, ⟨ha, ?_, fun e => by cases e⟩, rfl, rfl⟩, fun e => by cases e⟩
    · show s.sentOut <+: s.wroteOut
      rw [ho', List.append_assoc]; exact List.prefix_append _ _
    · show s.sentErr <+: s.wroteErr
      rw [he', List.append_assoc]; exact List.prefix_append _ _
    · show s.held.length ≤ bufSz
      rw [hh]; exact Nat.zero_le _
  | sent n =>
    simp only
    have hfs : (log s ext (b.take (took n b.length))).fate = none := by
      cases ext <;> exact hf
    by_cases hk : took n b.length < b.length
    · rw [if_pos hk]
      have hs : Inv { log s ext (b.take (took n b.length)) with held := b.drop (took n b.length), ext := ext } := by
        cases hx : ext
        · refine ⟨⟨?_, ?_, hd⟩, ⟨ha, ?_, fun e => hnd e⟩⟩
          · simp only [log, Bool.false_eq_true, if_false, ho, hx] at ho' ⊢
            rw [ho', List.append_assoc s.sentOut (b.take _), List.take_append_drop]
          · simp only [log, Bool.false_eq_true, if_false, he, hx] at he' ⊢
            exact he'
          · show (b.drop _).length ≤ _
            rw [List.length_drop]; omega
        · refine ⟨⟨?_, ?_, hd⟩, ⟨ha, ?_, fun e => hnd e⟩⟩
          · simp only [log, if_true, ho, hx] at ho' ⊢
            exact ho'
          · simp only [log, if_true, he, hx] at he' ⊢
            rw [he', List.append_assoc s.sentErr (b.take _), List.take_append_drop]
          · show (b.drop _).length ≤ _
            rw [List.length_drop]; omega
      refine ⟨Or.inl hs, fun e => ⟨hs, fun hx => ?_, hfs⟩⟩
      rw [hx] at e; cases e
    · rw [if_neg hk]
      have hk : took n b.length = b.length := Nat.le_antisymm (took_le _ _) (Nat.le_of_not_lt hk)
      rw [hk, List.take_length]
      have hs : Inv (log s ext b) := by
        cases hx : ext
        · refine ⟨⟨?_, ?_, hd⟩, ⟨ha, ?_, fun e => hnd e⟩⟩
          · simp only [log, Bool.false_eq_true, if_false, ho, hx, hh] at ho' ⊢
            rw [ho']; simp
          · simp only [log, Bool.false_eq_true, if_false, he, hx, hh] at he' ⊢
            rw [he']; simp
          · show s.held.length ≤ bufSz
            rw [hh]; exact Nat.zero_le _
        · refine ⟨⟨?_, ?_, hd⟩, ⟨ha, ?_, fun e => hnd e⟩⟩
          · simp only [log, if_true, ho, hx, hh] at ho' ⊢
            rw [ho']; simp
          · simp only [log, if_true, he, hx, hh] at he' ⊢
            rw [he']; simp
          · show s.held.length ≤ bufSz
            rw [hh]; exact Nat.zero_le _
      refine ⟨Or.inl hs, fun _ => ⟨hs, fun _ => ?_, ?_⟩⟩
      · cases ext <;> exact hh
      · cases ext <;> exact hf

theorem held_nil {s : St} (h : Inv s) (hh : s.held = []) : s.wroteOut = s.sentOut ++ s.outPipe ∧ s.wroteErr = s.sentErr ++ s.errPipe := by
  have h1 := h.eqs.out
  have h2 := h.eqs.err
  simp only [ho, he, hh] at h1 h2
  exact ⟨by simpa using h1, by simpa using h2⟩

theorem stderr_Any {s : St} (hf : s.fate = none) (h : Inv s) (hh : s.held = []) (e : Env) : Any (stderr s e).2 ∧
    ((stderr s e).1 = true → Inv (stderr s e).2 ∧ (stderr s e).2.held = [] ∧ (stderr s e).2.fate = none) := by
  obtain ⟨h1, h2⟩ := held_nil h hh
  have nothing : ∀ bad : Bool, Any (if bad then (false, stop s) else (true, s)).2 ∧
      ((if bad then (false, stop s) else (true, s)).1 = true → Inv (if bad then (false, stop s) else (true, s)).2 ∧
        (if bad then (false, stop s) else (true, s)).2.held = [] ∧ (if bad then (false, stop s) else (true, s)).2.fate = none) := by
    intro bad
    cases bad
    · exact ⟨Or.inl h, fun _ => ⟨h, hh, hf⟩⟩
    · exact ⟨Or.inl (stop_Inv h), fun e => by cases e⟩
  unfold stderr
  cases e.errRd with
  | fail => exact nothing _
  | got n =>
    simp only
    by_cases hp : s.errPipe = []
    · rw [if_pos hp]; exact nothing _
    · rw [if_neg hp]
      have := forward_Any (s := { s with errPipe := s.errPipe.drop (min (n + 1) bufSz) }) (ext := true)
        (b := s.errPipe.take (min (n + 1) bufSz)) hf hh
        (by rw [List.length_take]; omega) (by simpa using h1)
        (by
          simp only [if_true]
          rw [List.append_assoc, List.take_append_drop]; exact h2) h.eqs.dropped h.aux.empty e.errSend
      exact ⟨this.1, fun e => ⟨(this.2 e).1, (this.2 e).2.1 rfl, (this.2 e).2.2⟩⟩

theorem stdout_Any {s : St} (hf : s.fate = none) (h : Inv s) (hh : s.held = []) (hr : s.outPipe ≠ [] ∨ s.outOpen = false) (e : Env) :
    Any (stdout s e).2 ∧ ((stdout s e).1 = true → Inv (stdout s e).2 ∧ (stdout s e).2.fate = none) := by
  obtain ⟨h1, h2⟩ := held_nil h hh
  unfold stdout
  cases e.outRd with
  | fail =>
    simp only
    cases e.errnoO
    · exact ⟨Or.inl h, fun _ => ⟨h, hf⟩⟩
    · exact ⟨Or.inl (stop_Inv h), fun e => by cases e⟩
  | got n =>
    simp only
    by_cases hp : s.outPipe = []
    · rw [if_pos hp]
      have hs : Inv { s with outEmpty := true } := by
        refine ⟨⟨h.eqs.out, h.eqs.err, h.eqs.dropped⟩, ⟨fun _ => ⟨hp, hr.resolve_left (fun h => h hp)⟩, h.aux.held, fun e => ?_⟩⟩
        have e : s.fate = some .done := e
        rw [hf] at e; cases e
      exact ⟨Or.inl hs, fun _ => ⟨hs, hf⟩⟩
    · rw [if_neg hp]
      have := forward_Any (s := { s with outPipe := s.outPipe.drop (min (n + 1) bufSz) }) (ext := false)
        (b := s.outPipe.take (min (n + 1) bufSz)) hf hh
        (by rw [List.length_take]; omega)
        (by
          simp only [Bool.false_eq_true, if_false]
          rw [List.append_assoc, List.take_append_drop]; exact h1) (by simpa using h2) h.eqs.dropped
        (fun ho => absurd (h.aux.empty ho).1 hp) e.outSend
      exact ⟨this.1, fun e => ⟨(this.2 e).1, (this.2 e).2.2⟩⟩

theorem check_Inv {s : St} (_ : s.fate = none) (h : Inv s) (e : Env) : Inv (check s e) := by
  unfold check
  split
  · exact SameOut.inv (s := s) ⟨rfl, rfl, rfl, rfl, rfl, rfl, rfl, rfl, rfl, rfl, rfl, Or.inl rfl, fun _ => rfl, rfl⟩ h
  · exact h

theorem ready_or {p : Bytes} {o : Bool} (h : (p != [] || !o) = true) : p ≠ [] ∨ o = false := by
  cases o
  · exact Or.inr rfl
  · left; intro e; rw [e] at h; cases h

theorem reads_Any {pipes : Bool} {s : St} (hf : s.fate = none) (h : Inv s) (hh : s.held = []) (e : Env) (out err : Bool) :
    Any (reads pipes s e out err) := by
  unfold reads
  simp only
  have h1 : Any (if (pipes && err && (s.errPipe != [] || !s.errOpen)) = true then stderr s e else (true, s)).2 ∧
      ((if (pipes && err && (s.errPipe != [] || !s.errOpen)) = true then stderr s e else (true, s)).1 = true →
        Inv (if (pipes && err && (s.errPipe != [] || !s.errOpen)) = true then stderr s e else (true, s)).2 ∧
        (if (pipes && err && (s.errPipe != [] || !s.errOpen)) = true then stderr s e else (true, s)).2.held = [] ∧
        (if (pipes && err && (s.errPipe != [] || !s.errOpen)) = true then stderr s e else (true, s)).2.fate = none) := by
    by_cases hr : (pipes && err && (s.errPipe != [] || !s.errOpen)) = true
    · simp only [if_pos hr]; exact stderr_Any hf h hh e
    · simp only [if_neg hr]; exact ⟨Or.inl h, fun _ => ⟨h, hh, hf⟩⟩
  generalize (if (pipes && err && (s.errPipe != [] || !s.errOpen)) = true then stderr s e else (true, s)) = r1 at h1 ⊢
  by_cases hr1 : r1.1 = true
  · rw [if_pos hr1]
    obtain ⟨i1, i2, i3⟩ := h1.2 hr1
    by_cases hr : (out && (r1.2.outPipe != [] || !r1.2.outOpen)) = true
    · simp only [if_pos hr]
      have h2 := stdout_Any i3 i1 i2 (ready_or (Bool.and_eq_true_iff.1 hr).2) e
      by_cases hr2 : (stdout r1.2 e).1 = true
      · rw [if_pos hr2]; exact Or.inl (check_Inv (h2.2 hr2).2 (h2.2 hr2).1 e)
      · rw [if_neg hr2]; exact h2.1
    · simp only [if_neg hr, if_true]
      exact Or.inl (check_Inv i3 i1 e)
  · rw [if_neg hr1]; exact h1.1

theorem worker_fate {pipes : Bool} {s : St} {e : Env} (hf : s.fate = none) (h : (worker pipes s e).1 = true) :
    (worker pipes s e).2.fate = none := by
  unfold worker at h ⊢
  simp only at h ⊢
  cases hw : e.work with
  | data b =>
    simp only [hw] at h ⊢
    by_cases hh : s.held = []
    · rw [if_pos hh] at h ⊢
      unfold input at h ⊢
      simp only at h ⊢
      by_cases hd : (recv { s with wantWrite := false } b).chan.take bufSz = [] ∨ e.readFails = true
      · rw [if_pos hd] at h; cases h
      · rw [if_neg hd] at h ⊢
        by_cases hs : (recv { s with wantWrite := false } b).stdin = true
        · simp only [if_pos hs] at h ⊢
          cases ht : e.toChild with
          | none => rw [ht] at h; cases h
          | some n => exact hf
        · simp only [if_neg hs] at h; cases h
    · rw [if_neg hh]; exact hf
  | other => exact hf
  | closed => rw [hw] at h; cases h
  | wantWrite b eof => rw [hw] at h; cases h
  | rekeying b eof => rw [hw] at h; cases h
  | wantRead => exact hf
  | success eof =>
    simp only
    by_cases hb : ((s.eof || eof) && pipes) = true
    · rw [if_pos hb]; exact hf
    · rw [if_neg hb]; exact hf
  | fail => rw [hw] at h; cases h

theorem body_Any {pipes : Bool} {s : St} (hf : s.fate = none) (h : Inv s) (e : Env) (ssh out err : Bool) :
    Any (body pipes s e ssh out err) := by
  unfold body
  simp only
  have h1 : Inv (if (s.wantWrite || s.held != [] || ssh) = true then worker pipes s e else (true, s)).2 ∧
      ((if (s.wantWrite || s.held != [] || ssh) = true then worker pipes s e else (true, s)).1 = true →
        (if (s.wantWrite || s.held != [] || ssh) = true then worker pipes s e else (true, s)).2.fate = none) := by
    by_cases hw : (s.wantWrite || s.held != [] || ssh) = true
    · simp only [if_pos hw]; exact ⟨(worker_same pipes s e).inv h, fun h => worker_fate hf h⟩
    · simp only [if_neg hw]; exact ⟨h, fun _ => hf⟩
  generalize (if (s.wantWrite || s.held != [] || ssh) = true then worker pipes s e else (true, s)) = r1 at h1 ⊢
  by_cases hr1 : r1.1 = true
  · rw [if_pos hr1]
    have h2 := resend_Any (h1.2 hr1) h1.1 e
    by_cases hr2 : (resend r1.2 e).1 = true
    · rw [if_pos hr2]
      obtain ⟨a, b, c⟩ := h2.2 hr2
      exact reads_Any c a b e out err
    · rw [if_neg hr2]; exact h2.1
  · rw [if_neg hr1]; exact Or.inl h1.1

theorem turn_Any {pipes : Bool} {s : St} (hf : s.fate = none) (h : Inv s) (e : Env) : Any (turn pipes s e) := by
  have hc := child_Inv h e
  have hfc : (child s e).fate = none := hf
  unfold turn
  simp only
  by_cases h1 : (e.running || (child s e).held != [] || !(child s e).outEmpty || (child s e).peer) = true
  · rw [if_pos h1]
    by_cases h2 : (child s e).chan = [] ∨ e.keying = true ∨ (child s e).eof = true
    · rw [if_pos h2]
      cases e.sel with
      | intr => exact Or.inl hc
      | fail => exact Or.inl (stop_Inv hc)
      | ok ssh out err => exact body_Any hfc hc e ssh out err
    · rw [if_neg h2]; exact body_Any hfc hc e true false false
  · rw [if_neg h1]
    refine Or.inl ⟨⟨hc.eqs.out, hc.eqs.err, hc.eqs.dropped⟩, ⟨hc.aux.empty, hc.aux.held, fun _ => ?_⟩⟩
    have h1 := Bool.eq_false_iff.2 h1
    obtain ⟨h1, h2⟩ := Bool.or_eq_false_iff.1 h1
    obtain ⟨h1, h3⟩ := Bool.or_eq_false_iff.1 h1
    obtain ⟨_, h4⟩ := Bool.or_eq_false_iff.1 h1
    refine ⟨by simpa using h4, by simpa using h3, h2⟩

theorem run_Any (pipes : Bool) (es : List Env) : ∀ s, Any s → Any (run pipes es s) := by
  induction es with
  | nil => intro s h; exact h
  | cons e es ih =>
    intro s h
    show Any (if s.fate = none then run pipes es (turn pipes s e) else s)
    by_cases hf : s.fate = none
    · rw [if_pos hf]
      rcases h with h | h
      · exact ih _ (turn_Any hf h e)
      · rw [h.2.2.2] at hf; cases hf
    · rw [if_neg hf]; exact h

theorem init_Any : Any {} :=
  Or.inl ⟨⟨rfl, rfl, rfl⟩, ⟨fun e => (by cases e), Nat.zero_le _, fun e => (by cases e)⟩⟩

theorem reach (pipes : Bool) (es : List Env) : Any (run pipes es {}) := run_Any pipes es {} init_Any

/-! ## After the loop -/

theorem flushOut_prefix (t : Nat) : ∀ (rs : List (Send × Bool)) (b : Bytes), flushOut t rs b <+: b := by
  induction t with
  | zero => intro rs b; cases b <;> exact List.nil_prefix
  | succ t ih =>
    intro rs b
    cases b with
    | nil => exact List.nil_prefix
    | cons x b =>
      cases rs with
      | nil => exact List.nil_prefix
      | cons r rs =>
        obtain ⟨r, bad⟩ := r
        cases r with
        | fail => exact List.nil_prefix
        | sent n =>
          show (x :: b).take _ ++ flushOut t rs ((x :: b).drop _) <+: x :: b
          conv => rhs; rw [← List.take_append_drop (took n (x :: b).length) (x :: b)]
          exact (List.prefix_append_right_inj _).2 (ih rs _)
        | again =>
          show (if bad = true then [] else flushOut t rs (x :: b)) <+: _
          cases bad
          · exact ih rs _
          · exact List.nil_prefix
        | wantWrite =>
          show (if bad = true then [] else flushOut t rs (x :: b)) <+: _
          cases bad
          · exact ih rs _
          · exact List.nil_prefix

theorem finish_pre {pipes : Bool} {s : St} (h : Inv s) (hh : s.held = []) (f : Fin) :
    (finish pipes s f).sentOut <+: (finish pipes s f).wroteOut ∧ (finish pipes s f).sentErr <+: (finish pipes s f).wroteErr := by
  have hc := child_Inv h f.child
  obtain ⟨h1, h2⟩ := held_nil hc (show (child s f.child).held = [] from hh)
  have p1 : (child s f.child).sentOut ++ flushOut flushTries f.outSends ((child s f.child).outPipe.take bufSz) <+:
      (child s f.child).wroteOut := by
    rw [h1]
    exact (List.prefix_append_right_inj _).2 ((flushOut_prefix _ _ _).trans (List.take_prefix _ _))
  have p2 : (child s f.child).sentErr ++ flushOut flushTries f.errSends ((child s f.child).errPipe.take bufSz) <+:
      (child s f.child).wroteErr := by
    rw [h2]
    exact (List.prefix_append_right_inj _).2 ((flushOut_prefix _ _ _).trans (List.take_prefix _ _))
  unfold finish
  simp only
  cases pipes
  · exact ⟨hc.eqs.pre.out, hc.eqs.pre.err⟩
  · simp only [if_true]
    cases f.outNonblock <;> cases f.errNonblock
    · exact ⟨hc.eqs.pre.out, hc.eqs.pre.err⟩
    · exact ⟨hc.eqs.pre.out, p2⟩
    · exact ⟨p1, hc.eqs.pre.err⟩
    · exact ⟨p1, p2⟩

theorem flushOut_nil (t : Nat) (rs : List (Send × Bool)) : flushOut t rs [] = [] := by
  cases t <;> cases rs <;> rfl

theorem finish_all {pipes : Bool} {s : St} (h : Inv s) (hd : s.fate = some .done) (f : Fin) :
    (finish pipes s f).sentOut = (finish pipes s f).wroteOut ∧
    (pipes = true → f.errNonblock = true → (child s f.child).errPipe.length ≤ bufSz → Flushed f.errSends (child s f.child).errPipe →
      (finish pipes s f).sentErr = (finish pipes s f).wroteErr) := by
  have hc := child_Inv h f.child
  obtain ⟨a, b, _⟩ := h.aux.fate hd
  obtain ⟨h1, h2⟩ := held_nil hc (show (child s f.child).held = [] from a)
  have h3 := (hc.aux.empty (show (child s f.child).outEmpty = true from b)).1
  rw [h3, List.append_nil] at h1
  have e1 : (child s f.child).sentOut ++ flushOut flushTries f.outSends ((child s f.child).outPipe.take bufSz) =
      (child s f.child).wroteOut := by
    rw [h3, h1, List.take_nil, flushOut_nil, List.append_nil]
  unfold finish
  simp only
  cases pipes
  · exact ⟨h1.symm, fun e => by cases e⟩
  · simp only [if_true]
    refine ⟨?_, fun _ hn hl hfl => ?_⟩
    · cases f.outNonblock <;> cases f.errNonblock
      · exact h1.symm
      · exact h1.symm
      · exact e1
      · exact e1
    · rw [hn]
      have e2 : (child s f.child).sentErr ++ flushOut flushTries f.errSends ((child s f.child).errPipe.take bufSz) =
          (child s f.child).wroteErr := by
        rw [hfl, h2, List.take_of_length_le hl]
      cases f.outNonblock
      · exact e2
      · exact e2

/-! ## The end comes -/

theorem took_big {k : Nat} (h : k ≤ bufSz) : took 1000000 k = k := by
  unfold took
  have : bufSz = 32768 := rfl
  omega

/-- Only what is about sending differs. -/
structure Same (s t : St) : Prop where
  e1 : t.outOpen = s.outOpen
  e2 : t.errOpen = s.errOpen
  e3 : t.fate = s.fate
  e4 : t.chan = s.chan
  e5 : t.eof = s.eof

theorem Same.trans' {s t u : St} (h : Same s t) (h' : Same t u) : Same s u :=
  ⟨h'.e1.trans h.e1, h'.e2.trans h.e2, h'.e3.trans h.e3, h'.e4.trans h.e4, h'.e5.trans h.e5⟩

theorem resend_gone {s : St} (hh : s.held.length ≤ bufSz) : (resend s gone).1 = true ∧ (resend s gone).2.held = [] ∧
    (resend s gone).2.outPipe = s.outPipe ∧ Same s (resend s gone).2 := by
  unfold resend
  have hr : gone.resend = .sent 1000000 := rfl
  by_cases h : s.held = []
  · rw [if_pos h]; exact ⟨rfl, h, rfl, ⟨rfl, rfl, rfl, rfl, rfl⟩⟩
  · simp only [if_neg h, hr, took_big hh]
    have hd : s.held.drop s.held.length = [] := List.drop_length
    have hn : ¬ (s.held.drop s.held.length ≠ []) := fun h => h hd
    simp only [if_neg hn]
    refine ⟨trivial, hd, ?_, ?_⟩
    · cases s.ext <;> rfl
    · cases s.ext <;> exact ⟨rfl, rfl, rfl, rfl, rfl⟩

theorem forward_all (s : St) (ext : Bool) (b : Bytes) (hb : b.length ≤ bufSz) : forward s ext b (.sent 1000000) = (true, log s ext b) := by
  unfold forward
  simp only [took_big hb, Nat.lt_irrefl, if_false, List.take_length]

theorem stderr_gone (s : St) : (stderr s gone).1 = true ∧ (stderr s gone).2.held = s.held ∧ (stderr s gone).2.outPipe = s.outPipe ∧
    Same s (stderr s gone).2 := by
  unfold stderr
  have hr : gone.errRd = .got 1000000 := rfl
  have hn : gone.errnoE = false := rfl
  have hs : gone.errSend = .sent 1000000 := rfl
  simp only [hr, hn, hs]
  by_cases hp : s.errPipe = []
  · rw [if_pos hp]; exact ⟨rfl, rfl, rfl, ⟨rfl, rfl, rfl, rfl, rfl⟩⟩
  · have hl : (s.errPipe.take (min (1000000 + 1) bufSz)).length ≤ bufSz := by rw [List.length_take]; omega
    rw [if_neg hp, forward_all _ _ _ hl]
    exact ⟨rfl, rfl, rfl, ⟨rfl, rfl, rfl, rfl, rfl⟩⟩

theorem stdout_gone (s : St) : (stdout s gone).1 = true ∧ (stdout s gone).2.held = s.held ∧
    (stdout s gone).2.outPipe = s.outPipe.drop bufSz ∧ Same s (stdout s gone).2 ∧
    (s.outPipe = [] → (stdout s gone).2.outEmpty = true) := by
  unfold stdout
  have hr : gone.outRd = .got 1000000 := rfl
  have hs : gone.outSend = .sent 1000000 := rfl
  simp only [hr, hs]
  by_cases hp : s.outPipe = []
  · rw [if_pos hp]
    refine ⟨rfl, rfl, ?_, ⟨rfl, rfl, rfl, rfl, rfl⟩, fun _ => rfl⟩
    show s.outPipe = _
    rw [hp]; rfl
  · have hl : (s.outPipe.take (min (1000000 + 1) bufSz)).length ≤ bufSz := by rw [List.length_take]; omega
    rw [if_neg hp, forward_all _ _ _ hl]
    exact ⟨rfl, rfl, rfl, ⟨rfl, rfl, rfl, rfl, rfl⟩, fun h => absurd h hp⟩

theorem check_gone {s : St} (hh : s.held = []) : (check s gone).held = [] ∧ (check s gone).outPipe = s.outPipe ∧ Same s (check s gone) ∧
    (check s gone).outEmpty = s.outEmpty ∧ (s.outEmpty = true → (check s gone).peer = false) := by
  unfold check
  by_cases hc : (!gone.running2 && s.peer && s.outEmpty && s.held == []) = true
  · rw [if_pos hc]
    exact ⟨hh, rfl, ⟨rfl, rfl, rfl, rfl, rfl⟩, rfl, fun _ => rfl⟩
  · rw [if_neg hc]
    refine ⟨hh, rfl, ⟨rfl, rfl, rfl, rfl, rfl⟩, rfl, fun e => ?_⟩
    rw [hh, e] at hc
    cases hp : s.peer
    · rfl
    · rw [hp] at hc; exact absurd rfl hc

theorem reads_gone (pipes : Bool) {s : St} (hh : s.held = []) (ho : s.outOpen = false) :
    (reads pipes s gone true true).held = [] ∧ (reads pipes s gone true true).outPipe = s.outPipe.drop bufSz ∧
    Same s (reads pipes s gone true true) ∧
    (s.outPipe = [] → (reads pipes s gone true true).outEmpty = true ∧ (reads pipes s gone true true).peer = false) := by
  unfold reads
  simp only
  have h1 : (if (pipes && true && (s.errPipe != [] || !s.errOpen)) = true then stderr s gone else (true, s)).1 = true ∧
      (if (pipes && true && (s.errPipe != [] || !s.errOpen)) = true then stderr s gone else (true, s)).2.held = s.held ∧
      (if (pipes && true && (s.errPipe != [] || !s.errOpen)) = true then stderr s gone else (true, s)).2.outPipe = s.outPipe ∧
      Same s (if (pipes && true && (s.errPipe != [] || !s.errOpen)) = true then stderr s gone else (true, s)).2 := by
    by_cases hr : (pipes && true && (s.errPipe != [] || !s.errOpen)) = true
    · simp only [if_pos hr]; exact stderr_gone s
    · simp only [if_neg hr]; exact ⟨trivial, trivial, trivial, ⟨rfl, rfl, rfl, rfl, rfl⟩⟩
  generalize (if (pipes && true && (s.errPipe != [] || !s.errOpen)) = true then stderr s gone else (true, s)) = r1 at h1 ⊢
  obtain ⟨a1, a2, a3, a4⟩ := h1
  rw [if_pos a1]
  have hr : (true && (r1.2.outPipe != [] || !r1.2.outOpen)) = true := by
    rw [a4.e1, ho]; simp
  simp only [if_pos hr]
  obtain ⟨b1, b2, b3, b4, b5⟩ := stdout_gone r1.2
  rw [if_pos b1]
  obtain ⟨c1, c2, c3, c4, c5⟩ := check_gone (s := (stdout r1.2 gone).2) (by rw [b2, a2, hh])
  refine ⟨c1, by rw [c2, b3, a3], (a4.trans' b4).trans' c3, fun e => ?_⟩
  have := b5 (by rw [a3, e])
  exact ⟨by rw [c4, this], c5 this⟩

theorem body_gone (pipes : Bool) {s : St} (hh : s.held.length ≤ bufSz) (ho : s.outOpen = false) :
    (body pipes s gone true true true).held = [] ∧ (body pipes s gone true true true).outPipe = s.outPipe.drop bufSz ∧
    Same s (body pipes s gone true true true) ∧
    (s.outPipe = [] → (body pipes s gone true true true).outEmpty = true ∧ (body pipes s gone true true true).peer = false) := by
  unfold body
  have hw : (s.wantWrite || s.held != [] || true) = true := by simp
  have hk : worker pipes s gone = (true, { s with wantWrite := false }) := rfl
  simp only [if_pos hw, hk, if_true]
  obtain ⟨a1, a2, a3, a4⟩ := resend_gone (s := { s with wantWrite := false }) hh
  rw [if_pos a1]
  obtain ⟨b1, b2, b3, b4⟩ := reads_gone pipes a2 (a4.e1.trans ho)
  exact ⟨b1, by rw [b2, a3], Same.trans' (t := { s with wantWrite := false }) ⟨rfl, rfl, rfl, rfl, rfl⟩ (a4.trans' b3), fun e => b4 (by rw [a3]; exact e)⟩

/-- A turn after the child has gone reads some, or everything has been read and the next turn is the last. -/
theorem turn_gone (pipes : Bool) (s : St) (hf : s.fate = none) (hh : s.held.length ≤ bufSz) (hc : s.chan = [] ∨ s.eof = true)
    (hg : s.outOpen = false) (hge : s.errOpen = false) :
    (turn pipes s gone).fate = some .done ∨
    ((turn pipes s gone).fate = none ∧ (turn pipes s gone).held = [] ∧
      ((turn pipes s gone).chan = [] ∨ (turn pipes s gone).eof = true) ∧
      (turn pipes s gone).outOpen = false ∧ (turn pipes s gone).errOpen = false ∧
      (turn pipes s gone).outPipe = s.outPipe.drop bufSz ∧
      (s.outPipe = [] → (turn pipes s gone).outEmpty = true ∧ (turn pipes s gone).peer = false)) := by
  have hch : child s gone = s := by
    unfold child
    rw [hg, hge]
    cases s
    simp_all
  unfold turn
  simp only [hch]
  by_cases h1 : (gone.running || s.held != [] || !s.outEmpty || s.peer) = true
  · rw [if_pos h1]
    have h2 : s.chan = [] ∨ gone.keying = true ∨ s.eof = true := by
      rcases hc with h | h
      · exact Or.inl h
      · exact Or.inr (Or.inr h)
    rw [if_pos h2]
    have hs : gone.sel = .ok true true true := rfl
    simp only [hs]
    obtain ⟨a, b, c, d⟩ := body_gone pipes hh hg
    refine Or.inr ⟨c.e3.trans hf, a, ?_, c.e1.trans hg, c.e2.trans hge, b, d⟩
    rw [c.e4, c.e5]; exact hc
  · rw [if_neg h1]; exact Or.inl rfl

theorem run_fate (pipes : Bool) (es : List Env) (s : St) (h : s.fate ≠ none) : run pipes es s = s := by
  cases es with
  | nil => rfl
  | cons e es => exact if_neg h

theorem run_cons (pipes : Bool) (e : Env) (es : List Env) (s : St) (h : s.fate = none) :
    run pipes (e :: es) s = run pipes es (turn pipes s e) := if_pos h

theorem run_append (pipes : Bool) (a b : List Env) : ∀ s, run pipes (a ++ b) s = run pipes b (run pipes a s) := by
  induction a with
  | nil => intro s; rfl
  | cons e a ih =>
    intro s
    by_cases h : s.fate = none
    · rw [List.cons_append, run_cons _ _ _ _ h, run_cons _ _ _ _ h, ih]
    · rw [run_fate _ _ _ h, run_fate _ (e :: a) _ h, run_fate _ _ _ h]

/-- After the child has gone the loop ends. -/
theorem gone_ends (pipes : Bool) : ∀ (n : Nat) (s : St), s.outPipe.length ≤ n → s.fate = none → s.held.length ≤ bufSz →
    (s.chan = [] ∨ s.eof = true) → s.outOpen = false → s.errOpen = false →
    (run pipes (List.replicate (n + 2) gone) s).fate = some .done := by
  intro n
  induction n with
  | zero =>
    intro s hn hf hh hc hg hge
    have hp : s.outPipe = [] := List.length_eq_zero_iff.1 (by omega)
    show (run pipes (gone :: gone :: []) s).fate = _
    rw [run_cons _ _ _ _ hf]
    rcases turn_gone pipes s hf hh hc hg hge with h | ⟨h1, h2, h3, h4, h5, h6, h7⟩
    · rw [run_fate _ _ _ (by rw [h]; simp)]; exact h
    · rw [run_cons _ _ _ _ h1]
      show (turn pipes (turn pipes s gone) gone).fate = _
      obtain ⟨a, b⟩ := h7 hp
      have hch : child (turn pipes s gone) gone = turn pipes s gone := by
        unfold child
        rw [h4, h5]
        generalize turn pipes s gone = t at *
        cases t
        simp_all
      generalize turn pipes s gone = t at *
      unfold turn
      simp only [hch]
      rw [h2, a, b]
      rfl
  | succ n ih =>
    intro s hn hf hh hc hg hge
    show (run pipes (gone :: List.replicate (n + 2) gone) s).fate = _
    rw [run_cons _ _ _ _ hf]
    rcases turn_gone pipes s hf hh hc hg hge with h | ⟨h1, h2, h3, h4, h5, h6, _⟩
    · rw [run_fate _ _ _ (by rw [h]; simp)]; exact h
    · refine ih _ ?_ h1 (by rw [h2]; exact Nat.zero_le _) h3 h4 h5
      rw [h6, List.length_drop]
      have : bufSz = 32768 := rfl
      omega

/-! ## Input -/

/-- What is left of the client's bytes is handed over in order. -/
structure Inp (s : St) : Prop where
  sub : (s.given ++ s.chan).Sublist s.rcvd

theorem take_append_drop_sub (g c : Bytes) (n k : Nat) : (g ++ (c.take n).take k ++ c.drop n).Sublist (g ++ c) := by
  conv => rhs; rw [← List.take_append_drop n c]
  rw [List.append_assoc]
  exact List.Sublist.append (List.Sublist.refl _) (List.Sublist.append (List.take_sublist _ _) (List.Sublist.refl _))

theorem input_Inp {s : St} (h : Inp s) (e : Env) : Inp (input s e).2 := by
  have hd : (s.given ++ s.chan.drop bufSz).Sublist s.rcvd :=
    (List.Sublist.append (List.Sublist.refl _) (List.drop_sublist _ _)).trans h.sub
  unfold input
  simp only
  by_cases hc : s.chan.take bufSz = [] ∨ e.readFails = true
  · rw [if_pos hc]; exact ⟨hd⟩
  · rw [if_neg hc]
    cases s.stdin
    · exact ⟨hd⟩
    · simp only [if_true]
      cases e.toChild with
      | none => exact ⟨hd⟩
      | some n => exact ⟨(take_append_drop_sub _ _ _ _).trans h.sub⟩

theorem recv_Inp {s : St} (h : Inp s) (b : Bytes) : Inp (recv s b) := by
  refine ⟨?_⟩
  show (s.given ++ (s.chan ++ b)).Sublist (s.rcvd ++ b)
  rw [← List.append_assoc]
  exact List.Sublist.append h.sub (List.Sublist.refl _)

/-- The same input. -/
structure SameIn (s t : St) : Prop where
  i1 : t.given = s.given
  i2 : t.chan = s.chan
  i3 : t.rcvd = s.rcvd

theorem SameIn.inp {s t : St} (h : SameIn s t) (hi : Inp s) : Inp t := ⟨by rw [h.i1, h.i2, h.i3]; exact hi.sub⟩

theorem worker_Inp {pipes : Bool} {s : St} (h : Inp s) (e : Env) : Inp (worker pipes s e).2 := by
  unfold worker
  simp only
  have h0 : Inp { s with wantWrite := false } := ⟨h.sub⟩
  cases e.work with
  | data b =>
    simp only
    by_cases hh : s.held = []
    · rw [if_pos hh]; exact input_Inp (recv_Inp h0 b) e
    · rw [if_neg hh]; exact recv_Inp h0 b
  | other => exact h0
  | closed => exact ⟨h.sub⟩
  | wantWrite b eof => exact ⟨(recv_Inp h0 b).sub⟩
  | rekeying b eof => exact ⟨(recv_Inp h0 b).sub⟩
  | wantRead => exact h0
  | success eof =>
    simp only
    by_cases hb : ((s.eof || eof) && pipes) = true
    · rw [if_pos hb]; exact ⟨h.sub⟩
    · rw [if_neg hb]; exact ⟨h.sub⟩
  | fail => exact ⟨h.sub⟩

theorem log_in (s : St) (ext : Bool) (b : Bytes) : SameIn s (log s ext b) := by
  cases ext <;> exact ⟨rfl, rfl, rfl⟩

theorem resend_in (s : St) (e : Env) : SameIn s (resend s e).2 := by
  unfold resend
  by_cases hh : s.held = []
  · rw [if_pos hh]; exact ⟨rfl, rfl, rfl⟩
  rw [if_neg hh]
  cases e.resend with
  | again => exact ⟨rfl, rfl, rfl⟩
  | wantWrite => exact ⟨rfl, rfl, rfl⟩
  | fail => exact ⟨rfl, rfl, rfl⟩
  | sent n =>
    simp only
    have h := log_in s s.ext (s.held.take (took n s.held.length))
    by_cases hk : s.held.drop (took n s.held.length) ≠ []
    · rw [if_pos hk]; exact ⟨h.i1, h.i2, h.i3⟩
    · rw [if_neg hk]; exact ⟨h.i1, h.i2, h.i3⟩

theorem forward_in (s : St) (ext : Bool) (b : Bytes) (r : Send) : SameIn s (forward s ext b r).2 := by
  unfold forward
  cases r with
  | again => exact ⟨rfl, rfl, rfl⟩
  | wantWrite => exact ⟨rfl, rfl, rfl⟩
  | fail => exact ⟨rfl, rfl, rfl⟩
  | sent n =>
    simp only
    have h := log_in s ext (b.take (took n b.length))
    by_cases hk : took n b.length < b.length
    · rw [if_pos hk]; exact ⟨h.i1, h.i2, h.i3⟩
    · rw [if_neg hk]; exact h

theorem SameIn.trans' {s t u : St} (h : SameIn s t) (h' : SameIn t u) : SameIn s u :=
  ⟨h'.i1.trans h.i1, h'.i2.trans h.i2, h'.i3.trans h.i3⟩

theorem reads_in (pipes : Bool) (s : St) (e : Env) (out err : Bool) : SameIn s (reads pipes s e out err) := by
  have hr : SameIn s s := ⟨rfl, rfl, rfl⟩
  have h1 : SameIn s (stderr s e).2 := by
    unfold stderr
    cases e.errRd with
    | fail => cases e.errnoE <;> exact ⟨rfl, rfl, rfl⟩
    | got n =>
      simp only
      by_cases hp : s.errPipe = []
      · rw [if_pos hp]; cases e.errnoE <;> exact ⟨rfl, rfl, rfl⟩
      · rw [if_neg hp]
        have := forward_in { s with errPipe := s.errPipe.drop (min (n + 1) bufSz) } true (s.errPipe.take (min (n + 1) bufSz)) e.errSend
        exact ⟨this.i1, this.i2, this.i3⟩
  have h2 : ∀ s, SameIn s (stdout s e).2 := by
    intro s
    unfold stdout
    cases e.outRd with
    | fail => cases e.errnoO <;> exact ⟨rfl, rfl, rfl⟩
    | got n =>
      simp only
      by_cases hp : s.outPipe = []
      · rw [if_pos hp]; exact ⟨rfl, rfl, rfl⟩
      · rw [if_neg hp]
        have := forward_in { s with outPipe := s.outPipe.drop (min (n + 1) bufSz) } false (s.outPipe.take (min (n + 1) bufSz)) e.outSend
        exact ⟨this.i1, this.i2, this.i3⟩
  have h3 : ∀ s, SameIn s (check s e) := by
    intro s
    unfold check
    split
    · exact ⟨rfl, rfl, rfl⟩
    · exact ⟨rfl, rfl, rfl⟩
  unfold reads
  simp only
  have a : SameIn s (if (pipes && err && (s.errPipe != [] || !s.errOpen)) = true then stderr s e else (true, s)).2 := by
    by_cases h : (pipes && err && (s.errPipe != [] || !s.errOpen)) = true
    · rw [if_pos h]; exact h1
    · rw [if_neg h]; exact hr
  generalize (if (pipes && err && (s.errPipe != [] || !s.errOpen)) = true then stderr s e else (true, s)) = r1 at a ⊢
  by_cases hr1 : r1.1 = true
  · rw [if_pos hr1]
    by_cases h : (out && (r1.2.outPipe != [] || !r1.2.outOpen)) = true
    · simp only [if_pos h]
      by_cases hr2 : (stdout r1.2 e).1 = true
      · rw [if_pos hr2]; exact (a.trans' (h2 _)).trans' (h3 _)
      · rw [if_neg hr2]; exact a.trans' (h2 _)
    · simp only [if_neg h, if_true]
      exact a.trans' (h3 _)
  · rw [if_neg hr1]; exact a

/-- Whatever the worker keeps true of the input, a turn keeps true. -/
theorem turn_in {P : St → Prop} (hP : ∀ s t, SameIn s t → P s → P t) (e : Env) {s : St} (pipes : Bool)
    (hw : ∀ t, SameIn s t → P t → P (worker pipes t e).2) (h : P s) : P (turn pipes s e) := by
  have hc : SameIn s (child s e) := ⟨rfl, rfl, rfl⟩
  have hb : ∀ ssh out err, P (body pipes (child s e) e ssh out err) := by
    intro ssh out err
    unfold body
    simp only
    have a : P (if ((child s e).wantWrite || (child s e).held != [] || ssh) = true then worker pipes (child s e) e
        else (true, child s e)).2 := by
      by_cases h' : ((child s e).wantWrite || (child s e).held != [] || ssh) = true
      · rw [if_pos h']; exact hw _ hc (hP _ _ hc h)
      · rw [if_neg h']; exact hP _ _ hc h
    generalize (if ((child s e).wantWrite || (child s e).held != [] || ssh) = true then worker pipes (child s e) e
        else (true, child s e)) = r1 at a ⊢
    by_cases hr1 : r1.1 = true
    · rw [if_pos hr1]
      have b := hP _ _ (resend_in r1.2 e) a
      by_cases hr2 : (resend r1.2 e).1 = true
      · rw [if_pos hr2]; exact hP _ _ (reads_in pipes _ e out err) b
      · rw [if_neg hr2]; exact b
    · rw [if_neg hr1]; exact a
  unfold turn
  simp only
  by_cases h1 : (e.running || (child s e).held != [] || !(child s e).outEmpty || (child s e).peer) = true
  · rw [if_pos h1]
    by_cases h2 : (child s e).chan = [] ∨ e.keying = true ∨ (child s e).eof = true
    · rw [if_pos h2]
      cases e.sel with
      | intr => exact hP _ _ hc h
      | fail => exact hP _ _ (SameIn.trans' hc ⟨rfl, rfl, rfl⟩) h
      | ok ssh out err => exact hb ssh out err
    · rw [if_neg h2]; exact hb true false false
  · rw [if_neg h1]; exact hP s _ ⟨rfl, rfl, rfl⟩ h

theorem run_Inp (pipes : Bool) (es : List Env) : ∀ s, Inp s → Inp (run pipes es s) := by
  induction es with
  | nil => intro s h; exact h
  | cons e es ih =>
    intro s h
    show Inp (if s.fate = none then run pipes es (turn pipes s e) else s)
    by_cases hf : s.fate = none
    · rw [if_pos hf]
      exact ih _ (turn_in (fun _ _ a b => a.inp b) e pipes (fun _ _ h => worker_Inp h e) h)
    · rw [if_neg hf]; exact h

/-- Nothing of the client's is lost. -/
def All (s : St) : Prop := s.rcvd = s.given ++ s.chan

/-- Or the loop was left in that turn. -/
def AllOr (s : St) : Prop := All s ∨ (s.fate = some .broke ∧ s.given <+: s.rcvd)

theorem SameIn.all {s t : St} (h : SameIn s t) (hi : All s) : All t := by
  unfold All; rw [h.i1, h.i2, h.i3]; exact hi

theorem worker_All {pipes : Bool} {s : St} (h : All s) {e : Env} (hw : Whole e) :
    ((worker pipes s e).1 = true → All (worker pipes s e).2) ∧ AllOr (worker pipes s e).2 := by
  have hrecv : ∀ b, All (recv { s with wantWrite := false } b) := by
    intro b
    show s.rcvd ++ b = s.given ++ (s.chan ++ b)
    rw [← List.append_assoc, show s.rcvd = s.given ++ s.chan from h]
  have hpre : ∀ t : St, All t → t.given <+: t.rcvd := fun t ht => by
    rw [show t.rcvd = _ from ht]; exact List.prefix_append _ _
  have both : ∀ b : Bool, ∀ t : St, All t → ((b, t).1 = true → All (b, t).2) ∧ AllOr (b, t).2 :=
    fun b t ht => ⟨fun _ => ht, Or.inl ht⟩
  unfold worker
  simp only
  cases e.work with
  | data b =>
    simp only
    by_cases hh : s.held = []
    · rw [if_pos hh]
      have ht := hrecv b
      generalize recv { s with wantWrite := false } b = t at ht ⊢
      unfold input
      simp only
      have hlost : ∀ t' : St, t'.given = t.given → t'.rcvd = t.rcvd →
          ((false, stop t').1 = true → All (false, stop t').2) ∧ AllOr (false, stop t').2 := by
        intro t' e1 e2
        refine ⟨fun e => (by cases e), Or.inr ⟨rfl, ?_⟩⟩
        show t'.given <+: t'.rcvd
        rw [e1, e2]; exact hpre t ht
      by_cases hd : t.chan.take bufSz = [] ∨ e.readFails = true
      · rw [if_pos hd]; exact hlost _ rfl rfl
      · rw [if_neg hd]
        by_cases hs : t.stdin = true
        · simp only [if_pos hs]
          cases ht' : e.toChild with
          | none => exact hlost _ rfl rfl
          | some n =>
            refine both true _ ?_
            show t.rcvd = t.given ++ (t.chan.take bufSz).take (n + 1) ++ t.chan.drop bufSz
            have := hw.2 n ht'
            rw [List.take_of_length_le (by rw [List.length_take]; omega), List.append_assoc, List.take_append_drop]
            exact ht
        · simp only [if_neg hs]; exact hlost _ rfl rfl
    · rw [if_neg hh]; exact both true _ (hrecv b)
  | other => exact both true _ h
  | closed => exact both false _ h
  | wantWrite b eof => exact both false _ (hrecv b)
  | rekeying b eof => exact both false _ (hrecv b)
  | wantRead => exact both true _ h
  | success eof =>
    simp only
    by_cases hb : ((s.eof || eof) && pipes) = true
    · rw [if_pos hb]; exact ⟨fun _ => h, Or.inl h⟩
    · rw [if_neg hb]; exact ⟨fun _ => h, Or.inl h⟩
  | fail => exact both false _ h

theorem turn_All {pipes : Bool} {s : St} (h : All s) {e : Env} (hw : Whole e) : AllOr (turn pipes s e) := by
  have hc : All (child s e) := SameIn.all (s := s) ⟨rfl, rfl, rfl⟩ h
  have hb : ∀ ssh out err, AllOr (body pipes (child s e) e ssh out err) := by
    intro ssh out err
    unfold body
    simp only
    have a : ((if ((child s e).wantWrite || (child s e).held != [] || ssh) = true then worker pipes (child s e) e
        else (true, child s e)).1 = true → All (if ((child s e).wantWrite || (child s e).held != [] || ssh) = true then
        worker pipes (child s e) e else (true, child s e)).2) ∧
        AllOr (if ((child s e).wantWrite || (child s e).held != [] || ssh) = true then worker pipes (child s e) e
        else (true, child s e)).2 := by
      by_cases h' : ((child s e).wantWrite || (child s e).held != [] || ssh) = true
      · simp only [if_pos h']; exact worker_All hc hw
      · simp only [if_neg h']; exact ⟨fun _ => hc, Or.inl hc⟩
    generalize (if ((child s e).wantWrite || (child s e).held != [] || ssh) = true then worker pipes (child s e) e
        else (true, child s e)) = r1 at a ⊢
    by_cases hr1 : r1.1 = true
    · rw [if_pos hr1]
      have b := (resend_in r1.2 e).all (a.1 hr1)
      by_cases hr2 : (resend r1.2 e).1 = true
      · rw [if_pos hr2]; exact Or.inl ((reads_in pipes _ e out err).all b)
      · rw [if_neg hr2]; exact Or.inl b
    · rw [if_neg hr1]; exact a.2
  unfold turn
  simp only
  by_cases h1 : (e.running || (child s e).held != [] || !(child s e).outEmpty || (child s e).peer) = true
  · rw [if_pos h1]
    by_cases h2 : (child s e).chan = [] ∨ e.keying = true ∨ (child s e).eof = true
    · rw [if_pos h2]
      cases e.sel with
      | intr => exact Or.inl hc
      | fail => exact Or.inl hc
      | ok ssh out err => exact hb ssh out err
    · rw [if_neg h2]; exact hb true false false
  · rw [if_neg h1]; exact Or.inl hc

theorem run_All (pipes : Bool) (es : List Env) (hw : ∀ e ∈ es, Whole e) : ∀ s, AllOr s → AllOr (run pipes es s) := by
  induction es with
  | nil => intro s h; exact h
  | cons e es ih =>
    intro s h
    show AllOr (if s.fate = none then run pipes es (turn pipes s e) else s)
    by_cases hf : s.fate = none
    · rw [if_pos hf]
      refine ih (fun e he => hw e (List.mem_cons_of_mem _ he)) _ ?_
      rcases h with h | h
      · exact turn_All h (hw e List.mem_cons_self)
      · rw [h.1] at hf; cases hf
    · rw [if_neg hf]; exact h

/-! ## Input that is stuck -/

/-- With unread data of the client nothing is read from the child, and a quiet turn leaves everything as it is. -/
theorem turn_stuck (pipes : Bool) {s : St} (hf : s.fate = none) (hh : s.held = []) (hc : s.chan ≠ []) (he : s.eof = false)
    (ho : s.outEmpty = false) {e : Env} (hq : Quiet e) (hk : e.keying = false) :
    (turn pipes s e).fate = none ∧ (turn pipes s e).held = [] ∧ (turn pipes s e).chan = s.chan ∧ (turn pipes s e).eof = false ∧
    (turn pipes s e).outEmpty = false ∧ (turn pipes s e).given = s.given ∧ (turn pipes s e).sentOut = s.sentOut ∧
    (turn pipes s e).sentErr = s.sentErr := by
  unfold turn
  simp only
  have h1 : (e.running || (child s e).held != [] || !(child s e).outEmpty || (child s e).peer) = true := by
    show (e.running || s.held != [] || !s.outEmpty || s.peer) = true
    rw [ho]; simp
  have h2 : ¬ ((child s e).chan = [] ∨ e.keying = true ∨ (child s e).eof = true) := by
    show ¬ (s.chan = [] ∨ e.keying = true ∨ s.eof = true)
    rw [he, hk]; simpa using hc
  rw [if_pos h1, if_neg h2]
  unfold body
  have hw : ((child s e).wantWrite || (child s e).held != [] || true) = true := by simp
  have hwk : worker pipes (child s e) e = (true, { child s e with wantWrite := false }) := by
    unfold worker
    rcases hq with h | h | h
    · rw [h]
    · rw [h]
      show (true, if ((s.eof || false) && pipes) = true then _ else _) = _
      rw [he]
      simp only [Bool.or_self, Bool.false_and, Bool.false_eq_true, if_false]
      congr 1
      show ({ child s e with wantWrite := false, eof := s.eof || false } : St) = _
      rw [he]
      show ({ child s e with wantWrite := false, eof := false } : St) = { child s e with wantWrite := false }
      rw [← show (child s e).eof = false from he]
    · rw [h]
  simp only [if_pos hw, hwk, if_true]
  have hr : resend { child s e with wantWrite := false } e = (true, { child s e with wantWrite := false }) := if_pos hh
  simp only [hr, if_true]
  unfold reads
  simp only [Bool.and_false, Bool.false_and, Bool.false_eq_true, if_false, if_true]
  unfold check
  rw [if_neg (by
    show ¬ ((!e.running2 && s.peer && s.outEmpty && s.held == []) = true)
    rw [ho]; simp)]
  exact ⟨hf, hh, rfl, he, ho, rfl, rfl, rfl⟩

theorem run_stuck (pipes : Bool) (es : List Env) (hq : ∀ e ∈ es, Quiet e ∧ e.keying = false) : ∀ s : St, s.fate = none → s.held = [] →
    s.chan ≠ [] → s.eof = false → s.outEmpty = false →
    (run pipes es s).fate = none ∧ (run pipes es s).chan = s.chan ∧ (run pipes es s).given = s.given ∧
    (run pipes es s).sentOut = s.sentOut ∧ (run pipes es s).sentErr = s.sentErr := by
  induction es with
  | nil => intro s hf _ _ _ _; exact ⟨hf, rfl, rfl, rfl, rfl⟩
  | cons e es ih =>
    intro s hf hh hc he ho
    rw [run_cons _ _ _ _ hf]
    obtain ⟨hq1, hk⟩ := hq e List.mem_cons_self
    obtain ⟨a1, a2, a3, a4, a5, a6, a7, a8⟩ := turn_stuck pipes hf hh hc he ho hq1 hk
    obtain ⟨b1, b2, b3, b4, b5⟩ := ih (fun e he => hq e (List.mem_cons_of_mem _ he)) (turn pipes s e) a1 a2 (by rw [a3]; exact hc) a4 a5
    exact ⟨b1, b2.trans a3, b3.trans a6, b4.trans a7, b5.trans a8⟩

end Proofs.SshdShell
