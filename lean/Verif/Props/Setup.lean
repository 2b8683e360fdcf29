import Verif.Proofs.Setup
/-!
# C123, C124: how a client sets up its session
-/

namespace Props.Setup
open Wolf.Setup Spec.Setup Proofs.Setup

/-- A call whose transport takes everything and whose server answers yes. -/
def good : Env := { rx := [.confirm false false, .answer true false false] }

/-- A call whose transport takes nothing. -/
def stalled : Env := { flush := .blocked, out := fun _ => .blocked }

/-- **C123.** However often `wolfSSH_connect` is called, wherever writing stalls and whatever arrives, what is
put into the output buffer is a beginning of the expected messages: none twice, none missing in between, none out of order. -/
theorem C123_once (c : Cfg) (es : List Env) : (run c es {}).log <+: expected c :=
  (run_Inv c es _ (init_Inv c)).prefix

/-- When a call succeeds all of them have been. -/
theorem C123_all (c : Cfg) (es : List Env) (e : Env) (hd : (run c es {}).dead = false)
    (h : (connect c e (run c es {})).1 = true) : (connect c e (run c es {})).2.log = expected c := by
  have := connect_Q (run_Inv c es _ (init_Inv c)) hd e
  unfold Q at this
  rw [if_pos h] at this
  have h2 := this.lo; have h3 := this.hi
  rw [this.log, show (connect c e (run c es {})).2.stage = 16 by omega]
  rfl

private theorem good10 (pending opened done agent pty : Bool) (log : List Msg) (answers : List Bool) :
    (connect ⟨agent, pty⟩ good ⟨10, pending, log, opened, done, answers, false⟩).1 = true := by
  cases pending <;> cases opened <;> cases done <;> cases agent <;> cases pty <;> rfl

private theorem good11 (pending opened done agent pty : Bool) (log : List Msg) (answers : List Bool) :
    (connect ⟨agent, pty⟩ good ⟨11, pending, log, opened, done, answers, false⟩).1 = true := by
  cases pending <;> cases opened <;> cases done <;> cases agent <;> cases pty <;> rfl

private theorem good12 (pending opened done agent pty : Bool) (log : List Msg) (answers : List Bool) :
    (connect ⟨agent, pty⟩ good ⟨12, pending, log, opened, done, answers, false⟩).1 = true := by
  cases pending <;> cases opened <;> cases done <;> cases agent <;> cases pty <;> rfl

private theorem good13 (pending opened done agent pty : Bool) (log : List Msg) (answers : List Bool) :
    (connect ⟨agent, pty⟩ good ⟨13, pending, log, opened, done, answers, false⟩).1 = true := by
  cases pending <;> cases opened <;> cases done <;> cases agent <;> cases pty <;> rfl

private theorem good14 (pending opened done agent pty : Bool) (log : List Msg) (answers : List Bool) :
    (connect ⟨agent, pty⟩ good ⟨14, pending, log, opened, done, answers, false⟩).1 = true := by
  cases pending <;> cases opened <;> cases done <;> cases agent <;> cases pty <;> rfl

private theorem good15 (pending opened done agent pty : Bool) (log : List Msg) (answers : List Bool) :
    (connect ⟨agent, pty⟩ good ⟨15, pending, log, opened, done, answers, false⟩).1 = true := by
  cases pending <;> cases opened <;> cases done <;> cases agent <;> cases pty <;> rfl

private theorem good16 (pending opened done agent pty : Bool) (log : List Msg) (answers : List Bool) :
    (connect ⟨agent, pty⟩ good ⟨16, pending, log, opened, done, answers, false⟩).1 = true := by
  cases pending <;> cases opened <;> cases done <;> cases agent <;> cases pty <;> rfl

/-- And nothing has to be done again: after any calls that only reported "want read" or "want write", one call with a
willing transport and server succeeds. -/
theorem C123_progress (c : Cfg) (es : List Env) (hd : (run c es {}).dead = false) :
    (connect c good (run c es {})).1 = true := by
  have hi := run_Inv c es _ (init_Inv c)
  generalize run c es {} = s at *
  obtain ⟨stage, pending, log, opened, done, answers, dead⟩ := s
  have h1 := hi.lo
  have h2 := hi.hi
  simp only at h1 h2 hd
  subst hd
  have : stage = 10 ∨ stage = 11 ∨ stage = 12 ∨ stage = 13 ∨ stage = 14 ∨ stage = 15 ∨ stage = 16 := by omega
  obtain ⟨agent, pty⟩ := c
  clear hi
  rcases this with rfl | rfl | rfl | rfl | rfl | rfl | rfl
  · exact good10 ..
  · exact good11 ..
  · exact good12 ..
  · exact good13 ..
  · exact good14 ..
  · exact good15 ..
  · exact good16 ..

/-- The finding at C123: `wolfSSH_worker` between two calls writes the buffer without `wolfSSH_connect` noticing, and the
request is sent twice. -/
theorem C123_worker : ∃ (c : Cfg) (e : Env), (run c [e] {}).dead = false ∧
    (connect c good (workerFlush (run c [e] {}))).2.log = [.open, .session, .session] :=
  ⟨⟨false, false⟩, { out := fun n => if n = 14 then .blocked else .written, rx := [.confirm false false] }, by decide +kernel,
    by decide +kernel⟩

/-- **C124**, in part: when `wolfSSH_connect` has succeeded, the server has accepted the session request if no terminal was
asked for, and the terminal if one was. The full statement: the session request in both cases. -/
theorem C124_partial (c : Cfg) (es : List Env) (pty session : Bool) (h : Answered c pty session (run c es {}).answers)
    (hs : (run c es {}).stage = 16) : (c.pty = false → session = true) ∧ (c.pty = true → pty = true) := by
  have hi := run_Inv2 c es _ init_Inv2
  have hh := hi.head (hi.fin hs)
  unfold Answered at h
  obtain ⟨t, ht⟩ := h
  generalize (run c es {}).answers = l at *
  cases l with
  | nil => cases hh
  | cons a l =>
    have ha : a = true := by simpa using hh
    subst ha
    constructor
    · intro hp
      rw [hp] at ht
      have : true = session := by simpa using (List.cons.inj ht).1
      exact this.symm
    · intro hp
      rw [hp] at ht
      have : true = pty := by simpa using (List.cons.inj ht).1
      exact this.symm

/-- A call that succeeds ends in that state, and one that meets a refusal fails for good. -/
theorem C124_success (c : Cfg) (es : List Env) (e : Env) (hd : (run c es {}).dead = false)
    (h : (connect c e (run c es {})).1 = true) : (run c (es ++ [e]) {}).stage = 16 ∧ false ∉ (run c (es ++ [e]) {}).answers := by
  have hrun : ∀ (es : List Env) (s : St), (run c es s).dead = false → run c (es ++ [e]) s = (connect c e (run c es s)).2 := by
    intro es
    induction es with
    | nil =>
      intro s hd
      have hd : s.dead = false := hd
      show (if s.dead = true then s else (connect c e s).2) = (connect c e s).2
      rw [hd]; rfl
    | cons x xs ih =>
      intro s hd
      show (if s.dead = true then s else run c (xs ++ [e]) (connect c x s).2) = _
      by_cases hx : s.dead = true
      · have : run c (x :: xs) s = s := by show (if s.dead = true then s else _) = s; rw [if_pos hx]
        rw [this, hx] at hd; cases hd
      · rw [if_neg hx]
        have : run c (x :: xs) s = run c xs (connect c x s).2 := by
          show (if s.dead = true then s else _) = _; rw [if_neg hx]
        rw [this] at hd ⊢
        exact ih _ hd
  have hq := connect_Q (run_Inv c es _ (init_Inv c)) hd e
  unfold Q at hq
  rw [if_pos h] at hq
  have h2 := hq.lo; have h3 := hq.hi
  rw [hrun es {} hd]
  refine ⟨by omega, fun hf => ?_⟩
  have hi := connect_Inv2 c (run_Inv2 c es _ init_Inv2) hd e
  cases hi.all hq.alive _ hf

/-- The finding at C124: with a terminal the answer to the terminal request ends the setup; the refusal of the shell
comes after `wolfSSH_connect` has succeeded. -/
theorem C124_terminal : ∃ (c : Cfg) (e : Env), (connect c e {}).1 = true ∧ (connect c e {}).2.answers = [true] ∧
    Answered c true false (connect c e {}).2.answers :=
  ⟨⟨false, true⟩, good, by decide +kernel, by decide +kernel, ⟨[false], by decide +kernel⟩⟩

/-! ## The hypotheses are met -/

example : (run ⟨true, true⟩ [stalled, stalled, good] {}).log = [.open, .agent, .pty, .session] ∧
    (run ⟨true, true⟩ [stalled, stalled] {}).log = [.open] := by decide +kernel

example : (run ⟨true, false⟩ [stalled, { rx := [.other true true] }] {}).dead = false ∧
    (connect ⟨true, false⟩ good (run ⟨true, false⟩ [stalled, { rx := [.other true true] }] {})).1 = true := by decide +kernel

example : (run ⟨false, false⟩ [good] {}).stage = 16 ∧ (run ⟨false, false⟩ [good] {}).answers = [true] := by decide +kernel

example : (run ⟨false, false⟩ [{ rx := [.confirm false false, .answer false false false] }] {}).dead = true := by decide +kernel

end Props.Setup
