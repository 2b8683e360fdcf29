import Verif.Spec.Setup
/-! Invariants of the end of `wolfSSH_connect`. -/

namespace Proofs.Setup
open Wolf.Setup Spec.Setup

/-- What is queued before a state. -/
def upto (c : Cfg) : Nat → List Msg
  | 10 => []
  | 11 => [.open]
  | 12 => [.open]
  | 13 => [.open] ++ (if c.agent then [.agent] else [])
  | 14 => [.open] ++ (if c.agent then [.agent] else []) ++ (if c.pty then [.pty] else [])
  | _ => expected c

/-- During a call. -/
structure Good (c : Cfg) (n : Nat) (s : St) : Prop where
  alive : s.dead = false
  lo : n ≤ s.stage
  hi : s.stage ≤ 16
  log : s.log = upto c s.stage

/-- Between calls. -/
structure Inv (c : Cfg) (s : St) : Prop where
  lo : 10 ≤ s.stage
  hi : s.stage ≤ 16
  log : (s.dead = true ∧ s.log <+: expected c) ∨
    (s.dead = false ∧
      ((s.pending = true ∧ (s.stage = 10 ∨ s.stage = 12 ∨ s.stage = 13 ∨ s.stage = 14) ∧ s.log = upto c (s.stage + 1)) ∨
       ((s.stage = 11 ∨ s.stage = 15 ∨ s.stage = 16 ∨ s.pending = false) ∧ s.log = upto c s.stage)))

theorem upto_prefix (c : Cfg) (n : Nat) : upto c n <+: expected c := by
  unfold upto
  split
  · exact List.nil_prefix
  · exact ⟨(if c.agent then [.agent] else []) ++ (if c.pty then [.pty] else []) ++ [.session], by simp [expected]⟩
  · exact ⟨(if c.agent then [.agent] else []) ++ (if c.pty then [.pty] else []) ++ [.session], by simp [expected]⟩
  · exact ⟨(if c.pty then [.pty] else []) ++ [.session], by simp [expected]⟩
  · exact ⟨[.session], by simp [expected]⟩
  · exact List.prefix_refl _

theorem Inv.prefix {c : Cfg} {s : St} (h : Inv c s) : s.log <+: expected c := by
  rcases h.log with ⟨_, h⟩ | ⟨_, ⟨_, _, h⟩ | ⟨_, h⟩⟩
  · exact h
  · rw [h]; exact upto_prefix _ _
  · rw [h]; exact upto_prefix _ _

/-- The result of a part of a call. -/
def Q (c : Cfg) (n : Nat) (r : Bool × St) : Prop := if r.1 = true then Good c n r.2 else Inv c r.2

theorem Q.andThen {c : Cfg} {n m : Nat} {r : Bool × St} {f : St → Bool × St} (h : Q c n r)
    (hf : ∀ s, Good c n s → Q c m (f s)) : Q c m (andThen r f) := by
  unfold Wolf.Setup.andThen
  unfold Q at h
  by_cases hr : r.1 = true
  · rw [if_pos hr] at h ⊢; exact hf _ h
  · rw [if_neg hr] at h ⊢; unfold Q; rw [if_neg hr]; exact h

theorem Good.dead {c : Cfg} {n : Nat} {s : St} (h : Good c n s) (hn : 10 ≤ n) : Inv c { s with dead := true } :=
  ⟨by have := h.lo; show 10 ≤ s.stage; omega, h.hi, Or.inl ⟨rfl, by show s.log <+: _; rw [h.log]; exact upto_prefix _ _⟩⟩

theorem send_Q {c : Cfg} {n : Nat} {s : St} (h : Good c n s) (hn : 10 ≤ n) {m : Msg} {o : Out}
    (hs : s.stage = 10 ∨ s.stage = 12 ∨ s.stage = 13 ∨ s.stage = 14)
    (hm : upto c s.stage ++ [m] = upto c (s.stage + 1)) : Q c (s.stage + 1) (send s m o (s.stage + 1)) := by
  cases o with
  | written =>
    exact ⟨h.alive, Nat.le_refl _, by show s.stage + 1 ≤ 16; omega, by show s.log ++ [m] = upto c (s.stage + 1); rw [h.log, hm]⟩
  | blocked =>
    exact ⟨by have := h.lo; show 10 ≤ s.stage; omega, h.hi,
      Or.inr ⟨h.alive, Or.inl ⟨rfl, hs, by show s.log ++ [m] = upto c (s.stage + 1); rw [h.log, hm]⟩⟩⟩
  | failed => exact h.dead hn

theorem flush_Q {c : Cfg} {s : St} (h : Inv c s) (hd : s.dead = false) (o : Out) : Q c 10 (flush s o) := by
  have hl := h.log
  rw [hd] at hl
  rcases hl with ⟨h', _⟩ | ⟨_, hl⟩
  · cases h'
  unfold flush
  by_cases hp : s.pending = true ∧ s.stage < 16
  · rw [if_pos hp]
    cases o with
    | written =>
      rcases hl with ⟨_, hs, hl⟩ | ⟨hs, hl⟩
      · have : s.stage ≠ 11 ∧ s.stage ≠ 15 := by omega
        have h1 := h.lo
        exact ⟨hd, by simp only [if_pos this]; omega, by simp only [if_pos this]; omega, by simp only [if_pos this]; exact hl⟩
      · have : ¬ (s.stage ≠ 11 ∧ s.stage ≠ 15) := by
          rcases hs with hs | hs | hs | hs
          · omega
          · omega
          · omega
          · rw [hs] at hp; cases hp.1
        exact ⟨hd, by simp only [if_neg this]; exact h.lo, by simp only [if_neg this]; exact h.hi,
          by simp only [if_neg this]; exact hl⟩
    | blocked => exact h
    | failed => exact ⟨h.lo, h.hi, Or.inl ⟨rfl, h.prefix⟩⟩
  · rw [if_neg hp]
    rcases hl with ⟨h1, hs, _⟩ | ⟨_, hl⟩
    · exact absurd ⟨h1, by omega⟩ hp
    · exact ⟨hd, h.lo, h.hi, hl⟩

/-- Receiving changes neither the state of the connection nor what was queued. -/
theorem receive_frame (s : St) (rx : Rx) : (receive s rx).2.stage = s.stage ∧ (receive s rx).2.log = s.log ∧
    ((receive s rx).1 = true → (receive s rx).2.dead = s.dead) := by
  cases rx with
  | nothing => exact ⟨rfl, rfl, fun _ => rfl⟩
  | confirm p q => exact ⟨rfl, rfl, fun _ => rfl⟩
  | answer ok p q => cases ok <;> exact ⟨rfl, rfl, fun h => by first | rfl | cases h⟩
  | other p q => exact ⟨rfl, rfl, fun _ => rfl⟩
  | error => exact ⟨rfl, rfl, fun h => by cases h⟩

theorem wait_frame (cond : St → Bool) (rxs : List Rx) (s : St) :
    (wait cond rxs s).2.1.stage = s.stage ∧ (wait cond rxs s).2.1.log = s.log ∧
    ((wait cond rxs s).1 = true → (wait cond rxs s).2.1.dead = s.dead ∧ cond (wait cond rxs s).2.1 = true) := by
  induction rxs generalizing s with
  | nil =>
    unfold wait
    by_cases hc : cond s = true
    · rw [if_pos hc]; exact ⟨rfl, rfl, fun _ => ⟨rfl, hc⟩⟩
    · rw [if_neg hc]; exact ⟨rfl, rfl, fun h => by cases h⟩
  | cons rx rest ih =>
    unfold wait
    by_cases hc : cond s = true
    · rw [if_pos hc]; exact ⟨rfl, rfl, fun _ => ⟨rfl, hc⟩⟩
    · rw [if_neg hc]
      simp only
      obtain ⟨f1, f2, f3⟩ := receive_frame s rx
      by_cases hr : (receive s rx).1 = true
      · rw [if_pos hr]
        obtain ⟨g1, g2, g3⟩ := ih (receive s rx).2
        exact ⟨g1.trans f1, g2.trans f2, fun h => ⟨((g3 h).1).trans (f3 hr), (g3 h).2⟩⟩
      · rw [if_neg hr]
        exact ⟨f1, f2, fun h => by cases h⟩

theorem after_wait {c : Cfg} {n : Nat} {s s' : St} (h : Good c n s) (hn : 10 ≤ n) (h1 : s'.stage = s.stage)
    (h2 : s'.log = s.log) (h3 : s.stage = 11 ∨ s.stage = 15) : Inv c s' := by
  refine ⟨by rw [h1]; have := h.lo; omega, by rw [h1]; exact h.hi, ?_⟩
  cases hd : s'.dead with
  | true => exact Or.inl ⟨rfl, by rw [h2, h.log]; exact upto_prefix _ _⟩
  | false =>
    refine Or.inr ⟨rfl, Or.inr ⟨?_, by rw [h1, h2]; exact h.log⟩⟩
    rw [h1]
    rcases h3 with h3 | h3
    · exact Or.inl h3
    · exact Or.inr (Or.inl h3)

theorem at10_Q {c : Cfg} {s : St} (h : Good c 10 s) (e : Env) : Q c 11 (at10 e s) := by
  unfold at10
  by_cases hs : s.stage = 10
  · rw [if_pos hs]
    have := send_Q (m := .open) (o := e.out 10) h (by omega) (Or.inl hs) (by rw [hs]; rfl)
    rw [hs] at this; exact this
  · rw [if_neg hs]
    exact ⟨h.alive, by have := h.lo; show 11 ≤ s.stage; omega, h.hi, h.log⟩

theorem at11_Q {c : Cfg} {s : St} (h : Good c 11 s) (e : Env) : Q c 12 ((at11 e s).1, (at11 e s).2.1) := by
  unfold at11
  by_cases hs : s.stage = 11
  · rw [if_pos hs]
    obtain ⟨f1, f2, f3⟩ := wait_frame (·.opened) e.rx s
    unfold Q
    simp only
    by_cases hr : (wait (·.opened) e.rx s).1 = true
    · rw [if_pos hr, if_pos hr]
      exact ⟨(f3 hr).1.trans h.alive, Nat.le_refl _, show 12 ≤ 16 by decide, by
        show (wait (·.opened) e.rx s).2.1.log = _; rw [f2, h.log, hs]; rfl⟩
    · rw [if_neg hr, if_neg hr]
      exact after_wait h (by omega) f1 f2 (Or.inl hs)
  · rw [if_neg hs]
    exact ⟨h.alive, by have := h.lo; show 12 ≤ s.stage; omega, h.hi, h.log⟩

theorem at12_Q {c : Cfg} {s : St} (h : Good c 12 s) (e : Env) : Q c 13 (at12 c e s) := by
  unfold at12
  by_cases hs : s.stage = 12
  · rw [if_pos hs]
    by_cases ha : c.agent = true
    · rw [if_pos ha]
      have := send_Q (m := .agent) (o := e.out 12) h (by omega) (Or.inr (Or.inl hs)) (by rw [hs]; simp [upto, ha])
      rw [hs] at this; exact this
    · rw [if_neg ha]
      exact ⟨h.alive, Nat.le_refl _, show 13 ≤ 16 by decide, by show s.log = _; rw [h.log, hs]; simp [upto, ha]⟩
  · rw [if_neg hs]
    exact ⟨h.alive, by have := h.lo; show 13 ≤ s.stage; omega, h.hi, h.log⟩

theorem at13_Q {c : Cfg} {s : St} (h : Good c 13 s) (e : Env) : Q c 14 (at13 c e s) := by
  unfold at13
  by_cases hs : s.stage = 13
  · rw [if_pos hs]
    by_cases ha : c.pty = true
    · rw [if_pos ha]
      have := send_Q (m := .pty) (o := e.out 13) h (by omega) (Or.inr (Or.inr (Or.inl hs))) (by rw [hs]; simp [upto, ha])
      rw [hs] at this; exact this
    · rw [if_neg ha]
      exact ⟨h.alive, Nat.le_refl _, show 14 ≤ 16 by decide, by show s.log = _; rw [h.log, hs]; simp [upto, ha]⟩
  · rw [if_neg hs]
    exact ⟨h.alive, by have := h.lo; show 14 ≤ s.stage; omega, h.hi, h.log⟩

theorem at14_Q {c : Cfg} {s : St} (h : Good c 14 s) (e : Env) : Q c 15 (at14 e s) := by
  unfold at14
  by_cases hs : s.stage = 14
  · rw [if_pos hs]
    have := send_Q (m := .session) (o := e.out 14) h (by omega) (Or.inr (Or.inr (Or.inr hs))) (by rw [hs]; rfl)
    rw [hs] at this; exact this
  · rw [if_neg hs]
    exact ⟨h.alive, by have := h.lo; show 15 ≤ s.stage; omega, h.hi, h.log⟩

theorem at15_Q {c : Cfg} {s : St} (h : Good c 15 s) (rx : List Rx) : Q c 16 (at15 rx s) := by
  unfold at15
  by_cases hs : s.stage = 15
  · rw [if_pos hs]
    obtain ⟨f1, f2, f3⟩ := wait_frame (·.done) rx s
    unfold Q
    simp only
    by_cases hr : (wait (·.done) rx s).1 = true
    · rw [if_pos hr, if_pos hr]
      exact ⟨(f3 hr).1.trans h.alive, Nat.le_refl _, show 16 ≤ 16 by decide, by
        show (wait (·.done) rx s).2.1.log = _; rw [f2, h.log, hs]; rfl⟩
    · rw [if_neg hr, if_neg hr]
      exact after_wait h (by omega) f1 f2 (Or.inr hs)
  · rw [if_neg hs]
    exact ⟨h.alive, by have := h.lo; show 16 ≤ s.stage; omega, h.hi, h.log⟩

theorem connect_Q {c : Cfg} {s : St} (h : Inv c s) (hd : s.dead = false) (e : Env) : Q c 16 (connect c e s) := by
  unfold connect
  refine (flush_Q h hd e.flush).andThen fun s h => ?_
  refine (at10_Q h e).andThen fun s h => ?_
  refine (at11_Q h e).andThen fun s' h' => ?_
  refine (at12_Q h' e).andThen fun s h => ?_
  refine (at13_Q h e).andThen fun s h => ?_
  refine (at14_Q h e).andThen fun s h => ?_
  exact at15_Q h _

theorem connect_Inv {c : Cfg} {s : St} (h : Inv c s) (hd : s.dead = false) (e : Env) : Inv c (connect c e s).2 := by
  have := connect_Q h hd e
  unfold Q at this
  by_cases hr : (connect c e s).1 = true
  · rw [if_pos hr] at this
    have h2 := this.lo; have h3 := this.hi
    exact ⟨by omega, this.hi, Or.inr ⟨this.alive, Or.inr ⟨by omega, this.log⟩⟩⟩
  · rw [if_neg hr] at this; exact this

theorem run_Inv (c : Cfg) (es : List Env) : ∀ s, Inv c s → Inv c (run c es s) := by
  induction es with
  | nil => intro s h; exact h
  | cons e es ih =>
    intro s h
    unfold run
    by_cases hd : s.dead = true
    · rw [if_pos hd]; exact h
    · rw [if_neg hd]
      exact ih _ (connect_Inv h (by simpa using hd) e)

theorem init_Inv (c : Cfg) : Inv c {} := ⟨by decide, by decide, Or.inr ⟨rfl, Or.inr ⟨Or.inr (Or.inr (Or.inr rfl)), rfl⟩⟩⟩

/-! ## The answers -/

structure Inv2 (s : St) : Prop where
  all : s.dead = false → ∀ a ∈ s.answers, a = true
  head : s.done = true → s.answers.head? = some true
  fin : s.stage = 16 → s.done = true

theorem head_append {l : List Bool} {b : Bool} (h : l.head? = some true) : (l ++ [b]).head? = some true := by
  cases l with
  | nil => cases h
  | cons a l => exact h

theorem receive_Inv2 {s : St} (h : Inv2 s) (hd : s.dead = false) (rx : Rx) : Inv2 (receive s rx).2 := by
  cases rx with
  | nothing => exact h
  | confirm p q => exact ⟨h.all, h.head, h.fin⟩
  | answer ok p q =>
    cases ok with
    | false => exact ⟨fun h => (by cases h), fun h' => head_append (h.head h'), h.fin⟩
    | true =>
      refine ⟨fun _ a ha => ?_, fun _ => ?_, fun _ => rfl⟩
      · rcases List.mem_append.1 ha with ha | ha
        · exact h.all hd a ha
        · simpa using ha
      · show (s.answers ++ [true]).head? = some true
        cases hl : s.answers with
        | nil => rfl
        | cons a l =>
          have := h.all hd a (by rw [hl]; exact List.mem_cons_self)
          rw [this]; rfl
  | other p q => exact ⟨h.all, h.head, h.fin⟩
  | error => exact ⟨fun h => (by cases h), h.head, h.fin⟩

theorem wait_Inv2 (cond : St → Bool) (rxs : List Rx) : ∀ s, Inv2 s → s.dead = false → Inv2 (wait cond rxs s).2.1 := by
  induction rxs with
  | nil =>
    intro s h hd
    unfold wait
    by_cases hc : cond s = true
    · rw [if_pos hc]; exact h
    · rw [if_neg hc]; exact h
  | cons rx rest ih =>
    intro s h hd
    unfold wait
    by_cases hc : cond s = true
    · rw [if_pos hc]; exact h
    · rw [if_neg hc]
      simp only
      by_cases hr : (receive s rx).1 = true
      · rw [if_pos hr]
        exact ih _ (receive_Inv2 h hd rx) (((receive_frame s rx).2.2 hr).trans hd)
      · rw [if_neg hr]
        exact receive_Inv2 h hd rx

theorem send_Inv2 {s : St} (h : Inv2 s) (m : Msg) (o : Out) {n : Nat} (hn : n ≠ 16) : Inv2 (send s m o n).2 := by
  cases o with
  | written => exact ⟨h.all, h.head, fun h' => absurd h' hn⟩
  | blocked => exact ⟨h.all, h.head, h.fin⟩
  | failed => exact ⟨fun h => (by cases h), h.head, h.fin⟩

theorem send_dead {s : St} {m : Msg} {o : Out} {n : Nat} (h : (send s m o n).1 = true) : (send s m o n).2.dead = s.dead := by
  cases o with
  | written => rfl
  | blocked => cases h
  | failed => cases h

/-- The result of a part of a call, for the answers. -/
def Q2 (r : Bool × St) : Prop := Inv2 r.2 ∧ (r.1 = true → r.2.dead = false)

theorem Q2.andThen {r : Bool × St} {f : St → Bool × St} (h : Q2 r)
    (hf : ∀ s, Inv2 s → s.dead = false → Q2 (f s)) : Q2 (andThen r f) := by
  unfold Wolf.Setup.andThen
  by_cases hr : r.1 = true
  · rw [if_pos hr]; exact hf _ h.1 (h.2 hr)
  · rw [if_neg hr]; exact h

theorem send_Q2 {s : St} (h : Inv2 s) (hd : s.dead = false) (m : Msg) (o : Out) {n : Nat} (hn : n ≠ 16) :
    Q2 (send s m o n) := ⟨send_Inv2 h m o hn, fun h' => (send_dead h').trans hd⟩

theorem flush_Q2 {s : St} (h : Inv2 s) (hd : s.dead = false) (o : Out) : Q2 (flush s o) := by
  unfold flush
  by_cases hp : s.pending = true ∧ s.stage < 16
  · rw [if_pos hp]
    cases o with
    | written =>
      refine ⟨⟨h.all, h.head, fun h' => ?_⟩, fun _ => hd⟩
      have h' : (if s.stage ≠ 11 ∧ s.stage ≠ 15 then s.stage + 1 else s.stage) = 16 := h'
      by_cases hx : s.stage ≠ 11 ∧ s.stage ≠ 15
      · rw [if_pos hx] at h'; omega
      · rw [if_neg hx] at h'; omega
    | blocked => exact ⟨h, fun h => by cases h⟩
    | failed => exact ⟨⟨fun h => (by cases h), h.head, h.fin⟩, fun h => by cases h⟩
  · rw [if_neg hp]; exact ⟨h, fun _ => hd⟩

theorem connect_Inv2 (c : Cfg) {s : St} (h : Inv2 s) (hd : s.dead = false) (e : Env) : Inv2 (connect c e s).2 := by
  refine And.left (b := (connect c e s).1 = true → (connect c e s).2.dead = false) ?_
  show Q2 (connect c e s)
  unfold connect
  refine (flush_Q2 h hd e.flush).andThen fun s h hd => ?_
  refine Q2.andThen (r := at10 e s) ?_ fun s h hd => ?_
  · unfold at10
    by_cases hs : s.stage = 10
    · rw [if_pos hs]; exact send_Q2 h hd _ _ (by decide)
    · rw [if_neg hs]; exact ⟨h, fun _ => hd⟩
  refine Q2.andThen (r := ((at11 e s).1, (at11 e s).2.1)) ?_ fun s h hd => ?_
  · unfold at11
    by_cases hs : s.stage = 11
    · rw [if_pos hs]
      have h1 := wait_Inv2 (·.opened) e.rx s h hd
      have h2 := (wait_frame (·.opened) e.rx s).2.2
      simp only
      by_cases hr : (wait (·.opened) e.rx s).1 = true
      · rw [if_pos hr]; exact ⟨⟨h1.all, h1.head, fun h => absurd h (show ¬ (12 = 16) by decide)⟩, fun _ => (h2 hr).1.trans hd⟩
      · rw [if_neg hr]; exact ⟨h1, fun h => absurd h hr⟩
    · rw [if_neg hs]; exact ⟨h, fun _ => hd⟩
  refine Q2.andThen (r := at12 c e s) ?_ fun s h hd => ?_
  · unfold at12
    by_cases hs : s.stage = 12
    · rw [if_pos hs]
      by_cases ha : c.agent = true
      · rw [if_pos ha]; exact send_Q2 h hd _ _ (by decide)
      · rw [if_neg ha]; exact ⟨⟨h.all, h.head, fun h => absurd h (show ¬ (13 = 16) by decide)⟩, fun _ => hd⟩
    · rw [if_neg hs]; exact ⟨h, fun _ => hd⟩
  refine Q2.andThen (r := at13 c e s) ?_ fun s h hd => ?_
  · unfold at13
    by_cases hs : s.stage = 13
    · rw [if_pos hs]
      by_cases ha : c.pty = true
      · rw [if_pos ha]; exact send_Q2 h hd _ _ (by decide)
      · rw [if_neg ha]; exact ⟨⟨h.all, h.head, fun h => absurd h (show ¬ (14 = 16) by decide)⟩, fun _ => hd⟩
    · rw [if_neg hs]; exact ⟨h, fun _ => hd⟩
  refine Q2.andThen (r := at14 e s) ?_ fun s h hd => ?_
  · unfold at14
    by_cases hs : s.stage = 14
    · rw [if_pos hs]; exact send_Q2 h hd _ _ (by decide)
    · rw [if_neg hs]; exact ⟨h, fun _ => hd⟩
  generalize (at11 e _).2.2 = rx
  unfold at15
  by_cases hs : s.stage = 15
  · rw [if_pos hs]
    have h1 := wait_Inv2 (·.done) rx s h hd
    have h2 := (wait_frame (·.done) rx s).2.2
    simp only
    by_cases hr : (wait (·.done) rx s).1 = true
    · rw [if_pos hr]; exact ⟨⟨h1.all, h1.head, fun _ => (h2 hr).2⟩, fun _ => (h2 hr).1.trans hd⟩
    · rw [if_neg hr]; exact ⟨h1, fun h => absurd h hr⟩
  · rw [if_neg hs]; exact ⟨h, fun _ => hd⟩

theorem run_Inv2 (c : Cfg) (es : List Env) : ∀ s, Inv2 s → Inv2 (run c es s) := by
  induction es with
  | nil => intro s h; exact h
  | cons e es ih =>
    intro s h
    unfold run
    by_cases hd : s.dead = true
    · rw [if_pos hd]; exact h
    · rw [if_neg hd]; exact ih _ (connect_Inv2 c h (by simpa using hd) e)

theorem init_Inv2 : Inv2 {} := ⟨fun _ _ h => (by cases h), fun h => (by cases h), fun h => by cases h⟩

end Proofs.Setup
