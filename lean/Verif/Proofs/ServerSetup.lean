import Verif.Spec.ServerSetup
/-! Invariants of `wolfSSH_accept`. -/

namespace Proofs.ServerSetup
open Wolf.ServerSetup Spec.ServerSetup

/-- What is queued before a state. -/
def upto : Nat → List Msg
  | 0 => []
  | 1 => [.version]
  | 2 => [.version]
  | 3 => [.version, .kexinit]
  | 4 => [.version, .kexinit]
  | 5 => [.version, .kexinit]
  | 6 => [.version, .kexinit, .service]
  | 7 => [.version, .kexinit, .service]
  | _ => [.version, .kexinit, .service, .success]

/-- How far the client has been when a state is reached. -/
def need : Nat → Nat
  | 0 => 0
  | 1 => 0
  | 2 => 1
  | 3 => 1
  | 4 => 1
  | 5 => 2
  | 6 => 2
  | 7 => 3
  | 8 => 3
  | 9 => 3
  | _ => 5

structure Sent (j k : Nat) (s : St) : Prop where
  hi : j ≤ 11
  log : s.log = upto j ++ List.replicate k .agent
  none : j < 9 → k = 0
  need : need j ≤ s.best
  leak : j ≤ 9 → k = s.leaked
  lo : s.leaked ≤ k
  up : k ≤ s.leaked + 1
  ag : 0 < k → 5 ≤ s.best

/-- During a call. -/
def Good (n : Nat) (s : St) : Prop := s.dead = false ∧ n ≤ s.stage ∧ ∃ k, Sent s.stage k s

/-- Between calls. -/
def Inv (s : St) : Prop :=
  ∃ j k, Sent j k s ∧
    (s.dead = false → (j = s.stage ∧ (s.pending = true → s.stage ≠ 0 ∧ s.stage ≠ 2 ∧ s.stage ≠ 5 ∧ s.stage ≠ 7)) ∨
      (s.pending = true ∧ (s.stage = 0 ∨ s.stage = 2 ∨ s.stage = 5 ∨ s.stage = 7) ∧ j = s.stage + 1))

def Q (n : Nat) (r : Bool × St × List Rx) : Prop := if r.1 = true then Good n r.2.1 else Inv r.2.1

theorem Sent.of {j k : Nat} {s s' : St} (h : Sent j k s) (h1 : s'.log = s.log) (h2 : s.best ≤ s'.best)
    (h3 : s'.leaked = s.leaked) : Sent j k s' :=
  ⟨h.hi, by rw [h1]; exact h.log, h.none, Nat.le_trans h.need h2, by rw [h3]; exact h.leak, by rw [h3]; exact h.lo,
    by rw [h3]; exact h.up, fun h' => Nat.le_trans (h.ag h') h2⟩

/-- Receiving changes neither the state of the connection nor what was queued. -/
theorem receive_frame (s : St) (rx : Rx) : (receive s rx).2.stage = s.stage ∧ (receive s rx).2.log = s.log ∧
    s.best ≤ (receive s rx).2.best ∧ (receive s rx).2.leaked = s.leaked ∧
    (s.client ≤ s.best → (receive s rx).2.client ≤ (receive s rx).2.best) ∧
    ((receive s rx).1 = true → (receive s rx).2.dead = s.dead) := by
  cases rx with
  | nothing => exact ⟨rfl, rfl, Nat.le_refl _, rfl, id, fun _ => rfl⟩
  | got c k a x p q => exact ⟨rfl, rfl, Nat.le_max_left _ _, rfl, fun _ => Nat.le_max_right _ _, fun _ => rfl⟩
  | error => exact ⟨rfl, rfl, Nat.le_refl _, rfl, id, fun h => by cases h⟩

theorem wait_frame (cond : St → Bool) (rxs : List Rx) (s : St) :
    (wait cond rxs s).2.1.stage = s.stage ∧ (wait cond rxs s).2.1.log = s.log ∧
    s.best ≤ (wait cond rxs s).2.1.best ∧ (wait cond rxs s).2.1.leaked = s.leaked ∧
    (s.client ≤ s.best → (wait cond rxs s).2.1.client ≤ (wait cond rxs s).2.1.best) ∧
    ((wait cond rxs s).1 = true → (wait cond rxs s).2.1.dead = s.dead ∧ cond (wait cond rxs s).2.1 = true) := by
  induction rxs generalizing s with
  | nil =>
    unfold wait
    by_cases hc : cond s = true
    · rw [if_pos hc]; exact ⟨rfl, rfl, Nat.le_refl _, rfl, id, fun _ => ⟨rfl, hc⟩⟩
    · rw [if_neg hc]; exact ⟨rfl, rfl, Nat.le_refl _, rfl, id, fun h => by cases h⟩
  | cons rx rest ih =>
    unfold wait
    by_cases hc : cond s = true
    · rw [if_pos hc]; exact ⟨rfl, rfl, Nat.le_refl _, rfl, id, fun _ => ⟨rfl, hc⟩⟩
    · rw [if_neg hc]
      simp only
      obtain ⟨f1, f2, f3, f4, f5, f6⟩ := receive_frame s rx
      by_cases hr : (receive s rx).1 = true
      · rw [if_pos hr]
        obtain ⟨g1, g2, g3, g4, g5, g6⟩ := ih (receive s rx).2
        exact ⟨g1.trans f1, g2.trans f2, Nat.le_trans f3 g3, g4.trans f4, fun h => g5 (f5 h),
          fun h => ⟨((g6 h).1).trans (f6 hr), (g6 h).2⟩⟩
      · rw [if_neg hr]
        exact ⟨f1, f2, f3, f4, f5, fun h => by cases h⟩

/-- `clientState` was never higher than the highest it has had. -/
def Q3 (r : Bool × St × List Rx) : Prop := r.2.1.client ≤ r.2.1.best

theorem flush_client {s : St} (h : s.client ≤ s.best) (o : Out) : (flush s o).2.client ≤ (flush s o).2.best := by
  unfold flush
  by_cases hp : s.pending = true ∧ s.stage < 10
  · rw [if_pos hp]; cases o <;> exact h
  · rw [if_neg hp]; exact h

theorem sends_client {r : Bool × St × List Rx} (h : Q3 r) (n : Nat) (m : Msg) (e : Env) : Q3 (sends n m e r) := by
  unfold sends
  by_cases hc : r.1 = true ∧ r.2.1.stage = n
  · rw [if_pos hc]; simp only; cases e.out n <;> exact h
  · rw [if_neg hc]; exact h

theorem waits_client {r : Bool × St × List Rx} (h : Q3 r) (n : Nat) (cond : St → Bool) : Q3 (waits n cond r) := by
  unfold waits
  by_cases hc : r.1 = true ∧ r.2.1.stage = n
  · rw [if_pos hc]
    simp only
    have := (wait_frame cond r.2.2 r.2.1).2.2.2.2.1 h
    unfold Q3
    simp only
    by_cases hw : (wait cond r.2.2 r.2.1).1 = true
    · rw [if_pos hw]; exact this
    · rw [if_neg hw]; exact this
  · rw [if_neg hc]; exact h

theorem last_client {r : Bool × St × List Rx} (h : Q3 r) (e : Env) : (last e r).2.client ≤ (last e r).2.best := by
  unfold last
  by_cases hc : r.1 = true ∧ r.2.1.stage = 9
  · rw [if_pos hc]
    simp only
    have := (wait_frame (fun s => 5 ≤ s.client) r.2.2 r.2.1).2.2.2.2.1 h
    by_cases hw : (wait (fun s => decide (5 ≤ s.client)) r.2.2 r.2.1).1 = true
    · rw [if_pos hw]
      by_cases hx : (wait (fun s => decide (5 ≤ s.client)) r.2.2 r.2.1).2.1.xfer = true
      · rw [if_pos hx]; exact this
      · rw [if_neg hx]
        by_cases ha : (wait (fun s => decide (5 ≤ s.client)) r.2.2 r.2.1).2.1.agent = true
        · rw [if_pos ha]; cases e.out 9 <;> exact this
        · rw [if_neg ha]; exact this
    · rw [if_neg hw]; exact this
  · rw [if_neg hc]; exact h

theorem flush_Q {s : St} (h : Inv s) (hd : s.dead = false) (e : Env) : Q 0 ((flush s e.flush).1, (flush s e.flush).2, e.rx) := by
  obtain ⟨j, k, hs, hl⟩ := h
  have hl := hl hd
  unfold flush Q
  by_cases hp : s.pending = true ∧ s.stage < 10
  · rw [if_pos hp]
    cases e.flush with
    | written =>
      simp only [if_true]
      refine ⟨hd, Nat.zero_le _, k, ?_⟩
      rcases hl with ⟨rfl, h2⟩ | ⟨_, h2, rfl⟩
      · have h2 := h2 hp.1
        by_cases hx : s.stage ≠ 1 ∧ s.stage ≠ 6 ∧ s.stage ≠ 3 ∧ s.stage ≠ 4 ∧ s.stage ≠ 9
        · simp only [if_pos hx]
          have h8 : s.stage = 8 := by omega
          rw [h8] at hs ⊢
          exact ⟨by decide, hs.log, fun h => absurd h (by decide), hs.need, fun _ => hs.leak (by decide), hs.lo, hs.up, hs.ag⟩
        · simp only [if_neg hx]
          exact hs.of rfl (Nat.le_refl _) rfl
      · have hx : s.stage ≠ 1 ∧ s.stage ≠ 6 ∧ s.stage ≠ 3 ∧ s.stage ≠ 4 ∧ s.stage ≠ 9 := by omega
        simp only [if_pos hx]
        exact hs.of rfl (Nat.le_refl _) rfl
    | blocked => exact ⟨j, k, hs, fun _ => hl⟩
    | failed => exact ⟨j, k, hs.of rfl (Nat.le_refl _) rfl, fun h => by cases h⟩
  · rw [if_neg hp]
    simp only [if_true]
    rcases hl with ⟨rfl, _⟩ | ⟨h1, h2, rfl⟩
    · exact ⟨hd, Nat.zero_le _, k, hs⟩
    · exact absurd ⟨h1, by omega⟩ hp

theorem sends_Q {r : Bool × St × List Rx} {n : Nat} (h : Q n r) (m : Msg) (e : Env)
    (hn : n = 0 ∨ n = 2 ∨ n = 5 ∨ n = 7) (hm : upto (n + 1) = upto n ++ [m]) (hb : need (n + 1) = need n) :
    Q (n + 1) (sends n m e r) := by
  unfold Q at h
  unfold sends
  by_cases hr : r.1 = true
  · rw [if_pos hr] at h
    obtain ⟨hd, hlo, k, hs⟩ := h
    by_cases hc : r.2.1.stage = n
    · rw [if_pos ⟨hr, hc⟩]
      simp only
      rw [hc] at hs
      have hk := hs.none (by omega)
      subst hk
      have hnew : ∀ s' : St, s'.log = r.2.1.log ++ [m] → s'.best = r.2.1.best → s'.leaked = r.2.1.leaked →
          Sent (n + 1) 0 s' := fun s' h1 h2 h3 =>
        ⟨by omega, by rw [h1, hs.log, hm]; simp, fun _ => rfl, by rw [hb, h2]; exact hs.need,
          fun _ => by rw [h3]; exact hs.leak (by omega), by rw [h3]; exact hs.lo, by rw [h3]; exact hs.up,
          fun h => absurd h (by decide)⟩
      cases e.out n with
      | written => exact ⟨hd, Nat.le_refl _, 0, hnew _ rfl rfl rfl⟩
      | blocked =>
        refine ⟨n + 1, 0, hnew _ rfl rfl rfl, fun _ => Or.inr ⟨rfl, ?_, ?_⟩⟩
        · show r.2.1.stage = 0 ∨ r.2.1.stage = 2 ∨ r.2.1.stage = 5 ∨ r.2.1.stage = 7; omega
        · show n + 1 = r.2.1.stage + 1; omega
      | failed => exact ⟨n, 0, hs.of rfl (Nat.le_refl _) rfl, fun h => by cases h⟩
    · rw [if_neg (fun h => hc h.2)]
      unfold Q
      rw [if_pos hr]
      exact ⟨hd, by omega, k, hs⟩
  · rw [if_neg hr] at h
    rw [if_neg (fun h => hr h.1)]
    unfold Q
    rw [if_neg hr]; exact h

theorem waits_Q {r : Bool × St × List Rx} {n : Nat} (h : Q n r) (hb : Q3 r) (cond : St → Bool)
    (hn : n = 1 ∨ n = 3 ∨ n = 4 ∨ n = 6 ∨ n = 8) (hm : upto (n + 1) = upto n)
    (hc : ∀ s : St, cond s = true → s.client ≤ s.best → need n ≤ s.best → need (n + 1) ≤ s.best) :
    Q (n + 1) (waits n cond r) := by
  unfold Q at h
  unfold waits
  by_cases hr : r.1 = true
  · rw [if_pos hr] at h
    obtain ⟨hd, hlo, k, hs⟩ := h
    by_cases hst : r.2.1.stage = n
    · rw [if_pos ⟨hr, hst⟩]
      simp only
      rw [hst] at hs
      obtain ⟨f1, f2, f3, f4, f5, f6⟩ := wait_frame cond r.2.2 r.2.1
      have hs' := hs.of f2 f3 f4
      unfold Q
      by_cases hw : (wait cond r.2.2 r.2.1).1 = true
      · simp only [if_pos hw]
        refine ⟨(f6 hw).1.trans hd, Nat.le_refl _, k, ?_⟩
        show Sent (n + 1) k _
        exact ⟨by omega, by rw [hm]; exact hs'.log, fun _ => hs'.none (by omega),
          hc (wait cond r.2.2 r.2.1).2.1 (f6 hw).2 (f5 hb) hs'.need, fun _ => hs'.leak (by omega), hs'.lo, hs'.up,
          hs'.ag⟩
      · simp only [if_neg hw]
        exact ⟨n, k, hs', fun _ => Or.inl ⟨by rw [f1, hst], fun _ => by rw [f1, hst]; omega⟩⟩
    · rw [if_neg (fun h => hst h.2)]
      unfold Q
      rw [if_pos hr]
      exact ⟨hd, by omega, k, hs⟩
  · rw [if_neg hr] at h
    rw [if_neg (fun h => hr h.1)]
    unfold Q
    rw [if_neg hr]; exact h

theorem last_Q {r : Bool × St × List Rx} (h : Q 9 r) (hb : Q3 r) (e : Env) :
    Inv (last e r).2 ∧ ((last e r).1 = true → 10 ≤ (last e r).2.stage ∧ (last e r).2.dead = false) := by
  unfold Q at h
  unfold last
  by_cases hr : r.1 = true
  · rw [if_pos hr] at h
    obtain ⟨hd, hlo, k, hs⟩ := h
    by_cases hst : r.2.1.stage = 9
    · rw [if_pos ⟨hr, hst⟩]
      simp only
      rw [hst] at hs
      obtain ⟨f1, f2, f3, f4, f5, f6⟩ := wait_frame (fun s => decide (5 ≤ s.client)) r.2.2 r.2.1
      have hs' := hs.of f2 f3 f4
      generalize hw' : wait (fun s => decide (5 ≤ s.client)) r.2.2 r.2.1 = w at *
      have hk := hs'.leak (by decide)
      by_cases hw : w.1 = true
      · rw [if_pos hw]
        have h5 : 5 ≤ w.2.1.best := by
          have h1 := (f6 hw).2
          have h2 := f5 hb
          simp only [decide_eq_true_eq] at h1
          omega
        have hdead := (f6 hw).1.trans hd
        by_cases hx : w.2.1.xfer = true
        · rw [if_pos hx]
          refine ⟨⟨11, k, ⟨by decide, hs'.log, fun h => absurd h (by decide), h5, fun h => absurd h (by decide), hs'.lo, hs'.up,
            fun _ => h5⟩,
            fun _ => Or.inl ⟨rfl, fun _ => ⟨?_, ?_, ?_, ?_⟩⟩⟩, fun _ => ⟨?_, hdead⟩⟩
          · show ¬ (11 = 0); decide
          · show ¬ (11 = 2); decide
          · show ¬ (11 = 5); decide
          · show ¬ (11 = 7); decide
          · show 10 ≤ 11; decide
        · rw [if_neg hx]
          have ten : ∀ (k' : Nat) (s' : St), s'.stage = 10 → s'.log = upto 10 ++ List.replicate k' .agent →
              s'.best = w.2.1.best → s'.leaked ≤ k' → k' ≤ s'.leaked + 1 → Inv s' := fun k' s' h0 h1 h2 h3 h4 =>
            ⟨10, k', ⟨by decide, h1, fun h => absurd h (by decide), by rw [h2]; exact h5, fun h => absurd h (by decide), h3, h4,
              fun _ => by rw [h2]; exact h5⟩,
              fun _ => Or.inl ⟨h0.symm, fun _ => by rw [h0]; decide⟩⟩
          by_cases ha : w.2.1.agent = true
          · rw [if_pos ha]
            cases e.out 9 with
            | written =>
              refine ⟨ten (k + 1) _ rfl ?_ rfl ?_ ?_, fun _ => ⟨?_, hdead⟩⟩
              · show w.2.1.log ++ [.agent] = _
                rw [hs'.log, List.replicate_succ', ← List.append_assoc]; rfl
              · show w.2.1.leaked ≤ k + 1; omega
              · show k + 1 ≤ w.2.1.leaked + 1; omega
              · show 10 ≤ 10; decide
            | blocked =>
              refine ⟨⟨9, k + 1, ⟨by decide, ?_, fun h => absurd h (by decide), hs'.need, fun _ => ?_, ?_, ?_, fun _ => h5⟩,
                fun _ => Or.inl ⟨?_, fun _ => ?_⟩⟩, fun h => by cases h⟩
              · show w.2.1.log ++ [.agent] = _
                rw [hs'.log, List.replicate_succ', ← List.append_assoc]
              · show k + 1 = w.2.1.leaked + 1; omega
              · show w.2.1.leaked + 1 ≤ k + 1; omega
              · show k + 1 ≤ w.2.1.leaked + 1 + 1; omega
              · show 9 = w.2.1.stage; rw [f1, hst]
              · show w.2.1.stage ≠ 0 ∧ w.2.1.stage ≠ 2 ∧ w.2.1.stage ≠ 5 ∧ w.2.1.stage ≠ 7
                rw [f1, hst]; decide
            | failed => exact ⟨⟨9, k, hs'.of rfl (Nat.le_refl _) rfl, fun h => (by cases h)⟩, fun h => by cases h⟩
          · rw [if_neg ha]
            refine ⟨ten k _ rfl hs'.log rfl hs'.lo hs'.up, fun _ => ⟨?_, hdead⟩⟩
            show 10 ≤ 10; decide
      · rw [if_neg hw]
        exact ⟨⟨9, k, hs', fun _ => Or.inl ⟨by rw [f1, hst], fun _ => by rw [f1, hst]; decide⟩⟩, fun h => absurd h hw⟩
    · rw [if_neg (fun h => hst h.2)]
      exact ⟨⟨r.2.1.stage, k, hs, fun _ => Or.inl ⟨rfl, fun _ => by
        show r.2.1.stage ≠ 0 ∧ r.2.1.stage ≠ 2 ∧ r.2.1.stage ≠ 5 ∧ r.2.1.stage ≠ 7; omega⟩⟩, fun _ => ⟨by show 10 ≤ r.2.1.stage; omega, hd⟩⟩
  · rw [if_neg hr] at h
    rw [if_neg (fun h => hr h.1)]
    exact ⟨h, fun h => absurd h hr⟩

theorem accept_Inv {s : St} (h : Inv s) (hb : s.client ≤ s.best) (hd : s.dead = false) (e : Env) :
    (Inv (accept e s).2 ∧ ((accept e s).1 = true → 10 ≤ (accept e s).2.stage ∧ (accept e s).2.dead = false)) ∧
    (accept e s).2.client ≤ (accept e s).2.best := by
  unfold accept
  have q0 := flush_Q h hd e
  have b0 : Q3 ((flush s e.flush).1, (flush s e.flush).2, e.rx) := flush_client hb e.flush
  simp only
  have q1 := sends_Q q0 .version e (Or.inl rfl) rfl rfl
  have b1 := sends_client b0 0 .version e
  have q2 := waits_Q q1 b1 (fun s => decide (1 ≤ s.client)) (by decide) rfl (fun s h1 h2 _ => by
    simp only [decide_eq_true_eq] at h1; show 1 ≤ s.best; omega)
  have b2 := waits_client b1 1 (fun s => decide (1 ≤ s.client))
  have q3 := sends_Q q2 .kexinit e (by decide) rfl rfl
  have b3 := sends_client b2 2 .kexinit e
  have q4 := waits_Q q3 b3 (fun s => !s.keying) (by decide) rfl (fun s _ _ h3 => h3)
  have b4 := waits_client b3 3 (fun s => !s.keying)
  have q5 := waits_Q q4 b4 (fun s => decide (2 ≤ s.client)) (by decide) rfl (fun s h1 h2 _ => by
    simp only [decide_eq_true_eq] at h1; show 2 ≤ s.best; omega)
  have b5 := waits_client b4 4 (fun s => decide (2 ≤ s.client))
  have q6 := sends_Q q5 .service e (by decide) rfl rfl
  have b6 := sends_client b5 5 .service e
  have q7 := waits_Q q6 b6 (fun s => decide (3 ≤ s.client)) (by decide) rfl (fun s h1 h2 _ => by
    simp only [decide_eq_true_eq] at h1; show 3 ≤ s.best; omega)
  have b7 := waits_client b6 6 (fun s => decide (3 ≤ s.client))
  have q8 := sends_Q q7 .success e (by decide) rfl rfl
  have b8 := sends_client b7 7 .success e
  have q9 := waits_Q q8 b8 (fun s => decide (4 ≤ s.client)) (by decide) rfl (fun s _ _ h3 => h3)
  have b9 := waits_client b8 8 (fun s => decide (4 ≤ s.client))
  exact ⟨last_Q q9 b9 e, last_client b9 e⟩

theorem run_Inv (es : List Env) : ∀ s, Inv s → s.client ≤ s.best → Inv (run es s) ∧ (run es s).client ≤ (run es s).best := by
  induction es with
  | nil => intro s h hb; exact ⟨h, hb⟩
  | cons e es ih =>
    intro s h hb
    unfold run
    by_cases hd : s.dead = true
    · rw [if_pos hd]; exact ⟨h, hb⟩
    · rw [if_neg hd]
      have := accept_Inv h hb (by simpa using hd) e
      exact ih _ this.1.1 this.2

theorem init_Inv : Inv {} :=
  ⟨0, 0, ⟨by decide, rfl, fun _ => rfl, Nat.le_refl _, fun _ => rfl, Nat.le_refl _, by decide, fun h => absurd h (by decide)⟩,
    fun _ => Or.inl ⟨rfl, fun h => by cases h⟩⟩

theorem reach (es : List Env) : Inv (run es {}) ∧ (run es {}).client ≤ (run es {}).best :=
  run_Inv es {} init_Inv (Nat.le_refl _)

/-! ## The request for the agent's channel -/

theorem flush_leaked (s : St) (o : Out) : (flush s o).2.leaked = s.leaked := by
  unfold flush
  by_cases hp : s.pending = true ∧ s.stage < 10
  · rw [if_pos hp]; cases o <;> rfl
  · rw [if_neg hp]

theorem sends_leaked (n : Nat) (m : Msg) (e : Env) (r : Bool × St × List Rx) : (sends n m e r).2.1.leaked = r.2.1.leaked := by
  unfold sends
  by_cases hc : r.1 = true ∧ r.2.1.stage = n
  · rw [if_pos hc]; simp only; cases e.out n <;> rfl
  · rw [if_neg hc]

theorem waits_leaked (n : Nat) (cond : St → Bool) (r : Bool × St × List Rx) : (waits n cond r).2.1.leaked = r.2.1.leaked := by
  unfold waits
  by_cases hc : r.1 = true ∧ r.2.1.stage = n
  · rw [if_pos hc]
    have := (wait_frame cond r.2.2 r.2.1).2.2.2.1
    simp only
    by_cases hw : (wait cond r.2.2 r.2.1).1 = true
    · rw [if_pos hw]; exact this
    · rw [if_neg hw]; exact this
  · rw [if_neg hc]

theorem last_leaked {e : Env} (he : e.out 9 ≠ .blocked) (r : Bool × St × List Rx) : (last e r).2.leaked = r.2.1.leaked := by
  unfold last
  by_cases hc : r.1 = true ∧ r.2.1.stage = 9
  · rw [if_pos hc]
    have := (wait_frame (fun s => decide (5 ≤ s.client)) r.2.2 r.2.1).2.2.2.1
    simp only
    generalize wait (fun s => decide (5 ≤ s.client)) r.2.2 r.2.1 = w at *
    by_cases hw : w.1 = true
    · rw [if_pos hw]
      by_cases hx : w.2.1.xfer = true
      · rw [if_pos hx]; exact this
      · rw [if_neg hx]
        by_cases ha : w.2.1.agent = true
        · rw [if_pos ha]
          cases ho : e.out 9 with
          | written => exact this
          | blocked => exact absurd ho he
          | failed => exact this
        · rw [if_neg ha]; exact this
    · rw [if_neg hw]; exact this
  · rw [if_neg hc]

theorem accept_leaked {e : Env} (he : e.out 9 ≠ .blocked) (s : St) : (accept e s).2.leaked = s.leaked := by
  unfold accept
  simp only [last_leaked he, waits_leaked, sends_leaked, flush_leaked]

theorem run_leaked (es : List Env) (he : AgentWritten es) : ∀ s, (run es s).leaked = s.leaked := by
  induction es with
  | nil => intro s; rfl
  | cons e es ih =>
    intro s
    unfold run
    by_cases hd : s.dead = true
    · rw [if_pos hd]
    · rw [if_neg hd, ih (fun e' h => he e' (List.mem_cons_of_mem _ h)), accept_leaked (he e List.mem_cons_self)]

/-! ## Going on to the end -/

/-- Going on, with something left to read. -/
structure Live (n : Nat) (m : Nat) (rx : Rx) (r : Bool × St × List Rx) : Prop where
  on : r.1 = true
  lo : n ≤ r.2.1.stage
  rx : ∃ k, m ≤ k ∧ r.2.2 = List.replicate k rx

theorem live_sends {n m : Nat} {rx : Rx} {r : Bool × St × List Rx} (h : Live n m rx r) (x : Msg) (e : Env)
    (he : e.out n = .written) : Live (n + 1) m rx (sends n x e r) := by
  unfold sends
  by_cases hc : r.1 = true ∧ r.2.1.stage = n
  · rw [if_pos hc]; simp only [he]; exact ⟨rfl, Nat.le_refl _, h.rx⟩
  · rw [if_neg hc]
    have : r.2.1.stage ≠ n := fun h' => hc ⟨h.on, h'⟩
    have := h.lo
    exact ⟨h.on, by omega, h.rx⟩

theorem wait_live {cond : St → Bool} {m : Nat} {rx : Rx} {s : St} {rxs : List Rx}
    (hr : (receive s rx).1 = true) (hc : cond (receive s rx).2 = true) (h : ∃ k, m + 1 ≤ k ∧ rxs = List.replicate k rx) :
    (wait cond rxs s).1 = true ∧ ∃ k, m ≤ k ∧ (wait cond rxs s).2.2 = List.replicate k rx := by
  obtain ⟨k, hk, rfl⟩ := h
  cases k with
  | zero => omega
  | succ k =>
    unfold wait
    by_cases h0 : cond s = true
    · rw [if_pos h0]; exact ⟨rfl, k + 1, by omega, rfl⟩
    · rw [if_neg h0]
      simp only [List.replicate_succ]
      rw [if_pos hr]
      unfold wait
      rw [if_pos hc]
      exact ⟨rfl, k, by omega, rfl⟩

theorem live_waits {n m : Nat} {rx : Rx} {r : Bool × St × List Rx} (h : Live n (m + 1) rx r) {cond : St → Bool}
    (hr : ∀ s, (receive s rx).1 = true) (hc : ∀ s, cond (receive s rx).2 = true) : Live (n + 1) m rx (waits n cond r) := by
  unfold waits
  by_cases hx : r.1 = true ∧ r.2.1.stage = n
  · rw [if_pos hx]
    obtain ⟨h1, h2⟩ := wait_live (hr r.2.1) (hc r.2.1) h.rx
    simp only
    refine ⟨h1, ?_, h2⟩
    simp only [if_pos h1]; exact Nat.le_refl _
  · rw [if_neg hx]
    have : r.2.1.stage ≠ n := fun h' => hx ⟨h.on, h'⟩
    have := h.lo
    obtain ⟨k, hk, h3⟩ := h.rx
    exact ⟨h.on, by omega, k, by omega, h3⟩

theorem live_last {m : Nat} {rx : Rx} {r : Bool × St × List Rx} (h : Live 9 (m + 1) rx r) (e : Env)
    (he : e.out 9 = .written) (hr : ∀ s, (receive s rx).1 = true) (hc : ∀ s, 5 ≤ (receive s rx).2.client) :
    (last e r).1 = true := by
  unfold last
  by_cases hx : r.1 = true ∧ r.2.1.stage = 9
  · rw [if_pos hx]
    have h1 := (wait_live (cond := fun s => decide (5 ≤ s.client)) (hr r.2.1) (by simpa using hc r.2.1) h.rx).1
    simp only
    rw [if_pos h1]
    generalize (wait (fun s => decide (5 ≤ s.client)) r.2.2 r.2.1).2.1 = s
    by_cases hx : s.xfer = true
    · rw [if_pos hx]
    · rw [if_neg hx]
      by_cases ha : s.agent = true
      · rw [if_pos ha, he]
      · rw [if_neg ha]
  · rw [if_neg hx]; exact h.on

theorem accept_live (s : St) (a x : Bool) :
    (accept { rx := List.replicate 6 (.got 5 false a x false false) } s).1 = true := by
  unfold accept
  simp only
  have hr : ∀ s, (receive s (.got 5 false a x false false)).1 = true := fun _ => rfl
  have q0 : Live 0 6 (.got 5 false a x false false) ((flush s .written).1, (flush s .written).2,
      List.replicate 6 (Rx.got 5 false a x false false)) := by
    refine ⟨?_, Nat.zero_le _, 6, Nat.le_refl _, rfl⟩
    unfold flush
    by_cases hp : s.pending = true ∧ s.stage < 10
    · rw [if_pos hp]
    · rw [if_neg hp]
  have q1 := live_sends q0 .version { rx := List.replicate 6 (.got 5 false a x false false) } rfl
  have q2 := live_waits (cond := fun s => decide (1 ≤ s.client)) q1 hr (fun _ => rfl)
  have q3 := live_sends q2 .kexinit { rx := List.replicate 6 (.got 5 false a x false false) } rfl
  have q4 := live_waits (cond := fun s => !s.keying) q3 hr (fun _ => rfl)
  have q5 := live_waits (cond := fun s => decide (2 ≤ s.client)) q4 hr (fun _ => rfl)
  have q6 := live_sends q5 .service { rx := List.replicate 6 (.got 5 false a x false false) } rfl
  have q7 := live_waits (cond := fun s => decide (3 ≤ s.client)) q6 hr (fun _ => rfl)
  have q8 := live_sends q7 .success { rx := List.replicate 6 (.got 5 false a x false false) } rfl
  have q9 := live_waits (cond := fun s => decide (4 ≤ s.client)) q8 hr (fun _ => rfl)
  exact live_last q9 _ rfl hr (fun _ => Nat.le_refl _)

/-! ## Before the first key exchange has ended -/

def NoEnd (rxs : List Rx) : Prop := ∀ rx ∈ rxs, ∀ c a x p st, rx ≠ .got c false a x p st

theorem wait_keying (cond : St → Bool) (rxs : List Rx) : ∀ s, NoEnd rxs →
    ((wait cond rxs s).2.1.keying = true ∨ (wait cond rxs s).2.1.keying = s.keying) ∧ NoEnd (wait cond rxs s).2.2 ∧
    (wait cond rxs s).2.1.stage = s.stage ∧ (wait cond rxs s).2.1.log = s.log ∧
    ((wait cond rxs s).1 = true → cond (wait cond rxs s).2.1 = true) := by
  induction rxs with
  | nil =>
    intro s _
    unfold wait
    by_cases h : cond s = true
    · rw [if_pos h]; exact ⟨Or.inr rfl, fun _ h => (by cases h), rfl, rfl, fun _ => h⟩
    · rw [if_neg h]; exact ⟨Or.inr rfl, fun _ h => (by cases h), rfl, rfl, fun e => (by cases e)⟩
  | cons rx rxs ih =>
    intro s hn
    have hn' : NoEnd rxs := fun r hr => hn r (List.mem_cons_of_mem _ hr)
    unfold wait
    by_cases h : cond s = true
    · rw [if_pos h]; exact ⟨Or.inr rfl, hn, rfl, rfl, fun _ => h⟩
    · rw [if_neg h]
      simp only
      have hk : ((receive s rx).2.keying = true ∨ (receive s rx).2.keying = s.keying) ∧ (receive s rx).2.stage = s.stage ∧
          (receive s rx).2.log = s.log := by
        cases rx with
        | nothing => exact ⟨Or.inr rfl, rfl, rfl⟩
        | got c k a x p st =>
          refine ⟨Or.inl ?_, rfl, rfl⟩
          cases k with
          | true => rfl
          | false => exact absurd rfl (hn _ List.mem_cons_self c a x p st)
        | error => exact ⟨Or.inr rfl, rfl, rfl⟩
      by_cases hr : (receive s rx).1 = true
      · rw [if_pos hr]
        obtain ⟨a, b, c, d, e⟩ := ih (receive s rx).2 hn'
        refine ⟨?_, b, c.trans hk.2.1, d.trans hk.2.2, e⟩
        rcases a with a | a
        · exact Or.inl a
        · rw [a]; exact hk.1
      · rw [if_neg hr]
        exact ⟨hk.1, hn', hk.2.1, hk.2.2, fun e => by cases e⟩

theorem sends_skip {n : Nat} (hn : 3 < n) (m : Msg) (e : Env) {r : Bool × St × List Rx} (h : r.2.1.stage ≤ 3) : sends n m e r = r :=
  if_neg fun h' => by have := h'.2; omega

theorem waits_skip {n : Nat} (hn : 3 < n) (cond : St → Bool) {r : Bool × St × List Rx} (h : r.2.1.stage ≤ 3) : waits n cond r = r :=
  if_neg fun h' => by have := h'.2; omega

theorem last_skip (e : Env) {r : Bool × St × List Rx} (h : r.2.1.stage ≤ 3) : last e r = (r.1, r.2.1) :=
  if_neg fun h' => by have := h'.2; omega

/-- At most state 3, and in it a key exchange is going on. -/
structure K (s : St) : Prop where
  stage : s.stage ≤ 3
  keying : 2 ≤ s.stage → s.keying = true
  log : ∀ m ∈ s.log, m = .version ∨ m = .kexinit

theorem accept_K {s : St} (h : K s) {e : Env} (hn : NoEnd e.rx) : K (accept e s).2 := by
  have hmem : ∀ (l : List Msg) (m : Msg), (∀ m ∈ l, m = .version ∨ m = .kexinit) → (m = .version ∨ m = .kexinit) →
      ∀ x ∈ l ++ [m], x = .version ∨ x = .kexinit := by
    intro l m h1 h2 x hx
    rcases List.mem_append.1 hx with hx | hx
    · exact h1 x hx
    · rw [List.mem_singleton.1 hx]; exact h2
  -- the flush
  have hf : K (flush s e.flush).2 := by
    unfold flush
    by_cases hp : s.pending = true ∧ s.stage < 10
    · rw [if_pos hp]
      cases e.flush with
      | written =>
        simp only
        by_cases hs : s.stage ≠ 1 ∧ s.stage ≠ 6 ∧ s.stage ≠ 3 ∧ s.stage ≠ 4 ∧ s.stage ≠ 9
        · simp only [if_pos hs]
          have := h.stage
          refine ⟨by show s.stage + 1 ≤ 3; omega, fun h2 => h.keying ?_, h.log⟩
          have h2' : 2 ≤ s.stage + 1 := h2
          omega
        · simp only [if_neg hs]; exact ⟨h.stage, h.keying, h.log⟩
      | blocked => exact h
      | failed => exact ⟨h.stage, h.keying, h.log⟩
    · rw [if_neg hp]; exact h
  unfold accept
  simp only
  generalize flush s e.flush = f at hf
  -- state 0
  have h0 : K (sends 0 .version e (f.1, f.2, e.rx)).2.1 ∧ NoEnd (sends 0 .version e (f.1, f.2, e.rx)).2.2 := by
    unfold sends
    by_cases hs : f.1 = true ∧ f.2.stage = 0
    · rw [if_pos hs]
      simp only
      have hk : (Msg.version == Msg.kexinit) = false := rfl
      cases e.out 0 with
      | written => exact ⟨⟨by show 0 + 1 ≤ 3; omega, fun h2 => (by have h2' : 2 ≤ 0 + 1 := h2; omega), hmem _ _ hf.log (Or.inl rfl)⟩, hn⟩
      | blocked => exact ⟨⟨hf.stage, fun h2 => (by have h2' : 2 ≤ f.2.stage := h2; omega), hmem _ _ hf.log (Or.inl rfl)⟩, hn⟩
      | failed => exact ⟨⟨hf.stage, fun h2 => (by have h2' : 2 ≤ f.2.stage := h2; omega), hf.log⟩, hn⟩
    · rw [if_neg hs]; exact ⟨hf, hn⟩
  generalize sends 0 .version e (f.1, f.2, e.rx) = r0 at h0 ⊢
  -- state 1; then it may be 2 without a key exchange
  have h1 : ((waits 1 (fun s => decide (1 ≤ s.client)) r0).1 = true ∧ (waits 1 (fun s => decide (1 ≤ s.client)) r0).2.1.stage = 2 ∧
      (∀ m ∈ (waits 1 (fun s => decide (1 ≤ s.client)) r0).2.1.log, m = .version ∨ m = .kexinit) ∨
      K (waits 1 (fun s => decide (1 ≤ s.client)) r0).2.1) ∧ NoEnd (waits 1 (fun s => decide (1 ≤ s.client)) r0).2.2 := by
    unfold waits
    by_cases hs : r0.1 = true ∧ r0.2.1.stage = 1
    · rw [if_pos hs]
      simp only
      obtain ⟨_, b, c, d, _⟩ := wait_keying (fun s => decide (1 ≤ s.client)) r0.2.2 r0.2.1 h0.2
      refine ⟨?_, b⟩
      by_cases hw : (wait (fun s => decide (1 ≤ s.client)) r0.2.2 r0.2.1).1 = true
      · simp only [hw, if_true]
        refine Or.inl ⟨trivial, trivial, ?_⟩
        show ∀ m ∈ (wait (fun s => decide (1 ≤ s.client)) r0.2.2 r0.2.1).2.1.log, _
        rw [d]; exact h0.1.log
      · simp only [if_neg hw]
        refine Or.inr ⟨by rw [c]; omega, fun h2 => ?_, by rw [d]; exact h0.1.log⟩
        rw [c, hs.2] at h2
        omega
    · rw [if_neg hs]; exact ⟨Or.inr h0.1, h0.2⟩
  generalize waits 1 (fun s => decide (1 ≤ s.client)) r0 = r1 at h1 ⊢
  -- state 2
  have h2 : K (sends 2 .kexinit e r1).2.1 ∧ NoEnd (sends 2 .kexinit e r1).2.2 := by
    unfold sends
    by_cases hs : r1.1 = true ∧ r1.2.1.stage = 2
    · rw [if_pos hs]
      simp only
      have hk : (r1.2.1.keying || Msg.kexinit == Msg.kexinit) = true := by
        cases r1.2.1.keying <;> rfl
      have hl : ∀ m ∈ r1.2.1.log, m = .version ∨ m = .kexinit := by
        rcases h1.1 with h | h
        · exact h.2.2
        · exact h.log
      have h3 : r1.2.1.stage ≤ 3 := by omega
      cases e.out 2 with
      | written => exact ⟨⟨Nat.le_refl 3, fun _ => hk, hmem _ _ hl (Or.inr rfl)⟩, h1.2⟩
      | blocked => exact ⟨⟨h3, fun _ => hk, hmem _ _ hl (Or.inr rfl)⟩, h1.2⟩
      | failed => exact ⟨⟨h3, fun _ => hk, hl⟩, h1.2⟩
    · rw [if_neg hs]
      refine ⟨?_, h1.2⟩
      rcases h1.1 with h | h
      · exact absurd ⟨h.1, h.2.1⟩ hs
      · exact h
  generalize sends 2 .kexinit e r1 = r2 at h2 ⊢
  -- state 3 is not left
  have h3 : K (waits 3 (fun s => !s.keying) r2).2.1 := by
    unfold waits
    by_cases hs : r2.1 = true ∧ r2.2.1.stage = 3
    · rw [if_pos hs]
      simp only
      obtain ⟨a, _, c, d, e'⟩ := wait_keying (fun s => !s.keying) r2.2.2 r2.2.1 h2.2
      have hk : (wait (fun s => !s.keying) r2.2.2 r2.2.1).2.1.keying = true := by
        rcases a with a | a
        · exact a
        · rw [a]; exact h2.1.keying (by omega)
      have hw : ¬ (wait (fun s => !s.keying) r2.2.2 r2.2.1).1 = true := by
        intro hw
        have := e' hw
        rw [hk] at this
        cases this
      simp only [if_neg hw]
      exact ⟨by rw [c]; exact h2.1.stage, fun _ => hk, by rw [d]; exact h2.1.log⟩
    · rw [if_neg hs]; exact h2.1
  generalize waits 3 (fun s => !s.keying) r2 = r3 at h3 ⊢
  rw [waits_skip (n := 4) (by omega) _ h3.stage, sends_skip (n := 5) (by omega) _ _ h3.stage,
    waits_skip (n := 6) (by omega) _ h3.stage, sends_skip (n := 7) (by omega) _ _ h3.stage,
    waits_skip (n := 8) (by omega) _ h3.stage, last_skip _ h3.stage]
  exact h3

theorem run_K (es : List Env) (hk : StillKeying es) : ∀ s, K s → K (run es s) := by
  induction es with
  | nil => intro s h; exact h
  | cons e es ih =>
    intro s h
    show K (if s.dead then s else run es (accept e s).2)
    by_cases hd : s.dead = true
    · rw [if_pos hd]; exact h
    · rw [if_neg hd]
      exact ih (fun e he => hk e (List.mem_cons_of_mem _ he)) _ (accept_K h (hk e List.mem_cons_self))

end Proofs.ServerSetup
