import Verif.Proofs.ScpSink
/-!
# SCP: the receiving side and a peer that follows the protocol
-/

namespace Proofs.Scp
open Wolf Wolf.Scp Spec.Scp

/-- What bursts still to come amount to when the last times announced are `mt` and `at_`. -/
inductive Pend : Nat → Nat → List Bytes → List Got → Prop where
  | nil {mt at_} : Pend mt at_ [] []
  | time {mt at_ a b t ss E} : Times t a b → Line t → Pend a b ss E → Pend mt at_ ((t ++ [10]) :: ss) E
  | file {mt at_ m mode name data ss E} : Announces 67 m mode data.length name → Line m → Pend 0 0 ss E →
      Pend mt at_ ((m ++ [10]) :: (data ++ [0]) :: ss) (.file (some name) mode mt at_ data :: E)
  | dir {mt at_ m mode size name ss E} : Announces 68 m mode size name → Line m → Pend mt at_ ss E →
      Pend mt at_ ((m ++ [10]) :: ss) (.dir (some name) mode mt at_ :: E)
  | endDir {mt at_ m ss E} : m.head? = some 69 → Line m → Pend mt at_ ss E → Pend mt at_ ((m ++ [10]) :: ss) (.endDir :: E)

theorem script_pend {is : List Item} {ss : List Bytes} (h : Script is ss) : ∀ k mt at_, Told k is →
    (k = false → mt = 0 ∧ at_ = 0) → Pend mt at_ ss (is.map wanted) := by
  induction h with
  | nil => intro k mt at_ _ _; exact Pend.nil
  | @file ts pre m mode name data is ss hst ha hl hs ih =>
    intro k mt at_ hu hz
    have hrest := ih false 0 0 hu.2 (fun _ => ⟨rfl, rfl⟩)
    cases hst with
    | none =>
      obtain ⟨rfl, rfl⟩ := hz (hu.1 rfl)
      exact Pend.file ha hl hrest
    | some ht hlt => exact Pend.time ht hlt (Pend.file ha hl hrest)
  | @dir ts pre m mode size name is ss hst ha hl hs ih =>
    intro k mt at_ hu hz
    have hrest := fun a b => ih ts.isSome a b hu.2
    cases hst with
    | none =>
      obtain ⟨rfl, rfl⟩ := hz (hu.1 rfl)
      exact Pend.dir ha hl (hrest 0 0 (fun _ => ⟨rfl, rfl⟩))
    | @some t a b ht hlt =>
      exact Pend.time ht hlt (Pend.dir ha hl (hrest a b (fun h => by cases h)))
  | @endDir m is ss hh hl hs ih =>
    intro k mt at_ hu hz
    exact Pend.endDir hh hl (ih k mt at_ hu hz)

/-- `X` is what is on its way, and it is all of one burst. -/
def Flight (σ : Sys) (X : Bytes) : Prop :=
  (σ.wire = [] ∧ σ.sink.chan ++ σ.cur = X) ∨ (σ.sink.chan = [] ∧ σ.cur = [] ∧ σ.wire = [X])

/-- Nothing is on its way. -/
def Still (σ : Sys) : Prop := σ.sink.chan = [] ∧ σ.cur = [] ∧ σ.wire = []

/-- How the receiver and the peer stand to each other: `acc` is what has been handed over of the file that is open, `E` what
is still to be given to the application. -/
inductive Inv : Sys → Bytes → List Got → Prop where
  | begin {σ acc E} : σ.sink.st = .begin → σ.sink.off = 0 → σ.sink.rename = false → σ.sink.msg = [] → Still σ →
      Pend σ.sink.mtime σ.sink.atime σ.todo E → Inv σ acc E
  | ackMsg {σ acc E} : σ.sink.st = .sendConf → σ.sink.next = .recvMsg → σ.sink.confirm = .go → σ.sink.off = 0 →
      σ.sink.rename = false → σ.sink.msg = [] → Still σ → Pend σ.sink.mtime σ.sink.atime σ.todo E → Inv σ acc E
  | msgNone {σ acc} : σ.sink.st = .recvMsg → σ.sink.confirm = .go → σ.sink.off = 0 → σ.sink.rename = false → σ.sink.msg = [] →
      Still σ → σ.todo = [] → Inv σ acc []
  | msg {σ acc E h} : σ.sink.st = .recvMsg → σ.sink.confirm = .go → σ.sink.off = 0 → σ.sink.rename = false →
      σ.sink.msg.length < h.length →
      (σ.wire = [] ∧ σ.sink.msg ++ (σ.sink.chan ++ σ.cur) = h ∨
        σ.sink.msg = [] ∧ σ.sink.chan = [] ∧ σ.cur = [] ∧ σ.wire = [h]) →
      Pend σ.sink.mtime σ.sink.atime (h :: σ.todo) E → Inv σ acc E
  | ackFile {σ acc E n data ss} : σ.sink.st = .sendConf → σ.sink.next = .recvFile → σ.sink.confirm = .go → σ.sink.off = 0 →
      σ.sink.rename = false → σ.sink.msg = [] → Still σ → σ.sink.name = some n → σ.sink.size = data.length →
      σ.todo = (data ++ [0]) :: ss → acc = [] → Pend 0 0 ss E →
      Inv σ acc (.file (some n) σ.sink.mode σ.sink.mtime σ.sink.atime data :: E)
  | data {σ acc E n data} : σ.sink.st = .recvFile → σ.sink.confirm = .go →
      σ.sink.rename = false → σ.sink.msg = [] → σ.sink.off ≤ data.length → acc = data.take σ.sink.off →
      Flight σ (data.drop σ.sink.off ++ [0]) → σ.sink.name = some n → σ.sink.size = data.length →
      Pend 0 0 σ.todo E → Inv σ acc (.file (some n) σ.sink.mode σ.sink.mtime σ.sink.atime data :: E)
  | ackDone {σ acc E} : σ.sink.st = .sendConf → σ.sink.next = .recvConf → σ.sink.confirm = .go → σ.sink.off = 0 →
      σ.sink.rename = false → σ.sink.msg = [] → Flight σ [0] → Pend σ.sink.mtime σ.sink.atime σ.todo E → Inv σ acc E
  | conf {σ acc E ss} : σ.sink.st = .recvConf → σ.sink.confirm = .go → σ.sink.off = 0 → σ.sink.rename = false → σ.sink.msg = [] →
      (σ.sink.chan ++ σ.cur = [0] ∧ σ.wire = ss.take 1 ∨ σ.sink.chan = [] ∧ σ.cur = [] ∧ σ.wire = [0] :: ss.take 1) →
      σ.todo = ss.drop 1 → Pend σ.sink.mtime σ.sink.atime ss E → Inv σ acc E

/-- One move: what it gives the application comes off what is wanted. -/
def Goes (σ : Sys) (m : Move) (acc : Bytes) (E : List Got) : Prop :=
  ∃ acc' E' G, Inv (σ.next m).1 acc' E' ∧ E = G ++ E' ∧
    ∀ cs, given acc (calls (σ.next m).2 ++ cs) = G ++ given acc' cs

theorem goes_quiet {σ : Sys} {m : Move} {acc : Bytes} {E : List Got} (h : Inv (σ.next m).1 acc E)
    (hc : calls (σ.next m).2 = []) : Goes σ m acc E :=
  ⟨acc, E, [], h, rfl, by intro cs; rw [hc]; rfl⟩

theorem answer_none (σ : Sys) : answer σ [] = σ := by simp [answer]

/-! ### Delivery -/

theorem deliver_flight (σ : Sys) (n : Nat) (X : Bytes) (h : Flight σ X) : Flight (σ.next (.deliver n)).1 X := by
  unfold Sys.next
  simp only []
  rcases h with ⟨hw, hc⟩ | ⟨h1, h2, h3⟩
  · by_cases h0 : σ.cur = []
    · rw [if_pos h0, hw]; exact Or.inl ⟨hw, hc⟩
    · rw [if_neg h0]
      left
      exact ⟨hw, by simp only [List.append_assoc, List.take_append_drop]; exact hc⟩
  · rw [if_pos h2, h3]
    simp only []
    rw [if_pos h1]
    left
    exact ⟨rfl, by simp only [h1, List.nil_append]⟩

theorem deliver_still (σ : Sys) (n : Nat) (h : Still σ) : σ.next (.deliver n) = (σ, []) := by
  obtain ⟨_, h2, h3⟩ := h
  unfold Sys.next
  simp only []
  rw [if_pos h2, h3]

theorem deliver_sink (σ : Sys) (n : Nat) : ∃ c, (σ.next (.deliver n)).1.sink = { σ.sink with chan := c } := by
  unfold Sys.next
  simp only []
  split
  · split
    · exact ⟨σ.sink.chan, rfl⟩
    · split
      · exact ⟨σ.sink.chan, rfl⟩
      · exact ⟨σ.sink.chan, rfl⟩
  · exact ⟨_, rfl⟩

theorem deliver_todo (σ : Sys) (n : Nat) : (σ.next (.deliver n)).1.todo = σ.todo := by
  unfold Sys.next
  simp only []
  split
  · split
    · rfl
    · split <;> rfl
  · rfl

theorem deliver_quiet (σ : Sys) (n : Nat) : (σ.next (.deliver n)).2 = [] := by
  unfold Sys.next
  simp only []
  split
  · split
    · rfl
    · split <;> rfl
  · rfl

theorem deliver_goes (σ : Sys) (n : Nat) (acc : Bytes) (E : List Got) (h : Inv σ acc E) : Goes σ (.deliver n) acc E := by
  refine goes_quiet ?_ (by rw [deliver_quiet]; rfl)
  obtain ⟨c, hc⟩ := deliver_sink σ n
  have ht := deliver_todo σ n
  cases h with
  | begin h1 h2 h3 h4 h5 h6 => rw [deliver_still σ n h5]; exact .begin h1 h2 h3 h4 h5 h6
  | ackMsg h1 h2 h3 h4 h5 h6 h7 h8 => rw [deliver_still σ n h7]; exact .ackMsg h1 h2 h3 h4 h5 h6 h7 h8
  | msgNone h1 h2 h3 h4 h5 h6 h7 => rw [deliver_still σ n h6]; exact .msgNone h1 h2 h3 h4 h5 h6 h7
  | ackFile h1 h2 h3 h4 h5 h6 h7 h8 h9 h10 h11 h12 =>
    rw [deliver_still σ n h7]; exact .ackFile h1 h2 h3 h4 h5 h6 h7 h8 h9 h10 h11 h12
  | msg h1 h2 h3 h4 h5 h6 h7 =>
    refine .msg (by rw [hc]; exact h1) (by rw [hc]; exact h2) (by rw [hc]; exact h3) (by rw [hc]; exact h4)
      (by rw [hc]; exact h5) ?_ (by rw [hc, ht]; exact h7)
    unfold Sys.next
    simp only []
    rcases h6 with ⟨hw, hx⟩ | ⟨hm, h1, h2, h3⟩
    · by_cases h0 : σ.cur = []
      · rw [if_pos h0, hw]; exact Or.inl ⟨hw, hx⟩
      · rw [if_neg h0]
        left
        exact ⟨hw, by simp only [List.append_assoc, List.take_append_drop]; exact hx⟩
    · rw [if_pos h2, h3]
      simp only []
      rw [if_pos h1]
      left
      exact ⟨rfl, by simp only [hm, h1, List.nil_append]⟩
  | @data E nm data h1 h2 h3 h4 h5 h6 h7 h8 h9 h10 =>
    have hf := deliver_flight σ n _ h7
    have ho : (σ.next (.deliver n)).1.sink.off = σ.sink.off := by rw [hc]
    have := @Inv.data (σ.next (.deliver n)).1 acc E nm data (by rw [hc]; exact h1) (by rw [hc]; exact h2) (by rw [hc]; exact h3)
      (by rw [hc]; exact h4) (by rw [hc]; exact h5) (by rw [hc]; exact h6) (by rw [ho]; exact hf) (by rw [hc]; exact h8)
      (by rw [hc]; exact h9) (by rw [ht]; exact h10)
    rw [hc] at this
    exact this
  | ackDone h1 h2 h3 h4 h5 h6 h7 h8 =>
    exact .ackDone (by rw [hc]; exact h1) (by rw [hc]; exact h2) (by rw [hc]; exact h3) (by rw [hc]; exact h4)
      (by rw [hc]; exact h5) (by rw [hc]; exact h6) (deliver_flight σ n _ h7) (by rw [hc, ht]; exact h8)
  | @conf E ss h1 h2 h3 h4 h5 h6 h7 h8 =>
    refine .conf (by rw [hc]; exact h1) (by rw [hc]; exact h2) (by rw [hc]; exact h3) (by rw [hc]; exact h4)
      (by rw [hc]; exact h5) ?_ (by rw [ht]; exact h7) (by rw [hc]; exact h8)
    unfold Sys.next
    simp only []
    rcases h6 with ⟨h6, hw⟩ | ⟨h61, h62, h63⟩
    · by_cases h0 : σ.cur = []
      · rw [if_pos h0]
        cases hws : σ.wire with
        | nil => exact Or.inl ⟨h6, by rw [← hw, hws]⟩
        | cons w ws =>
          simp only []
          have hne : σ.sink.chan ≠ [] := by intro h; rw [h, h0] at h6; cases h6
          rw [if_neg hne]
          exact Or.inl ⟨h6, hw⟩
      · rw [if_neg h0]
        exact Or.inl ⟨by simp only [List.append_assoc, List.take_append_drop]; exact h6, hw⟩
    · rw [if_pos h62, h63]
      simp only []
      rw [if_pos h61]
      exact Or.inl ⟨by simp only [h61, List.nil_append], rfl⟩

/-! ### Steps -/

theorem step_same {σ : Sys} {i : In} (h : step σ.sink i = (σ.sink, [])) : σ.next (.step i) = (σ, []) := by
  unfold Sys.next
  simp only [h, answer_none]

theorem sys_step (σ : Sys) (i : In) (s : Sink) (os : List Out) (h : step σ.sink i = (s, os)) :
    σ.next (.step i) = (answer { σ with sink := s } os, os) := by
  unfold Sys.next
  simp only [h]

theorem answer_ack (σ : Sys) : answer σ [.ack] =
    { σ with wire := σ.wire ++ σ.todo.take 1, todo := σ.todo.drop 1 } := by
  unfold answer
  rw [if_pos (by simp)]
  cases σ with
  | mk s c w t => cases t <;> simp

theorem answer_other (σ : Sys) (os : List Out) (h : Out.ack ∉ os) : answer σ os = σ := by
  unfold answer
  rw [if_neg h]

/-- Line ends: a message that ends in a newline is the whole line. -/
theorem line_end {a b m : Bytes} (h : a ++ b = m ++ [10]) (ha : a.getLast? = some 10) (hm : 10 ∉ m) : b = [] ∧ a = m ++ [10] := by
  obtain ⟨a', rfl⟩ := getLast_split a ha
  rcases List.append_eq_append_iff.mp (show a' ++ ([10] ++ b) = m ++ [10] by rw [← h]; simp) with ⟨x, h1, h2⟩ | ⟨x, h1, h2⟩
  · cases x with
    | nil =>
      simp only [List.append_nil] at h1
      have : b = [] := by simpa using h2
      exact ⟨this, by rw [h1]⟩
    | cons y t =>
      simp only [List.cons_append, List.nil_append, List.cons.injEq] at h2
      obtain ⟨h3, h4⟩ := h2
      exact absurd (by rw [h1, ← h3]; simp) hm
  · have := congrArg List.length h2
    simp only [List.length_append, List.length_cons, List.length_nil] at this
    have hx : x = [] := List.eq_nil_of_length_eq_zero (by omega)
    subst hx
    have hb : b = [] := List.eq_nil_of_length_eq_zero (by omega)
    simp only [List.append_nil] at h1
    exact ⟨hb, by rw [h1]⟩

theorem pend_head {mt at_ : Nat} {h : Bytes} {ss : List Bytes} {E : List Got} (hp : Pend mt at_ (h :: ss) E) :
    ∃ m, h = m ++ [10] ∧ Line m := by
  cases hp with
  | time _ hl _ => exact ⟨_, rfl, hl⟩
  | file _ hl _ => exact ⟨_, rfl, hl⟩
  | dir _ hl _ => exact ⟨_, rfl, hl⟩
  | endDir _ hl _ => exact ⟨_, rfl, hl⟩

/-- A whole message has been read. -/
theorem whole_goes (σ : Sys) (i : In) (acc : Bytes) (E : List Got) (m : Bytes) (hb : Benign (.step i))
    (h2 : σ.sink.confirm = .go) (h3 : σ.sink.off = 0) (h4 : σ.sink.rename = false)
    (hcur : σ.cur = []) (hw : σ.wire = []) (hp : Pend σ.sink.mtime σ.sink.atime ((m ++ [10]) :: σ.todo) E)
    (hstep : ∀ x, parseMsg false (m ++ [10]) i.old = some (.ok x) →
      step σ.sink i = act (note { σ.sink with msg := [], chan := [] } x) i) :
    Goes σ (.step i) acc E := by
  have hcb : i.cb = .go := hb.2.2.1
  generalize htd : (m ++ [10]) :: σ.todo = q at hp
  cases hp with
  | nil => cases htd
  | @time _ _ a b t ss E ht hl hp =>
    have hm : t = m := by
      have := (List.cons.inj htd).1
      exact (List.append_cancel_right this).symm
    have hss := (List.cons.inj htd).2
    subst hm
    have hst := hstep (.times a b) ((parse_iff t i.old (.times a b)).mpr ht)
    refine goes_quiet ?_ (by rw [sys_step σ i _ _ (hst.trans rfl)]; rfl)
    rw [sys_step σ i _ _ (hst.trans rfl)]
    rw [answer_other _ _ (by simp)]
    exact .ackMsg rfl rfl h2 h3 h4 rfl ⟨rfl, hcur, hw⟩ (by rw [hss]; exact hp)
  | @file _ _ t mode name data ss E ht hl hp =>
    have hm : t = m := by
      have := (List.cons.inj htd).1
      exact (List.append_cancel_right this).symm
    have hss := (List.cons.inj htd).2
    subst hm
    have hst := hstep (.file mode data.length (some name)) ((parse_iff t i.old _).mpr ht)
    rw [Goes, sys_step σ i _ _ (hst.trans rfl)]
    rw [answer_other _ _ (by simp)]
    refine ⟨[], _, [], .ackFile (n := name) (data := data) rfl rfl hcb h3 rfl rfl ⟨rfl, hcur, hw⟩ rfl rfl hss rfl hp, rfl, ?_⟩
    intro cs
    simp [calls, given]
  | @dir _ _ t mode size name ss E ht hl hp =>
    have hm : t = m := by
      have := (List.cons.inj htd).1
      exact (List.append_cancel_right this).symm
    have hss := (List.cons.inj htd).2
    subst hm
    have hst := hstep (.dir mode size (some name)) ((parse_iff t i.old _).mpr ht)
    rw [Goes, sys_step σ i _ _ (hst.trans rfl)]
    rw [answer_other _ _ (by simp)]
    refine ⟨acc, E, [_], .ackMsg rfl rfl hcb h3 rfl rfl ⟨rfl, hcur, hw⟩ (by rw [hss]; exact hp), rfl, ?_⟩
    intro cs
    simp [calls, given, note]
  | @endDir _ _ t ss E ht hl hp =>
    have hm : t = m := by
      have := (List.cons.inj htd).1
      exact (List.append_cancel_right this).symm
    have hss := (List.cons.inj htd).2
    subst hm
    have hst := hstep .endDir ((parse_iff t i.old _).mpr ht)
    rw [Goes, sys_step σ i _ _ (hst.trans rfl)]
    rw [answer_other _ _ (by simp)]
    refine ⟨acc, E, [_], .ackMsg rfl rfl hcb h3 h4 rfl ⟨rfl, hcur, hw⟩ (by rw [hss]; exact hp), rfl, ?_⟩
    intro cs
    simp [calls, given]

/-- The receiver asks for a message. -/
theorem msg_goes (σ : Sys) (i : In) (acc : Bytes) (E : List Got) (h : Bytes) (hb : Benign (.step i))
    (h1 : σ.sink.st = .recvMsg) (h2 : σ.sink.confirm = .go) (h3 : σ.sink.off = 0) (h4 : σ.sink.rename = false)
    (h5 : σ.sink.msg.length < h.length)
    (h6 : σ.wire = [] ∧ σ.sink.msg ++ (σ.sink.chan ++ σ.cur) = h ∨
        σ.sink.msg = [] ∧ σ.sink.chan = [] ∧ σ.cur = [] ∧ σ.wire = [h])
    (h7 : Pend σ.sink.mtime σ.sink.atime (h :: σ.todo) E) : Goes σ (.step i) acc E := by
  obtain ⟨m, hm, hl⟩ := pend_head h7
  have hlen : h.length ≤ 1023 := by have := hl.2; rw [hm]; simp; omega
  have hfull : ¬ (σ.sink.msg.length ≥ MSG_SZ - 1) := by unfold MSG_SZ; omega
  have hself : Inv σ acc E := .msg h1 h2 h3 h4 h5 h6 h7
  have hst : step σ.sink i = recvMessage σ.sink i := by unfold step; rw [h1]
  have hstay : recvMessage σ.sink i = (σ.sink, []) → Goes σ (.step i) acc E := by
    intro hr
    have he := step_same (σ := σ) (i := i) (hst.trans hr)
    exact goes_quiet (by rw [he]; exact hself) (by rw [he]; rfl)
  rcases hb.1 with hr | hr | hr
  · by_cases hc : σ.sink.chan = []
    · apply hstay; unfold recvMessage; rw [if_neg hfull, hr]; simp only []; rw [if_pos hc]
    · rcases h6 with ⟨hw, hx⟩ | ⟨_, hc', _⟩
      · have hle : σ.sink.chan.length ≤ MSG_SZ - σ.sink.msg.length := by
          have := congrArg List.length hx
          simp only [List.length_append] at this
          unfold MSG_SZ; omega
        have htk : σ.sink.chan.take (MSG_SZ - σ.sink.msg.length) = σ.sink.chan := List.take_of_length_le hle
        have hdr : σ.sink.chan.drop (MSG_SZ - σ.sink.msg.length) = [] := List.drop_of_length_le hle
        have hrm : recvMessage σ.sink i =
            if (σ.sink.msg ++ σ.sink.chan).getLast? = some (10 : Byte) then
              match parseMsg σ.sink.rename (σ.sink.msg ++ σ.sink.chan) i.old with
              | none => ({ σ.sink with msg := σ.sink.msg ++ σ.sink.chan, chan := [], st := .crash }, [])
              | some (.error _) => ({ σ.sink with msg := [], chan := [], st := .dead }, [])
              | some (.ok m) => act (note { σ.sink with msg := [], chan := [] } m) i
            else ({ σ.sink with msg := σ.sink.msg ++ σ.sink.chan, chan := [] }, []) := by
          unfold recvMessage
          rw [if_neg hfull, hr]
          simp only []
          rw [if_neg hc, htk, hdr]
          rfl
        by_cases hlast : (σ.sink.msg ++ σ.sink.chan).getLast? = some (10 : Byte)
        · have hle := line_end (a := σ.sink.msg ++ σ.sink.chan) (b := σ.cur) (m := m) (by rw [List.append_assoc, hx, hm]) hlast hl.1
          refine whole_goes σ i acc E m hb h2 h3 h4 hle.1 hw (by rw [← hm]; exact h7) ?_
          intro x hx
          rw [hst, hrm, if_pos hlast, hle.2, h4, hx]
        · have hs2 := hst.trans (hrm.trans (if_neg hlast))
          refine goes_quiet ?_ (by rw [sys_step σ i _ _ hs2]; rfl)
          rw [sys_step σ i _ _ hs2, answer_none]
          refine .msg (h := h) h1 h2 h3 h4 ?_ (Or.inl ⟨hw, by simp only [List.nil_append, List.append_assoc]; exact hx⟩) h7
          show (σ.sink.msg ++ σ.sink.chan).length < h.length
          rcases Nat.lt_or_ge (σ.sink.msg ++ σ.sink.chan).length h.length with h8 | h8
          · exact h8
          · exfalso
            have hcur : σ.cur = [] := by
              have := congrArg List.length hx
              simp only [List.length_append] at this h8
              exact List.eq_nil_of_length_eq_zero (by omega)
            rw [hcur, List.append_nil] at hx
            rw [hx, hm] at hlast
            simp at hlast
      · exact absurd hc' hc
  · apply hstay; unfold recvMessage; rw [if_neg hfull, hr]
  · apply hstay; unfold recvMessage; rw [if_neg hfull, hr]

/-- The receiver reads the contents of a file. -/
theorem data_goes (σ : Sys) (i : In) (acc : Bytes) (E : List Got) (n data : Bytes) (hb : Benign (.step i))
    (h1 : σ.sink.st = .recvFile) (h2 : σ.sink.confirm = .go) (h3 : σ.sink.rename = false) (h4 : σ.sink.msg = [])
    (h5 : σ.sink.off ≤ data.length) (h6 : acc = data.take σ.sink.off)
    (h7 : Flight σ (data.drop σ.sink.off ++ [0])) (h8 : σ.sink.name = some n) (h9 : σ.sink.size = data.length)
    (h10 : Pend 0 0 σ.todo E) :
    Goes σ (.step i) acc (.file (some n) σ.sink.mode σ.sink.mtime σ.sink.atime data :: E) := by
  have hself := @Inv.data σ acc E n data h1 h2 h3 h4 h5 h6 h7 h8 h9 h10
  have hst : step σ.sink i = recvFile σ.sink i := by unfold step; rw [h1]
  have hstay : recvFile σ.sink i = (σ.sink, []) →
      Goes σ (.step i) acc (.file (some n) σ.sink.mode σ.sink.mtime σ.sink.atime data :: E) := by
    intro hr
    have he := step_same (σ := σ) (i := i) (hst.trans hr)
    exact goes_quiet (by rw [he]; exact hself) (by rw [he]; rfl)
  have hcb : i.cb = .go := hb.2.2.1
  have hcb2 : i.cb2 = .go := hb.2.2.2
  -- a piece `d` is taken from the front of what is on its way
  have piece : ∀ (c d : Bytes), step σ.sink i = gotPart { σ.sink with chan := c } i d → σ.sink.off + d.length ≤ data.length →
      d = (data.drop σ.sink.off).take d.length →
      Flight { σ with sink := { σ.sink with chan := c } } (data.drop (σ.sink.off + d.length) ++ [0]) →
      Goes σ (.step i) acc (.file (some n) σ.sink.mode σ.sink.mtime σ.sink.atime data :: E) := by
    intro c d hg hd hdd hfl
    have hacc : acc ++ d = data.take (σ.sink.off + d.length) := by
      rw [List.take_add, ← hdd, h6]
    by_cases hlt : σ.sink.off + d.length < σ.sink.size
    · have hgp : gotPart { σ.sink with chan := c } i d =
          ({ σ.sink with chan := c, off := σ.sink.off + d.length, confirm := i.cb, next := .recvFile },
            [.call (.part σ.sink.name σ.sink.size σ.sink.off d) i.cb]) := by
        unfold gotPart; simp only []; rw [if_neg (by simp [hcb]), if_pos hlt]
      rw [Goes, sys_step σ i _ _ (hg.trans hgp), answer_other _ _ (by simp)]
      refine ⟨acc ++ d, _, [], @Inv.data _ _ E n data h1 hcb h3 h4 hd hacc hfl h8 h9 h10, rfl, ?_⟩
      intro cs
      simp [calls, given]
    · have hgp : gotPart { σ.sink with chan := c } i d =
          ({ σ.sink with chan := c, off := 0, atime := 0, mtime := 0, st := .sendConf, next := .recvConf, confirm := i.cb2 },
            [.call (.part σ.sink.name σ.sink.size σ.sink.off d) i.cb,
             .call (.fileDone σ.sink.name σ.sink.mode σ.sink.mtime σ.sink.atime σ.sink.size) i.cb2]) := by
        unfold gotPart; simp only []; rw [if_neg (by simp [hcb]), if_neg hlt]
      have hall : σ.sink.off + d.length = data.length := by omega
      rw [hall, List.drop_length, List.nil_append] at hfl
      rw [hall, List.take_length] at hacc
      rw [Goes, sys_step σ i _ _ (hg.trans hgp), answer_other _ _ (by simp)]
      refine ⟨[], E, [_], .ackDone rfl rfl hcb2 rfl h3 h4 hfl h10, rfl, ?_⟩
      intro cs
      simp [calls, given, hacc, h8]
  by_cases hp : min (σ.sink.size - σ.sink.off) PART_SZ = 0
  · have hoff : σ.sink.off = data.length := by unfold PART_SZ at hp; omega
    refine piece σ.sink.chan [] ?_ (by simpa using h5) (by simp) (by simpa using h7)
    rw [hst]; unfold recvFile; simp only []; rw [if_pos hp]
  · rcases hb.1 with hr | hr | hr
    · by_cases hc : σ.sink.chan = []
      · apply hstay; unfold recvFile; simp only []; rw [if_neg hp, hr]; simp only []; rw [if_pos hc]
      · rcases h7 with ⟨hw, hx⟩ | ⟨hc', _⟩
        · generalize hk : min (σ.sink.size - σ.sink.off) PART_SZ = k at hp
          have hkle : k ≤ data.length - σ.sink.off := by omega
          have hlx := congrArg List.length hx
          simp only [List.length_append, List.length_drop, List.length_cons, List.length_nil] at hlx
          have hdl : (σ.sink.chan.take k).length ≤ data.length - σ.sink.off := by
            rw [List.length_take]; omega
          have htake : σ.sink.chan.take k = (data.drop σ.sink.off).take (σ.sink.chan.take k).length := by
            have e1 : (σ.sink.chan.take k) = (σ.sink.chan ++ σ.cur).take (σ.sink.chan.take k).length := by
              rw [List.length_take, List.take_append_of_le_length (Nat.min_le_right _ _)]
              rw [← List.take_take]
              rw [List.take_length]
            rw [hx] at e1
            rw [List.take_append_of_le_length (by rw [List.length_drop]; exact hdl)] at e1
            exact e1
          refine piece (σ.sink.chan.drop k) (σ.sink.chan.take k) ?_ (by omega) htake ?_
          · rw [hst]; unfold recvFile; simp only []; rw [hk, if_neg hp, hr]; simp only []; rw [if_neg hc]
          · left
            refine ⟨hw, ?_⟩
            show σ.sink.chan.drop k ++ σ.cur = _
            have e2 : σ.sink.chan.drop k = σ.sink.chan.drop (σ.sink.chan.take k).length := by
              rw [List.length_take]
              rcases Nat.le_total k σ.sink.chan.length with hkl | hkl
              · rw [Nat.min_eq_left hkl]
              · rw [Nat.min_eq_right hkl, List.drop_length, List.drop_of_length_le hkl]
            have hcl : (σ.sink.chan.take k).length ≤ σ.sink.chan.length := by rw [List.length_take]; omega
            rw [e2, ← List.drop_append_of_le_length hcl, hx,
              List.drop_append_of_le_length (by rw [List.length_drop]; exact hdl), List.drop_drop]
        · exact absurd hc' hc
    · apply hstay; unfold recvFile; simp only []; rw [if_neg hp, hr]
    · apply hstay; unfold recvFile; simp only []; rw [if_neg hp, hr]

/-- The receiver sends a confirmation. -/
theorem ack_step (σ : Sys) (i : In) (hb : Benign (.step i)) (h1 : σ.sink.st = .sendConf) (h3 : σ.sink.confirm = .go) :
    σ.next (.step i) = (σ, []) ∨
    σ.next (.step i) = ({ σ with sink := { σ.sink with st := σ.sink.next }, wire := σ.wire ++ σ.todo.take 1,
                                 todo := σ.todo.drop 1 }, [.ack]) := by
  have hst : step σ.sink i = sendConf σ.sink i := by unfold step; rw [h1]
  cases hs : i.snd with
  | want => left; exact step_same (hst.trans (by unfold sendConf; rw [hs]))
  | fail => exact absurd hs hb.2.1
  | sent =>
    right
    have : sendConf σ.sink i = ({ σ.sink with st := σ.sink.next }, [.ack]) := by
      unfold sendConf; rw [hs]; simp only []; rw [if_neg (by rw [h3]; simp)]
    rw [sys_step σ i _ _ (hst.trans this), answer_ack]

theorem step_goes (σ : Sys) (i : In) (acc : Bytes) (E : List Got) (hb : Benign (.step i)) (h : Inv σ acc E) :
    Goes σ (.step i) acc E := by
  cases h with
  | begin h1 h2 h3 h4 h5 h6 =>
    have hs : step σ.sink i = ({ σ.sink with st := .sendConf, next := .recvMsg, confirm := i.cb }, [.call .request i.cb]) := by
      unfold step; rw [h1]
    rw [Goes, sys_step σ i _ _ hs, answer_other _ _ (by simp)]
    refine ⟨acc, E, [], .ackMsg rfl rfl hb.2.2.1 h2 h3 h4 h5 h6, rfl, ?_⟩
    intro cs
    simp [calls, given]
  | ackMsg h1 h2 h3 h4 h5 h6 h7 h8 =>
    rcases ack_step σ i hb h1 h3 with he | he
    · exact goes_quiet (by rw [he]; exact .ackMsg h1 h2 h3 h4 h5 h6 h7 h8) (by rw [he]; rfl)
    · refine goes_quiet ?_ (by rw [he]; rfl)
      rw [he, h2]
      cases ht : σ.todo with
      | nil =>
        rw [ht] at h8
        cases h8
        exact .msgNone rfl h3 h4 h5 h6 ⟨h7.1, h7.2.1, by simp [h7.2.2]⟩ rfl
      | cons t ts =>
        rw [ht] at h8
        obtain ⟨m, hm, _⟩ := pend_head h8
        refine .msg (h := t) rfl h3 h4 h5 ?_ (Or.inr ⟨h6, h7.1, h7.2.1, by simp [h7.2.2]⟩) h8
        show σ.sink.msg.length < t.length
        rw [h6, hm]; simp
  | msgNone h1 h2 h3 h4 h5 h6 h7 =>
    have hfull : ¬ (σ.sink.msg.length ≥ MSG_SZ - 1) := by rw [h5]; unfold MSG_SZ; simp
    have hs : step σ.sink i = (σ.sink, []) := by
      unfold step; rw [h1]; simp only []; unfold recvMessage; rw [if_neg hfull]
      rcases hb.1 with hr | hr | hr
      · rw [hr]; simp only []; rw [if_pos h6.1]
      · rw [hr]
      · rw [hr]
    have he := step_same hs
    exact goes_quiet (by rw [he]; exact .msgNone h1 h2 h3 h4 h5 h6 h7) (by rw [he]; rfl)
  | msg h1 h2 h3 h4 h5 h6 h7 => exact msg_goes σ i acc E _ hb h1 h2 h3 h4 h5 h6 h7
  | @ackFile E n data ss h1 h2 h3 h4 h5 h6 h7 h8 h9 h10 h11 h12 =>
    rcases ack_step σ i hb h1 h3 with he | he
    · exact goes_quiet (by rw [he]; exact .ackFile h1 h2 h3 h4 h5 h6 h7 h8 h9 h10 h11 h12) (by rw [he]; rfl)
    · refine goes_quiet ?_ (by rw [he]; rfl)
      rw [he, h2]
      refine .data (n := n) (data := data) rfl h3 h5 h6 (by show σ.sink.off ≤ _; omega) ?_ (Or.inr ⟨h7.1, h7.2.1, ?_⟩) h8 h9 ?_
      · show acc = data.take σ.sink.off
        rw [h4, h11]; rfl
      · show σ.wire ++ σ.todo.take 1 = [data.drop σ.sink.off ++ [0]]
        rw [h7.2.2, h10, h4]; rfl
      · show Pend 0 0 (σ.todo.drop 1) E
        rw [h10]; exact h12
  | @data E n data h1 h2 h3 h4 h5 h6 h7 h8 h9 h10 => exact data_goes σ i acc E n data hb h1 h2 h3 h4 h5 h6 h7 h8 h9 h10
  | ackDone h1 h2 h3 h4 h5 h6 h7 h8 =>
    rcases ack_step σ i hb h1 h3 with he | he
    · exact goes_quiet (by rw [he]; exact .ackDone h1 h2 h3 h4 h5 h6 h7 h8) (by rw [he]; rfl)
    · refine goes_quiet ?_ (by rw [he]; rfl)
      rw [he, h2]
      refine .conf (ss := σ.todo) rfl h3 h4 h5 h6 ?_ rfl h8
      rcases h7 with ⟨hw, hx⟩ | ⟨ha, hb, hc⟩
      · left; exact ⟨hx, by simp [hw]⟩
      · right; exact ⟨ha, hb, by simp [hc]⟩
  | @conf E ss h1 h2 h3 h4 h5 h6 h7 h8 =>
    have hself : Inv σ acc E := .conf h1 h2 h3 h4 h5 h6 h7 h8
    have hst : step σ.sink i = recvConf σ.sink i := by unfold step; rw [h1]
    have hstay : recvConf σ.sink i = (σ.sink, []) → Goes σ (.step i) acc E := by
      intro hr
      have he := step_same (σ := σ) (i := i) (hst.trans hr)
      exact goes_quiet (by rw [he]; exact hself) (by rw [he]; rfl)
    rcases hb.1 with hr | hr | hr
    · cases hc : σ.sink.chan with
      | nil => apply hstay; unfold recvConf; rw [hr]; simp only []; rw [hc]
      | cons b t =>
        rcases h6 with ⟨hx, hw⟩ | ⟨hx, _⟩
        · rw [hc] at hx
          simp only [List.cons_append, List.cons.injEq, List.append_eq_nil_iff] at hx
          obtain ⟨rfl, rfl, hcur⟩ := hx
          have hrc : recvConf σ.sink i = ({ σ.sink with chan := [], st := .recvMsg }, [.conf]) := by
            unfold recvConf; rw [hr]; simp only []; rw [hc]; rfl
          refine goes_quiet ?_ (by rw [sys_step σ i _ _ (hst.trans hrc)]; rfl)
          rw [sys_step σ i _ _ (hst.trans hrc), answer_other _ _ (by simp)]
          cases hss : ss with
          | nil =>
            rw [hss] at h8 hw h7
            cases h8
            exact .msgNone rfl h2 h3 h4 h5 ⟨rfl, hcur, hw⟩ h7
          | cons u us =>
            rw [hss] at h8 hw h7
            obtain ⟨m, hm, _⟩ := pend_head h8
            refine .msg (h := u) rfl h2 h3 h4 ?_ (Or.inr ⟨h5, rfl, hcur, hw⟩) ?_
            · show σ.sink.msg.length < u.length
              rw [h5, hm]; simp
            · show Pend σ.sink.mtime σ.sink.atime (u :: σ.todo) E
              rw [h7]; exact h8
        · rw [hc] at hx; cases hx
    · apply hstay; unfold recvConf; rw [hr]
    · apply hstay; unfold recvConf; rw [hr]

theorem run_goes (ms : List Move) : ∀ σ acc E, (∀ m ∈ ms, Benign m) → Inv σ acc E →
    ∃ acc' E' G, Inv (σ.run ms).1 acc' E' ∧ E = G ++ E' ∧ given acc (calls (σ.run ms).2) = G := by
  induction ms with
  | nil => intro σ acc E _ h; exact ⟨acc, E, [], h, rfl, rfl⟩
  | cons m ms ih =>
    intro σ acc E hb h
    have hg : Goes σ m acc E := by
      cases m with
      | deliver n => exact deliver_goes σ n acc E h
      | step i => exact step_goes σ i acc E (hb _ (by simp)) h
    obtain ⟨acc1, E1, G1, h1, h2, h3⟩ := hg
    obtain ⟨acc2, E2, G2, h4, h5, h6⟩ := ih (σ.next m).1 acc1 E1 (fun m hm => hb m (by simp [hm])) h1
    refine ⟨acc2, E2, G1 ++ G2, h4, by rw [h2, h5, List.append_assoc], ?_⟩
    show given acc (calls ((σ.next m).2 ++ ((σ.next m).1.run ms).2)) = _
    rw [calls_append, h3, h6]

theorem inv_alive {σ : Sys} {acc : Bytes} {E : List Got} (h : Inv σ acc E) :
    σ.sink.st ≠ .dead ∧ σ.sink.st ≠ .crash ∧ σ.sink.st ≠ .done := by
  cases h <;> (rename_i h1; simp_all)

theorem inv_quiet {σ : Sys} {acc : Bytes} {E : List Got} (h : Inv σ acc E) (hq : σ.Quiet) : E = [] := by
  obtain ⟨q1, q2, q3, q4, q5⟩ := hq
  cases h with
  | begin h1 => rw [q5] at h1; cases h1
  | ackMsg h1 => rw [q5] at h1; cases h1
  | msgNone => rfl
  | msg h1 h2 h3 h4 h5 h6 h7 =>
    rcases h6 with ⟨_, hx⟩ | ⟨_, _, _, hx⟩
    · rw [q3, q4] at hx
      simp only [List.append_nil] at hx
      rw [hx] at h5; omega
    · rw [q2] at hx; cases hx
  | ackFile h1 => rw [q5] at h1; cases h1
  | data h1 => rw [q5] at h1; cases h1
  | ackDone h1 => rw [q5] at h1; cases h1
  | conf h1 => rw [q5] at h1; cases h1

/-! ### Getting to the end -/

/-- How far a state is from the next wait. -/
def weight : St → Nat
  | .begin => 5
  | .recvFile => 3
  | .sendConf => 2
  | .recvConf => 1
  | _ => 0

theorem weight_le (s : St) : weight s ≤ 5 := by cases s <;> simp [weight]

/-- What is still to be done. -/
def left (σ : Sys) : Nat :=
  (σ.todo.map (fun b => 20 + 13 * b.length)).sum + (σ.wire.map (fun b => 10 + 12 * b.length)).sum + 11 * σ.cur.length +
    10 * σ.sink.chan.length + weight σ.sink.st

/-- The most helpful environment. -/
def easy : In := {}

theorem easy_benign : Benign (.step easy) := ⟨Or.inl rfl, by decide, rfl, rfl⟩

theorem recvMessage_left (s : Sink) (hc : s.chan ≠ []) (hf : ¬ (s.msg.length ≥ MSG_SZ - 1)) :
    (recvMessage s easy).1.chan.length < s.chan.length ∧ Out.ack ∉ (recvMessage s easy).2 := by
  have hlt : (s.chan.drop (MSG_SZ - s.msg.length)).length < s.chan.length := by
    have : 0 < s.chan.length := List.length_pos_iff.mpr hc
    rw [List.length_drop]
    unfold MSG_SZ at hf ⊢
    omega
  have hact : ∀ t : Sink, (act t easy).1.chan = t.chan ∧ Out.ack ∉ (act t easy).2 := by
    intro t
    unfold act
    cases t.kind <;> exact ⟨rfl, by simp⟩
  have hnote : ∀ (t : Sink) m, (note t m).chan = t.chan := by intro t m; cases m <;> rfl
  unfold recvMessage
  rw [if_neg hf]
  simp only [easy]
  rw [if_neg hc]
  split
  · split
    · exact ⟨hlt, by simp⟩
    · exact ⟨hlt, by simp⟩
    · rename_i m _
      have := hact (note { s with msg := [], chan := s.chan.drop (MSG_SZ - s.msg.length) } m)
      rw [hnote] at this
      exact ⟨by rw [show easy = ({} : In) from rfl] at this; rw [this.1]; exact hlt, this.2⟩
  · exact ⟨hlt, by simp⟩

theorem gotPart_left (s : Sink) (d : Bytes) : (gotPart s easy d).1.chan = s.chan ∧ Out.ack ∉ (gotPart s easy d).2 ∧
    (s.size ≤ s.off → (gotPart s easy d).1.st = .sendConf) := by
  have hgo : ¬ (easy.cb ≠ .go) := by decide
  unfold gotPart
  simp only []
  rw [if_neg hgo]
  by_cases h : s.off + d.length < s.size
  · rw [if_pos h]
    exact ⟨rfl, by simp, fun h' => by omega⟩
  · rw [if_neg h]
    exact ⟨rfl, by simp, fun _ => rfl⟩

theorem left_deliver (σ : Sys) (h : σ.cur ≠ [] ∨ (σ.sink.chan = [] ∧ σ.wire ≠ [])) :
    left (σ.next (.deliver σ.cur.length)).1 < left σ := by
  unfold Sys.next
  simp only []
  by_cases h0 : σ.cur = []
  · rw [if_pos h0]
    rcases h with h | ⟨h1, h2⟩
    · exact absurd h0 h
    · cases hw : σ.wire with
      | nil => exact absurd hw h2
      | cons w ws =>
        simp only []
        rw [if_pos h1]
        unfold left
        simp only [hw, h0, List.map_cons, List.sum_cons, List.length_nil]
        omega
  · rw [if_neg h0]
    have : 0 < σ.cur.length := List.length_pos_iff.mpr h0
    unfold left
    simp only [List.take_length, List.drop_length, List.length_append, List.length_nil]
    omega

theorem left_ack (σ : Sys) (h1 : σ.sink.st = .sendConf) (h3 : σ.sink.confirm = .go)
    (hn : σ.sink.next = .recvMsg ∨ σ.sink.next = .recvConf ∨ (σ.sink.next = .recvFile ∧ σ.todo ≠ [])) :
    left (σ.next (.step easy)).1 < left σ := by
  have hs : step σ.sink easy = ({ σ.sink with st := σ.sink.next }, [.ack]) := by
    unfold step; rw [h1]; simp only []; unfold sendConf; simp only [easy]; rw [if_neg (by rw [h3]; simp)]
  rw [sys_step σ easy _ _ hs, answer_ack]
  unfold left
  simp only [h1]
  cases ht : σ.todo with
  | nil =>
    rcases hn with h | h | ⟨_, h⟩
    · rw [h]; simp [weight]
    · rw [h]; simp [weight]
    · exact absurd ht h
  | cons t ts =>
    have := weight_le σ.sink.next
    simp only [List.take_succ_cons, List.take_zero, List.drop_succ_cons, List.drop_zero, List.map_append, List.map_cons,
      List.map_nil, List.sum_append, List.sum_cons, List.sum_nil]
    omega

theorem left_step (σ : Sys) (r : Sink × List Out) (hs : step σ.sink easy = r) (ha : Out.ack ∉ r.2)
    (h : 10 * r.1.chan.length + weight r.1.st < 10 * σ.sink.chan.length + weight σ.sink.st) :
    left (σ.next (.step easy)).1 < left σ := by
  rw [sys_step σ easy r.1 r.2 hs, answer_other _ _ ha]
  unfold left
  simp only []
  omega

theorem progress (σ : Sys) (acc : Bytes) (E : List Got) (h : Inv σ acc E) :
    σ.Quiet ∨ ∃ m, Benign m ∧ left (σ.next m).1 < left σ := by
  cases h with
  | begin h1 h2 h3 h4 h5 h6 =>
    right
    refine ⟨.step easy, easy_benign, left_step σ _ (by unfold step; rw [h1]) (by simp) ?_⟩
    rw [h1]; simp [weight]
  | ackMsg h1 h2 h3 h4 h5 h6 h7 h8 => right; exact ⟨_, easy_benign, left_ack σ h1 h3 (Or.inl h2)⟩
  | msgNone h1 h2 h3 h4 h5 h6 h7 => left; exact ⟨h7, h6.2.2, h6.2.1, h6.1, h1⟩
  | @msg E h h1 h2 h3 h4 h5 h6 h7 =>
    right
    by_cases hd : σ.cur ≠ [] ∨ (σ.sink.chan = [] ∧ σ.wire ≠ [])
    · exact ⟨.deliver σ.cur.length, trivial, left_deliver σ hd⟩
    · refine ⟨.step easy, easy_benign, ?_⟩
      have hcur : σ.cur = [] := Decidable.byContradiction fun hx => hd (Or.inl hx)
      have hc : σ.sink.chan ≠ [] := by
        intro hc
        rcases h6 with ⟨_, hx⟩ | ⟨_, _, _, hx⟩
        · rw [hc, hcur, List.append_nil, List.append_nil] at hx; rw [hx] at h5; omega
        · exact hd (Or.inr ⟨hc, by rw [hx]; simp⟩)
      obtain ⟨m, hm, hl⟩ := pend_head h7
      have hf : ¬ (σ.sink.msg.length ≥ MSG_SZ - 1) := by
        have := hl.2
        rw [hm] at h5
        simp only [List.length_append, List.length_cons, List.length_nil] at h5
        unfold MSG_SZ; omega
      obtain ⟨ha, hb⟩ := recvMessage_left σ.sink hc hf
      refine left_step σ _ (by unfold step; rw [h1]) hb ?_
      have := weight_le (recvMessage σ.sink easy).1.st
      omega
  | @ackFile E n data ss h1 h2 h3 h4 h5 h6 h7 h8 h9 h10 h11 h12 =>
    right; exact ⟨_, easy_benign, left_ack σ h1 h3 (Or.inr (Or.inr ⟨h2, by rw [h10]; simp⟩))⟩
  | @data E n data h1 h2 h3 h4 h5 h6 h7 h8 h9 h10 =>
    right
    by_cases hd : σ.cur ≠ [] ∨ (σ.sink.chan = [] ∧ σ.wire ≠ [])
    · exact ⟨.deliver σ.cur.length, trivial, left_deliver σ hd⟩
    · refine ⟨.step easy, easy_benign, ?_⟩
      have hcur : σ.cur = [] := Decidable.byContradiction fun hx => hd (Or.inl hx)
      have hc : σ.sink.chan ≠ [] := by
        intro hc
        rcases h7 with ⟨_, hx⟩ | ⟨_, _, hx⟩
        · rw [hc, hcur] at hx; simp at hx
        · exact hd (Or.inr ⟨hc, by rw [hx]; simp⟩)
      have hst : step σ.sink easy = recvFile σ.sink easy := by unfold step; rw [h1]
      by_cases hp : min (σ.sink.size - σ.sink.off) PART_SZ = 0
      · have hr : recvFile σ.sink easy = gotPart σ.sink easy [] := by
          unfold recvFile; simp only []; rw [if_pos hp]
        obtain ⟨g1, g2, g3⟩ := gotPart_left σ.sink []
        refine left_step σ _ (hst.trans hr) g2 ?_
        rw [g1, g3 (by unfold PART_SZ at hp; omega), h1]
        simp [weight]
      · have hr : recvFile σ.sink easy =
            gotPart { σ.sink with chan := σ.sink.chan.drop (min (σ.sink.size - σ.sink.off) PART_SZ) } easy
              (σ.sink.chan.take (min (σ.sink.size - σ.sink.off) PART_SZ)) := by
          unfold recvFile; simp only [easy]; rw [if_neg hp, if_neg hc]
        obtain ⟨g1, g2, _⟩ := gotPart_left { σ.sink with chan := σ.sink.chan.drop (min (σ.sink.size - σ.sink.off) PART_SZ) }
          (σ.sink.chan.take (min (σ.sink.size - σ.sink.off) PART_SZ))
        refine left_step σ _ (hst.trans hr) g2 ?_
        have hw := weight_le (gotPart { σ.sink with chan := σ.sink.chan.drop (min (σ.sink.size - σ.sink.off) PART_SZ) } easy
          (σ.sink.chan.take (min (σ.sink.size - σ.sink.off) PART_SZ))).1.st
        have hpos : 0 < σ.sink.chan.length := List.length_pos_iff.mpr hc
        rw [g1, h1]
        simp only [List.length_drop, weight] at hw ⊢
        omega
  | ackDone h1 h2 h3 h4 h5 h6 h7 h8 => right; exact ⟨_, easy_benign, left_ack σ h1 h3 (Or.inr (Or.inl h2))⟩
  | @conf E ss h1 h2 h3 h4 h5 h6 h7 h8 =>
    right
    by_cases hd : σ.cur ≠ [] ∨ (σ.sink.chan = [] ∧ σ.wire ≠ [])
    · exact ⟨.deliver σ.cur.length, trivial, left_deliver σ hd⟩
    · refine ⟨.step easy, easy_benign, ?_⟩
      have hcur : σ.cur = [] := Decidable.byContradiction fun hx => hd (Or.inl hx)
      have hc : σ.sink.chan = [0] := by
        rcases h6 with ⟨hx, _⟩ | ⟨hc, _, hx⟩
        · rw [hcur, List.append_nil] at hx; exact hx
        · exact absurd (Or.inr ⟨hc, by rw [hx]; simp⟩) hd
      have hr : step σ.sink easy = ({ σ.sink with chan := [], st := .recvMsg }, [.conf]) := by
        unfold step; rw [h1]; simp only []; unfold recvConf; simp only [easy]; rw [hc]; rfl
      refine left_step σ _ hr (by simp) ?_
      rw [hc, h1]; simp [weight]

theorem next_inv (σ : Sys) (m : Move) (acc : Bytes) (E : List Got) (hb : Benign m) (h : Inv σ acc E) :
    ∃ acc' E', Inv (σ.next m).1 acc' E' := by
  have hg : Goes σ m acc E := by
    cases m with
    | deliver n => exact deliver_goes σ n acc E h
    | step i => exact step_goes σ i acc E hb h
  obtain ⟨a, e, _, h1, _⟩ := hg
  exact ⟨a, e, h1⟩

/-- The end can be reached from wherever things stand. -/
theorem can_finish : ∀ k σ acc E, left σ ≤ k → Inv σ acc E → ∃ ms, (∀ m ∈ ms, Benign m) ∧ (σ.run ms).1.Quiet := by
  intro k
  induction k with
  | zero =>
    intro σ acc E hk h
    rcases progress σ acc E h with hq | ⟨m, _, hl⟩
    · exact ⟨[], by simp, hq⟩
    · omega
  | succ k ih =>
    intro σ acc E hk h
    rcases progress σ acc E h with hq | ⟨m, hb, hl⟩
    · exact ⟨[], by simp, hq⟩
    · obtain ⟨a, e, hi⟩ := next_inv σ m acc E hb h
      obtain ⟨ms, h1, h2⟩ := ih _ a e (by omega) hi
      exact ⟨m :: ms, by intro x hx; rcases List.mem_cons.mp hx with h | h; exact h ▸ hb; exact h1 x h, h2⟩

end Proofs.Scp
