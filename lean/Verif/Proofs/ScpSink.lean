import Verif.Spec.ScpSink
import Verif.Proofs.ScpMsg
/-!
# SCP: the receiving side
-/

namespace Proofs.Scp
open Wolf Wolf.Scp Spec.Scp

theorem calls_append (a b : List Out) : calls (a ++ b) = calls a ++ calls b := List.filterMap_append

/-! ## Order of the calls -/

/-- The phase the application is in, from the state. -/
def InPhase (s : Sink) (p : Phase) : Prop :=
  match s.st with
  | .begin => p = .before ∧ s.off = 0
  | .recvMsg | .recvConf => p = .idle ∧ s.off = 0
  | .sendConf =>
    match s.next with
    | .recvMsg | .recvConf => p = .idle ∧ s.off = 0
    | .recvFile => p = .inFile s.name s.mode s.mtime s.atime s.size s.off ∧ s.off ≤ s.size
    | .done => True
    | _ => False
  | .recvFile => p = .inFile s.name s.mode s.mtime s.atime s.size s.off ∧ s.off ≤ s.size
  | .done | .dead | .crash => True

theorem note_off (s : Sink) (m : Msg) : (note s m).off = s.off := by cases m <;> rfl

theorem act_phase (s : Sink) (i : In) (ho : s.off = 0) :
    ∃ p, (calls (act s i).2).foldlM follow .idle = some p ∧ InPhase (act s i).1 p := by
  unfold act
  cases s.kind with
  | dir => exact ⟨.idle, rfl, rfl, ho⟩
  | endDir => exact ⟨.idle, rfl, rfl, ho⟩
  | time => exact ⟨.idle, rfl, rfl, ho⟩
  | file => exact ⟨_, rfl, by rw [ho], by rw [ho]; exact Nat.zero_le _⟩

theorem recvMessage_phase (s : Sink) (i : In) (hs : s.st = .recvMsg) (ho : s.off = 0) :
    ∃ p, (calls (recvMessage s i).2).foldlM follow .idle = some p ∧ InPhase (recvMessage s i).1 p := by
  have hself : ∃ p, (calls ([] : List Out)).foldlM follow .idle = some p ∧ InPhase s p :=
    ⟨.idle, rfl, by unfold InPhase; rw [hs]; exact ⟨rfl, ho⟩⟩
  unfold recvMessage
  by_cases hl : s.msg.length ≥ MSG_SZ - 1
  · rw [if_pos hl]; exact ⟨.idle, rfl, trivial⟩
  rw [if_neg hl]
  cases i.rd with
  | take =>
    simp only []
    by_cases hc : s.chan = []
    · rw [if_pos hc]; exact hself
    rw [if_neg hc]
    by_cases hn : (s.msg ++ s.chan.take (MSG_SZ - s.msg.length)).getLast? = some (10 : Byte)
    · rw [if_pos hn]
      cases parseMsg s.rename (s.msg ++ s.chan.take (MSG_SZ - s.msg.length)) i.old with
      | none => exact ⟨.idle, rfl, trivial⟩
      | some r =>
        cases r with
        | error e => exact ⟨.idle, rfl, trivial⟩
        | ok m => exact act_phase _ i (by rw [note_off]; exact ho)
    · rw [if_neg hn]
      exact ⟨.idle, rfl, by unfold InPhase; simp only [hs]; exact ⟨trivial, ho⟩⟩
  | zero => exact act_phase s i ho
  | spin => exact hself
  | ext => exact hself
  | want => exact hself
  | eof => exact ⟨.idle, rfl, trivial⟩
  | fail => exact ⟨.idle, rfl, trivial⟩

theorem gotPart_phase (s : Sink) (i : In) (data : Bytes) (hs : s.st = .recvFile) (h : s.off + data.length ≤ s.size) :
    ∃ p, (calls (gotPart s i data).2).foldlM follow (.inFile s.name s.mode s.mtime s.atime s.size s.off) = some p ∧
      InPhase (gotPart s i data).1 p := by
  have hf : follow (.inFile s.name s.mode s.mtime s.atime s.size s.off) (.part s.name s.size s.off data) =
      some (.inFile s.name s.mode s.mtime s.atime s.size (s.off + data.length)) := by
    simp [follow, h]
  unfold gotPart
  simp only []
  by_cases hcb : i.cb ≠ .go
  · rw [if_pos hcb]
    exact ⟨_, by simp only [calls, List.filterMap_cons, List.filterMap_nil, List.foldlM_cons, hf]; rfl, trivial⟩
  rw [if_neg hcb]
  by_cases hlt : s.off + data.length < s.size
  · rw [if_pos hlt]
    refine ⟨_, by simp only [calls, List.filterMap_cons, List.filterMap_nil, List.foldlM_cons, hf]; rfl, ?_⟩
    unfold InPhase; simp only [hs]; exact ⟨trivial, h⟩
  rw [if_neg hlt]
  refine ⟨.idle, ?_, rfl, rfl⟩
  simp only [calls, List.filterMap_cons, List.filterMap_nil, List.foldlM_cons, hf]
  have he : s.off + data.length = s.size := by omega
  simp [bind, Option.bind, follow, he]

theorem step_phase (s : Sink) (i : In) (p : Phase) (h : InPhase s p) :
    ∃ p', (calls (step s i).2).foldlM follow p = some p' ∧ InPhase (step s i).1 p' := by
  have h' := h
  unfold InPhase at h
  unfold step
  cases hs : s.st with
  | begin =>
    rw [hs] at h
    obtain ⟨rfl, ho⟩ := h
    exact ⟨.idle, rfl, rfl, ho⟩
  | recvMsg =>
    rw [hs] at h
    obtain ⟨rfl, ho⟩ := h
    exact recvMessage_phase s i hs ho
  | sendConf =>
    simp only [hs] at h
    simp only []
    unfold sendConf
    cases i.snd with
    | want => exact ⟨p, rfl, h'⟩
    | fail => exact ⟨p, rfl, trivial⟩
    | sent =>
      simp only []
      by_cases ha : s.confirm = .abort
      · rw [if_pos ha]; exact ⟨p, rfl, trivial⟩
      · rw [if_neg ha]
        refine ⟨p, rfl, ?_⟩
        unfold InPhase
        simp only []
        cases hn : s.next <;> simp only [hn] at h ⊢ <;> first | exact h | exact h.elim
  | recvConf =>
    rw [hs] at h
    obtain ⟨rfl, ho⟩ := h
    simp only []
    unfold recvConf
    cases i.rd with
    | take =>
      simp only []
      cases s.chan with
      | nil => exact ⟨.idle, rfl, h'⟩
      | cons b t =>
        simp only []
        by_cases hb : b = 0
        · rw [if_pos hb]; exact ⟨.idle, rfl, rfl, ho⟩
        · rw [if_neg hb]; exact ⟨.idle, rfl, trivial⟩
    | zero => exact ⟨.idle, rfl, rfl, ho⟩
    | ext => exact ⟨.idle, rfl, rfl, ho⟩
    | spin => exact ⟨.idle, rfl, h'⟩
    | want => exact ⟨.idle, rfl, h'⟩
    | eof => exact ⟨.idle, rfl, trivial⟩
    | fail => exact ⟨.idle, rfl, trivial⟩
  | recvFile =>
    rw [hs] at h
    obtain ⟨rfl, ho⟩ := h
    simp only []
    unfold recvFile
    simp only []
    by_cases hp : min (s.size - s.off) PART_SZ = 0
    · rw [if_pos hp]; exact gotPart_phase s i [] hs (by simpa using ho)
    rw [if_neg hp]
    cases i.rd with
    | take =>
      simp only []
      by_cases hc : s.chan = []
      · rw [if_pos hc]; exact ⟨_, rfl, h'⟩
      · rw [if_neg hc]
        exact gotPart_phase { s with chan := s.chan.drop (min (s.size - s.off) PART_SZ) } i
          (s.chan.take (min (s.size - s.off) PART_SZ)) hs (by simp only [List.length_take]; omega)
    | zero => exact gotPart_phase s i [] hs (by simpa using ho)
    | spin => exact ⟨_, rfl, h'⟩
    | want => exact ⟨_, rfl, h'⟩
    | ext => exact ⟨_, rfl, trivial⟩
    | eof => exact ⟨_, rfl, trivial⟩
    | fail => exact ⟨_, rfl, trivial⟩
  | done => exact ⟨p, rfl, by unfold InPhase; simp only [hs]⟩
  | dead => exact ⟨p, rfl, by unfold InPhase; simp only [hs]⟩
  | crash => exact ⟨p, rfl, by unfold InPhase; simp only [hs]⟩

theorem next_phase (s : Sink) (e : Ev) (p : Phase) (h : InPhase s p) :
    ∃ p', (calls (next s e).2).foldlM follow p = some p' ∧ InPhase (next s e).1 p' := by
  cases e with
  | arrive bs => exact ⟨p, rfl, h⟩
  | step i => exact step_phase s i p h

theorem run_phase (es : List Ev) : ∀ s p, InPhase s p →
    ∃ p', (calls (run s es).2).foldlM follow p = some p' ∧ InPhase (run s es).1 p' := by
  induction es with
  | nil => intro s p h; exact ⟨p, rfl, h⟩
  | cons e es ih =>
    intro s p h
    obtain ⟨p1, h1, h2⟩ := next_phase s e p h
    obtain ⟨p2, h3, h4⟩ := ih (next s e).1 p1 h2
    refine ⟨p2, ?_, h4⟩
    show (calls ((next s e).2 ++ (run (next s e).1 es).2)).foldlM follow p = some p2
    rw [calls_append, List.foldlM_append, h1]
    exact h3

/-! ## No read outside the buffer -/

theorem getLast_split (w : Bytes) (h : w.getLast? = some 10) : ∃ m, w = m ++ [10] := by
  rw [List.getLast?_eq_some_iff] at h
  exact h

theorem act_st (s : Sink) (i : In) : (act s i).1.st = .sendConf := by
  unfold act; cases s.kind <;> rfl

theorem act_next (s : Sink) (i : In) : (act s i).1.next = .recvMsg ∨ (act s i).1.next = .recvFile := by
  unfold act; cases s.kind <;> first | exact Or.inl rfl | exact Or.inr rfl

/-- What `crash` cannot follow from. -/
def Safe (s : Sink) : Prop := s.st ≠ .crash ∧ s.next ≠ .crash

theorem act_safe (s : Sink) (i : In) : Safe (act s i).1 := by
  constructor
  · rw [act_st]; simp
  · rcases act_next s i with h | h <;> rw [h] <;> simp

theorem recvMessage_safe (s : Sink) (i : In) (h : Safe s) : Safe (recvMessage s i).1 := by
  unfold recvMessage
  by_cases hl : s.msg.length ≥ MSG_SZ - 1
  · rw [if_pos hl]; exact ⟨by simp, h.2⟩
  rw [if_neg hl]
  cases i.rd with
  | take =>
    simp only []
    by_cases hc : s.chan = []
    · rw [if_pos hc]; exact h
    rw [if_neg hc]
    by_cases hn : (s.msg ++ s.chan.take (MSG_SZ - s.msg.length)).getLast? = some (10 : Byte)
    · rw [if_pos hn]
      obtain ⟨m, hm⟩ := getLast_split _ hn
      obtain ⟨r, hr⟩ := parse_total s.rename m i.old
      rw [hm, hr]
      cases r with
      | error e => exact ⟨by simp, h.2⟩
      | ok x => exact act_safe _ i
    · rw [if_neg hn]; exact ⟨h.1, h.2⟩
  | zero => exact act_safe s i
  | spin => exact h
  | ext => exact h
  | want => exact h
  | eof => exact ⟨by simp, h.2⟩
  | fail => exact ⟨by simp, h.2⟩

theorem gotPart_safe (s : Sink) (i : In) (d : Bytes) (h : Safe s) : Safe (gotPart s i d).1 := by
  unfold gotPart
  simp only []
  split
  · exact ⟨by simp, by simp⟩
  · split
    · exact ⟨h.1, by simp⟩
    · exact ⟨by simp, by simp⟩

theorem step_safe (s : Sink) (i : In) (h : Safe s) : Safe (step s i).1 := by
  unfold step
  cases hs : s.st with
  | begin => exact ⟨by simp, by simp⟩
  | recvMsg => exact recvMessage_safe s i h
  | sendConf =>
    simp only []
    unfold sendConf
    cases i.snd with
    | want => exact h
    | fail => exact ⟨by simp, h.2⟩
    | sent =>
      simp only []
      split
      · exact ⟨by simp, h.2⟩
      · exact ⟨h.2, h.2⟩
  | recvConf =>
    simp only []
    unfold recvConf
    cases i.rd with
    | take =>
      simp only []
      cases s.chan with
      | nil => exact h
      | cons b t =>
        simp only []
        split
        · exact ⟨by simp, h.2⟩
        · exact ⟨by simp, h.2⟩
    | zero => exact ⟨by simp, h.2⟩
    | ext => exact ⟨by simp, h.2⟩
    | spin => exact h
    | want => exact h
    | eof => exact ⟨by simp, h.2⟩
    | fail => exact ⟨by simp, h.2⟩
  | recvFile =>
    simp only []
    unfold recvFile
    simp only []
    split
    · exact gotPart_safe s i [] h
    · cases i.rd with
      | take =>
        simp only []
        split
        · exact h
        · exact gotPart_safe _ i _ ⟨h.1, h.2⟩
      | zero => exact gotPart_safe s i [] h
      | spin => exact h
      | want => exact h
      | ext => exact ⟨by simp, h.2⟩
      | eof => exact ⟨by simp, h.2⟩
      | fail => exact ⟨by simp, h.2⟩
  | done => exact h
  | dead => exact h
  | crash => exact h

theorem run_safe (es : List Ev) : ∀ s, Safe s → Safe (run s es).1 := by
  induction es with
  | nil => intro s h; exact h
  | cons e es ih =>
    intro s h
    refine ih (next s e).1 ?_
    cases e with
    | arrive bs => exact h
    | step i => exact step_safe s i h

/-! ## Names -/

/-- An event is not a read of no bytes. -/
def NoZero : Ev → Prop
  | .arrive _ => True
  | .step i => i.rd ≠ .zero

theorem parse_name (r : Bool) (m old : Bytes) (x : Msg) (h : parseMsg r (m ++ [10]) old = some (.ok x)) :
    match x with
    | .file _ _ nm => (r = true ∧ nm = none) ∨ (r = false ∧ ∃ n, nm = some n ∧ Plain n)
    | .dir _ _ nm => (r = true ∧ nm = none) ∨ (r = false ∧ ∃ n, nm = some n ∧ Plain n)
    | _ => True := by
  cases r with
  | false =>
    have hm := (parse_iff m old x).mp h
    cases x with
    | file a b n =>
      cases n with
      | none => exact hm.elim
      | some n =>
        obtain ⟨o, sp, d, rest, v, _, _, _, _, _, hp, _⟩ := hm
        exact Or.inr ⟨rfl, n, rfl, hp⟩
    | dir a b n =>
      cases n with
      | none => exact hm.elim
      | some n =>
        obtain ⟨o, sp, d, rest, v, _, _, _, _, _, hp, _⟩ := hm
        exact Or.inr ⟨rfl, n, rfl, hp⟩
    | endDir => trivial
    | times a b => trivial
  | true =>
    have key : ∀ a b n, getEntry true (image m old) (m.length + 1) = some (.ok (a, b, n)) → n = none := by
      intro a b n h
      unfold getEntry at h
      split at h
      · cases h
      · cases h
      · split at h
        · cases h
        · cases h
        · simp only [if_true, Option.some.injEq, Except.ok.injEq, Prod.mk.injEq] at h
          exact h.2.2.symm
    rw [parseMsg_image] at h
    unfold decode at h
    rw [image_head] at h
    simp only [] at h
    split at h
    · obtain ⟨⟨a, b, n⟩, h1, h2⟩ := map_ok h
      subst h2
      exact Or.inl ⟨rfl, key a b n h1⟩
    · split at h
      · obtain ⟨⟨a, b, n⟩, h1, h2⟩ := map_ok h
        subst h2
        exact Or.inl ⟨rfl, key a b n h1⟩
      · split at h
        · cases h; trivial
        · split at h
          · obtain ⟨⟨a, b⟩, h1, h2⟩ := map_ok h
            subst h2
            trivial
          · cases h

theorem names_append (a b : List Call) : names (a ++ b) = names a ++ names b := List.filterMap_append

/-- The names in a step: at most one entry is opened, and the pending renaming is used up by it. -/
theorem recvMessage_names (s : Sink) (i : In) (h0 : i.rd ≠ .zero) :
    (names (calls (recvMessage s i).2) = [] ∧ (recvMessage s i).1.rename = s.rename ∧ (recvMessage s i).1.name = s.name) ∨
    (∃ n, names (calls (recvMessage s i).2) = [n] ∧ (recvMessage s i).1.rename = false ∧
      (if s.rename then n = s.name else ∃ x, n = some x ∧ Plain x)) := by
  unfold recvMessage
  by_cases hl : s.msg.length ≥ MSG_SZ - 1
  · rw [if_pos hl]; exact Or.inl ⟨rfl, rfl, rfl⟩
  rw [if_neg hl]
  cases hr : i.rd with
  | take =>
    simp only []
    by_cases hc : s.chan = []
    · rw [if_pos hc]; exact Or.inl ⟨rfl, rfl, rfl⟩
    rw [if_neg hc]
    by_cases hn : (s.msg ++ s.chan.take (MSG_SZ - s.msg.length)).getLast? = some (10 : Byte)
    · rw [if_pos hn]
      obtain ⟨m, hm⟩ := getLast_split _ hn
      rw [hm]
      cases hp : parseMsg s.rename (m ++ [10]) i.old with
      | none => exact Or.inl ⟨rfl, rfl, rfl⟩
      | some r =>
        cases r with
        | error e => exact Or.inl ⟨rfl, rfl, rfl⟩
        | ok x =>
          have hx := parse_name _ _ _ _ hp
          cases x with
          | endDir => exact Or.inl ⟨rfl, rfl, rfl⟩
          | times a b => exact Or.inl ⟨rfl, rfl, rfl⟩
          | file a b n =>
            refine Or.inr ⟨n.or s.name, rfl, rfl, ?_⟩
            rcases hx with ⟨h1, h2⟩ | ⟨h1, y, h2, h3⟩
            · rw [h1, h2]; rfl
            · rw [h1, h2]; exact ⟨y, rfl, h3⟩
          | dir a b n =>
            refine Or.inr ⟨n.or s.name, rfl, rfl, ?_⟩
            rcases hx with ⟨h1, h2⟩ | ⟨h1, y, h2, h3⟩
            · rw [h1, h2]; rfl
            · rw [h1, h2]; exact ⟨y, rfl, h3⟩
    · rw [if_neg hn]; exact Or.inl ⟨rfl, rfl, rfl⟩
  | zero => exact absurd hr h0
  | spin => exact Or.inl ⟨rfl, rfl, rfl⟩
  | ext => exact Or.inl ⟨rfl, rfl, rfl⟩
  | want => exact Or.inl ⟨rfl, rfl, rfl⟩
  | eof => exact Or.inl ⟨rfl, rfl, rfl⟩
  | fail => exact Or.inl ⟨rfl, rfl, rfl⟩

theorem gotPart_names (s : Sink) (i : In) (d : Bytes) :
    names (calls (gotPart s i d).2) = [] ∧ (gotPart s i d).1.rename = s.rename ∧ (gotPart s i d).1.name = s.name := by
  unfold gotPart
  simp only []
  split
  · exact ⟨rfl, rfl, rfl⟩
  · split
    · exact ⟨rfl, rfl, rfl⟩
    · exact ⟨rfl, rfl, rfl⟩

theorem step_names (s : Sink) (i : In) (h0 : i.rd ≠ .zero) :
    (names (calls (step s i).2) = [] ∧ (step s i).1.rename = s.rename ∧ (step s i).1.name = s.name) ∨
    (∃ n, names (calls (step s i).2) = [n] ∧ (step s i).1.rename = false ∧
      (if s.rename then n = s.name else ∃ x, n = some x ∧ Plain x)) := by
  unfold step
  cases hs : s.st with
  | begin => exact Or.inl ⟨rfl, rfl, rfl⟩
  | recvMsg => exact recvMessage_names s i h0
  | sendConf =>
    left
    simp only []
    unfold sendConf
    cases i.snd with
    | want => exact ⟨rfl, rfl, rfl⟩
    | fail => exact ⟨rfl, rfl, rfl⟩
    | sent => simp only []; split <;> exact ⟨rfl, rfl, rfl⟩
  | recvConf =>
    left
    simp only []
    unfold recvConf
    cases i.rd with
    | take =>
      simp only []
      cases s.chan with
      | nil => exact ⟨rfl, rfl, rfl⟩
      | cons b t => simp only []; split <;> exact ⟨rfl, rfl, rfl⟩
    | zero => exact ⟨rfl, rfl, rfl⟩
    | ext => exact ⟨rfl, rfl, rfl⟩
    | spin => exact ⟨rfl, rfl, rfl⟩
    | want => exact ⟨rfl, rfl, rfl⟩
    | eof => exact ⟨rfl, rfl, rfl⟩
    | fail => exact ⟨rfl, rfl, rfl⟩
  | recvFile =>
    left
    simp only []
    unfold recvFile
    simp only []
    split
    · exact gotPart_names s i []
    · cases i.rd with
      | take =>
        simp only []
        split
        · exact ⟨rfl, rfl, rfl⟩
        · exact gotPart_names _ i _
      | zero => exact gotPart_names s i []
      | spin => exact ⟨rfl, rfl, rfl⟩
      | want => exact ⟨rfl, rfl, rfl⟩
      | ext => exact ⟨rfl, rfl, rfl⟩
      | eof => exact ⟨rfl, rfl, rfl⟩
      | fail => exact ⟨rfl, rfl, rfl⟩
  | done => exact Or.inl ⟨rfl, rfl, rfl⟩
  | dead => exact Or.inl ⟨rfl, rfl, rfl⟩
  | crash => exact Or.inl ⟨rfl, rfl, rfl⟩

theorem run_names (es : List Ev) : ∀ s, (∀ e ∈ es, NoZero e) →
    if s.rename then names (calls (run s es).2) = [] ∨
      ∃ t, names (calls (run s es).2) = s.name :: t ∧ ∀ n ∈ t, ∃ x, n = some x ∧ Plain x
    else ∀ n ∈ names (calls (run s es).2), ∃ x, n = some x ∧ Plain x := by
  induction es with
  | nil =>
    intro s _
    cases s.rename
    · simp [run, calls, names]
    · exact Or.inl rfl
  | cons e es ih =>
    intro s hz
    have ih' := ih (next s e).1 (fun e he => hz e (List.mem_cons_of_mem _ he))
    have hrun : names (calls (run s (e :: es)).2) = names (calls (next s e).2) ++ names (calls (run (next s e).1 es).2) := by
      have h0 : (run s (e :: es)).2 = (next s e).2 ++ (run (next s e).1 es).2 := rfl
      rw [h0, calls_append, names_append]
    rw [hrun]
    have hstep : (names (calls (next s e).2) = [] ∧ (next s e).1.rename = s.rename ∧ (next s e).1.name = s.name) ∨
        (∃ n, names (calls (next s e).2) = [n] ∧ (next s e).1.rename = false ∧
          (if s.rename then n = s.name else ∃ x, n = some x ∧ Plain x)) := by
      cases e with
      | arrive bs => exact Or.inl ⟨rfl, rfl, rfl⟩
      | step i => exact step_names s i (hz (.step i) (by simp))
    rcases hstep with ⟨h1, h2, h3⟩ | ⟨n, h1, h2, h3⟩
    · rw [h1, List.nil_append, ← h2, ← h3]; exact ih'
    · rw [h1]
      rw [h2] at ih'
      simp only [Bool.false_eq_true, if_false] at ih'
      cases hr : s.rename with
      | true =>
        rw [hr] at h3
        simp only [if_true] at h3 ⊢
        exact Or.inr ⟨_, by rw [h3]; rfl, ih'⟩
      | false =>
        rw [hr] at h3
        simp only [Bool.false_eq_true, if_false] at h3 ⊢
        intro k hk
        rcases List.mem_append.mp hk with h | h
        · rw [List.mem_singleton] at h; rw [h]; exact h3
        · exact ih' k h

/-! ## After a refusal -/

/-- Only an error message can still be sent. -/
def Over (s : Sink) : Prop := s.st = .done ∨ s.st = .dead ∨ s.st = .crash ∨ (s.st = .sendConf ∧ s.confirm = .abort)

theorem over_step (s : Sink) (i : In) (h : Over s) :
    ((step s i).2 = [] ∧ Over (step s i).1) ∨ ((step s i).2 = [.nak] ∧ (step s i).1.st = .dead) := by
  rcases h with h | h | h | ⟨h, hc⟩
  · left; unfold step; rw [h]; exact ⟨rfl, Or.inl h⟩
  · left; unfold step; rw [h]; exact ⟨rfl, Or.inr (Or.inl h)⟩
  · left; unfold step; rw [h]; exact ⟨rfl, Or.inr (Or.inr (Or.inl h))⟩
  · unfold step; rw [h]
    simp only []
    unfold sendConf
    cases i.snd with
    | want => left; exact ⟨rfl, Or.inr (Or.inr (Or.inr ⟨h, hc⟩))⟩
    | fail => left; exact ⟨rfl, Or.inr (Or.inl rfl)⟩
    | sent => right; rw [hc]; exact ⟨rfl, rfl⟩

theorem dead_run (es : List Ev) : ∀ s, s.st = .dead → (run s es).2 = [] := by
  induction es with
  | nil => intro s _; rfl
  | cons e es ih =>
    intro s h
    show (next s e).2 ++ (run (next s e).1 es).2 = []
    cases e with
    | arrive bs => exact ih _ h
    | step i =>
      have : step s i = (s, []) := by unfold step; rw [h]
      show (step s i).2 ++ (run (step s i).1 es).2 = []
      rw [this]; exact ih s h

theorem over_run (es : List Ev) : ∀ s, Over s → (run s es).2 = [] ∨ (run s es).2 = [.nak] := by
  induction es with
  | nil => intro s _; exact Or.inl rfl
  | cons e es ih =>
    intro s h
    cases e with
    | arrive bs => exact ih _ h
    | step i =>
      rcases over_step s i h with ⟨h1, h2⟩ | ⟨h1, h2⟩
      · have : (run s (.step i :: es)).2 = (run (step s i).1 es).2 := by
          show (step s i).2 ++ (run (step s i).1 es).2 = _
          rw [h1]; rfl
        rw [this]; exact ih _ h2
      · right
        show (step s i).2 ++ (run (step s i).1 es).2 = _
        rw [h1, dead_run es _ h2]; rfl

/-- A callback that says stop is the last thing in its step. -/
def LastAbort (r : Sink × List Out) : Prop :=
  ∀ pre c post, r.2 = pre ++ .call c .abort :: post → post = [] ∧ Over r.1

theorem lastAbort_nil (s : Sink) : LastAbort (s, []) := by
  intro pre c post h
  simp at h

theorem lastAbort_one (s : Sink) (o : Out) (h : ∀ c, o ≠ .call c .abort) : LastAbort (s, [o]) := by
  intro pre c post he
  cases pre with
  | nil => simp only [List.nil_append, List.cons.injEq] at he; exact absurd he.1 (h c)
  | cons x t => simp at he

theorem lastAbort_call (s : Sink) (c : Call) (r : Cb) (h1 : s.st = .sendConf) (h2 : s.confirm = r) : LastAbort (s, [.call c r]) := by
  intro pre c' post he
  cases pre with
  | nil =>
    simp only [List.nil_append, List.cons.injEq, Out.call.injEq] at he
    exact ⟨he.2.symm, Or.inr (Or.inr (Or.inr ⟨h1, by rw [h2]; exact he.1.2⟩))⟩
  | cons x t => simp at he

theorem act_lastAbort (s : Sink) (i : In) : LastAbort (act s i) := by
  unfold act
  cases s.kind with
  | dir => exact lastAbort_call _ _ _ rfl rfl
  | endDir => exact lastAbort_call _ _ _ rfl rfl
  | time => exact lastAbort_nil _
  | file => exact lastAbort_call _ _ _ rfl rfl

theorem gotPart_lastAbort (s : Sink) (i : In) (d : Bytes) : LastAbort (gotPart s i d) := by
  unfold gotPart
  simp only []
  by_cases hcb : i.cb ≠ .go
  · rw [if_pos hcb]; exact lastAbort_call _ _ _ rfl rfl
  rw [if_neg hcb]
  have hgo : i.cb = .go := by simpa using hcb
  split
  · exact lastAbort_one _ _ (by intro c h; rw [hgo] at h; cases h)
  · intro pre c post he
    cases pre with
    | nil =>
      simp only [List.nil_append, List.cons.injEq, Out.call.injEq, hgo] at he
      exact absurd he.1.2 (by simp)
    | cons x t =>
      cases t with
      | nil =>
        simp only [List.cons_append, List.nil_append, List.cons.injEq, Out.call.injEq] at he
        exact ⟨he.2.2.symm, Or.inr (Or.inr (Or.inr ⟨rfl, he.2.1.2⟩))⟩
      | cons y u => simp at he

theorem step_lastAbort (s : Sink) (i : In) : LastAbort (step s i) := by
  unfold step
  cases s.st with
  | begin => exact lastAbort_call _ _ _ rfl rfl
  | recvMsg =>
    simp only []
    unfold recvMessage
    split
    · exact lastAbort_nil _
    · cases i.rd with
      | take =>
        simp only []
        split
        · exact lastAbort_nil _
        · split
          · split
            · exact lastAbort_nil _
            · exact lastAbort_nil _
            · exact act_lastAbort _ i
          · exact lastAbort_nil _
      | zero => exact act_lastAbort s i
      | spin => exact lastAbort_nil _
      | ext => exact lastAbort_nil _
      | want => exact lastAbort_nil _
      | eof => exact lastAbort_nil _
      | fail => exact lastAbort_nil _
  | sendConf =>
    simp only []
    unfold sendConf
    cases i.snd with
    | want => exact lastAbort_nil _
    | fail => exact lastAbort_nil _
    | sent =>
      simp only []
      split
      · exact lastAbort_one _ _ (by intro c h; cases h)
      · exact lastAbort_one _ _ (by intro c h; cases h)
  | recvConf =>
    simp only []
    unfold recvConf
    cases i.rd with
    | take =>
      simp only []
      cases s.chan with
      | nil => exact lastAbort_nil _
      | cons b t =>
        simp only []
        split
        · exact lastAbort_one _ _ (by intro c h; cases h)
        · exact lastAbort_nil _
    | zero => exact lastAbort_one _ _ (by intro c h; cases h)
    | ext => exact lastAbort_one _ _ (by intro c h; cases h)
    | spin => exact lastAbort_nil _
    | want => exact lastAbort_nil _
    | eof => exact lastAbort_nil _
    | fail => exact lastAbort_nil _
  | recvFile =>
    simp only []
    unfold recvFile
    simp only []
    split
    · exact gotPart_lastAbort s i []
    · cases i.rd with
      | take =>
        simp only []
        split
        · exact lastAbort_nil _
        · exact gotPart_lastAbort _ i _
      | zero => exact gotPart_lastAbort s i []
      | spin => exact lastAbort_nil _
      | want => exact lastAbort_nil _
      | ext => exact lastAbort_nil _
      | eof => exact lastAbort_nil _
      | fail => exact lastAbort_nil _
  | done => exact lastAbort_nil _
  | dead => exact lastAbort_nil _
  | crash => exact lastAbort_nil _

/-- After a callback says stop, at most one error message is sent, and nothing else happens. -/
theorem run_abort (es : List Ev) : ∀ s pre c post, (run s es).2 = pre ++ .call c .abort :: post → post = [] ∨ post = [.nak] := by
  induction es with
  | nil => intro s pre c post h; simp [run] at h
  | cons e es ih =>
    intro s pre c post h
    have hr : (run s (e :: es)).2 = (next s e).2 ++ (run (next s e).1 es).2 := rfl
    rw [hr] at h
    have hla : LastAbort (next s e) := by
      cases e with
      | arrive bs => exact lastAbort_nil _
      | step i => exact step_lastAbort s i
    rcases List.append_eq_append_iff.mp h with ⟨a, h1, h2⟩ | ⟨a, h1, h2⟩
    · exact ih _ _ _ _ h2
    · cases a with
      | nil => exact ih _ [] c post (by simpa using h2.symm)
      | cons x t =>
        simp only [List.cons_append, List.cons.injEq] at h2
        obtain ⟨hx, hp⟩ := h2
        subst hx
        obtain ⟨ht, ho⟩ := hla _ _ _ h1
        subst ht
        rw [hp, List.nil_append]
        exact over_run es _ ho

end Proofs.Scp
