import Verif.Spec.Highwater
/-!
# C30: the highwater callback
-/

namespace Props.Highwater
open Wolf Wolf.Packet Spec.Highwater

/-- The counters of the code are the amounts, modulo 2^32, and the limits those set. -/
structure Tracks (h : Hw) (a : Amounts) (mark msgMark : Nat) : Prop where
  txB : h.txCount = a.txBytes % 2^32
  txP : h.txMsgCount = a.txPackets % 2^32
  rxB : h.rxCount = a.rxBytes % 2^32
  rxP : h.rxMsgCount = a.rxPackets % 2^32
  mark : h.mark = mark
  msgMark : h.msgMark = msgMark

theorem check_counters (h : Hw) : let h' := (highwaterCheck h).2
    h'.txCount = h.txCount ∧ h'.txMsgCount = h.txMsgCount ∧ h'.rxCount = h.rxCount ∧
    h'.rxMsgCount = h.rxMsgCount ∧ h'.mark = h.mark ∧ h'.msgMark = h.msgMark := by
  unfold highwaterCheck
  simp only
  split <;> split <;> simp

theorem tracks_step {h : Hw} {a : Amounts} {m n : Nat} (ht : Tracks h a m n) (op : HwOp) :
    Tracks (hwStep h op) (count a op) (byteLimit m [op]) (packetLimit n [op]) := by
  obtain ⟨h1, h2, h3, h4, h5, h6⟩ := ht
  cases op with
  | check =>
    obtain ⟨c1, c2, c3, c4, c5, c6⟩ := check_counters h
    exact ⟨c1.trans h1, c2.trans h2, c3.trans h3, c4.trans h4, c5.trans h5, c6.trans h6⟩
  | _ => constructor <;> simp_all [hwStep, count, byteLimit, packetLimit, add32]

theorem byteLimit_append (m : Nat) (a b : List HwOp) : byteLimit m (a ++ b) = byteLimit (byteLimit m a) b := by
  induction a generalizing m with
  | nil => rfl
  | cons x a ih => cases x <;> simp [byteLimit, ih]

theorem packetLimit_append (m : Nat) (a b : List HwOp) :
    packetLimit m (a ++ b) = packetLimit (packetLimit m a) b := by
  induction a generalizing m with
  | nil => rfl
  | cons x a ih => cases x <;> simp [packetLimit, ih]

theorem tracks_run {h : Hw} {a : Amounts} {m n : Nat} (ht : Tracks h a m n) (ops : List HwOp) :
    Tracks (hwRun h ops) (counts a ops) (byteLimit m ops) (packetLimit n ops) := by
  induction ops generalizing h a m n with
  | nil => exact ht
  | cons op ops ih =>
    have := ih (tracks_step ht op)
    rw [← byteLimit_append, ← packetLimit_append] at this
    exact this

/-- The flags after a check. -/
theorem check_flags (h : Hw) : let h' := (highwaterCheck h).2
    (h'.flag = true ↔ h.flag = true ∨ Reached h.mark h.txCount h.rxCount) ∧
    (h'.msgFlag = true ↔ h.msgFlag = true ∨ Reached h.msgMark h.txMsgCount h.rxMsgCount) ∧
    ((highwaterCheck h).1 = true ↔ (h.flag = false ∧ Reached h.mark h.txCount h.rxCount) ∨
      (h.msgFlag = false ∧ Reached h.msgMark h.txMsgCount h.rxMsgCount)) := by
  obtain ⟨m, n, f, g, a, b, c, d⟩ := h
  unfold highwaterCheck Reached
  by_cases c1 : f = false ∧ m ≠ 0 ∧ (a ≥ m ∨ b ≥ m) <;>
    by_cases c2 : g = false ∧ n ≠ 0 ∧ (c ≥ n ∨ d ≥ n)
  · simp only [if_pos c1, if_pos c2, true_iff, decide_eq_true_eq, ge_iff_le] at *
    exact ⟨.inr c1.2, .inr c2.2, trivial⟩
  · simp only [if_pos c1, if_neg c2, true_iff, decide_eq_true_eq, ge_iff_le] at *
    refine ⟨.inr c1.2, ⟨.inl, ?_⟩, trivial⟩
    rintro (h | h)
    · exact h
    · cases g with
      | false => exact absurd ⟨rfl, h⟩ c2
      | true => rfl
  · simp only [if_neg c1, if_pos c2, true_iff, decide_eq_true_eq, ge_iff_le] at *
    refine ⟨⟨.inl, ?_⟩, .inr c2.2, trivial⟩
    rintro (h | h)
    · exact h
    · cases f with
      | false => exact absurd ⟨rfl, h⟩ c1
      | true => rfl
  · simp only [if_neg c1, if_neg c2, decide_eq_true_eq, ge_iff_le] at *
    refine ⟨⟨.inl, ?_⟩, ⟨.inl, ?_⟩, trivial⟩
    · rintro (h | h)
      · exact h
      · cases f with
        | false => exact absurd ⟨rfl, h⟩ c1
        | true => rfl
    · rintro (h | h)
      · exact h
      · cases g with
        | false => exact absurd ⟨rfl, h⟩ c2
        | true => rfl

theorem snocInd {α : Type} {motive : List α → Prop} (nil : motive [])
    (snoc : ∀ l x, motive l → motive (l ++ [x])) (l : List α) : motive l := by
  rw [← List.reverse_reverse l]
  induction l.reverse with
  | nil => exact nil
  | cons x l ih => simpa using snoc _ x ih

theorem before_snoc (R : List HwOp → Prop) (ops : List HwOp) (op : HwOp) :
    Before R (ops ++ [op]) ↔ Before R ops ∨ (op = .check ∧ R ops) := by
  constructor
  · rintro ⟨a, b, e, r⟩
    rcases List.eq_nil_or_concat b with rfl | ⟨b', z, rfl⟩
    · have := List.append_inj' e rfl
      simp at this
      exact .inr ⟨this.2, this.1 ▸ r⟩
    · have e' : ops ++ [op] = (a ++ HwOp.check :: b') ++ [z] := by rw [e]; simp
      have := List.append_inj' e' rfl
      simp at this
      exact .inl ⟨a, b', this.1, r⟩
  · rintro (⟨a, b, rfl, r⟩ | ⟨rfl, r⟩)
    · exact ⟨a, b ++ [op], by simp, r⟩
    · exact ⟨ops, [], rfl, r⟩

theorem reached_eq {h : Hw} {a : Amounts} {m n : Nat} (ht : Tracks h a m n) (hs : Small a) :
    (Reached h.mark h.txCount h.rxCount ↔ Reached m a.txBytes a.rxBytes) ∧
    (Reached h.msgMark h.txMsgCount h.rxMsgCount ↔ Reached n a.txPackets a.rxPackets) := by
  obtain ⟨h1, h2, h3, h4, h5, h6⟩ := ht
  obtain ⟨s1, s2, s3, s4⟩ := hs
  rw [h1, h2, h3, h4, h5, h6, Nat.mod_eq_of_lt s1, Nat.mod_eq_of_lt s2, Nat.mod_eq_of_lt s3, Nat.mod_eq_of_lt s4]
  exact ⟨Iff.rfl, Iff.rfl⟩

/-- Within an epoch the flags say whether an earlier check found the limit reached. -/
theorem flags_run {h : Hw} {s : Start} (ht : Tracks h s.amounts s.mark s.msgMark)
    (hf : h.flag = false ∧ h.msgFlag = false) (ops : List HwOp) (hn : .gotNewKeys ∉ ops)
    (hs : ∀ a b, ops = a ++ b → Small (counts s.amounts a)) :
    ((hwRun h ops).flag = true ↔ Before (BytesReached s) ops) ∧
    ((hwRun h ops).msgFlag = true ↔ Before (PacketsReached s) ops) := by
  induction ops using snocInd with
  | nil => simp [hwRun, hf, Before]
  | snoc ops op ih =>
    have hs' : ∀ a b, ops = a ++ b → Small (counts s.amounts a) := fun a b e => hs a (b ++ [op]) (by rw [e]; simp)
    obtain ⟨i1, i2⟩ := ih (fun hc => hn (by simp [hc])) hs'
    have hr : hwRun h (ops ++ [op]) = hwStep (hwRun h ops) op := by simp [hwRun]
    rw [hr, before_snoc, before_snoc, ← i1, ← i2]
    have htr := tracks_run ht ops
    obtain ⟨r1, r2⟩ := reached_eq htr (hs' ops [] (by simp))
    cases op with
    | check =>
      obtain ⟨c1, c2, -⟩ := check_flags (hwRun h ops)
      simp only [hwStep, c1, c2, true_and]
      rw [r1, r2]
      exact ⟨Iff.rfl, Iff.rfl⟩
    | gotNewKeys => exact absurd (by simp) hn
    | _ => simp [hwStep]

/-- C30, while no counter passes 2^32: in an epoch starting with the key change of the receiving
side (or of the connection), whatever is sent, received, counted, configured: a check calls the
callback exactly when a limit is reached now which no earlier check of the epoch found reached. So
each limit leads to one call per epoch, made by the first check after it is reached. -/
theorem C30_fires_once_partial {h : Hw} {s : Start} (ht : Tracks h s.amounts s.mark s.msgMark)
    (hf : h.flag = false ∧ h.msgFlag = false) (ops : List HwOp) (hn : .gotNewKeys ∉ ops)
    (hs : ∀ a b, ops = a ++ b → Small (counts s.amounts a)) :
    (highwaterCheck (hwRun h ops)).1 = true ↔
      (BytesReached s ops ∧ ¬ Before (BytesReached s) ops) ∨
      (PacketsReached s ops ∧ ¬ Before (PacketsReached s) ops) := by
  obtain ⟨i1, i2⟩ := flags_run ht hf ops hn hs
  obtain ⟨r1, r2⟩ := reached_eq (tracks_run ht ops) (hs ops [] (by simp))
  obtain ⟨-, -, c3⟩ := check_flags (hwRun h ops)
  rw [c3, r1, r2, ← i1, ← i2]
  simp only [BytesReached, PacketsReached, Bool.not_eq_true]
  constructor <;> rintro (⟨x, y⟩ | ⟨x, y⟩) <;> first | exact .inl ⟨y, x⟩ | exact .inr ⟨y, x⟩

/-- C30: a new connection, and the key change of the receiving side in any history, start an epoch:
no limit is taken for reached, the counters of the receiving direction are zero. -/
theorem C30_epoch (h : Hw) (ops : List HwOp) : let h' := hwRun h (ops ++ [.gotNewKeys])
    h'.flag = false ∧ h'.msgFlag = false ∧ h'.rxCount = 0 ∧ h'.rxMsgCount = 0 := by
  simp [hwRun, hwStep]

/-- C30 is false of the code beyond 2^32 bytes between two checks: the counter wraps and the check
does not call the callback although the limit is long passed. -/
theorem C30_wrap_witness :
    ∃ (h : Hw) (ops : List HwOp), Tracks h ⟨0, 0, 0, 0⟩ 1000 0 ∧ h.flag = false ∧ h.msgFlag = false ∧
      .gotNewKeys ∉ ops ∧ BytesReached ⟨⟨0, 0, 0, 0⟩, 1000, 0⟩ ops ∧ ¬ Before (BytesReached ⟨⟨0, 0, 0, 0⟩, 1000, 0⟩) ops ∧
      (highwaterCheck (hwRun h ops)).1 = false := by
  refine ⟨⟨1000, 0, false, false, 0, 0, 0, 0⟩, [.encrypted 4294967295, .encrypted 2],
    ⟨rfl, rfl, rfl, rfl, rfl, rfl⟩, rfl, rfl, by simp, ?_, ?_, by decide⟩
  · simp [BytesReached, Reached, byteLimit, counts, count]
  · rintro ⟨a, b, e, -⟩
    have : HwOp.check ∈ [HwOp.encrypted 4294967295, HwOp.encrypted 2] := by rw [e]; simp
    simp at this

/-- A history with both limits reached at different checks: the second and the fourth check call. -/
example :
    let h : Hw := ⟨100, 3, false, false, 0, 0, 0, 0⟩
    let ops : List HwOp := [.encrypted 60, .bundled, .check, .encrypted 60, .bundled, .check, .check,
      .encrypted 16, .bundled]
    Tracks h ⟨0, 0, 0, 0⟩ 100 3 ∧ (h.flag = false ∧ h.msgFlag = false) ∧ .gotNewKeys ∉ ops ∧
    Small (counts ⟨0, 0, 0, 0⟩ ops) ∧
    ((List.range 10).map fun i => decide (ops[i]? = some .check ∨ i = 9) && (highwaterCheck (hwRun h (ops.take i))).1)
      = [false, false, false, false, false, true, false, false, false, true] :=
  ⟨⟨rfl, rfl, rfl, rfl, rfl, rfl⟩, ⟨rfl, rfl⟩, by simp, by simp [Small, counts, count], by decide⟩

end Props.Highwater
