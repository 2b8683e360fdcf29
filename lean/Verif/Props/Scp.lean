import Verif.Proofs.ScpPeer
/-!
# SCP: messages and the receiving side
-/

namespace Props.Scp
open Wolf Wolf.Scp Spec.Scp
open Proofs.Scp (image)

/-! ## C71: what is announced is what is understood -/

/-- A file of any size below 4 GiB, under any name of one path component, is announced so that the receiver understands the
same permissions, size and name, whatever its memory holds. -/
theorem C71_file (mode size : Nat) (name old : Bytes) (hs : size < 4294967296) (hn : Plain name) (hl : name.length ≤ 1005) :
    parseMsg false (fileHeader mode size name) old = some (.ok (.file (mode % 512) size (some name))) := by
  rw [Proofs.Scp.file_text mode size name hs hl]
  exact (Proofs.Scp.parse_iff _ old _).mpr (Proofs.Scp.file_announces mode size name hs hn)

/-- The same for a directory. -/
theorem C71_dir (mode : Nat) (name old : Bytes) (hn : Plain name) (hl : name.length ≤ 1014) :
    parseMsg false (dirHeader mode name) old = some (.ok (.dir (mode % 512) 0 (some name))) := by
  rw [Proofs.Scp.dir_text mode name hl]
  exact (Proofs.Scp.parse_iff _ old _).mpr (Proofs.Scp.dir_announces mode name hn)

/-- Times, each of 64 bits. -/
theorem C71_times (r : Bool) (m a : Nat) (old : Bytes) (hm : m < 18446744073709551616) (ha : a < 18446744073709551616) :
    parseMsg r (timesHeader m a) old = some (.ok (.times m a)) := by
  rw [Proofs.Scp.times_text m a hm ha]
  have h : ([84] ++ dec m ++ [32, 48, 32] ++ dec a ++ [32, 48, 10] : Bytes) =
      ([84] ++ dec m ++ [32, 48, 32] ++ dec a ++ [32, 48]) ++ [10] := by simp
  rw [h]
  have h1 := (Proofs.Scp.parse_iff _ old (.times m a)).mpr (Proofs.Scp.times_times m a hm ha)
  have h2 : ([84] ++ dec m ++ [32, 48, 32] ++ dec a ++ [32, 48] : Bytes) = 84 :: (dec m ++ [32, 48, 32] ++ dec a ++ [32, 48]) := by simp
  rw [h2] at h1 ⊢
  rw [Proofs.Scp.parse_T] at h1 ⊢
  exact h1

/-- The end of a directory. -/
theorem C71_end (r : Bool) (old : Bytes) : parseMsg r endHeader old = some (.ok .endDir) := Proofs.Scp.parse_E r [] old

/-- "a.txt", 1234 bytes, mode 0644. -/
example : fileHeader 0o100644 1234 "a.txt".toUTF8.toList = "C0644 1234 a.txt\n".toUTF8.toList ∧
    Plain "a.txt".toUTF8.toList ∧ 1234 < 4294967296 := by decide +kernel

/-- A name that is too long for the message buffer is cut, and with it the newline: the receiver waits for more. -/
theorem C71_long : (10 : Byte) ∉ fileHeader 0o644 0 (List.replicate 1017 97) ∧
    (fileHeader 0o644 0 (List.replicate 1017 97)).length = 1023 := by decide +kernel

/-! ## C72: only what is announced is understood -/

/-- Whatever line a peer sends, reading it never leaves the message buffer. -/
theorem C72_defined (r : Bool) (m old : Bytes) : ∃ x, parseMsg r (m ++ [10]) old = some x := Proofs.Scp.parse_total r m old

/-- A file is understood exactly from a line that announces it. -/
theorem C72_file (m old : Bytes) (mode size : Nat) (name : Bytes) :
    parseMsg false (m ++ [10]) old = some (.ok (.file mode size (some name))) ↔ Announces 67 m mode size name :=
  Proofs.Scp.parse_iff m old _

theorem C72_dir (m old : Bytes) (mode size : Nat) (name : Bytes) :
    parseMsg false (m ++ [10]) old = some (.ok (.dir mode size (some name))) ↔ Announces 68 m mode size name :=
  Proofs.Scp.parse_iff m old _

theorem C72_times (m old : Bytes) (mt at_ : Nat) :
    parseMsg false (m ++ [10]) old = some (.ok (.times mt at_)) ↔ Times m mt at_ := Proofs.Scp.parse_iff m old _

/-- Everything else is refused or is the end of a directory. -/
theorem C72_else (m old : Bytes) (h1 : ∀ a b n, ¬ Announces 67 m a b n) (h2 : ∀ a b n, ¬ Announces 68 m a b n)
    (h3 : ∀ a b, ¬ Times m a b) (h4 : m.head? ≠ some 69) : ∃ e, parseMsg false (m ++ [10]) old = some (.error e) := by
  obtain ⟨x, hx⟩ := Proofs.Scp.parse_total false m old
  cases x with
  | error e => exact ⟨e, hx⟩
  | ok y =>
    have hy := (Proofs.Scp.parse_iff m old y).mp hx
    cases y with
    | file a b n => cases n with
      | none => exact hy.elim
      | some n => exact absurd hy (h1 a b n)
    | dir a b n => cases n with
      | none => exact hy.elim
      | some n => exact absurd hy (h2 a b n)
    | endDir => exact absurd hy h4
    | times a b => exact absurd hy (h3 a b)

/-- "C0644 5 ../x" announces nothing. -/
example : (parseMsg false "C0644 5 ../x\n".toUTF8.toList []).map (·.isOk) = some false := by decide +kernel
example : Announces 67 "C0644 5 x".toUTF8.toList 0o644 5 "x".toUTF8.toList :=
  ⟨"0644".toUTF8.toList, 32, "5".toUTF8.toList, [], 0o644, by decide +kernel, by decide +kernel, by decide, by decide +kernel, by decide,
    by decide +kernel, Or.inl rfl⟩
/-- A size of 2^32 is refused. -/
example : (parseMsg false "C0644 4294967296 x\n".toUTF8.toList []).map (·.isOk) = some false := by decide +kernel

/-! ## C73: names handed to the application -/

/-- Unless a destination name was given, every name handed over is one path component, for every peer and every history
without a read of no bytes. -/
theorem C73_names_partial (s : Sink) (es : List Ev) (hr : s.rename = false) (hz : ∀ e ∈ es, Proofs.Scp.NoZero e) :
    ∀ n ∈ names (calls (run s es).2), ∃ x, n = some x ∧ Plain x := by
  have := Proofs.Scp.run_names es s hz
  rw [hr] at this
  simpa using this

/-- With a destination name, the first entry gets it, and every later one is one path component. -/
theorem C73_rename_partial (s : Sink) (es : List Ev) (hr : s.rename = true) (hz : ∀ e ∈ es, Proofs.Scp.NoZero e) :
    names (calls (run s es).2) = [] ∨
      ∃ t, names (calls (run s es).2) = s.name :: t ∧ ∀ n ∈ t, ∃ x, n = some x ∧ Plain x := by
  have := Proofs.Scp.run_names es s hz
  rw [hr] at this
  simpa using this

/-- A request, its confirmation, and a file announced in two pieces. -/
def announce : List Ev :=
  [.step {}, .step {}, .arrive "C0644 3 a".toUTF8.toList, .step {}, .arrive [10], .step {}]

example : names (calls (run {} announce).2) = [some [97]] ∧ (∀ e ∈ announce, Proofs.Scp.NoZero e) := by
  refine ⟨by decide +kernel, ?_⟩
  intro e he
  simp only [announce, List.mem_cons, List.not_mem_nil, or_false] at he
  rcases he with h | h | h | h | h | h <;> subst h <;> simp [Proofs.Scp.NoZero]

/-- What is missing: a read of no bytes where a message is expected (an empty data message is enough) is taken for a message.
The first time, a file without a name is opened. -/
theorem C73_empty_opens_nameless : names (calls (run {} [.step {}, .step {}, .step { rd := .zero }]).2) = [none] := by
  decide +kernel

/-- And later, the last file is opened once more. -/
theorem C73_empty_repeats : names (calls (run {}
    (announce ++ [.step {}, .arrive [1, 2, 3, 0], .step {}, .step {}, .step {}, .step { rd := .zero }])).2) =
    [some [97], some [97]] := by decide +kernel

/-! ## C74: order of the calls -/

/-- For every peer, network and application the receive callback is called in order: one request, then entries; each file is
opened, handed over in consecutive pieces that never exceed the announced size, and closed exactly when all of it has been
handed over. -/
theorem C74_orderly (s : Sink) (es : List Ev) (hs : s.st = .begin) (ho : s.off = 0) : Orderly (calls (run s es).2) := by
  obtain ⟨p, hp, _⟩ := Proofs.Scp.run_phase es s .before (by unfold Proofs.Scp.InPhase; rw [hs]; exact ⟨rfl, ho⟩)
  exact ⟨p, hp⟩

/-- And nothing is ever read outside the message buffer. -/
theorem C74_no_crash (s : Sink) (es : List Ev) (hs : s.st = .begin) (hn : s.next ≠ .crash) : (run s es).1.st ≠ .crash :=
  (Proofs.Scp.run_safe es s ⟨by rw [hs]; simp, hn⟩).1

/-- A file of three bytes in two pieces. -/
example : calls (run {} (announce ++ [.step {}, .arrive [1, 2], .step {}, .arrive [3, 0], .step {}])).2 =
    [.request, .newFile (some [97]) 0o644 0 0 3, .part (some [97]) 3 0 [1, 2], .part (some [97]) 3 2 [3],
     .fileDone (some [97]) 0o644 0 0 3] := by decide +kernel

/-! ## C75: what a peer sends is what the application is given -/

/-- The receiver at the start, facing a peer that has `ss` to send. -/
def start (ss : List Bytes) : Sys := ⟨{}, [], [], ss⟩

/-- Whatever the pace and the pieces in which data arrives, at any moment the application has been given a beginning of what
the peer sends, and nothing has failed. -/
theorem C75_prefix_partial (is : List Item) (ss : List Bytes) (h : Script is ss) (hu : Told false is)
    (ms : List Move) (hb : ∀ m ∈ ms, Benign m) :
    given [] (calls ((start ss).run ms).2) <+: is.map wanted ∧
    ((start ss).run ms).1.sink.st ≠ .dead ∧ ((start ss).run ms).1.sink.st ≠ .crash ∧ ((start ss).run ms).1.sink.st ≠ .done := by
  have hp := Proofs.Scp.script_pend h false 0 0 hu (fun _ => ⟨rfl, rfl⟩)
  have h0 : Proofs.Scp.Inv (start ss) [] (is.map wanted) := .begin rfl rfl rfl rfl ⟨rfl, rfl, rfl⟩ hp
  obtain ⟨a, E, G, h1, h2, h3⟩ := Proofs.Scp.run_goes ms _ _ _ hb h0
  refine ⟨⟨E, by rw [h3]; exact h2.symm⟩, Proofs.Scp.inv_alive h1⟩

/-- When all has been sent and read, the application has been given exactly what the peer sent. -/
theorem C75_all_partial (is : List Item) (ss : List Bytes) (h : Script is ss) (hu : Told false is)
    (ms : List Move) (hb : ∀ m ∈ ms, Benign m) (hq : ((start ss).run ms).1.Quiet) :
    given [] (calls ((start ss).run ms).2) = is.map wanted := by
  have hp := Proofs.Scp.script_pend h false 0 0 hu (fun _ => ⟨rfl, rfl⟩)
  have h0 : Proofs.Scp.Inv (start ss) [] (is.map wanted) := .begin rfl rfl rfl rfl ⟨rfl, rfl, rfl⟩ hp
  obtain ⟨a, E, G, h1, h2, h3⟩ := Proofs.Scp.run_goes ms _ _ _ hb h0
  rw [h3, h2, Proofs.Scp.inv_quiet h1 hq, List.append_nil]

/-- And that point can be reached from wherever things stand: the two sides never wait for each other. -/
theorem C75_no_deadlock_partial (is : List Item) (ss : List Bytes) (h : Script is ss) (hu : Told false is)
    (ms : List Move) (hb : ∀ m ∈ ms, Benign m) :
    ∃ ms', (∀ m ∈ ms', Benign m) ∧ (((start ss).run ms).1.run ms').1.Quiet := by
  have hp := Proofs.Scp.script_pend h false 0 0 hu (fun _ => ⟨rfl, rfl⟩)
  have h0 : Proofs.Scp.Inv (start ss) [] (is.map wanted) := .begin rfl rfl rfl rfl ⟨rfl, rfl, rfl⟩ hp
  obtain ⟨a, E, G, h1, _, _⟩ := Proofs.Scp.run_goes ms _ _ _ hb h0
  exact Proofs.Scp.can_finish _ _ a E (Nat.le_refl _) h1

/-- A directory with a file in it. -/
def tree : List Item := [.dir none 0o755 [100], .file none 0o644 [97] [1, 2, 3], .endDir]
def treeText : List Bytes := ["D0755 0 d\n".toUTF8.toList, "C0644 3 a\n".toUTF8.toList, [1, 2, 3, 0], "E\n".toUTF8.toList]

example : Script tree treeText ∧ Told false tree := by
  constructor
  · have hd : Announces 68 "D0755 0 d".toUTF8.toList 0o755 0 [100] :=
      ⟨"0755".toUTF8.toList, 32, "0".toUTF8.toList, [], 0o755, by decide +kernel, by decide +kernel, by decide, by decide +kernel, by decide,
        by decide +kernel, Or.inl rfl⟩
    have hf : Announces 67 "C0644 3 a".toUTF8.toList 0o644 3 [97] :=
      ⟨"0644".toUTF8.toList, 32, "3".toUTF8.toList, [], 0o644, by decide +kernel, by decide +kernel, by decide, by decide +kernel, by decide,
        by decide +kernel, Or.inl rfl⟩
    have he : (show Bytes from [69]).head? = some 69 := rfl
    have h := Script.dir Stamp.none hd (by decide +kernel) (Script.file (data := [1, 2, 3]) Stamp.none hf (by decide +kernel)
      (Script.endDir (m := [69]) he (by decide +kernel) Script.nil))
    have ht : treeText = [] ++ ("D0755 0 d".toUTF8.toList ++ [10]) :: ([] ++ ("C0644 3 a".toUTF8.toList ++ [10]) :: ([1, 2, 3] ++ [0]) ::
      [[69] ++ [10]]) := by decide +kernel
    rw [ht]; exact h
  · exact ⟨fun _ => rfl, fun _ => rfl, trivial⟩

/-- What is missing: the next burst may arrive before the zero byte at the end of a file has been read. The receiver has
confirmed the file, so a peer that follows the protocol sends the next message; both are read at once, only the zero byte is
looked at, and the message is lost: the receiver waits for it, and the peer for its confirmation. -/
theorem C75_next_message_lost :
    let s := (run {} (announce ++ [.step {}, .arrive [1, 2, 3, 0], .step {}, .step {},
      .arrive "C0644 1 b\n".toUTF8.toList, .step {}])).1
    s.st = .recvMsg ∧ s.chan = [] ∧ s.msg = [] := by decide +kernel

/-- Also missing: a read of no bytes, or data on the error stream, in the place of that zero byte is taken for it; the zero
byte then stands in front of the next message, which is refused. -/
theorem C75_confirmation_unread :
    (run {} (announce ++ [.step {}, .arrive [1, 2, 3], .step {}, .step {}, .step { rd := .ext }, .arrive [0],
      .arrive "C0644 1 b\n".toUTF8.toList, .step {}])).1.st = .dead := by decide +kernel

/-- And times announced for a directory stay for a file in it that has none of its own. -/
theorem C75_times_stay : calls (run {} ([.step {}, .step {}, .arrive "T5 0 6 0\n".toUTF8.toList, .step {}, .step {},
    .arrive "D0755 0 d\n".toUTF8.toList, .step {}, .step {}, .arrive "C0644 0 a\n".toUTF8.toList, .step {}])).2 =
    [.request, .newDir (some [100]) 0o755 5 6, .newFile (some [97]) 0o644 5 6 0] := by decide +kernel

/-! ## C76: a refusal ends the transfer -/

/-- After the callback says stop, in any call, the peer is sent at most one error message and never another confirmation, and
the callback is not called again. -/
theorem C76_abort_final (s : Sink) (es : List Ev) (pre : List Out) (c : Call) (post : List Out)
    (h : (run s es).2 = pre ++ .call c .abort :: post) : post = [] ∨ post = [.nak] :=
  Proofs.Scp.run_abort es s pre c post h

example : (run {} [.step { cb := .abort }, .step {}, .step {}]).2 = [.call .request .abort, .nak] := by decide +kernel

/-- Any answer other than "stop" and "go on" is confirmed to the peer as success, even when it ends the transfer in the middle
of a file. -/
theorem C76_other_answer_is_confirmed :
    (run {} (announce ++ [.step {}, .arrive [1, 2], .step { cb := .other }, .step {}])).2.getLast? = some .ack ∧
    (run {} (announce ++ [.step {}, .arrive [1, 2], .step { cb := .other }, .step {}])).1.st = .done := by decide +kernel

end Props.Scp
