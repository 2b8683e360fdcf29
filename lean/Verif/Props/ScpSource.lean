import Verif.Proofs.ScpWhole
import Verif.Props.Scp
/-!
# SCP: the sending side
-/

namespace Props.Scp
open Wolf Wolf.Scp Spec.Scp

/-! ## C77: what is sent is what the callback supplies, in the order of the protocol -/

/-- In every history the sender does only what its duties say: it asks the callback when nothing else is left to do, for
the next entry or for more of the file from where it ends; it writes times (if asked for), one header per file, exactly the bytes
supplied, and a zero byte when all of the announced size was supplied; and after each message and each file it writes nothing
until a confirmation has been taken. -/
theorem C77_protocol (s : Source) (es : List SrcEv) (h0 : s.st = .begin) (hr : s.req = .single ∨ s.req = .recursive) :
    ∃ t, (srcRun s es).2.foldlM (comply ⟨s.recurse, s.times⟩) {} = some t := by
  obtain ⟨_, _, t, h, _⟩ := Proofs.Scp.srcRun_keeps es s {} (Or.inr ⟨rfl, by
    simp only [Proofs.Scp.SInv, h0]; exact ⟨trivial, trivial, trivial, trivial, hr⟩⟩)
  exact ⟨t, h⟩

/-- A file of three bytes that the callback supplies in two pieces, the first of which the transport takes in two. -/
def info3 : Meta := { name := [97], mode := 0o644, size := 3 }
def three : List SrcEv :=
  [.step {}, .step {}, .arrive [0], .step {}, .step { ans := .data [1, 2], info := info3 }, .step {}, .arrive [0], .step {},
   .step { snd := .sent 1 }, .step {}, .step { ans := .data [3], info := info3 }, .step {}, .step {}, .arrive [0], .step {}]

example : (srcRun {} three).1.st = .done ∧ (srcRun {} three).2 =
    [.call .newRequest 0 (.data []) {}, .conf [0], .call .single 0 (.data [1, 2]) info3,
     .wrote "C0644 3 a\n".toUTF8.toList, .conf [0], .wrote [1], .wrote [2], .call .cont 2 (.data [3]) info3, .wrote [3],
     .wrote [0], .conf [0]] := by decide +kernel

/-- A confirmation that is taken is a zero byte of the peer, as long as there are no reads of no bytes and no data on the
error stream. -/
theorem C77_confirmed_partial (s : Source) (es : List SrcEv) (h : ∀ e ∈ es, Reads e) (g : Bytes)
    (hg : SrcOut.conf g ∈ (srcRun s es).2) : g.head? = some 0 :=
  Proofs.Scp.srcRun_conf es s h g hg

example : ∀ e ∈ three, Reads e := by
  intro e he
  simp only [three, List.mem_cons, List.not_mem_nil, or_false] at he
  rcases he with h | h | h | h | h | h | h | h | h | h | h | h | h | h | h <;> subst h <;>
    first | trivial | exact ⟨by decide, by decide⟩

/-- What is missing: data on the error stream (or a read of no bytes) stands for a confirmation. A peer that has confirmed
nothing is sent the header and all of the file. -/
theorem C77_unread_confirmation : (srcRun {} [.step {}, .step {}, .step { rd := .ext },
    .step { ans := .data [1], info := { info3 with size := 1 } }, .step {}, .step { rd := .ext }, .step {}, .step {}]).2 =
    [.call .newRequest 0 (.data []) {}, .conf [], .call .single 0 (.data [1]) { info3 with size := 1 },
     .wrote "C0644 1 a\n".toUTF8.toList, .conf [], .wrote [1], .wrote [0]] := by decide +kernel

/-! ## C78: what one side sends the other receives -/

/-- When a transfer comes to its end and the callback has kept its word (each file is of the size that was announced), what
was written between the confirmations is a script for exactly the entries that the callback supplied. -/
theorem C78_script (s : Source) (es : List SrcEv) (is : List Item) (h0 : s.st = .begin)
    (hr : s.req = .single ∨ s.req = .recursive) (hst : (srcRun s es).1.st = .done) (ha : Agreed (srcRun s es).2)
    (hs : supplied ⟨s.recurse, s.times⟩ none (answers (srcRun s es).2) = some is)
    (hf : ∀ x ∈ answers (srcRun s es).2, Fits x.2) :
    ∃ ss, bursts (srcRun s es).2 = ([] :: ss, []) ∧ Script is ss :=
  Proofs.Scp.done_script s es is h0 hr hst ha hs hf

/-- And a receiver to which these bursts are sent is given exactly the entries the sender's callback supplied, whatever the
pieces and the pace. (As in C75: a burst begins to arrive only when the one before has been read.) -/
theorem C78_copy_partial (s : Source) (es : List SrcEv) (is : List Item) (h0 : s.st = .begin)
    (hr : s.req = .single ∨ s.req = .recursive) (hst : (srcRun s es).1.st = .done) (ha : Agreed (srcRun s es).2)
    (hs : supplied ⟨s.recurse, s.times⟩ none (answers (srcRun s es).2) = some is)
    (hf : ∀ x ∈ answers (srcRun s es).2, Fits x.2)
    (ms : List Move) (hb : ∀ m ∈ ms, Benign m) (hq : ((start (bursts (srcRun s es).2).1.tail).run ms).1.Quiet) :
    given [] (calls ((start (bursts (srcRun s es).2).1.tail).run ms).2) = is.map wanted := by
  obtain ⟨ss, h1, h2⟩ := C78_script s es is h0 hr hst ha hs hf
  rw [h1] at hq ⊢
  exact C75_all_partial is ss h2 (Proofs.Scp.supplied_told _ _ none is hs) ms hb hq

example : Agreed (srcRun {} three).2 ∧
    supplied ⟨false, false⟩ none (answers (srcRun {} three).2) = some [.file none 0o644 [97] [1, 2, 3]] ∧
    (∀ x ∈ answers (srcRun {} three).2, Fits x.2) ∧
    (bursts (srcRun {} three).2).1.tail = ["C0644 3 a\n".toUTF8.toList, [1, 2, 3, 0]] := by
  refine ⟨⟨.data [], {}, ?_⟩, by decide +kernel, by decide +kernel, by decide +kernel⟩
  exact ⟨(srcRun {} three).2.tail, by decide +kernel, by decide, by decide⟩

/-- What is missing: nothing holds the callback to the size it announced. More bytes than announced are sent, and the receiver
takes them for messages: the contents of a file that grew while it was sent, or of a file of 4 GiB or more, whose size is
announced modulo 2^32, can make the receiver create other files. Here one file is sent, and the receiver is told of two. -/
def grown : Bytes := [120, 0] ++ List.replicate 1023 0 ++ "C0777 2 b\n".toUTF8.toList
def sendGrown : List SrcEv :=
  [.step {}, .step {}, .arrive [0], .step {}, .step { ans := .data grown, info := { info3 with size := 1 } }, .step {},
   .arrive [0], .step {}, .step {}]

theorem C78_grown_file_makes_another :
    bursts (srcRun {} sendGrown).2 = ([[], "C0644 1 a\n".toUTF8.toList], grown) ∧
    calls (run {} [.step {}, .step {}, .arrive "C0644 1 a\n".toUTF8.toList, .step {}, .step {}, .arrive grown, .step {}, .step {},
      .step {}, .step {}]).2 =
    [.request, .newFile (some [97]) 0o644 0 0 1, .part (some [97]) 1 0 [120], .fileDone (some [97]) 0o644 0 0 1,
     .newFile (some [98]) 0o777 0 0 2] := by decide +kernel

/-- A newline in a name goes into the header as it is. A receiver that gets the header in two pieces takes the first line for
all of it. -/
theorem C78_newline_in_name :
    fileHeader 0o644 1 [97, 10, 98] = "C0644 1 a\nb\n".toUTF8.toList ∧
    calls (run {} [.step {}, .step {}, .arrive "C0644 1 a\n".toUTF8.toList, .step {}, .step {}, .arrive "b\n".toUTF8.toList,
      .step {}]).2 = [.request, .newFile (some [97]) 0o644 0 0 1, .part (some [97]) 1 0 [98], .fileDone (some [97]) 0o644 0 0 1] := by
  decide +kernel

end Props.Scp
