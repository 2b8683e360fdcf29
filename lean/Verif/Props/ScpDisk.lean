import Verif.Proofs.ScpStore
import Verif.Props.ScpSource
/-!
# SCP: what the default receive callback does to the file system
-/

namespace Props.Scp
open Wolf Wolf.Scp Spec.Scp

/-! ## C79: nothing outside the destination is touched -/

/-- Whatever the peer sends, whatever fails, and whatever links others plant in the destination between the calls: no call of the
default callback changes anything that is not below the directory to which the request led (`b`), and it never uses a NULL
name or a closed file. A name given by the local user must be plain. -/
theorem C79_confined_partial (s : Sink) (es : List Ev) (hs : s.st = .begin) (ho : s.off = 0)
    (hr : s.rename = false ∨ ∃ x, s.name = some x ∧ Plain x) (hz : ∀ e ∈ es, Proofs.Scp.NoZero e)
    (base : Bytes) (d : Disk) (hd : d.bad = false) (i : DiskIn) (is : List DiskIn) (d' : Disk) (l : List (Fs × Fs))
    (h : serve base d (run s es).2 (i :: is) = some (d', l)) :
    d'.bad = false ∧
    ∀ fg ∈ l, ∀ p, (∀ b, chdir (i.others d.fs) d.cwd base = some b → ¬ b <+: p) → fg.2 p = fg.1 p := by
  refine Proofs.Scp.transfer_confined base _ d i is d' l hd (C74_orderly s es hs ho) ?_ (C76_abort_final s es) h
  cases hb : s.rename with
  | false => exact C73_names_partial s es hb hz
  | true =>
    rw [hb] at hr
    rcases hr with hr | ⟨x, hx, hp⟩
    · cases hr
    · rcases C73_rename_partial s es hb hz with h | ⟨t, h, ht⟩
      · rw [h]; simp
      · rw [h]
        intro n hn
        rcases List.mem_cons.mp hn with e | e
        · exact ⟨x, by rw [e, hx], hp⟩
        · exact ht n e

/-- A file system with a directory "d", a file outside of it, and in it a link to that file. -/
def planted : Fs := fun p =>
  if p = [] ∨ p = [[100]] then some (.dir 0o755)
  else if p = [[115]] then some (.file [1] none)
  else if p = [[100], [97]] then some (.link [[115]])
  else none

/-- The peer sends a file under the name of the link; it is refused. Under another name it is stored in "d". -/
example : serve [47, 100] { fs := planted, cwd := [] } [.call .request .go, .ack, .call (.newFile (some [97]) 0o644 0 0 1) .abort, .nak]
    [{}, {}] ≠ none ∧
    (serve [47, 100] { fs := planted, cwd := [] } [.call .request .go, .ack, .call (.newFile (some [98]) 0o644 0 0 1) .go, .ack] [{}, {}]).map
      (fun x => x.1.fs [[100], [98]]) = some (some (.file [] none)) := by decide +kernel

/-- That is what a run looks like. -/
example : (run {} [.step {}, .step {}, .arrive "C0644 1 b\n".toUTF8.toList, .step {}, .step {}]).2 =
    [.call .request .go, .ack, .call (.newFile (some [98]) 0o644 0 0 1) .go, .ack] := by decide +kernel

/-- What is missing: an empty data message at the start (see C73) makes the callback open a file whose name is NULL. -/
theorem C79_nameless :
    (run {} [.step {}, .step {}, .step { rd := .zero, cb := .abort }]).2 =
      [.call .request .go, .ack, .call (.newFile none 0 0 0 0) .abort] ∧
    (serve [47, 100] { fs := planted, cwd := [] } [.call .request .go, .ack, .call (.newFile none 0 0 0 0) .abort] [{}, {}]).map
      (·.1.bad) = some true := by decide +kernel

/-- Also missing: if the local user's destination is split so that the name is a path (see C81), the file goes there. -/
theorem C79_name_is_a_path :
    (serve [47, 100] { fs := planted, cwd := [] } [.call .request .go, .ack, .call (.newFile (some [47, 115]) 0o644 0 0 1) .go, .ack]
      [{}, {}]).map (fun x => x.1.fs [[115]]) = some (some (.file [] none)) := by decide +kernel

/-! ## C80: what was sent is in the file system -/

/-- A tree that a peer sends to the default callback is stored, whatever the pieces and the pace: every file and directory is
in its place below the destination with its contents and times, and nothing else has changed. The entries have different
places, and in these places is nothing yet or something of the same kind. -/
theorem C80_stored_partial (is : List Item) (ss : List Bytes) (h : Script is ss) (hu : Told false is)
    (ms : List Move) (hb : ∀ m ∈ ms, Benign m) (hq : ((start ss).run ms).1.Quiet)
    (base : Bytes) (d : Disk) (b : Place) (hd : chdir d.fs d.cwd base = some b) (hN : Nested 0 is)
    (hD : ((entries b is).map (·.1)).Nodup) (hF : ∀ e ∈ entries b is, Free (d.fs e.1) e.2) :
    ∃ d' l, serve base d ((start ss).run ms).2 (List.replicate (calls ((start ss).run ms).2).length {}) = some (d', l) ∧
      (∀ e ∈ entries b is, Holds (d.fs e.1) (d'.fs e.1) e.2) ∧
      ∀ p, p ∉ (entries b is).map (·.1) → d'.fs p = d.fs p :=
  Proofs.Scp.script_stored is ms (start ss) rfl rfl rfl hb hq.2.2.2.2 (C75_all_partial is ss h hu ms hb hq) base d b hd hN hD hF

/-- The tree of C75 has these places, and they are free. -/
example : entries [[100]] tree = [([[100], [100]], .dir 0o755), ([[100], [100], [97]], .file [1, 2, 3] none)] ∧
    Nested 0 tree ∧ ((entries [[100]] tree).map (·.1)).Nodup ∧ (∀ e ∈ entries [[100]] tree, Free (planted e.1) e.2) ∧
    chdir planted [] [47, 100] = some [[100]] := by
  refine ⟨by decide +kernel, trivial, by decide +kernel, ?_, by decide +kernel⟩
  intro e he
  have : planted e.1 = none := by
    revert e; decide +kernel
  rw [this]; trivial

/-- And all the way: what the sending application supplies is stored on the other side. -/
theorem C80_copy_partial (s : Source) (es : List SrcEv) (is : List Item) (h0 : s.st = .begin)
    (hr : s.req = .single ∨ s.req = .recursive) (hst : (srcRun s es).1.st = .done) (ha : Agreed (srcRun s es).2)
    (hs : supplied ⟨s.recurse, s.times⟩ none (answers (srcRun s es).2) = some is)
    (hf : ∀ x ∈ answers (srcRun s es).2, Fits x.2)
    (ms : List Move) (hb : ∀ m ∈ ms, Benign m) (hq : ((start (bursts (srcRun s es).2).1.tail).run ms).1.Quiet)
    (base : Bytes) (d : Disk) (b : Place) (hd : chdir d.fs d.cwd base = some b) (hN : Nested 0 is)
    (hD : ((entries b is).map (·.1)).Nodup) (hF : ∀ e ∈ entries b is, Free (d.fs e.1) e.2) :
    ∃ d' l, serve base d ((start (bursts (srcRun s es).2).1.tail).run ms).2
        (List.replicate (calls ((start (bursts (srcRun s es).2).1.tail).run ms).2).length {}) = some (d', l) ∧
      (∀ e ∈ entries b is, Holds (d.fs e.1) (d'.fs e.1) e.2) ∧
      ∀ p, p ∉ (entries b is).map (·.1) → d'.fs p = d.fs p := by
  obtain ⟨ss, h1, h2⟩ := C78_script s es is h0 hr hst ha hs hf
  rw [h1] at hq ⊢
  exact C80_stored_partial is ss h2 (Proofs.Scp.supplied_told _ _ none is hs) ms hb hq base d b hd hN hD hF

/-- What is missing: the permissions announced for a file are not used. -/
theorem C80_file_mode_ignored (base : Bytes) (d : Disk) (n : Option Bytes) (m m' mt a sz : Nat) (i : DiskIn) :
    recvCb base d (.newFile n m mt a sz) i = recvCb base d (.newFile n m' mt a sz) i ∧
    recvCb base d (.fileDone n m mt a sz) i = recvCb base d (.fileDone n m' mt a sz) i := by
  cases n <;> exact ⟨rfl, rfl⟩

/-- Nor are the times announced for a directory. -/
theorem C80_dir_times_ignored (base : Bytes) (d : Disk) (n : Option Bytes) (m mt a mt' a' : Nat) (i : DiskIn) :
    recvCb base d (.newDir n m mt a) i = recvCb base d (.newDir n m mt' a') i := by
  cases n <;> rfl

/-- And a file that could not be written in full when it was closed (the disk is full) is reported as received: the peer gets
the confirmation, and the contents are gone. -/
theorem C80_lost_at_close :
    (serve [47, 100] { fs := planted, cwd := [] } [.call .request .go, .ack, .call (.newFile (some [98]) 0o644 0 0 3) .go, .ack,
      .call (.part (some [98]) 3 0 [1, 2, 3]) .go, .call (.fileDone (some [98]) 0o644 0 0 3) .go, .ack] [{}, {}, {}, { lost := 3 }]).map
      (fun x => x.1.fs [[100], [98]]) = some (some (.file [] none)) := by decide +kernel

end Props.Scp
