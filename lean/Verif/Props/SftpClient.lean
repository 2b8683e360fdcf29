import Verif.Proofs.SftpGetData
/-!
# C100 to C104: the SFTP client, fetching and storing files
-/

namespace Props.SftpClient
open Wolf Wolf.Sftp Wolf.SftpClient Spec.Wire Spec.Sftp Spec.SftpClient

/-! ## Examples -/

/-- A connection on which the server sends `inp`. -/
def chan (inp : List UInt8) : Chan := ⟨none, inp, [], 5, false, none, none⟩

/-- A fetch of `r` to `l`. -/
def names : Args := ⟨[114], [108], false⟩

def sent : Ev := .send (.ok 1000) none false
def got : Ev := .read 1000 none
def flow : Ev := .stream (.ok 1000) none []

/-- Attributes and a handle. -/
def opening : List Reply := [.attrs { perm := some 0o100644 }, .handle [7, 7]]

/-- Up to the first read. -/
def upTo : List Ev := [sent, got, got, sent, got, got, .local false true true]

/-- A piece, the end of the file, the end. -/
def piece : List Ev := [sent, got, flow, flow, .file 1000]
def eof : List Ev := [sent, got, got, .file 0]
def bye : List Ev := [sent, got, got]

/-- What a server says to `piece`, `piece`, `eof`, `bye`. -/
def talk : List UInt8 := answers 5 (opening ++ [.data [1, 2], .data [3], .status 1 [] [], .status 0 [] []])

/-! ## C100: whatever a server sends, a transfer stays within its buffers -/

/-- C100, fetching. For every server, local file, and course of events: no copy leaves its buffer, nothing uninitialized is read; the
handle has at most 256 bytes, and what is written to the local file at a time at most 32768. -/
theorem C100_get (A : Args) (c : Chan) (file : List UInt8) (tab : List Slot) (evs : List Ev) (hgh : c.gh = none) :
    (getRun A (getStart c file tab) evs).ph ≠ .ub ∧ (getRun A (getStart c file tab) evs).h.handle.length ≤ 256 ∧
    ∀ d, (getRun A (getStart c file tab) evs).ph = .write d → d.length ≤ 32768 := by
  have h := Proofs.SftpClient.getRun_ok A c file tab evs hgh
  refine ⟨fun hu => ?_, ?_, fun d hd => ?_⟩
  · have := h.ph; rw [hu] at this; exact this
  · have := h.h.2
    show (List.take _ _).length ≤ 256
    simp; omega
  · have := h.ph; rw [hd] at this; exact this

/-- C100, storing. -/
theorem C100_put (A : Args) (file : List UInt8) (c : Chan) (tab : List Slot) (evs : List Ev) (hgh : c.gh = none) :
    (putRun A file (putStart c tab) evs).ph ≠ .ub ∧ (putRun A file (putStart c tab) evs).h.handle.length ≤ 256 ∧
    ∀ w d, (putRun A file (putStart c tab) evs).ph = .write w d → d.length ≤ 32768 := by
  have h := Proofs.SftpClient.putRun_ok A file c tab evs hgh
  refine ⟨fun hu => ?_, ?_, fun w d hd => ?_⟩
  · have := h.ph; rw [hu] at this; exact this
  · have := h.h.2
    show (List.take _ _).length ≤ 256
    simp; omega
  · have := h.ph; rw [hd] at this; exact this.2

/-- `wolfSSH_SFTP_SendReadPacket` called until it is back for good. -/
def readAll (outSz : Nat) (c : Chan) (r : Rd) (evs : List Ev) : Chan × Out Rd Bytes :=
  evs.foldl (fun x ev => match x.2 with
    | .more r => rdStep outSz ev x.1 r
    | .again r => rdStep outSz ev x.1 r
    | _ => x) (c, .more r)

/-- C100, reading at an offset: a buffer of any size is never overrun. -/
theorem C100_read (outSz : Nat) (c : Chan) (request : List UInt8) (evs : List Ev) :
    (readAll outSz c (.send request 0) evs).2 ≠ .ub ∧
    ∀ d, (readAll outSz c (.send request 0) evs).2 = .ret (some d) → d.length ≤ outSz := by
  have h : Proofs.SftpClient.Safe (Proofs.SftpClient.RdOk outSz) (fun d => d.length ≤ outSz) (readAll outSz c (.send request 0) evs).2 := by
    refine Proofs.SftpClient.run_inv _ (fun x : Chan × Out Rd Bytes => Proofs.SftpClient.Safe (Proofs.SftpClient.RdOk outSz)
      (fun d : Bytes => d.length ≤ outSz) x.2) (c, .more (.send request 0)) evs True.intro ?_
    intro x ev hx
    obtain ⟨c, o⟩ := x
    match o with
    | .more r => exact Proofs.SftpClient.rdStep_safe _ _ _ _ hx
    | .again r => exact Proofs.SftpClient.rdStep_safe _ _ _ _ hx
    | .ret a => exact hx
    | .ub => exact hx
  refine ⟨fun hu => ?_, fun d hd => ?_⟩
  · rw [hu] at h; exact h
  · rw [hd] at h; exact h

/-! ## C101: a file that was fetched is the file -/

/-- Where a transfer starts: at the offset saved under these names if it is resumed. -/
def startAt (A : Args) (tab : List Slot) : Nat :=
  if A.resume then (getOfst A.src A.dst tab).1.2 * 2 ^ 32 + (getOfst A.src A.dst tab).1.1 else 0

/-- What is in the local file before the first read: it is emptied unless the transfer is resumed. -/
def startFile (A : Args) (tab : List Slot) (file : List UInt8) : List UInt8 := if startAt A tab = 0 then [] else file

/-- The halves of the saved offsets are words. -/
def TabOk (tab : List Slot) : Prop := ∀ s ∈ tab, s.ofst.1 < 2 ^ 32 ∧ s.ofst.2 < 2 ^ 32

/-- C101, what is opened. At any time, for every server and course of events: the request to open a file that is being sent names the
remote file the application named, for reading. -/
theorem C101_opened (A : Args) (c : Chan) (file : List UInt8) (tab : List Slot) (evs : List Ev) (buf : List UInt8) (idx : Nat)
    (hph : (getRun A (getStart c file tab) evs).ph = .open (.send buf idx)) : ∃ id, buf = (Request.open A.src 1).packet id := by
  have h := Proofs.SftpClient.getRun_opens A c file tab evs
  rw [hph] at h
  obtain ⟨id, h⟩ := h
  exact ⟨id, by rw [h, Proofs.SftpClient.openPacket_eq]⟩

example : (getRun names (getStart (chan talk) [9] [{}, {}, {}]) [sent, got, got]).ph = .open (.send ((Request.open [114] 1).packet 6) 0) := by
  decide +kernel

/-- C101, where is read. At any time, for every server and course of events: the request that is being sent asks for 32768 bytes at
the start of this fetch plus what it has written to the local file, with the handle the server gave. -/
theorem C101_offsets (A : Args) (c : Chan) (file : List UInt8) (tab : List Slot) (evs : List Ev) (hgh : c.gh = none) (htab : TabOk tab)
    (buf : List UInt8) (idx : Nat) (hph : (getRun A (getStart c file tab) evs).ph = .read (.send buf idx)) :
    ∃ w id before, (getRun A (getStart c file tab) evs).file = startFile A tab file ++ w ∧
      buf = (Request.read (getRun A (getStart c file tab) evs).h.handle ((startAt A tab + w.length) % 2 ^ 64) 32768).packet id ∧
      (getRun A (getStart c file tab) evs).c.out = before ++ buf.take idx := by
  obtain ⟨h1, h2, hp⟩ := Proofs.SftpClient.getRun_inv A c file tab evs hgh htab
  rw [hph] at hp
  obtain ⟨⟨w, hw⟩, _, id, out, hb, _, ho⟩ := hp
  refine ⟨w, id, out, hw.1, ?_, ho⟩
  rw [hb, Proofs.SftpClient.readPacket_eq _ _ _ _ h1, hw.2]
  rfl

/-- C101, the part that holds. The server describes a regular file (or a link), gives a handle, answers reads with pieces of at most
32768 bytes and then with "end of file". A fetch that succeeds without being interrupted has appended these pieces to what it started
from, and nothing else; until then, and if it fails, the local file is untouched or a beginning of that. However the replies are cut -
except, which is missing, for the length of a piece: its four bytes must come at once, see below. -/
theorem C101_partial (A : Args) (c : Chan) (file : List UInt8) (tab : List Slot) (evs : List Ev)
    (a : Attrs) (h : List UInt8) (ps : List (List UInt8)) (m l rest : List UInt8)
    (ha : a.Fits) (hper : Fetchable a) (hh : h.length ≤ 256) (hps : ∀ p ∈ ps, 0 < p.length ∧ p.length ≤ 32768)
    (hs : (Reply.status 1 m l).body.length < 2 ^ 31) (hgh : c.gh = none) (htab : TabOk tab) (hid : c.reqId < 2 ^ 32)
    (hin : c.inp = answers c.reqId (.attrs a :: .handle h :: (ps.map .data ++ [.status 1 m l])) ++ rest)
    (hk : ∀ pre k err junk post, evs = pre ++ .stream (.ok k) err junk :: post →
      (getRun A (getStart c file tab) pre).ph = .read .flat → 4 ≤ k) :
    ((getRun A (getStart c file tab) evs).ph = .done true →
      (∃ dn, dn <+: ps ∧ (getRun A (getStart c file tab) evs).file = startFile A tab file ++ dn.flatten) ∧
      (c.int = false → (∀ ev ∈ evs, ev.interrupts = false) →
        (getRun A (getStart c file tab) evs).file = startFile A tab file ++ ps.flatten)) ∧
    ((getRun A (getStart c file tab) evs).file = file ∨
      (getRun A (getStart c file tab) evs).file <+: startFile A tab file ++ ps.flatten) := by
  obtain ⟨p, hp1, hp2⟩ := hper
  let V : Proofs.SftpClient.Conv := ⟨a, p, h, ps, m, l, rest⟩
  have hV : V.Ok := ⟨ha, hp1, Proofs.SftpClient.kind_of hp2, hh, hps, hs⟩
  have hr0 : c.inp = V.r0 c.reqId := by
    rw [hin]
    simp only [Proofs.SftpClient.Conv.r0, Proofs.SftpClient.Conv.r1, Proofs.SftpClient.Conv.rem, answers, List.append_assoc, V]
  have hub := (C100_get A c file tab evs hgh).1
  have hrun := fun (I : Prop) h1 h2 => Proofs.SftpClient.getRun_conv (I := I) hV A c file tab evs hgh htab hid hr0 h1 h2 hk
  generalize getRun A (getStart c file tab) evs = g at hub hrun ⊢
  refine ⟨fun hd => ⟨?_, fun h1 h2 => ?_⟩, ?_⟩
  · have := (hrun True (fun _ => True.intro) (fun _ => True.intro)).ph
    rw [hd] at this
    obtain ⟨dn, t, e1, e2, _⟩ := this
    exact ⟨dn, ⟨t, e1.symm⟩, e2⟩
  · have := (hrun False (fun ⟨ev, he, hi⟩ => by rw [h2 ev he] at hi; cases hi) (fun hi => by rw [h1] at hi; cases hi)).ph
    rw [hd] at this
    obtain ⟨dn, t, e1, e2, e3⟩ := this
    rw [e3 id, List.append_nil] at e1
    rw [e2, ← e1]
    rfl
  · have := (hrun True (fun _ => True.intro) (fun _ => True.intro)).ph
    have pre : ∀ dn t, V.ps = dn ++ t → g.file = Proofs.SftpClient.baseFile A tab file ++ dn.flatten →
        g.file <+: startFile A tab file ++ ps.flatten := by
      intro dn t e1 e2
      refine ⟨t.flatten, ?_⟩
      rw [e2, List.append_assoc, ← List.flatten_append, ← e1]
      rfl
    cases hph : g.ph with
    | stat s => rw [hph] at this; exact .inl this.2.1
    | «open» s => rw [hph] at this; exact .inl this.2.1
    | «local» => rw [hph] at this; exact .inl this.2.1
    | read r => rw [hph] at this; obtain ⟨dn, t, e1, e2, _⟩ := this; exact .inr (pre dn t e1 e2)
    | write r => rw [hph] at this; obtain ⟨dn, t, e1, e2, _⟩ := this; exact .inr (pre dn t e1 e2)
    | close r => rw [hph] at this; obtain ⟨dn, t, e1, e2, _⟩ := this; exact .inr (pre dn t e1 e2)
    | ub => exact absurd hph hub
    | done b =>
      rw [hph] at this
      cases b with
      | true => obtain ⟨dn, t, e1, e2, _⟩ := this; exact .inr (pre dn t e1 e2)
      | false =>
        rcases this with h | ⟨dn, d, t, n, ⟨e1, e2⟩ | ⟨e1, e2⟩⟩
        · exact .inl h
        · refine .inr ⟨d.drop n ++ t.flatten, ?_⟩
          rw [e2, show ps = dn ++ d :: t from e1]
          show Proofs.SftpClient.baseFile A tab file ++ dn.flatten ++ d.take n ++ (d.drop n ++ t.flatten) = Proofs.SftpClient.baseFile A tab file ++ _
          have : d.take n ++ (d.drop n ++ t.flatten) = d ++ t.flatten := by rw [← List.append_assoc, List.take_append_drop]
          rw [List.append_assoc, this]
          simp
        · exact .inr (pre dn [] (by rw [e1]; simp) e2)

/-- C101: such a fetch that is not resumed makes the local file the remote one. -/
theorem C101_whole_partial (A : Args) (c : Chan) (file : List UInt8) (tab : List Slot) (evs : List Ev)
    (a : Attrs) (h : List UInt8) (ps : List (List UInt8)) (m l rest remote : List UInt8)
    (ha : a.Fits) (hper : Fetchable a) (hh : h.length ≤ 256) (hps : ∀ p ∈ ps, 0 < p.length ∧ p.length ≤ 32768)
    (hs : (Reply.status 1 m l).body.length < 2 ^ 31) (hgh : c.gh = none) (htab : TabOk tab) (hid : c.reqId < 2 ^ 32)
    (hin : c.inp = answers c.reqId (.attrs a :: .handle h :: (ps.map .data ++ [.status 1 m l])) ++ rest)
    (hk : ∀ pre k err junk post, evs = pre ++ .stream (.ok k) err junk :: post →
      (getRun A (getStart c file tab) pre).ph = .read .flat → 4 ≤ k)
    (hres : A.resume = false) (hint : c.int = false) (hev : ∀ ev ∈ evs, ev.interrupts = false) (hremote : ps.flatten = remote)
    (hdone : (getRun A (getStart c file tab) evs).ph = .done true) : (getRun A (getStart c file tab) evs).file = remote := by
  have := ((C101_partial A c file tab evs a h ps m l rest ha hper hh hps hs hgh htab hid hin hk).1 hdone).2 hint hev
  rw [this, hremote]
  unfold startFile startAt
  rw [hres]
  simp

example : (getRun names (getStart (chan talk) [9] noOfst) (upTo ++ piece ++ piece ++ eof ++ bye)).ph = .done true ∧
    (getRun names (getStart (chan talk) [9] noOfst) (upTo ++ piece ++ piece ++ eof ++ bye)).file = [1, 2, 3] := by decide +kernel

example : ({ perm := some 0o100644 } : Attrs).Fits ∧ Fetchable { perm := some 0o100644 } :=
  ⟨⟨by simp, by simp, by simp, by simp⟩, 0o100644, rfl, .inl (by decide)⟩

example : (getRun names (getStart (chan talk) [9] noOfst) (upTo ++ piece)).ph =
    .read (.send ((Request.read [7, 7] 2 32768).packet 8) 0) := by decide +kernel

/-- C101, what is missing: the length of a piece is read once, however few of its bytes are there. Of the piece `[1, 2]` one byte of
the length has come when it is read; what is left of it is taken for data, and the fetch ends in success with another file. -/
theorem C101_cut_length : ∃ evs, (getRun names (getStart (chan (answers 5 (opening ++ [.data [1, 2]]) ++ answers 8 [.status 1 [] [], .status 0 [] []]))
      [] noOfst) evs).ph = .done true ∧
    (getRun names (getStart (chan (answers 5 (opening ++ [.data [1, 2]]) ++ answers 8 [.status 1 [] [], .status 0 [] []])) [] noOfst) evs).file =
      [0, 0, 2, 1, 2] := by
  refine ⟨upTo ++ [sent, got, .stream (.ok 1) none [0, 0, 0, 5], flow, .file 1000] ++ eof ++ bye, ?_⟩
  decide +kernel

/-- C101: a fetch believes any packet without a body where data or a status should be: here the server sends a header only, and the
empty file is a success. -/
theorem C101_empty_packet : ∃ evs, (getRun names (getStart (chan (answers 5 opening ++ encUint32 5 ++ [103] ++ encUint32 7 ++
      answers 7 [.status 0 [] []])) [9] noOfst) evs).ph = .done true ∧
    (getRun names (getStart (chan (answers 5 opening ++ encUint32 5 ++ [103] ++ encUint32 7 ++ answers 7 [.status 0 [] []])) [9] noOfst) evs).file =
      [] := by
  refine ⟨upTo ++ [sent, got, .file 0] ++ bye, ?_⟩
  decide +kernel

/-! ## C102: a file that was stored is the file -/

/-- After some write request, or in the middle of it, the store went on neither with it nor with the next piece: the write failed, was
refused, or an interrupt came. -/
def WriteFails (A : Args) (file : List UInt8) (p : Put) (evs : List Ev) : Prop :=
  ∃ pre ev post w d, evs = pre ++ ev :: post ∧ (putRun A file p pre).ph = .write w d ∧
    Proofs.SftpClient.PutPh.loop (putRun A file p (pre ++ [ev])).ph = false

/-- Reading the local file comes to nothing before its end. -/
def ReadFails (A : Args) (file : List UInt8) (p : Put) (evs : List Ev) : Prop :=
  ∃ pre post, evs = pre ++ .file 0 :: post ∧ (putRun A file p pre).ph = .fill ∧ (putRun A file p pre).pos < file.length

/-- C102, what is sent. For every server and course of events: when a store has come back with success, it has sent a request to open
the file, then write requests that carry the local file over piece by piece from where it started, each where the last one ended or
the last one once more, maybe a beginning of one more, and requests to close. -/
theorem C102_sent (A : Args) (file : List UInt8) (c : Chan) (tab : List Slot) (evs : List Ev) (hfile : file.length < 2 ^ 64)
    (htab : TabOk tab) (hgh : c.gh = none) (hpkt : c.pkt = none) (hdone : (putRun A file (putStart c tab) evs).ph = .done true) :
    ∃ (hnd : List UInt8) (id : Nat) (ws : List (Nat × Nat × List UInt8)) (part : List UInt8) (cl : List (Nat × Request)) (pos : Nat),
      (putRun A file (putStart c tab) evs).c.out = c.out ++ requests ((id, .open A.dst 0x1A) :: ws.map fun w => (w.1, .write hnd w.2.1 w.2.2)) ++
        part ++ requests cl ∧
      Pieces file (startAt A tab) (ws.map Prod.snd) pos ∧
      (part = [] ∨ ∃ i w pos', Pieces file (startAt A tab) (ws.map Prod.snd ++ [w]) pos' ∧ part <+: (Request.write hnd w.1 w.2).packet i) ∧
      (∀ x ∈ cl, x.2 = .close hnd) ∧ (hnd ≠ [] → cl ≠ []) := by
  have h := (Proofs.SftpClient.putRun_inv A file c tab evs hfile htab hgh hpkt).ph
  rw [hdone] at h
  obtain ⟨id, ws, part, cl, h1, h2, h3, q, h4, h5, _⟩ := h
  refine ⟨_, id, ws, part, cl, q, h1, h4, ?_, h2, h3⟩
  rcases h5 with h5 | ⟨w, q', h6, h7⟩
  · exact .inl h5
  · exact .inr ⟨w.1, w.2, q', h6, h7⟩

/-- C102, the part that holds. If every write has been answered with success, no interrupt has come, and reading the local file has
not failed, then a store that succeeds and is not resumed has sent exactly a request to open the file and empty it, writes that make
an empty file the local one, and requests to close. Missing: failed writes, failed reads, resumed stores, see below. -/
theorem C102_partial (A : Args) (file : List UInt8) (c : Chan) (tab : List Slot) (evs : List Ev) (hfile : file.length < 2 ^ 64)
    (htab : TabOk tab) (hgh : c.gh = none) (hpkt : c.pkt = none) (hdone : (putRun A file (putStart c tab) evs).ph = .done true)
    (hw : ¬ WriteFails A file (putStart c tab) evs) (hr : ¬ ReadFails A file (putStart c tab) evs) (hstart : startAt A tab = 0) :
    ∃ (hnd : List UInt8) (id : Nat) (ws : List (Nat × Nat × List UInt8)) (cl : List (Nat × Request)),
      (putRun A file (putStart c tab) evs).c.out =
        c.out ++ requests ((id, .open A.dst 0x1A) :: (ws.map fun w => (w.1, .write hnd w.2.1 w.2.2)) ++ cl) ∧
      store [] (ws.map Prod.snd) = file ∧ (∀ x ∈ cl, x.2 = .close hnd) := by
  have h := (Proofs.SftpClient.putRun_inv A file c tab evs hfile htab hgh hpkt).ph
  rw [hdone] at h
  obtain ⟨id, ws, part, cl, h1, h2, h3, q, h4, h5, h6⟩ := h
  obtain ⟨hp, h6⟩ := h6 hw
  have h7 := h6 hr
  refine ⟨_, id, ws, cl, ?_, ?_, h2⟩
  · rw [h1, hp, List.append_nil]
    simp only [Proofs.SftpClient.base, requests, List.flatMap_append, List.append_assoc]
    rfl
  · have hs0 : Proofs.SftpClient.start A tab = 0 := hstart
    rw [hs0] at h4
    obtain ⟨_, g1, g2⟩ := Proofs.SftpClient.pieces_store h4
    by_cases hn : ws.map Prod.snd = []
    · rw [hn]
      have := g1 hn
      have : file.length = 0 := by omega
      rw [List.length_eq_zero_iff] at this
      rw [this]; rfl
    · rw [(g2 hn).2]
      simp only [List.replicate_zero, List.nil_append, List.drop_zero, Nat.sub_zero]
      exact List.take_of_length_le h7

/-- C102, what is missing, resumed stores: the request to open empties the remote file all the same (0x1A is write, create, truncate).
If all goes well, what was stored before the resumed one is zeros now. -/
theorem C102_resumed (A : Args) (file : List UInt8) (c : Chan) (tab : List Slot) (evs : List Ev) (hfile : file.length < 2 ^ 64)
    (htab : TabOk tab) (hgh : c.gh = none) (hpkt : c.pkt = none) (hdone : (putRun A file (putStart c tab) evs).ph = .done true)
    (hw : ¬ WriteFails A file (putStart c tab) evs) (hr : ¬ ReadFails A file (putStart c tab) evs)
    (hstart : startAt A tab < file.length) :
    ∃ (hnd : List UInt8) (id : Nat) (ws : List (Nat × Nat × List UInt8)) (cl : List (Nat × Request)),
      (putRun A file (putStart c tab) evs).c.out =
        c.out ++ requests ((id, .open A.dst 0x1A) :: (ws.map fun w => (w.1, .write hnd w.2.1 w.2.2)) ++ cl) ∧
      store [] (ws.map Prod.snd) = List.replicate (startAt A tab) 0 ++ file.drop (startAt A tab) := by
  have h := (Proofs.SftpClient.putRun_inv A file c tab evs hfile htab hgh hpkt).ph
  rw [hdone] at h
  obtain ⟨id, ws, part, cl, h1, h2, h3, q, h4, h5, h6⟩ := h
  obtain ⟨hp, h6⟩ := h6 hw
  have h7 := h6 hr
  refine ⟨(putRun A file (putStart c tab) evs).h.handle, id, ws, cl, ?_, ?_⟩
  · rw [h1, hp, List.append_nil]
    simp only [Proofs.SftpClient.base, requests, List.flatMap_append, List.append_assoc]
    rfl
  · have hs0 : Proofs.SftpClient.start A tab = startAt A tab := rfl
    rw [hs0] at h4
    obtain ⟨_, g1, g2⟩ := Proofs.SftpClient.pieces_store h4
    have hn : ws.map Prod.snd ≠ [] := by
      intro hn
      have := g1 hn
      omega
    rw [(g2 hn).2, List.take_of_length_le]
    simp; omega

/-- Storing: up to the first write, a write, the end of the file. -/
def upTo' : List Ev := [.local false true true, sent, got, got]
def chunk (n : Nat) : List Ev := [.file n, sent, .body (.ok 1000) none none, got, got]

/-- A server that takes two writes. -/
def taker : List UInt8 := answers 5 [.handle [7, 7], .status 0 [] [], .status 0 [] [], .status 0 [] []]

example : (putRun names [1, 2, 3] (putStart (chan taker) noOfst) (upTo' ++ chunk 2 ++ chunk 2 ++ [.file 0] ++ bye)).ph = .done true ∧
    (putRun names [1, 2, 3] (putStart (chan taker) noOfst) (upTo' ++ chunk 2 ++ chunk 2 ++ [.file 0] ++ bye)).c.out =
      requests [(5, .open [108] 0x1A), (6, .write [7, 7] 0 [1, 2]), (7, .write [7, 7] 2 [3]), (8, .close [7, 7])] ∧
    store [] [(0, [1, 2]), (2, [3])] = [1, 2, 3] := by decide +kernel

/-- In this store no write and no read fails. -/
def stored : List Ev := upTo' ++ chunk 2 ++ chunk 2 ++ [.file 0] ++ bye

def busy : PutPh → Bool
  | .write _ _ => true
  | _ => false

example : ¬ WriteFails names [1, 2, 3] (putStart (chan taker) noOfst) stored ∧ ¬ ReadFails names [1, 2, 3] (putStart (chan taker) noOfst) stored := by
  have h1 : ∀ i, i < stored.length → busy (putRun names [1, 2, 3] (putStart (chan taker) noOfst) (stored.take i)).ph = true →
      Proofs.SftpClient.PutPh.loop (putRun names [1, 2, 3] (putStart (chan taker) noOfst) (stored.take (i + 1))).ph = true := by decide +kernel
  have h2 : ∀ i, i < stored.length → (putRun names [1, 2, 3] (putStart (chan taker) noOfst) (stored.take i)).ph = .fill →
      (putRun names [1, 2, 3] (putStart (chan taker) noOfst) (stored.take i)).pos < 3 → i ≠ 14 := by decide +kernel
  have h3 : ∀ i, i < stored.length → (match stored[i]? with | some (.file 0) => true | _ => false) = true → i = 14 := by decide +kernel
  refine ⟨?_, ?_⟩
  · rintro ⟨pre, ev, post, w, d, he, e1, e2⟩
    have hl : pre.length < stored.length := by rw [he]; simp
    have ht : stored.take pre.length = pre := by rw [he]; simp
    have ht' : stored.take (pre.length + 1) = pre ++ [ev] := by
      rw [he, List.take_append, List.take_of_length_le (by omega)]; simp
    have := h1 pre.length hl (by rw [ht, e1]; rfl)
    rw [ht', e2] at this
    cases this
  · rintro ⟨pre, post, he, e1, e2⟩
    have hl : pre.length < stored.length := by rw [he]; simp
    have ht : stored.take pre.length = pre := by rw [he]; simp
    have := h3 pre.length hl (by rw [he]; simp)
    exact h2 pre.length hl (by rw [ht]; exact e1) (by rw [ht]; exact e2) this

/-- C102, what is missing, refused writes: the server answers the first write with "failure" (4); the store ends in success. -/
theorem C102_refused : ∃ evs, (putRun names [1, 2, 3] (putStart (chan (answers 5 [.handle [7, 7], .status 4 [] [], .status 0 [] []])) noOfst) evs).ph =
      .done true ∧
    (putRun names [1, 2, 3] (putStart (chan (answers 5 [.handle [7, 7], .status 4 [] [], .status 0 [] []])) noOfst) evs).c.out =
      requests [(5, .open [108] 0x1A), (6, .write [7, 7] 0 [1, 2]), (7, .close [7, 7])] := by
  refine ⟨upTo' ++ chunk 2 ++ bye, ?_⟩
  decide +kernel

/-- C102, what is missing, failed reads: an error reading the local file is taken for its end. -/
theorem C102_unread : ∃ evs, (putRun names [1, 2, 3] (putStart (chan taker) noOfst) evs).ph = .done true ∧
    (putRun names [1, 2, 3] (putStart (chan taker) noOfst) evs).c.out =
      requests [(5, .open [108] 0x1A), (6, .write [7, 7] 0 [1, 2]), (7, .close [7, 7])] := by
  refine ⟨upTo' ++ chunk 2 ++ [.file 0] ++ bye, ?_⟩
  decide +kernel

/-- C102: a resumed store of three bytes, two of which had been stored: the remote file ends up as `[0, 0, 3]`. -/
theorem C102_resumed_case : ∃ evs,
    (putRun { names with resume := true } [1, 2, 3] (putStart (chan (answers 5 [.handle [7, 7], .status 0 [] [], .status 0 [] []]))
      [⟨(2, 0), [114], [108]⟩]) evs).ph = .done true ∧
    (putRun { names with resume := true } [1, 2, 3] (putStart (chan (answers 5 [.handle [7, 7], .status 0 [] [], .status 0 [] []]))
      [⟨(2, 0), [114], [108]⟩]) evs).c.out =
      requests [(5, .open [108] 0x1A), (6, .write [7, 7] 2 [3]), (7, .close [7, 7])] ∧
    store [] [(2, [3])] = [0, 0, 3] := by
  refine ⟨upTo' ++ chunk 2 ++ [.file 0] ++ bye, ?_⟩
  decide +kernel

/-! ## C103: an interrupted fetch can be resumed -/

/-- No offset is saved under these names. -/
def Unsaved (src dst : List UInt8) (tab : List Slot) : Prop := ∀ s ∈ tab, s.src = src → s.dst = dst → s.ofst = (0, 0)

/-- C103, the saved offsets: an offset saved under names that have none, and fit, is found if there is a free slot; if there is none
nothing changes. -/
theorem C103_save_partial (src dst : List UInt8) (ofst : Nat × Nat) (tab : List Slot) (hf : Unsaved src dst tab) :
    ((saveOfst src dst ofst tab).2 = true → (getOfst src dst (saveOfst src dst ofst tab).1).1 = ofst) ∧
    ((saveOfst src dst ofst tab).2 = false → (saveOfst src dst ofst tab).1 = tab) ∧
    (src.length < 256 → dst.length < 256 → (∃ s ∈ tab, s.ofst = (0, 0)) → (saveOfst src dst ofst tab).2 = true) := by
  refine ⟨fun h => ?_, fun h => ?_, fun h1 h2 h3 => Proofs.SftpClient.saveOfst_room h1 h2 h3⟩
  · rcases Proofs.SftpClient.saveOfst_cases (ofst := ofst) hf with ⟨h1, _⟩ | ⟨_, h2⟩
    · rw [h] at h1; cases h1
    · exact h2
  · rcases Proofs.SftpClient.saveOfst_cases (ofst := ofst) hf with ⟨_, h1⟩ | ⟨h2, _⟩
    · exact h1
    · rw [h] at h2; cases h2

example : Unsaved [114] [108] noOfst ∧ (saveOfst [114] [108] (2, 0) noOfst).2 = true := by
  refine ⟨?_, rfl⟩
  intro s hs _ _
  simp [noOfst] at hs
  rw [hs]

/-- C103, the part that holds. A fetch ends in success, maybe interrupted; no offset was saved under its names before. Then one that
resumes it reads, at any time, where the local file ends (or it starts over): whatever it asks for belongs behind what is there. -/
theorem C103_resume_partial (A : Args) (c c' : Chan) (file : List UInt8) (tab : List Slot) (evs evs' : List Ev) (hgh : c.gh = none)
    (hgh' : c'.gh = none) (htab : TabOk tab) (hf : Unsaved A.src A.dst tab) (g g' : Get) (hg : g = getRun A (getStart c file tab) evs)
    (hdone : g.ph = .done true) (hg' : g' = getRun { A with resume := true } (getStart c' g.file g.tab) evs')
    (buf : List UInt8) (idx : Nat) (hph : g'.ph = .read (.send buf idx)) :
    ∃ id, buf = (Request.read g'.h.handle (g'.file.length % 2 ^ 64) 32768).packet id := by
  subst hg
  obtain ⟨h1, h2⟩ := Proofs.SftpClient.after_get (Proofs.SftpClient.getRun_inv A c file tab evs hgh htab) hdone htab hf
  subst hg'
  obtain ⟨w, id, _, e1, e2, _⟩ := C101_offsets { A with resume := true } c' _ _ evs' hgh' h1 buf idx hph
  refine ⟨id, ?_⟩
  rw [e2, e1]
  congr 2
  unfold startFile
  change (Proofs.SftpClient.start _ _ + _) % _ = (List.length ((if Proofs.SftpClient.start _ _ = 0 then _ else _) ++ _)) % _
  by_cases hz : Proofs.SftpClient.start { A with resume := true } (getRun A (getStart c file tab) evs).tab = 0
  · rw [hz, if_pos rfl]; simp
  · rw [if_neg hz]
    rcases h2 with h2 | h2
    · exact absurd h2 hz
    · rw [h2, List.length_append]
      omega

/-- C103: so if the local file is a beginning of the remote one, and the server answers the resumed fetch with the remote file from
the offset it is asked for, the local file is the remote one when it is done. -/
theorem C103_complete_partial (A : Args) (c c' : Chan) (file : List UInt8) (tab : List Slot) (evs evs' : List Ev) (hgh : c.gh = none)
    (hgh' : c'.gh = none) (htab : TabOk tab) (hf : Unsaved A.src A.dst tab) (g g' : Get) (hg : g = getRun A (getStart c file tab) evs)
    (hdone : g.ph = .done true) (hg' : g' = getRun { A with resume := true } (getStart c' g.file g.tab) evs')
    (remote : List UInt8) (hlen : remote.length < 2 ^ 64) (hpre : g.file <+: remote)
    (a : Attrs) (h : List UInt8) (ps : List (List UInt8)) (m l rest : List UInt8)
    (ha : a.Fits) (hper : Fetchable a) (hh : h.length ≤ 256) (hps : ∀ p ∈ ps, 0 < p.length ∧ p.length ≤ 32768)
    (hs : (Reply.status 1 m l).body.length < 2 ^ 31) (hid : c'.reqId < 2 ^ 32)
    (hin : c'.inp = answers c'.reqId (.attrs a :: .handle h :: (ps.map .data ++ [.status 1 m l])) ++ rest)
    (hk : ∀ pre k err junk post, evs' = pre ++ .stream (.ok k) err junk :: post →
      (getRun { A with resume := true } (getStart c' g.file g.tab) pre).ph = .read .flat → 4 ≤ k)
    (hint : c'.int = false) (hev : ∀ ev ∈ evs', ev.interrupts = false)
    (hremote : ps.flatten = remote.drop (startAt { A with resume := true } g.tab)) (hdone' : g'.ph = .done true) : g'.file = remote := by
  subst hg
  obtain ⟨h1, h2⟩ := Proofs.SftpClient.after_get (Proofs.SftpClient.getRun_inv A c file tab evs hgh htab) hdone htab hf
  subst hg'
  have := ((C101_partial { A with resume := true } c' _ _ evs' a h ps m l rest ha hper hh hps hs hgh' h1 hid hin hk).1 hdone').2 hint hev
  rw [this, hremote]
  unfold startFile
  change _ = 0 ∨ startAt _ _ = _ at h2
  by_cases hz : startAt { A with resume := true } (getRun A (getStart c file tab) evs).tab = 0
  · rw [hz, if_pos rfl]; simp
  · rw [if_neg hz]
    rcases h2 with h2 | h2
    · exact absurd h2 hz
    · obtain ⟨t, rfl⟩ := hpre
      have hl : (getRun A (getStart c file tab) evs).file.length < 2 ^ 64 := by simp at hlen; omega
      rw [h2, Nat.mod_eq_of_lt hl]
      simp

example : (getRun names (getStart (chan talk) [] noOfst) (upTo ++ [.interrupt] ++ piece ++ bye)).file = [1, 2] ∧
    (getRun names (getStart (chan talk) [] noOfst) (upTo ++ [.interrupt] ++ piece ++ bye)).tab = [⟨(2, 0), [114], [108]⟩, {}, {}] := by
  decide +kernel

example : (getRun { names with resume := true } (getStart (chan (answers 5 (opening ++ [.data [3], .status 1 [] [], .status 0 [] []])))
      [1, 2] [⟨(2, 0), [114], [108]⟩, {}, {}]) upTo).ph = .read (.send ((Request.read [7, 7] 2 32768).packet 7) 0) ∧
    (getRun { names with resume := true } (getStart (chan (answers 5 (opening ++ [.data [3], .status 1 [] [], .status 0 [] []])))
      [1, 2] [⟨(2, 0), [114], [108]⟩, {}, {}]) (upTo ++ piece ++ eof ++ bye)).file = [1, 2, 3] := by
  decide +kernel

/-- C103, what is missing: a fetch that is started over instead of being resumed, and interrupted again, leaves both offsets; the
older one is found. Here two bytes have been fetched, then three; the resumed fetch of a file of four bytes appends the third once
more. -/
theorem C103_older : ∃ evs evs' evs'',
    let g := getRun names (getStart (chan (answers 5 (opening ++ [.data [1, 2], .status 0 [] []]))) [] noOfst) evs
    let g' := getRun names (getStart (chan (answers 5 (opening ++ [.data [1, 2, 3], .status 0 [] []]))) g.file g.tab) evs'
    let g'' := getRun { names with resume := true }
      (getStart (chan (answers 5 (opening ++ [.data [3, 4], .status 1 [] [], .status 0 [] []]))) g'.file g'.tab) evs''
    g.ph = .done true ∧ g.file = [1, 2] ∧ g'.ph = .done true ∧ g'.file = [1, 2, 3] ∧ g''.ph = .done true ∧ g''.file = [1, 2, 3, 3, 4] := by
  refine ⟨upTo ++ [.interrupt] ++ piece ++ bye, upTo ++ [.interrupt] ++ piece ++ bye, upTo ++ piece ++ eof ++ bye, ?_⟩
  decide +kernel

/-! ## C104: requests go out whole, once, in order -/

/-- C104, storing, at any time but after a failure: requests, and a beginning of one more. After a write that has failed a part of
that one may be followed by requests to close. -/
theorem C104_put_partial (A : Args) (file : List UInt8) (c : Chan) (tab : List Slot) (evs : List Ev) (hfile : file.length < 2 ^ 64)
    (htab : TabOk tab) (hgh : c.gh = none) (hpkt : c.pkt = none) (hph : (putRun A file (putStart c tab) evs).ph ≠ .done false)
    (hw : ¬ WriteFails A file (putStart c tab) evs) :
    ∃ rs part, (putRun A file (putStart c tab) evs).c.out = c.out ++ requests rs ++ part ∧
      (part = [] ∨ ∃ id r, part <+: Request.packet id r) := by
  have hI := Proofs.SftpClient.putRun_inv A file c tab evs hfile htab hgh hpkt
  have h := hI.ph
  have hub := (C100_put A file c tab evs hgh).1
  generalize putRun A file (putStart c tab) evs = p at hI h hub hph ⊢
  cases hp : p.ph with
  | «local» =>
    rw [hp] at h
    exact ⟨[], [], by rw [h.1]; simp [requests], .inl rfl⟩
  | «open» o =>
    rw [hp] at h
    obtain ⟨⟨id, h1⟩, _⟩ := h
    rw [Proofs.SftpClient.openPacket_eq] at h1
    cases o with
    | send b idx =>
      obtain ⟨_, _, h2, _⟩ := h1
      exact ⟨[], ((Request.open A.dst Wolf.SftpClient.PUT_FLAGS).packet id).take idx, by rw [h2]; simp [requests], .inr ⟨id, _, List.take_prefix _ _⟩⟩
    | get => exact ⟨[(id, .open A.dst Wolf.SftpClient.PUT_FLAGS)], [], by rw [h1.1]; simp [requests], .inl rfl⟩
  | fill =>
    rw [hp] at h
    obtain ⟨id, ws, _, h1, _⟩ := h
    exact ⟨_, [], by rw [h1, List.append_nil]; rfl, .inl rfl⟩
  | write w d =>
    rw [hp] at h
    obtain ⟨id, ws, _, h1, _⟩ := h
    obtain ⟨i, part, h2, h3⟩ := h1.part
    rw [Proofs.SftpClient.writeHead_eq _ _ _ _ hI.lo] at h3
    exact ⟨_, part, by rw [h2]; rfl, .inr ⟨i, _, h3⟩⟩
  | close s =>
    rw [hp] at h
    obtain ⟨id, ws, part, h1, q, _, _, h2⟩ := h
    rw [(h2 hw).1, List.append_nil] at h1
    have closed : Proofs.SftpClient.Closed (Proofs.SftpClient.base A c.out p.h.handle id ws) p.h.handle p.c →
        ∃ rs part, p.c.out = c.out ++ requests rs ++ part ∧ (part = [] ∨ ∃ id r, part <+: Request.packet id r) := by
      rintro ⟨cl, _, _, h4, _⟩
      refine ⟨((id, .open A.dst Wolf.SftpClient.PUT_FLAGS) :: ws.map (Proofs.SftpClient.wreq p.h.handle)) ++ cl, [], ?_, .inl rfl⟩
      rw [h4]
      simp only [Proofs.SftpClient.base, requests, List.flatMap_append, List.append_assoc, List.append_nil]
    cases s with
    | send =>
      obtain ⟨cl, _, h4⟩ := h1
      cases hk : p.c.pkt with
      | none =>
        rw [hk] at h4
        refine ⟨((id, .open A.dst Wolf.SftpClient.PUT_FLAGS) :: ws.map (Proofs.SftpClient.wreq p.h.handle)) ++ cl, [], ?_, .inl rfl⟩
        simp only at h4
        rw [h4]
        simp only [Proofs.SftpClient.base, requests, List.flatMap_append, List.append_assoc, List.append_nil]
      | some x =>
        obtain ⟨b, i⟩ := x
        rw [hk] at h4
        obtain ⟨id', h5, _, h6⟩ := h4
        rw [Proofs.SftpClient.closePacket_eq] at h5
        refine ⟨((id, .open A.dst Wolf.SftpClient.PUT_FLAGS) :: ws.map (Proofs.SftpClient.wreq p.h.handle)) ++ cl, b.take i, ?_,
          .inr ⟨id', _, by rw [h5]; exact List.take_prefix _ _⟩⟩
        rw [h6]
        simp only [Proofs.SftpClient.base, requests, List.flatMap_append, List.append_assoc]
    | head got => exact closed h1
    | status sz got => exact closed h1
  | done b =>
    cases b with
    | false => exact absurd hp hph
    | true =>
      rw [hp] at h
      obtain ⟨id, ws, part, cl, h1, _, _, q, _, _, h2⟩ := h
      rw [(h2 hw).1, List.append_nil] at h1
      refine ⟨((id, .open A.dst Wolf.SftpClient.PUT_FLAGS) :: ws.map (Proofs.SftpClient.wreq p.h.handle)) ++ cl, [], ?_, .inl rfl⟩
      rw [h1]
      simp only [Proofs.SftpClient.base, requests, List.flatMap_append, List.append_assoc, List.append_nil]
  | ub => exact absurd hp hub

example : (putRun names [1, 2, 3] (putStart (chan taker) noOfst) (upTo' ++ [.file 2, sent, .body (.ok 0) none none])).c.out =
    requests [(5, .open [108] 0x1A)] ++ ((Request.write [7, 7] 0 [1, 2]).packet 6).dropLast := by decide +kernel

/-- C104, what is missing: the channel fails while the data of a write goes out, and works again. The request to close follows in the
middle of the write: the server takes it for data. The store ends in success. -/
theorem C104_cut_write : ∃ evs, (putRun names [1, 2, 3] (putStart (chan (answers 5 [.handle [7, 7], .status 0 [] []])) noOfst) evs).ph = .done true ∧
    (putRun names [1, 2, 3] (putStart (chan (answers 5 [.handle [7, 7], .status 0 [] []])) noOfst) evs).c.out =
      requests [(5, .open [108] 0x1A)] ++ ((Request.write [7, 7] 0 [1, 2]).packet 6).dropLast ++ (Request.close [7, 7]).packet 6 := by
  refine ⟨upTo' ++ [.file 2, sent, .body (.ok 0) none none, .body (.error .fatal) (some .fatal) none] ++ bye, ?_⟩
  decide +kernel

/-- C104, what is missing: a request to close that is sent while the channel has more to send is sent again. -/
theorem C104_closed_twice : ∃ evs, (putRun names [] (putStart (chan (answers 5 [.handle [7, 7], .status 0 [] []])) noOfst) evs).ph = .done true ∧
    (putRun names [] (putStart (chan (answers 5 [.handle [7, 7], .status 0 [] []])) noOfst) evs).c.out =
      requests [(5, .open [108] 0x1A), (6, .close [7, 7]), (6, .close [7, 7])] := by
  refine ⟨upTo' ++ [.file 0, .send (.ok 1000) (some .wantWrite) false] ++ bye, ?_⟩
  decide +kernel

/-- C104, what is missing: a fetch whose request to open has gone out in part when the window is full sends it from the start. -/
theorem C104_open_restarted : ∃ evs,
    (getRun names (getStart (chan (answers 5 opening)) [] noOfst) evs).c.out =
      requests [(5, .stat [114])] ++ ((Request.open [114] 1).packet 6).take 3 ++ (Request.open [114] 1).packet 6 := by
  refine ⟨[sent, got, got, .send (.ok 2) none false, .send (.error .windowFull) (some .windowFull) false, sent], ?_⟩
  decide +kernel

end Props.SftpClient
