import Verif.Proofs.SftpLsSent
import Verif.Proofs.SftpLsServer
import Verif.Props.SftpOps
/-!
# C117 to C119: the SFTP client, listing a directory
-/

namespace Props.SftpLs
open Wolf Wolf.NameList Wolf.SftpClient Wolf.SftpLs Spec.Wire Spec.Sftp Spec.SftpLs Props.SftpOps

/-! ## Examples -/

/-- What the application got, what was not read and what was sent. -/
def listed : SftpLs.Call → Option (List (List UInt8 × List UInt8 × Attrs) × List UInt8 × List UInt8)
  | .done c l => some (l.map seen, c.inp, c.out)
  | _ => none

/-- A directory: its entries come in two packets. -/
def home : Dir where
  full := (asc "/h", asc "/h", {})
  handle := [1, 2]
  pages := [[(asc "a", asc "-rw- a", { perm := some 0o100644 }), (asc "b", [], {})], [(asc "c", asc "c", { size := some 3 })]]
  code := 1
  stop := (asc "end", [])
  bye := (asc "ok", [])

theorem home_ok : home.Ok where
  name := by decide
  full := ⟨by simp [home, Attrs.Fits], by decide⟩
  handle := by decide
  pages := by
    intro l hl
    simp only [home, List.mem_cons, List.not_mem_nil, or_false] at hl
    rcases hl with rfl | rfl
    · exact ⟨by decide, by decide, by simp [Attrs.Fits]⟩
    · exact ⟨by decide, by decide, by simp [Attrs.Fits]⟩
  code := by decide
  stop := by decide
  bye := by decide

/-- The same without entries. -/
def bare : Dir := { home with pages := [] }

/-- A whole listing of three entries, with an answer that is late and one that comes in pieces. -/
def long : List Ev :=
  [.send (.ok 4) none false, sent, later, got, got, sent, got, got, sent, later, got, .read 3 (some .wantRead), got, sent, got, got, sent, got, got,
    sent, later, got, got]

theorem long_quiet : ∀ ev ∈ long, Quiet ev := by
  intro ev h
  simp only [long, List.mem_cons, List.not_mem_nil, or_false] at h
  rcases h with rfl | rfl | rfl | rfl | rfl | rfl | rfl | rfl | rfl | rfl | rfl | rfl | rfl | rfl | rfl | rfl | rfl | rfl | rfl | rfl | rfl | rfl | rfl <;>
    first | exact rfl | exact .inr (Nat.le_refl _) | exact .inl (.inl rfl)

/-! ## C117: what is sent -/

/-- C117: at every point of a listing, whatever the server says and however the connection behaves, nothing went wrong with the
memory, and the client has sent whole packets and the beginning of one more which are, in this order, REALPATH with the name it was
given, OPENDIR, READDIR any number of times and CLOSE, the last two always with one handle. -/
theorem C117 (dir : List UInt8) (c : Chan) (evs : List Ev) (hg : c.gh = none) (hp : c.pkt = none) :
    run dir c evs ≠ .ub ∧
    ∃ l r n, Listing dir ((l ++ [r]).map (·.2)) ∧ outOf (run dir c evs) = c.out ++ Spec.SftpLs.packets l ++ (r.2.packet r.1).take n :=
  ⟨Proofs.SftpLs.run_ok dir c evs hg, Proofs.SftpLs.run_sent dir c evs hg hp⟩

-- the window is full in the middle of the second READDIR, and the server sends nonsense in place of a handle
example : outOf (run [46] (chan (home.says 5)) [sent, got, got, sent, got, got, sent, got, got, .send (.ok 4) none true]) =
      (Request.realpath [46]).packet 5 ++ (Request.opendir (asc "/h")).packet 6 ++ (Request.readdir [1, 2]).packet 7 ++
        ((Request.readdir [1, 2]).packet 8).take 5 ∧
    outOf (run [46] (chan ((Reply.names [home.full]).packet 5 ++ List.replicate 30 9)) [sent, got, got, sent, got, got, got, sent, got]) =
      (Request.realpath [46]).packet 5 ++ (Request.opendir (asc "/h")).packet 6 := by
  decide +kernel

/-! ## C118: the list is that of the server -/

/-- C118, the part that holds: a server that shows a directory in packets this client takes, and a connection that works. A listing
that ends has the entries of all packets, each packet's in the opposite order, with their names and attributes; it has read just the
answers and asked just for REALPATH, OPENDIR, READDIR — once more than there were packets — and CLOSE. Missing: packets of more than
1 MiB (`C118_big`), notices other than to call again (`C118_cut`), and that the application can tell a listing that ended early from
a whole one (`C118_failure`), or one that failed from one of nothing (`C118_empty`). -/
theorem C118_partial {D : Dir} (hD : D.Ok) (dir rest : List UInt8) (c : Chan) (evs : List Ev) (hid : c.reqId < 2 ^ 32) (hp : c.pkt = none)
    (hg : c.gh = none) (hi : c.inp = D.says c.reqId ++ rest) (hq : ∀ ev ∈ evs, Quiet ev) (c' : Chan) (l : List SftpLs.Entry)
    (hd : run dir c evs = .done c' l) :
    l.map seen = D.pages.flatMap List.reverse ∧ c'.inp = rest ∧ c'.out = c.out ++ D.asked dir c.reqId := by
  have h := Proofs.SftpLs.run_conv (dir := dir) hD c evs hid hp hg hi hq
  rw [hd] at h
  exact h

example : home.Ok ∧ (∀ ev ∈ long, Quiet ev) ∧ listed (run [46] (chan (home.says 5 ++ [3])) long) =
    some ([(asc "b", [], {}), (asc "a", asc "-rw- a", { perm := some 0o100644 }), (asc "c", asc "c", { size := some 3 })], [3],
      (Request.realpath [46]).packet 5 ++ (Request.opendir (asc "/h")).packet 6 ++ (Request.readdir [1, 2]).packet 7 ++
        (Request.readdir [1, 2]).packet 8 ++ (Request.readdir [1, 2]).packet 9 ++ (Request.close [1, 2]).packet 9) :=
  ⟨home_ok, long_quiet, by decide +kernel⟩

/-- What the application gets does not depend on how the listing ended: a server that fails in the middle of it (SSH_FX_FAILURE) makes
it look like a whole one. -/
theorem C118_failure {D : Dir} (hD : D.Ok) (dir : List UInt8) (c : Chan) (evs : List Ev) (hid : c.reqId < 2 ^ 32) (hp : c.pkt = none)
    (hg : c.gh = none) (code : Nat) (m : List UInt8 × List UInt8) (hc : 1 ≤ code ∧ code ≤ 8)
    (hm : (Reply.status code m.1 m.2).body.length ≤ 2 ^ 20) (hi : c.inp = { D with code := code, stop := m }.says c.reqId)
    (hq : ∀ ev ∈ evs, Quiet ev) (c' : Chan) (l : List SftpLs.Entry) (hd : run dir c evs = .done c' l) :
    l.map seen = D.pages.flatMap List.reverse ∧ c'.out = c.out ++ D.asked dir c.reqId := by
  have hD' : { D with code := code, stop := m : Dir }.Ok := ⟨hD.name, hD.full, hD.handle, hD.pages, hc, hm, hD.bye⟩
  have h := C118_partial hD' dir [] c evs hid hp hg (by rw [List.append_nil]; exact hi) hq c' l hd
  refine ⟨h.1, h.2.2.trans ?_⟩
  congr 1
  have : ∀ (pg : List (List (List UInt8 × List UInt8 × Attrs))) (id : Nat), Dir.reads { D with code := code, stop := m } id pg = D.reads id pg := by
    intro pg
    induction pg with
    | nil => intro id; rfl
    | cons a pg ih => intro id; simp only [Dir.reads, ih]
  unfold Dir.asked
  rw [this]

-- the server fails after the first of two packets
example : listed (run [46] (chan ({ home with pages := home.pages.take 1, code := 4 }.says 5))
      [sent, got, got, sent, got, got, sent, got, got, sent, got, got, sent, got, got]) =
    some ([(asc "b", [], {}), (asc "a", asc "-rw- a", { perm := some 0o100644 })], [],
      { home with pages := home.pages.take 1 }.asked [46] 5) := by
  decide +kernel

/-- An empty directory gives what a failed listing gives: no list. -/
theorem C118_empty : listed (run [46] (chan (bare.says 5)) [sent, got, got, sent, got, got, sent, got, got, sent, got, got]) =
      some ([], [], bare.asked [46] 5) ∧
    listed (run [46] (chan ((Reply.status 3 [] []).packet 5)) [sent, got, got]) = some ([], [], (Request.realpath [46]).packet 5) :=
  ⟨by decide +kernel, by decide +kernel⟩

/-- The names of a packet that is too long are not read: they are still there when the client asks to close the directory, and it
takes them for the answer to that. -/
theorem C118_big (dir : List UInt8) (l : List (List UInt8 × List UInt8 × Attrs)) (id : Nat) (rest : List UInt8)
    (h1 : 2 ^ 20 < (Reply.names l).body.length) (h2 : (Reply.names l).body.length < 2 ^ 31) (hid : id < 2 ^ 32) (h : Hd) (acc : List SftpLs.Entry)
    (c : Chan) (k : Nat) (err : Option Err) (hk : 2 ^ 31 ≤ k) (hi : c.inp = (Reply.names l).packet id ++ rest) :
    ∃ c', step dir (.at c (.dirName h acc (.head []))) (.read k err) = .at c' (.close h acc .send) ∧ c'.inp = (Reply.names l).body ++ rest :=
  ⟨_, Proofs.SftpLs.step_big h1 h2 hid h acc c k err hk hi, rfl⟩

-- such a packet: one entry with a long name
example (n : Nat) (h : n = 2 ^ 20) : 2 ^ 20 < (Reply.names [(List.replicate n 97, [], {})]).body.length ∧
    (Reply.names [(List.replicate n 97, [], {})]).body.length < 2 ^ 31 := by
  have : (encAttrs {}).length = 4 := by decide
  simp only [Reply.body, List.flatMap_cons, List.flatMap_nil, encName, List.length_append, Proofs.SftpLs.enc_four, List.length_replicate, this,
    show ∀ n, (encUint32 n).length = 4 from fun _ => rfl, List.length_nil]
  omega

/-- The window of the channel is full when the second READDIR is to be sent: the READDIR goes out in place of CLOSE, the names it is
answered with are taken for the answer to CLOSE and left in the channel but for nine bytes, and the application gets nothing. -/
theorem C118_cut : listed (run [46] (chan (home.says 5))
      [sent, got, got, sent, got, got, sent, got, got, .send (.error .windowFull) (some .windowFull) true, sent, got, got]) =
    some ([], List.drop ((Reply.names [home.full]).packet 5 ++ (Reply.handle [1, 2]).packet 6 ++ (Reply.names home.pages[0]).packet 7 ++ List.replicate 9 0).length
        (home.says 5),
      (Request.realpath [46]).packet 5 ++ (Request.opendir (asc "/h")).packet 6 ++ (Request.readdir [1, 2]).packet 7 ++
        (Request.readdir [1, 2]).packet 8) := by
  decide +kernel

/-! ## C119: with the server of this library -/

/-- C119, the part that holds: client and server of this library, in an established session. The path names the directory `q` to the
server, which has memory, a free place for a directory and opens it; the names in the directory make short paths and fit into one
packet that the client takes. Then the server answers all requests of the client, is left with the files and directories it had open
before, and a listing that ends has the names in the directory, in the order of the server's file system, with the attributes they
have there. Missing: directories for which the packet has more than 1 MiB, and names that make paths of 256 bytes or more. -/
theorem C119_partial {d j : Option (List (List UInt8))} {t : List Event} {s : Sftp.Sess} (hR : Reached d j t s) {E1 E2 E3 E4 E5 : Sftp.Env}
    (hE : Good E1 ∧ Good E2 ∧ Good E3 ∧ Good E4 ∧ Good E5) (hr : Rich E1 ∧ Rich E2 ∧ Rich E3 ∧ Rich E4 ∧ Rich E5) {cs q : List (List UInt8)}
    {dir : List UInt8} (hcs : startDir d E1.cwd = some cs) (hw : cwdShort d E1.cwd) (hv : verdict (some cs) j E2.isLink dir = .admit q)
    (hn : s.dirs.length < 64) (hfd : E2.fd.isSome) (long : List UInt8 → List UInt8) (hlong : ∀ n a, E3.longName n a = some (long n))
    (hshort : ∀ n ∈ E3.entries, (Spec.Path.render q).length + 1 + n.length < 256)
    (hbig : (Reply.names (Props.Sftp.entries E3 q long)).body.length ≤ 2 ^ 20) (c : Chan) (hid : c.reqId < 2 ^ 32) (hp : c.pkt = none)
    (hg : c.gh = none) :
    ∃ reqs inp s', answers s ([E1, E2, E3, E4, E5].zip reqs) = some (inp, s') ∧ s'.dirs = s.dirs ∧ s'.files = s.files ∧
      ∀ rest evs c' l, c.inp = inp ++ rest → (∀ ev ∈ evs, Quiet ev) → run dir c evs = .done c' l →
        l.map seen = (E3.entries.map fun n => (n, long n, ((E3.stat (place q n)).map attrsOf).getD {})) ∧
        c'.inp = rest ∧ c'.out = c.out ++ Spec.SftpLs.packets reqs := by
  obtain ⟨fd, hfd⟩ := Option.isSome_iff_exists.1 hfd
  obtain ⟨s', h1, h2, h3⟩ := Proofs.SftpLs.serve_all hR hE.1 hr.1 hE.2.1 hr.2.1 hE.2.2.1 hr.2.2.1 hE.2.2.2.1 hr.2.2.2.1 hE.2.2.2.2 hr.2.2.2.2
    hcs hw hv hn hfd long hlong hshort c.reqId
  refine ⟨_, _, s', h1, h2, h3, fun rest evs c' l hi hq hd => ?_⟩
  have hok := Proofs.SftpLs.shown_ok (s := s) hE.2.2.1 (Proofs.Sftp.verdict_admit hv).2.2.1 long hlong hshort hbig
  obtain ⟨g1, g2, g3⟩ := C118_partial hok dir rest c evs hid hp hg hi hq c' l hd
  refine ⟨?_, g2, ?_⟩
  · rw [g1]
    show (if E3.entries = [] then [] else [Props.Sftp.entries E3 q long]).flatMap List.reverse = _
    by_cases h0 : E3.entries = []
    · rw [if_pos h0, h0]; rfl
    · rw [if_neg h0]
      simp [Props.Sftp.entries]
  · rw [g3, Proofs.SftpLs.asked_eq]
    rfl

/-- What a roundabout path names. -/
theorem roundabout : verdict (some Props.Sftp.jail) (some Props.Sftp.jail) Props.Sftp.demo.isLink (asc "x/../y") = .admit [asc "jail", asc "y"] := by
  have ht : Spec.Sftp.target (some Props.Sftp.jail) (asc "x/../y") = [asc "jail", asc "y"] := by decide +kernel
  have hs : Short (some Props.Sftp.jail) (asc "x/../y") := by
    refine ⟨by decide, fun k => ?_⟩
    match k with
    | 0 => decide +kernel
    | 1 => decide +kernel
    | 2 => decide +kernel
    | k + 3 =>
      have : Spec.Path.components ((asc "x/../y").takeWhile (· ≠ 0)) = [asc "x", asc "..", asc "y"] := by decide +kernel
      rw [this]
      have : [asc "x", asc "..", asc "y"].take (k + 3) = [asc "x", asc "..", asc "y"] := List.take_of_length_le (by simp)
      rw [this]
      decide +kernel
  unfold verdict
  rw [if_pos hs, ht, if_pos]
  intro rcs h
  cases h
  exact ⟨⟨[asc "y"], rfl⟩, fun _ _ _ _ => rfl⟩

-- a session in a jail, and a listing there
example : Reached (some Props.Sftp.jail) (some Props.Sftp.jail) [] Props.Sftp.start0 ∧ Good Props.Sftp.demo ∧ Rich Props.Sftp.demo ∧
    startDir (some Props.Sftp.jail) Props.Sftp.demo.cwd = some Props.Sftp.jail ∧ cwdShort (some Props.Sftp.jail) Props.Sftp.demo.cwd ∧
    (∀ n ∈ Props.Sftp.demo.entries, (Spec.Path.render [asc "jail", asc "y"]).length + 1 + n.length < 256) ∧
    (Reply.names (Props.Sftp.entries Props.Sftp.demo [asc "jail", asc "y"] id)).body.length ≤ 2 ^ 20 ∧
    ∃ s', answers Props.Sftp.start0 ((List.replicate 5 Props.Sftp.demo).zip (questions (asc "x/../y") (asc "/jail/y") (List.replicate 8 0) 1 5)) =
      some ((Proofs.SftpLs.shownDir Props.Sftp.start0 Props.Sftp.demo [asc "jail", asc "y"] id).says 5, s') ∧
    listed (run (asc "x/../y") (chan ((Proofs.SftpLs.shownDir Props.Sftp.start0 Props.Sftp.demo [asc "jail", asc "y"] id).says 5))
      [sent, got, got, sent, got, got, sent, got, got, sent, got, got, sent, got, got]) =
      some ([(asc "a", asc "a", {}), (asc "..", asc "..", {})], [],
        Spec.SftpLs.packets (questions (asc "x/../y") (asc "/jail/y") (List.replicate 8 0) 1 5)) := by
  refine ⟨Props.Sftp.reached0, Props.Sftp.demo_good, ⟨fun _ => rfl, rfl⟩, rfl, (fun h => nomatch h), by decide, by decide +kernel,
    ⟨some (asc "/jail"), some (asc "/jail"), [], [], (1, 0), 8⟩, by decide +kernel, by decide +kernel⟩

end Props.SftpLs
