import Verif.Proofs.ScpCopier
import Verif.Props.ScpDisk
/-!
# SCP: sending from a file system
-/

namespace Props.Scp
open Wolf Wolf.Scp Spec.Scp

/-! ## C82: what is sent is the tree of files that was asked for -/

/-- A transfer of a directory that comes to its end has sent exactly what is in the file system below it: each file with its
name, permissions, times (if asked for) and contents, each directory with its entries, in the order in which the
directories are read, whatever the sizes of the pieces in which files are read, of the pieces taken by the transport, and the
pace. The names can be sent, files are of less than 4 GiB, and the file system does not change meanwhile. -/
theorem C82_tree_partial (v : View) (base n : Bytes) (is : List Item) (s : Source) (es : List CopyEv)
    (h0 : s.st = .begin) (hr : s.recurse = true) (hq : s.req = .recursive) (hz : s.info.size < 4294967296)
    (hv : ∃ mode mt at_ names, v base = some (.dir mode mt at_ names)) (hl : Leads base n) (hb : 0 ∉ base)
    (hs : Shows v s.times base n is) (hstill : ∀ e ∈ es, Still v e) (hd : (copyRun base ⟨s, {}⟩ es).1.src.st = .done) :
    ∃ ss, bursts (copyRun base ⟨s, {}⟩ es).2 = ([] :: ss, []) ∧ Script is ss := by
  have hat : Proofs.Scp.At base v ⟨s.recurse, s.times⟩ {} s.info none none is := by
    cases hs with
    | file hv' => obtain ⟨_, _, _, _, h⟩ := hv; rw [h] at hv'; cases hv'
    | dir h1 h2 h3 h4 h5 =>
      exact Proofs.Scp.At.start hr rfl ⟨rfl, by decide, by simp⟩ hz h1 hl h2 h3 h4 hb h5
  obtain ⟨es', h1, h2, h3, h4⟩ := Proofs.Scp.copy_done base v es ⟨s, {}⟩ is h0 (by simp only [hr, hq, if_true]) hstill hd hat
  have := C78_script s es' is h0 (Or.inr hq) (by rw [h1]; exact hd) (by rw [h1]; exact h2) (by rw [h1]; exact h3) (by rw [h1]; exact h4)
  rw [h1] at this
  exact this

/-- The same for a single file. -/
theorem C82_file_partial (v : View) (base n : Bytes) (mode mt at_ : Nat) (data : Bytes) (s : Source) (d : SendDisk) (es : List CopyEv)
    (h0 : s.st = .begin) (hr : s.recurse = false) (hq : s.req = .single) (hv : v base = some (.reg mode mt at_ data))
    (hl : Leads base n) (hn : Sendable n) (h32 : data.length < 4294967296) (hmt : Time mt) (hat : Time at_)
    (hstill : ∀ e ∈ es, Still v e) (hd : (copyRun base ⟨s, d⟩ es).1.src.st = .done) :
    ∃ ss, bursts (copyRun base ⟨s, d⟩ es).2 = ([] :: ss, []) ∧
      Script [.file (if s.times then some (mt, at_) else none) (mode % 512) n data] ss := by
  obtain ⟨es', h1, h2, h3, h4⟩ := Proofs.Scp.copy_done base v es ⟨s, d⟩ _ h0 (by simp [hr, hq]) hstill hd
    (Proofs.Scp.At.single hr hv hl hn h32 hmt hat)
  have := C78_script s es' _ h0 (Or.inl hq) (by rw [h1]; exact hd) (by rw [h1]; exact h2) (by rw [h1]; exact h3) (by rw [h1]; exact h4)
  rw [h1] at this
  exact this

/-- And all the way, from one file system to another: a tree that is sent with the default callback to a side that receives it
with the default callback is stored there. -/
theorem C82_copy_partial (v : View) (src n : Bytes) (is : List Item) (s : Source) (es : List CopyEv)
    (h0 : s.st = .begin) (hr : s.recurse = true) (hq : s.req = .recursive) (hz : s.info.size < 4294967296)
    (hv : ∃ mode mt at_ names, v src = some (.dir mode mt at_ names)) (hl : Leads src n) (hb : 0 ∉ src)
    (hs : Shows v s.times src n is) (hstill : ∀ e ∈ es, Still v e) (hd : (copyRun src ⟨s, {}⟩ es).1.src.st = .done)
    (ms : List Move) (hben : ∀ m ∈ ms, Benign m)
    (hquiet : ((start (bursts (copyRun src ⟨s, {}⟩ es).2).1.tail).run ms).1.Quiet)
    (dst : Bytes) (d : Disk) (b : Place) (hdst : chdir d.fs d.cwd dst = some b) (hN : Nested 0 is)
    (hD : ((entries b is).map (·.1)).Nodup) (hF : ∀ e ∈ entries b is, Free (d.fs e.1) e.2) :
    ∃ d' l, serve dst d ((start (bursts (copyRun src ⟨s, {}⟩ es).2).1.tail).run ms).2
        (List.replicate (calls ((start (bursts (copyRun src ⟨s, {}⟩ es).2).1.tail).run ms).2).length {}) = some (d', l) ∧
      (∀ e ∈ entries b is, Holds (d.fs e.1) (d'.fs e.1) e.2) ∧
      ∀ p, p ∉ (entries b is).map (·.1) → d'.fs p = d.fs p := by
  have hat : Proofs.Scp.At src v ⟨s.recurse, s.times⟩ {} s.info none none is := by
    cases hs with
    | file hv' => obtain ⟨_, _, _, _, h⟩ := hv; rw [h] at hv'; cases hv'
    | dir h1 h2 h3 h4 h5 =>
      exact Proofs.Scp.At.start hr rfl ⟨rfl, by decide, by simp⟩ hz h1 hl h2 h3 h4 hb h5
  obtain ⟨es', h1, h2, h3, h4⟩ := Proofs.Scp.copy_done src v es ⟨s, {}⟩ is h0 (by simp only [hr, hq, if_true]) hstill hd hat
  have := C80_copy_partial s es' is h0 (Or.inr hq) (by rw [h1]; exact hd) (by rw [h1]; exact h2) (by rw [h1]; exact h3)
    (by rw [h1]; exact h4) ms hben (by rw [h1]; exact hquiet) dst d b hdst hN hD hF
  rw [h1] at this
  exact this

/-- A tree: /t with a file `a` of three bytes, a directory `s` with an empty file `b`, and a file `c`. -/
def treeView : View := fun p =>
  if p = "/t".toUTF8.toList then some (.dir 0o40755 7 8 [[46], [97], [46, 46], [115], [99]])
  else if p = "/t/a".toUTF8.toList then some (.reg 0o100644 1 2 [1, 2, 3])
  else if p = "/t/s".toUTF8.toList then some (.dir 0o40700 3 4 [[98], [46]])
  else if p = "/t/s/b".toUTF8.toList then some (.reg 0o100600 5 6 [])
  else if p = "/t/c".toUTF8.toList then some (.reg 0o100604 5 6 [9])
  else none

def treeItems : List Item :=
  [.dir none 0o755 [116], .file none 0o644 [97] [1, 2, 3], .dir none 0o700 [115], .file none 0o600 [98] [], .endDir,
   .file none 0o604 [99] [9], .endDir]

/-- Steps in which nothing fails: the file system is `v`, files are read two bytes at a time, a confirmation arrives when it is
waited for. -/
def walk (v : View) (base : Bytes) : Nat → Copier → List CopyEv
  | 0, _ => []
  | k + 1, c =>
    let e := if c.src.chan = [] ∧ (c.src.st = .recvConf ∨ c.src.st = .recvConfReceipt) then .arrive [0]
      else CopyEv.step .take (.sent 65536) { view := v, takes := 2 }
    e :: walk v base k (copyNext base c e).1

def asked : Source := { recurse := true, req := .recursive }

theorem still_walk (v : View) (base : Bytes) (k : Nat) (c : Copier) : ∀ e ∈ walk v base k c, Still v e := by
  induction k generalizing c with
  | zero => intro e he; simp [walk] at he
  | succ k ih =>
    intro e he
    rw [walk] at he
    rcases List.mem_cons.mp he with h | h
    · subst h
      split
      · trivial
      · rfl
    · exact ih _ e h

example : (copyRun "/t".toUTF8.toList ⟨asked, {}⟩ (walk treeView "/t".toUTF8.toList 80 ⟨asked, {}⟩)).1.src.st = .done ∧
    bursts (copyRun "/t".toUTF8.toList ⟨asked, {}⟩ (walk treeView "/t".toUTF8.toList 80 ⟨asked, {}⟩)).2 =
      ([[], "D0755 0 t\n".toUTF8.toList, "C0644 3 a\n".toUTF8.toList, [1, 2, 3, 0], "D0700 0 s\n".toUTF8.toList,
        "C0600 0 b\n".toUTF8.toList, [0], "E\n".toUTF8.toList, "C0604 1 c\n".toUTF8.toList, [9, 0], "E\n".toUTF8.toList], []) := by
  decide +kernel

/-- The tree stands for these items, so all that C82 asks for is met. -/
example : Shows treeView false "/t".toUTF8.toList [116] treeItems ∧ Leads "/t".toUTF8.toList [116] ∧ 0 ∉ "/t".toUTF8.toList ∧
    treeView "/t".toUTF8.toList = some (.dir 0o40755 7 8 [[46], [97], [46, 46], [115], [99]]) := by
  refine ⟨?_, Or.inr ⟨[], by decide +kernel⟩, by decide +kernel, by decide +kernel⟩
  have t : ∀ k < 100, Time k := fun k h => by unfold Time; omega
  have hb : Shows treeView false ("/t".toUTF8.toList ++ 47 :: [115] ++ 47 :: [98]) [98] [.file none 0o600 [98] []] :=
    Shows.file (mode := 0o100600) (mt := 5) (at_ := 6) (by decide +kernel) (by decide +kernel) (by decide) (t _ (by decide)) (t _ (by decide))
  have hs : Shows treeView false ("/t".toUTF8.toList ++ 47 :: [115]) [115] [.dir none 0o700 [115], .file none 0o600 [98] [], .endDir] :=
    Shows.dir (mode := 0o40700) (mt := 3) (at_ := 4) (names := [[98], [46]]) (is := [.file none 0o600 [98] []]) (by decide +kernel)
      (by decide +kernel) (t _ (by decide)) (t _ (by decide)) (Within.cons (js := []) hb (Within.dot (Or.inl rfl) Within.nil))
  have ha : Shows treeView false ("/t".toUTF8.toList ++ 47 :: [97]) [97] [.file none 0o644 [97] [1, 2, 3]] :=
    Shows.file (mode := 0o100644) (mt := 1) (at_ := 2) (by decide +kernel) (by decide +kernel) (by decide) (t _ (by decide)) (t _ (by decide))
  have hc : Shows treeView false ("/t".toUTF8.toList ++ 47 :: [99]) [99] [.file none 0o604 [99] [9]] :=
    Shows.file (mode := 0o100604) (mt := 5) (at_ := 6) (by decide +kernel) (by decide +kernel) (by decide) (t _ (by decide)) (t _ (by decide))
  have hw : Within treeView false "/t".toUTF8.toList [[46], [97], [46, 46], [115], [99]]
      [.file none 0o644 [97] [1, 2, 3], .dir none 0o700 [115], .file none 0o600 [98] [], .endDir, .file none 0o604 [99] [9]] :=
    Within.dot (Or.inl rfl) (Within.cons (is := [.file none 0o644 [97] [1, 2, 3]]) ha (Within.dot (Or.inr rfl)
      (Within.cons (is := [.dir none 0o700 [115], .file none 0o600 [98] [], .endDir]) hs
        (Within.cons (is := [.file none 0o604 [99] [9]]) (js := []) hc Within.nil))))
  exact Shows.dir (mode := 0o40755) (mt := 7) (at_ := 8) (by decide +kernel) (by decide +kernel) (t _ (by decide)) (t _ (by decide)) hw

/-! What is missing. -/

/-- A backslash in the name of a directory is legal. When the directory is left, its path is cut at the backslash, and
what follows is looked for in the wrong place: here `c`, which is in /t, is sent with the contents of /t/a/c. -/
def slashView : View := fun p =>
  if p = "/t".toUTF8.toList then some (.dir 0o40755 0 0 ["a\\b".toUTF8.toList, [99]])
  else if p = "/t/a\\b".toUTF8.toList then some (.dir 0o40755 0 0 [])
  else if p = "/t/c".toUTF8.toList then some (.reg 0o100644 0 0 [1])
  else if p = "/t/a/c".toUTF8.toList then some (.reg 0o100600 0 0 [2])
  else none

theorem C82_backslash_in_directory :
    bursts (copyRun "/t".toUTF8.toList ⟨asked, {}⟩ (walk slashView "/t".toUTF8.toList 60 ⟨asked, {}⟩)).2 =
      ([[], "D0755 0 t\n".toUTF8.toList, "D0755 0 a\\b\n".toUTF8.toList, "E\n".toUTF8.toList, "C0600 1 c\n".toUTF8.toList, [2, 0],
        "E\n".toUTF8.toList], []) := by
  decide +kernel

/-- Something that is neither file nor directory is announced as a file, with the size of the file before it; as there is
nothing to send, the transfer is given up. -/
def pipeView : View := fun p =>
  if p = "/t".toUTF8.toList then some (.dir 0o40755 0 0 [[97], [112], [99]])
  else if p = "/t/a".toUTF8.toList then some (.reg 0o100644 0 0 [1])
  else if p = "/t/p".toUTF8.toList then some (.special 0o10644 0 0)
  else if p = "/t/c".toUTF8.toList then some (.reg 0o100644 0 0 [2])
  else none

theorem C82_pipe_in_directory :
    (copyRun "/t".toUTF8.toList ⟨asked, {}⟩ (walk pipeView "/t".toUTF8.toList 60 ⟨asked, {}⟩)).1.src.st = .dead ∧
    bursts (copyRun "/t".toUTF8.toList ⟨asked, {}⟩ (walk pipeView "/t".toUTF8.toList 60 ⟨asked, {}⟩)).2 =
      ([[], "D0755 0 t\n".toUTF8.toList, "C0644 1 a\n".toUTF8.toList, [1, 0], "C0644 1 p\n".toUTF8.toList], []) := by
  decide +kernel

/-- A symbolic link among the entries ends the transfer of the whole tree. -/
def linkView : View := fun p =>
  if p = "/t".toUTF8.toList then some (.dir 0o40755 0 0 [[108], [99]])
  else if p = "/t/l".toUTF8.toList then some .link
  else if p = "/t/c".toUTF8.toList then some (.reg 0o100644 0 0 [2])
  else none

theorem C82_link_in_directory :
    (copyRun "/t".toUTF8.toList ⟨asked, {}⟩ (walk linkView "/t".toUTF8.toList 60 ⟨asked, {}⟩)).1.src.st = .dead ∧
    bursts (copyRun "/t".toUTF8.toList ⟨asked, {}⟩ (walk linkView "/t".toUTF8.toList 60 ⟨asked, {}⟩)).2 =
      ([[], "D0755 0 t\n".toUTF8.toList], []) := by
  decide +kernel

/-- A directory asked for with a separator at the end is sent without a name. -/
theorem C82_no_name (p : Bytes) (mode mt at_ : Nat) (names : List Bytes) (d : SendDisk) (off room : Nat) (m : Meta) (j : SendIn)
    (hv : j.view (p ++ [47]) = some (.dir mode mt at_ names)) (hd : d.stack = []) (hok : j.ok = true) (hl : p.length < 1000)
    (hs : j.view (unseparated (p ++ [47])) ≠ some .link) :
    (sendCb (p ++ [47]) d .recursive off m room j).2 = (.enterDir, { m with name := [], mtime := mt, atime := at_, mode := mode % 512 }) := by
  have hn : extractName (p ++ [47]) = some [] := by
    unfold extractName
    simp [sep]
  have hu : (unseparated (p ++ [47])).length ≤ p.length + 1 := by
    unfold unseparated
    have h := (List.dropWhile_sublist sep (l := ((p ++ [47]).drop 1).reverse)).length_le
    simp only [List.length_reverse, List.length_drop, List.length_append, List.length_cons, List.length_nil] at h
    simp only [List.length_append, List.length_reverse, List.length_take, List.length_cons, List.length_nil]
    omega
  unfold sendCb enterRoot
  simp only [hd, hv, hn, stats]
  rw [if_neg]
  rintro (h | h | h | h)
  · omega
  · exact hs h
  · simp at h; omega
  · rw [hok] at h; cases h

def slashed : View := fun p => if p = "/t/".toUTF8.toList ∨ p = "/t".toUTF8.toList then some (.dir 0o40755 0 0 []) else none

example : ((copyRun "/t/".toUTF8.toList ⟨asked, {}⟩ (walk slashed "/t/".toUTF8.toList 30 ⟨asked, {}⟩)).2.contains
    (.wrote "D0755 0 \n".toUTF8.toList)) = true := by decide +kernel

/-- The size of a file is announced modulo 2^32, whatever it is. -/
theorem C82_size_wraps (base : Bytes) (d : SendDisk) (off room : Nat) (m : Meta) (j : SendIn) (mode mt at_ : Nat) (data : Bytes)
    (hv : j.view base = some (.reg mode mt at_ data)) (hok : j.ok = true) :
    (sendCb base d .single off m room j).2.2.size = data.length % 4294967296 := by
  unfold sendCb
  simp only [hv]
  rw [if_neg (by simp [hok])]
  cases extractName base with
  | none => rfl
  | some n =>
    simp only
    split
    · rfl
    · split <;> rfl

/-- A context that is used for a second transfer still holds bytes of the first, and paths are cut there: /c is asked for, with a
directory `d` and a file `e` in it; `e` is looked for in /c/d. -/
def againView : View := fun p =>
  if p = "/aaaa/bbbb/cccc".toUTF8.toList then some (.dir 0o40755 0 0 [])
  else if p = "/c".toUTF8.toList then some (.dir 0o40755 0 0 [[100], [101]])
  else if p = "/c/d".toUTF8.toList then some (.dir 0o40755 0 0 [[101]])
  else if p = "/c/e".toUTF8.toList then some (.reg 0o100644 0 0 [1])
  else if p = "/c/d/e".toUTF8.toList then some (.reg 0o100644 0 0 [2])
  else none

def used : SendDisk :=
  (copyRun "/aaaa/bbbb/cccc".toUTF8.toList ⟨asked, {}⟩ (walk againView "/aaaa/bbbb/cccc".toUTF8.toList 30 ⟨asked, {}⟩)).1.disk

theorem C82_second_transfer :
    bursts (copyRun "/c".toUTF8.toList ⟨asked, used⟩ (walk againView "/c".toUTF8.toList 60 ⟨asked, used⟩)).2 =
      ([[], "D0755 0 c\n".toUTF8.toList, "D0755 0 d\n".toUTF8.toList, "C0644 1 e\n".toUTF8.toList, [2, 0], "E\n".toUTF8.toList,
        "C0644 1 e\n".toUTF8.toList, [2, 0], "E\n".toUTF8.toList], []) := by
  decide +kernel

end Props.Scp
