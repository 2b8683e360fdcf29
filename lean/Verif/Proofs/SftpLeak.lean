import Verif.Proofs.SftpHeld
/-! The outcome of a request does not depend on the old contents of memory. -/

namespace Proofs.Sftp
open Wolf Wolf.Wire Wolf.Buffer Wolf.Sftp Wolf.NameList Spec.Wire Spec.Sftp Spec.Path

variable {E : Env} {a : Nat → Option Bytes} {st : Bytes}

/-- Other memory. -/
abbrev other (E : Env) (a : Nat → Option Bytes) (st : Bytes) : Env := { E with alloc := a, stack := st }

section
variable (ha : ∀ n, (a n).isSome = (E.alloc n).isSome)
include ha

theorem mem_other (r : Reply) : mem (other E a st) r = mem E r := ha _

theorem ans_other (s : Sess) (calls : List Posix.Call) (id : Nat) (r : Reply) (ret : Option Err) :
    ans (other E a st) s calls id r ret = ans E s calls id r ret := by unfold ans; rw [mem_other ha]

theorem denied_other (s : Sess) (id : Nat) : denied (other E a st) s id = denied E s id := ans_other ha ..

theorem notRenamed_other (s : Sess) (id : Nat) (e : Err) : notRenamed (other E a st) s id e = notRenamed E s id e := ans_other ha ..

theorem statAns_other (s : Sess) (id : Nat) (calls : List Posix.Call) (res : Option Posix.Stat) (msg : Bytes) :
    statAns (other E a st) s id calls res msg = statAns E s id calls res msg := by
  unfold statAns; simp only [ans_other ha]

theorem setAns_other (s : Sess) (id : Nat) (rest : Bytes) (f : Nat → Bool → Posix.Call) :
    setAns (other E a st) s id rest f = setAns E s id rest f := by
  unfold setAns; simp only [ans_other ha]

theorem openAns_other (s : Sess) (id : Nat) (name : Bytes) (calls : List Posix.Call) (fd : Nat) :
    openAns (other E a st) s id name calls fd = openAns E s id name calls fd := by
  unfold openAns; simp only [ans_other ha, mem_other ha]

theorem readAns_other (s : Sess) (calls : List Posix.Call) (id n : Nat) (r : Reply) (ret : Option Err) :
    readAns (other E a st) s calls id n r ret = readAns E s calls id n r ret := by
  unfold readAns; simp only [mem_other ha]

theorem alloc_other (n : Nat) : (a n = none) = (E.alloc n = none) := by
  have := ha n
  cases h1 : a n <;> cases h2 : E.alloc n <;> simp_all
end

theorem writeLoop_other (fd : Nat) (dat : Bytes) : ∀ (fuel i w : Nat) (o : Nat × Nat) (calls : List Posix.Call),
    writeLoop (other E a st) fd dat fuel i w o calls = writeLoop E fd dat fuel i w o calls := by
  intro fuel
  induction fuel with
  | zero => intros; rfl
  | succ fuel ih => intro i w o calls; unfold writeLoop; simp only [ih]; rfl

theorem entryOf_other (cs : List Bytes) (n : Bytes) : entryOf (other E a st) cs n = entryOf E cs n := rfl
theorem lookCalls_other (cs : List Bytes) (n : Bytes) : lookCalls (other E a st) cs n = lookCalls E cs n := rfl

theorem listing_other (dir : Nat) (cs : List Bytes) : ∀ (ns : List Bytes), listing (other E a st) dir cs ns = listing E dir cs ns := by
  intro ns
  induction ns with
  | nil => rfl
  | cons n ns ih => unfold listing; rw [ih, entryOf_other, lookCalls_other]

theorem handle_other {s : Sess} {d j : Option (List Bytes)} (hE : Good E) (hE' : Good (other E a st)) (ha : ∀ n, (a n).isSome = (E.alloc n).isSome)
    (hs : Dirs s d j) (hh : Held s) (type id : Nat) (data : Bytes) (hw : data.length < 2 ^ 32) :
    handle (other E a st) s type id data = handle E s type id data := by
  classical
  have hs' : Dirs { s with reqId := id } d j := ⟨hs.default, hs.confine, hs.dNames, hs.jNames⟩
  have hi' : Ids { s with reqId := id } := ⟨hh.ids.files, hh.ids.dirs, hh.ids.next⟩
  unfold handle
  dsimp only
  congr 1
  · rw [realpath_eq hE hs' id data hw, realpath_eq hE' hs' id data hw]
    simp only [ans_other ha, mem_other ha]
    rfl
  congr 1
  · rw [rmdir_eq hE hs' id data hw, rmdir_eq hE' hs' id data hw]; simp only [ans_other ha, denied_other ha]
  congr 1
  · rw [mkdir_eq hE hs' id data hw, mkdir_eq hE' hs' id data hw]; simp only [ans_other ha, denied_other ha]
  congr 1
  · rw [stat_eq hE hs' _ id data hw, stat_eq hE' hs' _ id data hw]; simp only [ans_other ha, denied_other ha, statAns_other ha]
  congr 1
  · rw [stat_eq hE hs' _ id data hw, stat_eq hE' hs' _ id data hw]; simp only [ans_other ha, denied_other ha, statAns_other ha]
  congr 1
  · rw [fstat_eq hE hi' id data hw, fstat_eq hE' hi' id data hw]; simp only [statAns_other ha]
  congr 1
  · rw [open_eq hE hs' id rfl data hw, open_eq hE' hs' id rfl data hw]; simp only [ans_other ha, denied_other ha, openAns_other ha]
  congr 1
  · rw [read_eq hE hi' id rfl data hw, read_eq hE' hi' id rfl data hw]
    simp only [ans_other ha, readAns_other ha, alloc_other ha]
  congr 1
  · rw [write_eq hE hi' id data hw, write_eq hE' hi' id data hw]
    simp only [writeAns, ans_other ha, writeLoop_other]
  congr 1
  · rw [close_eq hE hi' id data hw, close_eq hE' hi' id data hw]; simp only [ans_other ha]
  congr 1
  · rw [remove_eq hE hs' id data hw, remove_eq hE' hs' id data hw]; simp only [ans_other ha, denied_other ha]
  congr 1
  · rw [rename_eq hE hs' id data hw, rename_eq hE' hs' id data hw]; simp only [ans_other ha, denied_other ha, notRenamed_other ha]
  congr 1
  · rw [setstat_eq hE hs' id data hw, setstat_eq hE' hs' id data hw]; simp only [ans_other ha, denied_other ha, setAns_other ha]
  congr 1
  · rw [fsetstat_eq hE hi' id data hw, fsetstat_eq hE' hi' id data hw]; simp only [ans_other ha, setAns_other ha]
  congr 1
  · rw [opendir_eq hE hs' id rfl data hw, opendir_eq hE' hs' id rfl data hw]; simp only [ans_other ha, denied_other ha]
  congr 1
  · rw [readdir_eq hE hs' hi' hh.names id data hw, readdir_eq hE' hs' hi' hh.names id data hw]; simp only [ans_other ha, listing_other]
  · rw [recvUnknown_eq hE, recvUnknown_eq hE']
    simp only [mem_other ha]

end Proofs.Sftp
