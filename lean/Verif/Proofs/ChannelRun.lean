import Verif.Proofs.ChannelTie2
/-! Concrete runs: reachable states computed by evaluation. -/

namespace Wolf.Channel
open Wolf Wolf.Wire Wolf.NameList Wolf.Buffer Spec.Buffer Spec.Channel

deriving instance DecidableEq for Except

/-- A decidable sufficient condition for `WellFormed`. -/
def checks (c : Conn) : In → Bool
  | .rxOpen E mem len _ => decide (len ≤ mem.length) && decide (len < 2^32) &&
      (E.buffer.all fun m => m.length == c.ctxWindow) && decide (c.chans.length + 1 < 2^32)
  | .rxOpenConf mem len _ _ => decide (len ≤ mem.length) && decide (len < 2^32)
  | .rxOpenFail mem len _ _ => decide (len ≤ mem.length) && decide (len < 2^32)
  | .rxAdjust mem len _ => decide (len ≤ mem.length) && decide (len < 2^32)
  | .rxData mem len _ => decide (len ≤ mem.length) && decide (len < 2^32)
  | .rxExt .. => false
  | .rxEof mem len _ _ => decide (len ≤ mem.length) && decide (len < 2^32)
  | .rxClose mem len _ _ => decide (len ≤ mem.length) && decide (len < 2^32)
  | .openLocal _ _ buffer _ _ => (buffer.all fun m => m.length == c.ctxWindow) && decide (c.chans.length + 1 < 2^32)
  | .readExt static _ _ _ => static.length == 16
  | _ => true

theorem checks_wf {c : Conn} {x : In} (h : checks c x = true) : WellFormed c x := by
  cases x <;> simp only [checks, WellFormed, Bool.and_eq_true, decide_eq_true_eq, beq_iff_eq, Option.all_eq_true] at h ⊢
  case rxOpen => exact ⟨h.1.1.1, h.1.1.2, fun m e => h.1.2 m e, h.2⟩
  case openLocal => exact ⟨fun m e => h.1 m e, h.2⟩
  case rxExt => cases h
  all_goals first | exact h | trivial

/-- Run with the inputs checked. -/
def runC : Conn → List In → Option Conn
  | c, [] => some c
  | c, x :: xs => if checks c x then (step c x).bind fun c' => runC c' xs else none

theorem reach_runC {server : Bool} {w m : Nat} {c c' : Conn} {xs : List In} (hr : Reach server w m c)
    (h : runC c xs = some c') : Reach server w m c' := by
  induction xs generalizing c with
  | nil => simp only [runC, Option.some.injEq] at h; subst h; exact hr
  | cons x xs ih =>
    unfold runC at h
    split at h
    · rename_i hc
      obtain ⟨c1, h1, h2⟩ := Option.bind_eq_some_iff.1 h
      exact ih (.step hr (checks_wf hc) h1) h2
    · cases h

/-- A run from a fresh session leads to a reachable state with a decidable property. -/
theorem reach_any {server : Bool} {w m : Nat} {xs : List In} {P : Conn → Bool}
    (h : (runC (fresh server w m) xs).any P = true) : ∃ c, Reach server w m c ∧ P c = true := by
  cases hr : runC (fresh server w m) xs with
  | none => rw [hr] at h; cases h
  | some c => rw [hr] at h; exact ⟨c, reach_runC .init hr, h⟩

/-! ## Messages for examples (numbers below 256) -/

def u32 (n : Nat) : Bytes := [0, 0, 0, UInt8.ofNat n]

/-- The peer asks for a session channel: its number 5, window 9, packets up to 100. -/
def openSession (w : Nat) : In :=
  .rxOpen ⟨some (List.replicate w 0), false, none, none, {}⟩
    (u32 7 ++ asc "session" ++ u32 5 ++ u32 9 ++ u32 100) 23 0

def rxBytes (id : Nat) (b : Bytes) : In := .rxData (u32 id ++ u32 b.length ++ b) (8 + b.length) 0

def rxAdd (id n : Nat) : In := .rxAdjust (u32 id ++ u32 n) 8 0

/-- This side opens a session channel. -/
def openOwn (w : Nat) : In := .openLocal true ID_CHANTYPE_SESSION (some (List.replicate w 0)) none {}

/-- The peer confirms: its number, window 9, packets up to 100. -/
def rxConf (id peer : Nat) : In := .rxOpenConf (u32 id ++ u32 peer ++ u32 9 ++ u32 100) 16 0 none

end Wolf.Channel
