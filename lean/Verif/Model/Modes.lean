import Verif.Model.Wire
/-!
# Terminal modes (src/internal.c:11333-11598, 20677-20868, wolfssh/internal.h:2058-2117)

What a client writes about its terminal into the pseudo-terminal request, and what a server makes of it.
`termios` is the control characters, four words of flags and two speeds; where a platform keeps what is in
`Platform`. Simplified: both terminals can be read (`tcgetattr`, whose result `wolfSSH_DoModes` does not look at) and the
server's set; `cfsetispeed` and `cfsetospeed` set the speed or refuse it; POSIX.
-/

namespace Wolf.Modes
open Wolf Wolf.Wire

/-- The four words of flags of a `termios`. -/
inductive Field where
  | iflag | lflag | oflag | cflag
  deriving DecidableEq, Repr

/-- `struct termios`. -/
structure Termios where
  cc : Nat → Byte
  flag : Field → BitVec 32
  ispeed : Nat
  ospeed : Nat

/-- What `<termios.h>` defines, by the number of the mode: the index of a control character in `c_cc` and the bits of a flag
(`none`: the name is not defined; those that the code uses without `#ifdef` are on every platform), and the speeds that
`cfsetispeed` and `cfsetospeed` take. -/
structure Platform where
  cc : Nat → Option Nat
  mask : Nat → Option (BitVec 32)
  speed : Nat → Bool

/-- `TERMINAL_MODES_MAX_SZ`, `TERMINAL_MODE_SZ` (wolfssh/internal.h:566-567). -/
def MODES_MAX_SZ : Nat := 4096
def MODE_SZ : Nat := 5

/-! ## The client -/

/-- `TTYWordSet` (src/internal.c:20681-20687). The buffer is what it holds up to `*idx`. -/
def ttyWordSet (flag type : Nat) (out : Bytes) : Bytes :=
  if out.length + MODE_SZ + 1 > MODES_MAX_SZ then out else out ++ (UInt8.ofNat type :: c32toa flag)

/-- `TTYSet` (src/internal.c:20693-20700). -/
def ttySet (isSet : BitVec 32) (type : Nat) (out : Bytes) : Bytes :=
  if out.length + MODE_SZ + 1 > MODES_MAX_SZ then out
  else out ++ (UInt8.ofNat type :: c32toa (if isSet ≠ 0 then 1 else 0))

/-- `TTYCharSet` (src/internal.c:20702-20705). -/
def ttyCharSet (flag : Byte) (type : Nat) (out : Bytes) : Bytes := ttyWordSet flag.toNat type out

/-- The control characters in the order they are written (src/internal.c:20724-20759): VINTR, VQUIT, VERASE, VKILL, VEOF, VEOL,
VEOL2, VSTART, VSTOP, VSUSP, VDSUSP, VREPRINT, VWERASE, VLNEXT, VFLUSH, VSWTCH, VSTATUS, VDISCARD. -/
def ccOps : List Nat := [1, 2, 3, 4, 5, 6, 7, 8, 9, 10, 11, 12, 13, 14, 15, 16, 17, 18]

/-- `c_iflag` (src/internal.c:20761-20782), `c_lflag` (20784-20805), `c_oflag` (20807-20823), `c_cflag` (20825-20829). -/
def flagOps : List (Field × Nat) :=
  [(.iflag, 30), (.iflag, 31), (.iflag, 32), (.iflag, 33), (.iflag, 34), (.iflag, 35), (.iflag, 36), (.iflag, 37),
   (.iflag, 38), (.iflag, 39), (.iflag, 40), (.iflag, 41), (.iflag, 42),
   (.lflag, 50), (.lflag, 51), (.lflag, 52), (.lflag, 53), (.lflag, 54), (.lflag, 55), (.lflag, 56), (.lflag, 57),
   (.lflag, 58), (.lflag, 59), (.lflag, 60), (.lflag, 61), (.lflag, 62),
   (.oflag, 70), (.oflag, 71), (.oflag, 72), (.oflag, 73), (.oflag, 74), (.oflag, 75),
   (.cflag, 90), (.cflag, 91), (.cflag, 92), (.cflag, 93)]

/-- One control character, if the platform has it. -/
def putChar (p : Platform) (t : Termios) (out : Bytes) (op : Nat) : Bytes :=
  match p.cc op with
  | some i => ttyCharSet (t.cc i) op out
  | none => out

/-- One flag, if the platform has it. -/
def putFlag (p : Platform) (t : Termios) (out : Bytes) (op : Field × Nat) : Bytes :=
  match p.mask op.2 with
  | some m => ttySet (t.flag op.1 &&& m) op.2 out
  | none => out

/-- `CreateModeTermios` (src/internal.c:20709-20832) for a terminal that can be read. -/
def createModeTermios (p : Platform) (t : Termios) : Bytes :=
  let out := ttyWordSet t.ospeed 129 (ttyWordSet t.ospeed 128 [])
  let out := ccOps.foldl (putChar p t) out
  flagOps.foldl (putFlag p t) out

/-- `CreateMode` (src/internal.c:20839-20868); `term` is none if `tcgetattr` fails. -/
def createMode (p : Platform) (term : Option Termios) : Option Bytes :=
  let out := match term with
    | some t => createModeTermios p t
    | none => ttyWordSet 38400 129 (ttyWordSet 38400 128 [])
  if out.length + 1 ≤ MODES_MAX_SZ then some (out ++ [0]) else none

/-! ## The server -/

/-- `TTY_SET_CHAR` (src/internal.c:11338), if the platform has the character. -/
def setChar (p : Platform) (op arg : Nat) (t : Termios) : Termios :=
  match p.cc op with
  | some i => { t with cc := fun k => if k = i then UInt8.ofNat arg else t.cc k }
  | none => t

/-- `TTY_SET_FLAG` (src/internal.c:11339), if the platform has the flag. -/
def setFlag (p : Platform) (f : Field) (op arg : Nat) (t : Termios) : Termios :=
  match p.mask op with
  | some m => { t with flag := fun k => if k = f then (if arg ≠ 0 then t.flag k ||| m else t.flag k &&& ~~~m) else t.flag k }
  | none => t

/-- The `switch` (src/internal.c:11367-11590). OCRNL (73) is left alone. -/
def setMode (p : Platform) (op arg : Nat) (t : Termios) : Termios :=
  if 1 ≤ op ∧ op ≤ 18 then setChar p op arg t
  else if 30 ≤ op ∧ op ≤ 42 then setFlag p .iflag op arg t
  else if 50 ≤ op ∧ op ≤ 62 then setFlag p .lflag op arg t
  else if op = 73 then t
  else if 70 ≤ op ∧ op ≤ 75 then setFlag p .oflag op arg t
  else if 90 ≤ op ∧ op ≤ 93 then setFlag p .cflag op arg t
  else if op = 128 then if p.speed arg then { t with ispeed := arg } else t
  else if op = 129 then if p.speed arg then { t with ospeed := arg } else t
  else t

/-- The loop of `wolfSSH_DoModes` (src/internal.c:11361-11592) over `modesSz` bytes at `modes`; `none` is a read outside of `modes`,
or no end after `fuel` rounds. -/
def loop (p : Platform) (modes : Bytes) (modesSz : Nat) : Nat → Nat → Termios → Option Termios
  | 0, _, _ => none
  | fuel + 1, idx, t =>
    if add32 idx MODE_SZ ≤ modesSz then
      match modes[idx]? with
      | none => none
      | some op =>
        if op ≠ 0 ∧ op < 160 then
          match modes[idx + 1]?, modes[idx + 2]?, modes[idx + 3]?, modes[idx + 4]? with
          | some a, some b, some c, some d =>
            loop p modes modesSz fuel (add32 idx MODE_SZ) (setMode p op.toNat (ato32 a b c d) t)
          | _, _, _, _ => none
        else some t
    else some t

/-- `wolfSSH_DoModes` (src/internal.c:11341-11597) for a terminal `t`: what it returns and the terminal. `modes` is `none` for
`NULL`. -/
def doModes (p : Platform) (modes : Option Bytes) (t : Termios) : Option (Int × Termios) :=
  match modes with
  | none => some (-1, t)
  | some m =>
    if m.length = 0 ∨ m.length % MODE_SZ > 1 then some (-1, t)
    else (loop p m m.length (m.length + 1) 0 t).map fun t => (0, t)

end Wolf.Modes
