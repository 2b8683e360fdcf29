import Verif.Model.Basic
/-!
# Root certificates from a PEM file

`LoadRootCaPemBuffer` (src/internal.c:2761-2918), which `wolfSSH_CTX_AddRootCert_buffer` and `wolfsshd` use for files of
certificates of authorities. What becomes of a block once it is found (`wc_PemToDer` and the certificate manager) is a
choice of the environment. `word32` arithmetic on offsets is that of naturals, since all of them are offsets into the
buffer; that none is outside of it is part of what is proved.
-/

namespace Wolf.PemBundle
open Wolf (Byte Bytes)

/-- The two forms of a certificate in PEM. -/
inductive Kind where
  | cert | trusted
  deriving DecidableEq, Repr

/-- What `wc_PemGetHeaderFooter` gives for `CA_TYPE` and `TRUSTED_CERT_TYPE` (src/internal.c:2798-2816):
"-----BEGIN CERTIFICATE-----" and "-----BEGIN TRUSTED CERTIFICATE-----". -/
def header : Kind → Bytes
  | .cert =>
    [45, 45, 45, 45, 45, 66, 69, 71, 73, 78, 32, 67, 69, 82, 84, 73, 70, 73, 67, 65, 84, 69, 45, 45, 45, 45,
     45]
  | .trusted =>
    [45, 45, 45, 45, 45, 66, 69, 71, 73, 78, 32, 84, 82, 85, 83, 84, 69, 68, 32, 67, 69, 82, 84, 73, 70, 73,
     67, 65, 84, 69, 45, 45, 45, 45, 45]

/-- "-----END CERTIFICATE-----" and "-----END TRUSTED CERTIFICATE-----". -/
def footer : Kind → Bytes
  | .cert =>
    [45, 45, 45, 45, 45, 69, 78, 68, 32, 67, 69, 82, 84, 73, 70, 73, 67, 65, 84, 69, 45, 45, 45, 45, 45]
  | .trusted =>
    [45, 45, 45, 45, 45, 69, 78, 68, 32, 84, 82, 85, 83, 84, 69, 68, 32, 67, 69, 82, 84, 73, 70, 73, 67, 65,
     84, 69, 45, 45, 45, 45, 45]

/-- `FindInBuffer` (src/internal.c:2718-2736) for a needle that is not empty: where it first occurs. -/
def find (needle : Bytes) : Bytes → Option Nat
  | [] => none
  | x :: b => if needle.isPrefixOf (x :: b) then some 0 else (find needle b).map (· + 1)

/-- The blocks that were handed to `wc_PemToDer`, and the counters. -/
structure Log where
  handed : List (Kind × Bytes) := []
  loaded : Nat := 0
  failed : Nat := 0
  deriving DecidableEq, Repr

/-- A block is decoded and loaded, or fails (src/internal.c:2883-2907); `good n`: the `n`-th one succeeds. -/
def hand (good : Nat → Bool) (l : Log) (k : Kind) (b : Bytes) : Log :=
  if good l.handed.length then { l with handed := l.handed ++ [(k, b)], loaded := l.loaded + 1 }
  else { l with handed := l.handed ++ [(k, b)], failed := l.failed + 1 }

/-- The header that comes first, and its form (src/internal.c:2825-2842). -/
def pick (nc nt : Option Nat) : Option (Kind × Nat) :=
  match nc, nt with
  | some c, some t => if t < c then some (.trusted, t) else some (.cert, c)
  | some c, none => some (.cert, c)
  | none, some t => some (.trusted, t)
  | none, none => none

/-- The next header behind `bodyStart` (src/internal.c:2862-2870). -/
def nextHeader (nc nt : Option Nat) (bodyStart : Nat) : Option Nat :=
  let nc := nc.filter (bodyStart ≤ ·)
  match nt.filter (bodyStart ≤ ·), nc with
  | some t, some c => if t < c then some t else some c
  | some t, none => some t
  | none, c => c

/-- How far the footer is looked for (src/internal.c:2872-2875). -/
def searchSz (next : Option Nat) (inSz bodyStart : Nat) : Nat :=
  match next with
  | some p => p - bodyStart
  | none => inSz - bodyStart

/-- The subtraction would wrap around. -/
def wraps (next : Option Nat) (bodyStart : Nat) : Bool :=
  match next with
  | some p => decide (p < bodyStart)
  | none => false

/-- The loop (src/internal.c:2824-2909). `nc` and `nt` are `nextCert` and `nextTrusted` as offsets (the latter is
always `none` without `WOLFSSH_HAVE_TRUSTED_CERT_PEM`). `none`: an offset or a size is outside of the buffer, or there is no end after `fuel` rounds. -/
def loop (good : Nat → Bool) (inp : Bytes) : Nat → Nat → Option Nat → Option Nat → Log → Option Log
  | 0, _, _, _, _ => none
  | fuel + 1, used, nc, nt, l =>
    if used < inp.length then
      match pick nc nt with
      | none => some l
      | some (k, pos) =>
        let bodyStart := pos + (header k).length
        if inp.length < bodyStart then none
        else
          let rest := inp.drop bodyStart
          let next := (find (header k) rest).map (· + bodyStart)
          let nc := if k = .cert then next else nc
          let nt := if k = .trusted then next else nt
          if wraps (nextHeader nc nt bodyStart) bodyStart = true ∨
              rest.length < searchSz (nextHeader nc nt bodyStart) inp.length bodyStart then none
          else
          match find (footer k) (rest.take (searchSz (nextHeader nc nt bodyStart) inp.length bodyStart)) with
          | none => loop good inp fuel bodyStart nc nt { l with failed := l.failed + 1 }
          | some o =>
            let blockSz := bodyStart + o - pos + (footer k).length
            loop good inp fuel (pos + blockSz) nc nt (hand good l k ((inp.drop pos).take blockSz))
    else some l

/-- What it returns: `WS_SUCCESS`, `WS_PARSE_E` or `WS_BAD_FILE_E` (src/internal.c:2911-2921). -/
inductive Ret where
  | success | parse | badFile
  deriving DecidableEq, Repr

def retOf (l : Log) : Ret := if 0 < l.loaded then .success else if 0 < l.failed then .parse else .badFile

/-- `LoadRootCaPemBuffer` (src/internal.c:2763-2924) with a certificate manager; `tr`: `WOLFSSH_HAVE_TRUSTED_CERT_PEM`. -/
def load (tr : Bool) (good : Nat → Bool) (inp : Bytes) : Option (Ret × Log) :=
  (loop good inp (2 * inp.length + 1) 0 (find (header .cert) inp)
    (if tr then find (header .trusted) inp else none) {}).map fun l => (retOf l, l)

end Wolf.PemBundle
