/-!
# Shared vocabulary of the model

`word32` values are natural numbers; every 32-bit addition or subtraction that the C code
performs is written with `add32` / `sub32`, which wrap modulo 2^32 exactly like the C type
`word32` (`typedef unsigned int word32`, wolfssl/wolfcrypt/types.h).
-/

namespace Wolf

/-- A byte (`byte`, wolfssl/wolfcrypt/types.h). -/
abbrev Byte := UInt8

/-- A finite byte string. -/
abbrev Bytes := List UInt8

/-- Number of values of a C `word32`. -/
def W : Nat := 4294967296

/-- C `a + b` on `word32`. -/
def add32 (a b : Nat) : Nat := (a + b) % 4294967296

/-- C `a - b` on `word32`. -/
def sub32 (a b : Nat) : Nat := (4294967296 - b % 4294967296 + a) % 4294967296

/-- C `min(a, b)` (src/misc.c:58-62). -/
def cmin (a b : Nat) : Nat := if a > b then b else a

/-- Return codes of the library (wolfssh/error.h:39-150, I/O codes 154-162); only those
the model mentions. -/
inductive Err where
  | badArgument | memory | bufferE | parseE | overflowE | wantRead | wantWrite
  | recvOverflow | versionE | sendOob | unimplemented | invalidAlgoId | decryptE
  | verifyMac | resourceE | invalidChanType | invalidChanId | invalidUsername
  | cryptoFailed | invalidState | eof | chanOpenFailed | rekeying | channelClosed
  | invalidPath | matchKexAlgo | matchKeyAlgo | matchEncAlgo | matchMacAlgo
  | chanRxd | extData | invalidExtData | userAuthE | channelNotConf | windowFull
  | missingCallback | dhSize | msgNotAllowed | authPending | disconnect | socketError
  | fatal | permissions | badUsage | encryptE | inputCase | pubkeyRejected | rsaE | eccE | sigE
  | invalidPrimeCurve | keyFormatE | badFile | scpBadMsg | scpTimestamp | scpCmd
  deriving DecidableEq, Repr

end Wolf
