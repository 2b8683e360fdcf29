import Verif.Model.ReadKey
import Verif.Model.PemBundle
/-!
# Reading a certificate from a buffer

`wolfSSH_ReadCert_buffer` (src/ssh.c:2540-2604) with `SniffCertForm`, `DoPemCert`, `DoDerCert` and `DoOsshCert` (src/ssh.c:2361-2535).
`DoSshPubKey` and `wstrnstr` are in `Verif/Model/ReadKey.lean`. `OsshCertParse` (Verif/Model/OsshCert.lean), `IdentifyCert`,
`IsTrustedCertPem` and the decoders of wolfCrypt are parameters.
-/

namespace Wolf.ReadCert
open Wolf (Byte Bytes)
open Wolf.ReadKey (nameToId idToName sshPub strnstr)

/-- The build (`WOLFSSH_CERTS`, `WOLFSSH_OSSH_CERTS`, `WOLFSSH_HAVE_TRUSTED_CERT_PEM`) and the outside: the names and base64;
`IsTrustedCertPem`, `wc_CertPemToDer`, `IdentifyCert`, the numbers `ID_OSSH_CERT_*`, and whether `OsshCertParse` succeeds. -/
structure Lib where
  K : ReadKey.Lib
  certs : Bool
  ossh : Bool
  trusted : Bool
  isTrusted : Bytes → Bool
  pem : Bytes → Option Bytes
  identify : Bytes → Option Nat
  certIds : List Nat
  parses : Nat → Bytes → Bool

/-- `WOLFSSH_CERT_FLAVOR_*`. -/
inductive Flavor where
  | unknown | x509 | ossh
  deriving DecidableEq, Repr

/-- Return codes. `other`: any of the functions called. -/
inductive Ret where
  | success | badArgument | badFileType | memory | parse | other
  deriving DecidableEq, Repr

/-- `WOLFSSH_FORMAT_ASN1`, `_PEM` and `_SSH`, the last with `certId`. -/
inductive Form where
  | asn1 | pem | ssh (id : Nat)
  deriving DecidableEq, Repr

/-- `CertBeginPrefix` (src/ssh.c:2351). -/
def certMark : Bytes := "-----BEGIN CERTIFICATE-----".toUTF8.toList

/-- `TrustedCertBeginPrefix` (src/ssh.c:2354). -/
def trustedMark : Bytes := "-----BEGIN TRUSTED CERTIFICATE-----".toUTF8.toList

/-- `IsTrustedCertPem` (src/internal.c:2742-2757), with the headers that wolfSSL has for the two types. `Lib.isTrusted` is this in
the code; only `C151_trusted` depends on it. -/
def isTrustedPem (inp : Bytes) : Bool :=
  (PemBundle.find certMark inp).isNone && (PemBundle.find trustedMark inp).isSome

/-- The end of the first word (src/ssh.c:2394-2395). -/
def stop (c : Byte) : Bool := c == 32 || c == 9 || c == 13 || c == 10

/-- `SniffCertForm` (src/ssh.c:2361-2425): the form and the flavor, or `WS_BAD_FILETYPE_E`. The word that is taken is cut after 48
bytes (`WOLFSSH_MAX_CERT_ALGO_NAME_SZ`, src/ssh.c:2359). -/
def sniff (L : Lib) (inp : Bytes) : Option (Form × Flavor) :=
  if L.certs = true ∧ inp.head? = some 0x30 then some (.asn1, .x509)
  else if L.certs = true ∧ (strnstr certMark inp).isSome then some (.pem, .x509)
  else if L.certs = true ∧ L.trusted = true ∧ (strnstr trustedMark inp).isSome then some (.pem, .x509)
  else if L.ossh = true then
    let tok := (inp.take 48).takeWhile (!stop ·)
    if 0 < tok.length ∧ tok.length < 48 then
      if nameToId L.K tok ∈ L.certIds then some (.ssh (nameToId L.K tok), .ossh) else none
    else none
  else none

/-- After a decoder, or the call: the code, `*out` with the bytes there (`none`: NULL), the name of the type (empty: NULL), the
flavor, and how many buffers were allocated and freed. -/
structure Out where
  ret : Ret
  out : Option Bytes
  typ : Bytes
  flavor : Flavor
  allocs : Nat
  frees : Nat
  deriving DecidableEq, Repr

/-- `DoPemCert` (src/ssh.c:2430-2473). -/
def pemCert (L : Lib) (al : Nat → Bool) (inp : Bytes) (fl : Flavor) : Out :=
  if L.trusted = true ∧ L.isTrusted inp = true then ⟨.badFileType, none, [], fl, 0, 0⟩
  else if al 0 = false then ⟨.memory, none, [], fl, 0, 0⟩
  else match L.pem inp with
  | some (c :: d) => match L.identify (c :: d) with
    | none => ⟨.other, none, [], fl, 1, 1⟩
    | some i => ⟨.success, some (c :: d), idToName L.K i, fl, 1, 0⟩
  | _ => ⟨.parse, none, [], fl, 1, 1⟩

/-- `DoDerCert` (src/ssh.c:2477-2504). -/
def derCert (L : Lib) (al : Nat → Bool) (inp : Bytes) (fl : Flavor) : Out :=
  match L.identify inp with
  | none => ⟨.other, none, [], fl, 0, 0⟩
  | some i =>
    if al 0 = false then ⟨.memory, none, [], fl, 0, 0⟩
    else ⟨.success, some inp, idToName L.K i, fl, 1, 0⟩

/-- `DoOsshCert` (src/ssh.c:2513-2533); `junk` is what is in the new buffer. `none`: undefined behaviour of `DoSshPubKey`. -/
def osshCert (L : Lib) (al : Nat → Bool) (junk : Nat → Bytes) (id : Nat) (inp : Bytes) (fl : Flavor) : Option Out :=
  if al 0 = false then some ⟨.memory, none, [], fl, 0, 0⟩
  else match sshPub L.K (fun n => al (n + 1)) inp (some (junk inp.length)) with
  | none => none
  | some o =>
    if o.ret = .success then
      if L.parses id o.data then some ⟨.success, some o.data, o.typ, fl, o.allocs + 1, o.frees⟩
      else some ⟨.other, none, o.typ, fl, o.allocs + 1, o.frees + 1⟩
    else some ⟨.other, none, o.typ, fl, o.allocs + 1, o.frees + 1⟩

/-- The outputs are cleared by a failure (src/ssh.c:2594-2600). -/
def clear (o : Out) : Out :=
  if o.ret = .success then o else ⟨o.ret, none, [], .unknown, o.allocs, o.frees⟩

/-- `wolfSSH_ReadCert_buffer` (src/ssh.c:2540-2604); pointers are not NULL. With an empty input, the outputs are left alone. -/
def readCert (L : Lib) (al : Nat → Bool) (junk : Nat → Bytes) (inp : Bytes) : Option Out :=
  if inp = [] then some ⟨.badArgument, none, [], .unknown, 0, 0⟩
  else match sniff L inp with
  | none => some ⟨.badFileType, none, [], .unknown, 0, 0⟩
  | some (.asn1, fl) => some (clear (derCert L al inp fl))
  | some (.pem, fl) => some (clear (pemCert L al inp fl))
  | some (.ssh id, fl) => (osshCert L al junk id inp fl).map clear

end Wolf.ReadCert
