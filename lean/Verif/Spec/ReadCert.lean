import Verif.Model.ReadCert
import Verif.Spec.ReadKey
/-!
# Specification: reading certificates

Of the model only its parameters and the flavors are used.
-/

namespace Spec.ReadCert
open Wolf.ReadCert (Lib Flavor)
open Spec.ReadKey (asc Line NumberOf NameOf Short)

/-- The mark is in the text, before any zero byte. -/
def Has (mark inp : List UInt8) : Prop := ∃ a b, inp = a ++ (mark ++ b) ∧ 0 ∉ a

/-- A certificate of X.509 in PEM. -/
def Pem (L : Lib) (inp : List UInt8) : Prop :=
  Has (asc "-----BEGIN CERTIFICATE-----") inp ∨ (L.trusted = true ∧ Has (asc "-----BEGIN TRUSTED CERTIFICATE-----") inp)

/-- The first word of a text, before a blank, a tab or the end of the line, shorter than 48 bytes. -/
def First (inp word : List UInt8) : Prop :=
  ∃ rest, inp = word ++ rest ∧ word ≠ [] ∧ word.length < 48 ∧ (∀ c ∈ word, c ≠ 32 ∧ c ≠ 9 ∧ c ≠ 13 ∧ c ≠ 10) ∧
    (rest = [] ∨ ∃ c r, rest = c :: r ∧ (c = 32 ∨ c = 9 ∨ c = 13 ∨ c = 10))

/-- The certificate in a text, with the name of its type and its flavor: of X.509 in DER or in PEM, but not with trust data; or of
OpenSSH, in a line. -/
inductive CertIn (L : Lib) (inp : List UInt8) : List UInt8 → List UInt8 → Flavor → Prop
  | der (i : Nat) (t : List UInt8) : L.certs = true → inp.head? = some 0x30 → L.identify inp = some i → NameOf L.K i t →
      CertIn L inp inp t .x509
  | pem (d : List UInt8) (i : Nat) (t : List UInt8) : L.certs = true → inp.head? ≠ some 0x30 → Pem L inp →
      ¬ (L.trusted = true ∧ L.isTrusted inp = true) → L.pem inp = some d → d ≠ [] → L.identify d = some i → NameOf L.K i t →
      CertIn L inp d t .x509
  | line (w : List UInt8) (i : Nat) (type key d : List UInt8) (j : Nat) (t : List UInt8) : L.ossh = true →
      ¬ (L.certs = true ∧ (inp.head? = some 0x30 ∨ Pem L inp)) →
      First inp w → NumberOf L.K w i → i ∈ L.certIds → Line inp type key → L.K.base64 key = .good d → L.parses i d = true →
      NumberOf L.K type j → NameOf L.K j t → CertIn L inp d t .ossh

end Spec.ReadCert
