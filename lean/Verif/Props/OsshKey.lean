import Verif.Proofs.OsshKey
/-!
# C136, C137: reading a private key in OpenSSH's format

C136: a private key file in OpenSSH's format is read as what it is. A file is accepted exactly if it is the encoding of one
key of a type that is built in, with both check numbers the same, with a padding that counts from 1, whose numbers the crypto
library takes; and what the crypto library is given are the numbers of the file. So a key that was written without a
passphrase is read back. No file makes the library look beyond its end.

The names of the cipher and the key derivation, the public key in clear, the name of the curve, and a padding that does not
fill the last block of eight are not looked at: `C136_clear`, `C136_curve`.

C137: whatever the file contains and whichever of the initialisations and imports fails, every object of the crypto library
that was made is freed, and none twice.
-/

namespace Props.OsshKey
open Wolf Wolf.OsshKey Spec.OsshKey Proofs.OsshKey
open Spec.OsshCert (ascii NonNegative)

/-- A file with an Ed25519 key, and a crypto library that takes it. -/
def sample : File :=
  { cipher := ascii "none", kdf := ascii "none", kdfOptions := [], pub := [9, 9], check := 77, kind := .ed25519, parts := [[1, 2], [3, 4, 1, 2]], comment := ascii "me@x", pad := [1, 2, 3], rest := [] }

def agreeing : Env := { imports := fun k ps => k == .p256 || ps == [[3, 4], [1, 2]], seedPub := fun _ _ => none, tradPub := fun _ _ _ => none }

/-- What is accepted, and as what. -/
theorem C136_partial (E : Env) (m : Bytes) (hw : m.length < 2 ^ 32) (k : Kind) (ps : List Bytes) :
    (getOpenSshKey E m m.length).1 = .ok (k, ps) ↔
      ∃ f : File, m = encode f ∧ Readable f ∧ f.kind = k ∧ f.parts = ps ∧ Agrees E k ps := by
  constructor
  · exact whole_inv hw
  · rintro ⟨f, rfl, hf, rfl, rfl, ha⟩
    exact whole_fwd hw hf ha

theorem sample_written : Written sample := by
  refine ⟨rfl, rfl, rfl, by decide, ⟨_, _, rfl⟩, by decide +kernel, ?_, by decide, rfl⟩
  intro i h
  have h' : i < 3 := h
  match i, h' with
  | 0, _ => rfl
  | 1, _ => rfl
  | 2, _ => rfl

example : (getOpenSshKey agreeing (encode sample) (encode sample).length).1 = .ok (.ed25519, [[1, 2], [3, 4, 1, 2]]) := by
  decide +kernel

example : (getOpenSshKey agreeing (encode { sample with pad := [1, 2, 4] }) (encode sample).length).1 = .err .format := by
  decide +kernel

/-- A key as OpenSSH writes it is read back. -/
theorem C136_written (E : Env) (f : File) (hw : (encode f).length < 2 ^ 32) (h : Written f) (ha : Agrees E f.kind f.parts) :
    (getOpenSshKey E (encode f) (encode f).length).1 = .ok (f.kind, f.parts) :=
  whole_fwd hw ⟨h.check, h.parts, fun _ => h.pad⟩ ha

example : Written sample ∧ Agrees agreeing sample.kind sample.parts :=
  ⟨sample_written, rfl, rfl, by decide, by decide +kernel⟩

/-- Nothing beyond the end of the file is read. -/
theorem C136_safe (E : Env) (m : Bytes) (n : Nat) (hl : n ≤ m.length) (hw : n < 2 ^ 32) : (getOpenSshKey E m n).1 ≠ .ub :=
  whole_ne_ub hl hw

example : (getOpenSshKey agreeing (encode sample) 60).1 = .err .buffer := by decide +kernel

/-- What stands in clear makes no difference: a file that says that it is encrypted, or has another public key than the one of
the private key, is accepted as well. -/
theorem C136_clear (E : Env) (f : File) (cipher kdf kdfOptions pub rest : Bytes) (h : Written f) (ha : Agrees E f.kind f.parts)
    (hw : (encode { f with cipher := cipher, kdf := kdf, kdfOptions := kdfOptions, pub := pub, rest := rest }).length < 2 ^ 32) :
    (getOpenSshKey E (encode { f with cipher := cipher, kdf := kdf, kdfOptions := kdfOptions, pub := pub, rest := rest })
      (encode { f with cipher := cipher, kdf := kdf, kdfOptions := kdfOptions, pub := pub, rest := rest }).length).1 =
      .ok (f.kind, f.parts) :=
  whole_fwd hw ⟨h.check, h.parts, fun _ => h.pad⟩ ha

example : (getOpenSshKey agreeing (encode { sample with cipher := ascii "aes256-ctr", kdf := ascii "bcrypt", pub := [] })
    (encode { sample with cipher := ascii "aes256-ctr", kdf := ascii "bcrypt", pub := [] }).length).1 =
    .ok (.ed25519, [[1, 2], [3, 4, 1, 2]]) := by decide +kernel

/-- Nor does the name of the curve: a key for NIST P-256 may name any other. -/
theorem C136_curve (E : Env) (f : File) (c c' q d : Bytes) (hk : f.kind = .p256)
    (ha : Agrees E .p256 [c, q, d]) (hf : Readable { f with parts := [c', q, d] })
    (hw : (encode { f with parts := [c', q, d] }).length < 2 ^ 32) :
    (getOpenSshKey E (encode { f with parts := [c', q, d] }) (encode { f with parts := [c', q, d] }).length).1 =
      .ok (.p256, [c', q, d]) := by
  have ha' : Agrees E ({ f with parts := [c', q, d] } : File).kind [c', q, d] := by
    show Agrees E f.kind [c', q, d]
    rw [hk]
    exact ha
  have := whole_fwd hw hf ha'
  rw [this]
  show Ret.ok (f.kind, [c', q, d]) = _
  rw [hk]

example : (getOpenSshKey agreeing (encode { sample with kind := .p256, parts := [ascii "nistp521", [4, 1, 2], [5]], pad := [] })
    (encode { sample with kind := .p256, parts := [ascii "nistp521", [4, 1, 2], [5]], pad := [] }).length).1 =
    .ok (.p256, [ascii "nistp521", [4, 1, 2], [5]]) := by decide +kernel

/-- Every object is freed, and once. -/
theorem C137 (E : Env) (m : Bytes) (n : Nat) :
    (identify E m n).2.twice = false ∧ (identify E m n).2.obj ≠ .live ∧ (identify E m n).2.trad ≠ .live :=
  (owned_whole E m n).2

/-- The caller of `GetOpenSshKey` who cleans the key has freed everything, too, whatever was returned. -/
theorem C137_caller (E : Env) (m : Bytes) (n : Nat) :
    (clean (getOpenSshKey E m n).2).twice = false ∧ (clean (getOpenSshKey E m n).2).obj ≠ .live ∧
      (clean (getOpenSshKey E m n).2).trad ≠ .live ∧ (getOpenSshKey E m n).2.twice = false :=
  ⟨(owned_whole E m n).2.1, (owned_whole E m n).2.2.1, (owned_whole E m n).2.2.2, (owned_whole E m n).1⟩

example : (getOpenSshKey agreeing (encode sample) (encode sample).length).2 = { kind := some .ed25519, obj := .live } ∧
    (identify agreeing (encode sample) (encode sample).length) = (.ok .ed25519, { kind := some .ed25519, obj := .freed }) ∧
    (identify agreeing (encode { sample with pad := [1, 2, 4] }) (encode sample).length) = (.err .format, { obj := .freed }) := by
  decide +kernel

end Props.OsshKey
