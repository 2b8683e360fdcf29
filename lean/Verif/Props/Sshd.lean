import Verif.Proofs.SshdKeys
import Verif.Proofs.SshdPath
import Verif.Proofs.SshdCert
/-!
# C86, C87, C88: wolfsshd's keys files, their paths, and the conditions of a certificate

The functions are those of apps/wolfsshd/auth.c (Model/SshdKeys.lean, Model/SshdCert.lean); the specifications are
Spec/Sshd.lean and Spec/SshdCert.lean.
-/

namespace Props.Sshd
open Wolf Wolf.Sshd Wolf.NameList Spec.Sshd Spec.SshdCert
open Proofs.SshdKeys (Tame Plain)
open Spec.NameList (split)

/-- ASCII text. -/
def ascii (s : String) : Bytes := s.toUTF8.toList

/-! ## C86: keys files -/

/-- C86. A key is found only if a line of the file lists it, in files without NUL bytes whose lines fit the
buffer. -/
theorem C86_sound {E : KeysEnv} (hd : Decoder E.base64) {file key : Bytes} {strict : Bool} (ht : Tame E file)
    (h : searchKeysFile E (some file) strict key = .success) :
    ∃ l ∈ fileLines file, Lists (Plain E.tbl) E.base64 l key := by
  rw [searchKeysFile] at h
  by_cases hk : key = []
  · rw [if_pos hk] at h; cases h
  · rw [if_neg hk] at h
    exact Proofs.SshdKeys.search_sound hd hk _ _ ht h

/-- C86. A listed key is found. Partial: the lines before it must be sound (see `C86_malformed_witness`). -/
theorem C86_complete_partial {E : KeysEnv} (hd : Decoder E.base64) {file key : Bytes} {strict : Bool} (ht : Tame E file)
    (hk : key ≠ []) {pre post : List Bytes} {l : Bytes} (hl : fileLines file = pre ++ l :: post)
    (hs : ∀ m ∈ pre, Sound (Plain E.tbl) E.base64 m) (h : Lists (Plain E.tbl) E.base64 l key) :
    searchKeysFile E (some file) strict key = .success := by
  rw [searchKeysFile, if_neg hk]
  exact Proofs.SshdKeys.search_complete hd hk _ _ _ _ _ ht (Nat.le_refl _) hl hs h

/-- C86. Of any file whatsoever: a key that is found stands in it, in base64, after the name of a plain key type
and blanks. -/
theorem C86_present {E : KeysEnv} {opened : Option Bytes} {key : Bytes} {strict : Bool}
    (h : searchKeysFile E opened strict key = .success) :
    ∃ file ty gap b, opened = some file ∧ Plain E.tbl ty ∧ gap ≠ [] ∧ (∀ c ∈ gap, c = 32) ∧
      E.base64 b = some key ∧ (ty ++ gap ++ b) <:+: file := by
  rw [searchKeysFile.eq_def] at h
  by_cases hk : key = []
  · rw [if_pos hk] at h; cases h
  · rw [if_neg hk] at h
    cases opened with
    | none => cases strict <;> cases h
    | some file =>
      obtain ⟨ty, g, b, h1, h2, h3, h4, h5⟩ := Proofs.SshdKeys.search_present _ _ h
      exact ⟨file, ty, g, b, rfl, h1, h2, h3, h4, h5⟩

/-- A file that cannot be opened, or an empty key, authorizes nothing. -/
theorem C86_unopened (E : KeysEnv) (strict : Bool) (key : Bytes) : searchKeysFile E none strict key ≠ .success := by
  intro h
  obtain ⟨_, _, _, _, h, _⟩ := C86_present h
  cases h

/-- A decoder for the examples: it drops newlines and cannot decode a `!`. -/
def demoDec (b : Bytes) : Option Bytes := if 33 ∈ b then none else some (b.filter (fun c => c ≠ 10))

theorem demoDec_ok : Decoder demoDec := by
  refine ⟨fun b => ?_, fun k h => ?_⟩
  · simp only [demoDec, List.mem_append, List.mem_singleton, List.filter_append]
    simp
  · simpa [demoDec] using h.symm

def demoTable : Table :=
  [⟨1, .key, ascii "ssh-rsa"⟩, ⟨2, .key, ascii "ssh-rsa-cert-v01@openssh.com"⟩, ⟨3, .kex, ascii "kex"⟩]

def demoEnv : KeysEnv := ⟨demoTable, demoDec, 60⟩

def demoFile : Bytes := ascii "# keys of bob\n\nssh-foo !\nssh-rsa AAAA bob@a\n  ssh-rsa BBBB\n"

example : Tame demoEnv demoFile := ⟨by decide +kernel, by decide +kernel⟩
example : searchKeysFile demoEnv (some demoFile) true (ascii "BBBB") = .success := by decide +kernel
example : searchKeysFile demoEnv (some demoFile) true (ascii "CCCC") = .failure := by decide +kernel
example : searchKeysFile demoEnv (some (ascii "ssh-rsa-cert-v01@openssh.com AAAA\n#ssh-rsa AAAA\n")) true (ascii "AAAA") = .failure := by
  decide +kernel

/-- The hypotheses of `C86_complete_partial` are met by the last line of `demoFile`. -/
example : searchKeysFile demoEnv (some demoFile) false (ascii "BBBB") = .success := by
  refine C86_complete_partial demoDec_ok ⟨by decide +kernel, by decide +kernel⟩ (by decide +kernel)
    (pre := [ascii "# keys of bob", [], ascii "ssh-foo !", ascii "ssh-rsa AAAA bob@a"]) (l := ascii "  ssh-rsa BBBB")
    (post := [[]]) (by decide +kernel) ?_ ?_
  · intro m hm
    simp only [List.mem_cons, List.not_mem_nil, or_false] at hm
    rcases hm with rfl | rfl | rfl | rfl
    · exact .inl (.inr ⟨ascii "#", [ascii "keys", ascii "of", ascii "bob"], by decide +kernel, by decide +kernel⟩)
    · exact .inl (.inl (by decide +kernel))
    · refine .inr ⟨ascii "ssh-foo", ascii "!", [], by decide +kernel, ?_⟩
      rintro ⟨⟨e, he, _, hn⟩, _⟩
      simp only [demoEnv, demoTable, List.mem_cons, List.not_mem_nil, or_false] at he
      rcases he with rfl | rfl | rfl <;> exact absurd hn (by decide +kernel)
    · exact .inr ⟨ascii "ssh-rsa", ascii "AAAA", [ascii "bob@a"], by decide +kernel, fun _ => by decide +kernel⟩
  · refine ⟨ascii "ssh-rsa", ascii "BBBB", [], by decide +kernel, by decide +kernel, ?_, by decide +kernel⟩
    exact (Proofs.SshdKeys.typeOk_iff _ _).1 (by decide +kernel)

/-- Disagreement: a line that cannot be read ends the search, and the keys after it are not found; so a file with
CRLF line ends and an empty line is cut off there. -/
theorem C86_malformed_witness :
    (∃ l ∈ fileLines (ascii "junk\nssh-rsa AAAA\n"), Lists (Plain demoEnv.tbl) demoEnv.base64 l (ascii "AAAA")) ∧
    searchKeysFile demoEnv (some (ascii "junk\nssh-rsa AAAA\n")) true (ascii "AAAA") = .error .fatal ∧
    searchKeysFile demoEnv (some (ascii "\r\nssh-rsa AAAA\n")) true (ascii "AAAA") = .error .fatal := by
  refine ⟨⟨ascii "ssh-rsa AAAA", by decide +kernel, ascii "ssh-rsa", ascii "AAAA", [], by decide +kernel, by decide +kernel, ?_,
    by decide +kernel⟩, by decide +kernel, by decide +kernel⟩
  exact (Proofs.SshdKeys.typeOk_iff _ _).1 (by decide +kernel)

/-- Disagreement: a comment line longer than the buffer is read in pieces, and a later piece counts as a line: the key
is found although no line lists it. -/
theorem C86_long_comment_witness :
    let file := 35 :: List.replicate 58 97 ++ ascii "ssh-rsa AAAA\n"
    searchKeysFile demoEnv (some file) true (ascii "AAAA") = .success ∧
    ¬∃ l ∈ fileLines file, Lists (Plain demoEnv.tbl) demoEnv.base64 l (ascii "AAAA") := by
  refine ⟨by decide +kernel, ?_⟩
  rintro ⟨l, hl, ty, b, rest, hw, hh, _⟩
  have e : fileLines (35 :: List.replicate 58 97 ++ ascii "ssh-rsa AAAA\n") =
      [35 :: List.replicate 58 97 ++ ascii "ssh-rsa AAAA", []] := by decide +kernel
  rw [e] at hl
  rcases List.mem_cons.1 hl with rfl | hl
  · have : words (35 :: List.replicate 58 97 ++ ascii "ssh-rsa AAAA") =
        [35 :: List.replicate 58 97 ++ ascii "ssh-rsa", ascii "AAAA"] := by decide +kernel
    rw [this] at hw
    simp only [List.cons.injEq] at hw
    obtain ⟨rfl, _⟩ := hw
    exact hh rfl
  · rw [List.mem_singleton] at hl
    subst hl
    have : words [] = [] := by decide +kernel
    rw [this] at hw; cases hw

/-! ## C87: which file is a user's keys file -/

/-- C87. The path is the one the pattern stands for, for every home directory, pattern and user name; if that does not
fit in 79 bytes, or the pattern has an unknown token, there is none. -/
theorem C87_path {home user path : Bytes} {pattern : Option Bytes} (hh : home.length < 2 ^ 31) (hu : user.length < 2 ^ 31) :
    resolveAuthKeysPath home pattern user = .ok path ↔ KeysPath home user pattern path ∧ path.length < 80 :=
  Proofs.SshdPath.resolve_iff hh hu

/-- C87. With one home directory and a pattern that mentions the user name, different users have different files. -/
theorem C87_own_partial {home u1 u2 pattern path : Bytes} (hh : home.length < 2 ^ 31) (h1 : u1.length < 2 ^ 31) (h2 : u2.length < 2 ^ 31)
    (n1 : u1 ≠ []) (n2 : u2 ≠ []) (s1 : (47 : UInt8) ∉ u1) (s2 : (47 : UInt8) ∉ u2) (hn : Names pattern)
    (r1 : resolveAuthKeysPath home (some pattern) u1 = .ok path)
    (r2 : resolveAuthKeysPath home (some pattern) u2 = .ok path) : u1 = u2 :=
  Proofs.SshdPath.keysPath_inj n1 n2 s1 s2 hn ((C87_path hh h1).1 r1).1 ((C87_path hh h2).1 r2).1

/-- C87. A user is let in by a key only if the file at that user's path could be opened and has the key. -/
theorem C87_search {E : KeysEnv} {openKeys : Bytes → Option Bytes} {home user key : Bytes} {pattern : Option Bytes} {strict : Bool}
    (hh : home.length < 2 ^ 31) (hu : user.length < 2 ^ 31)
    (h : searchForPubKey E openKeys home pattern user key strict = .success) :
    ∃ path file, KeysPath home user pattern path ∧ openKeys path = some file ∧
      searchKeysFile E (some file) strict key = .success := by
  rw [searchForPubKey] at h
  cases hr : resolveAuthKeysPath home pattern user with
  | error e => rw [hr] at h; cases h
  | ok path =>
    rw [hr] at h
    obtain ⟨file, _, _, _, hf, _⟩ := C86_present h
    simp only at h
    rw [hf] at h
    exact ⟨path, file, ((C87_path hh hu).1 hr).1, hf, h⟩

deriving instance DecidableEq for Except

example : resolveAuthKeysPath (ascii "/home/bob") (some (ascii "%h/keys/%u%%.pub")) (ascii "bob") =
    .ok (ascii "/home/bob/keys/bob%.pub") := by decide +kernel
example : resolveAuthKeysPath (ascii "/home/bob") (some (ascii "keys/%u")) (ascii "bob") =
    .ok (ascii "/home/bob/keys/bob") := by decide +kernel
example : resolveAuthKeysPath (ascii "/home/bob") none (ascii "bob") =
    .ok (ascii "/home/bob/.ssh/authorized_keys") := by decide +kernel
example : resolveAuthKeysPath (ascii "/home/bob") (some (ascii "/etc/%i")) (ascii "bob") = .error .fatal := by decide +kernel
example : Names (ascii "/etc/%%/%u") := by
  have e : ascii "/etc/%%/%u" = [47, 101, 116, 99, 47, 37, 37, 47, 37, 117] := by decide +kernel
  rw [e]
  exact .char (by decide) (.char (by decide) (.char (by decide) (.char (by decide) (.char (by decide) (.skip (.char (by decide) .here))))))
example : searchForPubKey demoEnv (fun p => if p = ascii "/k/bob" then some demoFile else none) (ascii "/home/bob")
    (some (ascii "/k/%u")) (ascii "bob") (ascii "BBBB") true = .success := by decide +kernel

/-- Why one home directory: with the pattern `%h%u`, two users with different homes can have the same file. -/
theorem C87_collision_witness :
    resolveAuthKeysPath (ascii "/a") (some (ascii "%h%u")) (ascii "bc") = .ok (ascii "/abc") ∧
    resolveAuthKeysPath (ascii "/ab") (some (ascii "%h%u")) (ascii "c") = .ok (ascii "/abc") := by
  decide +kernel

/-! ## C88: the conditions of a certificate -/

/-- C88. The certificate is for the user: the name is one of its principals. -/
theorem C88_principal {region name : Bytes} (hn : name.length < 2 ^ 32) :
    osshCertCheckPrincipal region name = .success ↔ Principal region name :=
  Proofs.SshdCert.principal_iff hn

/-- C88. It is valid now. -/
theorem C88_validity (sh : Wolf.OsshCert.Shown) (now : Nat) :
    osshCertCheckValidity sh now = .success ↔ Valid sh.validAfter sh.validBefore now := by
  rw [osshCertCheckValidity, Valid]
  constructor
  · intro h
    split at h
    · cases h
    · omega
  · intro h; rw [if_neg (by omega)]

/-- C88. A certificate without a `source-address` option can be used from anywhere; one with it only by peers whose
address is known and that the list permits. Partial: lists without NUL bytes that do not end with a comma; and entries
of 80 bytes or more, which no address has, count as malformed. -/
theorem C88_source_partial {N : Net} (hR : Readers N.pton4 N.pton6) (sh : Wolf.OsshCert.Shown) (peerIp : Option Bytes)
    (hs : ∀ l, sh.restrictions.sourceAddress = some l → l ≠ [] ∧ (0 : UInt8) ∉ l ∧ l.getLast? ≠ some 44) :
    osshCertCheckSourceAddress N sh peerIp = .success ↔
      ∀ l, sh.restrictions.sourceAddress = some l →
        ∃ ip, peerIp = some ip ∧ (∀ e ∈ split 44 l, e.length < 80) ∧ Permits N.pton4 N.pton6 l ip := by
  rw [osshCertCheckSourceAddress]
  cases hl : sh.restrictions.sourceAddress with
  | none => simp
  | some l =>
    obtain ⟨h1, h2, h3⟩ := hs l hl
    cases l with
    | nil => exact absurd rfl h1
    | cons c l =>
      simp only [Option.some.injEq, forall_eq']
      cases peerIp with
      | none => simp
      | some ip =>
        simp only [Option.some.injEq, exists_eq_left']
        cases ip with
        | nil =>
          constructor
          · intro h; cases h
          · rintro ⟨_, _, x, hx, _⟩
            exact absurd rfl (Proofs.SshdCert.address_head hR hx).1
        | cons p ip =>
          rw [← Proofs.SshdCert.source_iff hR h1 h2 h3]
          simp only
          cases osshSourceAddrMatch N (c :: l) (p :: ip) <;> simp

/-- A bit for bit reading of a prefix. -/
theorem C88_prefix {x a : Bytes} {bits : Nat} (hb : bits ≤ 8 * a.length) (hl : x.length = a.length) :
    osshPrefixMatch x a bits a.length = true ↔ Inside a bits x := by
  rw [Proofs.SshdCert.inside_iff hb]
  exact ⟨fun h => ⟨hl, h⟩, fun h => h.2⟩

/-- Addresses for the examples. -/
def demoNet : Net where
  pton4 := fun t => if t = ascii "10.0.0.0" then some [10, 0, 0, 0] else if t = ascii "10.1.2.3" then some [10, 1, 2, 3]
    else if t = ascii "11.1.2.3" then some [11, 1, 2, 3] else none
  pton6 := fun t => if t = ascii "::ffff:10.1.2.3" then some [0, 0, 0, 0, 0, 0, 0, 0, 0, 0, 255, 255, 10, 1, 2, 3]
    else if t = ascii "::1" then some [0, 0, 0, 0, 0, 0, 0, 0, 0, 0, 0, 0, 0, 0, 0, 1] else none

theorem demoNet_readers : Readers demoNet.pton4 demoNet.pton6 := by
  refine ⟨fun t a h => ?_, fun t a h => ?_, fun t h => ?_⟩
  · simp only [demoNet] at h
    split at h
    · cases h; rfl
    · split at h
      · cases h; rfl
      · split at h
        · cases h; rfl
        · cases h
  · simp only [demoNet] at h
    split at h
    · cases h; rfl
    · split at h
      · cases h; rfl
      · cases h
  · have key : ∀ s : String, (ascii s).head? ≠ none → (ascii s).head? ≠ some 33 → t ≠ ascii s := by
      rintro s h1 h2 rfl
      rcases h with h | h
      · rw [h] at h1; exact h1 rfl
      · exact h2 h
    simp only [demoNet]
    rw [if_neg (key _ (by decide +kernel) (by decide +kernel)), if_neg (key _ (by decide +kernel) (by decide +kernel)),
      if_neg (key _ (by decide +kernel) (by decide +kernel)), if_neg (key _ (by decide +kernel) (by decide +kernel)),
      if_neg (key _ (by decide +kernel) (by decide +kernel))]
    exact ⟨rfl, rfl⟩

def demoShown (list : Option Bytes) : Wolf.OsshCert.Shown :=
  ⟨ascii "ssh-ed25519", [1], [2], Spec.Wire.encString (ascii "al") ++ Spec.Wire.encString (ascii "bob"), 5, 9, ⟨none, list⟩⟩

example : osshCertCheckPrincipal (demoShown none).principals (ascii "bob") = .success ∧
    osshCertCheckPrincipal (demoShown none).principals (ascii "bo") = .failure := by decide +kernel
example : osshCertCheckValidity (demoShown none) 5 = .success ∧ osshCertCheckValidity (demoShown none) 9 = .failure := by decide +kernel
example : osshCertCheckSourceAddress demoNet (demoShown (some (ascii "::1,10.0.0.0/8"))) (some (ascii "10.1.2.3")) = .success ∧
    osshCertCheckSourceAddress demoNet (demoShown (some (ascii "::1,10.0.0.0/8"))) (some (ascii "::ffff:10.1.2.3")) = .success ∧
    osshCertCheckSourceAddress demoNet (demoShown (some (ascii "::1,10.0.0.0/8"))) (some (ascii "11.1.2.3")) = .failure ∧
    osshCertCheckSourceAddress demoNet (demoShown (some (ascii "10.0.0.0/7"))) (some (ascii "11.1.2.3")) = .success ∧
    osshCertCheckSourceAddress demoNet (demoShown (some (ascii "10.0.0.0/8"))) none = .failure ∧
    osshCertCheckSourceAddress demoNet (demoShown (some (ascii "10.0.0.0/8,"))) (some (ascii "10.1.2.3")) = .success ∧
    osshCertCheckSourceAddress demoNet (demoShown (some (ascii "10.0.0.0/8,x"))) (some (ascii "10.1.2.3")) = .failure := by
  decide +kernel
/-- The conditions of `C88_source_partial` hold for such a list. -/
example : Permits demoNet.pton4 demoNet.pton6 (ascii "::1,10.0.0.0/8") (ascii "10.1.2.3") := by
  obtain ⟨ip, h1, _, h2⟩ := (C88_source_partial demoNet_readers (demoShown (some (ascii "::1,10.0.0.0/8"))) (some (ascii "10.1.2.3"))
    (fun l h => by cases h; decide +kernel)).1 (by decide +kernel) _ rfl
  cases h1
  exact h2

/-- Disagreements. A list that ends with a comma has an empty last entry and should permit nobody, but it does; and an entry is
cut at a NUL byte, so that junk after it is not noticed. -/
theorem C88_list_witness :
    (osshSourceAddrMatch demoNet (ascii "10.0.0.0/8,") (ascii "10.1.2.3") = true ∧
      ¬Permits demoNet.pton4 demoNet.pton6 (ascii "10.0.0.0/8,") (ascii "10.1.2.3")) ∧
    (osshSourceAddrMatch demoNet (ascii "10.0.0.0" ++ [0] ++ ascii "x,10.0.0.0/8") (ascii "10.1.2.3") = true ∧
      ¬Permits demoNet.pton4 demoNet.pton6 (ascii "10.0.0.0" ++ [0] ++ ascii "x,10.0.0.0/8") (ascii "10.1.2.3")) := by
  refine ⟨⟨by decide +kernel, ?_⟩, by decide +kernel, ?_⟩
  · rintro ⟨h, _⟩
    obtain ⟨a, n, h⟩ := h [] (by decide +kernel)
    exact absurd ((Proofs.SshdCert.readEntry_iff demoNet_readers _ _ _).2 h) (by simp [readEntry])
  · rintro ⟨h, _⟩
    obtain ⟨a, n, h⟩ := h (ascii "10.0.0.0" ++ [0] ++ ascii "x") (by decide +kernel)
    have := (Proofs.SshdCert.readEntry_iff demoNet_readers _ _ _).2 h
    have e : readEntry demoNet (ascii "10.0.0.0" ++ [0] ++ ascii "x") = none := by decide +kernel
    rw [e] at this; cases this

end Props.Sshd
