import Verif.Props.SshdConfig
import Verif.Props.Auth
import Verif.Proofs.SshdAuth
/-!
# C92–C96: who wolfsshd lets in

The decision is `RequestAuthentication` of apps/wolfsshd/auth.c (Model/SshdAuth.lean); the specification is
Spec/SshdAuth.lean.
-/

namespace Props.Sshd
open Wolf Wolf.Sshd Spec.SshdAuth Proofs.SshdAuth

/-! ## C92: passwords -/

/-- C92, exactly: what is hashed of a password is what comes before its first NUL byte. -/
theorem C92_password_exact {S : Sys} {conf : List Conf} {user pw : Bytes} {peer : Option Bytes} {n : Int}
    (hr : S.raiseOk = true) (hd : S.reduceOk = true) :
    (∃ m, requestAuthentication S conf user (.password pw) peer n = some (.success, m)) ↔
      MayPassword S conf user pw (upToNul pw) := by
  simp only [requestAuthentication, hd, if_true, Option.some.injEq]
  constructor
  · rintro ⟨m, h⟩
    obtain ⟨_, e, c, c0, hs, h0⟩ := settings_of_success h
    rw [decide_of_settings hr hs h0] at h
    by_cases g : isRootUser S user = true ∧ c.permitRoot = 0
    · rw [if_pos g] at h; cases h
    · rw [if_neg g] at h
      have := (passwordPart_iff (pw := pw) hs n).1 (by simp only at h; rw [h])
      obtain ⟨h1, h2, h3, x, h4, h5⟩ := this
      refine ⟨e, c, x, hs, h1, fun hroot => ⟨fun h0 => g ⟨(root_iff hs.1).2 hroot, h0⟩, h2 hroot⟩, h3, h4, h5⟩
  · rintro ⟨e, c, x, hs, h1, h2, h3, h4, h5⟩
    obtain ⟨g, hg, hc⟩ := hs.2
    obtain ⟨c0, h0⟩ := getUserConf_head hc
    rw [decide_of_settings hr hs h0, if_neg]
    · have := (passwordPart_iff (pw := pw) hs n).2 ⟨h1, fun r => (h2 r).2, h3, x, h4, h5⟩
      exact ⟨(passwordPart S c (isRootUser S user) user pw n).2, Prod.ext this rfl⟩
    · rintro ⟨hroot, hz⟩
      exact (h2 ((root_iff hs.1).1 hroot)).1 hz

/-- C92: a password is accepted exactly when the user may log in with it. Missing: passwords with a NUL byte, of which only the
beginning counts (`C92_nul_witness`). -/
theorem C92_password_partial {S : Sys} {conf : List Conf} {user pw : Bytes} {peer : Option Bytes} {n : Int}
    (hr : S.raiseOk = true) (hd : S.reduceOk = true) (hz : (0 : UInt8) ∉ pw) :
    (∃ m, requestAuthentication S conf user (.password pw) peer n = some (.success, m)) ↔
      MayPassword S conf user pw pw := by
  have e : upToNul pw = pw := cstr_eq_self hz
  rw [C92_password_exact hr hd, e]

/-- If the rights needed for the check cannot be had, nobody gets in; if they cannot be given up again, the process ends. -/
theorem C92_rights {S : Sys} {conf : List Conf} {user : Bytes} {cred : Cred} {peer : Option Bytes} {n m : Int}
    (h : requestAuthentication S conf user cred peer n = some (.success, m)) : S.raiseOk = true ∧ S.reduceOk = true := by
  rw [requestAuthentication.eq_def] at h
  cases cred with
  | none => simp at h
  | password pw =>
    simp only at h
    by_cases hd : S.reduceOk = true
    · rw [if_pos hd, Option.some.injEq] at h
      exact ⟨(settings_of_success h).1, hd⟩
    · rw [if_neg hd] at h; cases h
  | publicKey k =>
    simp only at h
    by_cases hd : S.reduceOk = true
    · rw [if_pos hd, Option.some.injEq] at h
      exact ⟨(settings_of_success h).1, hd⟩
    · rw [if_neg hd] at h; cases h

/-- C92, down to the configuration file: a password is accepted only if the lines that count for the user allow it. -/
theorem C92_file {F : Files} {filename file : Bytes} {conf : List Conf} (hf : F.file filename = some file)
    (ht : Spec.SshdConfig.Tame file) (htidy : Spec.SshdConfig.Tidy (Spec.SshdConfig.fileLines file))
    (hi : ∀ l ∈ Spec.SshdConfig.fileLines file, Spec.SshdConfig.keyword l ≠ Spec.SshdConfig.text "Include")
    (hc : wolfSSHD_ConfigLoad F filename = .ok conf) {S : Sys} {user pw : Bytes} {peer : Option Bytes} {n m : Int}
    (h : requestAuthentication S conf user (.password pw) peer n = some (.success, m)) :
    ∃ e g, S.getpwnam user = some e ∧ S.groups user = some g ∧
      let ls := Spec.SshdConfig.inScope (Spec.SshdConfig.fileLines file) user g
      Spec.SshdConfig.Toggle "PasswordAuthentication" true ls true ∧
      (Root user e → Spec.SshdConfig.Root ls 1) ∧
      (pw = [] → Spec.SshdConfig.Toggle "PermitEmptyPasswords" false ls true) := by
  obtain ⟨hr, hd⟩ := C92_rights h
  obtain ⟨e, c, x, hs, h1, h2, h3, _⟩ := (C92_password_exact hr hd).1 ⟨m, h⟩
  obtain ⟨g, hg, hcc⟩ := hs.2
  obtain ⟨c', hc', says⟩ := C90_scope_partial hf ht htidy hi hc user g
  rw [hcc] at hc'
  cases hc'
  refine ⟨e, g, hs.1, hg, ?_, ?_, ?_⟩
  · have := says.password; rw [h1] at this; exact this
  · intro hroot
    have hR := says.root
    obtain ⟨r0, r2, r3⟩ := h2 hroot
    have e1 : c.permitRoot = 1 := by
      rw [Spec.SshdConfig.Root] at hR
      cases hl : Spec.SshdConfig.lastLine "PermitRootLogin" (Spec.SshdConfig.inScope (Spec.SshdConfig.fileLines file) user g) with
      | none => rw [hl] at hR; exact absurd hR r0
      | some l =>
        rw [hl] at hR
        rcases hR with h | h | h | h
        · exact absurd h.2 r0
        · exact h.2
        · exact absurd h.2 r2
        · exact absurd h.2 r3
    rw [e1] at hR; exact hR
  · intro hp
    have := says.empty; rw [h3 hp] at this; exact this

/-- C92: the name wolfsshd works with. The library hands it a pointer into the received message; the C string there is the
user name of the request (up to its first NUL byte), because the length of the service name comes next and starts with a zero
byte. -/
theorem C92_username {mem : Bytes} {len o : Nat} {userR serviceR : Wire.StrRef} {i1 i2 : Nat} {user : Bytes}
    (hl : len ≤ mem.length) (hlen : len < 2 ^ 24) (h1 : Wire.getStringRef mem len 0 = .ok userR i1)
    (h2 : Wire.getStringRef mem len i1 = .ok serviceR i2) (ho : userR.off = some o) (hu : Wire.deref mem userR = some user) :
    cstr (mem.drop o) = upToNul user := by
  have hw : len < 4294967296 := by omega
  rw [Wire.getStringRef_eq mem len 0 hl hw] at h1
  rw [Wire.getStringRef_eq mem len i1 hl hw] at h2
  cases e1 : Spec.Wire.string ((mem.take len).drop 0) with
  | none => rw [e1] at h1; simp only at h1; split at h1 <;> cases h1
  | some x =>
    rw [e1] at h1
    simp only [Wire.Res.ok.injEq] at h1
    obtain ⟨h1, hi⟩ := h1
    by_cases hx : x.1 = []
    · rw [if_pos hx] at h1; subst h1; cases ho
    · rw [if_neg hx] at h1
      subst h1
      simp only [Option.some.injEq] at ho
      subst ho
      cases e2 : Spec.Wire.string ((mem.take len).drop i1) with
      | none => rw [e2] at h2; simp only at h2; split at h2 <;> cases h2
      | some y =>
        have hz : ∃ t, mem.drop i1 = 0 :: t := head_zero hlen e2
        obtain ⟨t, ht⟩ := hz
        rw [Wire.deref] at hu
        simp only at hu
        split at hu
        · simp only [Option.some.injEq] at hu
          have e3 : mem.drop (0 + 4) = user ++ 0 :: t := by
            rw [← List.take_append_drop x.1.length (mem.drop (0 + 4)), hu, List.drop_drop, hi, ht]
          rw [e3]
          exact cstr_append_zero _ _
        · cases hu

/-! ## C93: keys -/

/-- What a key that came without a certificate needs. -/
private theorem plain_key_iff {S : Sys} {conf : List Conf} {user : Bytes} {e : Passwd} {c c0 : Conf} (hr : S.raiseOk = true)
    (hs : Settings S conf user e c) (h0 : conf.head? = some c0) {k : PubKey} (hc : k.isCert = false) (ho : k.ossh = none)
    (peer : Option Bytes) (n : Int) :
    (decideAuth S conf user (.publicKey k) peer n).1 = .success ↔
      MayKeys user e c ∧
        searchForPubKey S.keys (openKeysFile S e.uid c0.strictModes) e.dir c.authKeysFile user k.key c0.strictModes = .success := by
  rw [key_iff hr hs h0]
  have hu : upnPart S c user k = true := by rw [upnPart]; simp [hc]
  have hn : ¬(k.isCert = true ∧ c.authKeysFileSet = false) := by simp [hc]
  rw [if_neg hn, checkPublicKeyUnix, ho, hs.1]
  simp [hu]

private theorem request_success {S : Sys} {conf : List Conf} {user : Bytes} {k : PubKey} {peer : Option Bytes} {n m : Int}
    (h : requestAuthentication S conf user (.publicKey k) peer n = some (.success, m)) :
    S.raiseOk = true ∧ (decideAuth S conf user (.publicKey k) peer n).1 = .success ∧
      ∃ e c c0, Settings S conf user e c ∧ conf.head? = some c0 := by
  obtain ⟨hr, hd⟩ := C92_rights h
  simp only [requestAuthentication, hd, if_true, Option.some.injEq] at h
  exact ⟨hr, by rw [h], (settings_of_success h).2⟩

private theorem request_of {S : Sys} {conf : List Conf} {user : Bytes} {k : PubKey} {peer : Option Bytes} {n : Int}
    (hd : S.reduceOk = true) (h : (decideAuth S conf user (.publicKey k) peer n).1 = .success) :
    ∃ m, requestAuthentication S conf user (.publicKey k) peer n = some (.success, m) := by
  simp only [requestAuthentication, hd, if_true, Option.some.injEq]
  exact ⟨_, Prod.ext h rfl⟩

/-- C93: a key lets a user in only if keys may be used and the file at the user's own path could be opened, in strict mode only
as a file nobody else can write, and has the key. -/
theorem C93_key_only {S : Sys} (hW : Spec.SshdFile.Absolute S.world) (hd : Spec.Sshd.Decoder S.keys.base64) {conf : List Conf}
    {user : Bytes} {k : PubKey} {peer : Option Bytes} {n m : Int} (hlen : user.length < 2 ^ 31)
    (hdir : ∀ e, S.getpwnam user = some e → e.dir.length < 2 ^ 31) (hc : k.isCert = false) (ho : k.ossh = none)
    (h : requestAuthentication S conf user (.publicKey k) peer n = some (.success, m)) :
    ∃ e c c0, Settings S conf user e c ∧ conf.head? = some c0 ∧ MayKeys user e c ∧ ∃ path file,
      Spec.Sshd.KeysPath e.dir user c.authKeysFile path ∧ path.length < 80 ∧ Reads S c0.strictModes e.uid path file ∧
      (TameFile S file → Listed S file k.key) ∧
      ∃ ty gap b, PlainType S ty ∧ gap ≠ [] ∧ (∀ x ∈ gap, x = 32) ∧ S.keys.base64 b = some k.key ∧ (ty ++ gap ++ b) <:+: file := by
  obtain ⟨hr, hs, e, c, c0, hset, h0⟩ := request_success h
  obtain ⟨hm, hk⟩ := (plain_key_iff hr hset h0 hc ho peer n).1 hs
  obtain ⟨_, path, file, h1, h2, h3, h4⟩ := keysfile_only hW (hdir e hset.1) hlen hk
  refine ⟨e, c, c0, hset, h0, hm, path, file, h1, h2, h3, fun ht => search_listed hd _ ht h4, ?_⟩
  obtain ⟨f, ty, gap, b, hf, h5, h6, h7, h8, h9⟩ := C86_present h4
  cases hf
  exact ⟨ty, gap, b, h5, h6, h7, h8, h9⟩

/-- C93: with well-formed keys files, a key is accepted exactly when keys may be used and the user's own file lists it. Missing:
a `StrictModes` that is not the same for all users is ignored (`C93_strict_witness`), and malformed lines end the search
(`C86_malformed_witness`). -/
theorem C93_key_partial {S : Sys} (hW : Spec.SshdFile.Absolute S.world) (hd : Spec.Sshd.Decoder S.keys.base64) {conf : List Conf}
    {user : Bytes} {k : PubKey} {peer : Option Bytes} {n : Int} (hlen : user.length < 2 ^ 31)
    (hdir : ∀ e, S.getpwnam user = some e → e.dir.length < 2 ^ 31) (hr : S.raiseOk = true) (hrd : S.reduceOk = true)
    (hstrict : ∀ c ∈ conf, ∀ c' ∈ conf, c.strictModes = c'.strictModes)
    (hfiles : ∀ strict owner path file, Reads S strict owner path file →
      TameFile S file ∧ ∀ l ∈ Spec.Sshd.fileLines file, Spec.Sshd.Sound (PlainType S) S.keys.base64 l)
    (hc : k.isCert = false) (ho : k.ossh = none) (hk : k.key ≠ []) :
    (∃ m, requestAuthentication S conf user (.publicKey k) peer n = some (.success, m)) ↔
      ∃ e c, Settings S conf user e c ∧ MayKeys user e c ∧ InKeysFile S c.strictModes user e c k.key := by
  have hmem : ∀ {e c}, Settings S conf user e c → c ∈ conf := by
    rintro e c ⟨_, g, _, h⟩
    exact getUserConf_mem h
  constructor
  · rintro ⟨m, h⟩
    obtain ⟨e, c, c0, hs, h0, hm, path, file, h1, h2, h3, h4, _⟩ := C93_key_only hW hd hlen hdir hc ho h
    have e1 : c0.strictModes = c.strictModes := hstrict _ (List.mem_of_head? h0) _ (hmem hs)
    refine ⟨e, c, hs, hm, path, file, h1, h2, e1 ▸ h3, h4 (hfiles _ _ _ _ h3).1⟩
  · rintro ⟨e, c, hs, hm, path, file, h1, h2, h3, h4⟩
    obtain ⟨g, hg, hcc⟩ := hs.2
    obtain ⟨c0, h0⟩ := getUserConf_head hcc
    have e1 : c0.strictModes = c.strictModes := hstrict _ (List.mem_of_head? h0) _ (hmem hs)
    obtain ⟨ht, hsound⟩ := hfiles _ _ _ _ h3
    refine request_of hrd ((plain_key_iff hr hs h0 hc ho peer n).2 ⟨hm, ?_⟩)
    rw [e1]
    exact keysfile_if hW (hdir e hs.1) hlen h1 h2 h3 (listed_search hd _ ht hk hsound h4)

/-! ## C94: certificates -/

private theorem ossh_key_iff {S : Sys} {conf : List Conf} {user : Bytes} {e : Passwd} {c c0 : Conf} (hr : S.raiseOk = true)
    (hs : Settings S conf user e c) (h0 : conf.head? = some c0) {k : PubKey} (hc : k.isCert = false) {sh : Wolf.OsshCert.Shown}
    (ho : k.ossh = some sh) (peer : Option Bytes) (n : Int) :
    (decideAuth S conf user (.publicKey k) peer n).1 = .success ↔
      MayKeys user e c ∧ checkOsshUnix S user sh c.userCAKeysFile peer = .success := by
  rw [key_iff hr hs h0]
  have hu : upnPart S c user k = true := by rw [upnPart]; simp [hc]
  have hn : ¬(k.isCert = true ∧ c.authKeysFileSet = false) := by simp [hc]
  rw [if_neg hn, checkPublicKeyUnix, ho]
  simp [hu]

/-- C94: an OpenSSH certificate lets a user in only if keys may be used and its authority stands in the trusted file of the
user's settings, which nobody but the server's own user can write, and, if that file is well-formed, is listed there; the user
is one of its principals; it is valid now; and a list of addresses is not passed over for want of a known peer. -/
theorem C94_ossh_listed {S : Sys} (hW : Spec.SshdFile.Absolute S.world) (hd : Spec.Sshd.Decoder S.keys.base64) {conf : List Conf}
    {user : Bytes} {k : PubKey} {sh : Wolf.OsshCert.Shown} {peer : Option Bytes} {n m : Int} (hlen : user.length < 2 ^ 32)
    (hc : k.isCert = false) (ho : k.ossh = some sh)
    (h : requestAuthentication S conf user (.publicKey k) peer n = some (.success, m)) :
    ∃ e c, Settings S conf user e c ∧ MayKeys user e c ∧ Spec.SshdCert.Principal sh.principals user ∧
      Spec.SshdCert.Valid sh.validAfter sh.validBefore S.now ∧ (∀ l, sh.restrictions.sourceAddress = some l → l ≠ [] → peer ≠ none) ∧
      ∃ path file, c.userCAKeysFile = some path ∧ Spec.SshdFile.Trusted S.world path S.euid false file ∧
        (∃ ty gap b, PlainType S ty ∧ gap ≠ [] ∧ (∀ x ∈ gap, x = 32) ∧ S.keys.base64 b = some sh.caKey ∧
          (ty ++ gap ++ b) <:+: file) ∧
        (TameFile S file → Listed S file sh.caKey) := by
  obtain ⟨hr, hs, e, c, c0, hset, h0⟩ := request_success h
  obtain ⟨hm, hk⟩ := (ossh_key_iff hr hset h0 hc ho peer n).1 hs
  obtain ⟨_, _, ⟨path, hp, hf⟩, h1, h2, h3⟩ := ossh_success.1 hk
  obtain ⟨_, file, ho, hf⟩ := search_none hf
  have hR := (reads_iff hW true S.euid path file).1 ho
  rw [Reads, if_pos rfl] at hR
  obtain ⟨f, ty, gap, b, hff, h5, h6, h7, h8, h9⟩ := C86_present hf
  cases hff
  refine ⟨e, c, hset, hm, (C88_principal hlen).1 h1, (C88_validity _ _).1 h2, ?_, path, file, hp, hR,
    ⟨ty, gap, b, h5, h6, h7, h8, h9⟩, fun ht => search_listed hd _ ht hf⟩
  intro l hl hne hpeer
  rw [osshCertCheckSourceAddress, hl, hpeer] at h3
  cases l with
  | nil => exact hne rfl
  | cons x l => cases h3

/-- C94: with a well-formed file of authorities, an OpenSSH certificate is accepted exactly when keys may be used and the
certificate is good. Missing: lists of addresses that are empty, end in a comma or have a NUL byte (`C88_list_witness`). -/
theorem C94_ossh_partial {S : Sys} (hW : Spec.SshdFile.Absolute S.world) (hd : Spec.Sshd.Decoder S.keys.base64)
    (hN : Spec.SshdCert.Readers S.net.pton4 S.net.pton6) {conf : List Conf}
    {user : Bytes} {k : PubKey} {sh : Wolf.OsshCert.Shown} {peer : Option Bytes} {n : Int} (hlen : user.length < 2 ^ 32)
    (hr : S.raiseOk = true) (hrd : S.reduceOk = true)
    (hfiles : ∀ strict owner path file, Reads S strict owner path file →
      TameFile S file ∧ ∀ l ∈ Spec.Sshd.fileLines file, Spec.Sshd.Sound (PlainType S) S.keys.base64 l)
    (hc : k.isCert = false) (ho : k.ossh = some sh) (hca : sh.caKey ≠ [])
    (hsrc : ∀ l, sh.restrictions.sourceAddress = some l → l ≠ [] ∧ (0 : UInt8) ∉ l ∧ l.getLast? ≠ some 44) :
    (∃ m, requestAuthentication S conf user (.publicKey k) peer n = some (.success, m)) ↔
      ∃ e c, Settings S conf user e c ∧ MayKeys user e c ∧ CertGood S user c sh peer := by
  constructor
  · rintro ⟨m, h⟩
    obtain ⟨hr, hs, e, c, c0, hset, h0⟩ := request_success h
    obtain ⟨hm, hk⟩ := (ossh_key_iff hr hset h0 hc ho peer n).1 hs
    obtain ⟨_, _, ⟨path, hp, hf⟩, h1, h2, h3⟩ := ossh_success.1 hk
    obtain ⟨_, file, ho, hf⟩ := search_none hf
    have hR := (reads_iff hW true S.euid path file).1 ho
    exact ⟨e, c, hset, hm, path, file, hp, hR, search_listed hd _ (hfiles _ _ _ _ hR).1 hf, (C88_principal hlen).1 h1,
      (C88_validity _ _).1 h2, (C88_source_partial hN sh peer hsrc).1 h3⟩
  · rintro ⟨e, c, hs, hm, path, file, h1, h2, h3, h4, h5, h6⟩
    obtain ⟨g, hg, hcc⟩ := hs.2
    obtain ⟨c0, h0⟩ := getUserConf_head hcc
    obtain ⟨ht, hsound⟩ := hfiles _ _ _ _ h2
    refine request_of hrd ((ossh_key_iff hr hs h0 hc ho peer n).2 ⟨hm, ossh_success.2 ⟨hca, ⟨e, hs.1⟩, ⟨path, h1, ?_⟩,
      (C88_principal hlen).2 h4, (C88_validity _ _).2 h5, (C88_source_partial hN sh peer hsrc).2 h6⟩⟩)
    rw [(reads_iff hW true S.euid path file).2 h2]
    exact listed_search hd _ ht hca hsound h3

/-- C94: an X.509 certificate that the library has verified lets a user in, where no keys file is configured, exactly when keys
may be used, the build checks principal names, one of the names in the certificate is the user's, and the authorities of the
user's settings are those of the global settings. -/
theorem C94_x509 {S : Sys} {conf : List Conf} {user : Bytes} {e : Passwd} {c c0 : Conf} {k : PubKey} {peer : Option Bytes} {n : Int}
    (hr : S.raiseOk = true) (hrd : S.reduceOk = true) (hs : Settings S conf user e c) (h0 : conf.head? = some c0)
    (hc : k.isCert = true) (hf : c.authKeysFileSet = false) :
    (∃ m, requestAuthentication S conf user (.publicKey k) peer n = some (.success, m)) ↔
      MayKeys user e c ∧ S.fpki = true ∧ (∃ names, S.upns k.key = some names ∧ ∃ x ∈ names, UpnOf user x c.upnDomains) ∧
      c0.userCAKeysFile = c.userCAKeysFile := by
  have key : (∃ m, requestAuthentication S conf user (.publicKey k) peer n = some (.success, m)) ↔
      (decideAuth S conf user (.publicKey k) peer n).1 = .success :=
    ⟨fun ⟨m, h⟩ => (request_success h).2.1, request_of hrd⟩
  rw [key, key_iff hr hs h0, if_pos ⟨hc, hf⟩, upnPart]
  by_cases hk : S.fpki = true
  · rw [if_pos ⟨hk, hc⟩]
    cases S.upns k.key with
    | none => simp
    | some l =>
      simp only [List.any_eq_true, upn_iff, Option.some.injEq, exists_eq_left']
      constructor
      · rintro ⟨a, b, d, f⟩; exact ⟨a, f, b, d⟩
      · rintro ⟨a, b, d, f⟩; exact ⟨a, d, f, b⟩
  · simp [hk]

/-- C94: a principal name is taken for the user's exactly when it is. -/
theorem C94_upn (user upn : Bytes) (allow : Option Bytes) : matchUPNToUser user upn allow = true ↔ UpnOf user upn allow :=
  upn_iff user upn allow

/-! ## C95: the number of guesses -/

/-- The requests of one connection: the attempts left and the answers given so far. Users, credentials and the state of the
system may differ from one request to the next. -/
inductive Served (conf : List Conf) : Int → List Wolf.Sshd.Answer → Prop where
  | start : Served conf MAX_PASSWORD_ATTEMPTS []
  | next {n m : Int} {l : List Wolf.Sshd.Answer} {S : Sys} {user : Bytes} {cred : Cred} {peer : Option Bytes} {a : Wolf.Sshd.Answer} :
      Served conf n l → requestAuthentication S conf user cred peer n = some (a, m) → Served conf m (l ++ [a])

private theorem served_left {conf : List Conf} {n : Int} {l : List Wolf.Sshd.Answer} (h : Served conf n l) (hr : .rejected ∉ l) :
    n = 3 - (l.count .invalidPassword : Nat) ∧ 1 ≤ n := by
  induction h with
  | start => exact ⟨rfl, by decide⟩
  | @next n m l S user cred peer a hs hq ih =>
    rw [List.mem_append, not_or] at hr
    obtain ⟨h1, h2⟩ := ih hr.1
    rw [List.count_append]
    rcases request_attempts hq with ⟨rfl, h, h0⟩ | ⟨rfl, _⟩ | ⟨g1, g2, h⟩
    · have : List.count Wolf.Sshd.Answer.invalidPassword [Wolf.Sshd.Answer.invalidPassword] = 1 := rfl
      rw [this]
      omega
    · exact absurd (List.mem_singleton.2 rfl) hr.2
    · have : List.count Wolf.Sshd.Answer.invalidPassword [a] = 0 := List.count_eq_zero.2 (by simpa using fun h => g1 h.symm)
      rw [this]
      omega

/-- C95: a connection that has not been rejected has been told at most twice that a password is wrong. -/
theorem C95_guesses {conf : List Conf} {n : Int} {l : List Wolf.Sshd.Answer} (h : Served conf n l) (hr : .rejected ∉ l) :
    l.count .invalidPassword ≤ 2 := by
  have := served_left h hr
  omega

/-- C95: what a wrong password is answered: that it is wrong, or, if it is the last allowed, rejection. -/
theorem C95_wrong {S : Sys} {conf : List Conf} {user pw : Bytes} {peer : Option Bytes} {n : Int}
    (hr : S.raiseOk = true) (hd : S.reduceOk = true) (hc : ∀ a b, S.crypt a b ≠ none) (h : WrongPassword S conf user pw) :
    requestAuthentication S conf user (.password pw) peer n =
      some (if n = 1 then .rejected else .invalidPassword, n - 1) := by
  obtain ⟨e, c, x, hs, h1, h2, h3, h4, h5⟩ := h
  obtain ⟨g, hg, hcc⟩ := hs.2
  obtain ⟨c0, h0⟩ := getUserConf_head hcc
  simp only [requestAuthentication, hd, if_true, Option.some.injEq]
  rw [decide_of_settings hr hs h0, if_neg]
  · exact passwordPart_wrong hc hs n h1 (fun r => (h2 r).2) h3 h4 h5
  · rintro ⟨g1, g2⟩
    exact (h2 ((root_iff hs.1).1 g1)).1 g2

/-- C95: the third wrong password is rejected, whatever else was tried in between. -/
theorem C95_third {conf : List Conf} {n : Int} {l : List Wolf.Sshd.Answer} (h : Served conf n l) (hrej : .rejected ∉ l)
    (h2 : l.count .invalidPassword = 2) {S : Sys} {user pw : Bytes} {peer : Option Bytes}
    (hr : S.raiseOk = true) (hd : S.reduceOk = true) (hc : ∀ a b, S.crypt a b ≠ none) (hw : WrongPassword S conf user pw) :
    requestAuthentication S conf user (.password pw) peer n = some (.rejected, 0) := by
  have := served_left h hrej
  have e : n = 1 := by omega
  rw [C95_wrong hr hd hc hw, e]
  rfl

/-! ## Cases -/

/-- A system with the users bob (a hash in the shadow file), al (an empty hash) and root (locked). -/
def demoSys (now : Nat) : Sys where
  getpwnam u := if u = ascii "bob" then some ⟨ascii "x", 7, 7, ascii "/home/bob"⟩ else if u = ascii "al" then some ⟨[], 8, 8, ascii "/home/al"⟩
    else if u = ascii "root" then some ⟨ascii "$1$toor", 0, 0, ascii "/root"⟩ else none
  errno _ := false
  groups _ := some [ascii "users"]
  hasShadow := true
  getspnam u := if u = ascii "bob" then some (some (ascii "$1$secret")) else none
  crypt pw _ := some (ascii "$1$" ++ pw)
  cachedHash := none
  raiseOk := true
  reduceOk := true
  euid := 7
  now := now
  world := demoWorld 0o700 0o600 7 false
  plainOpen _ := none
  net := demoNet
  keys := demoEnv
  fpki := true
  upns k := if k = [9] then some [ascii "bob@Corp.example", ascii "carl@corp.example"] else none

/-- Global settings, and settings for bob. -/
def demoNodes : List Conf :=
  [{ authKeysFile := some (ascii ".ssh/keys"), userCAKeysFile := some (ascii "/tmp/k"), upnDomains := some (ascii "other, CORP.example") },
   { usr := some (ascii "root"), permitRoot := 1 }]

def answerTo (S : Sys) (conf : List Conf) (user : String) (cred : Cred) : Option Wolf.Sshd.Answer :=
  (requestAuthentication S conf (ascii user) cred (some (ascii "10.1.2.3")) 3).map (·.1)

example : answerTo (demoSys 6) demoNodes "bob" (.password (ascii "secret")) = some .success ∧
    answerTo (demoSys 6) demoNodes "bob" (.password (ascii "secreT")) = some .invalidPassword ∧
    answerTo (demoSys 6) demoNodes "carl" (.password (ascii "secret")) = some .invalidUser ∧
    answerTo (demoSys 6) demoNodes "root" (.password (ascii "toor")) = some .success ∧
    answerTo (demoSys 6) [{ permitRoot := 2 }] "root" (.password (ascii "toor")) = some .rejected ∧
    answerTo (demoSys 6) [{}] "root" (.password (ascii "toor")) = some .rejected ∧
    answerTo (demoSys 6) demoNodes "al" (.password []) = some .failure ∧
    answerTo (demoSys 6) [{ permitEmpty := true }] "al" (.password []) = some .success := by decide +kernel

/-- `MayPassword` is met, and not by every password. -/
example : MayPassword (demoSys 6) demoNodes (ascii "bob") (ascii "secret") (ascii "secret") ∧
    ¬MayPassword (demoSys 6) demoNodes (ascii "bob") (ascii "other") (ascii "other") := by
  constructor
  · exact (C92_password_partial (peer := none) (n := 3) rfl rfl (by decide +kernel)).1 ⟨3, by decide +kernel⟩
  · intro h
    obtain ⟨m, h⟩ := (C92_password_partial (peer := none) (n := 3) rfl rfl (by decide +kernel)).2 h
    have : (requestAuthentication (demoSys 6) demoNodes (ascii "bob") (.password (ascii "other")) none 3).map (·.1) =
      some .invalidPassword := by decide +kernel
    rw [h] at this; cases this

/-- Disagreement: with empty passwords forbidden, a password of one NUL byte logs in to an account with an empty hash; its
hash is that of the empty password. -/
theorem C92_nul_witness :
    (∃ m, requestAuthentication (demoSys 6) [{}] (ascii "al") (.password [0]) none 3 = some (.success, m)) ∧
    ¬MayPassword (demoSys 6) [{}] (ascii "al") [0] [0] := by
  refine ⟨⟨3, by decide +kernel⟩, ?_⟩
  rintro ⟨e, c, h, hs, h1, h2, h3, h4, h5⟩
  have he : (demoSys 6).getpwnam (ascii "al") = some ⟨[], 8, 8, ascii "/home/al"⟩ := by decide +kernel
  have e1 := hs.1
  rw [he] at e1
  cases e1
  rw [OnRecord, if_neg (by decide +kernel)] at h4
  subst h4
  rcases h5 with h5 | h5
  · exact absurd h5.2 (by decide)
  · exact h5.1 rfl

/-- The message of `C92_username`: user "bob", service "ssh-connection". -/
example :
    let mem := Spec.Wire.encString (ascii "bob") ++ Spec.Wire.encString (ascii "ssh-connection") ++ [1, 2]
    Wire.getStringRef mem 27 0 = .ok ⟨some 4, 3⟩ 7 ∧ (∃ r, Wire.getStringRef mem 27 7 = .ok r 25) ∧
      Wire.deref mem ⟨some 4, 3⟩ = some (ascii "bob") ∧ cstr (mem.drop 4) = ascii "bob" :=
  ⟨by decide +kernel, ⟨⟨some 11, 14⟩, by decide +kernel⟩, by decide +kernel, by decide +kernel⟩

def plainKey (k : String) : Cred := .publicKey ⟨ascii k, false, none⟩

example : answerTo (demoSys 6) demoNodes "bob" (plainKey "BBBB") = some .success ∧
    answerTo (demoSys 6) demoNodes "bob" (plainKey "CCCC") = some .invalidPublickey ∧
    answerTo (demoSys 6) [{}] "bob" (plainKey "BBBB") = some .invalidPublickey ∧
    answerTo (demoSys 6) [{ pubKeyAuth := false }] "bob" (plainKey "BBBB") = some .rejected := by decide +kernel

theorem demo_sound (l : Bytes) (hl : l ∈ Spec.Sshd.fileLines demoFile) :
    Spec.Sshd.Sound (PlainType (demoSys 6)) demoDec l := by
  have e : Spec.Sshd.fileLines demoFile = [ascii "# keys of bob", [], ascii "ssh-foo !", ascii "ssh-rsa AAAA bob@a",
    ascii "  ssh-rsa BBBB", []] := by decide +kernel
  rw [e] at hl
  simp only [List.mem_cons, List.not_mem_nil, or_false] at hl
  rcases hl with rfl | rfl | rfl | rfl | rfl | rfl
  · exact .inl (.inr ⟨ascii "#", [ascii "keys", ascii "of", ascii "bob"], by decide +kernel, by decide +kernel⟩)
  · exact .inl (.inl (by decide +kernel))
  · refine .inr ⟨ascii "ssh-foo", ascii "!", [], by decide +kernel, ?_⟩
    rintro ⟨⟨e, he, _, hn⟩, _⟩
    simp only [demoSys, demoEnv, demoTable, List.mem_cons, List.not_mem_nil, or_false] at he
    rcases he with rfl | rfl | rfl <;> exact absurd hn (by decide +kernel)
  · exact .inr ⟨ascii "ssh-rsa", ascii "AAAA", [ascii "bob@a"], by decide +kernel, fun _ => by decide +kernel⟩
  · exact .inr ⟨ascii "ssh-rsa", ascii "BBBB", [], by decide +kernel, fun _ => by decide +kernel⟩
  · exact .inl (.inl (by decide +kernel))

theorem demo_open {path file : Bytes} {owner a b c : Nat} {l secret : Bool}
    (h : openSecureFile (demoWorld a b c l) path owner secret = some file) : file = demoFile := by
  rw [openSecureFile.eq_def] at h
  split at h
  · cases h
  · split at h
    · cases h
    · split at h
      · cases h
      · split at h
        · cases h
        · rename_i st x hx
          split at h
          · split at h
            · cases h
              simp only [demoWorld] at hx
              split at hx
              · cases hx; rfl
              · cases hx
            · cases h
          · cases h

theorem demo_files (strict : Bool) (owner : Nat) (path file : Bytes) (h : Reads (demoSys 6) strict owner path file) :
    TameFile (demoSys 6) file ∧ ∀ l ∈ Spec.Sshd.fileLines file, Spec.Sshd.Sound (PlainType (demoSys 6)) (demoSys 6).keys.base64 l := by
  have : file = demoFile := by
    cases strict with
    | false => rw [Reads, if_neg (by decide)] at h; cases h
    | true =>
      have := (reads_iff (demoWorld_absolute _ _ _ _) true owner path file).2 h
      rw [openKeysFile, if_pos rfl] at this
      exact demo_open this
  subst this
  exact ⟨⟨by decide +kernel, by decide +kernel⟩, demo_sound⟩

/-- The hypotheses of `C93_key_partial` are met: bob may log in with a key of the file, and with no other. -/
example : (∃ e c, Settings (demoSys 6) demoNodes (ascii "bob") e c ∧ MayKeys (ascii "bob") e c ∧
      InKeysFile (demoSys 6) c.strictModes (ascii "bob") e c (ascii "BBBB")) ∧
    ¬∃ e c, Settings (demoSys 6) demoNodes (ascii "bob") e c ∧ MayKeys (ascii "bob") e c ∧
      InKeysFile (demoSys 6) c.strictModes (ascii "bob") e c (ascii "CCCC") := by
  have key := fun k hk => C93_key_partial (S := demoSys 6) (conf := demoNodes) (user := ascii "bob") (k := ⟨k, false, none⟩)
    (peer := none) (n := 3) (demoWorld_absolute _ _ _ _) demoDec_ok (by decide +kernel)
    (by intro e he
        have : (demoSys 6).getpwnam (ascii "bob") = some ⟨ascii "x", 7, 7, ascii "/home/bob"⟩ := by decide +kernel
        rw [this] at he; cases he; decide +kernel)
    rfl rfl (by decide +kernel) demo_files rfl rfl hk
  constructor
  · exact (key (ascii "BBBB") (by decide +kernel)).1 ⟨3, by decide +kernel⟩
  · intro h
    obtain ⟨m, h⟩ := (key (ascii "CCCC") (by decide +kernel)).2 h
    have : (requestAuthentication (demoSys 6) demoNodes (ascii "bob") (.publicKey ⟨ascii "CCCC", false, none⟩) none 3).map (·.1) =
      some .invalidPublickey := by decide +kernel
    rw [h] at this; cases this

/-- Disagreement: `StrictModes` in a `Match` section counts for nothing: bob's section asks for strict checks, the global one
does not, and a file anyone may write lets bob in. -/
theorem C93_strict_witness :
    let S := { demoSys 6 with world := demoWorld 0o777 0o666 7 false, plainOpen := fun _ => some demoFile }
    let conf : List Conf := [{ strictModes := false }, { usr := some (ascii "bob"), authKeysFile := some (ascii ".ssh/keys"), strictModes := true }]
    (∃ m, requestAuthentication S conf (ascii "bob") (plainKey "BBBB") none 3 = some (.success, m)) ∧
    ∀ e c, Settings S conf (ascii "bob") e c → c.strictModes = true ∧ ¬InKeysFile S c.strictModes (ascii "bob") e c (ascii "BBBB") := by
  refine ⟨⟨3, by decide +kernel⟩, ?_⟩
  rintro e c ⟨he, g, hg, hc⟩
  have e1 : (demoSys 6).getpwnam (ascii "bob") = some ⟨ascii "x", 7, 7, ascii "/home/bob"⟩ := by decide +kernel
  have e2 : some g = some [ascii "users"] := hg.symm
  rw [Option.some.injEq] at e2
  subst e2
  have e3 : c = { usr := some (ascii "bob"), authKeysFile := some (ascii ".ssh/keys"), strictModes := true } := by
    refine Option.some.inj (hc.symm.trans ?_)
    decide +kernel
  subst e3
  have e4 : e = ⟨ascii "x", 7, 7, ascii "/home/bob"⟩ := Option.some.inj (he.symm.trans e1)
  subst e4
  refine ⟨rfl, ?_⟩
  rintro ⟨path, file, h1, h2, h3, h4⟩
  have h1 := (C87_path (by decide +kernel) (by decide +kernel)).2 ⟨h1, h2⟩
  have e5 : resolveAuthKeysPath (ascii "/home/bob") (some (ascii ".ssh/keys")) (ascii "bob") = .ok (ascii "/home/bob/.ssh/keys") := by
    decide +kernel
  rw [e5] at h1
  cases h1
  rw [Reads, if_pos rfl, ← C89_open (demoWorld_absolute _ _ _ _)] at h3
  have e6 : openSecureFile (demoWorld 0o777 0o666 7 false) (ascii "/home/bob/.ssh/keys") 7 false = none := by decide +kernel
  have h3' := e6.symm.trans h3
  cases h3'

def demoCert (sh : Wolf.OsshCert.Shown) : Cred := .publicKey ⟨[1], false, some sh⟩

def demoIssued (list : Option Bytes) : Wolf.OsshCert.Shown := { demoShown list with caKey := ascii "AAAA" }

/-- Certificates of the listed authority, in time and from the right place; and others. -/
def demoCA : List Conf := [{ userCAKeysFile := some (ascii "/home/bob/.ssh/keys") }]

example : answerTo (demoSys 6) demoCA "bob" (demoCert (demoIssued none)) = some .success ∧
    answerTo (demoSys 9) demoCA "bob" (demoCert (demoIssued none)) = some .invalidPublickey ∧
    answerTo (demoSys 6) demoCA "root" (demoCert (demoIssued none)) = some .rejected ∧
    answerTo (demoSys 6) demoCA "bob" (demoCert (demoShown none)) = some .invalidPublickey ∧
    answerTo (demoSys 6) demoCA "bob" (demoCert (demoIssued (some (ascii "10.0.0.0/8")))) = some .success ∧
    answerTo (demoSys 6) demoCA "bob" (demoCert (demoIssued (some (ascii "::1")))) = some .invalidPublickey ∧
    answerTo (demoSys 6) [{}] "bob" (demoCert (demoIssued none)) = some .invalidPublickey := by decide +kernel

/-- The hypotheses of `C94_ossh_partial` are met. -/
example : ∃ e c, Settings (demoSys 6) demoCA (ascii "bob") e c ∧ MayKeys (ascii "bob") e c ∧
    CertGood (demoSys 6) (ascii "bob") c (demoIssued (some (ascii "10.0.0.0/8"))) (some (ascii "10.1.2.3")) :=
  (C94_ossh_partial (S := demoSys 6) (k := ⟨[1], false, some (demoIssued (some (ascii "10.0.0.0/8")))⟩) (n := 3)
    (demoWorld_absolute _ _ _ _) demoDec_ok demoNet_readers (by decide +kernel) rfl rfl demo_files rfl rfl (by decide +kernel)
    (by intro l hl; cases hl; decide +kernel)).1 ⟨3, by decide +kernel⟩

example : answerTo (demoSys 6) demoNodes "bob" (.publicKey ⟨[9], true, none⟩) = some .success ∧
    answerTo (demoSys 6) demoNodes "al" (.publicKey ⟨[9], true, none⟩) = some .invalidPublickey ∧
    answerTo { demoSys 6 with fpki := false } demoNodes "bob" (.publicKey ⟨[9], true, none⟩) = some .rejected ∧
    answerTo (demoSys 6) [{ upnDomains := some (ascii "corp") }] "bob" (.publicKey ⟨[9], true, none⟩) = some .invalidPublickey := by
  decide +kernel

example : UpnOf (ascii "bob") (ascii "bob@CORP.example") (some (ascii "other, corp.example")) ∧
    ¬UpnOf (ascii "bob") (ascii "bob@corp.example.com") (some (ascii "other, corp.example")) ∧
    ¬UpnOf (ascii "bob") (ascii "bob") (some (ascii "other")) := by
  refine ⟨(C94_upn _ _ _).1 (by decide +kernel), fun h => ?_, fun h => ?_⟩
  · exact absurd ((C94_upn _ _ _).2 h) (by decide +kernel)
  · exact absurd ((C94_upn _ _ _).2 h) (by decide +kernel)

/-- Two wrong passwords and the third. -/
example : ∃ l, Served demoNodes 1 l ∧ l = [.invalidPassword, .invalidPublickey, .invalidPassword] ∧
    requestAuthentication (demoSys 6) demoNodes (ascii "bob") (.password (ascii "c")) none 1 = some (.rejected, 0) := by
  refine ⟨_, ?_, rfl, by decide +kernel⟩
  have h1 : Served demoNodes 2 ([] ++ [Wolf.Sshd.Answer.invalidPassword]) :=
    .next (S := demoSys 6) (user := ascii "bob") (cred := .password (ascii "a")) (peer := none) .start (by decide +kernel)
  have h2 : Served demoNodes 2 ([Wolf.Sshd.Answer.invalidPassword] ++ [Wolf.Sshd.Answer.invalidPublickey]) :=
    .next (S := demoSys 6) (user := ascii "bob") (cred := plainKey "CCCC") (peer := none) h1 (by decide +kernel)
  exact .next (S := demoSys 6) (user := ascii "bob") (cred := .password (ascii "b")) (peer := none) h2 (by decide +kernel)

example : WrongPassword (demoSys 6) demoNodes (ascii "bob") (ascii "c") ∧ ∀ a b, (demoSys 6).crypt a b ≠ none := by
  refine ⟨⟨⟨ascii "x", 7, 7, ascii "/home/bob"⟩, demoNodes[0], ascii "$1$secret", ⟨by decide +kernel, _, rfl, by decide +kernel⟩,
    by decide +kernel, ?_, by decide +kernel, ?_, ?_⟩, fun a b h => by cases h⟩
  · rintro (h | h)
    · exact absurd h (by decide +kernel)
    · exact absurd h (by decide +kernel)
  · rw [OnRecord, if_pos (by decide +kernel)]; decide +kernel
  · rintro (h | h)
    · exact absurd h.1 (by decide +kernel)
    · exact absurd h.2.2.2 (by decide +kernel)

end Props.Sshd
