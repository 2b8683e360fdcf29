import Verif.Spec.SshdAuth
import Verif.Proofs.SshdKeys
import Verif.Proofs.SshdPath
import Verif.Proofs.SshdCert
import Verif.Proofs.SshdFile
/-!
# Proofs about the decision of wolfsshd
-/

namespace Proofs.SshdAuth
open Wolf Wolf.Sshd Spec.SshdAuth

theorem cstr_eq_self {b : Bytes} (h : (0 : UInt8) ∉ b) : cstr b = b := by
  rw [cstr]
  induction b with
  | nil => rfl
  | cons c t ih =>
    rw [List.mem_cons, not_or] at h
    rw [List.takeWhile_cons, if_pos (by simpa using fun e => h.1 e.symm), ih h.2]

theorem hash_iff (S : Sys) (pw h : Bytes) : checkPasswordHashUnix S pw h = .success ↔ Fits S.crypt pw h := by
  rw [checkPasswordHashUnix, Fits]
  by_cases h0 : h = [] ∧ pw = []
  · rw [if_pos h0]; exact ⟨fun _ => .inl h0, fun _ => rfl⟩
  · rw [if_neg h0]
    simp only
    by_cases hl : h = [] ∨ h.head? = some 42 ∨ h.head? = some 33
    · rw [if_pos hl]
      constructor
      · intro g; split at g <;> cases g
      · rintro (g | ⟨g1, g2, g3, _⟩)
        · exact absurd g h0
        · rcases hl with hl | hl | hl
          · exact absurd hl g1
          · exact absurd hl g2
          · exact absurd hl g3
    · rw [if_neg hl]
      simp only [not_or] at hl
      obtain ⟨h1, h2, h3⟩ := hl
      cases hc : S.crypt pw h with
      | none =>
        simp only
        constructor
        · intro g; cases g
        · rintro (g | ⟨_, _, _, g⟩)
          · exact absurd g h0
          · cases g
      | some x =>
        simp only
        by_cases hx : x = h
        · subst hx
          rw [if_neg]
          · exact ⟨fun _ => .inr ⟨h1, h2, h3, rfl⟩, fun _ => rfl⟩
          · rintro (g | g | g | g)
            · exact h1 (List.length_eq_zero_iff.1 g)
            · exact h2 g
            · exact g rfl
            · exact g rfl
        · rw [if_pos (.inr (.inr (.inr hx)))]
          constructor
          · intro g; cases g
          · rintro (g | ⟨_, _, _, g⟩)
            · exact absurd g h0
            · exact absurd (Option.some.inj g) hx

/-- If `crypt` always gives something, the check comes to a decision. -/
theorem hash_total {S : Sys} (hc : ∀ a b, S.crypt a b ≠ none) (pw h : Bytes) (hn : ¬Fits S.crypt pw h) :
    checkPasswordHashUnix S pw h = .failure := by
  rw [← hash_iff] at hn
  rw [checkPasswordHashUnix] at hn ⊢
  by_cases h0 : h = [] ∧ pw = []
  · rw [if_pos h0] at hn; exact absurd rfl hn
  · rw [if_neg h0] at hn ⊢
    simp only at hn ⊢
    by_cases hl : h = [] ∨ h.head? = some 42 ∨ h.head? = some 33
    · rw [if_pos hl] at hn ⊢
      split
      · rename_i g
        exfalso
        split at g
        · split at g
          · exact hc _ _ g
          · exact hc _ _ g
        · exact hc _ _ g
      · rfl
    · rw [if_neg hl] at hn ⊢
      split
      · rename_i g; exact absurd g (hc _ _)
      · rename_i x g
        rw [g] at hn
        simp only at hn
        split
        · rfl
        · rename_i g2
          rw [if_neg g2] at hn
          exact absurd rfl hn

theorem stored_iff {S : Sys} {user h : Bytes} {e : Passwd} (he : S.getpwnam user = some e) :
    storedHash S user = .ok h ↔ OnRecord S user e h := by
  rw [storedHash, he, OnRecord]
  simp only
  by_cases hx : S.hasShadow = true ∧ e.passwd.head? = some 120
  · rw [if_pos hx, if_pos hx]
    rcases hs : S.getspnam user with _ | (_ | g)
    · simp
    · simp
    · simp only [Option.some.injEq]
      have e256 : FAKE_HASH_SZ = 256 := rfl
      by_cases hl : g.length ≥ FAKE_HASH_SZ
      · rw [if_pos hl]
        constructor
        · intro h; cases h
        · rintro ⟨rfl, h⟩; omega
      · rw [if_neg hl, Except.ok.injEq]
        constructor
        · rintro rfl; exact ⟨rfl, by omega⟩
        · exact fun h => h.1
  · rw [if_neg hx, if_neg hx, Except.ok.injEq]
    exact eq_comm

theorem password_iff {S : Sys} {user pw : Bytes} {e : Passwd} (he : S.getpwnam user = some e) :
    checkPasswordUnix S user pw = .success ↔ ∃ h, OnRecord S user e h ∧ Fits S.crypt (cstr pw) h := by
  rw [checkPasswordUnix]
  cases hs : storedHash S user with
  | error x =>
    simp only
    constructor
    · intro h; cases h
    · rintro ⟨h, h1, _⟩
      rw [← stored_iff he, hs] at h1; cases h1
  | ok h =>
    simp only
    rw [hash_iff]
    constructor
    · exact fun g => ⟨h, (stored_iff he).1 hs, g⟩
    · rintro ⟨h', h1, h2⟩
      rw [← stored_iff he, hs, Except.ok.injEq] at h1
      subst h1; exact h2

/-! ## The user and the settings -/

theorem conf_iff (S : Sys) (conf : List Conf) (user : Bytes) (c : Conf) :
    authGetUserConf S conf user = some c ↔ ∃ e, Settings S conf user e c := by
  rw [authGetUserConf]
  simp only [Settings]
  cases hp : S.getpwnam user with
  | none => simp
  | some e =>
    simp only
    cases hg : S.groups user with
    | none => simp
    | some g => simp

theorem root_iff {S : Sys} {user : Bytes} {e : Passwd} (he : S.getpwnam user = some e) :
    isRootUser S user = true ↔ Root user e := by
  rw [isRootUser, he, Root]
  simp only [Bool.or_eq_true, decide_eq_true_eq]
  exact or_comm

theorem getUserConf_head {conf : List Conf} {u : Option Bytes} {g : List Bytes} {c : Conf} (h : getUserConf conf u g = some c) :
    ∃ c0, conf.head? = some c0 := by
  cases conf with
  | nil => cases h
  | cons c0 t => exact ⟨c0, rfl⟩

theorem getUserConf_mem {conf : List Conf} {u : Option Bytes} {g : List Bytes} {c : Conf} (h : getUserConf conf u g = some c) :
    c ∈ conf := by
  rw [getUserConf] at h
  split at h
  · rename_i h1; cases h; exact List.mem_of_find?_eq_some h1
  · exact List.mem_of_head? h

theorem cstr_append_zero (a t : Bytes) : cstr (a ++ 0 :: t) = cstr a := by
  rw [cstr, cstr]
  induction a with
  | nil => simp
  | cons c a ih =>
    rw [List.cons_append, List.takeWhile_cons, List.takeWhile_cons, ih]

/-- A string in a message of less than 2^24 bytes starts with a zero byte. -/
theorem head_zero {mem : Bytes} {len i : Nat} {y : Bytes × Bytes} (hlen : len < 2 ^ 24)
    (h : Spec.Wire.string ((mem.take len).drop i) = some y) : ∃ t, mem.drop i = 0 :: t := by
  rw [Spec.Wire.string] at h
  have hl : ((mem.take len).drop i).length ≤ len := by simp [List.length_drop, List.length_take]; omega
  have hsub : ∃ z, mem.drop i = (mem.take len).drop i ++ z := by
    by_cases g : i ≤ (mem.take len).length
    · refine ⟨mem.drop len, ?_⟩
      conv => lhs; rw [← List.take_append_drop len mem]
      rw [List.drop_append_of_le_length g]
    · rw [List.drop_eq_nil_of_le (as := mem.take len) (by omega)]
      exact ⟨_, rfl⟩
  generalize (mem.take len).drop i = m at *
  obtain ⟨z, hz⟩ := hsub
  rw [Spec.Wire.uint32] at h
  split at h
  · cases h
  · rename_i n rest hu
    split at hu
    · rename_i h4
      match m, h4 with
      | a :: b :: c :: d :: r, _ =>
        simp only [List.take_succ_cons, List.take_zero, List.drop_succ_cons, List.drop_zero, Option.some.injEq, Prod.mk.injEq] at hu
        obtain ⟨hn, hr⟩ := hu
        split at h
        · rename_i hle
          simp only [Spec.Wire.beNat, List.foldl_cons, List.foldl_nil] at hn
          simp only [List.length_cons] at hl
          have : rest.length = r.length := by rw [hr]
          have ha : a.toNat = 0 := by omega
          have : a = 0 := UInt8.toNat_inj.1 (by rw [ha]; rfl)
          exact ⟨b :: c :: d :: r ++ z, by rw [hz, this]; rfl⟩
        · cases h
    · cases hu

theorem check_user {S : Sys} {conf : List Conf} {user : Bytes} {e : Passwd} {c : Conf} (hs : Settings S conf user e c) :
    doCheckUser S conf user (isRootUser S user) =
      if isRootUser S user = true ∧ c.permitRoot = 0 then .rejected else .success := by
  have hc := (conf_iff S conf user c).2 ⟨e, hs⟩
  rw [doCheckUser, hc, checkUserUnix, hs.1]
  simp only [isRootLoginDenied]
  by_cases hr : isRootUser S user = true
  · by_cases h0 : c.permitRoot = 0
    · simp [hr, h0]
    · simp [hr, h0]
  · simp [hr]

/-- The answer, once the user is known, for a user with settings. -/
theorem decide_of_settings {S : Sys} {conf : List Conf} {user : Bytes} {e : Passwd} {c c0 : Conf} (hr : S.raiseOk = true)
    (hs : Settings S conf user e c) (h0 : conf.head? = some c0) (cred : Cred) (peer : Option Bytes) (n : Int) :
    decideAuth S conf user cred peer n =
      if isRootUser S user = true ∧ c.permitRoot = 0 then (.rejected, n)
      else match cred with
        | .none => (.success, n)
        | .password pw => passwordPart S c (isRootUser S user) user pw n
        | .publicKey k => (publicKeyPart S c0 c (isRootUser S user) user k peer, n) := by
  have hc := (conf_iff S conf user c).2 ⟨e, hs⟩
  rw [decideAuth]
  simp only [check_user hs, hr, hc, h0]
  by_cases h : isRootUser S user = true ∧ c.permitRoot = 0
  · rw [if_pos h, if_pos h]
  · rw [if_neg h, if_neg h]
    rfl

/-- Nobody is let in without settings. -/
theorem settings_of_success {S : Sys} {conf : List Conf} {user : Bytes} {cred : Cred} {peer : Option Bytes} {n m : Int}
    (h : decideAuth S conf user cred peer n = (.success, m)) :
    S.raiseOk = true ∧ ∃ e c c0, Settings S conf user e c ∧ conf.head? = some c0 := by
  rw [decideAuth] at h
  cases hu : doCheckUser S conf user (isRootUser S user) <;> rw [hu] at h <;> simp only at h <;> try (cases h)
  cases hr : S.raiseOk with
  | false => rw [hr] at h; simp at h
  | true =>
    refine ⟨rfl, ?_⟩
    rw [hr] at h
    simp only [Bool.not_true, Bool.false_eq_true, if_false] at h
    cases hc : authGetUserConf S conf user with
    | none => rw [hc] at h; simp only at h; cases h
    | some c =>
      cases h0 : conf.head? with
      | none => rw [hc, h0] at h; simp only at h; cases h
      | some c0 =>
        obtain ⟨e, he⟩ := (conf_iff S conf user c).1 hc
        exact ⟨e, c, c0, he, rfl⟩

/-! ## Passwords -/

theorem passwordPart_wrong {S : Sys} {conf : List Conf} {user pw h : Bytes} {e : Passwd} {c : Conf} (hc : ∀ a b, S.crypt a b ≠ none)
    (hs : Settings S conf user e c) (n : Int) (h1 : c.passwordAuth = true)
    (h2 : Root user e → c.permitRoot ≠ 2 ∧ c.permitRoot ≠ 3) (h3 : pw = [] → c.permitEmpty = true) (h4 : OnRecord S user e h)
    (h5 : ¬Fits S.crypt (cstr pw) h) :
    passwordPart S c (isRootUser S user) user pw n = (if n = 1 then Wolf.Sshd.Answer.rejected else .invalidPassword, n - 1) := by
  rw [passwordPart]
  rw [if_neg (by simp [h1]), if_neg, if_neg]
  · rw [checkPasswordUnix, (stored_iff hs.1).2 h4]
    simp only [hash_total hc _ _ h5]
    by_cases g : n = 1
    · rw [if_pos g, if_pos (by omega)]
    · rw [if_neg g, if_neg (by omega)]
  · rintro ⟨g1, g2⟩
    rw [h3 (List.eq_nil_of_length_eq_zero g1)] at g2
    simp at g2
  · intro g
    simp only [isRootPasswordAuthBlocked, Bool.and_eq_true, Bool.or_eq_true, decide_eq_true_eq] at g
    obtain ⟨a, b⟩ := h2 ((root_iff hs.1).1 g.1)
    rcases g.2 with g | g
    · exact a g
    · exact b g

theorem passwordPart_iff {S : Sys} {conf : List Conf} {user pw : Bytes} {e : Passwd} {c : Conf} (hs : Settings S conf user e c)
    (n : Int) :
    (passwordPart S c (isRootUser S user) user pw n).1 = .success ↔
      c.passwordAuth = true ∧ (Root user e → c.permitRoot ≠ 2 ∧ c.permitRoot ≠ 3) ∧ (pw = [] → c.permitEmpty = true) ∧
      ∃ h, OnRecord S user e h ∧ Fits S.crypt (cstr pw) h := by
  rw [passwordPart, ← password_iff hs.1, ← root_iff hs.1]
  by_cases h1 : c.passwordAuth = true
  · have n1 : ¬((!c.passwordAuth) = true) := by simp [h1]
    rw [if_neg n1]
    by_cases h2 : isRootPasswordAuthBlocked (isRootUser S user) c = true
    · rw [if_pos h2]
      simp only [isRootPasswordAuthBlocked, Bool.and_eq_true, Bool.or_eq_true, decide_eq_true_eq] at h2
      constructor
      · intro h; cases h
      · rintro ⟨_, h, _⟩
        have := h h2.1; omega
    · rw [if_neg h2]
      simp only [isRootPasswordAuthBlocked, Bool.and_eq_true, Bool.or_eq_true, decide_eq_true_eq] at h2
      by_cases h3 : pw.length = 0 ∧ (!c.permitEmpty) = true
      · rw [if_pos h3]
        constructor
        · intro h; cases h
        · rintro ⟨_, _, h, _⟩
          have := h (List.length_eq_zero_iff.1 h3.1)
          rw [this] at h3; cases h3.2
      · rw [if_neg h3]
        have e1 : (isRootUser S user = true → c.permitRoot ≠ 2 ∧ c.permitRoot ≠ 3) := by
          intro hr; exact ⟨fun h => h2 ⟨hr, .inl h⟩, fun h => h2 ⟨hr, .inr h⟩⟩
        have e2 : pw = [] → c.permitEmpty = true := by
          intro hp
          cases hb : c.permitEmpty with
          | true => rfl
          | false => exact absurd ⟨by rw [hp]; rfl, by rw [hb]; rfl⟩ h3
        cases hk : checkPasswordUnix S user pw with
        | success => exact ⟨fun _ => ⟨h1, e1, e2, rfl⟩, fun _ => rfl⟩
        | failure =>
          simp only
          by_cases hz : n - 1 = 0
          · rw [if_pos hz]
            exact ⟨fun h => (by cases h), fun h => (by cases h.2.2.2)⟩
          · rw [if_neg hz]
            exact ⟨fun h => (by cases h), fun h => (by cases h.2.2.2)⟩
        | error x => exact ⟨fun h => (by cases h), fun h => (by cases h.2.2.2)⟩
  · rw [if_pos (by simpa using h1)]
    constructor
    · intro h; cases h
    · rintro ⟨h, _⟩; exact absurd h h1

/-! ## Keys -/

theorem plain_iff (S : Sys) : Proofs.SshdKeys.Plain S.keys.tbl = PlainType S := rfl

theorem reads_iff {S : Sys} (hW : Spec.SshdFile.Absolute S.world) (strict : Bool) (owner : Nat) (path file : Bytes) :
    openKeysFile S owner strict path = some file ↔ Reads S strict owner path file := by
  rw [openKeysFile, Reads]
  by_cases h : strict = true
  · rw [if_pos h, if_pos h]; exact Proofs.SshdFile.open_iff hW _ _ _ _
  · rw [if_neg h, if_neg h]

/-- What the search says of files that fit. -/
theorem search_listed {S : Sys} (hd : Spec.Sshd.Decoder S.keys.base64) {file key : Bytes} (strict : Bool) (ht : TameFile S file)
    (h : searchKeysFile S.keys (some file) strict key = .success) : Listed S file key := by
  rw [searchKeysFile] at h
  by_cases hk : key = []
  · rw [if_pos hk] at h; cases h
  · rw [if_neg hk] at h
    exact Proofs.SshdKeys.search_sound hd hk _ _ ht h

theorem listed_search {S : Sys} (hd : Spec.Sshd.Decoder S.keys.base64) {file key : Bytes} (strict : Bool) (ht : TameFile S file)
    (hk : key ≠ []) (hs : ∀ m ∈ Spec.Sshd.fileLines file, Spec.Sshd.Sound (PlainType S) S.keys.base64 m)
    (h : Listed S file key) : searchKeysFile S.keys (some file) strict key = .success := by
  obtain ⟨l, hl, hL⟩ := h
  obtain ⟨pre, post, hp⟩ := List.append_of_mem hl
  rw [searchKeysFile, if_neg hk]
  refine Proofs.SshdKeys.search_complete hd hk _ _ _ _ _ ht (Nat.le_refl _) hp ?_ hL
  intro m hm
  exact hs m (by rw [hp]; exact List.mem_append_left _ hm)

theorem search_none {E : KeysEnv} {strict : Bool} {key : Bytes} {o : Option Bytes}
    (h : searchKeysFile E o strict key = .success) : key ≠ [] ∧ ∃ file, o = some file ∧ searchKeysFile E (some file) strict key = .success := by
  cases o with
  | none =>
    rw [searchKeysFile] at h
    split at h
    · cases h
    · split at h <;> cases h
  | some file =>
    refine ⟨?_, file, rfl, h⟩
    rintro rfl
    rw [searchKeysFile, if_pos rfl] at h; cases h

theorem keysfile_only {S : Sys} (hW : Spec.SshdFile.Absolute S.world) {home user key : Bytes} {pattern : Option Bytes}
    {strict : Bool} {owner : Nat} (hh : home.length < 2 ^ 31) (hu : user.length < 2 ^ 31)
    (h : searchForPubKey S.keys (openKeysFile S owner strict) home pattern user key strict = .success) :
    key ≠ [] ∧ ∃ path file, Spec.Sshd.KeysPath home user pattern path ∧ path.length < 80 ∧ Reads S strict owner path file ∧
      searchKeysFile S.keys (some file) strict key = .success := by
  rw [searchForPubKey] at h
  cases hr : resolveAuthKeysPath home pattern user with
  | error e => rw [hr] at h; cases h
  | ok path =>
    rw [hr] at h
    simp only at h
    obtain ⟨hk, file, hf, hs⟩ := search_none h
    have := (Proofs.SshdPath.resolve_iff hh hu).1 hr
    exact ⟨hk, path, file, this.1, this.2, (reads_iff hW _ _ _ _).1 hf, hs⟩

theorem keysfile_if {S : Sys} (hW : Spec.SshdFile.Absolute S.world) {home user key : Bytes} {pattern : Option Bytes}
    {strict : Bool} {owner : Nat} (hh : home.length < 2 ^ 31) (hu : user.length < 2 ^ 31) {path file : Bytes}
    (h1 : Spec.Sshd.KeysPath home user pattern path) (h2 : path.length < 80) (h3 : Reads S strict owner path file)
    (h4 : searchKeysFile S.keys (some file) strict key = .success) :
    searchForPubKey S.keys (openKeysFile S owner strict) home pattern user key strict = .success := by
  rw [searchForPubKey, (Proofs.SshdPath.resolve_iff hh hu).2 ⟨h1, h2⟩]
  simp only
  rw [(reads_iff hW _ _ _ _).2 h3]
  exact h4

theorem keys_gate {S : Sys} {conf : List Conf} {user : Bytes} {e : Passwd} {c : Conf} (hs : Settings S conf user e c) :
    (¬(isRootUser S user = true ∧ c.permitRoot = 0) ∧ c.pubKeyAuth = true ∧
      isRootPubKeyForcedCmdMissing (isRootUser S user) c = false) ↔ MayKeys user e c := by
  rw [MayKeys, ← root_iff hs.1, isRootPubKeyForcedCmdMissing]
  cases isRootUser S user <;> cases c.pubKeyAuth <;> simp

/-- What is left of the decision on a key that came without a certificate. -/
theorem key_iff {S : Sys} {conf : List Conf} {user : Bytes} {e : Passwd} {c c0 : Conf} (hr : S.raiseOk = true)
    (hs : Settings S conf user e c) (h0 : conf.head? = some c0) (k : PubKey) (peer : Option Bytes) (n : Int) :
    (decideAuth S conf user (.publicKey k) peer n).1 = .success ↔
      MayKeys user e c ∧ upnPart S c user k = true ∧
        (if k.isCert = true ∧ c.authKeysFileSet = false then c0.userCAKeysFile = c.userCAKeysFile ∧ S.fpki = true
         else checkPublicKeyUnix S user k c.userCAKeysFile c.authKeysFile c0.strictModes peer = .success) := by
  rw [decide_of_settings hr hs h0, ← keys_gate hs]
  by_cases g0 : isRootUser S user = true ∧ c.permitRoot = 0
  · rw [if_pos g0]
    constructor
    · intro h; cases h
    · intro h; exact absurd g0 h.1.1
  · rw [if_neg g0]
    simp only [publicKeyPart]
    by_cases g1 : c.pubKeyAuth = true
    · rw [if_neg (by simp [g1])]
      cases g2 : isRootPubKeyForcedCmdMissing (isRootUser S user) c with
      | true => simp
      | false =>
        simp only [Bool.false_eq_true, if_false]
        cases g3 : upnPart S c user k with
        | false => simp
        | true =>
          simp only [Bool.not_true, Bool.false_eq_true, if_false]
          by_cases g4 : k.isCert = true ∧ c.authKeysFileSet = false
          · rw [if_pos (by simpa using g4), if_pos g4]
            by_cases g5 : c0.userCAKeysFile = c.userCAKeysFile
            · rw [if_neg (by simpa using g5)]
              cases S.fpki <;> simp [g0, g1, g5]
            · rw [if_pos g5]; simp [g5]
          · rw [if_neg (by simpa using g4), if_neg g4]
            cases checkPublicKeyUnix S user k c.userCAKeysFile c.authKeysFile c0.strictModes peer <;> simp [g0, g1]
    · rw [if_pos (by simpa using g1)]
      constructor
      · intro h; cases h
      · intro h; exact absurd h.1.2.1 g1

/-! ## Certificates -/

theorem ossh_success {S : Sys} {user : Bytes} {sh : Wolf.OsshCert.Shown} {f peer : Option Bytes} :
    checkOsshUnix S user sh f peer = .success ↔
      sh.caKey ≠ [] ∧ (∃ e, S.getpwnam user = some e) ∧
      (∃ path, f = some path ∧ searchKeysFile S.keys (openKeysFile S S.euid true path) true sh.caKey = .success) ∧
      osshCertCheckPrincipal sh.principals user = .success ∧ osshCertCheckValidity sh S.now = .success ∧
      osshCertCheckSourceAddress S.net sh peer = .success := by
  rw [checkOsshUnix.eq_def]
  by_cases h0 : sh.caKey = []
  · rw [if_pos h0]; simp [h0]
  · rw [if_neg h0]
    cases f with
    | none => simp
    | some path =>
      simp only
      cases S.getpwnam user with
      | none => simp
      | some e =>
        simp only [Option.some.injEq, exists_eq_left']
        cases searchKeysFile S.keys (openKeysFile S S.euid true path) true sh.caKey <;> simp [h0]
        cases osshCertCheckPrincipal sh.principals user <;> simp
        cases osshCertCheckValidity sh S.now <;> simp

/-! ## UPN -/

theorem lower_fold (c : UInt8) : lower c = fold c := by
  have h : (65 ≤ c ∧ c ≤ 90) ↔ (65 ≤ c.toNat ∧ c.toNat ≤ 90) := by
    rw [UInt8.le_iff_toNat_le, UInt8.le_iff_toNat_le]; rfl
  rw [lower, fold]
  by_cases g : 65 ≤ c.toNat ∧ c.toNat ≤ 90
  · rw [if_pos g, if_pos (h.2 g)]
    apply UInt8.toNat_inj.1
    rw [UInt8.toNat_add, UInt8.toNat_ofNat']
    rfl
  · rw [if_neg g, if_neg (fun x => g (h.1 x))]

theorem sep_iff (c : UInt8) : upnSep c = true ↔ c ∈ ([32, 9, 13, 10, 44] : List UInt8) := by
  simp [upnSep]

theorem realms_sep {c : UInt8} (h : upnSep c = true) (t : Bytes) : realms (c :: t) = [] :: realms t := by
  rw [realms, if_pos ((sep_iff c).1 h)]

theorem realms_ne (t : Bytes) : ∃ w ws, realms t = w :: ws := by
  cases t with
  | nil => exact ⟨_, _, rfl⟩
  | cons c t =>
    rw [realms]
    split
    · exact ⟨_, _, rfl⟩
    · split <;> exact ⟨_, _, rfl⟩

theorem realms_char {c : UInt8} (h : upnSep c = false) {t w : Bytes} {ws : List Bytes} (hr : realms t = w :: ws) :
    realms (c :: t) = (c :: w) :: ws := by
  rw [realms, if_neg (by rw [← sep_iff, h]; simp), hr]

/-- The first realm and what comes after it. -/
theorem realms_cut : ∀ (p : Bytes), realms p = p.takeWhile (fun c => !upnSep c) ::
    (match p.dropWhile (fun c => !upnSep c) with | [] => [] | _ :: r => realms r)
  | [] => rfl
  | c :: t => by
    cases h : upnSep c with
    | true =>
      rw [realms_sep h, List.takeWhile_cons, List.dropWhile_cons]
      simp [h]
    | false =>
      rw [realms_char h (realms_cut t), List.takeWhile_cons, List.dropWhile_cons]
      simp [h]

theorem realms_skip (p : Bytes) (q : Bytes → Prop) (hq : ¬q []) :
    (∃ r ∈ realms p, q r) ↔ ∃ r ∈ realms (p.dropWhile upnSep), q r := by
  induction p with
  | nil => rfl
  | cons c t ih =>
    cases h : upnSep c with
    | true =>
      rw [realms_sep h, List.dropWhile_cons, if_pos h, ← ih]
      simp [hq]
    | false => rw [List.dropWhile_cons, if_neg (by simp [h])]

theorem realmLoop_iff (domain : Bytes) (hd : domain ≠ []) : ∀ (fuel : Nat) (p : Bytes), p.length ≤ fuel →
    (realmLoop domain fuel p = true ↔ ∃ r ∈ realms p, r.map fold = domain.map fold)
  | 0, p, h => by
    cases p with
    | nil =>
      simp only [realmLoop, realms]
      simp [hd]
    | cons c t => simp at h
  | fuel + 1, p, h => by
    have hq : ¬(([] : Bytes).map fold = domain.map fold) := by
      intro g
      cases domain with
      | nil => exact hd rfl
      | cons c t => cases g
    rw [realmLoop]
    by_cases hp : p = []
    · subst hp
      rw [if_pos rfl]
      simp [realms, hd]
    · rw [if_neg hp, realms_skip p _ hq]
      simp only
      generalize hp' : p.dropWhile upnSep = p'
      have hlen : p'.length ≤ p.length := by rw [← hp']; exact (List.dropWhile_suffix _).length_le
      have hhd : ∀ c t, p' = c :: t → upnSep c = false := by
        intro c t hc
        have := List.head?_dropWhile_not (p := upnSep) (l := p)
        rw [hp', hc] at this
        simpa using this
      rw [realms_cut p']
      have hmap : ∀ l : Bytes, l.map lower = l.map fold := fun l => List.map_congr_left (fun c _ => lower_fold c)
      generalize htok : p'.takeWhile (fun c => !upnSep c) = tok
      by_cases ht : tok.length > 0 ∧ tok.length = domain.length ∧ tok.map lower = domain.map lower
      · rw [if_pos ht]
        simp only [true_iff]
        refine ⟨tok, List.mem_cons_self, ?_⟩
        rw [← hmap, ← hmap]; exact ht.2.2
      · rw [if_neg ht]
        have htok' : ¬(tok.map fold = domain.map fold) := by
          intro g
          apply ht
          have gl : tok.length = domain.length := by simpa using congrArg List.length g
          refine ⟨?_, gl, by rw [hmap, hmap]; exact g⟩
          rw [gl]; exact List.length_pos_iff.2 hd
        cases hrest : p'.dropWhile (fun c => !upnSep c) with
        | nil =>
          simp only [List.mem_singleton, exists_eq_left, htok', iff_false]
          cases fuel with
          | zero => simp [realmLoop]
          | succ f => simp [realmLoop]
        | cons c r =>
          have hc : upnSep c = true := by
            have := List.head?_dropWhile_not (p := fun c => !upnSep c) (l := p')
            rw [hrest] at this
            simpa using this
          have hl2 : (c :: r).length ≤ fuel := by
            have h1 : (c :: r).length < p'.length ∨ p' = c :: r := by
              have h2 := (List.dropWhile_suffix (fun c => !upnSep c) (l := p'))
              rw [hrest] at h2
              rcases Nat.lt_or_ge (c :: r).length p'.length with h | h
              · exact .inl h
              · exact .inr (h2.eq_of_length_le h).symm
            rcases h1 with h1 | h1
            · omega
            · have := hhd c r h1
              rw [hc] at this; cases this
          rw [realmLoop_iff domain hd fuel (c :: r) hl2, realms_sep hc]
          simp only [List.mem_cons, exists_eq_or_imp, htok', false_or]
          constructor
          · rintro (h | h)
            · exact absurd h hq
            · exact h
          · exact fun h => .inr h

theorem realmLoop_nil : ∀ (fuel : Nat) (p : Bytes), realmLoop [] fuel p = false
  | 0, _ => rfl
  | fuel + 1, p => by
    rw [realmLoop]
    by_cases hp : p = []
    · rw [if_pos hp]
    · rw [if_neg hp]
      simp only
      rw [if_neg, realmLoop_nil fuel]
      rintro ⟨h1, h2, _⟩
      simp at h2
      simp [h2] at h1

theorem upn_local (user upn : Bytes) :
    (user = upn.takeWhile (fun c => c ≠ 64)) ↔
      (64 : UInt8) ∉ user ∧ (upn = user ∨ ∃ d, upn = user ++ 64 :: d) := by
  induction upn generalizing user with
  | nil =>
    simp only [List.takeWhile_nil]
    constructor
    · rintro rfl; simp
    · rintro ⟨_, h | ⟨d, h⟩⟩
      · exact h.symm
      · simp at h
  | cons c t ih =>
    rw [List.takeWhile_cons]
    by_cases hc : c = 64
    · subst hc
      simp only [ne_eq, not_true, decide_false, Bool.false_eq_true, if_false]
      constructor
      · rintro rfl
        exact ⟨by simp, .inr ⟨t, rfl⟩⟩
      · rintro ⟨h1, h | ⟨d, h⟩⟩
        · rw [← h] at h1; simp at h1
        · cases user with
          | nil => rfl
          | cons x u =>
            simp only [List.cons_append, List.cons.injEq] at h
            rw [← h.1] at h1; simp at h1
    · rw [if_pos (by simpa using hc)]
      cases user with
      | nil =>
        simp only [List.nil_append, List.cons.injEq, List.not_mem_nil, not_false_eq_true, true_and, reduceCtorEq, false_iff, not_or,
          not_exists, not_and]
        exact fun d h => absurd h hc
      | cons x u =>
        simp only [List.cons.injEq, List.mem_cons, not_or, List.cons_append]
        rw [ih u]
        constructor
        · rintro ⟨rfl, h1, h2⟩
          refine ⟨⟨fun h => hc h.symm, h1⟩, ?_⟩
          rcases h2 with h2 | ⟨d, h2⟩
          · exact .inl ⟨rfl, h2⟩
          · exact .inr ⟨d, rfl, h2⟩
        · rintro ⟨⟨_, h1⟩, h2 | ⟨d, h2⟩⟩
          · exact ⟨h2.1.symm, h1, .inl h2.2⟩
          · exact ⟨h2.1.symm, h1, .inr ⟨d, h2.2⟩⟩

theorem upn_iff (user upn : Bytes) (allow : Option Bytes) : matchUPNToUser user upn allow = true ↔ UpnOf user upn allow := by
  rw [matchUPNToUser.eq_def]
  simp only
  by_cases h : user = upn.takeWhile (fun c => c ≠ 64)
  · have hl : user.length = (upn.takeWhile (fun c => c ≠ 64)).length := by rw [← h]
    rw [if_pos ⟨hl, h⟩]
    have hu := (upn_local user upn).1 h
    match allow with
    | none => exact ⟨fun _ => hu, fun _ => rfl⟩
    | some [] => exact ⟨fun _ => hu, fun _ => rfl⟩
    | some (a :: l) =>
      simp only [UpnOf]
      rw [← hl]
      by_cases hlt : user.length < upn.length
      · rw [if_pos hlt]
        obtain ⟨h1, h2 | ⟨d, h2⟩⟩ := hu
        · rw [h2] at hlt; omega
        · have hd : upn.drop (user.length + 1) = d := by
            rw [h2, ← List.drop_drop, List.drop_append_of_le_length (Nat.le_refl _)]
            simp
          rw [hd]
          constructor
          · intro g
            have hne : d ≠ [] := by rintro rfl; rw [realmLoop_nil] at g; cases g
            exact ⟨h1, d, h2, hne, (realmLoop_iff d hne _ _ (Nat.le_refl _)).1 g⟩
          · rintro ⟨_, d', h3, hne, g⟩
            rw [h2] at h3
            have := List.append_cancel_left h3
            cases this
            exact (realmLoop_iff d hne _ _ (Nat.le_refl _)).2 g
      · rw [if_neg hlt]
        constructor
        · intro g; cases g
        · rintro ⟨_, d, rfl, _⟩
          simp at hlt
  · rw [if_neg (fun g => h g.2)]
    constructor
    · intro g; cases g
    · intro g
      exfalso
      apply h
      rw [upn_local]
      refine ⟨g.1, ?_⟩
      have g2 := g.2
      match allow with
      | none => exact g2
      | some [] => exact g2
      | some (a :: l) =>
        obtain ⟨d, hd, _⟩ := g2
        exact .inr ⟨d, hd⟩

/-! ## Attempts -/

/-- What one request does to the attempts that are left. -/
theorem request_attempts {S : Sys} {conf : List Conf} {user : Bytes} {cred : Cred} {peer : Option Bytes} {n m : Int} {a : Answer}
    (h : requestAuthentication S conf user cred peer n = some (a, m)) :
    (a = .invalidPassword ∧ m = n - 1 ∧ m ≠ 0) ∨ (a = .rejected ∧ (m = n ∨ m = n - 1)) ∨
      (a ≠ .invalidPassword ∧ a ≠ .rejected ∧ m = n) := by
  have pass : ∀ (c : Conf) (pw : Bytes), passwordPart S c (isRootUser S user) user pw n = (a, m) →
      (a = .invalidPassword ∧ m = n - 1 ∧ m ≠ 0) ∨ (a = .rejected ∧ (m = n ∨ m = n - 1)) ∨
      (a ≠ .invalidPassword ∧ a ≠ .rejected ∧ m = n) := by
    intro c pw h
    rw [passwordPart] at h
    split at h
    · cases h; exact .inr (.inl ⟨rfl, .inl rfl⟩)
    · split at h
      · cases h; exact .inr (.inl ⟨rfl, .inl rfl⟩)
      · split at h
        · cases h; exact .inr (.inr (by simp))
        · split at h
          · cases h; exact .inr (.inr (by simp))
          · split at h
            · cases h; exact .inr (.inl ⟨rfl, .inr rfl⟩)
            · cases h; exact .inl ⟨rfl, rfl, by assumption⟩
          · cases h; exact .inr (.inr (by simp))
  have key : ∀ (c0 c : Conf) (k : PubKey), publicKeyPart S c0 c (isRootUser S user) user k peer ≠ .invalidPassword := by
    intro c0 c k
    rw [publicKeyPart]
    repeat' split
    all_goals simp
  have done : decideAuth S conf user cred peer n = (a, m) →
      (a = .invalidPassword ∧ m = n - 1 ∧ m ≠ 0) ∨ (a = .rejected ∧ (m = n ∨ m = n - 1)) ∨
      (a ≠ .invalidPassword ∧ a ≠ .rejected ∧ m = n) := by
    intro h
    have other : ∀ a', a' ≠ .invalidPassword → (a', n) = (a, m) →
        (a = .invalidPassword ∧ m = n - 1 ∧ m ≠ 0) ∨ (a = .rejected ∧ (m = n ∨ m = n - 1)) ∨
        (a ≠ .invalidPassword ∧ a ≠ .rejected ∧ m = n) := by
      intro a' ha' h
      cases h
      by_cases hr : a = .rejected
      · exact .inr (.inl ⟨hr, .inl rfl⟩)
      · exact .inr (.inr ⟨ha', hr, rfl⟩)
    have hu : doCheckUser S conf user (isRootUser S user) ≠ .invalidPassword := by
      rw [doCheckUser]
      generalize (isRootUser S user && _) = d
      cases d
      · simp only [Bool.false_eq_true, if_false]
        split <;> simp
      · simp
    rw [decideAuth] at h
    split at h
    · split at h
      · exact other _ (by simp) h
      · split at h
        · split at h
          · exact other _ (by simp) h
          · exact pass _ _ h
          · exact other _ (key _ _ _) h
        · exact other _ (by simp) h
    · exact other _ hu h
  rw [requestAuthentication.eq_def] at h
  cases cred with
  | none => simp only [Option.some.injEq, Prod.mk.injEq] at h; exact .inr (.inr ⟨by rw [← h.1]; simp, by rw [← h.1]; simp, h.2.symm⟩)
  | password pw =>
    simp only at h
    split at h
    · exact done (Option.some.inj h)
    · cases h
  | publicKey k =>
    simp only at h
    split at h
    · exact done (Option.some.inj h)
    · cases h

end Proofs.SshdAuth
