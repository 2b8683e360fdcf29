import Verif.Proofs.ClientRun
import Verif.Proofs.KexAgree
/-! From the client's message to the server's question, and back. -/

namespace Proofs.ClientAuth
open Wolf Wolf.Wire Wolf.NameList Wolf.ClientAuth Spec.Wire Spec.ClientAuth Props.Wire Proofs.Ossh
open Wolf.OsshCert (ID_SSH_RSA ID_RSA_SHA2_256 ID_RSA_SHA2_512 ID_ECDSA_SHA2_NISTP256 ID_ECDSA_SHA2_NISTP384 ID_ECDSA_SHA2_NISTP521
  ID_ED25519)
open Wolf.UserAuth (Ret queued ID_SERVICE_CONNECTION ID_USERAUTH_PASSWORD ID_USERAUTH_KEYBOARD ID_USERAUTH_PUBLICKEY)

variable {mem : Bytes} {len : Nat}

/-! ## The client, forwards -/

/-- A key that can be used is used. -/
theorem key_complete {s : Cl} {o : Offer} {algs : List Bytes} {alg sn : Bytes} (hk : Known s.peerSigId algs)
    (hc : choice o.type algs = some (alg, sn)) (ha : Able o sn (toSign s.sessionId s.userName alg o.blob)) (sz : Nat) :
    ∃ est k b, preparePublicKey s sz o = .ok (est, k) ∧ buildPublicKey s o k (requestHead s (.publicKey o)) = .ok b := by
  have h0 : ∃ alg sn x, choice o.type algs = some (alg, sn) ∧ Fam o.type s.peerSigId alg sn x := by
    rcases choice_cases hk o.type with h | ⟨h, -⟩
    · exact h
    · rw [hc] at h; cases h
  obtain ⟨alg', sn', x, hc', hf⟩ := h0
  rw [hc] at hc'
  simp only [Option.some.injEq, Prod.mk.injEq] at hc'
  obtain ⟨rfl, rfl⟩ := hc'
  obtain ⟨n, hl, ha⟩ := ha
  have hp : ∃ est, preparePublicKey s sz o =
      .ok (est, ⟨nameToId table o.type, matchIdLists .client (algosOf (nameToId table o.type)) s.peerSigId, alg, n, true⟩) := by
    unfold preparePublicKey
    simp only
    rw [if_neg hf.ne, hf.extra, hf.name]
    simp only
    rw [hl]
    exact ⟨_, rfl⟩
  obtain ⟨est, hp⟩ := hp
  refine ⟨est, ⟨nameToId table o.type, matchIdLists .client (algosOf (nameToId table o.type)) s.peerSigId, alg, n, true⟩, ?_⟩
  have hh : ∀ alg, requestHead s (.publicKey o) ++ fields alg o.blob = keyOffer s.userName alg o.blob := by
    intro alg; rw [head_eq]; rfl
  rcases hf.fam with ⟨rfl, hsn, hl5, hm⟩ | ⟨rfl, hal, hl5, hm, hs3⟩ | ⟨rfl, hal, hl5, hm, rfl, hs3⟩
  · rw [if_pos hsn] at ha
    obtain ⟨b, hb, hbl, hn⟩ := ha
    refine ⟨fields alg o.blob ++ encString (sigOne sn b), hp, ?_⟩
    rw [build_rsa s o _ _ rfl hsn hm]
    simp only [hh]
    rw [show encString s.sessionId ++ keyOffer s.userName alg o.blob = toSign s.sessionId s.userName alg o.blob from rfl, hb]
    simp only
    rw [if_neg (by omega)]
  · have hk' : (KeySig.mk (nameToId table o.type) (matchIdLists Side.client (algosOf (nameToId table o.type)) s.peerSigId) alg n true).sigId =
        nameToId table o.type := hm
    rw [if_neg (by rcases hs3 with h | h | h <;> rw [h.1] <;> decide), if_neg (by rcases hs3 with h | h | h <;> rw [h.1] <;> decide)] at ha
    obtain ⟨⟨r, s'⟩, hrs⟩ := ha
    refine ⟨fields o.type o.blob ++ encString (sigTwo sn r s'), hp, ?_⟩
    rw [build_ecc s o _ _ (sn := sn) rfl (by rw [hk']; exact hs3), hk']
    subst hal
    simp only [hh]
    rw [show encString s.sessionId ++ keyOffer s.userName o.type o.blob = toSign s.sessionId s.userName o.type o.blob from rfl, hrs]
  · have hk' : (KeySig.mk (nameToId table o.type) (matchIdLists Side.client (algosOf (nameToId table o.type)) s.peerSigId) alg n true).sigId =
        nameToId table o.type := hm
    rw [if_neg (by decide), if_pos rfl] at ha
    obtain ⟨b, hb⟩ := ha
    refine ⟨fields o.type o.blob ++ encString (sigOne (text "ssh-ed25519") b), hp, ?_⟩
    rw [build_ed s o _ _ rfl (by rw [hk']; exact hs3), hk']
    subst hal
    simp only [hh]
    rw [show encString s.sessionId ++ keyOffer s.userName o.type o.blob = toSign s.sessionId s.userName o.type o.blob from rfl, hb]

/-- The methods the client takes from a list. -/
def taken (attempts : Nat) (l : Bytes) : Types where
  password := decide (text "password" ∈ Spec.NameList.names l)
  publicKey := decide (text "publickey" ∈ Spec.NameList.names l)
  keyboard := decide (attempts < 3 ∧ text "keyboard-interactive" ∈ Spec.NameList.names l)

theorem keep_len (ids : List Nat) : (keep ids).length ≤ ids.length := by
  cases ids with
  | nil => exact Nat.le_refl _
  | cons x xs =>
    have := List.length_filter_le (fun i => decide (i ≠ ID_UNKNOWN)) xs
    simp only [keep, List.length_cons]; omega

theorem failure_fwd (hl : len ≤ mem.length) (hw : len < 2 ^ 32) (E : Env) (s : Cl) {l : Bytes} {partly : UInt8}
    (hm : mem.take len = failure l partly) (hsz : l.length ≤ 4096) (hcnt : (Spec.NameList.names l).length ≤ 4)
    (ht : taken s.kbAttempts l ≠ {}) : doUserAuthFailure E s mem len = some (sendUserAuthRequest E s (taken s.kbAttempts l)) := by
  have hm0 : msgFrom mem len 0 = encString l ++ (partly :: []) := hm
  have hlen : len ≠ 0 := by
    intro h; rw [h] at hm0; simp [msgFrom, encString, encUint32] at hm0
  obtain ⟨a1, m1⟩ := str_fwd hl hw hm0
  obtain ⟨a2, m2⟩ := bool_fwd hl hw m1
  have hk : (keep ((Spec.NameList.names l).map (nameToId table))).length ≤ 4 := by
    have := keep_len ((Spec.NameList.names l).map (nameToId table))
    rw [List.length_map] at this; omega
  have hg : getNameList table 4 mem len 0 = .ok (keep ((Spec.NameList.names l).map (nameToId table))) (0 + 4 + l.length) := by
    unfold getNameList
    rw [if_neg hlen, a1]
    simp only
    rw [str_deref hl hm0 hw]
    simp only [refAt_sz, getNameListRaw_eq]
    rw [if_pos ⟨hsz, by simp only [MAX_NAMELIST_CNT]; omega, hk⟩]
  have hty : typesOf s.kbAttempts (keep ((Spec.NameList.names l).map (nameToId table))) = taken s.kbAttempts l := by
    have e1 := (typesOf_password s.kbAttempts (keep ((Spec.NameList.names l).map (nameToId table)))).trans (ids_mem (by decide) id_password)
    have e2 := (typesOf_publicKey s.kbAttempts (keep ((Spec.NameList.names l).map (nameToId table)))).trans (ids_mem (by decide) id_publickey)
    have e3 := (typesOf_keyboard s.kbAttempts (keep ((Spec.NameList.names l).map (nameToId table)))).trans
      (and_congr_right fun _ => ids_mem (by decide) id_keyboard)
    cases hT : typesOf s.kbAttempts (keep ((Spec.NameList.names l).map (nameToId table))) with
    | mk a b c =>
      rw [hT] at e1 e2 e3
      simp only at e1 e2 e3
      unfold taken
      congr 1
      · rw [Bool.eq_iff_iff, e1, decide_eq_true_iff]
      · rw [Bool.eq_iff_iff, e2, decide_eq_true_iff]
      · rw [Bool.eq_iff_iff, e3, decide_eq_true_iff]
  unfold doUserAuthFailure
  rw [if_neg hlen, hg]
  simp only
  rw [a2]
  simp only
  rw [hty, if_neg ht]

theorem room_emit {E : Env} (s : Cl) (est : Nat) (p : Bytes) (hq : queued E.send = true) : emit E s est p = (E.send, s.note (.sent est p)) := by
  unfold emit; rw [if_pos hq]

theorem headSz_eq (s : Cl) (m : Method) :
    (1 + 4 * 3 + s.userName.length + (Kex.idToName table ID_SERVICE_CONNECTION).length + (Kex.idToName table m.id).length) % 2^32 = headSz s m := by
  rw [n_id, n_conn]; rfl

/-- A password is sent. -/
theorem send_password {E : Env} {s : Cl} {t : Types} {pw : Bytes} (hk : t.keyboard = false) (hp : t.password = true) (hs : E.set = true)
    (hpw : E.password = some pw) (hr : E.room = none) (hq : queued E.send = true)
    (hfit : (passwordRequest s.userName pw).length ≤ 35000) :
    ∃ est, sendUserAuthRequest E s t =
      (E.send, { s with log := s.log ++ [.askedPassword, .sent est (passwordRequest s.userName pw)] }) := by
  unfold sendUserAuthRequest choose
  rw [if_neg (by rw [hk]; decide), if_neg (by rw [hs]; decide), if_pos hp]
  simp only [hpw]
  unfold prepare
  simp only [Cl.note]
  rw [headSz_eq { s with log := s.log ++ [.askedPassword] } (.password pw)]
  have hh : headSz { s with log := s.log ++ [.askedPassword] } (.password pw) =
      1 + 4 * 3 + s.userName.length + (text "ssh-connection").length + (text "password").length := by
    rw [passwordRequest, request_length] at hfit
    refine Nat.mod_eq_of_lt ?_
    simp only [nameOf]; omega
  rw [passwordRequest, request_length] at hfit
  simp only [List.length_append, enc_length, List.length_cons, List.length_nil] at hfit
  have hpp : preparePassword (headSz { s with log := s.log ++ [.askedPassword] } (.password pw)) pw =
      .ok (headSz { s with log := s.log ++ [.askedPassword] } (.password pw) + (1 + 4) + pw.length) := by
    unfold preparePassword
    rw [hh, if_neg]
    simp only [Wolf.Receive.MAX_PACKET_SZ]
    omega
  rw [hpp]
  simp only [hr]
  unfold build
  simp only
  rw [room_emit _ _ _ hq, List.append_assoc, head_eq, str_eq]
  refine ⟨headSz { s with log := s.log ++ [.askedPassword] } (.password pw) + (1 + 4) + pw.length, ?_⟩
  simp only [Cl.note, passwordRequest, nameOf, List.append_assoc, List.cons_append, List.nil_append]

/-- A key is offered. -/
theorem send_key {E : Env} {s : Cl} {t : Types} {o : Offer} {algs : List Bytes} {alg sn : Bytes} (hk : t.keyboard = false)
    (hp : t.publicKey = true) (hpw : t.password = true → E.password = none) (hs : E.set = true)
    (ho : E.key = some o) (hd : s.pkDone = false) (hr : E.room = none) (hq : queued E.send = true) (hkn : Known s.peerSigId algs)
    (hc : choice o.type algs = some (alg, sn)) (ha : Able o sn (toSign s.sessionId s.userName alg o.blob)) :
    ∃ sig est asked, SignedBy o sn (toSign s.sessionId s.userName alg o.blob) sig ∧ (∀ e ∈ asked, e = Ev.askedPassword ∨ e = .askedKey) ∧
      sendUserAuthRequest E s t =
      (E.send, { s with pkDone := true, log := s.log ++ asked ++ [.sent est (keyRequest s.userName alg o.blob sig)] }) := by
  have hchoose : ∃ asked, (∀ e ∈ asked, e = Ev.askedPassword ∨ e = .askedKey) ∧
      choose E s t = (.ok (.publicKey o), { s with log := s.log ++ asked }) := by
    unfold choose
    rw [if_neg (by rw [hk]; decide), if_neg (by rw [hs]; decide)]
    by_cases h : t.password = true
    · rw [if_pos h]
      simp only [hpw h, hp, if_true]
      exact ⟨[.askedPassword, .askedKey], by simp, by simp [chooseKey, ho, Cl.note]⟩
    · rw [if_neg h, if_pos hp]
      exact ⟨[.askedKey], by simp, by simp [chooseKey, ho, Cl.note]⟩
  obtain ⟨asked, has, hch⟩ := hchoose
  unfold sendUserAuthRequest
  rw [hch]
  simp only
  unfold prepare
  simp only
  rw [if_pos hd]
  obtain ⟨est, k, b, h1, h2⟩ := key_complete (s := { s with log := s.log ++ asked }) hkn hc ha
    ((1 + 4 * 3 + s.userName.length + (Kex.idToName table ID_SERVICE_CONNECTION).length + (Kex.idToName table (Method.publicKey o).id).length) % 2^32)
  rw [h1]
  simp only [hr]
  have h2' : buildPublicKey { s with pkDone := true, log := s.log ++ asked } o k
      (requestHead { s with pkDone := true, log := s.log ++ asked } (.publicKey o)) = .ok b := h2
  obtain ⟨alg', sn', sig, h4, h5, h6, _⟩ := key_sent (s := { s with log := s.log ++ asked }) hkn h1 h2
  rw [hc] at h4
  simp only [Option.some.injEq, Prod.mk.injEq] at h4
  obtain ⟨rfl, rfl⟩ := h4
  unfold build
  simp only
  rw [h2']
  simp only
  rw [room_emit _ _ _ hq, head_eq, h6]
  refine ⟨sig, est, asked, h5, has, ?_⟩
  simp only [Cl.note, nameOf, keyRequest, keyOffer, request, fields, List.append_assoc]

/-! ## The server -/

open Wolf.UserAuth (Auth Out doUserAuthRequest dispatchMethod)

/-- What the server notes of a request. -/
def seen (a : Auth) (user : Bytes) (id : Nat) : Auth :=
  { a with userName := user, userAuthSeen := true, authId := id, authRequests := add32 a.authRequests 1 }

theorem request_read (hl : len ≤ mem.length) (hw : len < 2 ^ 32) (E : UserAuth.Env) (a : Auth) {user : Bytes} {name : String} {fs : Bytes}
    (ht : E.table = table) (hb : Bound a user) (hp : a.kbSetupPending = false)
    (hm : mem.take len = (request user name fs).drop 1) :
    ∃ i, msgFrom mem len i = fs ∧ i ≤ len ∧
      doUserAuthRequest E a mem len = dispatchMethod E (seen a user (nameToId table (text name))) user mem len i (nameToId table (text name)) := by
  have hm0 : msgFrom mem len 0 = encString user ++ (encString (text "ssh-connection") ++ (encString (text name) ++ fs)) := by
    show mem.take len = _
    rw [hm]; simp [request]
  have hlen : len ≠ 0 := by
    intro h; rw [h] at hm0; simp [msgFrom, encString, encUint32] at hm0
  obtain ⟨a1, m1⟩ := str_fwd hl hw hm0
  obtain ⟨a2, m2⟩ := str_fwd hl hw m1
  obtain ⟨a3, m3⟩ := str_fwd hl hw m2
  have hid : nameToId table (text "ssh-connection") = ID_SERVICE_CONNECTION := by decide +kernel
  refine ⟨_, m3, ?_, ?_⟩
  · have h3 := msgFrom_length mem len (0 + 4 + user.length + 4 + (text "ssh-connection").length) hl
    rw [m2, List.length_append, enc_length] at h3
    omega
  unfold doUserAuthRequest
  rw [if_neg hlen, a1]
  simp only
  rw [a2]
  simp only
  rw [str_deref hl hm0 hw, str_deref hl m1 hw]
  simp only
  rw [ht, if_neg (by rw [hid]; simp), a3]
  simp only
  rw [str_deref hl m2 hw]
  simp only
  have hbind : UserAuth.bindUser a user = (none, { a with userName := user, userAuthSeen := true }) := by
    unfold UserAuth.bindUser
    rcases hb with ⟨h1, h2⟩ | ⟨h1, rfl⟩
    · rw [if_pos h1, if_neg (by simpa using h2)]
    · rw [if_neg (by rw [h1]; decide), if_neg (by simp)]
      cases a; simp_all
  rw [hbind]
  simp only
  rw [if_neg (by simp [hp])]
  rfl

theorem failCount_log (E : UserAuth.Env) (a : Auth) (p c : Bool) : ∃ more, (UserAuth.sendUserAuthFailureCount E a p c).2.log = a.log ++ more := by
  have h1 : ∃ more, (UserAuth.sendUserAuthFailure E a p).2.log = a.log ++ more := by
    unfold UserAuth.sendUserAuthFailure
    by_cases h : queued E.sendFailure = true
    · simp only [h, if_true]; exact ⟨[.sentFailure p], rfl⟩
    · simp only [h]; exact ⟨[], by simp⟩
  have h2 : ∀ b : Auth, ∃ more, (UserAuth.countUserAuthFailure b).2.log = b.log ++ more := by
    intro b
    unfold UserAuth.countUserAuthFailure
    by_cases h : add32 b.authFailures 1 ≥ b.maxAuthAttempts
    · simp only [h, if_true]; exact ⟨[.sentDisconnect], rfl⟩
    · simp only [h, if_false]; exact ⟨[], by simp⟩
  obtain ⟨m1, h1⟩ := h1
  obtain ⟨m2, h2⟩ := h2 (UserAuth.sendUserAuthFailure E a p).2
  unfold UserAuth.sendUserAuthFailureCount
  cases c with
  | false => exact ⟨m1, h1⟩
  | true =>
    simp only [if_true]
    refine ⟨m1 ++ m2, ?_⟩
    rw [← List.append_assoc, ← h1, ← h2]
    cases hc : UserAuth.countUserAuthFailure (UserAuth.sendUserAuthFailure E a p).2 with
    | mk r b => cases r <;> rfl

theorem kbRequest_log (E : UserAuth.Env) (a : Auth) (u : Bytes) : ∃ more, (UserAuth.sendUserAuthKeyboardRequest E a u).2.log = a.log ++ more := by
  unfold UserAuth.sendUserAuthKeyboardRequest
  cases hcb : E.cb with
  | none => exact ⟨[], by simp⟩
  | some cb =>
    simp only
    have hf : ∀ (x : UserAuth.Answer) , ∃ more, (UserAuth.sendUserAuthFailureCount E
        { a.note (.asked u .keyboardSetup x) with kbSetupPending := false } false true).2.log = a.log ++ more := by
      intro x
      obtain ⟨m, h⟩ := failCount_log E { a.note (.asked u .keyboardSetup x) with kbSetupPending := false } false true
      exact ⟨.asked u .keyboardSetup x :: m, by rw [h]; simp [UserAuth.Auth.note]⟩
    cases hx : cb u .keyboardSetup
    · simp only
      by_cases h : E.prompts > UserAuth.MAX_PROMPTS
      · rw [if_pos h]; exact ⟨_, rfl⟩
      · rw [if_neg h]
        by_cases hq : queued E.sendInfo = true
        · rw [if_pos hq]
          exact ⟨[.asked u .keyboardSetup .success, .sentInfoRequest E.prompts], by simp [UserAuth.Auth.note]⟩
        · rw [if_neg hq]; exact ⟨_, rfl⟩
    · exact hf _
    · exact hf _
    · exact hf _
    · exact ⟨_, rfl⟩
    · exact hf _

theorem conclude_log (E : UserAuth.Env) (a : Auth) (u : Bytes) (v : UserAuth.Verdict) : ∃ more, (UserAuth.conclude E a u v).2.log = a.log ++ more := by
  unfold UserAuth.conclude
  by_cases h1 : (v.failure || v.isPartial) = true
  · rw [if_pos h1]; exact failCount_log E a v.isPartial true
  · rw [if_neg h1]
    by_cases h2 : v.another = true
    · rw [if_pos h2]; exact kbRequest_log E a u
    · rw [if_neg h2]
      by_cases h3 : v.ret = none
      · rw [if_pos h3]; exact ⟨[], by simp⟩
      · rw [if_neg h3]; exact ⟨[], by simp⟩

/-- The question that follows a password request. -/
theorem password_server (hl : len ≤ mem.length) (hw : len < 2 ^ 32) (E : UserAuth.Env) (a : Auth) {user pw : Bytes}
    {cb : Bytes → UserAuth.Ask → UserAuth.Answer} (ht : E.table = table) (hb : Bound a user) (hp : a.kbSetupPending = false)
    (hcb : E.cb = some cb) (hm : mem.take len = (passwordRequest user pw).drop 1) :
    ∃ r i a', doUserAuthRequest E a mem len = .ret r i a' ∧
      (∃ more, a'.log = a.log ++ UserAuth.Ev.asked user (.password pw) (cb user (.password pw)) :: more) ∧
      (cb user (.password pw) = .success → r = none ∧ a'.clientState = UserAuth.CLIENT_USERAUTH_DONE ∧ a'.userName = user ∧ i = len ∧
        a'.log = a.log ++ [UserAuth.Ev.asked user (.password pw) .success]) := by
  obtain ⟨i, m1, hil, he⟩ := request_read hl hw E a ht hb hp hm
  rw [he]
  have hid : nameToId table (text "password") = ID_USERAUTH_PASSWORD := by decide +kernel
  unfold dispatchMethod
  rw [hid, if_pos rfl]
  have m1' : msgFrom mem len i = 0 :: (encString pw ++ []) := by rw [m1]; simp
  obtain ⟨a1, m2⟩ := bool_fwd hl hw m1'
  obtain ⟨a2, m3⟩ := str_fwd hl hw m2
  have hend : i + 1 + 4 + pw.length = len := by
    have h2 := msgFrom_length mem len (i + 1) hl
    rw [m2, List.length_append, enc_length] at h2
    simp only [List.length_nil] at h2
    omega
  unfold UserAuth.doUserAuthRequestPassword
  rw [a1]
  simp only
  rw [a2]
  simp only
  rw [if_neg (by decide), hcb]
  simp only
  rw [str_deref hl m2 hw]
  simp only
  refine ⟨_, _, _, rfl, ?_, ?_⟩
  · obtain ⟨m, h⟩ := conclude_log E ((seen a user ID_USERAUTH_PASSWORD).note (.asked user (.password pw) (cb user (.password pw)))) user
      (UserAuth.passwordVerdict (cb user (.password pw)))
    exact ⟨m, by rw [h]; simp [UserAuth.Auth.note, seen]⟩
  · intro hans
    rw [hans]
    simp [UserAuth.passwordVerdict, UserAuth.conclude, UserAuth.Auth.note, hend, seen]

/-! ### Keyboard-interactive -/

theorem responses_fwd (hl : len ≤ mem.length) (hw : len < 2 ^ 32) (rs : List Bytes) : ∀ idx rest,
    msgFrom mem len idx = rs.flatMap encString ++ rest →
    ∃ i, UserAuth.getResponses mem len rs.length idx = .ok rs i ∧ msgFrom mem len i = rest ∧ (idx ≤ len → i ≤ len) := by
  induction rs with
  | nil => intro idx rest h; exact ⟨idx, rfl, h, fun h => h⟩
  | cons r rs ih =>
    intro idx rest h
    rw [List.flatMap_cons, List.append_assoc] at h
    obtain ⟨a1, m1⟩ := str_fwd hl hw h
    obtain ⟨i, a2, m2, hi⟩ := ih _ _ m1
    refine ⟨i, ?_, m2, fun _ => hi ?_⟩
    · simp only [List.length_cons]
      unfold UserAuth.getResponses
      rw [a1]
      simp only
      rw [str_deref hl h hw]
      simp only
      rw [a2]
    · have h2 := msgFrom_length mem len idx hl
      rw [h, List.length_append, enc_length] at h2
      omega

/-- The question that follows the answers. -/
theorem answers_server (hl : len ≤ mem.length) (hw : len < 2 ^ 32) (E : UserAuth.Env) (a : Auth) {rs : List Bytes}
    {cb : Bytes → UserAuth.Ask → UserAuth.Answer} (hid : a.authId = ID_USERAUTH_KEYBOARD) (hn : a.promptCount = rs.length)
    (hcb : E.cb = some cb) (hm : mem.take len = (infoResponse rs).drop 1) :
    ∃ r i a', UserAuth.doUserAuthInfoResponse E a mem len 0 = .ret r i a' ∧
      (∃ more, a'.log = a.log ++ UserAuth.Ev.asked a.userName (.keyboard rs) (cb a.userName (.keyboard rs)) :: more) ∧
      (cb a.userName (.keyboard rs) = .success → r = none ∧ a'.clientState = UserAuth.CLIENT_USERAUTH_DONE ∧ a'.userName = a.userName ∧
        i = len ∧ a'.log = a.log ++ [UserAuth.Ev.asked a.userName (.keyboard rs) .success]) := by
  have hm0 : msgFrom mem len 0 = encUint32 rs.length ++ (rs.flatMap encString ++ []) := by
    show mem.take len = _
    rw [hm]; simp [infoResponse]
  have hlen : len ≠ 0 := by
    intro h; rw [h] at hm0; simp [msgFrom, encUint32] at hm0
  have hrs : rs.length < 2 ^ 32 := by
    have h2 := msgFrom_length mem len 0 hl
    rw [hm0] at h2
    have h3 : ∀ l : List Bytes, l.length ≤ (l.flatMap encString).length := by
      intro l
      induction l with
      | nil => simp
      | cons x l ih => rw [List.flatMap_cons, List.length_append, enc_length, List.length_cons]; omega
    have := h3 rs
    simp only [List.length_append] at h2
    omega
  obtain ⟨a1, m1⟩ := u32_fwd hl hw hrs hm0
  obtain ⟨i, a2, m2, hi⟩ := responses_fwd hl hw rs _ _ m1
  have h4 : 4 ≤ len := by
    have h2 := msgFrom_length mem len 0 hl
    rw [hm0, List.length_append] at h2
    have : (encUint32 rs.length).length = 4 := rfl
    omega
  have hend : i = len := by
    have h2 := msgFrom_length mem len i hl
    rw [m2] at h2
    have := hi h4
    simp only [List.length_nil] at h2
    omega
  unfold UserAuth.doUserAuthInfoResponse
  rw [if_neg hlen, if_neg (by rw [hid]; simp)]
  simp only
  rw [a1]
  simp only
  rw [if_neg (by rw [hn]; simp), a2]
  simp only
  rw [hcb]
  simp only
  refine ⟨_, _, _, rfl, ?_, ?_⟩
  · obtain ⟨m, h⟩ := conclude_log E (UserAuth.Auth.note { a with kbSetupPending := false }
      (.asked a.userName (.keyboard rs) (cb a.userName (.keyboard rs)))) a.userName
      (UserAuth.keyboardVerdict (cb a.userName (.keyboard rs)))
    exact ⟨m, by
      have e : ∀ b : Auth, b.userName = a.userName → (UserAuth.Auth.note b (.asked a.userName (.keyboard rs) (cb a.userName (.keyboard rs)))).userName = a.userName :=
        fun _ h => h
      simp only [UserAuth.Auth.note] at h ⊢
      rw [h]; simp⟩
  · intro hans
    rw [hans]
    simp [UserAuth.keyboardVerdict, UserAuth.conclude, UserAuth.Auth.note, hend]

/-! ### Public keys -/

/-- The verifiers of the build: three algorithms of RSA, four others. -/
structure Verifiers (E : UserAuth.Env) : Prop where
  rsa : ∀ i, E.isRsa i = true ↔ i = ID_SSH_RSA ∨ i = ID_RSA_SHA2_256 ∨ i = ID_RSA_SHA2_512
  ecc : ∀ i, i = ID_ECDSA_SHA2_NISTP256 ∨ i = ID_ECDSA_SHA2_NISTP384 ∨ i = ID_ECDSA_SHA2_NISTP521 ∨ i = ID_ED25519 → E.isEcc i = true

theorem choice_plain {kt : Bytes} {algs : List Bytes} {alg sn : Bytes} (h : choice kt algs = some (alg, sn))
    (hk : kt = text "ssh-rsa" ∨ kt ∈ plain) :
    alg = sn ∧ (kt = text "ssh-rsa" ∧ alg ∈ Spec.ClientAuth.rsa ∨ kt ∈ plain ∧ alg = kt) := by
  unfold choice at h
  rcases hk with rfl | hk
  · rw [if_pos rfl] at h
    cases hf : algs.find? fun n => Spec.ClientAuth.rsa.contains n with
    | none => rw [hf] at h; cases h
    | some n =>
      rw [hf] at h
      simp only [Option.map_some, Option.some.injEq, Prod.mk.injEq] at h
      have := List.find?_some hf
      refine ⟨h.1.symm.trans h.2, .inl ⟨rfl, ?_⟩⟩
      rw [← h.1]; simpa using this
  · have h1 : kt ≠ text "ssh-rsa" := by
      intro h; rw [h] at hk; revert hk; decide
    have h2 : kt ∉ rsaCerts := by
      intro h
      have : ∀ k ∈ plain, k ∉ rsaCerts := by decide
      exact this _ hk h
    rw [if_neg h1, if_neg h2, if_pos hk] at h
    by_cases hm : kt ∈ algs
    · rw [if_pos hm] at h
      simp only [Option.some.injEq, Prod.mk.injEq] at h
      exact ⟨h.1.symm.trans h.2, .inr ⟨hk, h.1.symm⟩⟩
    · rw [if_neg hm] at h; cases h

theorem leads {blob name rest : Bytes} {sz : Nat} (hl : sz ≤ blob.length) (hw : sz < 2 ^ 32)
    (hm : blob.take sz = encString name ++ rest) : UserAuth.leadsWith blob sz name = some true := by
  have hm0 : msgFrom blob sz 0 = encString name ++ rest := hm
  obtain ⟨a1, m1⟩ := str_fwd hl hw hm0
  unfold UserAuth.leadsWith
  rw [a1]
  simp only
  rw [str_deref hl hm0 hw]
  simp

/-- The question that follows a public key request, and the check of the signature. -/
theorem key_server (hl : len ≤ mem.length) (hw : len < 2 ^ 32) (E : UserAuth.Env) (a : Auth) {user : Bytes}
    {cb : Bytes → UserAuth.Ask → UserAuth.Answer} (ht : E.table = table) (hb : Bound a user) (hp : a.kbSetupPending = false)
    (hcb : E.cb = some cb) (hv : Verifiers E) {o : Offer} {algs : List Bytes} {alg sn sig rest : Bytes}
    (hc : choice o.type algs = some (alg, sn)) (hkt : o.type = text "ssh-rsa" ∨ o.type ∈ plain)
    (hka : nameToId table alg ∈ E.keyAlgos)
    (hblob : o.blob = encString o.type ++ rest) (hsig : SignedBy o sn (toSign a.sessionId user alg o.blob) sig)
    (hm : mem.take len = (keyRequest user alg o.blob sig).drop 1) :
    ∃ r i a', doUserAuthRequest E a mem len = .ret r i a' ∧
      (∃ more, a'.log = a.log ++ UserAuth.Ev.asked user (.publicKey alg o.blob true sig none) (cb user (.publicKey alg o.blob true sig none)) :: more) ∧
      (cb user (.publicKey alg o.blob true sig none) = .success →
        (∃ more, a'.log = a.log ++ UserAuth.Ev.asked user (.publicKey alg o.blob true sig none) .success ::
          UserAuth.Ev.sigChecked user alg o.blob sig (toSign a.sessionId user alg o.blob)
            (E.crypto (nameToId table alg) o.blob sig (toSign a.sessionId user alg o.blob)) :: more) ∧
        (E.crypto (nameToId table alg) o.blob sig (toSign a.sessionId user alg o.blob) = true → E.resultCb ≠ some false →
          r = none ∧ a'.clientState = UserAuth.CLIENT_USERAUTH_DONE ∧ a'.userName = user)) := by
  obtain ⟨i, m1, hil, he⟩ := request_read hl hw E a (name := "publickey") (fs := [1] ++ encString alg ++ encString o.blob ++ encString sig) ht hb hp
    (by rw [hm]; simp [keyRequest, keyOffer, request])
  rw [he]
  have hid : nameToId table (text "publickey") = ID_USERAUTH_PUBLICKEY := by decide +kernel
  unfold dispatchMethod
  rw [hid, if_neg (by decide), if_neg (by decide), if_pos rfl]
  have m1' : msgFrom mem len i = 1 :: (encString alg ++ (encString o.blob ++ (encString sig ++ []))) := by rw [m1]; simp
  obtain ⟨a1, m2⟩ := bool_fwd hl hw m1'
  obtain ⟨a2, m3⟩ := str_fwd hl hw m2
  obtain ⟨a3, m4⟩ := str_fwd hl hw m3
  obtain ⟨a4, m5⟩ := str_fwd hl hw m4
  have d2 := str_deref hl m2 hw
  have d3 := str_deref hl m3 hw
  have d4 := str_deref hl m4 hw
  have v3 : (UserAuth.view mem (refAt (i + 1 + 4 + alg.length) o.blob)).take o.blob.length = o.blob ∧
      o.blob.length ≤ (UserAuth.view mem (refAt (i + 1 + 4 + alg.length) o.blob)).length := str_view hl m3
  have v4 : (UserAuth.view mem (refAt (i + 1 + 4 + alg.length + 4 + o.blob.length) sig)).take sig.length = sig ∧
      sig.length ≤ (UserAuth.view mem (refAt (i + 1 + 4 + alg.length + 4 + o.blob.length) sig)).length := str_view hl m4
  have hlen : len = i + 1 + 4 + alg.length + 4 + o.blob.length + 4 + sig.length := by
    have h2 := msgFrom_length mem len i hl
    rw [m1'] at h2
    simp only [List.length_cons, List.length_append, enc_length, List.length_nil] at h2
    omega
  have hsl : sig.length < 2 ^ 32 := by omega
  have hbl : o.blob.length < 2 ^ 32 := by omega
  have hpk : UserAuth.parsePk mem len i = .ok ⟨true, refAt (i + 1) alg, refAt (i + 1 + 4 + alg.length) o.blob,
      refAt (i + 1 + 4 + alg.length + 4 + o.blob.length) sig⟩ (i + 1 + 4 + alg.length + 4 + o.blob.length + 4 + sig.length) := by
    unfold UserAuth.parsePk
    rw [a1]
    simp only
    rw [a2]
    simp only
    rw [a3]
    simp only
    rw [if_pos (by decide), a4]
  obtain ⟨hasn, hkk⟩ := choice_plain hc hkt
  subst hasn
  -- the signature's two strings
  have hsig2 : ∃ body, sig = encString alg ++ encString body := by
    unfold SignedBy at hsig
    split at hsig
    · obtain ⟨b, _, h⟩ := hsig; exact ⟨b, h⟩
    · split at hsig
      · obtain ⟨b, _, h⟩ := hsig; exact ⟨b, h⟩
      · obtain ⟨r, s, _, h⟩ := hsig; exact ⟨_, h⟩
  obtain ⟨body, hsb⟩ := hsig2
  have hm4 : msgFrom (UserAuth.view mem (refAt (i + 1 + 4 + alg.length + 4 + o.blob.length) sig)) sig.length 0 = encString alg ++ (encString body ++ []) := by
    have := str_msg hl m4
    rw [List.append_nil, ← hsb]; exact this
  have hm3 : msgFrom (UserAuth.view mem (refAt (i + 1 + 4 + alg.length) o.blob)) o.blob.length 0 = encString o.type ++ rest := by
    have := str_msg hl m3
    rw [← hblob]; exact this
  obtain ⟨b1, _⟩ := str_fwd (by exact v3.2) hbl hm3
  obtain ⟨c1, n1⟩ := str_fwd (by exact v4.2) hsl hm4
  obtain ⟨c2, _⟩ := str_fwd (by exact v4.2) hsl n1
  have hin : ∃ j, UserAuth.parsePkInner mem ⟨true, refAt (i + 1) alg, refAt (i + 1 + 4 + alg.length) o.blob,
      refAt (i + 1 + 4 + alg.length + 4 + o.blob.length) sig⟩ = .ok () j := by
    unfold UserAuth.parsePkInner
    simp only [refAt_sz]
    rw [b1]
    simp only [if_true]
    rw [c1]
    simp only
    rw [c2]
    exact ⟨_, rfl⟩
  obtain ⟨j, hin⟩ := hin
  have hids : nameToId table alg ≠ ID_UNKNOWN ∧ OsshCert.isCertId (nameToId table alg) = false ∧
      (E.isRsa (nameToId table alg) || E.isEcc (nameToId table alg)) = true ∧
      (if E.isRsa (nameToId table alg) = true then ([115,115,104,45,114,115,97] : Bytes) else alg) = o.type := by
    have g1 : ∀ x ∈ Spec.ClientAuth.rsa, nameToId table x ≠ ID_UNKNOWN ∧ OsshCert.isCertId (nameToId table x) = false ∧
        (nameToId table x = ID_SSH_RSA ∨ nameToId table x = ID_RSA_SHA2_256 ∨ nameToId table x = ID_RSA_SHA2_512) := by decide +kernel
    have g2 : ∀ x ∈ plain, nameToId table x ≠ ID_UNKNOWN ∧ OsshCert.isCertId (nameToId table x) = false ∧
        (nameToId table x = ID_ECDSA_SHA2_NISTP256 ∨ nameToId table x = ID_ECDSA_SHA2_NISTP384 ∨ nameToId table x = ID_ECDSA_SHA2_NISTP521 ∨
          nameToId table x = ID_ED25519) ∧
        ¬ (nameToId table x = ID_SSH_RSA ∨ nameToId table x = ID_RSA_SHA2_256 ∨ nameToId table x = ID_RSA_SHA2_512) := by decide +kernel
    rcases hkk with ⟨h1, h2⟩ | ⟨h1, h2⟩
    · obtain ⟨e1, e2, e3⟩ := g1 _ h2
      have := (hv.rsa _).2 e3
      refine ⟨e1, e2, by rw [this]; rfl, ?_⟩
      rw [if_pos this, h1]; decide
    · rw [← h2] at h1
      obtain ⟨e1, e2, e3, e4⟩ := g2 _ h1
      have h3 := hv.ecc _ e3
      refine ⟨e1, e2, by rw [h3]; simp, ?_⟩
      rw [if_neg (fun h => e4 ((hv.rsa _).1 h)), h2]
  obtain ⟨hu, hncert, hrsaecc, hkn⟩ := hids
  have hsub : UserAuth.pkSubject E mem ⟨true, refAt (i + 1) alg, refAt (i + 1 + 4 + alg.length) o.blob,
      refAt (i + 1 + 4 + alg.length + 4 + o.blob.length) sig⟩ (nameToId table alg) alg o.blob =
      .key ⟨nameToId table alg, alg, UserAuth.view mem (refAt (i + 1 + 4 + alg.length) o.blob), o.blob.length, o.blob, none⟩ := by
    unfold UserAuth.pkSubject
    cases E.ossh with
    | none => simp only [refAt_sz]
    | some K => simp only [hncert, refAt_sz, Bool.false_eq_true, if_false]
  have hdata : UserAuth.signedData (UserAuth.Auth.note (seen a user ID_USERAUTH_PUBLICKEY)
      (.asked user (.publicKey alg o.blob true sig none) .success)) mem (sub32 (sub32 len sig.length) 4) = toSign a.sessionId user alg o.blob := by
    have hsub32 : sub32 (sub32 len sig.length) 4 = len - sig.length - 4 := by
      unfold sub32; omega
    rw [hsub32]
    unfold UserAuth.signedData
    have htk : mem.take (len - sig.length - 4) = (keyOffer user alg o.blob).drop 1 := by
      have h1 : mem.take (len - sig.length - 4) = (mem.take len).take (len - sig.length - 4) := by
        rw [List.take_take]; congr 1; omega
      have h2 : (keyRequest user alg o.blob sig).drop 1 = (keyOffer user alg o.blob).drop 1 ++ encString sig := by
        simp [keyRequest, keyOffer, request]
      have h3 : ((keyOffer user alg o.blob).drop 1).length = len - sig.length - 4 := by
        have := congrArg List.length hm
        rw [h2, List.length_append, enc_length, List.length_take, Nat.min_eq_left hl] at this
        omega
      rw [h1, hm, h2, ← h3, List.take_left]
    rw [htk]
    have h5 : keyOffer user alg o.blob = 50 :: (keyOffer user alg o.blob).drop 1 := by
      simp [keyOffer, request]
    show c32toa a.sessionId.length ++ a.sessionId ++ [50] ++ _ = encString a.sessionId ++ keyOffer user alg o.blob
    rw [List.append_assoc, List.append_assoc, List.singleton_append, ← h5, c32toa_eq, ← List.append_assoc]; rfl
  have hver : ∀ data, UserAuth.verifySig E (nameToId table alg) alg (UserAuth.view mem (refAt (i + 1 + 4 + alg.length) o.blob)) o.blob.length
      (UserAuth.view mem (refAt (i + 1 + 4 + alg.length + 4 + o.blob.length) sig)) sig.length data =
      some (E.crypto (nameToId table alg) o.blob sig data) := by
    intro data
    unfold UserAuth.verifySig
    simp only
    rw [hkn, if_pos hrsaecc, leads v3.2 hbl (by rw [v3.1]; exact hblob)]
    simp only
    rw [leads v4.2 hsl (by rw [v4.1]; exact hsb)]
    simp only
    rw [v3.1, v4.1]
  unfold UserAuth.doUserAuthRequestPublicKey
  rw [hpk]
  simp only
  rw [hin]
  simp only
  rw [d2, d3, d4]
  simp only
  rw [ht, if_neg (by simp [hu, hka]), hsub]
  simp only
  unfold UserAuth.pkAnswer
  rw [hcb]
  simp only
  have hfail : ∀ (b : Auth) (rj : Bool), ∃ more, (UserAuth.pkFail E b rj).2.log = b.log ++ more := by
    intro b rj
    obtain ⟨m, h⟩ := failCount_log E b false true
    exact ⟨m, by unfold UserAuth.pkFail; exact h⟩
  have hlog : ∀ x, (UserAuth.Auth.note (seen a user ID_USERAUTH_PUBLICKEY) (.asked user (.publicKey alg o.blob true sig none) x)).log =
      a.log ++ [.asked user (.publicKey alg o.blob true sig none) x] := by
    intro x; simp [UserAuth.Auth.note, seen]
  have hverify : ∀ (b : Auth) (d : Bytes) (ip : Bool), UserAuth.signedData b mem (sub32 (sub32 len sig.length) 4) = d →
      ∃ r b', UserAuth.pkVerify E b user mem len ⟨nameToId table alg, alg, UserAuth.view mem (refAt (i + 1 + 4 + alg.length) o.blob), o.blob.length, o.blob, none⟩
        ⟨true, refAt (i + 1) alg, refAt (i + 1 + 4 + alg.length) o.blob, refAt (i + 1 + 4 + alg.length + 4 + o.blob.length) sig⟩ sig ip = some (r, b') ∧
      (∃ more, b'.log = b.log ++ UserAuth.Ev.sigChecked user alg o.blob sig d (E.crypto (nameToId table alg) o.blob sig d) :: more) ∧
      (ip = false → E.crypto (nameToId table alg) o.blob sig d = true → E.resultCb ≠ some false →
        r = none ∧ b'.clientState = UserAuth.CLIENT_USERAUTH_DONE ∧ b'.userName = b.userName) := by
    intro b d ip hd
    unfold UserAuth.pkVerify
    simp only [refAt_sz]
    rw [hd, hver]
    simp only
    cases hcr : E.crypto (nameToId table alg) o.blob sig d with
    | false =>
      simp only [if_true]
      obtain ⟨m, h⟩ := hfail (b.note (.sigChecked user alg o.blob sig d false)) false
      exact ⟨(UserAuth.pkFail E (b.note (.sigChecked user alg o.blob sig d false)) false).1,
        (UserAuth.pkFail E (b.note (.sigChecked user alg o.blob sig d false)) false).2, rfl, ⟨m, by rw [h]; simp [UserAuth.Auth.note]⟩, by intro _ h; cases h⟩
    | true =>
      simp only [Bool.true_eq_false, if_false]
      by_cases hres : E.resultCb = some false
      · rw [if_pos hres]
        obtain ⟨m, h⟩ := hfail (b.note (.sigChecked user alg o.blob sig d true)) false
        exact ⟨(UserAuth.pkFail E (b.note (.sigChecked user alg o.blob sig d true)) false).1,
          (UserAuth.pkFail E (b.note (.sigChecked user alg o.blob sig d true)) false).2, rfl, ⟨m, by rw [h]; simp [UserAuth.Auth.note]⟩, fun _ _ h => absurd hres h⟩
      · rw [if_neg hres]
        cases ip with
        | true =>
          simp only [if_true]
          obtain ⟨m, h⟩ := failCount_log E ((b.note (.sigChecked user alg o.blob sig d true)).note .resultAccepted) true true
          exact ⟨(UserAuth.sendUserAuthFailureCount E ((b.note (.sigChecked user alg o.blob sig d true)).note .resultAccepted) true true).1,
            (UserAuth.sendUserAuthFailureCount E ((b.note (.sigChecked user alg o.blob sig d true)).note .resultAccepted) true true).2, rfl, ⟨.resultAccepted :: m, by rw [h]; simp [UserAuth.Auth.note]⟩, by intro h; cases h⟩
        | false =>
          simp only [Bool.false_eq_true, if_false]
          exact ⟨_, _, rfl, ⟨[.resultAccepted], by simp [UserAuth.Auth.note]⟩, fun _ _ _ => ⟨rfl, rfl, rfl⟩⟩
  cases hans : cb user (.publicKey alg o.blob true sig none)
  · simp only [if_true]
    obtain ⟨r, b', e1, ⟨m, e2⟩, e3⟩ := hverify _ _ false hdata
    rw [e1]
    refine ⟨_, _, _, rfl, ⟨_, by rw [e2, hlog, List.append_assoc]; rfl⟩, fun _ => ⟨⟨m, by rw [e2, hlog, List.append_assoc]; rfl⟩, fun h1 h2 => ?_⟩⟩
    obtain ⟨x1, x2, x3⟩ := e3 rfl h1 h2
    exact ⟨x1, x2, by rw [x3]; rfl⟩
  · obtain ⟨m, h⟩ := hfail (UserAuth.Auth.note (seen a user ID_USERAUTH_PUBLICKEY) (.asked user (.publicKey alg o.blob true sig none) .successAnother)) false
    exact ⟨(UserAuth.pkFail E (UserAuth.Auth.note (seen a user ID_USERAUTH_PUBLICKEY) (.asked user (.publicKey alg o.blob true sig none) .successAnother)) false).1, _,
      (UserAuth.pkFail E (UserAuth.Auth.note (seen a user ID_USERAUTH_PUBLICKEY) (.asked user (.publicKey alg o.blob true sig none) .successAnother)) false).2, rfl, ⟨m, by rw [h, hlog, List.append_assoc]; rfl⟩, by intro h; cases h⟩
  · simp only [if_true]
    obtain ⟨r, b', e1, ⟨m, e2⟩, e3⟩ := hverify (UserAuth.Auth.note (seen a user ID_USERAUTH_PUBLICKEY) (.asked user (.publicKey alg o.blob true sig none) .partialSuccess)) _ true rfl
    rw [e1]
    exact ⟨_, _, _, rfl, ⟨_, by rw [e2, hlog, List.append_assoc]; rfl⟩, by intro h; cases h⟩
  · obtain ⟨m, h⟩ := hfail (UserAuth.Auth.note (seen a user ID_USERAUTH_PUBLICKEY) (.asked user (.publicKey alg o.blob true sig none) .rejected)) true
    exact ⟨(UserAuth.pkFail E (UserAuth.Auth.note (seen a user ID_USERAUTH_PUBLICKEY) (.asked user (.publicKey alg o.blob true sig none) .rejected)) true).1, _,
      (UserAuth.pkFail E (UserAuth.Auth.note (seen a user ID_USERAUTH_PUBLICKEY) (.asked user (.publicKey alg o.blob true sig none) .rejected)) true).2, rfl, ⟨m, by rw [h, hlog, List.append_assoc]; rfl⟩, by intro h; cases h⟩
  · exact ⟨_, _, _, rfl, ⟨[], hlog _⟩, by intro h; cases h⟩
  · obtain ⟨m, h⟩ := hfail (UserAuth.Auth.note (seen a user ID_USERAUTH_PUBLICKEY) (.asked user (.publicKey alg o.blob true sig none) .other)) false
    exact ⟨(UserAuth.pkFail E (UserAuth.Auth.note (seen a user ID_USERAUTH_PUBLICKEY) (.asked user (.publicKey alg o.blob true sig none) .other)) false).1, _,
      (UserAuth.pkFail E (UserAuth.Auth.note (seen a user ID_USERAUTH_PUBLICKEY) (.asked user (.publicKey alg o.blob true sig none) .other)) false).2, rfl, ⟨m, by rw [h, hlog, List.append_assoc]; rfl⟩, by intro h; cases h⟩

end Proofs.ClientAuth
