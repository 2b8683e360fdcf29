import Verif.Proofs.ClientServer
/-!
# What a client sends to authenticate (C109–C113)
-/

namespace Props.ClientAuth
open Wolf Wolf.Wire Wolf.NameList Wolf.ClientAuth Spec.Wire Spec.ClientAuth Proofs.ClientAuth
open Wolf.UserAuth (queued)

/-- A client of `user` at the start of a session with the id `sid`. -/
def fresh (user sid : List UInt8) : Cl := { userName := user, sessionId := sid }

/-! ## C109: every request is the message of the protocol, with a signature over session and message -/

/-- **C109.** Whatever messages a server sends in whatever order, and whatever the application and the packet layer answer each
time: the client never reads outside a message, and every message it sends is one of the five of RFC 4252 and 4256, for the user it was
set up with, sent because the server's last message allows it, with what the application gave. A public key request carries the key's
blob, an algorithm the server has announced by then, chosen by the rule of RFC 8332 (`choice`), and a signature by that key over the
session id followed by exactly the message up to the signature. -/
theorem C109_requests (user sid : List UInt8) (xs : List (Env × In)) (hx : ∀ x ∈ xs, Sane x.2) :
    ∃ s, run (fresh user sid) xs = some s ∧
      ∀ est msg, Ev.sent est msg ∈ s.log →
        ∃ pre E i post algs, xs = pre ++ (E, i) :: post ∧ Heard pre algs ∧ Reason E user sid algs i msg := by
  obtain ⟨s', new, h1, h2, h3, h4, _⟩ := run_spec xs (fresh user sid) [] hx ⟨[], .inl rfl, .inl rfl⟩
  refine ⟨s', h1, ?_⟩
  intro est msg hm
  rw [h2] at hm
  obtain ⟨pre, E, i, post, algs, e1, e2, e3⟩ := h4 est msg (by simpa [fresh] using hm)
  exact ⟨pre, E, i, post, algs, e1, e2, e3⟩

/-- **C109.** The size the client announces to the packet layer is short by at most eight bytes (of a keyboard-interactive request; five
of an RSA signature), given keys whose signatures are as long as they say: with a cipher of 16 byte blocks, within what `C24_emitted`
needs for the packet to be right. -/
theorem C109_size (user sid : List UInt8) (xs : List (Env × In)) (hx : ∀ x ∈ xs, Sane x.2)
    (ho : ∀ x ∈ xs, ∀ o, x.1.key = some o → Honest o) :
    ∃ s, run (fresh user sid) xs = some s ∧
      ∀ est msg, Ev.sent est msg ∈ s.log → msg.length + 30000 < 2 ^ 32 → msg.length + 3 ≤ est + 16 := by
  obtain ⟨s', new, h1, h2, _, _, _, _, h7⟩ := run_spec xs (fresh user sid) [] hx ⟨[], .inl rfl, .inl rfl⟩
  refine ⟨s', h1, ?_⟩
  intro est msg hm hl
  rw [h2] at hm
  have := h7 ho est msg (by simpa [fresh] using hm) hl
  omega

/-- **C109.** After the server has announced its signature algorithms and offers the public key method, a client that was not offered
keyboard-interactive, has no password and has not tried a key yet does offer its key, by the algorithm of the rule, if the private key
signs. -/
theorem C109_offered (s : Cl) (E0 E : Env) (mem1 mem2 : Bytes) (len1 len2 : Nat) (algs l : Bytes) (partly : UInt8)
    (o : Offer) (alg sn : Bytes)
    (h1 : len1 ≤ mem1.length ∧ len1 < 2 ^ 32) (m1 : mem1.take len1 = sigAlgs algs) (hs1 : algs.length ≤ 4096)
    (hn1 : (Spec.NameList.names algs).length ≤ 64)
    (h2 : len2 ≤ mem2.length ∧ len2 < 2 ^ 32) (m2 : mem2.take len2 = failure l partly) (hs2 : l.length ≤ 4096)
    (hn2 : (Spec.NameList.names l).length ≤ 4)
    (hpk : text "publickey" ∈ Spec.NameList.names l) (hkb : text "keyboard-interactive" ∉ Spec.NameList.names l)
    (hset : E.set = true) (hpw : E.password = none) (hkey : E.key = some o) (hroom : E.room = none) (hq : queued E.send = true)
    (hd : s.pkDone = false) (hc : choice o.type (Spec.NameList.names algs) = some (alg, sn))
    (ha : Able o sn (toSign s.sessionId s.userName alg o.blob)) :
    ∃ s' est sig, run s [(E0, .ext mem1 len1), (E, .failure mem2 len2)] = some s' ∧
      Ev.sent est (keyRequest s.userName alg o.blob sig) ∈ s'.log ∧ SignedBy o sn (toSign s.sessionId s.userName alg o.blob) sig := by
  obtain ⟨p, e1, hk⟩ := ext_fwd h1.1 h1.2 s algs m1 hs1 hn1
  have ht : taken s.kbAttempts l ≠ {} := by
    intro h
    have := congrArg Types.publicKey h
    simp [taken, hpk] at this
  obtain ⟨sig, est, asked, e3, _, e4⟩ := send_key (E := E) (s := { s with peerSigId := p }) (t := taken s.kbAttempts l) (o := o)
    (by simp [taken, hkb]) (by simp [taken, hpk]) (fun _ => hpw) hset hkey hd hroom hq hk hc ha
  have e2 := failure_fwd h2.1 h2.2 E { s with peerSigId := p } m2 hs2 hn2 ht
  refine ⟨{ s with peerSigId := p, pkDone := true, log := s.log ++ asked ++ [.sent est (keyRequest s.userName alg o.blob sig)] }, est, sig, ?_, by simp, e3⟩
  simp only [run, step, e1]
  rw [e2, e4]

theorem method_none (u : Bytes) (h : u.length < 2 ^ 32) : method (noneRequest u) = some (text "none") :=
  method_request u "none" _ h (by decide)

theorem method_keyboard (u : Bytes) (h : u.length < 2 ^ 32) : method (keyboardRequest u) = some (text "keyboard-interactive") :=
  method_request u "keyboard-interactive" _ h (by decide)

theorem method_password (u pw : Bytes) (h : u.length < 2 ^ 32) : method (passwordRequest u pw) = some (text "password") :=
  method_request u "password" _ h (by decide)

theorem method_key (u alg blob sig : Bytes) (h : u.length < 2 ^ 32) : method (keyRequest u alg blob sig) = some (text "publickey") := by
  have e : keyRequest u alg blob sig = request u "publickey" ([1] ++ encString alg ++ encString blob ++ encString sig) := by
    simp [keyRequest, keyOffer, request]
  rw [e]; exact method_request u "publickey" _ h (by decide)

theorem method_answers (rs : List Bytes) : method (infoResponse rs) = none := rfl

/-! ## C110: what a server can make a client do -/

/-- **C110.** In every run, the application is asked for a password only when the server offers that method, for a key only when it
offers public keys and there was no password, and is shown prompts only when the server sent them; and at most one public key request and
at most three keyboard-interactive requests are sent in a session, however often the server asks for more. -/
theorem C110_limits (user sid : List UInt8) (hu : user.length < 2 ^ 32) (xs : List (Env × In)) (hx : ∀ x ∈ xs, Sane x.2) :
    ∃ s, run (fresh user sid) xs = some s ∧
      (∀ e ∈ s.log, (∃ est msg, e = .sent est msg) ∨ ∃ E i, (E, i) ∈ xs ∧ Question E i e) ∧
      requests "publickey" s.log ≤ 1 ∧ requests "keyboard-interactive" s.log ≤ 3 := by
  obtain ⟨s', new, h1, h2, _, _, h5, h6, _⟩ := run_spec xs (fresh user sid) [] hx ⟨[], .inl rfl, .inl rfl⟩
  have hL := h6 hu ⟨Nat.le_refl _, Nat.le_refl _, Nat.zero_le _⟩
  refine ⟨s', h1, ?_, ?_, Nat.le_trans hL.kb hL.att⟩
  · intro e he
    rw [h2] at he
    exact h5 e (by simpa [fresh] using he)
  · have := hL.key
    by_cases h : s'.pkDone = true
    · rw [if_pos h] at this; exact this
    · rw [if_neg h] at this; omega

/-- **C110.** A password is never sent to a server that does not offer the method. -/
theorem C110_password (user sid : List UInt8) (hu : user.length < 2 ^ 32) (xs : List (Env × In)) (hx : ∀ x ∈ xs, Sane x.2)
    (hno : ∀ x ∈ xs, ∀ mem len l rest, x.2 = .failure mem len → mem.take len = encString l ++ rest →
      text "password" ∉ Spec.NameList.names l) :
    ∃ s, run (fresh user sid) xs = some s ∧ requests "password" s.log = 0 ∧ Ev.askedPassword ∉ s.log := by
  obtain ⟨s', new, h1, h2, _, h4, h5, _⟩ := run_spec xs (fresh user sid) [] hx ⟨[], .inl rfl, .inl rfl⟩
  refine ⟨s', h1, ?_, ?_⟩
  · unfold requests
    rw [List.length_eq_zero_iff, List.filter_eq_nil_iff]
    intro e he
    rw [h2] at he
    cases e with
    | sent est msg =>
      obtain ⟨pre, E, i, post, algs, e1, e2, e3⟩ := h4 est msg (by simpa [fresh] using he)
      have hmem : (E, i) ∈ xs := by rw [e1]; simp
      cases e3 with
      | none => simp only [fresh, method_none _ hu]; decide
      | keyboard => simp only [fresh, method_keyboard _ hu]; decide
      | password h7 h8 => exact absurd h8 (hno _ hmem _ _ _ _ rfl h7)
      | key => simp only [fresh, method_key _ _ _ _ hu]; decide
      | answers => simp only [method_answers]; decide
    | _ => simp
  · intro he
    rw [h2] at he
    rcases h5 _ (by simpa [fresh] using he) with ⟨_, _, h⟩ | ⟨E, i, hmem, hq⟩
    · cases h
    · cases hq with
      | password h7 h8 => exact absurd h8 (hno _ hmem _ _ _ _ rfl h7)

/-- **C110**, a limit of the code: to a server that has announced no signature algorithms (RFC 8308 leaves this to the server) no key is
ever offered, whatever its type. -/
theorem C110_unannounced (user sid : List UInt8) (hu : user.length < 2 ^ 32) (xs : List (Env × In)) (hx : ∀ x ∈ xs, Sane x.2)
    (hno : ∀ x ∈ xs, ∀ mem len, x.2 ≠ .ext mem len) :
    ∃ s, run (fresh user sid) xs = some s ∧ requests "publickey" s.log = 0 := by
  obtain ⟨s', h1, h4⟩ := C109_requests user sid xs hx
  refine ⟨s', h1, ?_⟩
  unfold requests
  rw [List.length_eq_zero_iff, List.filter_eq_nil_iff]
  intro e he
  cases e with
  | sent est msg =>
    obtain ⟨pre, E, i, post, algs, e1, e2, e3⟩ := h4 est msg he
    have halgs : algs = [] := by
      rcases e2 with h | ⟨E', mem, len, l, h, _⟩
      · exact h
      · exact absurd rfl (hno (E', .ext mem len) (by rw [e1]; simp [h]) mem len)
    subst halgs
    cases e3 with
    | none => simp only [method_none _ hu]; decide
    | keyboard => simp only [method_keyboard _ hu]; decide
    | password => simp only [method_password _ _ hu]; decide
    | @key _ _ _ _ o _ _ _ _ _ _ _ _ hc =>
      exfalso
      unfold choice at hc
      by_cases h1 : o.type = text "ssh-rsa"
      · rw [if_pos h1] at hc; cases hc
      rw [if_neg h1] at hc
      by_cases h2 : o.type ∈ rsaCerts
      · rw [if_pos h2] at hc; simp at hc
      rw [if_neg h2] at hc
      by_cases h3 : o.type ∈ plain
      · rw [if_pos h3, if_neg (by simp)] at hc; cases hc
      rw [if_neg h3] at hc
      split at hc
      · simp at hc
      · cases hc
    | answers => simp only [method_answers]; decide
  | _ => simp

/-! ## C111: a password from the client's application to the server's -/

/-- **C111.** A client whose application has the password `pw`, offered the method (and not keyboard-interactive), sends a message such
that the server, wherever it stands in the authentication of this user, asks its application about exactly that user and that password;
and if the answer is success the user is authenticated, with no further question. -/
theorem C111_password (c : Cl) (E : Env) (mem : Bytes) (len : Nat) (l : Bytes) (partly : UInt8) (pw : Bytes)
    (h : len ≤ mem.length ∧ len < 2 ^ 32) (hm : mem.take len = failure l partly) (hs : l.length ≤ 4096)
    (hn : (Spec.NameList.names l).length ≤ 4) (hpw : text "password" ∈ Spec.NameList.names l)
    (hkb : text "keyboard-interactive" ∉ Spec.NameList.names l)
    (hset : E.set = true) (hpass : E.password = some pw) (hroom : E.room = none) (hq : queued E.send = true)
    (hfit : c.userName.length + pw.length + 40 ≤ 35000)
    (S : UserAuth.Env) (a : UserAuth.Auth) (cb : Bytes → UserAuth.Ask → UserAuth.Answer) (hS : Server S) (hb : Bound a c.userName)
    (hp : a.kbSetupPending = false) (hcb : S.cb = some cb) :
    ∃ est msg, step E c (.failure mem len) = some (E.send, { c with log := c.log ++ [.askedPassword, .sent est (50 :: msg)] }) ∧
      ∃ r i a', UserAuth.doUserAuthRequest S a msg msg.length = .ret r i a' ∧
        (∃ more, a'.log = a.log ++ .asked c.userName (.password pw) (cb c.userName (.password pw)) :: more) ∧
        (cb c.userName (.password pw) = .success → r = none ∧ a'.clientState = UserAuth.CLIENT_USERAUTH_DONE ∧ a'.userName = c.userName ∧
          i = msg.length ∧ a'.log = a.log ++ [.asked c.userName (.password pw) .success]) := by
  have ht : taken c.kbAttempts l ≠ {} := by
    intro h
    have := congrArg Types.password h
    simp [taken, hpw] at this
  have hlen : (passwordRequest c.userName pw).length = c.userName.length + pw.length + 40 := by
    rw [passwordRequest, request_length, List.length_append, Proofs.Ossh.enc_length]
    have h1 : (text "ssh-connection").length = 14 := by decide
    have h2 : (text "password").length = 8 := by decide
    rw [h1, h2]; simp only [List.length_cons, List.length_nil]; omega
  obtain ⟨est, e1⟩ := send_password (E := E) (s := c) (t := taken c.kbAttempts l) (pw := pw)
    (by simp [taken, hkb]) (by simp [taken, hpw]) hset hpass hroom hq (by omega)
  have hcons : passwordRequest c.userName pw = 50 :: (passwordRequest c.userName pw).drop 1 := by
    simp [passwordRequest, request]
  refine ⟨est, (passwordRequest c.userName pw).drop 1, ?_, ?_⟩
  · rw [← hcons]
    show doUserAuthFailure E c mem len = _
    rw [failure_fwd h.1 h.2 E c hm hs hn ht, e1]
  · exact password_server (mem := (passwordRequest c.userName pw).drop 1) (Nat.le_refl _) (by rw [List.length_drop]; omega) S a hS.table hb hp hcb
      (by rw [List.take_of_length_le (Nat.le_refl _)])

/-! ## C112: a key from the client's application to the server's -/

/-- **C112.** The public key request a client sends for a plain key (`C109`: the message and the signature in it) makes a server with the
same session id ask its application about exactly that user, algorithm and key, and on success check exactly that signature with that key
over the session id and the message; if the arithmetic of the scheme accepts it the user is authenticated. -/
theorem C112_publicKey (user : Bytes) (o : Offer) (algs : List Bytes) (alg sn sig rest : Bytes)
    (hc : choice o.type algs = some (alg, sn)) (hkt : o.type = text "ssh-rsa" ∨ o.type ∈ plain)
    (hblob : o.blob = encString o.type ++ rest)
    (S : UserAuth.Env) (a : UserAuth.Auth) (cb : Bytes → UserAuth.Ask → UserAuth.Answer) (hS : Server S) (hb : Bound a user)
    (hp : a.kbSetupPending = false) (hcb : S.cb = some cb)
    (hsig : SignedBy o sn (toSign a.sessionId user alg o.blob) sig)
    (mem : Bytes) (len : Nat) (hl : len ≤ mem.length) (hw : len < 2 ^ 32) (hm : 50 :: mem.take len = keyRequest user alg o.blob sig) :
    ∃ r i a', UserAuth.doUserAuthRequest S a mem len = .ret r i a' ∧
      (∃ more, a'.log = a.log ++ .asked user (.publicKey alg o.blob true sig none) (cb user (.publicKey alg o.blob true sig none)) :: more) ∧
      (cb user (.publicKey alg o.blob true sig none) = .success →
        (∃ more, a'.log = a.log ++ .asked user (.publicKey alg o.blob true sig none) .success ::
          .sigChecked user alg o.blob sig (toSign a.sessionId user alg o.blob)
            (S.crypto (nameToId table alg) o.blob sig (toSign a.sessionId user alg o.blob)) :: more) ∧
        (S.crypto (nameToId table alg) o.blob sig (toSign a.sessionId user alg o.blob) = true → S.resultCb ≠ some false →
          r = none ∧ a'.clientState = UserAuth.CLIENT_USERAUTH_DONE ∧ a'.userName = user)) := by
  have hv : Verifiers S := by
    refine ⟨fun i => ?_, fun i hi => ?_⟩
    · rw [hS.rsa]
      have e1 : nameToId table (text "ssh-rsa") = OsshCert.ID_SSH_RSA := by decide +kernel
      have e2 : Spec.ClientAuth.rsa.map (nameToId table) = [OsshCert.ID_RSA_SHA2_512, OsshCert.ID_RSA_SHA2_256] := by decide +kernel
      rw [e1, e2]
      simp only [List.mem_cons, List.not_mem_nil, or_false]
      constructor
      · rintro (h | h | h)
        · exact .inl h
        · exact .inr (.inr h)
        · exact .inr (.inl h)
      · rintro (h | h | h)
        · exact .inl h
        · exact .inr (.inr h)
        · exact .inr (.inl h)
    · have e : ∀ i, i = OsshCert.ID_ECDSA_SHA2_NISTP256 ∨ i = OsshCert.ID_ECDSA_SHA2_NISTP384 ∨ i = OsshCert.ID_ECDSA_SHA2_NISTP521 ∨ i = OsshCert.ID_ED25519 →
          ∃ t ∈ plain, nameToId table t = i := by
        rintro i (rfl | rfl | rfl | rfl) <;> decide +kernel
      obtain ⟨t, ht, rfl⟩ := e i hi
      exact hS.other t ht
  have hka : nameToId table alg ∈ S.keyAlgos := by
    rw [hS.algos]
    have g1 : ∀ x ∈ Spec.ClientAuth.rsa, nameToId table x ∈ cannedKeyAlgoClient := by decide +kernel
    have g2 : ∀ x ∈ plain, nameToId table x ∈ cannedKeyAlgoClient := by decide +kernel
    rcases (choice_plain hc hkt).2 with ⟨_, h⟩ | ⟨h, rfl⟩
    · exact g1 _ h
    · exact g2 _ h
  exact key_server hl hw S a hS.table hb hp hcb hv hc hkt hka hblob hsig (by rw [← hm]; rfl)

/-! ## C113: what the server offers, asks and announces arrives at the client -/

/-- **C113.** The failure message of a server that allows the methods `t` is that of RFC 4252 with exactly these methods, and its size as
said to the packet layer. -/
theorem C113_methods (t : Types) (partly : Bool) :
    ∃ l, (userAuthFailureMsg t partly).2 = 51 :: failure l (if partly then 1 else 0) ∧
      (userAuthFailureMsg t partly).1 = (userAuthFailureMsg t partly).2.length ∧ l.length ≤ 4096 ∧
      Spec.NameList.names l = (if t.publicKey then [text "publickey"] else []) ++ (if t.password then [text "password"] else []) ++
        (if t.keyboard then [text "keyboard-interactive"] else []) := by
  refine ⟨getAllowedAuth t, ?_, ?_, ?_, ?_⟩
  · simp [userAuthFailureMsg, Spec.ClientAuth.failure, encString, c32toa_eq]
  · have : ∀ n, (c32toa n).length = 4 := fun _ => rfl
    simp only [userAuthFailureMsg, List.length_append, this, List.length_cons, List.length_nil]
  · rcases t with ⟨a, b, c⟩
    cases a <;> cases b <;> cases c <;> decide +kernel
  · rcases t with ⟨a, b, c⟩
    cases a <;> cases b <;> cases c <;> decide +kernel

theorem promptBytes_eq (ps : List (Bytes × Byte)) : promptBytes ps = ps.flatMap fun p => encString p.1 ++ [p.2] := by
  induction ps with
  | nil => rfl
  | cons p ps ih => obtain ⟨p, e⟩ := p; simp [promptBytes, ih, str_eq]

theorem promptSz_eq (ps : List (Bytes × Byte)) : (promptBytes ps).length = promptSz ps := by
  induction ps with
  | nil => rfl
  | cons p ps ih =>
    obtain ⟨p, e⟩ := p
    simp only [promptBytes, promptSz, List.length_append, ih, str_eq, Proofs.Ossh.enc_length, List.length_cons, List.length_nil]; omega

theorem cut_text {b : Bytes} (h : Text b) : cut b = b := by
  unfold cut
  induction b with
  | nil => rfl
  | cons x b ih =>
    have hx : x ≠ 0 := fun h0 => h (by rw [h0]; exact List.mem_cons_self)
    rw [List.takeWhile_cons_of_pos (by simpa using hx), ih (fun h' => h (List.mem_cons_of_mem _ h'))]

theorem shown_text {p : ClientAuth.Shown} (h : Text p.name ∧ Text p.instruction ∧ Text p.language ∧ ∀ x ∈ p.prompts, Text x.1) :
    shown p.name p.instruction p.language p.prompts = p := by
  obtain ⟨n, i, l, ps⟩ := p
  obtain ⟨h1, h2, h3, h4⟩ := h
  simp only [shown, cut_text h1, cut_text h2, cut_text h3, ClientAuth.Shown.mk.injEq, true_and]
  induction ps with
  | nil => rfl
  | cons x ps ih =>
    rw [List.map_cons, ih h1 h2 h3 (fun y hy => h4 y (List.mem_cons_of_mem _ hy)), cut_text (h4 x List.mem_cons_self)]

/-- **C113.** The prompts of the server's application (at most 64, texts without NUL) arrive at the client's application as they are, for
every prompt its text and whether to echo; its answers, one for each prompt, arrive at the server's application as they are. -/
theorem C113_prompts (c : Cl) (E : Env) (p : ClientAuth.Shown) (rs : List Bytes)
    (hp : Text p.name ∧ Text p.instruction ∧ Text p.language ∧ ∀ x ∈ p.prompts, Text x.1) (hn : p.prompts.length ≤ 64)
    (hsz : (infoRequestMsg p).2.length < 2 ^ 32)
    (hset : E.set = true) (hans : E.keyboard p = some rs) (hrs : rs.length = p.prompts.length) (hroom : E.room = none) (hq : queued E.send = true)
    (hrsz : (infoResponse rs).length < 2 ^ 32)
    (S : UserAuth.Env) (a : UserAuth.Auth) (cb : Bytes → UserAuth.Ask → UserAuth.Answer) (hid : a.authId = UserAuth.ID_USERAUTH_KEYBOARD)
    (hcnt : a.promptCount = p.prompts.length) (hcb : S.cb = some cb) :
    (infoRequestMsg p).1 = (infoRequestMsg p).2.length ∧
    ∃ q est msg, (infoRequestMsg p).2 = 60 :: q ∧
      step E c (.info q q.length) = some (E.send, { c with log := c.log ++ [.askedKeyboard p, .sent est (61 :: msg)] }) ∧
      ∃ r i a', UserAuth.doUserAuthInfoResponse S a msg msg.length 0 = .ret r i a' ∧
        (∃ more, a'.log = a.log ++ .asked a.userName (.keyboard rs) (cb a.userName (.keyboard rs)) :: more) ∧
        (cb a.userName (.keyboard rs) = .success → r = none ∧ a'.clientState = UserAuth.CLIENT_USERAUTH_DONE ∧ a'.userName = a.userName ∧
          i = msg.length ∧ a'.log = a.log ++ [.asked a.userName (.keyboard rs) .success]) := by
  have hmsg : (infoRequestMsg p).2 = 60 :: infoRequest p.name p.instruction p.language p.prompts := by
    simp [infoRequestMsg, infoRequest, str_eq, promptBytes_eq, c32toa_eq]
  have hl4 : ∀ n, (c32toa n).length = 4 := fun _ => rfl
  have hlen : (infoRequestMsg p).2.length = 1 + (4 * 3 + p.name.length + p.instruction.length + p.language.length + 4 + promptSz p.prompts) := by
    simp only [infoRequestMsg, List.length_append, str_eq, Proofs.Ossh.enc_length, hl4, promptSz_eq, List.length_cons, List.length_nil]; omega
  have hq2 : (infoRequest p.name p.instruction p.language p.prompts).length < 2 ^ 32 := by
    rw [hmsg, List.length_cons] at hsz; omega
  refine ⟨?_, infoRequest p.name p.instruction p.language p.prompts, (1 + 4 + strsSz rs) % 2 ^ 32, (infoResponse rs).drop 1, hmsg, ?_, ?_⟩
  · rw [hlen]
    show (1 + _) % 2 ^ 32 = _
    rw [Nat.mod_eq_of_lt]; omega
  · obtain ⟨i, hi⟩ := info_fwd (mem := infoRequest p.name p.instruction p.language p.prompts) (Nat.le_refl _) hq2 (rest := [])
      (by rw [List.take_of_length_le (Nat.le_refl _), List.append_nil]) hn
    have hne : ¬ (infoRequest p.name p.instruction p.language p.prompts).length = 0 := by
      rw [hmsg, List.length_cons] at hlen; omega
    show doUserAuthInfoRequest E c _ _ = _
    unfold doUserAuthInfoRequest
    rw [if_neg hne, hi]
    simp only
    rw [shown_text hp]
    unfold sendUserAuthKeyboardResponse
    rw [if_neg (by rw [hset]; decide)]
    simp only
    rw [hans]
    simp only
    rw [if_neg (by rw [hrs]; simp), hroom]
    simp only
    rw [room_emit _ _ _ hq, response_eq]
    have : infoResponse rs = 61 :: (infoResponse rs).drop 1 := rfl
    simp only [Cl.note, List.append_assoc, List.cons_append, List.nil_append]
    rw [← this]
  · exact answers_server (mem := (infoResponse rs).drop 1) (Nat.le_refl _) (by rw [List.length_drop]; omega) S a hid (by rw [hcnt, hrs]) hcb
      (by rw [List.take_of_length_le (Nat.le_refl _)])

/-- **C113.** A server's list of accepted key algorithms goes out as the message of RFC 8308 (without a comma at its end), of the size
said to the packet layer; a client that gets it then holds exactly these names for the server's (`C109_offered`: and chooses by them). -/
theorem C113_algorithms (accepted : Bytes) :
    (extInfoMsg accepted).2 = 7 :: sigAlgs (Spec.NameList.body accepted) ∧ (extInfoMsg accepted).1 = (extInfoMsg accepted).2.length := by
  have hl4 : ∀ n, (c32toa n).length = 4 := fun _ => rfl
  have h15 : asc "server-sig-algs" = text "server-sig-algs" := rfl
  constructor
  · simp only [extInfoMsg, sigAlgs, encString, str_eq, Kex.take_algoListSz, c32toa_eq, Kex.body_length, h15, List.append_assoc,
      List.cons_append, List.nil_append]
  · simp only [extInfoMsg, List.length_append, hl4, str_eq, Proofs.Ossh.enc_length, Kex.take_algoListSz, Kex.body_length, List.length_cons, List.length_nil]
    omega

/-! ## A session that meets the hypotheses -/

/-- An Ed25519 key whose signature is the length of what it signs, seven times. -/
def demoKey : Offer where
  type := text "ssh-ed25519"
  blob := encString (text "ssh-ed25519") ++ encString [1, 2, 3]
  load := fun _ => .ok 64
  sign := fun _ d => .ok (List.replicate 7 (UInt8.ofNat d.length))
  signRs := fun _ _ => .error .fatal

def demoEnv : Env where
  set := true
  password := some (text "secret")
  key := some demoKey
  keyboard := fun p => some (p.prompts.map fun _ => text "42")
  room := none
  send := none

def demoNoPassword : Env := { demoEnv with password := none }

def demoExt : Bytes := sigAlgs (text "rsa-sha2-256,ssh-ed25519")
def demoFail : Bytes := failure (text "publickey,password") 0
def demoInfo : Bytes := infoRequest (text "n") (text "i") [] [(text "Code: ", 0)]

def demoRun : List (Env × In) :=
  [(demoEnv, .start), (demoEnv, .ext demoExt demoExt.length), (demoNoPassword, .failure demoFail demoFail.length),
   (demoNoPassword, .failure demoFail demoFail.length), (demoEnv, .failure demoFail demoFail.length), (demoEnv, .info demoInfo demoInfo.length)]

def demoSig : Bytes := sigOne (text "ssh-ed25519") (List.replicate 7 (UInt8.ofNat (toSign [9, 9] [117] demoKey.type demoKey.blob).length))

/-- The run of `C109` and `C110`: the second key request is not sent, the password is, and the prompt that was not asked for is
answered. -/
example : (run (fresh [117] [9, 9]) demoRun).map (fun s => s.log.map fun e => match e with | .sent _ p => some p | _ => none) =
    some [some (noneRequest [117]), none, none, some (keyRequest [117] (text "ssh-ed25519") demoKey.blob demoSig), none, none,
      none, some (passwordRequest [117] (text "secret")), none, some (infoResponse [text "42"])] := by decide +kernel

example : ∀ x ∈ demoRun, Sane x.2 := by
  intro x hx
  simp only [demoRun, List.mem_cons, List.not_mem_nil, or_false] at hx
  rcases hx with rfl | rfl | rfl | rfl | rfl | rfl <;> simp only [Sane] <;> decide +kernel

example : Honest demoKey := by
  refine ⟨?_, ?_, ?_⟩
  · intro i n h; cases h; decide
  · intro i n j d b h1 h2; cases h1; cases h2; simp
  · intro i n j d r s h1 h2; cases h2

example : Able demoKey (text "ssh-ed25519") (toSign [9, 9] [117] (text "ssh-ed25519") demoKey.blob) :=
  ⟨64, rfl, _, rfl⟩

example : choice demoKey.type (Spec.NameList.names (text "rsa-sha2-256,ssh-ed25519")) = some (text "ssh-ed25519", text "ssh-ed25519") := by
  decide +kernel

example : choice (text "ssh-rsa") (Spec.NameList.names (text "ssh-ed25519,rsa-sha2-256,rsa-sha2-512")) = some (text "rsa-sha2-256", text "rsa-sha2-256") := by
  decide +kernel

/-- A server that takes the user "u" with any password or key. -/
def demoServer : UserAuth.Env where
  table := table
  keyAlgos := cannedKeyAlgoClient
  isRsa := fun i => i == nameToId table (text "ssh-rsa") || (Spec.ClientAuth.rsa.map (nameToId table)).contains i
  isEcc := fun i => (plain.map (nameToId table)).contains i
  cb := some fun u _ => if u = [117] then .success else .other
  prompts := 1
  resultCb := none
  crypto := fun _ _ _ _ => true
  sendFailure := none
  sendPkOk := none
  sendInfo := none

example : Server demoServer := by
  refine ⟨rfl, rfl, ?_, ?_⟩
  · intro i; simp [demoServer]
  · intro t ht
    have : ∀ t ∈ plain, (plain.map (nameToId table)).contains (nameToId table t) = true := by decide +kernel
    exact this t ht

def demoAuth : UserAuth.Auth where
  clientState := UserAuth.CLIENT_KEXDH_INIT_DONE
  userAuthSeen := false
  userName := []
  authId := 0
  authRequests := 0
  authFailures := 0
  maxAuthAttempts := 6
  kbSetupPending := false
  promptCount := 0
  sessionId := [9, 9]
  log := []

/-- The key request of the run above, at this server. -/
example : (match UserAuth.doUserAuthRequest demoServer demoAuth ((keyRequest [117] (text "ssh-ed25519") demoKey.blob demoSig).drop 1)
      ((keyRequest [117] (text "ssh-ed25519") demoKey.blob demoSig).drop 1).length with
    | .ret r _ a => (r, a.clientState, a.log)
    | .ub => (none, 0, [])) =
    (none, UserAuth.CLIENT_USERAUTH_DONE,
      [.asked [117] (.publicKey (text "ssh-ed25519") demoKey.blob true demoSig none) .success,
       .sigChecked [117] (text "ssh-ed25519") demoKey.blob demoSig (toSign [9, 9] [117] (text "ssh-ed25519") demoKey.blob) true,
       .resultAccepted]) := by decide +kernel

/-- The password request of the run, at this server. -/
example : (match UserAuth.doUserAuthRequest demoServer demoAuth ((passwordRequest [117] (text "secret")).drop 1)
      ((passwordRequest [117] (text "secret")).drop 1).length with
    | .ret r _ a => (r, a.clientState, a.log)
    | .ub => (none, 0, [])) =
    (none, UserAuth.CLIENT_USERAUTH_DONE, [.asked [117] (.password (text "secret")) .success]) := by decide +kernel

/-- The answers of the run, at a server that has sent the prompt. -/
example : (match UserAuth.doUserAuthInfoResponse demoServer
      { demoAuth with userName := [117], authId := UserAuth.ID_USERAUTH_KEYBOARD, promptCount := 1 }
      ((infoResponse [text "42"]).drop 1) ((infoResponse [text "42"]).drop 1).length 0 with
    | .ret r _ a => (r, a.clientState, a.log)
    | .ub => (none, 0, [])) =
    (none, UserAuth.CLIENT_USERAUTH_DONE, [.asked [117] (.keyboard [text "42"]) .success]) := by decide +kernel

example : (infoRequestMsg ⟨text "n", text "i", [], [(text "Code: ", 0)]⟩).2 = 60 :: demoInfo := by decide +kernel

example : Bound demoAuth [117] := .inl ⟨rfl, by simp⟩

/-- **C113**, what the hypothesis on the texts is for: of a prompt with a NUL byte the client shows the part before it. -/
example : shown (text "n") [] [] [([97, 0, 98], 1)] = ⟨text "n", [], [], [([97], 1)]⟩ := by decide +kernel

/-- **C110**, not so: that prompts are answered only after a keyboard-interactive request. Here is none, and the server gets the
answers of the application. -/
theorem C110_unasked : ∃ (xs : List (Env × In)) (s : Cl), (∀ x ∈ xs, Sane x.2) ∧ run (fresh [117] [9, 9]) xs = some s ∧
    requests "keyboard-interactive" s.log = 0 ∧ ∃ est, Ev.sent est (infoResponse [text "42"]) ∈ s.log :=
  ⟨[(demoEnv, .info demoInfo demoInfo.length)],
    { userName := [117], sessionId := [9, 9],
      log := [.askedKeyboard (shown (text "n") (text "i") [] [(text "Code: ", 0)]), .sent 11 (infoResponse [text "42"])] },
    by intro x hx; rw [List.mem_singleton.1 hx]; simp only [Sane]; decide +kernel, by decide +kernel, by decide +kernel, 11, by simp⟩

end Props.ClientAuth
