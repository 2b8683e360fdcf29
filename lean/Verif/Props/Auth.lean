import Verif.Proofs.SessionCount
import Verif.Proofs.SessionUser
import Verif.Proofs.PkAuth
/-!
# C08, C11-C14, C42: server sessions

`Reach polite mx sid s`: `s` is a state a server session can be in, after any sequence of calls,
any client messages, any application answers and any transport behaviour. `polite` runs are those
in which the application stops using the session after an error that ends it; `wolfSSH_accept`
enforces that by itself, `wolfSSH_worker` and the stream functions do not.
`s.a.log` is what the outside world saw, oldest first.
-/

namespace Props.Auth
open Wolf Wolf.Wire Wolf.NameList Wolf.UserAuth Wolf.MsgFilter Wolf.Session Spec.Auth

/-- C08: a server hands a connection message to its handler only after the success reply. -/
theorem C08_server_connection_after_success {mx : Nat} {sid : Bytes} {s : Srv}
    (h : Reach true mx sid s) :
    precedes (· = .sentUserAuthSuccess) (fun e => ∃ m, e = .acted m ∧ 80 ≤ m) s.a.log := by
  intro l₁ e l₂ hl he
  have := (reach_inv h).pinv.conn l₁ e l₂ hl (.inl he)
  refine ⟨_, this.2 rfl ?_, rfl⟩
  obtain ⟨m, rfl, _⟩ := he
  intro h; cases h

/-- C08 and C11, in every run: neither a connection message is handled nor the success reply sent
before a credential of some user was accepted. -/
theorem C08_server_connection_after_credential {polite : Bool} {mx : Nat} {sid : Bytes} {s : Srv}
    (h : Reach polite mx sid s) (l₁ l₂ : List Ev) (e : Ev) (hl : s.a.log = l₁ ++ e :: l₂)
    (he : (∃ m, e = .acted m ∧ 80 ≤ m) ∨ e = .sentUserAuthSuccess) : ∃ u, accepted sid u l₁ :=
  ((reach_inv h).pinv.conn l₁ e l₂ hl he).1

/-- C11: `wolfSSH_accept` gets past user authentication only with an accepted credential of the
session's user. -/
theorem C11_accept_needs_credential {polite : Bool} {mx : Nat} {sid : Bytes} {s : Srv}
    (h : Reach polite mx sid s) (hp : 7 ≤ s.acceptState) : accepted sid s.a.userName s.a.log :=
  (reach_inv h).pinv.acc hp

/-- C14: everything the application is ever asked in a session is about one user, the one the
session reports. -/
theorem C14_one_user {polite : Bool} {mx : Nat} {sid : Bytes} {s : Srv} (h : Reach polite mx sid s)
    {u : Bytes} {q : Ask} {x : Answer} (hm : Ev.asked u q x ∈ s.a.log) : u = s.a.userName :=
  ((reach_inv h).pinv.ainv.asked u q x hm).1

/-- C14: the name, once given, never changes. -/
theorem C14_user_fixed {s s' : Srv} {i : In} (hs : s.a.userAuthSeen = true)
    (h : step s i = some s') : s'.a.userAuthSeen = true ∧ s'.a.userName = s.a.userName :=
  step_fixed h hs

/-- C14: a request that names another user is refused with a disconnect, whatever its method. -/
theorem C14_other_user_refused (E : Env) (a : Auth) (user service method rest pad : Bytes)
    (hs : a.userAuthSeen = true) (hne : user ≠ a.userName)
    (hsvc : nameToId E.table service = ID_SERVICE_CONNECTION) :
    let payload := Spec.Wire.encString user ++ (Spec.Wire.encString service ++
      (Spec.Wire.encString method ++ rest))
    payload.length < 2^32 →
    doUserAuthRequest E a (payload ++ pad) payload.length
      = .ret (some .invalidState) 0 (a.note .sentDisconnect) := by
  intro payload hw
  have hl : payload.length ≤ (payload ++ pad).length := by simp
  have hm0 : Props.Wire.msgFrom (payload ++ pad) payload.length 0 = payload := by
    simp [Props.Wire.msgFrom]
  cases ho : doUserAuthRequest E a (payload ++ pad) payload.length with
  | ub => exact absurd ho (request_ne_ub E a hl hw)
  | ret r j a' =>
    have hlen : ∀ t : Bytes, (Spec.Wire.encString t).length = 4 + t.length := by
      intro t; simp [Spec.Wire.encString, Spec.Wire.encUint32]; omega
    have hpl : payload.length = 4 + user.length + (4 + service.length + (4 + method.length + rest.length)) := by
      simp only [payload, List.length_append, hlen]
    have s1 : ∀ t r' : Bytes, t.length < 4294967296 →
        Spec.Wire.string (Spec.Wire.encString t ++ r') = some (t, r') := by
      intro t r' ht
      have := Wolf.Kex.string_fld t ht r'
      rwa [fld_eq] at this
    have rd : ∀ idx (t r' : Bytes), t.length < 4294967296 →
        Props.Wire.msgFrom (payload ++ pad) payload.length idx = Spec.Wire.encString t ++ r' →
        ∃ ref, getStringRef (payload ++ pad) payload.length idx = .ok ref (idx + 4 + t.length) ∧
          deref (payload ++ pad) ref = some t ∧
          Props.Wire.msgFrom (payload ++ pad) payload.length (idx + 4 + t.length) = r' := by
      intro idx t r' ht hmsg
      have := Props.Wire.C01_getStringRef (payload ++ pad) payload.length idx hl hw
      rw [hmsg, s1 t r' ht] at this
      split at this
      · exact absurd this (fun h => h)
      · exact absurd this.2 (by simp)
      · rename_i ref i hg
        obtain ⟨_, s, hd, hi, heq⟩ := this
        simp only [Option.some.injEq, Prod.mk.injEq] at heq
        obtain ⟨rfl, hr⟩ := heq
        subst hi
        exact ⟨ref, hg, hd, hr.symm⟩
    obtain ⟨r1, g1, d1, m1⟩ := rd 0 user _ (by omega) hm0
    obtain ⟨r2, g2, d2, m2⟩ := rd _ service _ (by omega) m1
    obtain ⟨r3, g3, d3, m3⟩ := rd _ method _ (by omega) m2
    unfold doUserAuthRequest at ho
    rw [if_neg (by omega), g1] at ho
    simp only at ho
    rw [g2] at ho
    simp only at ho
    rw [d1, d2] at ho
    simp only at ho
    rw [if_neg (by simp [hsvc]), g3] at ho
    simp only at ho
    rw [d3] at ho
    simp only at ho
    have hb : bindUser a user = (some .invalidState, a.note .sentDisconnect) := by
      unfold bindUser
      rw [if_neg (by simp [hs]), if_pos (.inr hne)]
    rw [hb] at ho
    exact ho.symm

/-- C13: a session answers at most `mx` failed attempts, plus one for an opening probe with the
method "none"; the request counter is 32 bits wide, so that exception comes back once in 2^32
requests. -/
theorem C13_failures_capped {mx : Nat} {sid : Bytes} {s : Srv} (h1 : 1 ≤ mx) (h2 : mx < 2^32)
    (h : Reach true mx sid s) :
    failures s.a.log ≤ mx + (requests s.a.log + (2^32 - 1)) / 2^32 := by
  have K := (reach_kinv h1 h2 h).cinv
  obtain ⟨n, hn, _, hf⟩ := K.ct
  have := K.fl
  omega

/-- C13 for sessions of less than 2^32 requests. -/
theorem C13_failures_capped' {mx : Nat} {sid : Bytes} {s : Srv} (h1 : 1 ≤ mx) (h2 : mx < 2^32)
    (h : Reach true mx sid s) (hr : requests s.a.log < 2^32) : failures s.a.log ≤ mx + 1 := by
  have := C13_failures_capped h1 h2 h
  omega

/-- C13: when the charged failures reach the limit, the client was sent a disconnect and the
session cannot be used any more. -/
theorem C13_limit_disconnects {mx : Nat} {sid : Bytes} {s : Srv} (h1 : 1 ≤ mx) (h2 : mx < 2^32)
    (h : Reach true mx sid s) (hl : mx ≤ s.a.authFailures) :
    Ev.sentDisconnect ∈ s.a.log ∧ usable s.error = false ∧ s.inCall = false ∧
      ∀ f, step s (.accept f) = some s := by
  have K := reach_kinv h1 h2 h
  have he : s.a.authFailures = mx := Nat.le_antisymm K.cinv.fl hl
  have hu : usable s.error = false := by
    cases hc : usable s.error with
    | false => rfl
    | true => have := K.lim hc; omega
  refine ⟨K.stop he, hu, ?_, fun f => ?_⟩
  · cases hc : s.inCall with
    | false => rfl
    | true => rw [(reach_inv h).call hc] at hu; cases hu
  · have : retryable s.error = false := by
      cases hr : retryable s.error with
      | false => rfl
      | true => simp [usable, hr] at hu
    simp [step, acceptEnter, this]

/-- C13: the only failure reply that is not charged answers a method "none" in the first counted
request. -/
theorem C13_uncharged_is_opening_none (E : Env) (a a' : Auth) (payload pad : Bytes) (r : Ret) (j : Nat)
    (hw : payload.length < 2^32)
    (h : doUserAuthRequest E a (payload ++ pad) payload.length = .ret r j a')
    (hf : failures a.log < failures a'.log) (hc : a'.authFailures = a.authFailures)
    (hm : a.authFailures < a.maxAuthAttempts) (hm' : a.maxAuthAttempts < 2^32) :
    add32 a.authRequests 1 = 1 ∧ ∃ user service method rest,
      payload = Spec.Wire.encString user ++ (Spec.Wire.encString service ++
        (Spec.Wire.encString method ++ rest)) ∧ nameToId E.table method = ID_NONE := by
  have hl : payload.length ≤ (payload ++ pad).length := by simp
  have key : ∀ {x user a1}, Eff x user a1 r a' → a1.log = a.log →
      (a1.authFailures = a.authFailures ∨
        (a1.authFailures = add32 a.authFailures 1 ∧ a1.authFailures < a.maxAuthAttempts)) →
      x = true := by
    intro x user a1 he hlog hfa
    obtain ⟨l, hl', _, hcase⟩ := he.log
    rcases hcase with ⟨_, h2⟩ | ⟨h1, _⟩ | ⟨h1, _, _⟩
    · rw [hl', hlog, failures_append] at hf; omega
    · exact h1
    · exfalso
      unfold add32 at h1 hfa
      omega
  rcases request_shape hl hw h with ⟨_, _, h0 | h0⟩ |
    ⟨user, service, method, i3, a2, hsh, _, _, _, _, _, _, hlog, hreq, _, hfa, hd⟩
  · omega
  · exact absurd (key (h0 []) rfl (.inl rfl)) (by simp)
  · have hx := key (dispatchMethod_eff E _ _ _ _ _ _ hd) hlog hfa
    simp only [Bool.and_eq_true, beq_iff_eq] at hx
    have e0 : Props.Wire.msgFrom (payload ++ pad) payload.length 0 = payload := by
      simp [Props.Wire.msgFrom]
    rw [e0] at hsh
    exact ⟨hreq ▸ hx.2, user, service, method, _, hsh, hx.1⟩

/-- C12: a public key request with no signature (its flag byte is zero) never authenticates; all
it leads to is a question to the application and 'key acceptable', failure or disconnect. -/
theorem C12_unsigned (E : Env) (a a' : Auth) (user service method rest pad : Bytes) (r : Ret) (j : Nat)
    (hpk : nameToId E.table method = ID_USERAUTH_PUBLICKEY) :
    let payload := Spec.Wire.encString user ++ (Spec.Wire.encString service ++
      (Spec.Wire.encString method ++ (0 :: rest)))
    payload.length < 2^32 →
    doUserAuthRequest E a (payload ++ pad) payload.length = .ret r j a' →
    a'.clientState = a.clientState ∧ ∃ l, a'.log = a.log ++ l ∧ ∀ e ∈ l,
      (∃ u q x, e = .asked u q x) ∨ (∃ al k, e = .sentPkOk al k) ∨ (∃ p, e = .sentFailure p) ∨
      e = .sentDisconnect := by
  intro payload hw h
  have hl : payload.length ≤ (payload ++ pad).length := by simp
  have e0 : Props.Wire.msgFrom (payload ++ pad) payload.length 0 = payload := by
    simp [Props.Wire.msgFrom]
  rcases request_shape hl hw h with ⟨hc, ho, _⟩ |
    ⟨user', service', method', i3, a2, hsh, n1, n2, n3, _, hc, _, hlog, _, _, _, hd⟩
  · exact ⟨hc, ho⟩
  · rw [e0] at hsh
    have hlen : ∀ t : Bytes, (Spec.Wire.encString t).length = 4 + t.length := by
      intro t; simp [Spec.Wire.encString, Spec.Wire.encUint32]; omega
    have hpl : payload.length = 4 + user.length + (4 + service.length + (4 + method.length + (rest.length + 1))) := by
      simp only [payload, List.length_append, hlen, List.length_cons]
    obtain ⟨rfl, h1⟩ := encString_inj (by omega) n1 hsh
    obtain ⟨rfl, h2⟩ := encString_inj (by omega) n2 h1
    obtain ⟨rfl, h3⟩ := encString_inj (by omega) n3 h2
    unfold dispatchMethod at hd
    rw [hpk] at hd
    rw [if_neg (by decide), if_neg (by decide), if_pos rfl] at hd
    constructor
    · refine Classical.byContradiction (fun hne => ?_)
      obtain ⟨flag, _, _, _, _, _, _, _, _, hf, hm, _⟩ := publicKey_changes hl hw hd (by rw [hc]; exact hne)
      rw [← h3] at hm
      simp only [List.cons.injEq] at hm
      exact hf hm.1.symm
    · have := publicKey_offer hl hw hd h3.symm
      rw [hlog] at this
      exact this

/-- C12, in general: a public key request that authenticates carries a signature, the application
said yes to exactly this key and signature (or, when the key is an OpenSSH certificate, to the key
it certifies, the certificate being one to go by), and the signature verified, with this key, over
the session identifier, the message number and the request up to `4 + |sig|` bytes before its
end. -/
theorem C12_signed (E : Env) (a a' : Auth) (user service method rest pad : Bytes) (r : Ret) (j : Nat)
    (hpk : nameToId E.table method = ID_USERAUTH_PUBLICKEY) :
    let payload := Spec.Wire.encString user ++ (Spec.Wire.encString service ++
      (Spec.Wire.encString method ++ rest))
    payload.length < 2^32 →
    doUserAuthRequest E a (payload ++ pad) payload.length = .ret r j a' →
    a'.clientState ≠ a.clientState →
    ∃ flag algo key sig trailing id' algo' key' cert, flag ≠ 0 ∧
      rest = flag :: (Spec.Wire.encString algo ++ (Spec.Wire.encString key ++
        (Spec.Wire.encString sig ++ trailing))) ∧
      Spec.Auth.asks (E.ossh.map Spec.OsshCert.judge) algo key algo' key' cert ∧
      (∃ cb, E.cb = some cb ∧ cb user (.publicKey algo' key' true sig cert) = .success) ∧
      nameToId E.table algo ∈ E.keyAlgos ∧
      (cert = none → id' = nameToId E.table algo) ∧
      (cert ≠ none → id' = nameToId Wolf.OsshCert.keyTable algo') ∧
      E.crypto id' key' sig
        (Spec.Wire.encString a.sessionId ++ [50] ++ payload.take (payload.length - (4 + sig.length))) = true := by
  intro payload hw h hne
  have hl : payload.length ≤ (payload ++ pad).length := by simp
  have e0 : Props.Wire.msgFrom (payload ++ pad) payload.length 0 = payload := by
    simp [Props.Wire.msgFrom]
  rcases request_shape hl hw h with ⟨hc, _⟩ |
    ⟨user', service', method', i3, a2, hsh, n1, n2, n3, _, hc, hsid, hlog, _, _, _, hd⟩
  · exact absurd hc hne
  · rw [e0] at hsh
    have hlen : ∀ t : Bytes, (Spec.Wire.encString t).length = 4 + t.length := by
      intro t; simp [Spec.Wire.encString, Spec.Wire.encUint32]; omega
    have hpl : payload.length = 4 + user.length + (4 + service.length + (4 + method.length + rest.length)) := by
      simp only [payload, List.length_append, hlen]
    obtain ⟨rfl, h1⟩ := encString_inj (by omega) n1 hsh
    obtain ⟨rfl, h2⟩ := encString_inj (by omega) n2 h1
    obtain ⟨rfl, h3⟩ := encString_inj (by omega) n3 h2
    unfold dispatchMethod at hd
    rw [hpk] at hd
    rw [if_neg (by decide), if_neg (by decide), if_pos rfl] at hd
    obtain ⟨flag, algo, key, sig, t, id', algo', key', cert, hf, hm, hfit, hask, hcb, hka, hn1, hn2, hcr⟩ :=
      publicKey_changes hl hw hd (by rw [hc]; exact hne)
    refine ⟨flag, algo, key, sig, t, id', algo', key', cert, hf, h3.trans hm, hask, hcb, hka, hn1, hn2, ?_⟩
    have hsd : signedData a2 (payload ++ pad) (payload.length - sig.length - 4) =
        Spec.Wire.encString a.sessionId ++ [50] ++ payload.take (payload.length - (4 + sig.length)) := by
      unfold signedData Spec.Wire.encString
      rw [hsid, c32toa_eq, List.take_append_of_le_length (by omega), Nat.sub_sub, Nat.add_comm 4]
    rw [← hsd]; exact hcr

/-- C12 for a request that ends with its signature: the signature verified, with the offered key or
the key certified by the offered certificate, over the session identifier, the message number and
exactly the request bytes up to the signature (RFC 4252 section 7). Missing for the full claim: requests with bytes after the signature, see
`C12_trailing_witness`. -/
theorem C12_signed_partial (E : Env) (a a' : Auth) (user service method algo key sig pad : Bytes)
    (flag : UInt8) (r : Ret) (j : Nat) (hpk : nameToId E.table method = ID_USERAUTH_PUBLICKEY) :
    let upTo := Spec.Wire.encString user ++ (Spec.Wire.encString service ++
      (Spec.Wire.encString method ++ (flag :: (Spec.Wire.encString algo ++ Spec.Wire.encString key))))
    let payload := upTo ++ Spec.Wire.encString sig
    flag ≠ 0 → payload.length < 2^32 →
    doUserAuthRequest E a (payload ++ pad) payload.length = .ret r j a' →
    a'.clientState ≠ a.clientState →
    ∃ id' algo' key' cert, Spec.Auth.asks (E.ossh.map Spec.OsshCert.judge) algo key algo' key' cert ∧
      (cert = none → id' = nameToId E.table algo) ∧
      (cert ≠ none → id' = nameToId Wolf.OsshCert.keyTable algo') ∧
      E.crypto id' key' sig (Spec.Wire.encString a.sessionId ++ [50] ++ upTo) = true := by
  intro upTo payload hflag hw h hne
  have hlen : ∀ t : Bytes, (Spec.Wire.encString t).length = 4 + t.length := by
    intro t; simp [Spec.Wire.encString, Spec.Wire.encUint32]; omega
  have hpl : payload.length = upTo.length + (4 + sig.length) := by
    simp only [payload, List.length_append, hlen]
  have hul : upTo.length = 4 + user.length + (4 + service.length + (4 + method.length +
      (4 + algo.length + (4 + key.length) + 1))) := by
    simp only [upTo, List.length_append, hlen, List.length_cons]
  have hp : payload = Spec.Wire.encString user ++ (Spec.Wire.encString service ++
      (Spec.Wire.encString method ++ (flag :: (Spec.Wire.encString algo ++ (Spec.Wire.encString key ++
        (Spec.Wire.encString sig ++ [])))))) := by
    simp only [payload, upTo, List.append_assoc, List.cons_append, List.append_nil]
  have ht : payload.take (payload.length - (4 + sig.length)) = upTo := by
    rw [hpl, Nat.add_sub_cancel]; simp only [payload]; rw [List.take_left]
  have := C12_signed E a a' user service method
    (flag :: (Spec.Wire.encString algo ++ (Spec.Wire.encString key ++ (Spec.Wire.encString sig ++ []))))
    pad r j hpk
  rw [← hp] at this
  obtain ⟨flag', algo', key', sig', t, id1, algo1, key1, cert, _, hm, hask, _, _, hn1, hn2, hcr⟩ := this hw h hne
  simp only [List.cons.injEq] at hm
  obtain ⟨_, hm⟩ := hm
  have hmlen := congrArg List.length hm
  simp only [List.length_append, hlen, List.length_nil] at hmlen
  obtain ⟨e1, hm⟩ := encString_inj (by omega) (by omega) hm
  obtain ⟨e2, hm⟩ := encString_inj (by omega) (by omega) hm
  obtain ⟨e3, hm⟩ := encString_inj (by omega) (by omega) hm
  rw [← e3, ht] at hcr
  rw [← e1] at hn1
  rw [← e1, ← e2] at hask
  exact ⟨id1, algo1, key1, cert, hask, hn1, hn2, hcr⟩

/-- Every packet a step can see has a length the C can represent (the transport cuts packets at
35000 bytes, src/internal.c:12850). -/
def packetsFit : In → Prop
  | .accept _ => True
  | .loop l => l.recv.pkt.payload.length < 2^32
  | .other e => e.pkt.payload.length < 2^32

/-- The packet kept for a retry has a representable length. -/
def heldFits (s : Srv) : Prop := ∀ p, s.cur = some p → p.payload.length < 2^32

/-- C42: no step of a server session reads outside the packet it was given, and the packet kept
for a retry is the one that was received. -/
theorem C42_no_out_of_bounds (s : Srv) (i : In) (hi : packetsFit i) (hs : heldFits s) :
    ∃ s', step s i = some s' ∧ heldFits s' := by
  have rc : ∀ e : RecvEnv, e.pkt.payload.length < 2^32 →
      ∃ b s', doReceive s e = some (b, s') ∧ heldFits s' := by
    intro e he
    cases hd : doReceive s e with
    | none => exact absurd hd (doReceive_ne_none s e he hs)
    | some bs =>
      obtain ⟨b, s'⟩ := bs
      refine ⟨b, s', rfl, ?_⟩
      unfold doReceive at hd
      simp only at hd
      have go : ∀ p : Pkt, p.payload.length < 2^32 →
          (match doPacket s e p with
            | none => none
            | some (r, consumed, s) =>
              some (r == none, { s with error := r, cur := if consumed then none else some p, outPending := e.out }))
            = some (b, s') → heldFits s' := by
        intro p hp h q hq
        split at h
        · cases h
        · simp only [Option.some.injEq, Prod.mk.injEq] at h
          obtain ⟨_, rfl⟩ := h
          simp only at hq
          split at hq
          · cases hq
          · cases hq; exact hp
      split at hd
      · rename_i p hp; exact go p (hs p hp) hd
      · split at hd
        · simp only [Option.some.injEq, Prod.mk.injEq] at hd
          obtain ⟨_, rfl⟩ := hd
          exact hs
        · exact go _ he hd
  have rw' : ∀ (l : LoopEnv) c n, l.recv.pkt.payload.length < 2^32 →
      ∃ s', recvWhile s l c n = some s' ∧ heldFits s' := by
    intro l c n hl
    unfold recvWhile
    cases c
    · exact ⟨_, rfl, hs⟩
    · obtain ⟨b, s', h1, h2⟩ := rc l.recv hl
      simp only [if_true, h1]
      cases b
      · exact ⟨_, rfl, h2⟩
      · exact ⟨_, rfl, h2⟩
  have st : ∀ (l : LoopEnv) n ev, (sendThen s l n ev).cur = s.cur := by
    intro l n ev
    unfold sendThen
    cases l.send <;> rfl
  cases i with
  | accept f =>
    refine ⟨_, rfl, ?_⟩
    intro p hp
    refine hs p ?_
    unfold acceptEnter at hp
    split at hp
    · exact hp
    · simp only at hp
      split at hp
      · split at hp
        · exact hp
        · cases hp
      · exact hp
  | loop l =>
    have hl : l.recv.pkt.payload.length < 2^32 := hi
    unfold step
    simp only
    unfold loopStep
    split
    · exact ⟨_, rfl, fun p hp => hs p (by rw [st] at hp; exact hp)⟩
    · split
      · split
        · exact ⟨_, rfl, hs⟩
        · exact ⟨_, rfl, hs⟩
      · exact ⟨_, rfl, hs⟩
    · exact ⟨_, rfl, fun p hp => hs p (by have := st l 3 none; simp only at hp; rw [this] at hp; exact hp)⟩
    · exact rw' _ _ _ hl
    · exact rw' _ _ _ hl
    · exact ⟨_, rfl, fun p hp => hs p (by rw [st] at hp; exact hp)⟩
    · exact rw' _ _ _ hl
    · exact ⟨_, rfl, fun p hp => hs p (by rw [st] at hp; exact hp)⟩
    · exact rw' _ _ _ hl
    · exact rw' _ _ _ hl
    · exact ⟨_, rfl, hs⟩
  | other e =>
    obtain ⟨b, s', h1, h2⟩ := rc e hi
    exact ⟨s', by simp [step, h1], h2⟩

/-! ## A run that meets the hypotheses -/

/-- An application that accepts the password "x" of anybody and, for `C12`, any key; a scheme whose
signature is the length of what it signs. -/
def demoEnv : Env where
  table := authTable
  keyAlgos := [17]
  isRsa := fun _ => false
  isEcc := fun _ => true
  cb := some (fun _ q => match q with
    | .password [120] => .success
    | .publicKey _ _ _ _ _ => .success
    | _ => .other)
  prompts := 0
  resultCb := none
  crypto := fun _ _ _ _ => true
  sendFailure := none
  sendPkOk := none
  sendInfo := none

/-- A step of the run: one pass of the accept loop in which every send succeeds and, if the state
asks for a packet, `msg` with `payload` arrives. -/
def demoLoop (msg : Nat) (payload : Bytes) (cli : Option Bool) : In :=
  .loop ⟨none, false, ⟨none, ⟨msg, payload, [0, 0, 0, 0]⟩, demoEnv, ⟨false, false, none, none, none⟩,
    ⟨cli, none⟩, none, none, false⟩⟩

/-- user "u", service "ssh-connection", method "password", FALSE, password `pw`. -/
def demoRequest (pw : UInt8) : Bytes :=
  Spec.Wire.encString [117] ++ (Spec.Wire.encString (asc "ssh-connection") ++
    (Spec.Wire.encString (asc "password") ++ (0 :: Spec.Wire.encString [pw])))

/-- Version and key exchange, service request, a wrong password, the right one, a channel. -/
def demoRun : List In :=
  [.accept none, demoLoop 0 [] none, demoLoop 0 [] none, demoLoop 0 [] none, demoLoop 0 [] none,
   demoLoop 20 [] none, demoLoop 0 [] none,
   demoLoop 5 (Spec.Wire.encString (asc "ssh-userauth")) none, demoLoop 0 [] none, demoLoop 0 [] none,
   demoLoop 50 (demoRequest 121) none, demoLoop 50 (demoRequest 120) none, demoLoop 0 [] none,
   demoLoop 0 [] none, demoLoop 90 [] (some false)]

/-- Follow a list of inputs. -/
def runAll (s : Srv) : List In → Option Srv
  | [] => some s
  | i :: is =>
    match step s i with
    | none => none
    | some s' => runAll s' is

/-- `runAll` follows `Reach` when every input is enabled. -/
theorem runAll_reach {mx : Nat} {sid : Bytes} {s : Srv} (hs : Reach true mx sid s) :
    ∀ (is : List In) (_ : ∀ i ∈ is, ∃ l, i = .loop l ∧ l.send = none) (hc : ∀ k, k < is.length →
      ∃ s1, runAll s (is.take k) = some s1 ∧ s1.inCall = true) {s' : Srv},
      runAll s is = some s' → Reach true mx sid s'
  | [], _, _, s', h => by simp only [runAll, Option.some.injEq] at h; exact h ▸ hs
  | i :: is, hl, hc, s', h => by
    obtain ⟨l, rfl, hn⟩ := hl i (by simp)
    simp only [runAll] at h
    split at h
    · cases h
    · rename_i s1 h1
      obtain ⟨s0, h0, hin⟩ := hc 0 (by simp)
      simp only [List.take_zero, runAll, Option.some.injEq] at h0
      subst h0
      refine runAll_reach (hs.step (i := .loop l) ⟨hin, .inr (.inl hn)⟩ h1) is
        (fun j hj => hl j (by simp [hj])) (fun k hk => ?_) h
      obtain ⟨s2, h2, h3⟩ := hc (k+1) (by simp; omega)
      simp only [List.take_succ_cons, runAll, h1] at h2
      exact ⟨s2, h2, h3⟩

set_option maxRecDepth 20000 in
/-- The run is possible and its log has the events the theorems speak about, in their order. -/
theorem demo_log : (runAll (Srv.init 2 [7]) demoRun).map (fun s => (s.a.log, s.acceptState, s.a.userName)) =
    some ([.acted 20, .acted 5, .sentServiceAccept, .acted 50,
      .asked [117] (.password [121]) .other, .sentFailure false, .acted 50,
      .asked [117] (.password [120]) .success, .sentUserAuthSuccess, .acted 90], 8, [117]) := by
  decide

set_option maxRecDepth 20000 in
example : ∃ s, Reach true 2 [7] s ∧ s.a.log = [.acted 20, .acted 5, .sentServiceAccept, .acted 50,
      .asked [117] (.password [121]) .other, .sentFailure false, .acted 50,
      .asked [117] (.password [120]) .success, .sentUserAuthSuccess, .acted 90] ∧ s.acceptState = 8 := by
  have h := demo_log
  cases hr : runAll (Srv.init 2 [7]) demoRun with
  | none => rw [hr] at h; cases h
  | some s =>
    rw [hr] at h
    simp only [Option.map_some, Option.some.injEq, Prod.mk.injEq] at h
    refine ⟨s, ?_, h.1, h.2.1⟩
    have h0 : Reach true 2 [7] (acceptEnter (Srv.init 2 [7]) none) :=
      Reach.init.step (i := .accept none) rfl rfl
    refine runAll_reach h0 demoRun.tail ?_ ?_ hr
    · intro i hi
      simp only [demoRun, List.tail_cons, List.mem_cons, List.not_mem_nil, or_false] at hi
      rcases hi with h | h | h | h | h | h | h | h | h | h | h | h | h | h <;> exact ⟨_, h, rfl⟩
    · have : ∀ k, k < demoRun.tail.length →
          (runAll (acceptEnter (Srv.init 2 [7]) none) (demoRun.tail.take k)).map (·.inCall) = some true := by
        decide
      intro k hk
      have := this k hk
      cases hq : runAll (acceptEnter (Srv.init 2 [7]) none) (demoRun.tail.take k) with
      | none => rw [hq] at this; cases this
      | some s1 => rw [hq] at this; exact ⟨s1, rfl, by simpa using this⟩

/-- A signed public key request of user "u": algorithm, key blob and signature blob are minimal,
`trailing` follows the signature. -/
def demoPk (trailing : Bytes) : Bytes × Bytes :=
  let algo := asc "ssh-ed25519"
  let upTo := Spec.Wire.encString [117] ++ (Spec.Wire.encString (asc "ssh-connection") ++
    (Spec.Wire.encString (asc "publickey") ++ (1 :: (Spec.Wire.encString algo ++
      Spec.Wire.encString (Spec.Wire.encString algo)))))
  (upTo, upTo ++ (Spec.Wire.encString (Spec.Wire.encString algo ++ Spec.Wire.encString [9]) ++ trailing))

/-- A verifier that accepts exactly one message. -/
def demoVerifier (m : Bytes) : Env :=
  { demoEnv with keyAlgos := [nameToId authTable (asc "ssh-ed25519")], crypto := fun _ _ _ d => d == m }

set_option maxRecDepth 20000 in
/-- C12, the hypotheses of `C12_signed_partial` are met: a request whose signature is over the
bytes before it is accepted. -/
example :
    let m := Spec.Wire.encString [7] ++ [50] ++ (demoPk []).1
    (match doUserAuthRequest (demoVerifier m) (Srv.init 6 [7]).a ((demoPk []).2 ++ [0, 0]) (demoPk []).2.length with
      | .ret r _ a => r == none && a.clientState == CLIENT_USERAUTH_DONE
      | .ub => false) = true := by decide

set_option maxRecDepth 20000 in
/-- C12, the departure: with one byte after the signature the server refuses a signature over the
bytes before it, and instead accepts one over those bytes and one more (the first byte of the
signature's own length field). -/
theorem C12_trailing_witness :
    let good := Spec.Wire.encString [7] ++ [50] ++ (demoPk [5]).1
    let bad := Spec.Wire.encString [7] ++ [50] ++ (demoPk [5]).1 ++ [0]
    let run := fun m => match doUserAuthRequest (demoVerifier m) (Srv.init 6 [7]).a
        ((demoPk [5]).2 ++ [0, 0]) (demoPk [5]).2.length with
      | .ret r _ a => r == none && a.clientState == CLIENT_USERAUTH_DONE
      | .ub => false
    run good = false ∧ run bad = true := by decide

/-- The events that put keyboard answers to the application. -/
def isAnswers : Ev → Bool
  | .asked _ (.keyboard _) _ => true
  | _ => false

theorem failCount_noAnswers (E : Env) (a : Auth) (p c : Bool) :
    (sendUserAuthFailureCount E a p c).2.log.filter isAnswers = a.log.filter isAnswers := by
  unfold sendUserAuthFailureCount sendUserAuthFailure countUserAuthFailure
  simp only
  cases queued E.sendFailure <;> cases c <;>
    simp only [if_true, if_false, Bool.false_eq_true] <;> (try split) <;> (try (split at *)) <;>
    simp_all [Auth.note, isAnswers] <;> grind [isAnswers]

theorem conclude_noAnswers (E : Env) (a : Auth) (user : Bytes) (v : Verdict) :
    (conclude E a user v).2.log.filter isAnswers = a.log.filter isAnswers := by
  unfold conclude
  split
  · exact failCount_noAnswers E a v.isPartial true
  · split
    · unfold sendUserAuthKeyboardRequest
      split
      · rfl
      · simp only
        split
        · split
          · simp [Auth.note, isAnswers]
          · split <;> simp [Auth.note, isAnswers]
        · simp [Auth.note, isAnswers]
        · rw [failCount_noAnswers]; simp [Auth.note, isAnswers]
    · split <;> rfl

theorem getResponses_length {mem : Bytes} {len : Nat} : ∀ (n idx : Nat) {rs : List Bytes} {j : Nat},
    getResponses mem len n idx = .ok rs j → rs.length = n
  | 0, _, rs, j, h => by
    simp only [getResponses, Res.ok.injEq] at h
    rw [← h.1]; rfl
  | n+1, idx, rs, j, h => by
    unfold getResponses at h
    split at h
    · cases h
    · cases h
    · split at h
      · cases h
      · split at h
        · cases h
        · cases h
        · rename_i hg
          simp only [Res.ok.injEq] at h
          rw [← h.1, List.length_cons, getResponses_length n _ hg]

/-- C41, what holds: answers reach the application only while the last request of the client was for
keyboard-interactive, and there are as many of them as prompts were last sent (none before the first
information request). Missing: that an information request is outstanding, see
`C41_unsolicited_witness`. -/
theorem C41_answers_partial (E : Env) (a a' : Auth) (mem : Bytes) (len : Nat) (r : Ret) (j : Nat)
    (h : doUserAuthInfoResponse E a mem len 0 = .ret r j a')
    (hne : a'.log.filter isAnswers ≠ a.log.filter isAnswers) :
    a.authId = ID_USERAUTH_KEYBOARD ∧ ∃ rs x, rs.length = a.promptCount ∧
      a'.log.filter isAnswers = a.log.filter isAnswers ++ [.asked a.userName (.keyboard rs) x] := by
  unfold doUserAuthInfoResponse at h
  split at h
  · cases h; exact absurd rfl hne
  · split at h
    · cases h; exact absurd rfl hne
    · rename_i hid
      refine ⟨Classical.not_not.1 hid, ?_⟩
      simp only at h
      split at h
      · cases h
      · cases h; exact absurd rfl hne
      · split at h
        · cases h
          exact absurd (failCount_noAnswers E _ _ _) hne
        · rename_i hpc
          split at h
          · cases h
          · cases h; exact absurd rfl hne
          · rename_i rs _ hg
            split at h
            · cases h
              exact absurd (conclude_noAnswers E _ _ _) hne
            · rename_i cb _
              cases h
              refine ⟨rs, cb a.userName (.keyboard rs), ?_, ?_⟩
              · rw [getResponses_length _ _ hg]; exact (Classical.not_not.1 hpc).symm
              · rw [conclude_noAnswers]
                simp [Auth.note, isAnswers]

/-- An application that turns user "u" away when asked for prompts, but would accept an empty list
of answers. -/
def demoKb : Env :=
  { demoEnv with cb := some (fun _ q => match q with
    | .keyboard [] => .success
    | _ => .other) }

/-- A keyboard-interactive request of user "u". -/
def demoKbRequest : Bytes :=
  Spec.Wire.encString [117] ++ (Spec.Wire.encString (asc "ssh-connection") ++
    (Spec.Wire.encString (asc "keyboard-interactive") ++
      (Spec.Wire.encString [] ++ Spec.Wire.encString [])))

set_option maxRecDepth 20000 in
/-- C41, the departure: the server answered the request with a failure and never sent an information
request; an information response with zero answers is put to the application all the same, and its
consent authenticates the client. -/
theorem C41_unsolicited_witness :
    (match doUserAuthRequest demoKb (Srv.init 6 [7]).a demoKbRequest demoKbRequest.length with
      | .ret none _ a =>
        match doUserAuthInfoResponse demoKb a [0, 0, 0, 0] 4 0 with
        | .ret none _ a => a.clientState == CLIENT_USERAUTH_DONE &&
            a.log == [.asked [117] .keyboardSetup .other, .sentFailure false,
                      .asked [117] (.keyboard []) .success]
        | _ => false
      | _ => false) = true := by decide

end Props.Auth
