import Verif.Proofs.Agent
/-!
# C127-C129: the key agent
-/

namespace Props.Agent
open Wolf Wolf.Wire Wolf.NameList Wolf.OsshCert Wolf.Agent Spec.Wire Spec.Agent Proofs.Agent Proofs.Ossh

variable {E : Env} {P : Peer} {a : Ctx} {w cap flags : Nat} {data key : Bytes}

/-- The context as the call begins with it. -/
def fresh (a : Ctx) : Ctx :=
  { a with failure := false, success := false, lost := a.lost + lostBy a.msg, msg := .null, msgSz := 0, lastMsgId := 0 }

/-- What the call calls at its ends. -/
def opening (P : Peer) : List Ev := if P.setup.isSome then [.setup] else []
def closing (P : Peer) : List Ev := if P.setup.isSome then [.cleanup] else []

theorem sign_setup (h : P.setup.getD 0 ≠ 0) :
    ∃ o, signRequest E P a data key cap flags = some o ∧ o.ret ≠ none ∧ o.sigSz = 0 ∧ o.sig = none ∧
      o.evs = opening P ++ closing P ∧ o.ctx.ids = a.ids ∧ o.ctx.lost = a.lost + lostBy a.msg := by
  unfold signRequest
  simp only [h, ne_eq, not_false_eq_true, if_true]
  exact ⟨_, rfl, by simp, rfl, rfl, rfl, rfl, rfl⟩

theorem sign_wrote (hP : Fair P) (h : P.setup.getD 0 = 0) (hsz : data.length + key.length + 17 < 4294967296)
    (hw : P.wrote (signMessage key data flags) ≠ toInt (signMessage key data flags).length) :
    ∃ o, signRequest E P a data key cap flags = some o ∧ o.ret ≠ none ∧ o.sigSz = 0 ∧ o.sig = none ∧
      o.evs = opening P ++ [.write (signMessage key data flags)] ++ closing P ∧ o.ctx.ids = a.ids ∧
      o.ctx.lost = a.lost + lostBy a.msg := by
  unfold signRequest
  simp only [h, ne_eq, not_true_eq_false, if_false]
  rw [request_some rfl data key flags hsz]
  simp only [hP.1, Bool.true_eq_false, if_false, hw, not_false_eq_true, if_true]
  exact ⟨_, rfl, by simp, rfl, rfl, rfl, rfl, rfl⟩

theorem sign_read (hE : Sane E) (hP : Fair P) (hs : Sound a w) (hn : w + 9 < 4294967296) (h : P.setup.getD 0 = 0)
    (hsz : data.length + key.length + 17 < 4294967296)
    (hw : P.wrote (signMessage key data flags) = toInt (signMessage key data flags).length) :
    ∃ o, signRequest E P a data key cap flags = some o ∧ Sound o.ctx (w + 2048) ∧
      (∀ s, o.ret = none ∧ o.sig = some s ↔
        sigIn (received P (signMessage key data flags)) = some s ∧ s ≠ [] ∧ s.length ≤ cap) ∧
      (o.ret = none → ∃ s, o.sig = some s ∧ o.sigSz = s.length) ∧
      (o.ret ≠ none → o.sigSz = 0 ∧ o.sig = none) ∧
      o.evs = opening P ++ [.write (signMessage key data flags)] ++ [.read 2048] ++ closing P ∧
      (∀ t, msgType (received P (signMessage key data flags)) = some t → t ≠ 17 → t ≠ 18 → t ≠ 19 → o.ctx.ids = a.ids) ∧
      (msgType (received P (signMessage key data flags)) = none → o.ctx.ids = a.ids) ∧
      o.ctx.lost = a.lost + lostBy a.msg + (match msgType (received P (signMessage key data flags)) with
        | some t => if t ∈ known then 0 else 1 | none => 0) := by
  unfold signRequest
  simp only [h, ne_eq, not_true_eq_false, if_false]
  rw [request_some rfl data key flags hsz]
  simp only [hP.1, Bool.true_eq_false, if_false, hw, not_true_eq_false]
  obtain ⟨h1, h2⟩ := hP.2 (signMessage key data flags)
  obtain ⟨r, a', e, k1, k2, k3, k4, k5⟩ := takeReply_eq (E := E) hE (w := w)
    (a := { a with failure := false, success := false, lost := a.lost + lostBy a.msg, lastMsgId := 0, msg := .null, msgSz := 0 })
    rfl rfl hs hn cap h1 h2
  rw [e]
  change ∀ s, r = .ok s ↔ sigIn (received P (signMessage key data flags)) = some s ∧ _ at k2
  cases r with
  | error x =>
    refine ⟨_, rfl, k1, ?_, fun h => (by cases h), fun _ => ⟨rfl, rfl⟩, rfl, k3, k4, ?_⟩
    · intro s
      rw [← k2 s]
      constructor
      · intro h; cases h.1
      · intro h; cases h
    · exact k5
  | ok s =>
    refine ⟨_, rfl, k1, ?_, fun _ => ⟨s, rfl, rfl⟩, fun h => absurd rfl h, rfl, k3, k4, ?_⟩
    · intro t
      rw [← k2 t]
      constructor
      · intro h; cases h.2; rfl
      · intro h; cases h; exact ⟨rfl, rfl⟩
    · exact k5

/-! ## C127: the signature an agent gives -/

/-- **C127, what is asked.** The call never leaves its memory, whatever the agent answers. It calls the application to
connect, writes exactly one message, which is the protocol's request to sign these data with this key and these flags,
reads once if that message was taken whole, and calls the application to disconnect at the end, on every path. -/
theorem C127_asked (hE : Sane E) (hP : Fair P) (hs : Sound a w) (hn : w + 9 < 2 ^ 32)
    (hsz : data.length + key.length + 17 < 2 ^ 32) :
    ∃ o, signRequest E P a data key cap flags = some o ∧ Sound o.ctx (w + 2048) ∧
      o.evs = (if P.setup.isSome then [.setup] else []) ++
        (if P.setup.getD 0 = 0 then
          .write (signMessage key data flags) ::
            (if P.wrote (signMessage key data flags) = toInt (signMessage key data flags).length then [.read 2048] else [])
         else []) ++
        (if P.setup.isSome then [.cleanup] else []) := by
  by_cases h : P.setup.getD 0 = 0
  · by_cases hw : P.wrote (signMessage key data flags) = toInt (signMessage key data flags).length
    · obtain ⟨o, e, h1, _, _, _, h5, _⟩ := sign_read (cap := cap) hE hP hs hn h hsz hw
      exact ⟨o, e, h1, by rw [h5, if_pos h, if_pos hw]; simp [opening, closing]⟩
    · obtain ⟨o, e, _, _, _, h5, h6, _⟩ := sign_wrote (E := E) (a := a) (cap := cap) hP h hsz hw
      refine ⟨o, e, ?_, by rw [h5, if_pos h, if_neg hw]; simp [opening, closing]⟩
      unfold Sound; rw [h6]; exact sound_mono hs (by omega)
  · obtain ⟨o, e, _, _, _, h5, h6, _⟩ := sign_setup (E := E) (a := a) (data := data) (key := key) (cap := cap) (flags := flags) h
    refine ⟨o, e, ?_, by rw [h5, if_neg h]; simp [opening, closing]⟩
    unfold Sound; rw [h6]; exact sound_mono hs (by omega)

/-- **C127, what is got.** The call succeeds exactly when the application connected, took the whole request, and what it
read begins with an answer holding a signature that is not empty and fits the caller's buffer; the caller then has
exactly that signature and its size. In every other case the size given back is zero and the buffer is untouched. -/
theorem C127_signature (hE : Sane E) (hP : Fair P) (hs : Sound a w) (hn : w + 9 < 2 ^ 32)
    (hsz : data.length + key.length + 17 < 2 ^ 32) :
    ∃ o, signRequest E P a data key cap flags = some o ∧
      (∀ s, o.ret = none ∧ o.sig = some s ∧ o.sigSz = s.length ↔
        P.setup.getD 0 = 0 ∧ P.wrote (signMessage key data flags) = toInt (signMessage key data flags).length ∧
        sigIn (received P (signMessage key data flags)) = some s ∧ s ≠ [] ∧ s.length ≤ cap) ∧
      (o.ret = none → ∃ s, o.sig = some s ∧ o.sigSz = s.length) ∧
      (o.ret ≠ none → o.sigSz = 0 ∧ o.sig = none) := by
  by_cases h : P.setup.getD 0 = 0
  · by_cases hw : P.wrote (signMessage key data flags) = toInt (signMessage key data flags).length
    · obtain ⟨o, e, _, h2, h3, h4, _⟩ := sign_read (cap := cap) hE hP hs hn h hsz hw
      refine ⟨o, e, ?_, h3, h4⟩
      intro s
      constructor
      · intro ⟨x, y, _⟩; exact ⟨h, hw, (h2 s).1 ⟨x, y⟩⟩
      · intro ⟨_, _, x⟩
        obtain ⟨y, z⟩ := (h2 s).2 x
        obtain ⟨t, ht, hl⟩ := h3 y
        rw [z] at ht; cases ht
        exact ⟨y, z, hl⟩
    · obtain ⟨o, e, h1, h2, h3, _⟩ := sign_wrote (E := E) (a := a) (cap := cap) hP h hsz hw
      refine ⟨o, e, ?_, fun x => absurd x h1, fun _ => ⟨h2, h3⟩⟩
      intro s
      exact ⟨fun x => absurd x.1 h1, fun x => absurd x.2.1 hw⟩
  · obtain ⟨o, e, h1, h2, h3, _⟩ := sign_setup (E := E) (a := a) (data := data) (key := key) (cap := cap) (flags := flags) h
    refine ⟨o, e, ?_, fun x => absurd x h1, fun _ => ⟨h2, h3⟩⟩
    intro s
    exact ⟨fun x => absurd x.1 h1, fun x => absurd x.1 h⟩

/-- An agent answers the request with its signature over exactly the data, the key and the flags of the call. -/
theorem agent_answer (sign : Bytes → Bytes → Nat → Option Bytes) (hsz : data.length + key.length + 17 < 2 ^ 32)
    (hf : flags < 2 ^ 32) :
    agent sign (signMessage key data flags) = (match sign key data flags with | some s => signAnswer s | none => refusal) := by
  have hl : (13 :: (encString key ++ encString data ++ encUint32 flags)).length < 2 ^ 32 := by
    have : (encUint32 flags).length = 4 := rfl
    simp only [List.length_cons, List.length_append, enc_length, this]
    omega
  unfold agent signMessage
  have e1 := string_enc (13 :: (encString key ++ encString data ++ encUint32 flags)) [] hl
  rw [List.append_nil] at e1
  rw [e1]
  simp only [List.append_assoc]
  rw [string_enc key _ (by omega)]
  simp only
  rw [string_enc data _ (by omega)]
  simp only
  have e2 := uint32_enc flags hf []
  rw [List.append_nil] at e2
  simp only [e2]
  cases sign key data flags <;> rfl

theorem sigIn_answer (s : Bytes) (hs : s.length + 5 < 2 ^ 32) : sigIn (signAnswer s) = some s := by
  have hl : (14 :: encString s).length < 2 ^ 32 := by
    simp only [List.length_cons, enc_length]; omega
  have e1 := string_enc (14 :: encString s) [] hl
  have e2 := string_enc s [] (by omega)
  rw [List.append_nil] at e1 e2
  unfold sigIn signAnswer
  rw [e1]
  simp only [e2, Option.map_some]

theorem sigIn_refusal : sigIn refusal = none := by decide

/-- **C127, with an agent.** With an agent that follows the protocol and whose answer comes with one read, the caller gets
exactly what that agent signs for this key, these data and these flags; if the agent refuses, the call fails with a size
of zero. -/
theorem C127_agent (sign : Bytes → Bytes → Nat → Option Bytes) (hE : Sane E) (hP : Fair P) (hs : Sound a w)
    (hn : w + 9 < 2 ^ 32) (hsz : data.length + key.length + 17 < 2 ^ 32) (hf : flags < 2 ^ 32)
    (hset : P.setup.getD 0 = 0) (hw : P.wrote (signMessage key data flags) = toInt (signMessage key data flags).length)
    (hrx : received P (signMessage key data flags) = agent sign (signMessage key data flags)) :
    ∃ o, signRequest E P a data key cap flags = some o ∧
      (∀ s, sign key data flags = some s → s ≠ [] → s.length ≤ cap →
        o.ret = none ∧ o.sig = some s ∧ o.sigSz = s.length) ∧
      (sign key data flags = none → o.ret ≠ none ∧ o.sigSz = 0 ∧ o.sig = none) ∧
      (∀ s, sign key data flags = some s → (s = [] ∨ cap < s.length) → o.ret ≠ none ∧ o.sigSz = 0 ∧ o.sig = none) := by
  obtain ⟨o, e, h1, h2, h3⟩ := C127_signature (cap := cap) hE hP hs hn hsz
  rw [hrx, agent_answer sign hsz hf] at h1
  have hlen : ∀ s, sign key data flags = some s → s.length + 5 < 2 ^ 32 := by
    intro s he
    have hr : (received P (signMessage key data flags)).length ≤ 2048 := by
      unfold received
      have h := (hP.2 (signMessage key data flags)).1
      rw [List.length_take]; omega
    rw [hrx, agent_answer sign hsz hf, he] at hr
    simp only [signAnswer, enc_length, List.length_cons] at hr
    omega
  have bad : (∀ s, sign key data flags = some s → (s = [] ∨ cap < s.length)) → o.ret ≠ none := by
    intro hb h0
    obtain ⟨t, ht, hl⟩ := h2 h0
    obtain ⟨_, _, x, y, z⟩ := (h1 t).1 ⟨h0, ht, hl⟩
    cases hsg : sign key data flags with
    | none => rw [hsg] at x; simp only [sigIn_refusal] at x; cases x
    | some s =>
      rw [hsg] at x
      simp only [sigIn_answer s (hlen s hsg)] at x
      cases x
      rcases hb _ hsg with q | q
      · exact y q
      · omega
  refine ⟨o, e, ?_, ?_, ?_⟩
  · intro s he hne hc
    rw [he] at h1
    simp only [sigIn_answer s (hlen s he)] at h1
    exact (h1 s).2 ⟨hset, hw, rfl, hne, hc⟩
  · intro he
    have := bad (fun s h => by rw [he] at h; cases h)
    exact ⟨this, h3 this⟩
  · intro s he hb
    have := bad (fun t h => by rw [he] at h; cases h; exact hb)
    exact ⟨this, h3 this⟩

/-- **C127, any number of calls.** A process may ask for signatures as often as it likes on one context, of agents that
answer anything: up to two million calls in a row stay inside their memory (only the memory taken by the identities an
agent may have planted grows, by less than 2048 bytes a call). -/
theorem C127_history (cs : List Call) (hs : Sound a w) (hn : w + 2048 * cs.length + 9 < 2 ^ 32)
    (hc : ∀ c ∈ cs, Sane c.env ∧ Fair c.peer ∧ c.data.length + c.key.length + 17 < 2 ^ 32) :
    ∃ os a', runCalls a cs = some (os, a') ∧ os.length = cs.length ∧ Sound a' (w + 2048 * cs.length) := by
  induction cs generalizing a w with
  | nil => exact ⟨[], a, rfl, rfl, hs⟩
  | cons c l ih =>
    obtain ⟨h1, h2, h3⟩ := hc c List.mem_cons_self
    simp only [List.length_cons] at hn
    obtain ⟨o, e, h4, _⟩ := C127_asked (cap := c.cap) (flags := c.flags) h1 h2 hs (by omega) h3
    obtain ⟨os, a', e2, h5, h6⟩ := ih h4 (by omega) (fun x hx => hc x (List.mem_cons_of_mem _ hx))
    refine ⟨o :: os, a', ?_, by simp [h5], ?_⟩
    · simp only [runCalls, e, e2, Option.map_some]
    · simp only [List.length_cons]
      exact sound_mono h6 (by omega)

/-- **C127, the missing callback.** If the application set no I/O callback, the call is undefined: it calls a NULL
pointer as soon as the message is made. -/
theorem C127_unset (hio : P.io = false) (h : P.setup.getD 0 = 0) (hsz : data.length + key.length + 17 < 2 ^ 32) :
    signRequest E P a data key cap flags = none := by
  unfold signRequest
  simp only [h, ne_eq, not_true_eq_false, if_false]
  rw [request_some rfl data key flags hsz]
  simp only [hio, if_true]

/-! ## C128: what an answer leaves behind -/

/-- **C128, partial.** Asking for a signature does not change which identities the context holds and loses no memory,
when the answer is of any type an agent sends: failure, success, a list of identities or a signature (or cannot be read
at all). Missing: answers of other types (see `C128_planted`, `C128_lost`). -/
theorem C128_partial (hE : Sane E) (hP : Fair P) (hs : Sound a w) (hn : w + 9 < 2 ^ 32)
    (hsz : data.length + key.length + 17 < 2 ^ 32) (hm : lostBy a.msg = 0)
    (ht : ∀ t, msgType (received P (signMessage key data flags)) = some t → t = 5 ∨ t = 6 ∨ t = 12 ∨ t = 14) :
    ∃ o, signRequest E P a data key cap flags = some o ∧ o.ctx.ids = a.ids ∧ o.ctx.lost = a.lost := by
  by_cases h : P.setup.getD 0 = 0
  · by_cases hw : P.wrote (signMessage key data flags) = toInt (signMessage key data flags).length
    · obtain ⟨o, e, _, _, _, _, _, h6, h7, h8⟩ := sign_read (cap := cap) hE hP hs hn h hsz hw
      refine ⟨o, e, ?_, ?_⟩
      · cases hty : msgType (received P (signMessage key data flags)) with
        | none => exact h7 hty
        | some t =>
          rcases ht t hty with rfl | rfl | rfl | rfl <;> exact h6 _ hty (by decide) (by decide) (by decide)
      · rw [h8, hm]
        cases hty : msgType (received P (signMessage key data flags)) with
        | none => rfl
        | some t =>
          rcases ht t hty with rfl | rfl | rfl | rfl <;> rfl
    · obtain ⟨o, e, _, _, _, _, h6, h7⟩ := sign_wrote (E := E) (a := a) (cap := cap) hP h hsz hw
      exact ⟨o, e, h6, by rw [h7, hm]; rfl⟩
  · obtain ⟨o, e, _, _, _, _, h6, h7⟩ := sign_setup (E := E) (a := a) (data := data) (key := key) (cap := cap) (flags := flags) h
    exact ⟨o, e, h6, by rw [h7, hm]; rfl⟩

/-- **C128, the buffer that is lost.** Every answer of a type the code does not know costs one allocation: the failure
message made for it is never freed. -/
theorem C128_lost (hE : Sane E) (hP : Fair P) (hs : Sound a w) (hn : w + 9 < 2 ^ 32)
    (hsz : data.length + key.length + 17 < 2 ^ 32) (hm : lostBy a.msg = 0) (h : P.setup.getD 0 = 0)
    (hw : P.wrote (signMessage key data flags) = toInt (signMessage key data flags).length) (t : UInt8)
    (ht : msgType (received P (signMessage key data flags)) = some t) (hk : t ∉ known) :
    ∃ o, signRequest E P a data key cap flags = some o ∧ o.ctx.lost = a.lost + 1 := by
  obtain ⟨o, e, _, _, _, _, _, _, _, h8⟩ := sign_read (cap := cap) hE hP hs hn h hsz hw
  refine ⟨o, e, ?_⟩
  rw [h8, hm, ht]
  simp only
  rw [if_neg hk]

/-- An agent that takes what it is given and answers `b`. -/
def answering (b : Bytes) : Peer :=
  ⟨some 0, true, fun m => toInt m.length, fun _ => (b.length, b ++ List.replicate (2048 - b.length) 0)⟩

/-- A digest and a signer for the examples. -/
def plain : Env := ⟨fun b => some (b.take 32), fun _ _ _ => .ok 64⟩

/-- An ECDSA key as `SSH_AGENTC_ADD_IDENTITY` has it, and the requests to remove everything and with an unknown type. -/
def planted : Bytes := encString (17 :: (encString (asc "ecdsa-sha2-nistp256") ++ encString (asc "nistp256") ++
  encString [4, 1, 2] ++ encString [9] ++ encString (asc "x")))
def removeAll : Bytes := encString [19]
def strange : Bytes := encString [99, 1]

/-- **C128, planted keys.** The answer to a request for a signature is carried out like a request: an agent that
answers with a key to add has it added to the context of the process, and one that answers with "remove all" empties it,
though the call itself fails. -/
theorem C128_planted :
    (signRequest plain (answering planted) {} [1] [2] 100 0).map (fun o => (o.ret, o.ctx.ids.length)) =
      some (some .noKey, 1) ∧
    (signRequest plain (answering removeAll)
        { ids := [⟨ID_SSH_RSA, [0, 0, 0, 0, 0, 0, 0, 0], 8, [(4, 0)], []⟩], idsSz := 1 } [1] [2] 100 0).map
      (fun o => (o.ret, o.ctx.ids)) = some (some .noKey, []) := by
  refine ⟨?_, ?_⟩ <;> decide +kernel

/-- **C128, a witness for the lost buffer.** -/
theorem C128_strange : (signRequest plain (answering strange) {} [1] [2] 100 0).map (fun o => o.ctx.lost) = some 1 := by
  decide +kernel

/-! ## C129: handing messages through -/

variable {R : RelayEnv} {msg : Bytes} {rspSz : Nat}

/-- The writing half, from any state. -/
theorem relayWrite_spec (evs : List Ev) (ho : (relayWrite R a msg rspSz evs).ok = true) :
    (relayWrite R a msg rspSz evs).ctx = a ∧
    (∃ e, (relayWrite R a msg rspSz evs).evs = evs ++ e ++ [.write msg, .read rspSz]) ∧
    ((relayWrite R a msg rspSz evs).rspSz : Int) = R.read ∧ 0 < (relayWrite R a msg rspSz evs).rspSz ∧
    ((relayWrite R a msg rspSz evs).msgSz : Int) =
      (if R.write1 = -1 then R.write2 else if 0 < R.write1 then R.write1 else msg.length) ∧
    (R.write1 = -1 → 0 < R.write2 ∧ (R.cb = true → R.setup2 = 0)) := by
  have rd : ∀ (m : Nat) (l : List Ev), (relayRead R a m rspSz l).ok = true →
      0 < R.read ∧ relayRead R a m rspSz l = ⟨true, m, toU R.read, l ++ [.read rspSz], a⟩ := by
    intro m l h
    unfold relayRead at h ⊢
    by_cases hr : R.read > 0
    · rw [if_pos hr]; exact ⟨hr, rfl⟩
    · rw [if_neg hr] at h; cases h
  unfold relayWrite at ho ⊢
  by_cases hw : R.write1 > 0
  · rw [if_pos hw] at ho ⊢
    obtain ⟨hr, e⟩ := rd _ _ ho
    rw [e]
    have hne : R.write1 ≠ -1 := by omega
    refine ⟨rfl, ⟨[], by simp⟩, by simp only [toU]; omega, by simp only [toU]; omega, ?_, fun h => absurd h hne⟩
    rw [if_neg hne, if_pos hw]; simp only [toU]; omega
  rw [if_neg hw] at ho ⊢
  by_cases hg : R.write1 = -1
  · rw [if_pos hg] at ho ⊢
    by_cases h2 : R.cb = true ∧ R.setup2 ≠ 0
    · rw [if_pos h2] at ho; cases ho
    rw [if_neg h2] at ho ⊢
    by_cases hw2 : R.write2 > 0
    · simp only [if_pos hw2] at ho ⊢
      obtain ⟨hr, e⟩ := rd _ _ ho
      rw [e]
      refine ⟨rfl, ⟨[.write msg] ++ (if R.cb = true then [.setup] else []), by simp⟩, by simp only [toU]; omega,
        by simp only [toU]; omega, ?_, ?_⟩
      · simp only [toU]; omega
      · intro _
        refine ⟨hw2, fun hcb => ?_⟩
        by_cases hz : R.setup2 = 0
        · exact hz
        · exact absurd ⟨hcb, hz⟩ h2
    · simp only [if_neg hw2] at ho; cases ho
  · rw [if_neg hg] at ho ⊢
    obtain ⟨hr, e⟩ := rd _ _ ho
    rw [e]
    refine ⟨rfl, ⟨[], by simp⟩, by simp only [toU]; omega, by simp only [toU]; omega, ?_, fun h => absurd h hg⟩
    rw [if_neg hg, if_neg hw]

/-- **C129, partial.** When a call succeeds and its first write did not fail with a code other than the general one, the
agent was connected (by this call, if the application's connector is set), the message was written whole or in part as
the size given back says by the last write before the one read that ends the call, and the size of the answer is what
that read gave. Missing: a first write that fails otherwise (see `C129_unwritten`). -/
theorem C129_partial (ho : (relay R a msg rspSz).ok = true) (h1 : 0 < R.write1 ∨ R.write1 = -1) :
    (∃ e, (relay R a msg rspSz).evs = e ++ [.write msg, .read rspSz]) ∧
    ((relay R a msg rspSz).msgSz : Int) = (if R.write1 = -1 then R.write2 else R.write1) ∧
    0 < (relay R a msg rspSz).msgSz ∧
    ((relay R a msg rspSz).rspSz : Int) = R.read ∧ 0 < (relay R a msg rspSz).rspSz ∧
    (R.cb = true → (relay R a msg rspSz).ctx.connected = true) := by
  have fin : ∀ (b : Ctx) (evs : List Ev), (relayWrite R b msg rspSz evs).ok = true →
      (R.cb = true → b.connected = true) →
      (∃ e, (relayWrite R b msg rspSz evs).evs = e ++ [.write msg, .read rspSz]) ∧
      ((relayWrite R b msg rspSz evs).msgSz : Int) = (if R.write1 = -1 then R.write2 else R.write1) ∧
      0 < (relayWrite R b msg rspSz evs).msgSz ∧
      ((relayWrite R b msg rspSz evs).rspSz : Int) = R.read ∧ 0 < (relayWrite R b msg rspSz evs).rspSz ∧
      (R.cb = true → (relayWrite R b msg rspSz evs).ctx.connected = true) := by
    intro b evs h hb
    obtain ⟨k1, ⟨e, k2⟩, k3, k4, k5, k6⟩ := relayWrite_spec evs h
    have hsz : ((relayWrite R b msg rspSz evs).msgSz : Int) = (if R.write1 = -1 then R.write2 else R.write1) := by
      rw [k5]
      by_cases hg : R.write1 = -1
      · rw [if_pos hg, if_pos hg]
      · rw [if_neg hg, if_neg hg, if_pos (by omega)]
    refine ⟨⟨evs ++ e, k2⟩, hsz, ?_, k3, k4, fun hc => by rw [k1]; exact hb hc⟩
    by_cases hg : R.write1 = -1
    · rw [if_pos hg] at hsz; have := (k6 hg).1; omega
    · rw [if_neg hg] at hsz; omega
  unfold relay at ho ⊢
  by_cases hc : a.connected = false ∧ R.cb = true
  · rw [if_pos hc] at ho ⊢
    by_cases hs : R.setup1 = 0
    · rw [if_pos hs] at ho ⊢
      exact fin _ _ ho (fun _ => rfl)
    · rw [if_neg hs] at ho; cases ho
  · rw [if_neg hc] at ho ⊢
    refine fin _ _ ho (fun hcb => ?_)
    cases hac : a.connected with
    | true => rfl
    | false => exact absurd ⟨hac, hcb⟩ hc

/-- **C129, the connections made.** A call connects only if the context is not connected yet, and once more only after a
write that failed with the general code; without the application's connector it never does. -/
theorem C129_connects :
    (relay R a msg rspSz).evs.count .setup =
      (if R.cb = true then
        (if a.connected = false then (if R.setup1 = 0 ∧ R.write1 = -1 then 2 else 1) else (if R.write1 = -1 then 1 else 0))
       else 0) := by
  have hrd : ∀ (b : Ctx) (m : Nat) (l : List Ev), (relayRead R b m rspSz l).evs.count .setup = l.count .setup := by
    intro b m l
    unfold relayRead relayFail
    by_cases hr : R.read > 0
    · rw [if_pos hr]; simp [List.count_append]
    · rw [if_neg hr]; simp [List.count_append]
  have hw : ∀ (b : Ctx) (l : List Ev), (relayWrite R b msg rspSz l).evs.count .setup =
      l.count .setup + (if R.cb = true ∧ R.write1 = -1 then 1 else 0) := by
    intro b l
    unfold relayWrite
    by_cases h1 : R.write1 > 0
    · have : ¬ (R.cb = true ∧ R.write1 = -1) := by omega
      rw [if_pos h1, if_neg this, hrd]; simp [List.count_append]
    rw [if_neg h1]
    by_cases h2 : R.write1 = -1
    · rw [if_pos h2]
      by_cases h3 : R.cb = true ∧ R.setup2 ≠ 0
      · rw [if_pos h3, if_pos ⟨h3.1, h2⟩]; simp [relayFail, List.count_append]
      · rw [if_neg h3]
        by_cases h4 : R.write2 > 0
        · simp only [if_pos h4]
          rw [hrd]
          cases hcb : R.cb <;> simp [h2, List.count_append]
        · simp only [if_neg h4]
          cases hcb : R.cb <;> simp [h2, relayFail, List.count_append]
    · have : ¬ (R.cb = true ∧ R.write1 = -1) := fun h => h2 h.2
      rw [if_neg h2, if_neg this, hrd]; simp [List.count_append]
  unfold relay
  cases hcb : R.cb with
  | true =>
    by_cases hc : a.connected = false
    · by_cases hs : R.setup1 = 0
      · simp only [hc, hs, and_self, if_true, hw, hcb, true_and]
        by_cases h2 : R.write1 = -1 <;> simp [h2]
      · simp [hc, hs, relayFail]
    · rw [if_neg (fun h => hc h.1), if_pos rfl, if_neg hc, hw]
      simp [hcb]
  | false => simp [hw, hcb]

/-- **C129, the write that is passed over.** If the first write fails with any code but the general one (it would block,
the connection was reset or closed, a timeout), nothing was taken, and yet the call reads an answer and, if there is one,
succeeds with the size of the whole message given back as written. -/
theorem C129_unwritten (hc : a.connected = true) (h1 : R.write1 ≤ 0) (h2 : R.write1 ≠ -1) (hr : 0 < R.read) :
    relay R a msg rspSz = ⟨true, msg.length, toU R.read, [.write msg, .read rspSz], a⟩ := by
  unfold relay relayWrite relayRead
  rw [if_neg (by rw [hc]; simp), if_neg (by omega), if_neg h2, if_pos hr]
  rfl

/-! ## The hypotheses are met -/

/-- A request a process makes of an agent that signs by repeating the data, and the same with an agent that has no key. -/
example : (signRequest plain (answering (signAnswer [7, 8, 9])) {} [1, 2] [3] 100 2).map
      (fun o => (o.ret, o.sig, o.sigSz, o.evs)) =
    some (none, some [7, 8, 9], 3,
      [.setup, .write [0, 0, 0, 16, 13, 0, 0, 0, 1, 3, 0, 0, 0, 2, 1, 2, 0, 0, 0, 2], .read 2048, .cleanup]) := by
  decide +kernel

example : (signRequest plain (answering refusal) {} [1, 2] [3] 100 2).map (fun o => (o.ret, o.sigSz)) =
    some (some .noKey, 0) := by
  decide +kernel

theorem answering_fair (b : Bytes) (h : b.length ≤ 2048) : Fair (answering b) := by
  refine ⟨rfl, fun m => ⟨?_, ?_⟩⟩
  · simp only [answering, List.length_append, List.length_replicate]; omega
  · simp only [answering]; omega

theorem plain_sane : Sane plain := by
  intro i d f n h
  simp only [plain, Except.ok.injEq] at h
  omega

/-- The hypotheses of C127 and C128 hold together, of an empty context and of one with a planted key. -/
example : Sane plain ∧ Fair (answering (signAnswer [7, 8, 9])) ∧ Sound {} 0 ∧
    received (answering (signAnswer [7, 8, 9])) (signMessage [3] [1, 2] 2) =
      agent (fun _ _ _ => some [7, 8, 9]) (signMessage [3] [1, 2] 2) := by
  refine ⟨plain_sane, answering_fair _ (by decide), ⟨fun i hi => (by cases hi), Nat.le_refl 0⟩, ?_⟩
  decide +kernel

example : msgType strange = some 99 ∧ (99 : UInt8) ∉ known := by decide +kernel

/-- A relay that works after connecting again. -/
example : relay ⟨true, 0, 0, -1, 4, 9⟩ {} [1, 2, 3, 4] 50 =
    ⟨true, 4, 9, [.setup, .write [1, 2, 3, 4], .setup, .write [1, 2, 3, 4], .read 50], { connected := true }⟩ := by
  decide

end Props.Agent
