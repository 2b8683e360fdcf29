import Verif.Proofs.Request
/-!
# C37, C54: global requests and channel requests
-/

namespace Props.Request
open Wolf Wolf.Wire Wolf.NameList Wolf.Channel Wolf.Request Props.Wire Spec.Wire Spec.Request Proofs.Request

variable {mem : Bytes} {len : Nat}

/-- C37: the answer to `tcpip-forward`, for every body, every callback and every answer of it. If a reply is wanted
(and can be queued) there is exactly one, after the calls: success with the port granted, else failure; otherwise there
is none. The application is asked exactly once, with the address and port of the message, and if it set something up
that cannot be granted it is told to undo it. -/
theorem C37_setup (hl : len ≤ mem.length) (hw : len < 2^32) (E : GEnv) {want : Byte} {rest : Bytes}
    (hm : globalMsg (mem.take len) = some (asc "tcpip-forward", want, rest)) :
    ∃ ret evs, doGlobalRequest E mem len 0 = some (ret, evs) ∧
      evs = calls evs ++ (packets evs).map .packet ∧
      packets evs = (if Replies E.send want then
        [match grantedPort E rest with | some port => 81 :: encUint32 port | none => [82]] else []) ∧
      calls evs = (match E.fwdCb, fwdBody rest with
        | some cb, some b =>
          .fwd false b.1 b.2 :: (if SetUp cb.1 ∧ granted b.2 cb.1 = none then [.fwd true b.1 b.2] else [])
        | _, _ => []) := by
  rcases global_cases hl hw E with ⟨e, _, h⟩ | ⟨name, w, i, h, hd⟩
  · rw [h] at hm; cases hm
  rw [h] at hm
  simp only [Option.some.injEq, Prod.mk.injEq] at hm
  obtain ⟨rfl, rfl, rfl⟩ := hm
  rw [if_pos rfl] at hd
  obtain ⟨ret, hr, _⟩ := doFwd_setup i hl hw E w
  have hc : ∀ e ∈ setupCalls E (msgFrom mem len i), payload e = none := by
    intro e he
    unfold setupCalls at he
    grind [payload]
  have hp := packet_tail _ hc
  exact ⟨ret, _, hd.trans hr, by rw [(hp _).1, (hp _).2], (hp _).2, (hp _).1⟩

/-- C37: the answer to `cancel-tcpip-forward`. -/
theorem C37_cancel (hl : len ≤ mem.length) (hw : len < 2^32) (E : GEnv) {want : Byte} {rest : Bytes}
    (hm : globalMsg (mem.take len) = some (asc "cancel-tcpip-forward", want, rest)) :
    ∃ ret evs, doGlobalRequest E mem len 0 = some (ret, evs) ∧
      evs = calls evs ++ (packets evs).map .packet ∧
      packets evs = (if Replies E.send want then [[if cancelled E rest then 81 else 82]] else []) ∧
      calls evs = (match E.fwdCb, fwdBody rest with
        | some _, some b => [.fwd true b.1 b.2]
        | _, _ => []) := by
  rcases global_cases hl hw E with ⟨e, _, h⟩ | ⟨name, w, i, h, hd⟩
  · rw [h] at hm; cases hm
  rw [h] at hm
  simp only [Option.some.injEq, Prod.mk.injEq] at hm
  obtain ⟨rfl, rfl, rfl⟩ := hm
  rw [if_neg (Ne.symm asc_fwd.2.2), if_pos rfl] at hd
  obtain ⟨ret, hr, _⟩ := doFwd_cancel i hl hw E w
  have hc : ∀ e ∈ cancelCalls E (msgFrom mem len i), payload e = none := by
    intro e he
    unfold cancelCalls at he
    grind [payload]
  have hp := packet_tail _ hc (if Replies E.send w then [[if cancelled E (msgFrom mem len i) then 81 else 82]] else [])
  exact ⟨ret, _, by rw [hd, hr], by rw [hp.1, hp.2], hp.2, hp.1⟩

/-- C37: refusing a forwarding request does not end the session: the code returned is that of sending the reply, and
without a reply it is an error only for a malformed body. -/
theorem C37_keeps_session (hl : len ≤ mem.length) (hw : len < 2^32) (E : GEnv) {name rest : Bytes} {want : Byte}
    (hm : globalMsg (mem.take len) = some (name, want, rest))
    (hn : name = asc "tcpip-forward" ∨ name = asc "cancel-tcpip-forward") :
    ∃ ret evs, doGlobalRequest E mem len 0 = some (ret, evs) ∧
      (want ≠ 0 → E.send.prep = none → ret = E.send.sent) ∧ (want = 0 → (ret = none ↔ fwdBody rest ≠ none)) := by
  rcases global_cases hl hw E with ⟨e, _, h⟩ | ⟨name', w, i, h, hd⟩
  · rw [h] at hm; cases hm
  rw [h] at hm
  simp only [Option.some.injEq, Prod.mk.injEq] at hm
  obtain ⟨rfl, rfl, rfl⟩ := hm
  rcases hn with rfl | rfl
  · rw [if_pos rfl] at hd
    obtain ⟨ret, hr, h1, h2⟩ := doFwd_setup i hl hw E w
    exact ⟨ret, _, hd.trans hr, fun h0 hp => by rw [h1 h0]; simp [sentRet, hp], h2⟩
  · rw [if_neg (Ne.symm asc_fwd.2.2), if_pos rfl] at hd
    obtain ⟨ret, hr, h1, h2⟩ := doFwd_cancel i hl hw E w
    exact ⟨ret, _, hd.trans hr, fun h0 hp => by rw [h1 h0]; simp [sentRet, hp], h2⟩

/-- C37: any other name. It is the general callback's business; without one it is refused. -/
theorem C37_other (hl : len ≤ mem.length) (hw : len < 2^32) (E : GEnv) {name rest : Bytes} {want : Byte}
    (hm : globalMsg (mem.take len) = some (name, want, rest))
    (h1 : name ≠ asc "tcpip-forward") (h2 : name ≠ asc "cancel-tcpip-forward") :
    ∃ ret evs, doGlobalRequest E mem len 0 = some (ret, evs) ∧
      evs = calls evs ++ (packets evs).map .packet ∧
      packets evs = (if Replies E.send want then [[if E.globalReqCb = some none then 81 else 82]] else []) ∧
      calls evs = (if E.globalReqCb = none then [] else [.global (name.take 79) want]) := by
  rcases global_cases hl hw E with ⟨e, _, h⟩ | ⟨name', w, i, h, hd⟩
  · rw [h] at hm; cases hm
  rw [h] at hm
  simp only [Option.some.injEq, Prod.mk.injEq] at hm
  obtain ⟨rfl, rfl, rfl⟩ := hm
  rw [if_neg h1, if_neg h2, otherGlobal_eq] at hd
  have hc : ∀ e ∈ (if E.globalReqCb = none then [] else [Ev.global (name'.take 79) w]), payload e = none := by
    intro e he
    grind [payload]
  have hp := packet_tail _ hc (if Replies E.send w then [[if otherAccepted E then 81 else 82]] else [])
  refine ⟨_, _, hd, by rw [hp.1, hp.2], ?_, hp.1⟩
  rw [hp.2]
  by_cases hr : Replies E.send w <;> by_cases ho : E.globalReqCb = some none <;> simp [hr, ho, otherAccepted]

/-- C37: a message that is not a global request has no effect and is an error. -/
theorem C37_malformed (hl : len ≤ mem.length) (hw : len < 2^32) (E : GEnv) (hm : globalMsg (mem.take len) = none) :
    ∃ e, doGlobalRequest E mem len 0 = some (some e, []) := by
  rcases global_cases hl hw E with ⟨e, h, _⟩ | ⟨name', w, i, h, hd⟩
  · exact ⟨e, h⟩
  · rw [h] at hm; cases hm

/-- C37, in short: forwarding fails closed. Whatever the message, a success reply to a forwarding or cancellation request
implies that the application has a callback, that it was called with what the message says, and that it agreed. -/
theorem C37_fail_closed (hl : len ≤ mem.length) (hw : len < 2^32) (E : GEnv) {name rest : Bytes} {want : Byte}
    (hm : globalMsg (mem.take len) = some (name, want, rest))
    (hn : name = asc "tcpip-forward" ∨ name = asc "cancel-tcpip-forward") {ret : Ret} {evs : List Ev}
    (hd : doGlobalRequest E mem len 0 = some (ret, evs)) {tail : Bytes} (hs : .packet (81 :: tail) ∈ evs) :
    ∃ cb addr port, E.fwdCb = some cb ∧ fwdBody rest = some (addr, port) ∧
      (if name = asc "tcpip-forward" then
        .fwd false addr port ∈ evs ∧ .fwd true addr port ∉ evs ∧ SetUp cb.1 ∧ (port = 0 → 1024 ≤ cb.1 ∧ cb.1 ≤ 65535) ∧
        tail = encUint32 (if port = 0 then cb.1.toNat else port)
       else .fwd true addr port ∈ evs ∧ cb.1 = 0 ∧ tail = []) := by
  have hmem : ∀ {l : List Ev}, Ev.packet (81 :: tail) ∈ l → (81 :: tail) ∈ packets l := by
    intro l h
    exact List.mem_filterMap.2 ⟨_, h, rfl⟩
  have hcm : ∀ {l : List Ev} {e : Ev}, e ∈ calls l → e ∈ l := fun h => (List.mem_filter.1 h).1
  rcases hn with rfl | rfl
  · obtain ⟨r, ev, h1, h2, h3, h4⟩ := C37_setup hl hw E hm
    rw [hd] at h1
    simp only [Option.some.injEq, Prod.mk.injEq] at h1
    obtain ⟨rfl, rfl⟩ := h1
    have hs' := hmem hs
    rw [h3] at hs'
    by_cases hr : Replies E.send want
    · rw [if_pos hr] at hs'
      simp only [List.mem_cons, List.not_mem_nil, or_false] at hs'
      cases hg : grantedPort E rest with
      | none => rw [hg] at hs'; simp at hs'
      | some p =>
        rw [hg] at hs'
        simp only [List.cons.injEq, true_and] at hs'
        unfold grantedPort at hg
        cases hcb : E.fwdCb with
        | none => simp [hcb] at hg
        | some cb =>
          cases hb : fwdBody rest with
          | none => simp [hcb, hb] at hg
          | some b =>
            obtain ⟨addr, port⟩ := b
            simp only [hcb, hb, Option.bind_some] at hg
            rw [hcb, hb] at h4
            simp only [hg, reduceCtorEq, and_false, if_false] at h4
            refine ⟨cb, addr, port, rfl, rfl, ?_⟩
            rw [if_pos rfl]
            have hne : Ev.fwd true addr port ∉ evs := by
              intro h
              have : Ev.fwd true addr port ∈ calls evs := List.mem_filter.2 ⟨h, rfl⟩
              rw [h4] at this
              simp at this
            refine ⟨hcm (by rw [h4]; simp), hne, ?_⟩
            unfold granted at hg
            rw [hs']
            by_cases hp : port = 0
            · rw [if_pos hp] at hg
              split at hg
              · rename_i hc
                cases hg
                exact ⟨.inr hc.1, fun _ => hc, by rw [if_pos hp]⟩
              · cases hg
            · rw [if_neg hp] at hg
              split at hg
              · rename_i hc
                cases hg
                exact ⟨hc, fun h => absurd h hp, by rw [if_neg hp]⟩
              · cases hg
    · rw [if_neg hr] at hs'; cases hs'
  · obtain ⟨r, ev, h1, h2, h3, h4⟩ := C37_cancel hl hw E hm
    rw [hd] at h1
    simp only [Option.some.injEq, Prod.mk.injEq] at h1
    obtain ⟨rfl, rfl⟩ := h1
    have hs' := hmem hs
    rw [h3] at hs'
    by_cases hr : Replies E.send want
    · rw [if_pos hr] at hs'
      simp only [List.mem_cons, List.not_mem_nil, or_false, List.cons.injEq] at hs'
      by_cases hc : cancelled E rest = true
      · unfold cancelled at hc
        cases hcb : E.fwdCb with
        | none => simp [hcb] at hc
        | some cb =>
          cases hb : fwdBody rest with
          | none => simp [hcb, hb] at hc
          | some b =>
            simp only [hcb, hb, decide_eq_true_eq] at hc
            rw [hcb, hb] at h4
            exact ⟨cb, b.1, b.2, rfl, rfl, by
              rw [if_neg (Ne.symm asc_fwd.2.2)]
              exact ⟨hcm (by rw [h4]; simp), hc, hs'.2⟩⟩
      · rw [if_neg hc] at hs'; simp at hs'
    · rw [if_neg hr] at hs'; cases hs'

/-- A request for port 0 with a reply wanted: `00 00 00 0d tcpip-forward 01, 00 00 00 01 'h', 00 00 00 00`. -/
def fwdZero : Bytes := encString (asc "tcpip-forward") ++ [1] ++ encString [104] ++ encUint32 0

/-- The application answers 2022: granted. It answers 0: undone and refused. It answers 70000: undone and refused. It
refuses: refused. There is none: refused. -/
example : [some (2022, 0), some (0, 0), some (70000, 0), some (2, 0), none].map (fun cb =>
      doGlobalRequest ⟨cb, none, {}⟩ fwdZero fwdZero.length 0) =
    [some (none, [.fwd false [104] 0, .packet [81, 0, 0, 7, 230]]),
     some (none, [.fwd false [104] 0, .fwd true [104] 0, .packet [82]]),
     some (none, [.fwd false [104] 0, .fwd true [104] 0, .packet [82]]),
     some (none, [.fwd false [104] 0, .packet [82]]),
     some (none, [.packet [82]])] := by decide +kernel

example : globalMsg (fwdZero.take fwdZero.length) =
    some (asc "tcpip-forward", 1, encString [104] ++ encUint32 0) := by decide +kernel

/-- A keep-alive without a callback is answered with a failure; one cut short is an error. -/
example : let m := encString (asc "keepalive@openssh.com") ++ [1]
    doGlobalRequest ⟨none, none, {}⟩ m m.length 0 = some (none, [.packet [82]]) ∧
    doGlobalRequest ⟨none, none, {}⟩ m (m.length - 1) 0 = some (some .bufferE, []) := by decide +kernel

/-! ## Channel requests -/

variable {s : Sess} {E : CEnv}

/-- C54: a request on an open channel. If it wants a reply and its type has one, there is exactly one, addressed to the
peer's number of this very channel: success exactly if the request is well-formed, of a known type and not refused by
the application. Otherwise there is none. The calls come first. -/
theorem C54_reply (hl : len ≤ mem.length) (hw : len < 2^32) (hs : Shape s.conn) {ch : Chan} (hc : ch ∈ s.conn.chans)
    {type rest : Bytes} {want : Byte} (hm : chanMsg (mem.take len) = some (ch.id, type, want, rest)) :
    ∃ ret evs s', doChannelRequest E s mem len 0 = some (ret, evs, s') ∧
      evs = calls evs ++ (packets evs).map .packet ∧
      packets evs = (if Replies E.send want ∧ silent E type = false then
        [(if accepted E type rest then 99 else 100) :: encUint32 ch.peerId] else []) := by
  rcases chan_cases hl hw E s with ⟨e, _, h⟩ | ⟨id, t, w, i, h, hd⟩
  · rw [h] at hm; cases hm
  rw [h] at hm
  simp only [Option.some.injEq, Prod.mk.injEq] at hm
  obtain ⟨rfl, rfl, rfl, rfl⟩ := hm
  obtain ⟨j, hj, hg⟩ := List.mem_iff_getElem.1 hc
  have hf : findSelf s.conn ch.id = some (j, ch) := hs.findSelf_get (by rw [List.getElem?_eq_getElem hj, hg])
  rw [hf] at hd
  obtain ⟨o, ho, fit⟩ := reqBody_fits E s ch.id i t w hl hw
  rw [ho] at hd
  simp only [Option.map_some] at hd
  have hacc : decide (o.ret = none ∧ o.rej = false) = accepted E t (msgFrom mem len i) := by
    unfold accepted
    cases hb : body E t (msgFrom mem len i) with
    | none => rw [hb] at fit; simp [fit.1]
    | some b =>
      rw [hb] at fit
      have := fit.1
      simp only
      cases ha : allowed E b <;> simp [ha] at this ⊢ <;> exact this
  have hpl : ∀ e ∈ o.evs, payload e = none := by
    cases hb : body E t (msgFrom mem len i) with
    | none => rw [hb] at fit; exact fit.2.2.2.2.2.2.2.1
    | some b =>
      rw [hb] at fit
      rw [fit.2.1]
      intro e he
      unfold bodyCalls at he
      grind [payload]
  have hconn : o.s.conn = s.conn := by
    cases hb : body E t (msgFrom mem len i) with
    | none => rw [hb] at fit; exact fit.2.2.1
    | some b =>
      rw [hb] at fit
      rw [fit.2.2.1]
      unfold effect
      cases b <;> simp
      split <;> rfl
  have hwant : o.want = if silent E t then 0 else w := by
    cases hb : body E t (msgFrom mem len i) with
    | none => rw [hb] at fit; exact fit.2.1
    | some b => rw [hb] at fit; exact fit.2.2.2.1
  have hrep : reply E ch.id o = ((reply E ch.id o).1,
      o.evs ++ (if Replies E.send w ∧ silent E t = false then
        [(if accepted E t (msgFrom mem len i) then 99 else 100) :: encUint32 ch.peerId] else []).map .packet, o.s) := by
    unfold reply sendChannelSuccess
    rw [hwant, hconn, hf]
    simp only [sendPayload_eq, hacc, c32toa_eq, MSGID_CHANNEL_SUCCESS, MSGID_CHANNEL_FAILURE, Replies]
    cases hsil : silent E t
    · by_cases hw0 : w = 0
      · simp [hw0]
      · by_cases hp : E.send.prep = none <;> simp [hw0, hp]
    · simp
  have hp := packet_tail _ hpl (if Replies E.send w ∧ silent E t = false then
        [(if accepted E t (msgFrom mem len i) then 99 else 100) :: encUint32 ch.peerId] else [])
  exact ⟨_, _, _, by rw [hd, hrep], by rw [hp.1, hp.2], hp.2⟩

theorem reply_evs (E : CEnv) (id : Nat) (o : Out) :
    ∃ ps : List Bytes, (reply E id o).2.1 = o.evs ++ ps.map .packet := by
  unfold reply sendChannelSuccess
  split
  · split
    · exact ⟨[], by simp⟩
    · simp only [sendPayload_eq]
      split
      · exact ⟨[_], rfl⟩
      · exact ⟨[], rfl⟩
  · exact ⟨[], by simp⟩

/-- C54: what a well-formed request does: the application is called as the request says, the session changes as the
request says, and nothing else changes. -/
theorem C54_effect (hl : len ≤ mem.length) (hw : len < 2^32) (hs : Shape s.conn) {ch : Chan} (hc : ch ∈ s.conn.chans)
    {type rest : Bytes} {want : Byte} (hm : chanMsg (mem.take len) = some (ch.id, type, want, rest)) {b : Body}
    (hb : body E type rest = some b) :
    ∃ ret evs, doChannelRequest E s mem len 0 = some (ret, evs, effect E ch.id s b) ∧ calls evs = bodyCalls E ch.id b := by
  rcases chan_cases hl hw E s with ⟨e, _, h⟩ | ⟨id, t, w, i, h, hd⟩
  · rw [h] at hm; cases hm
  rw [h] at hm
  simp only [Option.some.injEq, Prod.mk.injEq] at hm
  obtain ⟨rfl, rfl, rfl, rfl⟩ := hm
  obtain ⟨j, hj, hg⟩ := List.mem_iff_getElem.1 hc
  have hf : findSelf s.conn ch.id = some (j, ch) := hs.findSelf_get (by rw [List.getElem?_eq_getElem hj, hg])
  rw [hf] at hd
  obtain ⟨o, ho, fit⟩ := reqBody_fits E s ch.id i t w hl hw
  rw [ho] at hd
  rw [hb] at fit
  obtain ⟨_, f2, f3, _, _⟩ := fit
  simp only [Option.map_some] at hd
  rw [hd]
  have hpl : ∀ e ∈ o.evs, payload e = none := by
    rw [f2]
    intro e he
    unfold bodyCalls at he
    grind [payload]
  refine ⟨(reply E ch.id o).1, (reply E ch.id o).2.1, ?_, ?_⟩
  · have : (reply E ch.id o).2.2 = o.s := by unfold reply; split <;> rfl
    rw [← f3, ← this]
  · have := reply_evs E ch.id o
    obtain ⟨ps, hps⟩ := this
    rw [hps, (packet_tail _ hpl ps).1, f2]

/-- C54: a malformed request on an open channel is an error, is never accepted, and touches neither another channel nor
the exit status, the terminal modes or the use of the agent. Unless it is a program start or a terminal request the
session stays as it was and the application is not called. -/
theorem C54_malformed (hl : len ≤ mem.length) (hw : len < 2^32) (hs : Shape s.conn) {ch : Chan} (hc : ch ∈ s.conn.chans)
    {type rest : Bytes} {want : Byte} (hm : chanMsg (mem.take len) = some (ch.id, type, want, rest))
    (hb : body E type rest = none) :
    ∃ e evs s', doChannelRequest E s mem len 0 = some (some e, evs, s') ∧ s'.conn = s.conn ∧
      (∀ n, n ≠ ch.id → s'.info n = s.info n) ∧ s'.exitStatus = s.exitStatus ∧ s'.modes = s.modes ∧
      s'.useAgent = s.useAgent ∧
      (type ≠ asc "exec" ∧ type ≠ asc "subsystem" ∧ type ≠ asc "pty-req" → s' = s ∧ calls evs = []) := by
  rcases chan_cases hl hw E s with ⟨e, _, h⟩ | ⟨id, t, w, i, h, hd⟩
  · rw [h] at hm; cases hm
  rw [h] at hm
  simp only [Option.some.injEq, Prod.mk.injEq] at hm
  obtain ⟨rfl, rfl, rfl, rfl⟩ := hm
  obtain ⟨j, hj, hg⟩ := List.mem_iff_getElem.1 hc
  have hf : findSelf s.conn ch.id = some (j, ch) := hs.findSelf_get (by rw [List.getElem?_eq_getElem hj, hg])
  rw [hf] at hd
  obtain ⟨o, ho, fit⟩ := reqBody_fits E s ch.id i t w hl hw
  rw [ho] at hd
  rw [hb] at fit
  obtain ⟨f1, f2, f3, f4, f5, f6, f7, _, f9⟩ := fit
  simp only [Option.map_some] at hd
  rw [hd]
  have h2 : (reply E ch.id o).2.2 = o.s := by unfold reply; split <;> rfl
  have h1 : ∃ e, (reply E ch.id o).1 = some e := by
    cases hr : (reply E ch.id o).1 with
    | some e => exact ⟨e, rfl⟩
    | none =>
      exfalso
      unfold reply at hr
      split at hr
      · simp only at hr
        split at hr
        · rename_i h; exact h hr
        · exact f1 hr
      · exact f1 hr
  obtain ⟨e, he⟩ := h1
  refine ⟨e, (reply E ch.id o).2.1, o.s, ?_, f3, f4, f5, f6, f7, fun h => ⟨(f9 h).1, ?_⟩⟩
  · rw [← he, ← h2]
  · have : ∃ ps : List Bytes, (reply E ch.id o).2.1 = o.evs ++ ps.map .packet := reply_evs E ch.id o
    obtain ⟨ps, hps⟩ := this
    rw [hps, (f9 h).2, (packet_tail [] (by simp) ps).1]

/-- C54: a request naming no open channel, or a message that is not a channel request, has no effect at all and is an
error. -/
theorem C54_no_channel (hl : len ≤ mem.length) (hw : len < 2^32)
    (hm : ∀ id type want rest, chanMsg (mem.take len) = some (id, type, want, rest) → ∀ ch ∈ s.conn.chans, ch.id ≠ id) :
    ∃ e, doChannelRequest E s mem len 0 = some (some e, [], s) := by
  rcases chan_cases hl hw E s with ⟨e, h, _⟩ | ⟨id, t, w, i, h, hd⟩
  · exact ⟨e, h⟩
  have hn := hm id t w _ h
  have hf : findSelf s.conn id = none := by
    cases hf : findSelf s.conn id with
    | none => rfl
    | some q =>
      obtain ⟨h1, h2⟩ := Shape.findSelf_some hf
      exact absurd h2 (hn _ (List.mem_of_getElem? h1))
  rw [hf] at hd
  refine ⟨.invalidChanId, ?_⟩
  rw [hd]
  unfold reply sendChannelSuccess
  simp only [hf]
  split <;> simp

/-- A session with channel 0, which the peer calls 7. -/
def sess : Sess :=
  { conn := { Spec.Channel.fresh true 4 100 with
      chans := [{ id := 0, ctype := 220, windowSz := 4, maxPacketSz := 9, peerId := 7,
                  inBuf := ⟨[], 0, 0, 0, false⟩, ext := ⟨[], 0, 0, 0, false⟩ }], listSz := 1 }
    info := fun _ => {} }

/-- `exec "ls"` on channel 0, reply wanted. -/
def execLs : Bytes := encUint32 0 ++ encString (asc "exec") ++ [1] ++ encString (asc "ls")

example : Shape sess.conn := ⟨rfl, by decide, by decide⟩

example : chanMsg (execLs.take execLs.length) = some (0, asc "exec", 1, encString (asc "ls")) ∧
    body {} (asc "exec") (encString (asc "ls")) = some (.exec (asc "ls")) := by decide +kernel

/-- Accepted without a callback and with one that agrees, refused by one that does not. -/
example : [none, some 0, some 1].map (fun cb =>
      (doChannelRequest { execCb := cb } sess execLs execLs.length 0).map fun r => (r.1, r.2.1, r.2.2.info 0)) =
    [some (none, [.packet [99, 0, 0, 0, 7]], ⟨.exec, some (asc "ls"), false⟩),
     some (none, [.exec 0 (some (asc "ls")), .packet [99, 0, 0, 0, 7]], ⟨.exec, some (asc "ls"), false⟩),
     some (none, [.exec 0 (some (asc "ls")), .packet [100, 0, 0, 0, 7]], ⟨.exec, some (asc "ls"), false⟩)] := by
  decide +kernel

/-- An unknown type is refused; `exit-status` gets no reply even if it wants one. -/
example : let m := encUint32 0 ++ encString (asc "x11-req") ++ [1]
    let n := encUint32 0 ++ encString (asc "exit-status") ++ [1] ++ encUint32 3
    (doChannelRequest {} sess m m.length 0).map (fun r => (r.1, r.2.1)) = some (none, [.packet [100, 0, 0, 0, 7]]) ∧
    (doChannelRequest {} sess n n.length 0).map (fun r => (r.1, r.2.1, r.2.2.exitStatus)) = some (none, [], 3) := by
  decide +kernel

/-- What the code does not do (finding): with the command cut off, the request fails, but the application's callback has
been called all the same (it sees the command of the request before, or none), and the handshake counts as finished. -/
theorem C54_exec_called_anyway :
    (doChannelRequest { execCb := some 0 } sess execLs (execLs.length - 1) 0).map
      (fun r => (r.1, r.2.1, r.2.2.clientDone)) =
    some (some .bufferE, [.exec 0 none, .packet [100, 0, 0, 0, 7]], true) := by decide +kernel

/-- What the code does not do (finding): RFC 4254 section 6.5 lets only one of `shell`, `exec` and `subsystem` succeed
per channel; here a second one succeeds too, replacing the command. -/
theorem C54_second_succeeds :
    ((doChannelRequest {} sess execLs execLs.length 0).bind fun r =>
      doChannelRequest {} r.2.2 (encUint32 0 ++ encString (asc "subsystem") ++ [1] ++ encString (asc "sftp"))
        (encUint32 0 ++ encString (asc "subsystem") ++ [1] ++ encString (asc "sftp")).length 0).map
      (fun r => (r.1, r.2.1, r.2.2.info 0)) =
    some (none, [.packet [99, 0, 0, 0, 7]], ⟨.subsystem, some (asc "sftp"), false⟩) := by decide +kernel

/-- What the code does not do (finding): a refused request finishes the handshake just as an accepted one does
(`wolfSSH_accept` returns success although the only request was answered with a failure). -/
theorem C54_refused_done (hl : len ≤ mem.length) (hw : len < 2^32) (hs : Shape s.conn) {ch : Chan} (hc : ch ∈ s.conn.chans)
    {rest : Bytes} {want : Byte} (hm : chanMsg (mem.take len) = some (ch.id, asc "shell", want, rest)) :
    ∃ ret evs s', doChannelRequest { E with shellCb := some 1 } s mem len 0 = some (ret, evs, s') ∧
      accepted { E with shellCb := some 1 } (asc "shell") rest = false ∧ s'.clientDone = true := by
  have hb : body { E with shellCb := some 1 } (asc "shell") rest = some .shell := by
    unfold body
    rw [if_neg (by decide), if_pos rfl]
  obtain ⟨ret, evs, h, _⟩ := C54_effect hl hw hs hc hm hb
  exact ⟨ret, evs, _, h, by simp [accepted, hb, allowed, agrees], rfl⟩

end Props.Request
