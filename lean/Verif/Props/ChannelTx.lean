import Verif.Proofs.ChannelQuiet
/-!
# C19, C20, C31: channels, sending side

Names as in `Verif.Props.Channel`. `queuedBy c x` is what step `x` puts into the output buffer.
-/

namespace Props.ChannelTx
open Wolf Wolf.Channel Wolf.NameList Spec.Buffer Spec.Channel

variable {server : Bool} {window maxPacket : Nat} {c c' : Conn}

/-- C19: while a channel is open and not confirmed anew, the bytes sent on it and the window left add
up to the window at the start and all the peer has granted since; so never more than granted is
sent. `C19_confirmed` and `C36_answer` say what the window is at the start. -/
theorem C19_window (hw : window < 2^32) (h : Reach server window maxPacket c) {id : Nat} {xs : List In}
    (hr : Runs id c xs c') (hnc : ∀ x ∈ xs, confirms id x = false) (ch : Chan) (hc : ch ∈ c.chans) (hid : ch.id = id) :
    ∃ ch' ∈ c'.chans, ch'.id = id ∧ ch'.peerId = ch.peerId ∧
      ch'.peerWindowSz + (over (sentBy id) c xs).length = ch.peerWindowSz + total (grantedBy id) c xs ∧
      (over (sentBy id) c xs).length ≤ ch.peerWindowSz + total (grantedBy id) c xs := by
  obtain ⟨ch', hm, e1, e2, _, e4, _⟩ := runs_sent hr (reach_inv hw h) hc hid hnc
  exact ⟨ch', hm, e1, e2, e4, by omega⟩

/-- C19: a confirmation sets window and packet size of the channel it names to what it says. -/
theorem C19_confirmed (hw : window < 2^32) (h : Reach server window maxPacket c) (mem : Bytes) (len idx : Nat) (cb : Ret)
    (hl : len ≤ mem.length) (hlen : len < 2^32) (id peer win mx : Nat)
    (hm : confMsg ((mem.take len).drop idx) = some (id, peer, win, mx))
    (i : Nat) (ch : Chan) (hc : c.chans[i]? = some ch) (hid : ch.id = id) :
    ∃ r c' ch', doOpenConf c mem len idx cb = some (r, c') ∧ c'.chans = c.chans.set i ch' ∧ ch'.id = id ∧
      ch'.peerId = peer ∧ ch'.peerWindowSz = win ∧ ch'.peerMaxPacketSz = mx ∧ c'.out = c.out := by
  have hi := reach_inv hw h
  have hf := hi.shape.findSelf_get hc
  rw [hid] at hf
  rcases parseConf_cases idx hl hlen with ⟨e, i', hp, hm'⟩ | ⟨id', peer', win', mx', hp, _, _, hm'⟩
  · have : confMsg ((mem.take len).drop idx) = none := hm'
    rw [hm] at this; cases this
  have hm2 : confMsg ((mem.take len).drop idx) = some (id', peer', win', mx') := hm'
  rw [hm] at hm2
  simp only [Option.some.injEq, Prod.mk.injEq] at hm2
  obtain ⟨rfl, rfl, rfl, rfl⟩ := hm2
  unfold doOpenConf
  rw [hp]
  simp only
  rw [hf]
  cases cb with
  | none => exact ⟨_, _, updatePeer ch peer win mx, rfl, rfl, hid, rfl, rfl, rfl, rfl⟩
  | some e => exact ⟨_, _, updatePeer ch peer win mx, rfl, rfl, hid, rfl, rfl, rfl, rfl⟩

/-- C19: every data or stderr message any step queues comes from a call of a send function, is for an
open channel, and fits that channel's send window, the peer's maximum packet size and this side's. -/
theorem C19_packet (hw : window < 2^32) (h : Reach server window maxPacket c) {x : In} (hx : WellFormed c x)
    (hs : step c x = some c') (m : OutMsg) (hm : m ∈ queuedBy c x) (hd : carriesData m = true) :
    isSend x = true ∧ ∃ ch ∈ c.chans, (m = .data ch.peerId (payload m) ∨ m = .ext ch.peerId (payload m)) ∧
      (payload m).length ≤ ch.peerWindowSz ∧ (payload m).length ≤ ch.peerMaxPacketSz ∧
      (payload m).length ≤ ch.maxPacketSz := by
  have hi := reach_inv hw h
  cases hsend : isSend x with
  | true =>
    refine ⟨rfl, ?_⟩
    have hx : ∀ k : List OutMsg, k = [] ∨ k = [.kexInit] → m ∉ k := by
      rintro k (rfl | rfl) hm
      · cases hm
      · rw [List.mem_singleton.1 hm] at hd; cases hd
    rcases send_queues hi hsend hs with h | ⟨k, a, hk, h, _, _, ch, h1, h2, h3, h4, h5, _⟩
    · obtain ⟨k, e, hk⟩ := h.grow
      rw [queued_eq hs e] at hm
      exact absurd hm (hx k hk)
    · rw [queued_eq hs h] at hm
      rcases List.mem_append.1 hm with hm | hm
      · exact absurd hm (hx k hk)
      · rw [List.mem_singleton.1 hm]
        exact ⟨ch, h1, h2, h3, h4, h5⟩
  | false =>
    have : ∃ l, c'.out = c.out ++ l ∧ ∀ m ∈ l, carriesData m = false := by
      cases hk : isKeyed x with
      | true => exact keyed_queues hi hk hs
      | false =>
        obtain ⟨l, e, f⟩ := step_calm hi hx hs hsend hk
        exact ⟨l, e, fun m hm => (f m hm).1⟩
    obtain ⟨l, e, f⟩ := this
    rw [queued_eq hs e] at hm
    rw [f m hm] at hd; cases hd

/-- A case for the three theorems: window 9; of 12 bytes offered 9 go out, after 2 more are granted
two more. -/
example : ∃ c, Reach true 4 100 c ∧
    (decide (c.out = [.openConf 5 0, .data 5 [1, 2, 3, 4, 5, 6, 7, 8, 9], .data 5 [10, 11]]) &&
     c.chans.any fun ch => decide (ch.id = 0 ∧ ch.peerWindowSz = 0 ∧ ch.peerMaxPacketSz = 100)) = true :=
  reach_any (xs := [openSession 4, .send false 0 [1, 2, 3, 4, 5, 6, 7, 8, 9, 10, 11, 12] {} {}, rxAdd 0 2,
    .streamSend false [10, 11, 12] {} {}]) (by decide +kernel)

/-- A case for `C19_confirmed`: a channel of its own, confirmed by the peer. -/
example : ∃ c, Reach false 4 100 c ∧
    (decide (confMsg (u32 0 ++ u32 7 ++ u32 9 ++ u32 100) = some (0, 7, 9, 100)) &&
     c.chans.any fun ch => decide (ch.id = 0 ∧ ch.peerId = 7 ∧ ch.peerWindowSz = 9)) = true :=
  reach_any (xs := [openOwn 4, rxConf 0 7]) (by decide +kernel)

/-- C20, for an EOF whose packet left the output buffer when it was queued: nothing is sent on the
channel from then on. The channel's log `tx` is on the wire in that order (`C20_log`). -/
theorem C20_quiet_partial (hw : window < 2^32) (h : Reach server window maxPacket c) {id : Nat} {xs : List In}
    (hr : Runs id c xs c') (hnc : ∀ x ∈ xs, confirms id x = false) (ch : Chan) (hc : ch ∈ c.chans) (hid : ch.id = id)
    (heof : .eof true ∈ ch.g.tx) : over (sentBy id) c xs = [] := by
  have hi := reach_inv hw h
  obtain ⟨ch', hm, _, _, _, _, _, _, _, t, et, _, ed⟩ := runs_sent hr hi hc hid hnc
  have hi' := runs_inv hr hi
  have hq := (hi'.good ch' hm).tx.quiet
  rw [et] at hq
  rw [quiet_tail hq heof] at ed
  exact List.length_eq_zero_iff.1 ed.symm

/-- C20: the log of a channel is what was queued for it, in order, and counts every byte sent. -/
theorem C20_log (hw : window < 2^32) (h : Reach server window maxPacket c) {id : Nat} {xs : List In}
    (hr : Runs id c xs c') (hnc : ∀ x ∈ xs, confirms id x = false) (ch : Chan) (hc : ch ∈ c.chans) (hid : ch.id = id) :
    ∃ ch' ∈ c'.chans, ch'.id = id ∧ ∃ l t, c'.out = c.out ++ l ∧ ch'.g.tx = ch.g.tx ++ t ∧
      (t.map (onWire ch.peerId)).Sublist l ∧ dataBytes t = (over (sentBy id) c xs).length := by
  obtain ⟨ch', hm, e1, _, _, _, l, e5, _, t, et, es, ed⟩ := runs_sent hr (reach_inv hw h) hc hid hnc
  exact ⟨ch', hm, e1, l, t, e5, et, es, ed⟩

/-- C20: after an EOF is sent on a channel, a send function refuses at once. -/
theorem C20_refused (c : Conn) (isExt : Bool) (id i : Nat) (ch : Chan) (data : Bytes) (e : SendEnv)
    (hf : findSelf c id = some (i, ch)) (hc : ch.openConfirmed = true) (hk : c.keying = false) (heof : ch.eofTxd = true) :
    channelSend isExt c id data {} e = (.error .eof, c) := by
  unfold channelSend sendData
  simp [hf, hc, hk, heof, flushed]

/-- C20 as stated fails: an EOF queued while the socket is full (`WS_WANT_WRITE`) is not remembered,
and data goes out after it. Here the peer closes its side, this side answers with EOF. -/
theorem C20_stalled_eof_then_data : ∃ c, Reach true 4 100 c ∧
    decide (c.out = [.openConf 5 0, .eof 5, .data 5 [7]]) = true :=
  reach_any (xs := [openSession 4, .rxEof (u32 0) 4 0 { sent := some .wantWrite }, .send false 0 [7] {} {}])
    (by decide +kernel)

/-- A case for `C20_quiet_partial` and `C20_refused`. -/
example : ∃ c, Reach true 4 100 c ∧
    (c.chans.any fun ch => decide (ch.id = 0 ∧ ch.peerWindowSz = 9 ∧ ch.openConfirmed = true ∧ ch.eofTxd = true ∧
      .eof true ∈ ch.g.tx)) = true :=
  reach_any (xs := [openSession 4, .rxEof (u32 0) 4 0 {}]) (by decide +kernel)

/-- C31: while a key exchange is in progress no step queues data, stderr data or a window adjustment,
and only its end ends it. -/
theorem C31_quiet_partial (hw : window < 2^32) (h : Reach server window maxPacket c) {x : In} (hx : WellFormed c x)
    (hs : step c x = some c') (hk : c.keying = true) (hx2 : isKeyed x = false) :
    c'.keying = true ∧ ∀ m ∈ queuedBy c x, isTraffic m = false := by
  have hi := reach_inv hw h
  cases hsend : isSend x with
  | true =>
    rcases send_queues hi hsend hs with h | ⟨k, a, _, _, hk', _⟩
    · rcases h.out with ⟨h1, h2⟩ | ⟨h1, _⟩
      · refine ⟨h1.trans hk, ?_⟩
        rw [queued_eq hs (l := []) (by rw [h2, List.append_nil])]; intro m hm; cases hm
      · rw [hk] at h1; cases h1
    · rw [hk] at hk'; cases hk'
  | false =>
    obtain ⟨h1, l, e, f⟩ := step_says hi hx hs hsend hx2
    refine ⟨h1 hk, fun m hm => ?_⟩
    rw [queued_eq hs e] at hm
    cases ht : isTraffic m with
    | false => rfl
    | true => have := (f m hm).2 ht; rw [hk] at this; cases this

/-- C31: at the end of the exchange, if sending works, no channel has credit parked any more (with
`C18_conserved` and `C18_credit_sent`: the peer has been sent all of it). -/
theorem C31_flushed (hw : window < 2^32) (h : Reach server window maxPacket c) (es : Nat → SendEnv)
    (hes : ∀ i, es i = {}) :
    (sendPendingWindowAdjust { c with keying := false } es).1 = none ∧
    ∀ c', step c (.keyed es) = some c' → ∀ ch ∈ c'.chans, ch.pending = 0 := by
  have hi : Inv { c with keying := false } := (reach_inv hw h).congr rfl rfl rfl rfl
  have := flush_fine hes c.chans.length 0 none hi rfl (Nat.zero_add _) (fun j hj => absurd hj (Nat.not_lt_zero j))
  have e : sendPendingWindowAdjust { c with keying := false } es =
      flushPending es c.chans.length 0 none { c with keying := false } := by
    unfold sendPendingWindowAdjust; simp
  refine ⟨by rw [e]; exact this.1, fun c' hs ch hc => ?_⟩
  simp only [step, Option.some.injEq] at hs
  rw [e] at hs
  subst hs
  exact this.2 ch hc

/-- C31 as stated (EOF included) fails: the answer to the peer's EOF is queued in the middle of a key
exchange. (OpenSSH and RFC 4253, section 7.1, forbid that.) -/
theorem C31_eof_during_rekey : ∃ c, Reach true 4 100 c ∧
    (c.keying && decide (c.out = [.openConf 5 0, .kexInit, .eof 5])) = true :=
  reach_any (xs := [openSession 4, .rekey, .rxEof (u32 0) 4 0 {}]) (by decide +kernel)

/-- A case for `C31_quiet_partial` and `C31_flushed`: four bytes read during the exchange, the credit
goes out at its end. -/
example : ∃ c, Reach true 4 100 c ∧
    (c.keying && decide (c.out = [.openConf 5 0, .kexInit]) && c.chans.any fun ch => decide (ch.pending = 4)) = true :=
  reach_any (xs := [openSession 4, rxBytes 0 [1, 2, 3, 4], .rekey, .read 0 4 {}]) (by decide +kernel)

example : ∃ c, Reach true 4 100 c ∧
    (decide (c.out = [.openConf 5 0, .kexInit, .adjust 5 4]) && c.chans.all fun ch => decide (ch.pending = 0)) = true :=
  reach_any (xs := [openSession 4, rxBytes 0 [1, 2, 3, 4], .rekey, .read 0 4 {}, .keyed fun _ => {}])
    (by decide +kernel)

/-- C31, what the partial theorem leaves out: a send function first writes out what is pending; if that
reaches the high-water mark, the callback starts a key exchange, and the data is queued after the
KEXINIT all the same. -/
theorem C31_data_after_kexinit : ∃ c, Reach true 4 100 c ∧
    (c.keying && decide (c.out = [.openConf 5 0, .kexInit, .data 5 [7]])) = true :=
  reach_any (xs := [openSession 4, .send false 0 [7] { keys := true } {}]) (by decide +kernel)

/-- C62, unless other output is pending and stalls: a send that reports `n` bytes has queued exactly
the first `n` bytes offered, in one message for the peer's end of the channel, and `n` is zero only if
nothing was offered. -/
theorem C62_reported_partial (hw : window < 2^32) (h : Reach server window maxPacket c) (isExt : Bool) (id : Nat)
    (data : Bytes) (flush : Flush) (e : SendEnv) (n : Nat) (hr : channelSend isExt c id data flush e = (.ok n, c'))
    (hf : flush.rest ≠ some .wantWrite) :
    n ≤ data.length ∧ (data ≠ [] → 0 < n) ∧ ∃ ch ∈ c.chans, ch.id = id ∧ ∃ k, (k = [] ∨ k = [.kexInit]) ∧
      queuedBy c (.send isExt id data flush e) =
        k ++ [if isExt then .ext ch.peerId (data.take n) else .data ch.peerId (data.take n)] := by
  have hi := reach_inv hw h
  have hs : step c (.send isExt id data flush e) = some c' := by simp only [step]; rw [hr]
  unfold channelSend at hr
  cases hq : findSelf c id with
  | none => rw [hq] at hr; cases hr
  | some q =>
    obtain ⟨i, ch⟩ := q
    rw [hq] at hr
    simp only at hr
    by_cases hcf : ch.openConfirmed = false
    · rw [if_pos hcf] at hr; cases hr
    rw [if_neg hcf] at hr
    have h1 := congrArg Prod.fst hr
    have h2 := congrArg Prod.snd hr
    simp only at h1 h2
    rcases sendData_eff (isExt := isExt) (c := c) (id := id) (data := data) (flush := flush) (e := e)
      (fun ch hc => (hi.good ch hc).tx.lt) with
      ⟨c1, _, _, ⟨r, h⟩ | ⟨_, h, _⟩⟩ | ⟨c1, i', ch', m, hfl, _, hq', _, _, _, _, hm, _, _, _, hpos, heff, hres⟩
    · rw [h] at h1; cases h1
    · exact absurd h hf
    · rw [hq] at hq'; cases hq'
      rcases hres with hres | ⟨r, _, _, hres⟩
      · rw [hres] at h1; cases h1
        obtain ⟨hc, hid⟩ := Shape.findSelf_some hq
        obtain ⟨k, hk, hk2⟩ := hfl.grow
        refine ⟨hm, hpos, ch, List.mem_of_getElem? hc, hid, k, hk2, queued_eq hs ?_⟩
        rw [← h2, heff, ← List.append_assoc, ← hk]
      · rw [hres] at h1; cases h1

/-- C62: a send that fails otherwise than in writing to the socket has queued none of the data. -/
theorem C62_failed (hw : window < 2^32) (h : Reach server window maxPacket c) (isExt : Bool) (id : Nat)
    (data : Bytes) (flush : Flush) (e : SendEnv) (r : Err) (hr : channelSend isExt c id data flush e = (.error r, c'))
    (he : e.sent ≠ some r) : ∀ m ∈ queuedBy c (.send isExt id data flush e), carriesData m = false := by
  have hi := reach_inv hw h
  have hs : step c (.send isExt id data flush e) = some c' := by simp only [step]; rw [hr]
  have key : Flushed c c' → ∀ m ∈ queuedBy c (.send isExt id data flush e), carriesData m = false := by
    intro hfl m hm
    obtain ⟨k, hk, hk2⟩ := hfl.grow
    rw [queued_eq hs hk] at hm
    rcases hk2 with rfl | rfl
    · cases hm
    · rw [List.mem_singleton.1 hm]; rfl
  unfold channelSend at hr
  cases hq : findSelf c id with
  | none => rw [hq] at hr; cases hr; exact key (.refl c)
  | some q =>
    obtain ⟨i, ch⟩ := q
    rw [hq] at hr
    simp only at hr
    by_cases hcf : ch.openConfirmed = false
    · rw [if_pos hcf] at hr; cases hr; exact key (.refl c)
    rw [if_neg hcf] at hr
    have h1 := congrArg Prod.fst hr
    have h2 := congrArg Prod.snd hr
    simp only at h1 h2
    rcases sendData_eff (isExt := isExt) (c := c) (id := id) (data := data) (flush := flush) (e := e)
      (fun ch hc => (hi.good ch hc).tx.lt) with
      ⟨c1, hfl, hc1, _⟩ | ⟨c1, i', ch', m, hfl, _, hq', _, _, _, _, hm, _, _, _, hpos, heff, hres⟩
    · rw [h2] at hc1; subst hc1; exact key hfl
    · rcases hres with hres | ⟨r', hr', _, hres⟩
      · rw [hres] at h1; cases h1
      · rw [hres] at h1; cases h1; exact absurd hr' he

/-- C62 as stated fails: other output is pending (a window adjustment, a reply) and the socket is full.
The send reports all its data as sent; none of it is queued. -/
theorem C62_lost : ∃ c, Reach true 4 100 c ∧
    ((channelSend false c 0 [7, 8] { rest := some .wantWrite } {}).1.toOption = some 2 ∧
      queuedBy c (.send false 0 [7, 8] { rest := some .wantWrite } {}) = []) := by
  obtain ⟨c, h, e⟩ := reach_any (server := true) (w := 4) (m := 100) (xs := [openSession 4])
    (P := fun c => decide ((channelSend false c 0 [7, 8] { rest := some .wantWrite } {}).1.toOption = some 2 ∧
      queuedBy c (.send false 0 [7, 8] { rest := some .wantWrite } {}) = [])) (by decide +kernel)
  exact ⟨c, h, of_decide_eq_true e⟩

/-- Cases for `C62_reported_partial` and `C62_failed`: two bytes accepted; refused, the window being
full. -/
example : ∃ c, Reach true 4 100 c ∧ decide ((channelSend false c 0 [7, 8] {} {}).1.toOption = some 2 ∧
    queuedBy c (.send false 0 [7, 8] {} {}) = [.data 5 [7, 8]]) = true :=
  reach_any (xs := [openSession 4]) (by decide +kernel)

example : ∃ c, Reach true 4 100 c ∧ decide ((channelSend false c 0 [7, 8] {} {}).1.toOption = none ∧
    queuedBy c (.send false 0 [7, 8] {} {}) = []) = true :=
  reach_any (xs := [openSession 4, .send false 0 [1, 2, 3, 4, 5, 6, 7, 8, 9] {} {}]) (by decide +kernel)

end Props.ChannelTx
