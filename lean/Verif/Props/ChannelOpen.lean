import Verif.Proofs.ChannelPermit
/-!
# C36, C43 to C45: opening and ending channels
-/

namespace Props.ChannelOpen
open Wolf Wolf.Channel Wolf.NameList Spec.Buffer Spec.Channel

variable {server : Bool} {window maxPacket : Nat} {c : Conn}

/-- C36: an open request is answered in one of two ways. Either no channel is made and the answer is a
failure for the sender's channel (which may not get out if a packet cannot be made), or the request is
permitted, one channel is made with the numbers of the request, and the answer is a confirmation. -/
theorem C36_answer (hw : window < 2^32) (h : Reach server window maxPacket c) (E : OpenEnv) (mem : Bytes) (len idx : Nat)
    (hx : WellFormed c (.rxOpen E mem len idx)) :
    ∃ r c', doOpen c E mem len idx = some (r, c') ∧
      (((∃ peer, Refused c E peer r c') ∧ openMsg ((mem.take len).drop idx) = none) ∨
       ∃ type peer win mx, openMsg ((mem.take len).drop idx) = some (type, peer, win, mx) ∧
         (Refused c E peer r c' ∨ (Permitted c E type ∧ Accepted c E peer win mx r c'))) := by
  have hi := reach_inv hw h
  obtain ⟨r, c', he, _⟩ := doOpen_inv hi E idx hx.1 hx.2.1 hx.2.2.1 hx.2.2.2
  exact ⟨r, c', he, doOpen_outcome hi hx.1 hx.2.1 hx.2.2.2 he⟩

/-- C36: the peer has at most one session channel. -/
theorem C36_one_session (hw : window < 2^32) (h : Reach server window maxPacket c) :
    (c.chans.filter fun ch => ch.g.byPeer && ch.ctype == ID_CHANTYPE_SESSION).length ≤ 1 := by
  have := (reach_inv hw h).sess
  rw [List.countP_map, List.countP_eq_length_filter] at this
  exact this

/-- C36 as stated (types fit for the role) fails: a client without a channel lets the server open a
session, which RFC 4254, section 6.1, tells clients to reject. -/
theorem C36_client_accepts_session : ∃ c, Reach false 4 100 c ∧
    decide (c.out = [.openConf 5 0] ∧ c.chans.length = 1) = true :=
  reach_any (xs := [openSession 4]) (by decide +kernel)

/-- Cases for `C36_answer`: a session is granted, a second one refused. -/
example : ∃ c, Reach true 4 100 c ∧ decide (c.out = [.openConf 5 0, .openFail 5 1] ∧ c.chans.length = 1) = true :=
  reach_any (xs := [openSession 4, openSession 4]) (by decide +kernel)

example : openMsg (u32 7 ++ asc "session" ++ u32 5 ++ u32 9 ++ u32 100) = some (asc "session", 5, 9, 100) := by
  decide +kernel

/-- C43: if no other channel has the same number on the peer's side, a successful
`wolfSSH_ChannelExit` sends EOF and close for the channel (unless sent before) and removes it and no
other. -/
theorem C43_exit_partial (hw : window < 2^32) (h : Reach server window maxPacket c) (i : Nat) (ch : Chan)
    (hc : c.chans[i]? = some ch) (hu : ∀ j d, c.chans[j]? = some d → d.peerId = ch.peerId → j = i) (e1 e2 : SendEnv)
    (hr : (channelExit c ch.id e1 e2).1 = none) :
    (channelExit c ch.id e1 e2).2.chans = c.chans.eraseIdx i ∧
    (channelExit c ch.id e1 e2).2.out = c.out ++ ((if ch.eofTxd then [] else [.eof ch.peerId]) ++
      if ch.closeTxd then [] else [.close ch.peerId]) :=
  channelExit_kept (reach_inv hw h).shape hc hu e1 e2 hr

/-- C43 as stated fails: `wolfSSH_ChannelExit` goes by the number the peer chose. Of two channels this
side has opened and the peer not yet confirmed (number 0 for both), an exit of the second closes and
removes the first. A peer that uses one number twice achieves the same. -/
theorem C43_exit_ends_another : ∃ c, Reach false 4 100 c ∧
    decide (c.chans.map (·.id) = [0, 1] ∧ (channelExit c 1 {} {}).1 = none ∧
      (channelExit c 1 {} {}).2.chans.map (·.id) = [1]) = true :=
  reach_any (xs := [openOwn 4, openOwn 4]) (by decide +kernel)

/-- A case for `C43_exit_partial`: two confirmed channels. -/
example : ∃ c, Reach false 4 100 c ∧
    decide (c.chans.map (fun ch => (ch.id, ch.peerId)) = [(0, 7), (1, 8)] ∧ (channelExit c 1 {} {}).1 = none ∧
      (channelExit c 1 {} {}).2.chans.map (·.id) = [0]) = true :=
  reach_any (xs := [openOwn 4, rxConf 0 7, openOwn 4, rxConf 1 8]) (by decide +kernel)

/-- C44: if the peer's number of the first channel happens to be the number of a channel on this side
that is not closed yet, and sending works, `wolfSSH_shutdown` sends EOF, exit status and close. -/
theorem C44_shutdown_partial (hw : window < 2^32) (h : Reach server window maxPacket c) (ch : Chan) (rest : List Chan)
    (hc : c.chans = ch :: rest) (d : Chan) (hd : d ∈ c.chans) (hid : d.id = ch.peerId) (hcl : d.closeTxd = false)
    (ww : Bool) (es : Nat → SendEnv) (hes : ∀ i, es i = {}) :
    (shutdown c ww es).1 = none ∧ (shutdown c ww es).2.out = c.out ++ ((if ch.eofTxd then [] else [.eof ch.peerId]) ++
      ([.request ch.peerId] ++ if ch.closeTxd then [] else [.close ch.peerId])) := by
  have hs := (reach_inv hw h).shape
  obtain ⟨j, hj⟩ := List.mem_iff_getElem?.1 hd
  have hf := hs.findSelf_get hj
  rw [hid] at hf
  exact shutdown_first hs hc hf hcl ww hes

/-- C44 as stated fails: the channel is looked up by the peer's number among this side's numbers. If
they differ (0 here, 5 there), `wolfSSH_shutdown` reports success and sends nothing. -/
theorem C44_shutdown_silent : ∃ c, Reach true 4 100 c ∧
    decide (c.chans.map (fun ch => (ch.id, ch.peerId, ch.closeTxd)) = [(0, 5, false)] ∧
      shutdown c false (fun _ => {}) = (none, c)) = true :=
  reach_any (xs := [openSession 4]) (by decide +kernel)

/-- A case for `C44_shutdown_partial`: both sides use number 0. -/
example : ∃ c, Reach false 4 100 c ∧
    decide (c.chans.map (fun ch => (ch.id, ch.peerId, ch.closeTxd)) = [(0, 0, false)] ∧
      (shutdown c false (fun _ => {})).2.out = [.openReq 0, .eof 0, .request 0, .close 0]) = true :=
  reach_any (xs := [openOwn 4, rxConf 0 0]) (by decide +kernel)

/-- C45: whatever the peer sends, the application does and the transport lets fail, handling it never
reads or writes outside a buffer and never searches for a number forever. -/
theorem C45_defined (hw : window < 2^32) (h : Reach server window maxPacket c) (x : In) (hx : WellFormed c x) :
    ∃ c', step c x = some c' ∧ Reach server window maxPacket c' := by
  obtain ⟨c', hs, _⟩ := step_inv (reach_inv hw h) x hx
  exact ⟨c', hs, .step h hx hs⟩

/-- A case for `C45_defined`: a full channel and one more byte for it. -/
example : ∃ c, Reach true 4 100 c ∧ checks c (rxBytes 0 [9]) = true :=
  reach_any (xs := [openSession 4, rxBytes 0 [1, 2, 3, 4]]) (by decide +kernel)

end Props.ChannelOpen
