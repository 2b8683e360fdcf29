import Verif.Proofs.ChannelRun
/-!
# C15 to C18, C21, C22: channels, receiving side

`Reach server window maxPacket c`: the session `c` can be reached from a fresh one by any sequence of
messages from the peer, calls by the application, key exchanges and send failures.
-/

namespace Props.Channel
open Wolf Wolf.Channel Wolf.NameList Spec.Buffer Spec.Channel

variable {server : Bool} {window maxPacket : Nat} {c : Conn}

/-- C15: channels have distinct numbers (also after the 32-bit counter wraps), looking one up by its
number finds it, looking up any other number finds nothing. -/
theorem C15_ids (hw : window < 2^32) (h : Reach server window maxPacket c) :
    (c.chans.map (·.id)).Nodup ∧
    (∀ i ch, c.chans[i]? = some ch → findSelf c ch.id = some (i, ch)) ∧
    (∀ id, (∀ ch ∈ c.chans, ch.id ≠ id) → findSelf c id = none) := by
  have hi := reach_inv hw h
  refine ⟨hi.shape.nodup, fun i ch hc => hi.shape.findSelf_get hc, fun id hn => ?_⟩
  cases hf : findSelf c id with
  | none => rfl
  | some q =>
    obtain ⟨h1, h2⟩ := Shape.findSelf_some hf
    exact absurd h2 (hn _ (List.mem_of_getElem? h1))

/-- C15: the search for an unused number always ends with one. -/
theorem C15_new_id (hw : window < 2^32) (h : Reach server window maxPacket c)
    (hroom : c.chans.length + 1 < 2^32) (ctype mx : Nat) (buffer : Bytes) (byPeer : Bool) :
    ∃ ch c', channelNew c ctype c.ctxWindow mx (some buffer) byPeer = some (some ch, c') ∧
      ch.id < 2^32 ∧ ∀ d ∈ c.chans, d.id ≠ ch.id := by
  rcases channelNew_eff (reach_inv hw h) hroom ctype mx (some buffer) byPeer with ⟨hb, _⟩ | ⟨bm, id, _, hid, hf, hn⟩
  · cases hb
  · exact ⟨_, _, hn, hid, hf⟩

/-- Two channels, the counter about to wrap: `C15_new_id` finds 2. -/
example : (channelNew { fresh true 4 100 with
      chans := [0, 1].map fun i => { id := i, ctype := 220, windowSz := 4, maxPacketSz := 9,
                                     inBuf := ⟨[], 0, 0, 0, false⟩, ext := ⟨[], 0, 0, 0, false⟩ },
      listSz := 2, nextChannel := 4294967295 } 220 4 100 (some [0, 0, 0, 0]) true).map
        (fun r => r.1.map (·.id)) = some (some 4294967295) ∧
    (channelNew { fresh true 4 100 with
      chans := [0, 1].map fun i => { id := i, ctype := 220, windowSz := 4, maxPacketSz := 9,
                                     inBuf := ⟨[], 0, 0, 0, false⟩, ext := ⟨[], 0, 0, 0, false⟩ },
      listSz := 2, nextChannel := 0 } 220 4 100 (some [0, 0, 0, 0]) true).map
        (fun r => r.1.map (·.id)) = some (some 2) := by decide +kernel

/-- C16: what a channel holds fits its buffer, which has the size of the initial window, and the
peer has sent no more than was advertised to it plus credit this side still keeps back (parked during
a key exchange or after a failed send, or lost). -/
theorem C16_bound_partial (hw : window < 2^32) (h : Reach server window maxPacket c) :
    ∀ ch ∈ c.chans, Ok ch.inBuf ∧ ch.inBuf.bufferSz = ch.g.initial ∧
      (unread ch.inBuf).length + (unread ch.ext).length ≤ ch.g.initial ∧
      taken ch ≤ advertised ch + ch.pending + ch.g.lost := by
  intro ch hc
  have hg := ((reach_inv hw h).good ch hc).rx
  have h1 := hg.window
  have h2 := hg.credit
  have h3 := Props.Buffer.unread_length hg.inOk
  refine ⟨hg.inOk, hg.inSz, by omega, ?_⟩
  unfold taken advertised
  omega

/-- C16: data that goes beyond that is refused and nothing is stored. -/
theorem C16_refused_partial (hw : window < 2^32) (h : Reach server window maxPacket c) (mem : Bytes) (len idx : Nat)
    (hl : len ≤ mem.length) (hlen : len < 2^32) (id : Nat) (b : Bytes)
    (hm : dataMsg ((mem.take len).drop idx) = some (id, b))
    (ch : Chan) (hc : ch ∈ c.chans) (hid : ch.id = id)
    (hover : advertised ch + ch.pending + ch.g.lost < taken ch + b.length) :
    ∃ r, doData c mem len idx = some (some r, c) ∧ r ≠ .chanRxd := by
  have hi := reach_inv hw h
  have hg := (hi.good ch hc).rx
  obtain ⟨i, hci⟩ := List.mem_iff_getElem?.1 hc
  have hf := hi.shape.findSelf_get hci
  rw [hid] at hf
  rcases parseData_cases idx hl hlen with ⟨e, i', hp, hm'⟩ | ⟨id', n, hp, _, hn, hle, hm'⟩
  · have : dataMsg ((mem.take len).drop idx) = none := hm'
    rw [hm] at this; cases this
  have hm2 : dataMsg ((mem.take len).drop idx) = some (id', (mem.drop (idx + 8)).take n) := hm'
  rw [hm] at hm2
  simp only [Option.some.injEq, Prod.mk.injEq] at hm2
  obtain ⟨rfl, rfl⟩ := hm2
  have hbl : ((mem.drop (idx + 8)).take n).length = n := by rw [List.length_take, List.length_drop]; omega
  unfold doData
  rw [hp]
  simp only
  rw [if_neg (by omega), hf]
  simp only
  by_cases hmx : n > ch.maxPacketSz
  · rw [if_pos hmx]; exact ⟨_, rfl, by simp⟩
  rw [if_neg hmx]
  obtain ⟨hsl, hsn⟩ := slice_some (show idx + 8 + n ≤ mem.length by omega)
  rw [hsl]
  simp only
  have hgt : ((mem.drop (idx + 8)).take n).length > ch.windowSz := by
    have h2 := hg.credit
    unfold advertised taken at hover
    omega
  unfold putData
  rw [if_pos hgt]
  exact ⟨_, rfl, by simp⟩

/-- C16: the same for stderr data and for any other extended data. -/
theorem C16_ext_refused_partial (hw : window < 2^32) (h : Reach server window maxPacket c)
    (alloc : Nat → Option Bytes) (e : SendEnv) (mem : Bytes) (len idx : Nat)
    (hl : len ≤ mem.length) (hlen : len < 2^32) (id code : Nat) (b : Bytes)
    (hm : extMsg ((mem.take len).drop idx) = some (id, code, b))
    (ch : Chan) (hc : ch ∈ c.chans) (hid : ch.id = id)
    (hover : advertised ch + ch.pending + ch.g.lost < taken ch + b.length) :
    doExtData alloc c mem len idx e = some (some .recvOverflow, c) := by
  have hi := reach_inv hw h
  have hg := (hi.good ch hc).rx
  obtain ⟨i, hci⟩ := List.mem_iff_getElem?.1 hc
  have hf := hi.shape.findSelf_get hci
  rw [hid] at hf
  rcases parseExt_cases idx hl hlen with ⟨e, i', hp, hm'⟩ | ⟨id', code', n, hp, _, hn, hle, hm'⟩
  · have : extMsg ((mem.take len).drop idx) = none := hm'
    rw [hm] at this; cases this
  have hm2 : extMsg ((mem.take len).drop idx) = some (id', code', (mem.drop (idx + 12)).take n) := hm'
  rw [hm] at hm2
  simp only [Option.some.injEq, Prod.mk.injEq] at hm2
  obtain ⟨rfl, rfl, rfl⟩ := hm2
  have hbl : ((mem.drop (idx + 12)).take n).length = n := by rw [List.length_take, List.length_drop]; omega
  unfold doExtData
  rw [hp]
  simp only
  rw [hf]
  simp only
  by_cases hmx : n > ch.maxPacketSz
  · rw [if_pos hmx]
  rw [if_neg hmx, if_pos]
  have h2 := hg.credit
  unfold advertised taken at hover
  omega

/-- C16 as stated (beyond what was advertised) fails: during a key exchange a read opens the local
window at once although the credit is only parked, so the peer can send a fifth byte on a channel
for which it was told of four. -/
theorem C16_parked_credit_overrun : ∃ c, Reach true 4 100 c ∧
    (c.chans.any fun ch => decide (taken ch = 5 ∧ advertised ch = 4 ∧ ch.pending = 4)) = true :=
  reach_any (xs := [openSession 4, rxBytes 0 [1, 2, 3, 4], .rekey, .read 0 4 {}, rxBytes 0 [9]])
    (by decide +kernel)

/-- A case for the two refusals: four bytes are there, a fifth comes. -/
example : ∃ c, Reach true 4 100 c ∧
    (decide (dataMsg (u32 0 ++ u32 1 ++ [9]) = some (0, [9])) &&
     c.chans.any fun ch => decide (ch.id = 0 ∧ advertised ch + ch.pending + ch.g.lost < taken ch + [9].length)) = true :=
  reach_any (xs := [openSession 4, rxBytes 0 [1, 2, 3, 4]]) (by decide +kernel)

/-- C17: from the opening of a channel on, the data returned by reads, followed by what is still in
the buffer, is exactly the data accepted from the peer, if no read of the channel failed. Stderr data
likewise, whatever fails. `c0` is any state without the channel, `c1` the one after the step that
creates it, and `xs` what happens while it is open. -/
theorem C17_stream_partial (hw : window < 2^32) {c0 c1 : Conn} (h0 : Reach server window maxPacket c0) {x : In}
    (hx : WellFormed c0 x) (hs : step c0 x = some c1) {id : Nat} (hnew : ¬ Has id c0)
    {xs : List In} (hr : Runs id c1 xs c) :
    ∃ ch ∈ c.chans, ch.id = id ∧
      (NoFailedRead id c1 xs →
        over (acceptedBy id) c1 xs = over (returnedBy id) c1 xs ++ unread ch.inBuf) ∧
      (over (returnedBy id) c1 xs).Sublist (over (acceptedBy id) c1 xs) ∧
      over (acceptedExtBy id) c1 xs = over (returnedExtBy id) c1 xs ++ unread ch.ext := by
  have hi0 := reach_inv hw h0
  obtain ⟨c1', hs', hi1⟩ := step_inv hi0 x hx
  rw [hs] at hs'; cases hs'
  have hhas : Has id c1 := by cases hr <;> assumption
  obtain ⟨ch1, hm1, hid1⟩ := hhas
  rcases step_hist hi0 hx hs ch1 hm1 with ⟨ch0, hm0, hd⟩ | ⟨_, hb⟩
  · exact absurd ⟨ch0, hm0, by rw [← hid1]; exact hd.id.symm⟩ hnew
  obtain ⟨hi, ch, hm, e1, e2, e3, e4, e5, e6⟩ := runs_hist hr hi1 hm1 hid1
  have hg := hi.good ch hm
  rw [hb.got, List.nil_append] at e2
  rw [hb.gotExt, List.nil_append] at e3
  rw [hb.gave, List.nil_append] at e4
  rw [hb.gaveExt, List.nil_append] at e5
  refine ⟨ch, hm, e1, fun hn => ?_, ?_, ?_⟩
  · rw [← e2, ← e4, hg.rx.stream, hg.handed.all ((e6 hn).trans hb.failed)]
  · rw [← e2, ← e4, hg.rx.stream]
    exact hg.handed.sub.trans (List.sublist_append_left _ _)
  · rw [← e3, ← e5]; exact hg.rx.streamExt

/-- C17 as stated fails: `wolfSSH_ChannelIdRead` takes the bytes out of the buffer, then reports the
result of the window adjustment instead of them. A full socket (`WS_WANT_WRITE`) loses four bytes. -/
theorem C17_stalled_read_loses_bytes :
    ((runC (fresh true 4 100) [openSession 4, rxBytes 0 [1, 2, 3, 4]]).bind fun c =>
      (channelIdRead c 0 4 { sent := some .wantWrite }).bind fun r =>
        (channelIdRead r.2 0 4 {}).map fun r2 => (r.1, r2.1)) =
    some (.error .wantWrite, .ok []) := by decide +kernel

/-- `wolfSSH_stream_read` reports end of file although bytes are waiting: the peer's EOF overtakes the
data it follows. (`wolfSSH_ChannelIdRead` still returns them.) -/
theorem C17_eof_hides_data :
    ((runC (fresh true 4 100) [openSession 4, rxBytes 0 [1, 2, 3, 4], .rxEof (u32 0) 4 0 {}]).bind fun c =>
      (streamRead c 4 {}).map fun r => (r.1, r.2.chans.map fun ch => unread ch.inBuf)) =
    some (.error .eof, [[1, 2, 3, 4]]) := by decide +kernel

/-- A case for `C17_stream_partial`: four bytes come, three are read. -/
example : ∃ c c', Reach true 4 100 c ∧ Runs 0 c [rxBytes 0 [1, 2, 3, 4], .read 0 3 {}] c' ∧
    over (acceptedBy 0) c [rxBytes 0 [1, 2, 3, 4], .read 0 3 {}] = [1, 2, 3, 4] ∧
    over (returnedBy 0) c [rxBytes 0 [1, 2, 3, 4], .read 0 3 {}] = [1, 2, 3] := by
  obtain ⟨c, h1, h2⟩ := reach_any (server := true) (w := 4) (m := 100) (xs := [openSession 4])
    (P := fun c => runC (fresh true 4 100) [openSession 4] == some c) (by decide +kernel)
  have e := beq_iff_eq.1 h2
  have hc : c = (runC (fresh true 4 100) [openSession 4]).get (by decide +kernel) := by simp [e]
  obtain ⟨c1, e1⟩ : ∃ c1, step c (rxBytes 0 [1, 2, 3, 4]) = some c1 := by
    rw [hc]; exact Option.isSome_iff_exists.1 (by decide +kernel)
  have hc1 : c1 = ((runC (fresh true 4 100) [openSession 4]).bind fun c => step c (rxBytes 0 [1, 2, 3, 4])).get (by decide +kernel) := by
    simp [e, e1]
  obtain ⟨c2, e2⟩ : ∃ c2, step c1 (.read 0 3 {}) = some c2 := by
    rw [hc1]; exact Option.isSome_iff_exists.1 (by decide +kernel)
  have hc2 : c2 = ((runC (fresh true 4 100) [openSession 4]).bind fun c => (step c (rxBytes 0 [1, 2, 3, 4])).bind
      fun c => step c (.read 0 3 {})).get (by decide +kernel) := by
    simp [e, e1, e2]
  refine ⟨c, c2, h1, .cons ?_ ?_ e1 (.cons ?_ trivial e2 (.nil ?_)), ?_, ?_⟩
  · unfold Has; rw [hc]; decide +kernel
  · exact checks_wf (by rw [hc]; decide +kernel)
  · unfold Has; rw [hc1]; decide +kernel
  · unfold Has; rw [hc2]; decide +kernel
  · rw [hc]; decide +kernel
  · rw [hc]; decide +kernel

/-- C18: the open window, what is in the buffers and what has been read but not given back always
add up to the initial window (`inBuf.length` counts unread and read but not yet compacted bytes), and
what was ever advertised and what is parked or lost add up to the open window and what was taken. -/
theorem C18_conserved (hw : window < 2^32) (h : Reach server window maxPacket c) :
    ∀ ch ∈ c.chans,
      ch.windowSz + ((unread ch.inBuf).length + ch.inBuf.idx) + (unread ch.ext).length = ch.g.initial ∧
      advertised ch + ch.pending + ch.g.lost = ch.windowSz + taken ch := by
  intro ch hc
  have hg := ((reach_inv hw h).good ch hc).rx
  have h1 := hg.window
  have h3 := Props.Buffer.unread_length hg.inOk
  have := hg.inOk.cursor
  exact ⟨by omega, hg.credit⟩

/-- C18: credit is lost only when more than 2^32 bytes have been received on the channel. -/
theorem C18_lost (hw : window < 2^32) (h : Reach server window maxPacket c) :
    ∀ ch ∈ c.chans, taken ch < 2^32 → ch.g.lost = 0 := by
  intro ch hc
  exact ((reach_inv hw h).good ch hc).rx.lostWhy

/-- C18: what counts as credited has been queued for the peer in window adjustments, each once; the
initial window is the one the channel was created with. -/
theorem C18_credit_sent (hw : window < 2^32) (h : Reach server window maxPacket c) {id : Nat} {xs : List In} {c' : Conn}
    (hr : Runs id c xs c') (hnc : ∀ x ∈ xs, confirms id x = false) (ch : Chan) (hc : ch ∈ c.chans) (hid : ch.id = id) :
    ∃ ch' ∈ c'.chans, ch'.id = id ∧ ch'.g.initial = ch.g.initial ∧
      ∃ l, c'.out = c.out ++ l ∧ ∃ ks : List Nat, ch'.g.credited = ch.g.credited + ks.sum ∧
        (ks.map (OutMsg.adjust ch.peerId)).Sublist l := by
  obtain ⟨ch', hm, e1, _, e3, _, l, e5, e6, _⟩ := runs_sent hr (reach_inv hw h) hc hid hnc
  exact ⟨ch', hm, e1, e3, l, e5, e6⟩

/-- C18: a read while nothing hinders sending gives the credit back at once. -/
example : ∃ c, Reach true 4 100 c ∧
    (c.out.getLast? == some (.adjust 5 4) &&
     c.chans.any fun ch => decide (taken ch = 4 ∧ advertised ch = 8 ∧ ch.pending = 0 ∧ ch.windowSz = 4)) = true :=
  reach_any (xs := [openSession 4, rxBytes 0 [1, 2, 3, 4], .read 0 4 {}]) (by decide +kernel)

/-- C21 for `wolfSSH_ChannelIdRead`: when a read has emptied the channel, its window is open; and if
nothing is parked or lost and nothing hinders sending, the peer knows. -/
theorem C21_drained_partial (hw : window < 2^32) (h : Reach server window maxPacket c) (id n : Nat) (hn : n ≠ 0)
    (e : SendEnv) (ch : Chan) (hc : ch ∈ c.chans) (hid : ch.id = id) (hpos : 0 < ch.g.initial)
    (hext : unread ch.ext = []) (hall : (unread ch.inBuf).length ≤ n) :
    ∃ r c' ch', channelIdRead c id n e = some (r, c') ∧ ch' ∈ c'.chans ∧ ch'.id = id ∧
      unread ch'.inBuf = [] ∧ 0 < ch'.windowSz ∧
      (c.keying = false → e = {} → ch.pending = 0 → taken ch' < 2^32 →
        r = .ok (unread ch.inBuf) ∧ taken ch' < advertised ch') := by
  have hi := reach_inv hw h
  obtain ⟨i, hci⟩ := List.mem_iff_getElem?.1 hc
  have hf := hi.shape.findSelf_get hci
  rw [hid] at hf
  obtain ⟨r, c', ch', h1, h2, h3, h4, h5, h6, ⟨h7, h8, h9, h10, h11⟩, h12, h13⟩ := channelRead_eff hi hci hn e
  have hci' : c'.chans[i]? = some ch' := by rw [h3]; exact get_set hci
  have hg := (h2.get hci').rx
  have hu : unread ch'.inBuf = [] := by rw [h6]; exact List.drop_eq_nil_of_le hall
  have hul := Props.Buffer.unread_length hg.inOk
  rw [hu] at hul
  have hwin := hg.window
  have hcr := hg.credit
  rw [h7, hext] at hwin
  simp only [List.length_nil] at hwin hul
  have hcur := hg.inOk.cursor
  have hpw : 0 < ch'.windowSz := by
    rcases h10 with h | h
    · omega
    · rw [h9] at hwin; omega
  refine ⟨r, c', ch', ?_, List.mem_of_getElem? hci', ?_, hu, hpw, fun hk he hp ht => ⟨?_, ?_⟩⟩
  · unfold channelIdRead; rw [hf]; exact h1
  · rw [← hid]; exact congrArg Prod.fst h4
  · rcases h13 with ⟨hr, _⟩ | ⟨x, hr, h14⟩
    · rw [hr, List.take_of_length_le hall]
    · exact (h14.2.2 hk he hp).elim
  · have := h11 hk he hp
    have hl := hg.lostWhy ht
    unfold advertised taken
    omega

set_option synthInstance.maxSize 2000 in
set_option synthInstance.maxHeartbeats 200000 in
/-- C21 as stated fails for `wolfSSH_stream_read`: it opens the window before it takes the bytes out
of the buffer, so a read that empties a full window gives nothing back; the peer is left with a
closed window, and the next read only waits for data. -/
theorem C21_stream_read_starves :
    ((runC (fresh true 4 100) [openSession 4, rxBytes 0 [1, 2, 3, 4]]).bind fun c =>
      (streamRead c 4 {}).bind fun r => (streamRead r.2 4 {}).map fun r2 =>
        (r.1, r2.1, r2.2.chans.map fun ch => (unread ch.inBuf, ch.windowSz, advertised ch, taken ch), r2.2.out)) =
    some (.ok [1, 2, 3, 4], .error .wantRead, [([], 0, 4, 4)], [.openConf 5 0]) := by decide +kernel

/-- A case for `C21_drained_partial`. -/
example : ∃ c, Reach true 4 100 c ∧
    (!c.keying && c.chans.any fun ch => decide (ch.id = 0 ∧ 0 < ch.g.initial ∧ unread ch.ext = [] ∧
      (unread ch.inBuf).length ≤ 9 ∧ ch.pending = 0 ∧ ch.windowSz = 0)) = true :=
  reach_any (xs := [openSession 4, rxBytes 0 [1, 2, 3, 4]]) (by decide +kernel)

/-- C22: a window adjustment that would take the window past 2^32-1 is refused and changes nothing;
any other raises the window of the channel it names by exactly its amount. -/
theorem C22_adjust (hw : window < 2^32) (h : Reach server window maxPacket c) (mem : Bytes) (len idx : Nat)
    (hl : len ≤ mem.length) (hlen : len < 2^32) (id n : Nat)
    (hm : adjustMsg ((mem.take len).drop idx) = some (id, n))
    (i : Nat) (ch : Chan) (hc : c.chans[i]? = some ch) (hid : ch.id = id) :
    (2^32 ≤ ch.peerWindowSz + n → doWindowAdjust c mem len idx = some (some .overflowE, c)) ∧
    (ch.peerWindowSz + n < 2^32 → ∃ c' ch', doWindowAdjust c mem len idx = some (none, c') ∧
      c'.chans = c.chans.set i ch' ∧ ch'.id = id ∧ ch'.peerWindowSz = ch.peerWindowSz + n ∧
      ch'.peerMaxPacketSz = ch.peerMaxPacketSz ∧ ch'.peerId = ch.peerId ∧ c'.out = c.out) := by
  have hi := reach_inv hw h
  have hlt := (hi.get hc).tx.lt
  have hf := hi.shape.findSelf_get hc
  rw [hid] at hf
  rcases parseAdjust_cases idx hl hlen with ⟨e, i', hp, hm'⟩ | ⟨id', n', hp, _, hn, hm'⟩
  · have : adjustMsg ((mem.take len).drop idx) = none := hm'
    rw [hm] at this; cases this
  have hm2 : adjustMsg ((mem.take len).drop idx) = some (id', n') := hm'
  rw [hm] at hm2
  simp only [Option.some.injEq, Prod.mk.injEq] at hm2
  obtain ⟨rfl, rfl⟩ := hm2
  have hs : sub32 4294967295 ch.peerWindowSz = 4294967295 - ch.peerWindowSz := by unfold sub32; omega
  unfold doWindowAdjust
  rw [hp]
  simp only
  rw [hf]
  simp only [hs]
  refine ⟨fun ho => by rw [if_pos (by omega)], fun ho => ?_⟩
  rw [if_neg (by omega)]
  have ha : add32 ch.peerWindowSz n = ch.peerWindowSz + n := by unfold add32; omega
  unfold addPeerWindow
  rw [ha]
  exact ⟨_, { ch with peerWindowSz := ch.peerWindowSz + n, g := { ch.g with granted := ch.g.granted + n } }, rfl, rfl,
    hid, rfl, rfl, rfl, rfl⟩

/-- A case for both halves of `C22_adjust`: a window of 9 raised by 200, and by 2^32-1. -/
example : ∃ c, Reach true 4 100 c ∧
    (decide (adjustMsg (u32 0 ++ u32 200) = some (0, 200)) &&
     decide (adjustMsg (u32 0 ++ [255, 255, 255, 255]) = some (0, 4294967295)) &&
     c.chans.any fun ch => decide (ch.id = 0 ∧ ch.peerWindowSz = 9)) = true :=
  reach_any (xs := [openSession 4]) (by decide +kernel)

end Props.Channel
