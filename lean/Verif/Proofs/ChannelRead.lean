import Verif.Proofs.ChannelOpen
/-! Reading keeps the channel invariant; the invariant of every reachable state. -/

namespace Wolf.Channel
open Wolf Wolf.Wire Wolf.NameList Wolf.Buffer Spec.Buffer Spec.Channel Props.Buffer

theorem read_prefix {b : Buf} (hb : Ok b) {n : Nat} (hn : n ≤ (unread b).length) :
    Wolf.Buffer.read b.mem b.idx n = some ((unread b).take n) := by
  have h1 := hb.cursor; have h2 := hb.fits; have h3 := hb.mem
  rw [unread_length hb] at hn
  unfold Wolf.Buffer.read unread
  rw [if_pos (by omega), List.take_take]
  congr 2; omega

theorem cmin_le (a b : Nat) : cmin a b ≤ a ∧ cmin a b ≤ b ∧ (cmin a b = a ∨ cmin a b = b) := by
  unfold cmin; split <;> omega

theorem takeBytes_rx {ch : Chan} (hg : RxGood ch) {d : Bytes} {n : Nat} (hn : n ≤ (unread ch.inBuf).length)
    (hd : d = (unread ch.inBuf).take n) :
    RxGood (takeBytes d ch) ∧ unread (takeBytes d ch).inBuf = (unread ch.inBuf).drop n := by
  have hl : d.length = n := by rw [hd, List.length_take]; omega
  obtain ⟨h1, h2⟩ := C38_consume ch.inBuf hg.inOk d.length (by omega)
  rw [hl] at h2
  have h3 : unread (takeBytes d ch).inBuf = (unread ch.inBuf).drop n := by
    show unread (consume ch.inBuf d.length) = _
    rw [hl]; exact h2
  refine ⟨?_, h3⟩
  exact {
    inOk := h1, inSz := hg.inSz, extOk := hg.extOk, window := hg.window, credit := hg.credit, pend := hg.pend
    stream := by
      rw [h3]
      show ch.g.got = (ch.g.taken ++ d) ++ (unread ch.inBuf).drop n
      rw [hd, List.append_assoc, List.take_append_drop]; exact hg.stream
    streamExt := hg.streamExt
    lostWhy := hg.lostWhy }

/-- Effect of `_ChannelRead`: the next unread bytes leave the buffer; they are returned unless the
window could not be credited. -/
theorem channelRead_eff {c : Conn} (hi : Inv c) {i : Nat} {ch : Chan} (h : c.chans[i]? = some ch) {n : Nat}
    (hn : n ≠ 0) (e : SendEnv) :
    ∃ r c' ch', channelRead c i n e = some (r, c') ∧ Inv c' ∧
      c'.chans = c.chans.set i ch' ∧ key ch' = key ch ∧ c'.keying = c.keying ∧
      unread ch'.inBuf = (unread ch.inBuf).drop n ∧ (unread ch'.ext = unread ch.ext ∧ ch'.g.gaveExt = ch.g.gaveExt ∧ ch'.g.initial = ch.g.initial ∧
        (ch'.windowSz ≠ 0 ∨ ch'.inBuf.idx = 0) ∧
        (c.keying = false → e = {} → ch.pending = 0 → ch'.pending = 0)) ∧
      ch'.g.taken = ch.g.taken ++ (unread ch.inBuf).take n ∧
      ((r = .ok ((unread ch.inBuf).take n) ∧ ch'.g.gave = ch.g.gave ++ (unread ch.inBuf).take n ∧
        ch'.g.failedReads = ch.g.failedReads) ∨
       (∃ x, r = .error x ∧ ch'.g.gave = ch.g.gave ∧ ch'.g.failedReads = ch.g.failedReads + 1 ∧
        (c.keying = false → e = {} → ch.pending = 0 → False))) := by
  have hg := hi.get h
  have hul := unread_length hg.rx.inOk
  have hu : sub32 ch.inBuf.length ch.inBuf.idx = (unread ch.inBuf).length := by
    rw [hul]; exact sub32_le hg.rx.inOk.cursor (by have := hg.rx.inOk.fits; have := hg.rx.inOk.size; omega)
  generalize hk : cmin n (unread ch.inBuf).length = k
  have hkle := cmin_le n (unread ch.inBuf).length
  rw [hk] at hkle
  have htk : (unread ch.inBuf).take k = (unread ch.inBuf).take n := by
    rcases hkle.2.2 with rfl | hh
    · rfl
    · rw [hh, List.take_length, List.take_of_length_le (by omega)]
  have hdk : (unread ch.inBuf).drop k = (unread ch.inBuf).drop n := by
    rcases hkle.2.2 with rfl | hh
    · rfl
    · rw [hh, List.drop_length, List.drop_of_length_le (by omega)]
  generalize hd : (unread ch.inBuf).take k = d at htk
  obtain ⟨hrx, hun⟩ := takeBytes_rx hg.rx hkle.2.1 hd.symm
  have hs1 : Shape (setChan c i (takeBytes d ch)) := hi.shape.set h rfl
  have hh1 := hg.handed
  unfold channelRead
  rw [h]
  simp only
  rw [if_neg hn, hu, hk]
  unfold readThenUpdate
  rw [read_prefix hg.rx.inOk hkle.2.1, Option.bind_some, hd]
  -- the state after the window update
  have hup : ∃ r c2 ch2, updateWindow (setChan c i (takeBytes d ch)) i e = some (r, c2) ∧
      (∃ out', c2 = { c with chans := c.chans.set i ch2, out := out' }) ∧ key ch2 = key ch ∧
      RxGood ch2 ∧ unread ch2.inBuf = (unread ch.inBuf).drop k ∧ (unread ch2.ext = unread ch.ext ∧ ch2.g.gaveExt = ch.g.gaveExt ∧ ch2.g.initial = ch.g.initial ∧
        (ch2.windowSz ≠ 0 ∨ ch2.inBuf.idx = 0) ∧
        (c.keying = false → e = {} → ch.pending = 0 → ch2.pending = 0 ∧ r = none)) ∧
      ch2.g.taken = ch.g.taken ++ d ∧ ch2.g.gave = ch.g.gave ∧
      ch2.g.failedReads = ch.g.failedReads ∧ (TxGood ch → TxGood ch2) ∧ ch2.id = ch.id := by
    rcases updateWindow_eff hs1 (get_set h) hrx e with ⟨hno, he⟩ | ⟨_, r, out', p', cr', lo', m, hcr, he, hrx2, hun2⟩
    · exact ⟨_, _, takeBytes d ch, he, ⟨c.out, rfl⟩, rfl, hrx, hun,
        ⟨rfl, rfl, rfl, .inl fun h0 => hno (.inr h0), fun _ _ h => ⟨h, rfl⟩⟩, rfl, rfl, rfl,
        fun ht => ⟨ht.balance, ht.lt, ht.sent, ht.quiet, ht.eof⟩, rfl⟩
    · refine ⟨r, _, opened (takeBytes d ch) m p' cr' lo', he, ⟨out', ?_⟩, rfl, hrx2, hun2.trans hun,
        ⟨rfl, rfl, rfl, .inr rfl, fun hk he hp => (fun h => ⟨h.2.1, h.1⟩) (hcr.fine hk he (by
          have h1 : ch.pending = 0 := hp
          have h2 := hrx.inOk.cursor; have h3 := hrx.inOk.fits; have h4 := hrx.inOk.size
          show ch.pending + (takeBytes d ch).inBuf.idx < 2^32
          omega))⟩, rfl, rfl, rfl,
        fun ht => ⟨ht.balance, ht.lt, ht.sent, ht.quiet, ht.eof⟩, rfl⟩
      simp [setChan]
  obtain ⟨r, c2, ch2, he, ⟨out', rfl⟩, hkey, hrx2, hun2, hex2, htk2, hgv2, hfr2, htx2, hid2⟩ := hup
  rw [he, Option.map_some]
  cases r with
  | none =>
    simp only
    rw [modChan_set h]
    refine ⟨_, _, (noteGave d ch2), rfl, ?_, rfl,
      hkey, rfl, hun2.trans hdk, ⟨hex2.1, hex2.2.1, hex2.2.2.1, hex2.2.2.2.1, fun h1 h2 h3 => (hex2.2.2.2.2 h1 h2 h3).1⟩,
      by rw [← htk]; exact htk2, .inl ⟨by rw [htk], ?_, hfr2⟩⟩
    · have ht := htx2 hg.tx
      refine hi.of_set h (ch' := (noteGave d ch2))
        hkey ?_ rfl rfl rfl rfl
      exact {
        rx := ⟨hrx2.inOk, hrx2.inSz, hrx2.extOk, hrx2.window, hrx2.credit, hrx2.pend, hrx2.stream, hrx2.streamExt, hrx2.lostWhy⟩
        handed := ⟨fun hf => by
            show ch2.g.gave ++ _ = ch2.g.taken
            rw [htk2, hgv2, hh1.all (by rw [← hfr2]; exact hf)], by
            show (ch2.g.gave ++ _).Sublist ch2.g.taken
            rw [htk2, hgv2]; exact hh1.sub.append (List.Sublist.refl _)⟩
        tx := ⟨ht.balance, ht.lt, ht.sent, ht.quiet, ht.eof⟩
        id := by show ch2.id < 2^32; rw [hid2]; exact hg.id }
    · show ch2.g.gave ++ _ = _
      rw [hgv2, htk]
  | some x =>
    simp only
    rw [modChan_set h]
    refine ⟨_, _, (noteFailed ch2), rfl, ?_, rfl,
      hkey, rfl, hun2.trans hdk, ⟨hex2.1, hex2.2.1, hex2.2.2.1, hex2.2.2.2.1, fun h1 h2 h3 => (hex2.2.2.2.2 h1 h2 h3).1⟩,
      by rw [← htk]; exact htk2, .inr ⟨x, rfl, hgv2, by show ch2.g.failedReads + 1 = _; rw [hfr2],
        fun h1 h2 h3 => nomatch (hex2.2.2.2.2 h1 h2 h3).2⟩⟩
    have ht := htx2 hg.tx
    refine hi.of_set h (ch' := (noteFailed ch2))
      hkey ?_ rfl rfl rfl rfl
    exact {
      rx := ⟨hrx2.inOk, hrx2.inSz, hrx2.extOk, hrx2.window, hrx2.credit, hrx2.pend, hrx2.stream, hrx2.streamExt, hrx2.lostWhy⟩
      handed := ⟨fun hf => by have hf : ch2.g.failedReads + 1 = 0 := hf; omega, by
          show ch2.g.gave.Sublist ch2.g.taken
          rw [htk2, hgv2]; exact hh1.sub.trans (List.sublist_append_left _ _)⟩
      tx := ⟨ht.balance, ht.lt, ht.sent, ht.quiet, ht.eof⟩
      id := by show ch2.id < 2^32; rw [hid2]; exact hg.id }

/-- Effect of the reading part of `wolfSSH_stream_read`. -/
theorem streamRead_eff {c : Conn} (hi : Inv c) (n : Nat) (e : SendEnv) :
    ∃ r c', streamRead c n e = some (r, c') ∧ Inv c' ∧ c'.keying = c.keying ∧
      ((c' = c ∧ ∃ x, r = .error x) ∨
       ∃ ch rest ch', c.chans = ch :: rest ∧ n ≠ 0 ∧ ch.eofRxd = false ∧ c.keying = false ∧ unread ch.inBuf ≠ [] ∧
        c'.chans = ch' :: rest ∧ key ch' = key ch ∧ (unread ch'.ext = unread ch.ext ∧ ch'.g.gaveExt = ch.g.gaveExt ∧ ch'.eofRxd = ch.eofRxd) ∧
        ((r = .ok ((unread ch.inBuf).take n) ∧ unread ch'.inBuf = (unread ch.inBuf).drop n ∧
          ch'.g.gave = ch.g.gave ++ (unread ch.inBuf).take n ∧
          ch'.g.taken = ch.g.taken ++ (unread ch.inBuf).take n ∧ ch'.g.failedReads = ch.g.failedReads) ∨
         (∃ x, r = .error x ∧ unread ch'.inBuf = unread ch.inBuf ∧ ch'.g.gave = ch.g.gave ∧
          ch'.g.taken = ch.g.taken ∧ ch'.g.failedReads = ch.g.failedReads))) := by
  unfold streamRead
  by_cases hn : n = 0
  · rw [if_pos hn]; exact ⟨_, _, rfl, hi, rfl, .inl ⟨rfl, _, rfl⟩⟩
  rw [if_neg hn]
  cases hcs : c.chans with
  | nil => exact ⟨_, _, rfl, hi, rfl, .inl ⟨rfl, _, rfl⟩⟩
  | cons ch rest =>
    simp only
    have h : c.chans[0]? = some ch := by rw [hcs]; rfl
    have hg := hi.get h
    by_cases hE : ch.eofRxd = true
    · rw [if_pos hE]; exact ⟨_, _, rfl, hi, rfl, .inl ⟨rfl, _, rfl⟩⟩
    rw [if_neg hE]
    by_cases hK : c.keying = true
    · rw [if_pos hK]; exact ⟨_, _, rfl, hi, rfl, .inl ⟨rfl, _, rfl⟩⟩
    rw [if_neg hK]
    have hul := unread_length hg.rx.inOk
    have hu : sub32 ch.inBuf.length ch.inBuf.idx = (unread ch.inBuf).length := by
      rw [hul]; exact sub32_le hg.rx.inOk.cursor (by have := hg.rx.inOk.fits; have := hg.rx.inOk.size; omega)
    rw [hu]
    generalize hk : cmin n (unread ch.inBuf).length = k
    have hkle := cmin_le n (unread ch.inBuf).length
    rw [hk] at hkle
    by_cases hk0 : k = 0
    · rw [if_pos hk0]; exact ⟨_, _, rfl, hi, rfl, .inl ⟨rfl, _, rfl⟩⟩
    rw [if_neg hk0]
    unfold updateThenRead
    rw [read_prefix hg.rx.inOk hkle.2.1, Option.bind_some]
    have htk : (unread ch.inBuf).take k = (unread ch.inBuf).take n := by
      rcases hkle.2.2 with rfl | hh
      · rfl
      · rw [hh, List.take_length, List.take_of_length_le (by omega)]
    have hdk : (unread ch.inBuf).drop k = (unread ch.inBuf).drop n := by
      rcases hkle.2.2 with rfl | hh
      · rfl
      · rw [hh, List.drop_length, List.drop_of_length_le (by omega)]
    generalize hd : (unread ch.inBuf).take k = d at htk
    have hne : unread ch.inBuf ≠ [] := by
      intro hnil; rw [hnil] at hkle; simp at hkle; omega
    have hup : ∃ r c2 ch2, updateWindow c 0 e = some (r, c2) ∧
        (∃ out', c2 = { c with chans := c.chans.set 0 ch2, out := out' }) ∧ key ch2 = key ch ∧
        RxGood ch2 ∧ unread ch2.inBuf = unread ch.inBuf ∧ (unread ch2.ext = unread ch.ext ∧ ch2.g.gaveExt = ch.g.gaveExt ∧ ch2.eofRxd = ch.eofRxd) ∧
        ch2.g.taken = ch.g.taken ∧ ch2.g.gave = ch.g.gave ∧
        ch2.g.failedReads = ch.g.failedReads ∧ TxGood ch2 ∧ ch2.id = ch.id := by
      rcases updateWindow_eff hi.shape h hg.rx e with ⟨_, he⟩ | ⟨_, r, out', p', cr', lo', m, _, he, hrx2, hun2⟩
      · exact ⟨_, _, ch, he, ⟨c.out, by rw [set_same h]⟩, rfl, hg.rx, rfl, ⟨rfl, rfl, rfl⟩, rfl, rfl, rfl, hg.tx, rfl⟩
      · exact ⟨r, _, opened ch m p' cr' lo', he, ⟨out', rfl⟩, rfl, hrx2, hun2, ⟨rfl, rfl, rfl⟩, rfl, rfl, rfl,
          ⟨hg.tx.balance, hg.tx.lt, hg.tx.sent, hg.tx.quiet, hg.tx.eof⟩, rfl⟩
    obtain ⟨r, c2, ch2, he, ⟨out', rfl⟩, hkey, hrx2, hun2, hex2, htk2, hgv2, hfr2, htx2, hid2⟩ := hup
    rw [he, Option.map_some]
    cases r with
    | some x =>
      refine ⟨_, _, rfl, ?_, rfl, .inr ⟨ch, rest, ch2, rfl, hn, by simpa using hE, by simpa using hK, hne, ?_, hkey, hex2,
        .inr ⟨x, rfl, hun2, hgv2, htk2, hfr2⟩⟩⟩
      · exact hi.of_set h (ch' := ch2) hkey ⟨hrx2, ⟨fun hf => by rw [hgv2, htk2]; exact hg.handed.all (by rw [← hfr2]; exact hf),
          by rw [hgv2, htk2]; exact hg.handed.sub⟩, htx2, by rw [hid2]; exact hg.id⟩ rfl rfl rfl rfl
      · show c.chans.set 0 ch2 = _
        rw [hcs]; rfl
    | none =>
      simp only
      rw [modChan_set h]
      obtain ⟨hrx3, hun3⟩ := takeBytes_rx hrx2 (n := k) (d := d) (by rw [hun2]; exact hkle.2.1) (by rw [hun2, hd])
      refine ⟨_, _, rfl, ?_, rfl, .inr ⟨ch, rest, noteGave d (takeBytes d ch2), rfl, hn,
        by simpa using hE, by simpa using hK, hne, ?_, hkey, hex2,
        .inl ⟨by rw [htk], by show unread (takeBytes d ch2).inBuf = _; rw [hun3, hun2, hdk], ?_, ?_, hfr2⟩⟩⟩
      · refine hi.of_set h (ch' := noteGave d (takeBytes d ch2)) hkey ?_ rfl rfl rfl rfl
        exact {
          rx := ⟨hrx3.inOk, hrx3.inSz, hrx3.extOk, hrx3.window, hrx3.credit, hrx3.pend, hrx3.stream, hrx3.streamExt, hrx3.lostWhy⟩
          handed := ⟨fun hf => by
              show ch2.g.gave ++ _ = ch2.g.taken ++ d
              rw [htk2, hgv2, hg.handed.all (by rw [← hfr2]; exact hf)], by
              show (ch2.g.gave ++ _).Sublist (ch2.g.taken ++ d)
              rw [htk2, hgv2]; exact hg.handed.sub.append (List.Sublist.refl _)⟩
          tx := ⟨htx2.balance, htx2.lt, htx2.sent, htx2.quiet, htx2.eof⟩
          id := by show ch2.id < 2^32; rw [hid2]; exact hg.id }
      · show c.chans.set 0 _ = _
        rw [hcs]; rfl
      · show ch2.g.gave ++ _ = _
        rw [hgv2, htk]
      · show ch2.g.taken ++ d = _
        rw [htk2, htk]

theorem channelIdRead_inv {c : Conn} (hi : Inv c) (id n : Nat) (e : SendEnv) :
    ∃ r c', channelIdRead c id n e = some (r, c') ∧ Inv c' := by
  unfold channelIdRead
  cases hf : findSelf c id with
  | none => exact ⟨_, _, rfl, hi⟩
  | some q =>
    obtain ⟨i, ch⟩ := q
    have hc := (Shape.findSelf_some hf).1
    simp only
    by_cases hn : n = 0
    · unfold channelRead
      rw [hc]
      simp only
      rw [if_pos hn]
      exact ⟨_, _, rfl, hi⟩
    · obtain ⟨r, c', ch', h1, h2, _⟩ := channelRead_eff hi hc hn e
      exact ⟨r, c', h1, h2⟩

end Wolf.Channel
