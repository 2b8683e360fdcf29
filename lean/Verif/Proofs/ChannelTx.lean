import Verif.Proofs.ChannelRx
/-! Sending, closing, opening and reading keep the channel invariant. -/

namespace Wolf.Channel
open Wolf Wolf.Wire Wolf.NameList Wolf.Buffer Spec.Buffer Spec.Channel Props.Buffer

theorem sendEof_inv {c : Conn} (hi : Inv c) (p : Nat) (e : SendEnv) : Inv (sendEof c p e).2 := by
  unfold sendEof
  split
  · exact hi
  cases hf : findPeer c p with
  | none => exact hi
  | some q =>
    obtain ⟨i, ch⟩ := q
    have hc := (findPeer_some hf).1
    have hg := hi.get hc
    simp only
    split
    · exact hi
    split
    · exact hi
    · rename_i heof _
      have hno : Tx.eof true ∉ ch.g.tx := fun hm => heof (hg.tx.eof hm)
      refine hi.of_set hc (ch' := { (if e.sent = none then { ch with eofTxd := true } else ch) with
        g := { (if e.sent = none then { ch with eofTxd := true } else ch).g with
          tx := (if e.sent = none then { ch with eofTxd := true } else ch).g.tx ++ [.eof (e.sent == none)] } })
        ?_ ?_ rfl rfl rfl rfl
      · split <;> rfl
      · by_cases hs : e.sent = none
        · rw [if_pos hs, hs]
          exact {
            rx := ⟨hg.rx.inOk, hg.rx.inSz, hg.rx.extOk, hg.rx.window, hg.rx.credit, hg.rx.pend, hg.rx.stream, hg.rx.streamExt, hg.rx.lostWhy⟩
            handed := ⟨hg.handed.all, hg.handed.sub⟩
            tx := ⟨hg.tx.balance, hg.tx.lt, by
                show ch.g.sent = dataBytes (ch.g.tx ++ [.eof true])
                rw [dataBytes_append, ← hg.tx.sent]; rfl,
              quiet_append hg.tx.quiet (by simp [isData]), fun _ => rfl⟩
            id := hg.id }
        · rw [if_neg hs, show (e.sent == none) = false by cases hh : e.sent with | none => exact absurd hh hs | some x => rfl]
          exact {
            rx := ⟨hg.rx.inOk, hg.rx.inSz, hg.rx.extOk, hg.rx.window, hg.rx.credit, hg.rx.pend, hg.rx.stream, hg.rx.streamExt, hg.rx.lostWhy⟩
            handed := ⟨hg.handed.all, hg.handed.sub⟩
            tx := ⟨hg.tx.balance, hg.tx.lt, by
                show ch.g.sent = dataBytes (ch.g.tx ++ [.eof false])
                rw [dataBytes_append, ← hg.tx.sent]; rfl,
              quiet_append hg.tx.quiet (by simp [isData]), fun hm => by
                rcases List.mem_append.1 hm with hm | hm
                · exact hg.tx.eof hm
                · simp at hm⟩
            id := hg.id }

theorem sendRequest_inv {c : Conn} (hi : Inv c) (p : Nat) (e : SendEnv) : Inv (sendRequest c p e).2 := by
  unfold sendRequest
  cases hf : findPeer c p with
  | none => exact hi
  | some q =>
    simp only
    split
    · exact hi
    · exact hi.congr rfl rfl rfl rfl

theorem sendClose_inv {c : Conn} (hi : Inv c) (p : Nat) (e : SendEnv) : Inv (sendClose c p e).2 := by
  unfold sendClose
  cases hf : findPeer c p with
  | none => exact hi
  | some q =>
    obtain ⟨i, ch⟩ := q
    have hc := (findPeer_some hf).1
    have hg := hi.get hc
    simp only
    split
    · exact hi
    split
    · exact hi
    · refine hi.of_set hc (ch' := { ch with closeTxd := true, g := { ch.g with tx := ch.g.tx ++ [.close] } })
        rfl ?_ rfl rfl rfl rfl
      exact {
        rx := ⟨hg.rx.inOk, hg.rx.inSz, hg.rx.extOk, hg.rx.window, hg.rx.credit, hg.rx.pend, hg.rx.stream, hg.rx.streamExt, hg.rx.lostWhy⟩
        handed := ⟨hg.handed.all, hg.handed.sub⟩
        tx := ⟨hg.tx.balance, hg.tx.lt, by
            show ch.g.sent = dataBytes (ch.g.tx ++ [.close])
            rw [dataBytes_append, ← hg.tx.sent]; rfl,
          quiet_append hg.tx.quiet (by simp [isData]), fun hm => by
            rcases List.mem_append.1 hm with hm | hm
            · exact hg.tx.eof hm
            · simp at hm⟩
        id := hg.id }

/-- The channel after a data message of `bytes` went out. -/
def afterSend (isExt : Bool) (ch : Chan) (bytes : Bytes) : Chan :=
  { ch with peerWindowSz := ch.peerWindowSz - bytes.length,
            g := { ch.g with sent := ch.g.sent + bytes.length,
                             tx := ch.g.tx ++ [if isExt then .ext bytes else .data bytes] } }

/-- Nothing has changed, or a key exchange has started. -/
structure Flushed (c c1 : Conn) : Prop where
  same : c1 = { c with keying := c1.keying, out := c1.out }
  out : (c1.keying = c.keying ∧ c1.out = c.out) ∨ (c.keying = false ∧ c1.keying = true ∧ c1.out = c.out ++ [.kexInit])

theorem Flushed.refl (c : Conn) : Flushed c c := ⟨rfl, .inl ⟨rfl, rfl⟩⟩

theorem startKeying_flushed (c : Conn) : Flushed c (startKeying c) := by
  unfold startKeying
  by_cases hk : c.keying = true
  · rw [if_pos hk]; exact .refl c
  · rw [if_neg hk]; exact ⟨rfl, .inr ⟨by simpa using hk, rfl, rfl⟩⟩

theorem flushed_flushed (c : Conn) (f : Flush) : Flushed c (flushed c f) := by
  unfold flushed
  split
  · exact startKeying_flushed c
  · exact .refl c

theorem Flushed.chans {c c1 : Conn} (h : Flushed c c1) : c1.chans = c.chans := by rw [h.same]

theorem Flushed.find {c c1 : Conn} (h : Flushed c c1) (id : Nat) : findSelf c1 id = findSelf c id := by
  rw [h.same]; rfl

theorem Flushed.grow {c c1 : Conn} (h : Flushed c c1) : ∃ k, c1.out = c.out ++ k ∧ (k = [] ∨ k = [.kexInit]) := by
  rcases h.out with ⟨_, h⟩ | ⟨_, _, h⟩
  · exact ⟨[], by rw [h, List.append_nil], .inl rfl⟩
  · exact ⟨_, h, .inr rfl⟩

theorem Flushed.inv {c c1 : Conn} (h : Flushed c c1) (hi : Inv c) : Inv c1 :=
  hi.congr (by rw [h.same]) (by rw [h.same]) (by rw [h.same]) (by rw [h.same])

/-- `SendChannelData`: but for the flush nothing happens, or a prefix of the data goes out that fits
the peer's window and packet size. -/
theorem sendData_eff {isExt : Bool} {c : Conn} {id : Nat} {data : Bytes} {flush : Flush} {e : SendEnv}
    (hlt : ∀ ch ∈ c.chans, ch.peerWindowSz < 2^32) :
    (∃ c1, Flushed c c1 ∧ (sendData isExt c id data flush e).2 = c1 ∧
      ((∃ r, (sendData isExt c id data flush e).1 = .error r) ∨
       (flush.plain = none ∧ flush.rest = some .wantWrite ∧ c.keying = false ∧
         (sendData isExt c id data flush e).1 = .ok data.length))) ∨
    (∃ c1 i ch n, Flushed c c1 ∧ c1 = flushed c flush ∧ findSelf c id = some (i, ch) ∧ c.keying = false ∧
      (flush.plain = none ∧ flush.rest = none) ∧ e.prep = none ∧
      ch.eofTxd = false ∧ n ≤ data.length ∧ n ≤ ch.peerWindowSz ∧
      n ≤ ch.peerMaxPacketSz ∧ n ≤ ch.maxPacketSz ∧ (data ≠ [] → 0 < n) ∧
      (sendData isExt c id data flush e).2 = { c1 with
        chans := c.chans.set i (afterSend isExt ch (data.take n)),
        out := c1.out ++ [if isExt then .ext ch.peerId (data.take n) else .data ch.peerId (data.take n)] } ∧
      ((sendData isExt c id data flush e).1 = .ok n ∨
       ∃ r, e.sent = some r ∧ r ≠ .wantWrite ∧ (sendData isExt c id data flush e).1 = .error r)) := by
  unfold sendData
  by_cases hk : c.keying = true
  · rw [if_pos hk]; exact .inl ⟨_, .refl c, rfl, .inl ⟨_, rfl⟩⟩
  rw [if_neg hk]
  have hfl := flushed_flushed c flush
  simp only
  cases hp1 : flush.plain with
  | some r => exact .inl ⟨_, hfl, rfl, .inl ⟨_, rfl⟩⟩
  | none =>
  cases hp2 : flush.rest with
  | some r =>
    by_cases hr : r = .wantWrite
    · subst hr; exact .inl ⟨_, hfl, rfl, .inr ⟨rfl, rfl, by simpa using hk, rfl⟩⟩
    · refine .inl ⟨_, hfl, ?_, .inl ⟨r, ?_⟩⟩ <;> cases r <;> first | rfl | exact absurd rfl hr
  | none =>
    simp only
    generalize hc1 : flushed c flush = c1 at hfl
    rw [hfl.find]
    have hch := hfl.chans
    cases hf : findSelf c id with
    | none => exact .inl ⟨_, hfl, rfl, .inl ⟨_, rfl⟩⟩
    | some q =>
      obtain ⟨i, ch⟩ := q
      have hc := (Shape.findSelf_some hf).1
      have hw := hlt ch (List.mem_of_getElem? hc)
      simp only
      by_cases he : ch.eofTxd = true
      · rw [if_pos he]; exact .inl ⟨_, hfl, rfl, .inl ⟨_, rfl⟩⟩
      rw [if_neg he]
      by_cases hz : ch.peerWindowSz = 0
      · rw [if_pos hz]; exact .inl ⟨_, hfl, rfl, .inl ⟨_, rfl⟩⟩
      rw [if_neg hz]
      generalize hb : cmin (cmin ch.peerWindowSz ch.peerMaxPacketSz) ch.maxPacketSz = bound
      have hb1 : bound ≤ ch.peerWindowSz ∧ bound ≤ ch.peerMaxPacketSz ∧ bound ≤ ch.maxPacketSz := by
        rw [← hb]; unfold cmin; split <;> split <;> omega
      by_cases hz2 : bound = 0 ∧ data.length ≠ 0
      · rw [if_pos hz2]; exact .inl ⟨_, hfl, rfl, .inl ⟨_, rfl⟩⟩
      rw [if_neg hz2]
      generalize hn : (if data.length > bound then bound else data.length) = n
      have hn1 : n ≤ bound ∧ n ≤ data.length ∧ (data ≠ [] → 0 < n) := by
        rw [← hn]
        have : data ≠ [] → 0 < data.length := List.length_pos_iff.2
        split <;> refine ⟨by omega, by omega, fun h => ?_⟩ <;> have := this h <;> omega
      cases hp : e.prep with
      | some r => exact .inl ⟨_, hfl, rfl, .inl ⟨_, rfl⟩⟩
      | none =>
        refine .inr ⟨c1, i, ch, n, hfl, rfl, rfl, by simpa using hk, ⟨trivial, trivial⟩, rfl, by simpa using he, hn1.2.1, by omega, by omega,
          by omega, hn1.2.2, ?_, ?_⟩
        · have hl : (data.take n).length = n := by simp; omega
          have hs : sub32 ch.peerWindowSz n = ch.peerWindowSz - n := sub32_le (by omega) hw
          simp only [hs]
          cases hse : e.sent with
          | none => simp only [noteTx, afterSend, setChan, hl, hch]
          | some r => cases r <;> simp only [noteTx, afterSend, setChan, hl, hch]
        · cases hse : e.sent with
          | none => exact .inl rfl
          | some r =>
            by_cases hr : r = .wantWrite
            · subst hr; exact .inl rfl
            · refine .inr ⟨r, rfl, hr, ?_⟩
              cases r <;> first | rfl | exact absurd rfl hr

theorem afterSend_good {isExt : Bool} {ch : Chan} {bytes : Bytes} (hg : Good ch) (he : ch.eofTxd = false)
    (hb : bytes.length ≤ ch.peerWindowSz) : Good (afterSend isExt ch bytes) := by
  have h1 := hg.tx.balance
  have h2 := hg.tx.lt
  have hno : Tx.eof true ∉ ch.g.tx := fun hm => by rw [hg.tx.eof hm] at he; cases he
  exact {
    rx := ⟨hg.rx.inOk, hg.rx.inSz, hg.rx.extOk, hg.rx.window, hg.rx.credit, hg.rx.pend, hg.rx.stream, hg.rx.streamExt, hg.rx.lostWhy⟩
    handed := ⟨hg.handed.all, hg.handed.sub⟩
    tx := ⟨by
        show ch.g.granted = ch.g.sent + bytes.length + (ch.peerWindowSz - bytes.length)
        omega, by
        show ch.peerWindowSz - bytes.length < 2^32
        omega, by
        show ch.g.sent + bytes.length = dataBytes (ch.g.tx ++ [if isExt then .ext bytes else .data bytes])
        rw [dataBytes_append, ← hg.tx.sent]; cases isExt <;> rfl,
      quiet_append hg.tx.quiet (fun _ => hno), fun hm => by
        rcases List.mem_append.1 hm with hm | hm
        · exact absurd hm hno
        · cases isExt <;> simp at hm⟩
    id := hg.id }

theorem sendData_inv {c : Conn} (hi : Inv c) (isExt : Bool) (id : Nat) (data : Bytes) (flush : Flush)
    (e : SendEnv) : Inv (sendData isExt c id data flush e).2 := by
  rcases sendData_eff (isExt := isExt) (id := id) (data := data) (flush := flush) (e := e)
    (fun ch hc => (hi.good ch hc).tx.lt) with ⟨c1, hf, h, _⟩ | ⟨c1, i, ch, n, hfl, _, hf, _, _, _, he, hn, hw, _, _, _, h, _⟩
  · rw [h]; exact hf.inv hi
  · rw [h]
    have hc := (Shape.findSelf_some hf).1
    have hl : (data.take n).length = n := by simp; omega
    exact hi.of_set hc (ch' := afterSend isExt ch (data.take n)) rfl
      (afterSend_good (hi.get hc) he (by omega)) rfl (by rw [hfl.same]) (by rw [hfl.same]) (by rw [hfl.same])

theorem channelSend_inv {c : Conn} (hi : Inv c) (isExt : Bool) (id : Nat) (data : Bytes) (flush : Flush)
    (e : SendEnv) : Inv (channelSend isExt c id data flush e).2 := by
  unfold channelSend
  cases findSelf c id with
  | none => exact hi
  | some q =>
    simp only
    split
    · exact hi
    · exact sendData_inv hi _ _ _ _ _

theorem streamSend_inv {c : Conn} (hi : Inv c) (isExt : Bool) (data : Bytes) (flush : Flush)
    (e : SendEnv) : Inv (streamSend isExt c data flush e).2 := by
  unfold streamSend
  split
  · exact hi
  · split
    · exact hi
    · exact sendData_inv hi _ _ _ _ _

/-! ## Removing -/

theorem remove_inv {c : Conn} (hi : Inv c) (p : Chan → Bool) : Inv (remove c p).2 := by
  unfold remove
  split
  · exact hi
  · cases hf : findLoop p c.chans c.listSz 0 with
    | none => exact hi
    | some q =>
      obtain ⟨i, ch⟩ := q
      obtain ⟨_, h2, _, h4, _⟩ := findLoop_some hf
      simp only [Nat.sub_zero] at h2 h4
      have hil := (List.getElem?_eq_some_iff.1 h2).1
      have hc := hi.shape.count
      have hfew := hi.shape.few
      have hlen : (c.chans.eraseIdx i).length = c.chans.length - 1 := List.length_eraseIdx_of_lt hil
      have hsub : (c.chans.eraseIdx i).Sublist c.chans := List.eraseIdx_sublist _ _
      exact {
        shape := ⟨by
            show sub32 c.listSz 1 = (c.chans.eraseIdx i).length
            rw [hlen, hc]; exact sub32_le (by omega) (by omega), by
            show (c.chans.eraseIdx i).length < 2^32
            omega, (hsub.map _).nodup hi.shape.nodup⟩
        good := fun d hd => hi.good d (hsub.subset hd)
        next := hi.next
        win := hi.win
        sess := Nat.le_trans ((hsub.map key).countP_le) hi.sess }

theorem doEof_inv {c : Conn} (hi : Inv c) {mem : Bytes} {len : Nat} (idx : Nat)
    (hl : len ≤ mem.length) (hw : len < 2^32) (e : SendEnv) :
    ∃ r c', doEof c mem len idx e = some (r, c') ∧ Inv c' := by
  unfold doEof
  rcases getUint32_cases idx hl hw with ⟨e', i, h, _⟩ | ⟨id, h, _, _, _⟩
  · rw [h]; exact ⟨_, _, rfl, hi⟩
  rw [h]
  simp only
  cases hf : findSelf c id with
  | none => exact ⟨_, _, rfl, hi⟩
  | some q =>
    obtain ⟨i, ch⟩ := q
    have hc := (Shape.findSelf_some hf).1
    have hg := hi.get hc
    have h1 : Inv (setChan c i { ch with eofRxd := true }) :=
      hi.of_set hc (ch' := { ch with eofRxd := true }) rfl
        ⟨⟨hg.rx.inOk, hg.rx.inSz, hg.rx.extOk, hg.rx.window, hg.rx.credit, hg.rx.pend, hg.rx.stream, hg.rx.streamExt, hg.rx.lostWhy⟩,
         hg.handed, ⟨hg.tx.balance, hg.tx.lt, hg.tx.sent, hg.tx.quiet, hg.tx.eof⟩, hg.id⟩ rfl rfl rfl rfl
    refine ⟨_, _, rfl, ?_⟩
    by_cases h : ch.eofTxd = false
    · simp only [if_pos h]
      exact (sendEof_inv h1 ch.peerId e).congr rfl rfl rfl rfl
    · simp only [if_neg h]
      exact h1.congr rfl rfl rfl rfl

theorem doClose_inv {c : Conn} (hi : Inv c) {mem : Bytes} {len : Nat} (idx : Nat)
    (hl : len ≤ mem.length) (hw : len < 2^32) (e : SendEnv) :
    ∃ r c', doClose c mem len idx e = some (r, c') ∧ Inv c' := by
  unfold doClose
  rcases getUint32_cases idx hl hw with ⟨e', i, h, _⟩ | ⟨id, h, _, _, _⟩
  · rw [h]; exact ⟨_, _, rfl, hi⟩
  rw [h]
  simp only
  cases hf : findSelf c id with
  | none => exact ⟨_, _, rfl, hi⟩
  | some q =>
    obtain ⟨i, ch⟩ := q
    simp only
    generalize hrc : (if ch.closeTxd = false then sendClose c ch.peerId e else (none, c)) = rc
    have h1 : Inv rc.2 := by
      rw [← hrc]; split
      · exact sendClose_inv hi _ _
      · exact hi
    cases rc.1 with
    | some e => exact ⟨_, _, rfl, h1⟩
    | none =>
      simp only
      have h2 : Inv (removeSelf rc.2 id).2 := remove_inv h1 _
      generalize removeSelf rc.2 id = rr at h2
      cases rr.1 with
      | some e => exact ⟨_, _, rfl, h2⟩
      | none => exact ⟨_, _, rfl, h2.congr rfl rfl rfl rfl⟩

theorem doOpenFail_inv {c : Conn} (hi : Inv c) {mem : Bytes} {len : Nat} (idx : Nat)
    (hl : len ≤ mem.length) (hw : len < 2^32) (cb : Option Ret) :
    ∃ r c', doOpenFail c mem len idx cb = some (r, c') ∧ Inv c' := by
  unfold doOpenFail
  cases hp : parseFail mem len idx with
  | ub => exact absurd hp (parseFail_ne_ub hl hw)
  | err e i => exact ⟨_, _, rfl, hi⟩
  | ok id b =>
    simp only
    split
    · exact ⟨_, _, rfl, hi⟩
    · have h2 : Inv (removeSelf c id).2 := remove_inv hi _
      generalize removeSelf c id = rr at h2
      cases rr.1 with
      | some e => exact ⟨_, _, rfl, h2⟩
      | none => exact ⟨_, _, rfl, h2⟩

theorem updatePeer_good {ch : Chan} (hg : Good ch) (peer win mx : Nat) (hw : win < 2^32) :
    Good (updatePeer ch peer win mx) where
  rx := ⟨hg.rx.inOk, hg.rx.inSz, hg.rx.extOk, hg.rx.window, hg.rx.credit, hg.rx.pend, hg.rx.stream, hg.rx.streamExt, hg.rx.lostWhy⟩
  handed := ⟨hg.handed.all, hg.handed.sub⟩
  tx := ⟨rfl, hw, hg.tx.sent, hg.tx.quiet, hg.tx.eof⟩
  id := hg.id

theorem doOpenConf_inv {c : Conn} (hi : Inv c) {mem : Bytes} {len : Nat} (idx : Nat)
    (hl : len ≤ mem.length) (hw : len < 2^32) (cb : Ret) :
    ∃ r c', doOpenConf c mem len idx cb = some (r, c') ∧ Inv c' := by
  unfold doOpenConf
  rcases parseConf_cases idx hl hw with ⟨e', i, h, _⟩ | ⟨id, peer, win, mx, h, _, hwin, _⟩
  · rw [h]; exact ⟨_, _, rfl, hi⟩
  rw [h]
  simp only
  cases hf : findSelf c id with
  | none => exact ⟨_, _, rfl, hi⟩
  | some q =>
    obtain ⟨i, ch⟩ := q
    have hc := (Shape.findSelf_some hf).1
    have h1 : Inv (setChan c i (updatePeer ch peer win mx)) :=
      hi.of_set hc (ch' := updatePeer ch peer win mx) rfl (updatePeer_good (hi.get hc) _ _ _ hwin) rfl rfl rfl rfl
    cases cb with
    | some e => exact ⟨_, _, rfl, h1⟩
    | none => exact ⟨_, _, rfl, h1.congr rfl rfl rfl rfl⟩

end Wolf.Channel
