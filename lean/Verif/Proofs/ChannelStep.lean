import Verif.Proofs.ChannelRead
/-! Every step keeps the channel invariant and is defined. -/

namespace Wolf.Channel
open Wolf Wolf.Wire Wolf.NameList Wolf.Buffer Spec.Buffer Spec.Channel Props.Buffer

/-- The channel after stderr bytes were taken. -/
def tookExt (b : Buf) (d : Bytes) (n : Nat) (ch : Chan) : Chan :=
  { ch with ext := b, windowSz := ch.windowSz + n, g := { ch.g with gaveExt := ch.g.gaveExt ++ d } }

/-- The same with the credit accounts moved on. -/
def creditedExt (b : Buf) (d : Bytes) (n p cr lo : Nat) (ch : Chan) : Chan :=
  { tookExt b d n ch with
    pending := p
    g := { (tookExt b d n ch).g with credited := cr, lost := lo } }

/-- Effect of reading stderr: the next bytes, in order, and the window opens by as many. -/
theorem readExt_eff {static : Bytes} (hst : static.length = 16) {c : Conn} (hi : Inv c) {i : Nat} {ch : Chan}
    (h : c.chans[i]? = some ch) {n : Nat} (hn : n ≤ (unread ch.ext).length) (e : SendEnv) :
    ∃ c' ch', readExt static c i ch n e = some (.ok ((unread ch.ext).take n), c') ∧ Inv c' ∧
      c'.chans = c.chans.set i ch' ∧ key ch' = key ch ∧ c'.keying = c.keying ∧
      unread ch'.ext = (unread ch.ext).drop n ∧ (unread ch'.inBuf = unread ch.inBuf ∧ ch'.g.taken = ch.g.taken ∧ ch'.g.gave = ch.g.gave ∧ ch'.g.failedReads = ch.g.failedReads) ∧
      ch'.g.gaveExt = ch.g.gaveExt ++ (unread ch.ext).take n := by
  have hg := hi.get h
  unfold readExt
  rw [read_prefix hg.rx.extOk hn, Option.bind_some]
  by_cases hz : n > 0
  · rw [if_pos hz]
    obtain ⟨hok, hun⟩ := C38_consume ch.ext hg.rx.extOk n hn
    have hdr : ∃ b, drained static (consume ch.ext n) = some b ∧ Ok b ∧ unread b = (unread ch.ext).drop n := by
      unfold drained
      split
      · rename_i hq
        obtain ⟨b, h1, h2, h3⟩ := C38_shrink_partial static hst _ hok (.inr (.inl hq))
        exact ⟨b, h1, h2, h3.trans hun⟩
      · exact ⟨_, rfl, hok, hun⟩
    obtain ⟨b, hb, hbok, hbun⟩ := hdr
    rw [hb, Option.map_some]
    generalize hd : (unread ch.ext).take n = d
    have hdl : d.length = n := by rw [← hd, List.length_take]; omega
    have hwin := hg.rx.window
    have hcr := hg.rx.credit
    have hsz := hg.rx.inOk.size
    have hbz := hg.rx.inSz
    have hul := congrArg List.length hbun
    rw [List.length_drop] at hul
    have ha : add32 ch.windowSz d.length = ch.windowSz + n := by unfold add32; omega
    have et : takeExt b d ch = tookExt b d n ch := by unfold takeExt tookExt; rw [ha]
    rw [et]
    have hs : Shape (setChan c i (tookExt b d n ch)) := hi.shape.set h rfl
    obtain ⟨r, out', p', cr', lo', he, hc⟩ := creditWindow_eff hs (amount := n) (get_set h) hg.rx.pend e
    rw [he]
    have hsum := hc.sum
    simp only [tookExt] at hsum
    refine ⟨_, (creditedExt b d n p' cr' lo' ch), rfl, ?_, ?_, rfl, rfl,
        hbun, ⟨rfl, rfl, rfl, rfl⟩, rfl⟩
    · refine hi.of_set h (ch' := (creditedExt b d n p' cr' lo' ch)) rfl ?_ ?_ rfl rfl rfl
      · exact {
          rx := {
            inOk := hg.rx.inOk, inSz := hg.rx.inSz, extOk := hbok
            window := by
              show ch.windowSz + n + ch.inBuf.length + (unread b).length = ch.g.initial
              omega
            credit := by
              show ch.g.initial + cr' + p' + lo' = ch.windowSz + n + (ch.g.got.length + ch.g.gotExt.length + ch.g.dropped)
              omega
            pend := hc.lt
            stream := hg.rx.stream
            streamExt := by
              show ch.g.gotExt = ch.g.gaveExt ++ d ++ unread b
              rw [hbun, ← hd, List.append_assoc, List.take_append_drop]; exact hg.rx.streamExt
            lostWhy := by
              intro (ht : ch.g.got.length + ch.g.gotExt.length + ch.g.dropped < 2^32)
              have h0 := hg.rx.lostWhy ht
              show lo' = 0
              exact (hc.kept (by show ch.pending + n < 2^32; omega)).trans h0 }
          handed := ⟨hg.handed.all, hg.handed.sub⟩
          tx := ⟨hg.tx.balance, hg.tx.lt, hg.tx.sent, hg.tx.quiet, hg.tx.eof⟩
          id := hg.id }
      · show (c.chans.set i _).set i _ = _
        rw [List.set_set]; rfl
    · show (c.chans.set i _).set i _ = _
      rw [List.set_set]; rfl
  · rw [if_neg hz]
    have h0 : n = 0 := by omega
    subst h0
    exact ⟨c, ch, rfl, hi, (set_same h).symm, rfl, rfl, rfl, ⟨rfl, rfl, rfl, rfl⟩, by simp⟩

theorem channelReadExt_inv {static : Bytes} (hst : static.length = 16) {c : Conn} (hi : Inv c) (id n : Nat)
    (e : SendEnv) : ∃ r c', channelReadExt static c id n e = some (r, c') ∧ Inv c' := by
  unfold channelReadExt
  cases hf : findSelf c id with
  | none => exact ⟨_, _, rfl, hi⟩
  | some q =>
    obtain ⟨i, ch⟩ := q
    have hc := (Shape.findSelf_some hf).1
    have hg := hi.get hc
    simp only
    split
    · exact ⟨_, _, rfl, hi⟩
    split
    · exact ⟨_, _, rfl, hi⟩
    · have hu : sub32 ch.ext.length ch.ext.idx = (unread ch.ext).length := by
        rw [unread_length hg.rx.extOk]
        exact sub32_le hg.rx.extOk.cursor (by have := hg.rx.extOk.fits; have := hg.rx.extOk.size; omega)
      rw [hu]
      obtain ⟨c', ch', h1, h2, _⟩ := readExt_eff hst hi hc (cmin_le n (unread ch.ext).length).2.1 e
      exact ⟨_, _, h1, h2⟩

theorem creditZero_inv {c : Conn} (hi : Inv c) {i : Nat} {ch : Chan} (h : c.chans[i]? = some ch)
    (e : SendEnv) : Inv (creditWindow c i 0 e).2 := by
  have hg := hi.get h
  refine credit_inv hi.shape h hg.rx.pend e ?_ ?_
  · intro ch' hk hg' out'
    exact hi.of_set h (ch' := ch') hk hg' rfl rfl rfl rfl
  · intro p' cr' lo' hsum hlt hk
    have hcr := hg.rx.credit
    exact {
      rx := ⟨hg.rx.inOk, hg.rx.inSz, hg.rx.extOk, hg.rx.window, by
          show ch.g.initial + cr' + p' + lo' = ch.windowSz + (ch.g.got.length + ch.g.gotExt.length + ch.g.dropped)
          omega, hlt, hg.rx.stream, hg.rx.streamExt, by
          intro (ht : ch.g.got.length + ch.g.gotExt.length + ch.g.dropped < 2^32)
          show lo' = 0
          exact (hk hg.rx.pend).trans (hg.rx.lostWhy ht)⟩
      handed := ⟨hg.handed.all, hg.handed.sub⟩
      tx := ⟨hg.tx.balance, hg.tx.lt, hg.tx.sent, hg.tx.quiet, hg.tx.eof⟩
      id := hg.id }

theorem flushPending_inv (es : Nat → SendEnv) (n i : Nat) (ret : Ret) {c : Conn} (hi : Inv c) :
    Inv (flushPending es n i ret c).2 := by
  induction n generalizing i ret c with
  | zero => exact hi
  | succ n ih =>
    unfold flushPending
    cases h : c.chans[i]? with
    | none => exact hi
    | some ch =>
      simp only
      split
      · exact ih _ _ (creditZero_inv hi h _)
      · exact ih _ _ hi

theorem andThen_inv {a : Ret × Conn} {f : Conn → Ret × Conn} (ha : Inv a.2) (hf : ∀ c, Inv c → Inv (f c).2) :
    Inv (andThen a f).2 := by
  unfold andThen
  split
  · exact hf _ ha
  · exact ha

theorem channelExit_inv {c : Conn} (hi : Inv c) (id : Nat) (e1 e2 : SendEnv) :
    Inv (channelExit c id e1 e2).2 := by
  unfold channelExit
  cases findSelf c id with
  | none => exact hi
  | some q =>
    exact andThen_inv (sendEof_inv hi _ _) fun _ h1 =>
      andThen_inv (sendClose_inv h1 _ _) fun _ h2 => remove_inv h2 _

theorem streamExit_inv {c : Conn} (hi : Inv c) (o : Bool) (es : Nat → SendEnv) :
    Inv (streamExit c o es).2 := by
  unfold streamExit
  split
  · exact hi
  · refine andThen_inv (sendRequest_inv hi _ _) fun c1 h1 => ?_
    refine andThen_inv ?_ fun _ h2 =>
      andThen_inv (sendEof_inv h2 _ _) fun _ h3 => sendClose_inv h3 _ _
    split
    · exact sendRequest_inv h1 _ _
    · exact h1

theorem shutdown_inv {c : Conn} (hi : Inv c) (ww : Bool) (es : Nat → SendEnv) : Inv (shutdown c ww es).2 := by
  unfold shutdown
  cases c.chans with
  | nil => exact hi
  | cons ch rest =>
    simp only
    cases findSelf c ch.peerId with
    | none => exact hi
    | some q =>
      simp only
      split
      · exact hi
      · have h1 := sendEof_inv hi ch.peerId (es 0)
        generalize sendEof c ch.peerId (es 0) = r1 at h1
        generalize hr2 : (if decide (r1.1 = none ∨ (r1.1 ≠ some Err.badArgument ∧ ww = true)) = true then
          sendRequest r1.2 ch.peerId (es 1) else r1) = r2
        have h2 : Inv r2.2 := by
          rw [← hr2]; split
          · exact sendRequest_inv h1 _ _
          · exact h1
        split
        · exact sendClose_inv h2 _ _
        · exact h2

/-- Every step is defined and keeps the invariant. -/
theorem step_inv {c : Conn} (hi : Inv c) (x : In) (hx : WellFormed c x) : ∃ c', step c x = some c' ∧ Inv c' := by
  have lift : ∀ {α : Type} (o : Option (α × Conn)), (∃ r c', o = some (r, c') ∧ Inv c') →
      ∃ c', o.map (·.2) = some c' ∧ Inv c' := by
    rintro α o ⟨r, c', rfl, h⟩; exact ⟨c', rfl, h⟩
  cases x with
  | rxOpen E mem len idx => exact lift _ (doOpen_inv hi E idx hx.1 hx.2.1 hx.2.2.1 hx.2.2.2)
  | rxOpenConf mem len idx cb => exact lift _ (doOpenConf_inv hi idx hx.1 hx.2 cb)
  | rxOpenFail mem len idx cb => exact lift _ (doOpenFail_inv hi idx hx.1 hx.2 cb)
  | rxAdjust mem len idx => exact lift _ (doWindowAdjust_inv hi idx hx.1 hx.2)
  | rxData mem len idx => exact lift _ (doData_inv hi idx hx.1 hx.2)
  | rxExt alloc mem len idx e => exact lift _ (doExtData_inv hi hx.2.2 idx hx.1 hx.2.1 e)
  | rxEof mem len idx e => exact lift _ (doEof_inv hi idx hx.1 hx.2 e)
  | rxClose mem len idx e => exact lift _ (doClose_inv hi idx hx.1 hx.2 e)
  | openLocal keep ctype buffer cb e => exact lift _ (openLocal_inv hi keep ctype buffer cb e hx.1 hx.2)
  | read id n e => exact lift _ (channelIdRead_inv hi id n e)
  | readExt static id n e => exact lift _ (channelReadExt_inv hx hi id n e)
  | streamRead n e =>
    obtain ⟨r, c', h1, h2, _⟩ := streamRead_eff hi n e
    exact lift _ ⟨r, c', h1, h2⟩
  | send isExt id data flush e => exact ⟨_, rfl, channelSend_inv hi _ _ _ _ _⟩
  | streamSend isExt data flush e => exact ⟨_, rfl, streamSend_inv hi _ _ _ _⟩
  | exit id e1 e2 => exact ⟨_, rfl, channelExit_inv hi _ _ _⟩
  | streamExit o es => exact ⟨_, rfl, streamExit_inv hi _ _⟩
  | shutdown ww es => exact ⟨_, rfl, shutdown_inv hi _ _⟩
  | free id => exact ⟨_, rfl, remove_inv hi _⟩
  | rekey => exact ⟨_, rfl, (startKeying_flushed c).inv hi⟩
  | keyed es =>
    refine ⟨_, rfl, ?_⟩
    have h1 : Inv { c with keying := false } := hi.congr rfl rfl rfl rfl
    unfold sendPendingWindowAdjust
    split
    · exact h1
    · exact flushPending_inv es _ _ _ h1

theorem fresh_inv (server : Bool) {window : Nat} (hw : window < 2^32) (maxPacket : Nat) :
    Inv (fresh server window maxPacket) where
  shape := ⟨rfl, by simp [fresh], by simp [fresh]⟩
  good := by simp [fresh]
  next := by simp [fresh]
  win := hw
  sess := by simp [fresh]

theorem reach_inv {server : Bool} {window maxPacket : Nat} (hw : window < 2^32) {c : Conn}
    (h : Reach server window maxPacket c) : Inv c := by
  induction h with
  | init => exact fresh_inv server hw maxPacket
  | step _ hx hs ih =>
    obtain ⟨c', h1, h2⟩ := step_inv ih _ hx
    rw [h1] at hs; cases hs; exact h2

end Wolf.Channel
