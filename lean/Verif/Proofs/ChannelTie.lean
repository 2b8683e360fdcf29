import Verif.Proofs.ChannelOut
/-! The recorded sending history of a channel is what was put into the output buffer. -/

namespace Wolf.Channel
open Wolf Wolf.Wire Wolf.NameList Wolf.Buffer Spec.Buffer Spec.Channel Props.Buffer

/-- What the history of a channel claims was sent is among the messages `l`. -/
structure Tied (l : List OutMsg) (ch ch' : Chan) : Prop where
  id : ch'.id = ch.id
  peer : ch'.peerId = ch.peerId
  granted : ch'.g.granted = ch.g.granted
  initial : ch'.g.initial = ch.g.initial
  credit : ∃ ks : List Nat, ch'.g.credited = ch.g.credited + ks.sum ∧ (ks.map (OutMsg.adjust ch.peerId)).Sublist l
  log : ∃ t : List Tx, ch'.g.tx = ch.g.tx ++ t ∧ (t.map (onWire ch.peerId)).Sublist l

theorem Tied.refl (l : List OutMsg) (ch : Chan) : Tied l ch ch :=
  ⟨rfl, rfl, rfl, rfl, ⟨[], rfl, List.nil_sublist _⟩, ⟨[], (List.append_nil _).symm, List.nil_sublist _⟩⟩

/-- A change of other fields. -/
theorem Tied.other {l : List OutMsg} {ch ch' : Chan} (h1 : ch'.id = ch.id) (h2 : ch'.peerId = ch.peerId)
    (h3 : ch'.g.granted = ch.g.granted) (h4 : ch'.g.initial = ch.g.initial) (h5 : ch'.g.credited = ch.g.credited)
    (h6 : ch'.g.tx = ch.g.tx) : Tied l ch ch' :=
  ⟨h1, h2, h3, h4, ⟨[], by rw [h5]; rfl, List.nil_sublist _⟩, ⟨[], by rw [h6, List.append_nil], List.nil_sublist _⟩⟩

theorem Tied.trans {l1 l2 : List OutMsg} {a b c : Chan} (h1 : Tied l1 a b) (h2 : Tied l2 b c) :
    Tied (l1 ++ l2) a c := by
  obtain ⟨k1, e1, f1⟩ := h1.credit
  obtain ⟨k2, e2, f2⟩ := h2.credit
  obtain ⟨t1, e3, f3⟩ := h1.log
  obtain ⟨t2, e4, f4⟩ := h2.log
  rw [h1.peer] at f2 f4
  refine ⟨h2.id.trans h1.id, h2.peer.trans h1.peer, h2.granted.trans h1.granted, h2.initial.trans h1.initial,
    ⟨k1 ++ k2, ?_, ?_⟩, ⟨t1 ++ t2, ?_, ?_⟩⟩
  · rw [e2, e1, List.sum_append, Nat.add_assoc]
  · rw [List.map_append]; exact f1.append f2
  · rw [e4, e3, List.append_assoc]
  · rw [List.map_append]; exact f3.append f4

/-- Every channel left is tied to one from before. -/
def Tie (c c' : Conn) : Prop :=
  ∃ l, c'.out = c.out ++ l ∧ ∀ ch' ∈ c'.chans, ∃ ch ∈ c.chans, Tied l ch ch'

theorem Tie.same {c c' : Conn} (h1 : c'.chans = c.chans) (h2 : ∃ l, c'.out = c.out ++ l) : Tie c c' := by
  obtain ⟨l, h2⟩ := h2
  exact ⟨l, h2, fun ch' h => ⟨ch', h1 ▸ h, .refl l ch'⟩⟩

theorem Tie.refl {c c' : Conn} (h1 : c'.chans = c.chans) (h2 : c'.out = c.out) : Tie c c' :=
  .same h1 ⟨[], by rw [h2, List.append_nil]⟩

theorem Tie.trans {a b c : Conn} (h1 : Tie a b) (h2 : Tie b c) : Tie a c := by
  obtain ⟨l1, e1, f1⟩ := h1
  obtain ⟨l2, e2, f2⟩ := h2
  refine ⟨l1 ++ l2, by rw [e2, e1, List.append_assoc], fun ch2 hm => ?_⟩
  obtain ⟨ch1, hm1, t2⟩ := f2 ch2 hm
  obtain ⟨ch0, hm0, t1⟩ := f1 ch1 hm1
  exact ⟨ch0, hm0, t1.trans t2⟩

theorem Tie.of_set {c c' : Conn} {i : Nat} {ch ch' : Chan} {l : List OutMsg} (h : c.chans[i]? = some ch)
    (e : c'.chans = c.chans.set i ch') (ho : c'.out = c.out ++ l) (ht : Tied l ch ch') : Tie c c' := by
  refine ⟨l, ho, fun d hd => ?_⟩
  rw [e] at hd
  rcases List.mem_or_eq_of_mem_set hd with hd | rfl
  · exact ⟨d, hd, .refl l d⟩
  · exact ⟨ch, List.mem_of_getElem? h, ht⟩

/-- A change of other fields of one channel. -/
theorem Tie.of_set0 {c c' : Conn} {i : Nat} {ch ch' : Chan} (h : c.chans[i]? = some ch)
    (e : c'.chans = c.chans.set i ch') (ho : c'.out = c.out) (ht : Tied [] ch ch') : Tie c c' :=
  .of_set h e (by rw [ho, List.append_nil]) ht

theorem sendEof_tie (c : Conn) (p : Nat) (e : SendEnv) : Tie c (sendEof c p e).2 := by
  unfold sendEof
  split
  · exact .refl rfl rfl
  cases hf : findPeer c p with
  | none => exact .refl rfl rfl
  | some q =>
    obtain ⟨i, ch⟩ := q
    have hc := (findPeer_some hf).1
    simp only
    split
    · exact .refl rfl rfl
    split
    · exact .refl rfl rfl
    · refine .of_set hc (ch' := { (if e.sent = none then { ch with eofTxd := true } else ch) with
        g := { (if e.sent = none then { ch with eofTxd := true } else ch).g with
          tx := (if e.sent = none then { ch with eofTxd := true } else ch).g.tx ++ [.eof (e.sent == none)] } })
        rfl rfl ?_
      refine ⟨by split <;> rfl, by split <;> rfl, by split <;> rfl, by split <;> rfl,
        ⟨[], by split <;> rfl, List.nil_sublist _⟩, ⟨[.eof (e.sent == none)], by split <;> rfl, ?_⟩⟩
      exact .refl _

theorem sendRequest_tie (c : Conn) (p : Nat) (e : SendEnv) : Tie c (sendRequest c p e).2 := by
  unfold sendRequest
  cases findPeer c p with
  | none => exact .refl rfl rfl
  | some q => simp only; split <;> exact .same rfl ⟨_, by first | rfl | exact (List.append_nil _).symm⟩

theorem sendClose_tie (c : Conn) (p : Nat) (e : SendEnv) : Tie c (sendClose c p e).2 := by
  unfold sendClose
  cases hf : findPeer c p with
  | none => exact .refl rfl rfl
  | some q =>
    obtain ⟨i, ch⟩ := q
    have hc := (findPeer_some hf).1
    simp only
    split
    · exact .refl rfl rfl
    split
    · exact .refl rfl rfl
    · exact .of_set hc (ch' := { ch with closeTxd := true, g := { ch.g with tx := ch.g.tx ++ [.close] } }) rfl rfl
        ⟨rfl, rfl, rfl, rfl, ⟨[], rfl, List.nil_sublist _⟩, ⟨[.close], rfl, .refl _⟩⟩

theorem remove_tie (c : Conn) (p : Chan → Bool) : Tie c (remove c p).2 := by
  unfold remove
  split
  · exact .refl rfl rfl
  · cases findLoop p c.chans c.listSz 0 with
    | none => exact .refl rfl rfl
    | some q =>
      exact ⟨[], (List.append_nil _).symm, fun ch' h =>
        ⟨ch', (List.eraseIdx_sublist c.chans q.1).subset h, .refl _ _⟩⟩

theorem andThen_tie {c : Conn} {a : Ret × Conn} {f : Conn → Ret × Conn} (ha : Tie c a.2)
    (hf : ∀ c, Tie c (f c).2) : Tie c (andThen a f).2 := by
  unfold andThen
  split
  · exact ha.trans (hf _)
  · exact ha

/-- The ghost `credited` after a credit. -/
theorem Credit.tied {c : Conn} {ch : Chan} {amount : Nat} {e : SendEnv} {r : Ret} {out' : List OutMsg}
    {p' cr' lo' : Nat} (h : Credit c ch amount e r out' p' cr' lo') :
    ∃ l, out' = c.out ++ l ∧ ∃ ks : List Nat, cr' = ch.g.credited + ks.sum ∧
      (ks.map (OutMsg.adjust ch.peerId)).Sublist l := by
  rcases h.out with h1 | h1
  · exact ⟨[], by rw [h1, List.append_nil], [], by rw [h.silent h1]; rfl, List.nil_sublist _⟩
  · refine ⟨_, h1, ?_⟩
    rcases h.exact with h2 | h2
    · exact ⟨[], by rw [h2]; rfl, List.nil_sublist _⟩
    · exact ⟨[ch.pending + amount], by rw [h2]; simp, .refl _⟩

theorem creditWindow_tie {c : Conn} (hs : Shape c) {i : Nat} {ch : Chan} (h : c.chans[i]? = some ch)
    (hp : ch.pending < 2^32) (amount : Nat) (e : SendEnv) : Tie c (creditWindow c i amount e).2 := by
  obtain ⟨r, out', p', cr', lo', he, hcr⟩ := creditWindow_eff hs h (amount := amount) hp e
  obtain ⟨l, e1, ks, e2, e3⟩ := hcr.tied
  rw [he]
  exact .of_set h (ch' := { ch with pending := p', g := { ch.g with credited := cr', lost := lo' } }) rfl e1
    ⟨rfl, rfl, rfl, rfl, ⟨ks, e2, e3⟩, ⟨[], (List.append_nil _).symm, List.nil_sublist _⟩⟩

theorem flushPending_tie (es : Nat → SendEnv) (n i : Nat) (ret : Ret) {c : Conn} (hi : Inv c) :
    Tie c (flushPending es n i ret c).2 := by
  induction n generalizing i ret c with
  | zero => exact .refl rfl rfl
  | succ n ih =>
    unfold flushPending
    cases h : c.chans[i]? with
    | none => exact .refl rfl rfl
    | some ch =>
      simp only
      split
      · exact (creditWindow_tie hi.shape h (hi.get h).rx.pend 0 _).trans (ih _ _ (creditZero_inv hi h _))
      · exact ih _ _ hi

theorem updateWindow_tie {c c' : Conn} (hi : Shape c) {i : Nat} {ch : Chan} (h : c.chans[i]? = some ch)
    (hg : RxGood ch) {r : Ret} {e : SendEnv} (he : updateWindow c i e = some (r, c')) : Tie c c' := by
  rcases updateWindow_eff hi h hg e with ⟨_, h1⟩ | ⟨_, r, out', p', cr', lo', m, hcr, h1, _, _⟩
  · rw [h1] at he; cases he; exact .refl rfl rfl
  · rw [h1] at he
    have e2 := congrArg Prod.snd (Option.some.inj he)
    simp only at e2
    subst e2
    obtain ⟨l, e1, ks, e2, e3⟩ := hcr.tied
    exact .of_set h (ch' := opened ch m p' cr' lo') rfl e1
      ⟨rfl, rfl, rfl, rfl, ⟨ks, e2, e3⟩, ⟨[], (List.append_nil _).symm, List.nil_sublist _⟩⟩

theorem modChan_tie (c : Conn) (i : Nat) (f : Chan → Chan) (hf : ∀ ch, Tied [] ch (f ch)) : Tie c (modChan c i f) := by
  unfold modChan
  split
  · rename_i ch h
    exact .of_set0 h rfl rfl (hf ch)
  · exact .refl rfl rfl

theorem noteGave_tied (d : Bytes) (ch : Chan) : Tied [] ch (noteGave d ch) := .other rfl rfl rfl rfl rfl rfl
theorem noteFailed_tied (ch : Chan) : Tied [] ch (noteFailed ch) := .other rfl rfl rfl rfl rfl rfl
theorem takeBytes_tied (d : Bytes) (ch : Chan) : Tied [] ch (takeBytes d ch) := .other rfl rfl rfl rfl rfl rfl
theorem takeExt_tied (b : Buf) (d : Bytes) (ch : Chan) : Tied [] ch (takeExt b d ch) := .other rfl rfl rfl rfl rfl rfl

theorem channelRead_tie {c c' : Conn} (hi : Inv c) {i : Nat} {ch : Chan} (h : c.chans[i]? = some ch) {n : Nat}
    {e : SendEnv} {r : Except Err Bytes} (he : channelRead c i n e = some (r, c')) : Tie c c' := by
  have hg := hi.get h
  have hul := unread_length hg.rx.inOk
  have hu : sub32 ch.inBuf.length ch.inBuf.idx = (unread ch.inBuf).length := by
    rw [hul]; exact sub32_le hg.rx.inOk.cursor (by have := hg.rx.inOk.fits; have := hg.rx.inOk.size; omega)
  unfold channelRead at he
  rw [h] at he
  simp only at he
  by_cases hn : n = 0
  · rw [if_pos hn] at he; cases he; exact .refl rfl rfl
  rw [if_neg hn, hu] at he
  have hk := cmin_le n (unread ch.inBuf).length
  unfold readThenUpdate at he
  rw [read_prefix hg.rx.inOk hk.2.1, Option.bind_some] at he
  obtain ⟨hrx, hun⟩ := takeBytes_rx hg.rx hk.2.1 rfl
  generalize (unread ch.inBuf).take (cmin n (unread ch.inBuf).length) = d at he hrx
  have hs1 : Shape (setChan c i (takeBytes d ch)) := hi.shape.set h rfl
  cases hup : updateWindow (setChan c i (takeBytes d ch)) i e with
  | none => rw [hup] at he; cases he
  | some q =>
    obtain ⟨r1, c1⟩ := q
    have h1 := updateWindow_tie hs1 (get_set h) hrx hup
    have h0 : Tie c (setChan c i (takeBytes d ch)) := .of_set0 h rfl rfl (takeBytes_tied d ch)
    rw [hup, Option.map_some] at he
    cases r1 with
    | none =>
      have e2 := congrArg Prod.snd (Option.some.inj he)
      simp only at e2
      rw [← e2]
      exact (h0.trans h1).trans (modChan_tie _ _ _ (noteGave_tied d))
    | some x =>
      have e2 := congrArg Prod.snd (Option.some.inj he)
      simp only at e2
      rw [← e2]
      exact (h0.trans h1).trans (modChan_tie _ _ _ noteFailed_tied)

theorem streamRead_tie {c c' : Conn} (hi : Inv c) {n : Nat} {e : SendEnv} {r : Except Err Bytes}
    (he : streamRead c n e = some (r, c')) : Tie c c' := by
  unfold streamRead at he
  by_cases hn : n = 0
  · rw [if_pos hn] at he; cases he; exact .refl rfl rfl
  rw [if_neg hn] at he
  cases hcs : c.chans with
  | nil => rw [hcs] at he; cases he; exact .refl rfl rfl
  | cons ch rest =>
    have h : c.chans[0]? = some ch := by rw [hcs]; rfl
    have hg := hi.get h
    rw [hcs] at he
    simp only at he
    split at he
    · cases he; exact .refl rfl rfl
    split at he
    · cases he; exact .refl rfl rfl
    split at he
    · cases he; exact .refl rfl rfl
    unfold updateThenRead at he
    have hul := unread_length hg.rx.inOk
    have hu : sub32 ch.inBuf.length ch.inBuf.idx = (unread ch.inBuf).length := by
      rw [hul]; exact sub32_le hg.rx.inOk.cursor (by have := hg.rx.inOk.fits; have := hg.rx.inOk.size; omega)
    rw [hu] at he
    have hk := cmin_le n (unread ch.inBuf).length
    rw [read_prefix hg.rx.inOk hk.2.1, Option.bind_some] at he
    cases hup : updateWindow c 0 e with
    | none => rw [hup] at he; cases he
    | some q =>
      obtain ⟨r1, c1⟩ := q
      have h1 := updateWindow_tie hi.shape h hg.rx hup
      rw [hup, Option.map_some] at he
      cases r1 with
      | none =>
        have e2 := congrArg Prod.snd (Option.some.inj he)
        simp only at e2
        rw [← e2]
        exact h1.trans (modChan_tie _ _ _ fun ch => (takeBytes_tied _ ch).trans (noteGave_tied _ _))
      | some x =>
        have e2 := congrArg Prod.snd (Option.some.inj he)
        simp only at e2
        rw [← e2]
        exact h1

theorem channelReadExt_tie {static : Bytes} {c c' : Conn} (hi : Inv c) {id n : Nat}
    {e : SendEnv} {r : Except Err Bytes} (he : channelReadExt static c id n e = some (r, c')) : Tie c c' := by
  unfold channelReadExt at he
  cases hf : findSelf c id with
  | none => rw [hf] at he; cases he; exact .refl rfl rfl
  | some q =>
    obtain ⟨i, ch⟩ := q
    have hc := (Shape.findSelf_some hf).1
    have hg := hi.get hc
    rw [hf] at he
    simp only at he
    split at he
    · cases he; exact .refl rfl rfl
    split at he
    · cases he; exact .refl rfl rfl
    unfold readExt at he
    generalize cmin n (sub32 ch.ext.length ch.ext.idx) = k at he
    cases hrd : Wolf.Buffer.read ch.ext.mem ch.ext.idx k with
    | none => rw [hrd] at he; cases he
    | some d =>
      rw [hrd, Option.bind_some] at he
      split at he
      · cases hdr : drained static (consume ch.ext k) with
        | none => rw [hdr] at he; cases he
        | some b =>
          rw [hdr, Option.map_some] at he
          have e2 := congrArg Prod.snd (Option.some.inj he)
          simp only at e2
          rw [← e2]
          have hs : Shape (setChan c i (takeExt b d ch)) := hi.shape.set hc rfl
          have h0 : Tie c (setChan c i (takeExt b d ch)) := .of_set0 hc rfl rfl (takeExt_tied b d ch)
          exact h0.trans (creditWindow_tie hs (get_set hc) hg.rx.pend k e)
      · cases he; exact .refl rfl rfl

theorem dropExt_tie {c : Conn} (hi : Inv c) {i : Nat} {ch : Chan} (hc : c.chans[i]? = some ch) (id n : Nat)
    (e : SendEnv) : Tie c (dropExt c i ch id n e).2 := by
  have hg := hi.get hc
  unfold dropExt
  have hs : Shape (setChan c i { ch with g := { ch.g with dropped := ch.g.dropped + n } }) := hi.shape.set hc rfl
  have h0 : Tie c (setChan c i { ch with g := { ch.g with dropped := ch.g.dropped + n } }) :=
    .of_set0 hc rfl rfl (.other rfl rfl rfl rfl rfl rfl)
  have h1 := h0.trans (creditWindow_tie hs (get_set hc) hg.rx.pend n e)
  exact h1

theorem shutdown_tie (c : Conn) (ww : Bool) (es : Nat → SendEnv) : Tie c (shutdown c ww es).2 := by
  unfold shutdown
  cases c.chans with
  | nil => exact .refl rfl rfl
  | cons ch rest =>
    simp only
    cases findSelf c ch.peerId with
    | none => exact .refl rfl rfl
    | some q =>
      simp only
      split
      · exact .refl rfl rfl
      · have h1 := sendEof_tie c ch.peerId (es 0)
        generalize sendEof c ch.peerId (es 0) = r1 at h1
        generalize hr2 : (if decide (r1.1 = none ∨ (r1.1 ≠ some Err.badArgument ∧ ww = true)) = true then
          sendRequest r1.2 ch.peerId (es 1) else r1) = r2
        have h2 : Tie c r2.2 := by
          rw [← hr2]; split
          · exact h1.trans (sendRequest_tie _ _ _)
          · exact h1
        split
        · exact h2.trans (sendClose_tie _ _ _)
        · exact h2

theorem channelExit_tie (c : Conn) (id : Nat) (e1 e2 : SendEnv) : Tie c (channelExit c id e1 e2).2 := by
  unfold channelExit
  split
  · exact .refl rfl rfl
  · exact andThen_tie (sendEof_tie _ _ _) fun _ =>
      andThen_tie (sendClose_tie _ _ _) fun _ => remove_tie _ _

theorem streamExit_tie (c : Conn) (o : Bool) (es : Nat → SendEnv) : Tie c (streamExit c o es).2 := by
  unfold streamExit
  split
  · exact .refl rfl rfl
  · refine andThen_tie (sendRequest_tie _ _ _) fun c1 => ?_
    refine andThen_tie ?_ fun _ => andThen_tie (sendEof_tie _ _ _) fun _ => sendClose_tie _ _ _
    split
    · exact sendRequest_tie _ _ _
    · exact .refl rfl rfl

end Wolf.Channel
