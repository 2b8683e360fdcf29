import Verif.Proofs.ChannelHist2
/-! What each step puts into the output buffer. -/

namespace Wolf.Channel
open Wolf Wolf.Wire Wolf.NameList Wolf.Buffer Spec.Buffer Spec.Channel Props.Buffer

/-- Only messages of kind `P` are queued, and the key exchange goes neither on nor off. -/
structure Says (P : OutMsg → Prop) (c c' : Conn) : Prop where
  keying : c'.keying = c.keying
  out : ∃ l, c'.out = c.out ++ l ∧ ∀ m ∈ l, P m

/-- Neither data nor an adjustment. -/
def Ctl (m : OutMsg) : Prop := isTraffic m = false

/-- No data; an adjustment only outside a key exchange. -/
def Calm (k : Bool) (m : OutMsg) : Prop := carriesData m = false ∧ (isTraffic m = true → k = false)

theorem Says.same {P : OutMsg → Prop} {c c' : Conn} (h1 : c'.keying = c.keying) (h2 : c'.out = c.out) : Says P c c' :=
  ⟨h1, [], by rw [h2, List.append_nil], fun _ h => nomatch h⟩

theorem Says.one {P : OutMsg → Prop} {c c' : Conn} {m : OutMsg} (h1 : c'.keying = c.keying)
    (h2 : c'.out = c.out ++ [m]) (h : P m) : Says P c c' :=
  ⟨h1, [m], h2, by intro a ha; simp at ha; subst ha; exact h⟩

theorem Says.trans {P : OutMsg → Prop} {a b c : Conn} (h1 : Says P a b) (h2 : Says P b c) : Says P a c := by
  obtain ⟨k1, l1, e1, f1⟩ := h1
  obtain ⟨k2, l2, e2, f2⟩ := h2
  refine ⟨k2.trans k1, l1 ++ l2, by rw [e2, e1, List.append_assoc], ?_⟩
  intro m hm
  rcases List.mem_append.1 hm with h | h
  · exact f1 m h
  · exact f2 m h

theorem Says.mono {P Q : OutMsg → Prop} {a b : Conn} (h : Says P a b) (hpq : ∀ m, P m → Q m) : Says Q a b := by
  obtain ⟨k, l, e, f⟩ := h
  exact ⟨k, l, e, fun m hm => hpq m (f m hm)⟩

theorem Ctl.calm {k : Bool} {m : OutMsg} (h : Ctl m) : Calm k m := by
  unfold Ctl at h
  refine ⟨?_, fun h' => by rw [h] at h'; cases h'⟩
  cases m <;> first | rfl | cases h

theorem sendEof_says (c : Conn) (p : Nat) (e : SendEnv) : Says Ctl c (sendEof c p e).2 := by
  unfold sendEof
  split
  · exact .same rfl rfl
  cases hf : findPeer c p with
  | none => exact .same rfl rfl
  | some q =>
    simp only
    split
    · exact .same rfl rfl
    split
    · exact .same rfl rfl
    · exact .one rfl rfl rfl

theorem sendRequest_says (c : Conn) (p : Nat) (e : SendEnv) : Says Ctl c (sendRequest c p e).2 := by
  unfold sendRequest
  cases findPeer c p with
  | none => exact .same rfl rfl
  | some q =>
    simp only
    split
    · exact .same rfl rfl
    · exact .one rfl rfl rfl

theorem sendClose_says (c : Conn) (p : Nat) (e : SendEnv) : Says Ctl c (sendClose c p e).2 := by
  unfold sendClose
  cases hf : findPeer c p with
  | none => exact .same rfl rfl
  | some q =>
    simp only
    split
    · exact .same rfl rfl
    split
    · exact .same rfl rfl
    · exact .one rfl rfl rfl

theorem remove_says (c : Conn) (p : Chan → Bool) : Says Ctl c (remove c p).2 := by
  unfold remove
  split
  · exact .same rfl rfl
  · cases findLoop p c.chans c.listSz 0 with
    | none => exact .same rfl rfl
    | some q => exact .same rfl rfl

theorem andThen_says {P : OutMsg → Prop} {c : Conn} {a : Ret × Conn} {f : Conn → Ret × Conn} (ha : Says P c a.2)
    (hf : ∀ c, Says P c (f c).2) : Says P c (andThen a f).2 := by
  unfold andThen
  split
  · exact ha.trans (hf _)
  · exact ha

theorem creditWindow_says {c : Conn} (hs : Shape c) {i : Nat} {ch : Chan} (h : c.chans[i]? = some ch)
    (hp : ch.pending < 2^32) (amount : Nat) (e : SendEnv) :
    Says (Calm c.keying) c (creditWindow c i amount e).2 := by
  obtain ⟨r, out', p', cr', lo', he, hcr⟩ := creditWindow_eff hs h (amount := amount) hp e
  rw [he]
  by_cases hk : c.keying = true
  · exact .same rfl (hcr.keying hk).1
  · rcases hcr.out with h | h
    · exact .same rfl h
    · exact .one rfl h ⟨rfl, fun _ => by simpa using hk⟩

theorem flushPending_says (es : Nat → SendEnv) (n i : Nat) (ret : Ret) {c : Conn} (hi : Inv c) :
    Says (Calm c.keying) c (flushPending es n i ret c).2 := by
  induction n generalizing i ret c with
  | zero => exact .same rfl rfl
  | succ n ih =>
    unfold flushPending
    cases h : c.chans[i]? with
    | none => exact .same rfl rfl
    | some ch =>
      simp only
      split
      · have h1 := creditWindow_says hi.shape h (hi.get h).rx.pend 0 (es i)
        have h2 := ih (i + 1) (if (creditWindow c i 0 (es i)).1 ≠ none ∧ ret = none then (creditWindow c i 0 (es i)).1 else ret)
          (creditZero_inv hi h (es i))
        rw [h1.keying] at h2
        exact h1.trans h2
      · exact ih _ _ hi

theorem updateWindow_says {c c' : Conn} (hi : Shape c) {i : Nat} {ch : Chan} (h : c.chans[i]? = some ch)
    (hg : RxGood ch) {r : Ret} {e : SendEnv} (he : updateWindow c i e = some (r, c')) : Says (Calm c.keying) c c' := by
  rcases updateWindow_eff hi h hg e with ⟨_, h1⟩ | ⟨_, r, out', p', cr', lo', m, hcr, h1, _, _⟩
  · rw [h1] at he; cases he; exact .same rfl rfl
  · rw [h1] at he
    have e2 := congrArg Prod.snd (Option.some.inj he)
    simp only at e2
    subst e2
    by_cases hk : c.keying = true
    · exact .same rfl (hcr.keying hk).1
    · rcases hcr.out with h | h
      · exact .same rfl h
      · exact .one rfl h ⟨rfl, fun _ => by simpa using hk⟩

theorem modChan_says {P : OutMsg → Prop} (c : Conn) (i : Nat) (f : Chan → Chan) : Says P c (modChan c i f) := by
  unfold modChan
  split <;> exact .same rfl rfl

theorem channelRead_says {c c' : Conn} (hi : Inv c) {i : Nat} {ch : Chan} (h : c.chans[i]? = some ch) {n : Nat}
    {e : SendEnv} {r : Except Err Bytes} (he : channelRead c i n e = some (r, c')) : Says (Calm c.keying) c c' := by
  have hg := hi.get h
  have hul := unread_length hg.rx.inOk
  have hu : sub32 ch.inBuf.length ch.inBuf.idx = (unread ch.inBuf).length := by
    rw [hul]; exact sub32_le hg.rx.inOk.cursor (by have := hg.rx.inOk.fits; have := hg.rx.inOk.size; omega)
  unfold channelRead at he
  rw [h] at he
  simp only at he
  by_cases hn : n = 0
  · rw [if_pos hn] at he; cases he; exact .same rfl rfl
  rw [if_neg hn, hu] at he
  have hk := cmin_le n (unread ch.inBuf).length
  unfold readThenUpdate at he
  rw [read_prefix hg.rx.inOk hk.2.1, Option.bind_some] at he
  obtain ⟨hrx, hun⟩ := takeBytes_rx hg.rx hk.2.1 rfl
  generalize (unread ch.inBuf).take (cmin n (unread ch.inBuf).length) = d at he hrx
  have hs1 : Shape (setChan c i (takeBytes d ch)) := hi.shape.set h rfl
  cases hup : updateWindow (setChan c i (takeBytes d ch)) i e with
  | none => rw [hup] at he; cases he
  | some q =>
    obtain ⟨r1, c1⟩ := q
    have h1 := updateWindow_says hs1 (get_set h) hrx hup
    have h0 : Says (Calm c.keying) c (setChan c i (takeBytes d ch)) := .same rfl rfl
    rw [hup, Option.map_some] at he
    cases r1 with
    | none =>
      have e2 := congrArg Prod.snd (Option.some.inj he)
      simp only at e2
      rw [← e2]
      exact (h0.trans h1).trans (modChan_says _ _ _)
    | some x =>
      have e2 := congrArg Prod.snd (Option.some.inj he)
      simp only at e2
      rw [← e2]
      exact (h0.trans h1).trans (modChan_says _ _ _)

theorem streamRead_says {c c' : Conn} (hi : Inv c) {n : Nat} {e : SendEnv} {r : Except Err Bytes}
    (he : streamRead c n e = some (r, c')) : Says (Calm c.keying) c c' := by
  unfold streamRead at he
  by_cases hn : n = 0
  · rw [if_pos hn] at he; cases he; exact .same rfl rfl
  rw [if_neg hn] at he
  cases hcs : c.chans with
  | nil => rw [hcs] at he; cases he; exact .same rfl rfl
  | cons ch rest =>
    have h : c.chans[0]? = some ch := by rw [hcs]; rfl
    have hg := hi.get h
    rw [hcs] at he
    simp only at he
    split at he
    · cases he; exact .same rfl rfl
    split at he
    · cases he; exact .same rfl rfl
    split at he
    · cases he; exact .same rfl rfl
    unfold updateThenRead at he
    have hul := unread_length hg.rx.inOk
    have hu : sub32 ch.inBuf.length ch.inBuf.idx = (unread ch.inBuf).length := by
      rw [hul]; exact sub32_le hg.rx.inOk.cursor (by have := hg.rx.inOk.fits; have := hg.rx.inOk.size; omega)
    rw [hu] at he
    have hk := cmin_le n (unread ch.inBuf).length
    rw [read_prefix hg.rx.inOk hk.2.1, Option.bind_some] at he
    cases hup : updateWindow c 0 e with
    | none => rw [hup] at he; cases he
    | some q =>
      obtain ⟨r1, c1⟩ := q
      have h1 := updateWindow_says hi.shape h hg.rx hup
      rw [hup, Option.map_some] at he
      cases r1 with
      | none =>
        have e2 := congrArg Prod.snd (Option.some.inj he)
        simp only at e2
        rw [← e2]
        exact h1.trans (modChan_says _ _ _)
      | some x =>
        have e2 := congrArg Prod.snd (Option.some.inj he)
        simp only at e2
        rw [← e2]
        exact h1

theorem channelReadExt_says {static : Bytes} {c c' : Conn} (hi : Inv c) {id n : Nat}
    {e : SendEnv} {r : Except Err Bytes} (he : channelReadExt static c id n e = some (r, c')) :
    Says (Calm c.keying) c c' := by
  unfold channelReadExt at he
  cases hf : findSelf c id with
  | none => rw [hf] at he; cases he; exact .same rfl rfl
  | some q =>
    obtain ⟨i, ch⟩ := q
    have hc := (Shape.findSelf_some hf).1
    have hg := hi.get hc
    rw [hf] at he
    simp only at he
    split at he
    · cases he; exact .same rfl rfl
    split at he
    · cases he; exact .same rfl rfl
    unfold readExt at he
    generalize cmin n (sub32 ch.ext.length ch.ext.idx) = k at he
    cases hrd : Wolf.Buffer.read ch.ext.mem ch.ext.idx k with
    | none => rw [hrd] at he; cases he
    | some d =>
      rw [hrd, Option.bind_some] at he
      split at he
      · cases hdr : drained static (consume ch.ext k) with
        | none => rw [hdr] at he; cases he
        | some b =>
          rw [hdr, Option.map_some] at he
          have e2 := congrArg Prod.snd (Option.some.inj he)
          simp only at e2
          rw [← e2]
          have hs : Shape (setChan c i (takeExt b d ch)) := hi.shape.set hc rfl
          have h0 : Says (Calm c.keying) c (setChan c i (takeExt b d ch)) := .same rfl rfl
          exact h0.trans (creditWindow_says hs (get_set hc) hg.rx.pend k e)
      · cases he; exact .same rfl rfl

theorem dropExt_says {c : Conn} (hi : Inv c) {i : Nat} {ch : Chan} (hc : c.chans[i]? = some ch) (id n : Nat)
    (e : SendEnv) : Says (Calm c.keying) c (dropExt c i ch id n e).2 := by
  have hg := hi.get hc
  unfold dropExt
  have hs : Shape (setChan c i { ch with g := { ch.g with dropped := ch.g.dropped + n } }) := hi.shape.set hc rfl
  have h0 : Says (Calm c.keying) c (setChan c i { ch with g := { ch.g with dropped := ch.g.dropped + n } }) := .same rfl rfl
  have h1 := h0.trans (creditWindow_says hs (get_set hc) hg.rx.pend n e)
  exact ⟨h1.keying, h1.out⟩

theorem doOpen_says {c c' : Conn} {r : Ret} (E : OpenEnv) {mem : Bytes} {len idx : Nat}
    (hi : Inv c) (hroom : c.chans.length + 1 < 2^32) (h : doOpen c E mem len idx = some (r, c')) : Says Ctl c c' := by
  have hfail : ∀ (d : Conn) p q, Says Ctl d (sendOpenFail d p q E.send).2 := by
    intro d p q; unfold sendOpenFail; split
    · exact .same rfl rfl
    · exact .one rfl rfl rfl
  have hconf : ∀ (d : Conn) p, Says Ctl d (sendOpenConf d p E.send).2 := by
    intro d p; unfold sendOpenConf; split
    · exact .same rfl rfl
    · exact .one rfl rfl rfl
  have hf2 : ∀ (d : Conn) p q, some (sendOpenFail d p q E.send) = some (r, c') → Says Ctl c d → Says Ctl c c' := by
    intro d p q he hd
    have := hfail d p q
    rw [Option.some.inj he] at this
    exact hd.trans this
  unfold doOpen at h
  split at h
  · cases h
  · exact hf2 _ _ _ h (.same rfl rfl)
  split at h
  · cases h
  · exact hf2 _ _ _ h (.same rfl rfl)
  split at h
  · cases h
  · exact hf2 _ _ _ h (.same rfl rfl)
  generalize OpenMsg.mk _ _ _ _ = om at h
  unfold answerOpen at h
  split at h
  · cases h
  · exact hf2 _ _ _ h (.same rfl rfl)
  rcases channelNew_eff hi hroom om.typeId c.ctxMaxPacket E.buffer true with ⟨_, hn⟩ | ⟨bm, id, hbm, hid, hfresh, hn⟩
  · rw [hn] at h
    exact hf2 c _ _ h (.same rfl rfl)
  · rw [hn] at h
    simp only at h
    split at h
    · exact hf2 { c with nextChannel := add32 id 1 } _ _ h (.same rfl rfl)
    · have := hconf (append { c with nextChannel := add32 id 1 } (updatePeer (newChan id om.typeId c.ctxWindow c.ctxMaxPacket bm true) om.peerId om.window om.maxPacket))
        (updatePeer (newChan id om.typeId c.ctxWindow c.ctxMaxPacket bm true) om.peerId om.window om.maxPacket)
      rw [Option.some.inj h] at this
      refine Says.trans (.same ?_ ?_) this
      · exact (append_rest _ _).2.2.2
      · exact (append_rest _ _).2.2.1

theorem openLocal_says {c c' : Conn} {r : Ret} (hi : Inv c) {keep : Bool} {ctype : Nat} {buffer : Option Bytes} {cb : Ret}
    {e : SendEnv} (hroom : c.chans.length + 1 < 2^32) (h : openLocal c keep ctype buffer cb e = some (r, c')) :
    Says Ctl c c' := by
  unfold openLocal at h
  rcases channelNew_eff hi hroom ctype c.ctxMaxPacket buffer false with ⟨_, hn⟩ | ⟨bm, id, hbm, hid, hfresh, hn⟩
  · simp only [hn] at h
    cases h; exact .same rfl rfl
  · simp only [hn] at h
    have key : ∀ q, some (q, append { c with nextChannel := add32 id 1, out := c.out ++ [.openReq id] }
        (newChan id ctype c.ctxWindow c.ctxMaxPacket bm false)) = some (r, c') → Says Ctl c c' := by
      intro q he
      have e2 := congrArg Prod.snd (Option.some.inj he)
      simp only at e2
      rw [← e2]
      refine .one (m := .openReq id) ?_ ?_ rfl
      · exact (append_rest _ _).2.2.2
      · exact (append_rest _ _).2.2.1
    split at h
    · cases h; exact .same rfl rfl
    · split at h
      · split at h
        · exact key _ h
        · cases h; exact .one rfl rfl rfl
      · split at h
        · cases h; exact .one rfl rfl rfl
        · exact key _ h

theorem shutdown_says (c : Conn) (ww : Bool) (es : Nat → SendEnv) : Says Ctl c (shutdown c ww es).2 := by
  unfold shutdown
  cases c.chans with
  | nil => exact .same rfl rfl
  | cons ch rest =>
    simp only
    cases findSelf c ch.peerId with
    | none => exact .same rfl rfl
    | some q =>
      simp only
      split
      · exact .same rfl rfl
      · have h1 := sendEof_says c ch.peerId (es 0)
        generalize sendEof c ch.peerId (es 0) = r1 at h1
        generalize hr2 : (if decide (r1.1 = none ∨ (r1.1 ≠ some Err.badArgument ∧ ww = true)) = true then
          sendRequest r1.2 ch.peerId (es 1) else r1) = r2
        have h2 : Says Ctl c r2.2 := by
          rw [← hr2]; split
          · exact h1.trans (sendRequest_says _ _ _)
          · exact h1
        split
        · exact h2.trans (sendClose_says _ _ _)
        · exact h2

theorem channelExit_says (c : Conn) (id : Nat) (e1 e2 : SendEnv) : Says Ctl c (channelExit c id e1 e2).2 := by
  unfold channelExit
  split
  · exact .same rfl rfl
  · exact andThen_says (sendEof_says _ _ _) fun _ =>
      andThen_says (sendClose_says _ _ _) fun _ => remove_says _ _

theorem streamExit_says (c : Conn) (o : Bool) (es : Nat → SendEnv) : Says Ctl c (streamExit c o es).2 := by
  unfold streamExit
  split
  · exact .same rfl rfl
  · refine andThen_says (sendRequest_says _ _ _) fun c1 => ?_
    refine andThen_says ?_ fun _ => andThen_says (sendEof_says _ _ _) fun _ => sendClose_says _ _ _
    split
    · exact sendRequest_says _ _ _
    · exact .same rfl rfl

/-- Everything a step queues, but for sends and the end of a key exchange. -/
theorem step_says {c c' : Conn} (hi : Inv c) {x : In} (hx : WellFormed c x) (h : step c x = some c')
    (hs : isSend x = false) (hk : isKeyed x = false) :
    (c.keying = true → c'.keying = true) ∧ ∃ l, c'.out = c.out ++ l ∧ ∀ m ∈ l, Calm c.keying m := by
  have all : Says (Calm c.keying) c c' →
      (c.keying = true → c'.keying = true) ∧ ∃ l, c'.out = c.out ++ l ∧ ∀ m ∈ l, Calm c.keying m :=
    fun h => ⟨fun hk => h.keying.trans hk, h.out⟩
  have ctl : Says Ctl c c' →
      (c.keying = true → c'.keying = true) ∧ ∃ l, c'.out = c.out ++ l ∧ ∀ m ∈ l, Calm c.keying m :=
    fun h => all (h.mono fun _ => Ctl.calm)
  cases x with
  | send => cases hs
  | streamSend => cases hs
  | keyed => cases hk
  | rxOpen E mem len idx =>
    simp only [step, Option.map_eq_some_iff] at h
    obtain ⟨⟨r, c1⟩, he, rfl⟩ := h
    exact ctl (doOpen_says E hi hx.2.2.2 he)
  | openLocal keep ctype buffer cb e =>
    simp only [step, Option.map_eq_some_iff] at h
    obtain ⟨⟨r, c1⟩, he, rfl⟩ := h
    exact ctl (openLocal_says hi hx.2 he)
  | rxData mem len idx =>
    simp only [step, Option.map_eq_some_iff] at h
    obtain ⟨⟨r, c1⟩, he, rfl⟩ := h
    refine all (Says.same ?_ ?_ : Says _ c c1) <;>
    · unfold doData at he
      split at he
      · cases he
      · cases he; rfl
      split at he
      · cases he; rfl
      split at he
      · cases he; rfl
      split at he
      · cases he; rfl
      split at he
      · cases he
      split at he
      · cases he
      · cases he; rfl
      · cases he; rfl
  | rxExt alloc mem len idx e =>
    simp only [step, Option.map_eq_some_iff] at h
    obtain ⟨⟨r, c1⟩, he, rfl⟩ := h
    unfold doExtData at he
    split at he
    · cases he
    · cases he; exact ctl (.same rfl rfl)
    cases hf : findSelf c _ with
    | none => rw [hf] at he; cases he; exact ctl (.same rfl rfl)
    | some q =>
      obtain ⟨i, ch⟩ := q
      have hc := (Shape.findSelf_some hf).1
      have hg := hi.get hc
      rw [hf] at he
      simp only at he
      split at he
      · cases he; exact ctl (.same rfl rfl)
      split at he
      · cases he; exact ctl (.same rfl rfl)
      split at he
      · obtain ⟨d, _, hst⟩ := Option.bind_eq_some_iff.1 he
        have : Says Ctl c c1 := by
          unfold storeExt at hst
          obtain ⟨⟨r1, b1⟩, _, h1⟩ := Option.map_eq_some_iff.1 hst
          have e2 := congrArg Prod.snd h1
          cases r1 with
          | none => simp only at e2; rw [← e2]; exact .same rfl rfl
          | some r1 => simp only at e2; rw [← e2]; exact .same rfl rfl
        exact ctl this
      · have e2 := congrArg Prod.snd (Option.some.inj he)
        simp only at e2
        have : Says (Calm c.keying) c c1 := by
          rw [← e2]; exact dropExt_says hi hc _ _ _
        exact all this
  | read id n e =>
    simp only [step, Option.map_eq_some_iff] at h
    obtain ⟨⟨r, c1⟩, he, rfl⟩ := h
    unfold channelIdRead at he
    cases hf : findSelf c id with
    | none => rw [hf] at he; cases he; exact ctl (.same rfl rfl)
    | some q =>
      obtain ⟨i, ch⟩ := q
      rw [hf] at he
      exact all (channelRead_says hi (Shape.findSelf_some hf).1 he)
  | readExt static id n e =>
    simp only [step, Option.map_eq_some_iff] at h
    obtain ⟨⟨r, c1⟩, he, rfl⟩ := h
    exact all (channelReadExt_says hi he)
  | streamRead n e =>
    simp only [step, Option.map_eq_some_iff] at h
    obtain ⟨⟨r, c1⟩, he, rfl⟩ := h
    exact all (streamRead_says hi he)
  | rxOpenConf mem len idx cb =>
    simp only [step, Option.map_eq_some_iff] at h
    obtain ⟨⟨r, c1⟩, he, rfl⟩ := h
    unfold doOpenConf at he
    split at he
    · cases he
    · cases he; exact ctl (.same rfl rfl)
    split at he
    · cases he; exact ctl (.same rfl rfl)
    simp only at he
    split at he <;> cases he <;> exact ctl (.same rfl rfl)
  | rxOpenFail mem len idx cb =>
    simp only [step, Option.map_eq_some_iff] at h
    obtain ⟨⟨r, c1⟩, he, rfl⟩ := h
    unfold doOpenFail at he
    split at he
    · cases he
    · cases he; exact ctl (.same rfl rfl)
    · simp only at he
      split at he
      · cases he; exact ctl (.same rfl rfl)
      · split at he <;> cases he <;> exact ctl (remove_says _ _)
  | rxAdjust mem len idx =>
    simp only [step, Option.map_eq_some_iff] at h
    obtain ⟨⟨r, c1⟩, he, rfl⟩ := h
    unfold doWindowAdjust at he
    split at he
    · cases he
    · cases he; exact ctl (.same rfl rfl)
    split at he
    · cases he; exact ctl (.same rfl rfl)
    split at he <;> cases he <;> exact ctl (.same rfl rfl)
  | rxEof mem len idx e =>
    simp only [step, Option.map_eq_some_iff] at h
    obtain ⟨⟨r, c1⟩, he, rfl⟩ := h
    unfold doEof at he
    split at he
    · cases he
    · cases he; exact ctl (.same rfl rfl)
    · cases hf : findSelf c _ with
      | none => rw [hf] at he; cases he; exact ctl (.same rfl rfl)
      | some q =>
        obtain ⟨i, ch⟩ := q
        rw [hf] at he
        have h1 : Says Ctl c (setChan c i { ch with eofRxd := true }) := .same rfl rfl
        have he := congrArg Prod.snd (Option.some.inj he)
        simp only at he
        have : Says Ctl c c1 := by
          rw [← he]
          by_cases ht : ch.eofTxd = false
          · simp only [if_pos ht]
            have h2 := h1.trans (sendEof_says (setChan c i { ch with eofRxd := true }) ch.peerId e)
            exact ⟨h2.keying, h2.out⟩
          · simp only [if_neg ht]
            exact ⟨h1.keying, h1.out⟩
        exact ctl this
  | rxClose mem len idx e =>
    simp only [step, Option.map_eq_some_iff] at h
    obtain ⟨⟨r, c1⟩, he, rfl⟩ := h
    unfold doClose at he
    split at he
    · cases he
    · cases he; exact ctl (.same rfl rfl)
    · cases hf : findSelf c _ with
      | none => rw [hf] at he; cases he; exact ctl (.same rfl rfl)
      | some q =>
        obtain ⟨i, ch⟩ := q
        rw [hf] at he
        simp only at he
        generalize hrc : (if ch.closeTxd = false then sendClose c ch.peerId e else (none, c)) = rc at he
        have h1 : Says Ctl c rc.2 := by
          rw [← hrc]; split
          · exact sendClose_says _ _ _
          · exact .same rfl rfl
        split at he
        · cases he; exact ctl h1
        · split at he
          · cases he; exact ctl (h1.trans (remove_says _ _))
          · rename_i id _ _ _ _ _ _
            have h2 := h1.trans (remove_says rc.2 _ : Says Ctl rc.2 (removeSelf rc.2 id).2)
            cases he; exact ctl ⟨h2.keying, h2.out⟩
  | exit id e1 e2 =>
    cases h
    exact ctl (channelExit_says c id e1 e2)
  | streamExit o es =>
    cases h
    exact ctl (streamExit_says c o es)
  | shutdown ww es => cases h; exact ctl (shutdown_says _ _ _)
  | free id => cases h; exact ctl (remove_says _ _)
  | rekey =>
    cases h
    rcases (startKeying_flushed c).out with ⟨h1, h2⟩ | ⟨h1, h2, h3⟩
    · exact ⟨fun hk => h1.trans hk, [], by rw [h2, List.append_nil], fun _ h => nomatch h⟩
    · refine ⟨fun _ => h2, [.kexInit], h3, fun m hm => ?_⟩
      rw [List.mem_singleton.1 hm]
      exact ⟨rfl, fun h => nomatch h⟩

theorem step_calm {c c' : Conn} (hi : Inv c) {x : In} (hx : WellFormed c x) (h : step c x = some c')
    (hs : isSend x = false) (hk : isKeyed x = false) :
    ∃ l, c'.out = c.out ++ l ∧ ∀ m ∈ l, Calm c.keying m := (step_says hi hx h hs hk).2

end Wolf.Channel
