import Verif.Proofs.ChannelTie
/-! What each step and each run sends, seen from one channel. -/

namespace Wolf.Channel
open Wolf Wolf.Wire Wolf.NameList Wolf.Buffer Spec.Buffer Spec.Channel Props.Buffer

/-- How the sending side of a channel goes on in a step that queues `l`. -/
structure Sends (c : Conn) (x : In) (l : List OutMsg) (ch ch' : Chan) : Prop where
  id : ch'.id = ch.id
  initial : ch'.g.initial = ch.g.initial
  peer : confirms ch.id x = true ∨ ch'.peerId = ch.peerId
  granted : confirms ch.id x = true ∨ ch'.g.granted = ch.g.granted + grantedBy ch.id c x
  credit : ∃ ks : List Nat, ch'.g.credited = ch.g.credited + ks.sum ∧ (ks.map (OutMsg.adjust ch.peerId)).Sublist l
  log : ∃ t : List Tx, ch'.g.tx = ch.g.tx ++ t ∧ (t.map (onWire ch.peerId)).Sublist l ∧
    dataBytes t = (sentBy ch.id c x).length

/-- A channel that has just come into being. -/
structure Newborn (c : Conn) (ch : Chan) : Prop where
  id : ∀ d ∈ c.chans, d.id ≠ ch.id
  initial : ch.g.initial = c.ctxWindow
  credited : ch.g.credited = 0
  tx : ch.g.tx = []

def Sent (c : Conn) (x : In) (c' : Conn) : Prop :=
  ∃ l, c'.out = c.out ++ l ∧ ∀ ch' ∈ c'.chans, (∃ ch ∈ c.chans, Sends c x l ch ch') ∨ Newborn c ch'

theorem dataBytes_zero {p : Nat} {t : List Tx} {l : List OutMsg} (h : (t.map (onWire p)).Sublist l)
    (hl : ∀ m ∈ l, carriesData m = false) : dataBytes t = 0 := by
  have h1 : ∀ a ∈ t, carriesData (onWire p a) = false := fun a ha => hl _ (h.subset (List.mem_map_of_mem ha))
  clear h
  induction t with
  | nil => rfl
  | cons a t ih =>
    have := ih fun b hb => h1 b (List.mem_cons_of_mem _ hb)
    have ha := h1 a List.mem_cons_self
    cases a with
    | data b => cases ha
    | ext b => cases ha
    | _ => simpa [dataBytes] using this

/-- Steps that send no data and get no window. -/
theorem Sent.of_tie {c c' : Conn} {x : In} (h : Tie c c') (hg : ∀ id, grantedBy id c x = 0)
    (hs : ∀ id, sentBy id c x = []) (hc : ∀ l, c'.out = c.out ++ l → ∀ m ∈ l, carriesData m = false) : Sent c x c' := by
  obtain ⟨l, e, f⟩ := h
  refine ⟨l, e, fun ch' hm => .inl ?_⟩
  obtain ⟨ch, hm', ht⟩ := f ch' hm
  obtain ⟨t, e1, e2⟩ := ht.log
  refine ⟨ch, hm', ht.id, ht.initial, .inr ht.peer, .inr (by rw [hg]; exact ht.granted), ht.credit, t, e1, e2, ?_⟩
  rw [hs, dataBytes_zero e2 (hc l e)]; rfl

theorem queuedBy_of {c c' : Conn} {x : In} {l : List OutMsg} (h : step c x = some c') (e : c'.out = c.out ++ l) :
    queuedBy c x = l := by
  unfold queuedBy
  rw [h]
  simp only [e, List.drop_left]

/-- A send of `bytes` on the channel at position `i`. -/
theorem Sent.of_send {c c' : Conn} {x : In} (hs : Shape c) {i : Nat} {ch : Chan} {isExt : Bool} {bytes : Bytes}
    {k : List OutMsg} (hk : k = [] ∨ k = [.kexInit]) (h : c.chans[i]? = some ch) (e : c'.chans = c.chans.set i (afterSend isExt ch bytes))
    (ho : c'.out = c.out ++ (k ++ [if isExt then .ext ch.peerId bytes else .data ch.peerId bytes]))
    (hx : step c x = some c') (hg : ∀ id, grantedBy id c x = 0)
    (h1 : sentBy ch.id c x = (queuedBy c x).flatMap payload) (h2 : ∀ id, id ≠ ch.id → sentBy id c x = []) :
    Sent c x c' := by
  refine ⟨_, ho, fun d' hd => .inl ?_⟩
  rw [queuedBy_of hx ho] at h1
  rw [e] at hd
  obtain ⟨j, hj⟩ := List.mem_iff_getElem?.1 hd
  rw [List.getElem?_set] at hj
  split at hj
  · rename_i hij
    subst hij
    split at hj
    · cases hj
      refine ⟨ch, List.mem_of_getElem? h, rfl, rfl, .inr rfl, .inr (by rw [hg]; rfl), ⟨[], rfl, List.nil_sublist _⟩,
        [if isExt then .ext bytes else .data bytes], rfl, ?_, ?_⟩
      · cases isExt <;> exact List.sublist_append_right _ _
      · rw [h1]; rcases hk with rfl | rfl <;> cases isExt <;> simp [dataBytes, payload]
    · cases hj
  · rename_i hij
    have hne : d'.id ≠ ch.id := by
      intro he
      exact hij (nodup_get_inj hs.nodup (a := ch.id) (by simp [h]) (by simp [hj, he]))
    exact ⟨d', List.mem_of_getElem? hj, rfl, rfl, .inr rfl, .inr (by rw [hg]; rfl), ⟨[], rfl, List.nil_sublist _⟩,
      [], (List.append_nil _).symm, List.nil_sublist _, by rw [h2 _ hne]; rfl⟩

theorem Sent.same {c c1 : Conn} {x : In} (hg : ∀ id, grantedBy id c x = 0) (hx : step c x = some c1)
    (hfl : Flushed c c1) (hs : isSend x = true) : Sent c x c1 := by
  obtain ⟨k, hk, hk2⟩ := hfl.grow
  refine ⟨k, hk, fun ch hm => .inl ⟨ch, hfl.chans ▸ hm, rfl, rfl, .inr rfl, .inr (by rw [hg]; rfl),
    ⟨[], rfl, List.nil_sublist _⟩, [], (List.append_nil _).symm, List.nil_sublist _, ?_⟩⟩
  have hq : (queuedBy c x).flatMap payload = [] := by
    rw [queuedBy_of hx hk]; rcases hk2 with rfl | rfl <;> rfl
  have : ∀ id, sentBy id c x = [] := by
    intro id
    cases x with
    | send => unfold sentBy; simp only; rw [hq]; exact ite_self _
    | streamSend => unfold sentBy; simp only; rw [hq]; exact ite_self _
    | _ => cases hs
  rw [this]; rfl

theorem updatePeer_granted (ch : Chan) (p w m : Nat) : (updatePeer ch p w m).g.tx = ch.g.tx := rfl

theorem Newborn.of_new {c : Conn} {id ctype window maxPacket : Nat} {m : Bytes} {byPeer : Bool}
    (h : ∀ d ∈ c.chans, d.id ≠ id) (hw : window = c.ctxWindow) :
    Newborn c (newChan id ctype window maxPacket m byPeer) := ⟨h, hw, rfl, rfl⟩

theorem doOpen_new {c c' : Conn} {r : Ret} (hi : Inv c) (E : OpenEnv) {mem : Bytes} {len idx : Nat}
    (hroom : c.chans.length + 1 < 2^32) (h : doOpen c E mem len idx = some (r, c')) :
    c'.chans = c.chans ∨ ∃ ch, c'.chans = c.chans ++ [ch] ∧ Newborn c ch := by
  have hfail : ∀ (d : Conn) p q, (sendOpenFail d p q E.send).2.chans = d.chans := by
    intro d p q; unfold sendOpenFail; split <;> rfl
  have hconf : ∀ (d : Conn) p, (sendOpenConf d p E.send).2.chans = d.chans := by
    intro d p; unfold sendOpenConf; split <;> rfl
  have hf2 : ∀ (d : Conn) p q, some (sendOpenFail d p q E.send) = some (r, c') → d.chans = c.chans →
      c'.chans = c.chans := by
    intro d p q he hd
    rw [← hd, ← hfail d p q, Option.some.inj he]
  unfold doOpen at h
  split at h
  · cases h
  · exact .inl (hf2 _ _ _ h rfl)
  split at h
  · cases h
  · exact .inl (hf2 _ _ _ h rfl)
  split at h
  · cases h
  · exact .inl (hf2 _ _ _ h rfl)
  generalize OpenMsg.mk _ _ _ _ = om at h
  unfold answerOpen at h
  split at h
  · cases h
  · exact .inl (hf2 _ _ _ h rfl)
  rcases channelNew_eff hi hroom om.typeId c.ctxMaxPacket E.buffer true with ⟨_, hn⟩ | ⟨bm, id, hbm, hid, hfresh, hn⟩
  · rw [hn] at h
    exact .inl (hf2 c _ _ h rfl)
  · rw [hn] at h
    simp only at h
    split at h
    · exact .inl (hf2 { c with nextChannel := add32 id 1 } _ _ h rfl)
    · refine .inr ⟨updatePeer (newChan id om.typeId c.ctxWindow c.ctxMaxPacket bm true) om.peerId om.window om.maxPacket, ?_, ?_⟩
      · have := congrArg (·.2.chans) (Option.some.inj h)
        simp only [hconf, append_chans] at this
        exact this.symm
      · exact ⟨hfresh, rfl, rfl, rfl⟩

theorem openLocal_new {c c' : Conn} {r : Ret} (hi : Inv c) {keep : Bool} {ctype : Nat} {buffer : Option Bytes} {cb : Ret}
    {e : SendEnv} (hroom : c.chans.length + 1 < 2^32) (h : openLocal c keep ctype buffer cb e = some (r, c')) :
    c'.chans = c.chans ∨ ∃ ch, c'.chans = c.chans ++ [ch] ∧ Newborn c ch := by
  unfold openLocal at h
  rcases channelNew_eff hi hroom ctype c.ctxMaxPacket buffer false with ⟨_, hn⟩ | ⟨bm, id, hbm, hid, hfresh, hn⟩
  · simp only [hn] at h
    cases h; exact .inl rfl
  · simp only [hn] at h
    have key : ∀ (d : Conn), d.chans = c.chans → ∀ q, some (q, append d (newChan id ctype c.ctxWindow c.ctxMaxPacket bm false)) = some (r, c') →
        c'.chans = c.chans ∨ ∃ ch, c'.chans = c.chans ++ [ch] ∧ Newborn c ch := by
      intro d hd q he
      refine .inr ⟨_, ?_, (Newborn.of_new hfresh rfl : Newborn c (newChan id ctype c.ctxWindow c.ctxMaxPacket bm false))⟩
      have := congrArg (·.2.chans) (Option.some.inj he)
      simp only [append_chans, hd] at this
      exact this.symm
    split at h
    · cases h; exact .inl rfl
    · split at h
      · split at h
        · exact key { c with nextChannel := add32 id 1, out := c.out ++ [.openReq id] } rfl _ h
        · cases h; exact .inl rfl
      · split at h
        · cases h; exact .inl rfl
        · exact key { c with nextChannel := add32 id 1, out := c.out ++ [.openReq id] } rfl _ h

theorem Sent.of_new {c c' : Conn} {x : In} (h : c'.chans = c.chans ∨ ∃ ch, c'.chans = c.chans ++ [ch] ∧ Newborn c ch)
    (ho : ∃ l, c'.out = c.out ++ l) (hg : ∀ id, grantedBy id c x = 0) (hs : ∀ id, sentBy id c x = []) : Sent c x c' := by
  obtain ⟨l, ho⟩ := ho
  have old : ∀ ch ∈ c.chans, Sends c x l ch ch := fun ch _ =>
    ⟨rfl, rfl, .inr rfl, .inr (by rw [hg]; rfl), ⟨[], rfl, List.nil_sublist _⟩, [], (List.append_nil _).symm, List.nil_sublist _,
      by rw [hs]; rfl⟩
  refine ⟨l, ho, fun d hd => ?_⟩
  rcases h with h | ⟨ch, h, hn⟩
  · rw [h] at hd; exact .inl ⟨d, hd, old d hd⟩
  · rw [h] at hd
    rcases List.mem_append.1 hd with hd | hd
    · exact .inl ⟨d, hd, old d hd⟩
    · simp at hd; subst hd; exact .inr hn

theorem doData_tie {c c' : Conn} (hi : Inv c) {mem : Bytes} {len idx : Nat}
    (h : step c (.rxData mem len idx) = some c') : Tie c c' := by
  simp only [step, Option.map_eq_some_iff] at h
  obtain ⟨⟨r, c1⟩, he, rfl⟩ := h
  unfold doData at he
  split at he
  · cases he
  · cases he; exact .refl rfl rfl
  split at he
  · cases he; exact .refl rfl rfl
  cases hf : findSelf c _ with
  | none => rw [hf] at he; cases he; exact .refl rfl rfl
  | some q =>
    obtain ⟨i, ch⟩ := q
    obtain ⟨hc, hid⟩ := Shape.findSelf_some hf
    have hg := hi.get hc
    rw [hf] at he
    simp only at he
    split at he
    · cases he; exact .refl rfl rfl
    split at he
    · cases he
    rename_i d _
    rcases putData_eff hg.rx d with ⟨r', hpd, hwhy⟩ | ⟨m, hpd, hle2, hok, hun⟩
    · rw [hpd] at he; cases he; exact .refl rfl rfl
    · rw [hpd] at he; cases he
      exact .of_set0 hc rfl rfl (.other rfl rfl rfl rfl rfl rfl)

theorem putExt_tied (ch : Chan) (b : Buf) (d : Bytes) (w : Nat) : Tied [] ch (putExt ch b d w) :=
  .other rfl rfl rfl rfl rfl rfl

theorem doExtData_tie {c c' : Conn} (hi : Inv c) {alloc : Nat → Option Bytes} {mem : Bytes} {len idx : Nat} {e : SendEnv}
    (h : step c (.rxExt alloc mem len idx e) = some c') : Tie c c' := by
  simp only [step, Option.map_eq_some_iff] at h
  obtain ⟨⟨r, c1⟩, he, rfl⟩ := h
  unfold doExtData at he
  split at he
  · cases he
  · cases he; exact .refl rfl rfl
  cases hf : findSelf c _ with
  | none => rw [hf] at he; cases he; exact .refl rfl rfl
  | some q =>
    obtain ⟨i, ch⟩ := q
    have hc := (Shape.findSelf_some hf).1
    have hg := hi.get hc
    rw [hf] at he
    simp only at he
    split at he
    · cases he; exact .refl rfl rfl
    split at he
    · cases he; exact .refl rfl rfl
    split at he
    · obtain ⟨d, _, hst⟩ := Option.bind_eq_some_iff.1 he
      have : Tie c c1 := by
        unfold storeExt at hst
        obtain ⟨⟨r1, b1⟩, _, h1⟩ := Option.map_eq_some_iff.1 hst
        have e2 := congrArg Prod.snd h1
        cases r1 with
        | none =>
          simp only at e2; rw [← e2]
          exact .of_set0 hc rfl rfl (putExt_tied ch b1 d _)
        | some r1 =>
          simp only at e2; rw [← e2]
          exact .of_set0 hc (ch' := { ch with ext := b1 }) rfl rfl (.other rfl rfl rfl rfl rfl rfl)
      exact this
    · have e2 := congrArg Prod.snd (Option.some.inj he)
      simp only at e2
      have : Tie c c1 := by
        rw [← e2]; exact dropExt_tie hi hc _ _ _
      exact this

theorem doOpenConf_sent {c c' : Conn} {mem : Bytes} {len idx : Nat} {cb : Ret}
    (hx : WellFormed c (.rxOpenConf mem len idx cb)) (h : step c (.rxOpenConf mem len idx cb) = some c') :
    Sent c (.rxOpenConf mem len idx cb) c' := by
  simp only [step, Option.map_eq_some_iff] at h
  obtain ⟨⟨r, c1⟩, he, rfl⟩ := h
  have same : c1 = c → Sent c (.rxOpenConf mem len idx cb) c1 := by
    rintro rfl
    exact .of_new (.inl rfl) ⟨[], (List.append_nil _).symm⟩ (fun _ => rfl) (fun _ => rfl)
  unfold doOpenConf at he
  rcases parseConf_cases idx hx.1 hx.2 with ⟨e, i, hp, hm⟩ | ⟨id, peer, win, mx, hp, _, hw, hm⟩
  · rw [hp] at he; cases he; exact same rfl
  rw [hp] at he
  simp only at he
  cases hf : findSelf c id with
  | none => rw [hf] at he; cases he; exact same rfl
  | some q =>
    obtain ⟨i, ch⟩ := q
    obtain ⟨hc, hid⟩ := Shape.findSelf_some hf
    rw [hf] at he
    have hm' : confMsg ((mem.take len).drop idx) = some (id, peer, win, mx) := hm
    have e1 : c1.chans = c.chans.set i (updatePeer ch peer win mx) := by
      simp only at he
      split at he <;> cases he <;> rfl
    have e2 : c1.out = c.out := by
      simp only at he
      split at he <;> cases he <;> rfl
    refine ⟨[], by rw [e2, List.append_nil], fun d hd => .inl ?_⟩
    rw [e1] at hd
    rcases List.mem_or_eq_of_mem_set hd with hd | rfl
    · exact ⟨d, hd, rfl, rfl, .inr rfl, .inr rfl, ⟨[], rfl, List.nil_sublist _⟩, [], (List.append_nil _).symm, List.nil_sublist _, rfl⟩
    · refine ⟨ch, List.mem_of_getElem? hc, rfl, rfl, .inl ?_, .inl ?_, ⟨[], rfl, List.nil_sublist _⟩, [], (List.append_nil _).symm, List.nil_sublist _, rfl⟩ <;>
      simp [confirms, hm', hid]

theorem doAdjust_sent {c c' : Conn} (hi : Inv c) {mem : Bytes} {len idx : Nat}
    (hx : WellFormed c (.rxAdjust mem len idx)) (h : step c (.rxAdjust mem len idx) = some c') :
    Sent c (.rxAdjust mem len idx) c' := by
  simp only [step, Option.map_eq_some_iff] at h
  obtain ⟨⟨r, c1⟩, he, rfl⟩ := h
  have hr : (doWindowAdjust c mem len idx).map (·.1) = some r := by rw [he]; rfl
  have same : c1 = c → (∀ id, grantedBy id c (.rxAdjust mem len idx) = 0) → Sent c (.rxAdjust mem len idx) c1 := by
    rintro rfl h
    exact .of_new (.inl rfl) ⟨[], (List.append_nil _).symm⟩ h (fun _ => rfl)
  rcases parseAdjust_cases idx hx.1 hx.2 with ⟨e, i, hp, hm⟩ | ⟨id, n, hp, _, hn, hm⟩
  · unfold doWindowAdjust at he
    rw [hp] at he; cases he
    have hd : adjustMsg ((mem.take len).drop idx) = none := hm
    exact same rfl (fun id => by simp [grantedBy, hd])
  have hd : adjustMsg ((mem.take len).drop idx) = some (id, n) := hm
  have hgr : ∀ j, grantedBy j c (.rxAdjust mem len idx) = if r = none ∧ id = j then n else 0 := by
    intro j
    unfold grantedBy
    simp only [hd, hr, Option.some.injEq]
  unfold doWindowAdjust at he
  rw [hp] at he
  simp only at he
  cases hf : findSelf c id with
  | none => rw [hf] at he; cases he; exact same rfl (fun j => by rw [hgr]; exact if_neg (by simp))
  | some q =>
    obtain ⟨i, ch⟩ := q
    obtain ⟨hc, hid⟩ := Shape.findSelf_some hf
    rw [hf] at he
    simp only at he
    split at he
    · cases he; exact same rfl (fun j => by rw [hgr]; exact if_neg (by simp))
    · obtain ⟨w, hw⟩ : ∃ w, addPeerWindow ch n = { ch with
          peerWindowSz := w, g := { ch.g with granted := ch.g.granted + n } } := ⟨_, rfl⟩
      rw [hw] at he
      cases he
      refine ⟨[], (List.append_nil _).symm, fun d hd => .inl ?_⟩
      obtain ⟨j, hj⟩ := List.mem_iff_getElem?.1 hd
      simp only [setChan] at hj
      rw [List.getElem?_set] at hj
      split at hj
      · rename_i hij
        subst hij
        split at hj
        · cases hj
          refine ⟨ch, List.mem_of_getElem? hc, rfl, rfl, .inr rfl, .inr ?_, ⟨[], rfl, List.nil_sublist _⟩, [], (List.append_nil _).symm,
            List.nil_sublist _, rfl⟩
          rw [hgr, if_pos ⟨rfl, hid.symm⟩]
        · cases hj
      · rename_i hij
        have hne : d.id ≠ ch.id := by
          intro he
          exact hij (nodup_get_inj hi.shape.nodup (a := ch.id) (by simp [hc]) (by simp [hj, he]))
        refine ⟨d, List.mem_of_getElem? hj, rfl, rfl, .inr rfl, .inr ?_, ⟨[], rfl, List.nil_sublist _⟩, [], (List.append_nil _).symm,
          List.nil_sublist _, rfl⟩
        rw [hgr, if_neg (by rw [← hid]; exact fun h => hne h.2.symm)]; rfl

/-- In every step, what the history of a channel says was sent has been queued, and its window grows
by what the peer granted. -/
theorem step_sent {c c' : Conn} (hi : Inv c) {x : In} (hx : WellFormed c x) (h : step c x = some c') :
    Sent c x c' := by
  have tie : isSend x = false → isKeyed x = false → Tie c c' → (∀ id, grantedBy id c x = 0) → (∀ id, sentBy id c x = []) →
      Sent c x c' := by
    intro h1 h2 h3 h4 h5
    obtain ⟨l, e, f⟩ := step_calm hi hx h h1 h2
    refine .of_tie h3 h4 h5 fun l' e' m hm => (f m ?_).1
    rw [e] at e'
    rw [List.append_cancel_left e']; exact hm
  cases x with
  | rxOpen E mem len idx =>
    simp only [step, Option.map_eq_some_iff] at h
    obtain ⟨⟨r, c1⟩, he, rfl⟩ := h
    exact .of_new (doOpen_new hi E hx.2.2.2 he) ((doOpen_says E hi hx.2.2.2 he).out.imp' id (fun _ h => h.1)) (fun _ => rfl) (fun _ => rfl)
  | openLocal keep ctype buffer cb e =>
    simp only [step, Option.map_eq_some_iff] at h
    obtain ⟨⟨r, c1⟩, he, rfl⟩ := h
    exact .of_new (openLocal_new hi hx.2 he) ((openLocal_says hi hx.2 he).out.imp' id (fun _ h => h.1)) (fun _ => rfl) (fun _ => rfl)
  | rxData mem len idx => exact tie rfl rfl (doData_tie hi h) (fun _ => rfl) (fun _ => rfl)
  | rxExt alloc mem len idx e => exact tie rfl rfl (doExtData_tie hi h) (fun _ => rfl) (fun _ => rfl)
  | read id n e =>
    refine tie rfl rfl ?_ (fun _ => rfl) (fun _ => rfl)
    simp only [step, Option.map_eq_some_iff] at h
    obtain ⟨⟨r, c1⟩, he, rfl⟩ := h
    unfold channelIdRead at he
    cases hf : findSelf c id with
    | none => rw [hf] at he; cases he; exact .refl rfl rfl
    | some q =>
      obtain ⟨i, ch⟩ := q
      rw [hf] at he
      exact channelRead_tie hi (Shape.findSelf_some hf).1 he
  | readExt static id n e =>
    refine tie rfl rfl ?_ (fun _ => rfl) (fun _ => rfl)
    simp only [step, Option.map_eq_some_iff] at h
    obtain ⟨⟨r, c1⟩, he, rfl⟩ := h
    exact channelReadExt_tie hi he
  | streamRead n e =>
    refine tie rfl rfl ?_ (fun _ => rfl) (fun _ => rfl)
    simp only [step, Option.map_eq_some_iff] at h
    obtain ⟨⟨r, c1⟩, he, rfl⟩ := h
    exact streamRead_tie hi he
  | rxOpenConf mem len idx cb => exact doOpenConf_sent hx h
  | rxOpenFail mem len idx cb =>
    refine tie rfl rfl ?_ (fun _ => rfl) (fun _ => rfl)
    simp only [step, Option.map_eq_some_iff] at h
    obtain ⟨⟨r, c1⟩, he, rfl⟩ := h
    unfold doOpenFail at he
    split at he
    · cases he
    · cases he; exact .refl rfl rfl
    · simp only at he
      split at he
      · cases he; exact .refl rfl rfl
      · split at he <;> cases he <;> exact remove_tie _ _
  | rxAdjust mem len idx => exact doAdjust_sent hi hx h
  | rxEof mem len idx e =>
    refine tie rfl rfl ?_ (fun _ => rfl) (fun _ => rfl)
    simp only [step, Option.map_eq_some_iff] at h
    obtain ⟨⟨r, c1⟩, he, rfl⟩ := h
    unfold doEof at he
    split at he
    · cases he
    · cases he; exact .refl rfl rfl
    · cases hf : findSelf c _ with
      | none => rw [hf] at he; cases he; exact .refl rfl rfl
      | some q =>
        obtain ⟨i, ch⟩ := q
        rw [hf] at he
        have h1 : Tie c (setChan c i { ch with eofRxd := true }) :=
          .of_set0 (Shape.findSelf_some hf).1 rfl rfl (.other rfl rfl rfl rfl rfl rfl)
        have he := congrArg Prod.snd (Option.some.inj he)
        simp only at he
        have : Tie c c1 := by
          rw [← he]
          by_cases ht : ch.eofTxd = false
          · simp only [if_pos ht]
            have h2 := h1.trans (sendEof_tie (setChan c i { ch with eofRxd := true }) ch.peerId e)
            exact h2
          · simp only [if_neg ht]
            exact h1
        exact this
  | rxClose mem len idx e =>
    refine tie rfl rfl ?_ (fun _ => rfl) (fun _ => rfl)
    simp only [step, Option.map_eq_some_iff] at h
    obtain ⟨⟨r, c1⟩, he, rfl⟩ := h
    unfold doClose at he
    split at he
    · cases he
    · cases he; exact .refl rfl rfl
    · cases hf : findSelf c _ with
      | none => rw [hf] at he; cases he; exact .refl rfl rfl
      | some q =>
        obtain ⟨i, ch⟩ := q
        rw [hf] at he
        simp only at he
        generalize hrc : (if ch.closeTxd = false then sendClose c ch.peerId e else (none, c)) = rc at he
        have h1 : Tie c rc.2 := by
          rw [← hrc]; split
          · exact sendClose_tie _ _ _
          · exact .refl rfl rfl
        split at he
        · cases he; exact h1
        · split at he <;> cases he <;> exact h1.trans (remove_tie _ _)
  | send isExt id data flush e =>
    have hx' := h
    simp only [step, Option.some.injEq] at h
    unfold channelSend at h
    cases hf : findSelf c id with
    | none => rw [hf] at h; simp only at h; subst h; exact .same (fun _ => rfl) hx' (.refl _) rfl
    | some q =>
      obtain ⟨i, ch⟩ := q
      obtain ⟨hc, hid⟩ := Shape.findSelf_some hf
      rw [hf] at h
      simp only at h
      split at h
      · simp only at h; subst h; exact .same (fun _ => rfl) hx' (.refl _) rfl
      · rcases sendData_eff (isExt := isExt) (c := c) (id := id) (data := data) (flush := flush) (e := e)
          (fun ch hc => (hi.good ch hc).tx.lt) with ⟨c1, hfl, h', _⟩ | ⟨c1, i', ch', n, hfl, _, hf', _, _, _, _, hn, hw, _, _, _, h', _⟩
        · rw [h'] at h; subst h; exact .same (fun _ => rfl) hx' hfl rfl
        · rw [hf] at hf'; cases hf'
          rw [h'] at h
          obtain ⟨k, hk, hk2⟩ := hfl.grow
          refine .of_send (ch := ch) hi.shape hk2 hc (isExt := isExt) (bytes := data.take n) (by rw [← h])
            (by rw [← h, ← List.append_assoc, ← hk]) hx'
            (fun _ => rfl) ?_ ?_
          · unfold sentBy; simp only; exact if_pos hid.symm
          · intro j hj; unfold sentBy; simp only; exact if_neg (by rw [← hid]; exact fun h => hj h.symm)
  | streamSend isExt data flush e =>
    have hx' := h
    simp only [step, Option.some.injEq] at h
    unfold streamSend at h
    cases hcs : c.chans with
    | nil => rw [hcs] at h; simp only at h; subst h; exact .same (fun _ => rfl) hx' (.refl _) rfl
    | cons ch rest =>
      have hc : c.chans[0]? = some ch := by rw [hcs]; rfl
      have hf := hi.shape.findSelf_get hc
      rw [hcs] at h
      simp only at h
      split at h
      · simp only at h; subst h; exact .same (fun _ => rfl) hx' (.refl _) rfl
      · rcases sendData_eff (isExt := isExt) (c := c) (id := ch.id) (data := data) (flush := flush) (e := e)
          (fun ch hc => (hi.good ch hc).tx.lt) with ⟨c1, hfl, h', _⟩ | ⟨c1, i', ch', n, hfl, _, hf', _, _, _, _, hn, hw, _, _, _, h', _⟩
        · rw [h'] at h; subst h; exact .same (fun _ => rfl) hx' hfl rfl
        · rw [hf] at hf'; cases hf'
          rw [h'] at h
          have h1 : firstId c = some ch.id := by unfold firstId; rw [hcs]; rfl
          obtain ⟨k, hk, hk2⟩ := hfl.grow
          refine .of_send (ch := ch) hi.shape hk2 hc (isExt := isExt) (bytes := data.take n) (by rw [← h])
            (by rw [← h, ← List.append_assoc, ← hk]) hx'
            (fun _ => rfl) ?_ ?_
          · unfold sentBy; simp only; exact if_pos h1
          · intro j hj; unfold sentBy; simp only; exact if_neg (by rw [h1]; exact fun h => hj (Option.some.inj h).symm)
  | exit id e1 e2 =>
    exact tie rfl rfl (by cases h; exact channelExit_tie _ _ _ _) (fun _ => rfl) (fun _ => rfl)
  | streamExit o es =>
    exact tie rfl rfl (by cases h; exact streamExit_tie _ _ _) (fun _ => rfl) (fun _ => rfl)
  | shutdown ww es =>
    exact tie rfl rfl (by cases h; exact shutdown_tie _ _ _) (fun _ => rfl) (fun _ => rfl)
  | free id =>
    exact tie rfl rfl (by cases h; exact remove_tie _ _) (fun _ => rfl) (fun _ => rfl)
  | rekey =>
    exact tie rfl rfl (by
      cases h
      obtain ⟨k, hk, _⟩ := (startKeying_flushed c).grow
      exact .same (startKeying_flushed c).chans ⟨k, hk⟩) (fun _ => rfl) (fun _ => rfl)
  | keyed es =>
    have h1 : Inv { c with keying := false } := hi.congr rfl rfl rfl rfl
    cases h
    unfold sendPendingWindowAdjust
    simp only [Bool.false_eq_true, if_false]
    have h2 := flushPending_says es c.chans.length 0 none h1
    have h3 := flushPending_tie es c.chans.length 0 none h1
    have h4 : Tie c (flushPending es c.chans.length 0 none { c with keying := false }).2 := h3
    obtain ⟨l, e, f⟩ := h2.out
    refine .of_tie h4 (fun _ => rfl) (fun _ => rfl) fun l' e' m hm => (f m ?_).1
    rw [e] at e'
    rw [List.append_cancel_left e']; exact hm

theorem dataBytes_app (a b : List Tx) : dataBytes (a ++ b) = dataBytes a + dataBytes b := by
  induction a with
  | nil => simp [dataBytes]
  | cons x r ih => cases x <;> simp only [List.cons_append, dataBytes, ih] <;> omega

/-- Over a run with the channel open and not confirmed anew: the send window changes by what was
granted and sent, and what counts as credit was sent to the peer. -/
theorem runs_sent {id : Nat} {c c' : Conn} {xs : List In} (hr : Runs id c xs c') (hi : Inv c) {ch : Chan}
    (hm : ch ∈ c.chans) (hid : ch.id = id) (hc : ∀ x ∈ xs, confirms id x = false) :
    ∃ ch' ∈ c'.chans, ch'.id = id ∧ ch'.peerId = ch.peerId ∧ ch'.g.initial = ch.g.initial ∧
      ch'.peerWindowSz + (over (sentBy id) c xs).length = ch.peerWindowSz + total (grantedBy id) c xs ∧
      ∃ l, c'.out = c.out ++ l ∧ (∃ ks : List Nat, ch'.g.credited = ch.g.credited + ks.sum ∧
        (ks.map (OutMsg.adjust ch.peerId)).Sublist l) ∧
        ∃ t : List Tx, ch'.g.tx = ch.g.tx ++ t ∧ (t.map (onWire ch.peerId)).Sublist l ∧
          dataBytes t = (over (sentBy id) c xs).length := by
  induction hr generalizing ch with
  | nil h =>
    exact ⟨ch, hm, hid, rfl, rfl, rfl, [], (List.append_nil _).symm, ⟨[], rfl, List.nil_sublist _⟩,
      [], (List.append_nil _).symm, List.nil_sublist _, rfl⟩
  | @cons c c1 c' x xs hh hx hs hr ih =>
    obtain ⟨c1', hs', hi1⟩ := step_inv hi x hx
    rw [hs] at hs'; cases hs'
    have hhas : Has id c1 := by cases hr <;> assumption
    obtain ⟨ch1, hm1, hid1⟩ := hhas
    obtain ⟨l, el, hl⟩ := step_sent hi hx hs
    rcases hl ch1 hm1 with ⟨ch0, hm0, hd⟩ | hn
    · have : ch0 = ch := by
        obtain ⟨i, hi'⟩ := List.mem_iff_getElem?.1 hm0
        obtain ⟨j, hj'⟩ := List.mem_iff_getElem?.1 hm
        have := nodup_get_inj hi.shape.nodup (a := id) (i := i) (j := j)
          (by simp [hi', ← hd.id, hid1]) (by simp [hj', hid])
        subst this
        rw [hi'] at hj'; exact Option.some.inj hj'
      subst this
      have hcx := hc x List.mem_cons_self
      rw [← hid] at hcx
      have hpe : ch1.peerId = ch0.peerId := by
        rcases hd.peer with h | h
        · rw [hcx] at h; cases h
        · exact h
      have hgr : ch1.g.granted = ch0.g.granted + grantedBy id c x := by
        rw [← hid]
        rcases hd.granted with h | h
        · rw [hcx] at h; cases h
        · exact h
      obtain ⟨ch', hm', e1, e2, e3, e4, l2, e5, ⟨k2, e6, e7⟩, t2, e8, e9, e10⟩ :=
        ih hi1 hm1 hid1 (fun y hy => hc y (List.mem_cons_of_mem _ hy))
      obtain ⟨k1, f1, f2⟩ := hd.credit
      obtain ⟨t1, f3, f4, f5⟩ := hd.log
      have b0 := (hi.good ch0 hm0).tx
      have b1 := (hi1.good ch1 hm1).tx
      rw [hpe] at e7 e9
      refine ⟨ch', hm', e1, e2.trans hpe, e3.trans hd.initial, ?_, l ++ l2, by rw [e5, el, List.append_assoc],
        ⟨k1 ++ k2, by rw [e6, f1, List.sum_append, Nat.add_assoc], by rw [List.map_append]; exact f2.append e7⟩,
        t1 ++ t2, by rw [e8, f3, List.append_assoc], by rw [List.map_append]; exact f4.append e9,
        by rw [dataBytes_app, e10, f5, hid]; simp only [over, hs, List.length_append]⟩
      have hsent : ch1.g.sent = ch0.g.sent + (sentBy id c x).length := by
        rw [b1.sent, b0.sent, f3, ← hid, ← f5]
        rw [dataBytes_app]
      simp only [over, total, hs, List.length_append]
      have := b0.balance
      have := b1.balance
      omega
    · exact absurd (hid.trans hid1.symm) (hn.id ch hm)

end Wolf.Channel
