import Verif.Proofs.ChannelHist
/-! The recorded history of a channel is what was seen from outside: stderr, reads, opens, all steps. -/

namespace Wolf.Channel
open Wolf Wolf.Wire Wolf.NameList Wolf.Buffer Spec.Buffer Spec.Channel Props.Buffer

theorem dropExt_frame {c : Conn} (hi : Inv c) {i : Nat} {ch : Chan} (h : c.chans[i]? = some ch)
    (id n : Nat) (e : SendEnv) : Frame c (dropExt c i ch id n e).2 := by
  have hs : Shape (setChan c i { ch with g := { ch.g with dropped := ch.g.dropped + n } }) := hi.shape.set h rfl
  have h1 : Frame c (setChan c i { ch with g := { ch.g with dropped := ch.g.dropped + n } }) :=
    .of_set h (ch' := { ch with g := { ch.g with dropped := ch.g.dropped + n } }) rfl rfl
  exact h1.trans (creditWindow_frame hs (get_set h) (hi.get h).rx.pend n e)

theorem storeExt_eff {alloc : Nat → Option Bytes} (ha : Allocator alloc) (c : Conn) (i : Nat) {ch : Chan}
    (hg : RxGood ch) (id n : Nat) (d : Bytes) :
    (∃ b', storeExt alloc c i ch id n d =
      some (some .extData, { setChan c i (putExt ch b' d (sub32 ch.windowSz n)) with lastRxId := id })) ∨
    (∃ r, r ≠ .extData ∧ storeExt alloc c i ch id n d = some (some r, setChan c i ch)) := by
  unfold storeExt
  obtain ⟨r', b', hap, hok, hres⟩ := C38_append alloc ha ch.ext hg.extOk d
  rw [hap, Option.map_some]
  rcases hres with ⟨rfl, hun⟩ | ⟨rfl, rfl, _⟩ | ⟨rfl, rfl, _⟩
  · exact .inl ⟨b', rfl⟩
  · exact .inr ⟨_, by simp, rfl⟩
  · exact .inr ⟨_, by simp, rfl⟩

theorem putExt_delta {c : Conn} {x : In} {ch : Chan} {b : Buf} {d : Bytes} {w : Nat}
    (h1 : acceptedBy ch.id c x = []) (h2 : acceptedExtBy ch.id c x = d) (h3 : returnedBy ch.id c x = [])
    (h4 : returnedExtBy ch.id c x = []) : Delta c x ch (putExt ch b d w) where
  id := rfl
  got := by rw [h1, List.append_nil]; rfl
  gotExt := by rw [h2]; rfl
  gave := by rw [h3, List.append_nil]; rfl
  gaveExt := by rw [h4, List.append_nil]; rfl
  failed _ := rfl

theorem doExtData_hist {c c' : Conn} (hi : Inv c) {alloc : Nat → Option Bytes} (ha : Allocator alloc)
    {mem : Bytes} {len idx : Nat} {e : SendEnv} (hl : len ≤ mem.length)
    (hw : len < 2^32) (h : step c (.rxExt alloc mem len idx e) = some c') :
    Hist c (.rxExt alloc mem len idx e) c' := by
  simp only [step, Option.map_eq_some_iff] at h
  obtain ⟨⟨r, c1⟩, he, rfl⟩ := h
  rcases parseExt_cases idx hl hw with ⟨e, i, hp, hm⟩ | ⟨id, code, n, hp, _, hn, hle, hm⟩
  · unfold doExtData at he
    rw [hp] at he
    cases he
    have hd : extMsg ((mem.take len).drop idx) = none := hm
    exact .of_frame (.refl rfl) (fun id => rfl) (fun _ => by simp [acceptedExtBy, hd]) (fun _ => rfl) (fun _ => rfl)
  have hd : extMsg ((mem.take len).drop idx) = some (id, code, (mem.drop (idx + 12)).take n) := hm
  have hacc : ∀ j, acceptedExtBy j c (.rxExt alloc mem len idx e) =
      if r = some .extData ∧ id = j ∧ code = 1 then (mem.drop (idx + 12)).take n else [] := by
    intro j
    unfold acceptedExtBy
    simp only
    rw [he, hd]
    by_cases hj : r = some .extData ∧ id = j ∧ code = 1
    · rw [if_pos hj]; exact if_pos ⟨congrArg some hj.1, hj.2⟩
    · rw [if_neg hj]; exact if_neg (fun h => hj ⟨Option.some.inj h.1, h.2⟩)
  have quiet : Frame c c1 → (r ≠ some .extData ∨ code ≠ 1) → Hist c (.rxExt alloc mem len idx e) c1 := by
    intro hfr hne
    refine .of_frame hfr (fun _ => rfl) (fun j => ?_) (fun _ => rfl) (fun _ => rfl)
    rw [hacc, if_neg]
    rintro ⟨h1, _, h2⟩
    rcases hne with h | h
    · exact h h1
    · exact h h2
  unfold doExtData at he
  rw [hp] at he
  simp only at he
  cases hf : findSelf c id with
  | none => rw [hf] at he; cases he; exact quiet (.refl rfl) (.inl (by simp))
  | some q =>
    obtain ⟨i, ch⟩ := q
    obtain ⟨hc, hid⟩ := Shape.findSelf_some hf
    have hg := hi.get hc
    rw [hf] at he
    simp only at he
    by_cases hmx : n > ch.maxPacketSz
    · rw [if_pos hmx] at he; cases he; exact quiet (.refl rfl) (.inl (by simp))
    rw [if_neg hmx] at he
    by_cases hwd : n > ch.windowSz
    · rw [if_pos hwd] at he; cases he; exact quiet (.refl rfl) (.inl (by simp))
    rw [if_neg hwd] at he
    by_cases hcode : code = 1
    · rw [if_pos hcode] at he
      obtain ⟨hsl, hsn⟩ := slice_some (show idx + 12 + n ≤ mem.length by omega)
      rw [hsl, Option.bind_some] at he
      rcases storeExt_eff ha c i hg.rx id n ((mem.drop (idx + 12)).take n) with ⟨b', hs⟩ | ⟨x, hx, hs⟩
      · rw [hs] at he
        have he := Option.some.inj he
        have e1 : some .extData = r := congrArg Prod.fst he
        have e2 : c1.chans = c.chans.set i (putExt ch b' ((mem.drop (idx + 12)).take n) (sub32 ch.windowSz n)) :=
          (congrArg (·.2.chans) he).symm
        refine .of_set hi.shape hc e2
          (putExt_delta rfl (by rw [hacc, if_pos ⟨e1.symm, hid.symm, hcode⟩]) rfl rfl)
          (fun _ _ => rfl) ?_ (fun _ _ => rfl) (fun _ _ => rfl)
        · intro j hj; rw [hacc, if_neg (by rw [← hid]; exact fun h => hj h.2.1.symm)]
      · rw [hs] at he
        have he := Option.some.inj he
        have e1 : some x = r := congrArg Prod.fst he
        have e2 : c1.chans = c.chans.set i ch := (congrArg (·.2.chans) he).symm
        exact quiet (.of_set hc e2 rfl) (.inl (by rw [← e1]; exact fun h => hx (Option.some.inj h)))
    · rw [if_neg hcode] at he
      have he := Option.some.inj he
      have e2 : (dropExt c i ch id n e).2 = c1 := congrArg Prod.snd he
      have hfr := dropExt_frame hi hc id n e
      rw [e2] at hfr
      exact quiet hfr (.inr hcode)

theorem read_hist {c c' : Conn} (hi : Inv c) {id n : Nat} {e : SendEnv} (h : step c (.read id n e) = some c') :
    Hist c (.read id n e) c' := by
  simp only [step, Option.map_eq_some_iff] at h
  obtain ⟨⟨r, c1⟩, he, rfl⟩ := h
  have hret : ∀ j, returnedBy j c (.read id n e) = if id = j then okBytes (some (r, c1)) else [] := by
    intro j
    unfold returnedBy
    simp only
    rw [he]
  have quiet : ∀ x, r = .error x → c1 = c → Hist c (.read id n e) c1 := by
    rintro x rfl rfl
    exact .of_frame (.refl rfl) (fun _ => rfl) (fun _ => rfl) (fun j => by rw [hret]; exact ite_self _) (fun _ => rfl)
  have he0 := he
  unfold channelIdRead at he
  cases hf : findSelf c id with
  | none => rw [hf] at he; cases he; exact quiet _ rfl rfl
  | some q =>
    obtain ⟨i, ch⟩ := q
    obtain ⟨hc, hid⟩ := Shape.findSelf_some hf
    have hg := hi.get hc
    rw [hf] at he
    simp only at he
    by_cases hn : n = 0
    · unfold channelRead at he
      rw [hc] at he
      simp only at he
      rw [if_pos hn] at he
      cases he; exact quiet _ rfl rfl
    obtain ⟨r', c2, ch', h1, hinv, h2, hkey, _, hun, ⟨hex, hgx, _⟩, htk, hres⟩ := channelRead_eff hi hc hn e
    rw [h1] at he; cases he
    have hc' : c1.chans[i]? = some ch' := by rw [h2]; exact get_set hc
    have hg' := hinv.get hc'
    have hgot : ch'.g.got = ch.g.got := by
      rw [hg'.rx.stream, htk, hun, List.append_assoc, List.take_append_drop]; exact hg.rx.stream.symm
    have hgotx : ch'.g.gotExt = ch.g.gotExt := by
      rw [hg'.rx.streamExt, hgx, hex]; exact hg.rx.streamExt.symm
    refine .of_set hi.shape hc h2 ⟨congrArg Prod.fst hkey, hgot.trans (List.append_nil _).symm,
      hgotx.trans (List.append_nil _).symm, ?_, hgx.trans (List.append_nil _).symm, ?_⟩ (fun _ _ => rfl) (fun _ _ => rfl) ?_ (fun _ _ => rfl)
    · rw [hret, if_pos hid.symm]
      rcases hres with ⟨rfl, h3, _⟩ | ⟨x, rfl, h3, _⟩
      · exact h3
      · exact h3.trans (List.append_nil _).symm
    · intro hnf
      rcases hres with ⟨rfl, _, h3⟩ | ⟨x, rfl, _, _⟩
      · exact h3
      · exfalso
        unfold readFails at hnf
        simp only at hnf
        rw [he0] at hnf
        simp [failed, hid, hn] at hnf
    · intro j hj; rw [hret, if_neg (by rw [← hid]; exact fun h => hj h.symm)]

theorem streamRead_hist {c c' : Conn} (hi : Inv c) {n : Nat} {e : SendEnv} (h : step c (.streamRead n e) = some c') :
    Hist c (.streamRead n e) c' := by
  simp only [step, Option.map_eq_some_iff] at h
  obtain ⟨⟨r, c1⟩, he, rfl⟩ := h
  have hret : ∀ j, returnedBy j c (.streamRead n e) = if firstId c = some j then okBytes (some (r, c1)) else [] := by
    intro j
    unfold returnedBy
    simp only
    rw [he]
  obtain ⟨r', c2, h1, hinv, _, hcase⟩ := streamRead_eff hi n e
  rw [h1] at he; cases he
  rcases hcase with ⟨rfl, x, rfl⟩ | ⟨ch, rest, ch', hcs, _, _, _, _, hcs', hkey, ⟨hex, hgx, _⟩, hres⟩
  · exact .of_frame (.refl rfl) (fun _ => rfl) (fun _ => rfl) (fun j => by rw [hret]; exact ite_self _) (fun _ => rfl)
  have hc : c.chans[0]? = some ch := by rw [hcs]; rfl
  have hc' : c1.chans[0]? = some ch' := by rw [hcs']; rfl
  have hg := hi.get hc
  have hg' := hinv.get hc'
  have hfst : firstId c = some ch.id := by unfold firstId; rw [hcs]; rfl
  have hgotx : ch'.g.gotExt = ch.g.gotExt := by
    rw [hg'.rx.streamExt, hgx, hex]; exact hg.rx.streamExt.symm
  have hgot : ch'.g.got = ch.g.got := by
    rcases hres with ⟨_, hun, _, htk, _⟩ | ⟨_, _, hun, _, htk, _⟩
    · rw [hg'.rx.stream, htk, hun, List.append_assoc, List.take_append_drop]; exact hg.rx.stream.symm
    · rw [hg'.rx.stream, htk, hun]; exact hg.rx.stream.symm
  have e2 : c1.chans = c.chans.set 0 ch' := by rw [hcs', hcs]; rfl
  refine .of_set hi.shape hc e2 ⟨congrArg Prod.fst hkey, hgot.trans (List.append_nil _).symm,
      hgotx.trans (List.append_nil _).symm, ?_, hgx.trans (List.append_nil _).symm, ?_⟩ (fun _ _ => rfl) (fun _ _ => rfl) ?_ (fun _ _ => rfl)
  · rw [hret, if_pos hfst]
    rcases hres with ⟨rfl, _, h3, _⟩ | ⟨x, rfl, _, h3, _⟩
    · exact h3
    · exact h3.trans (List.append_nil _).symm
  · intro _
    rcases hres with ⟨_, _, _, _, h3⟩ | ⟨_, _, _, _, _, h3⟩
    · exact h3
    · exact h3
  · intro j hj; rw [hret, if_neg]
    rw [hfst]; intro hh; cases hh; exact hj rfl

theorem readExt_hist {c c' : Conn} (hi : Inv c) {static : Bytes} (hst : static.length = 16) {id n : Nat} {e : SendEnv}
    (h : step c (.readExt static id n e) = some c') : Hist c (.readExt static id n e) c' := by
  simp only [step, Option.map_eq_some_iff] at h
  obtain ⟨⟨r, c1⟩, he, rfl⟩ := h
  have hret : ∀ j, returnedExtBy j c (.readExt static id n e) = if id = j then okBytes (some (r, c1)) else [] := by
    intro j
    unfold returnedExtBy
    simp only
    rw [he]
  have quiet : ∀ x, r = .error x → c1 = c → Hist c (.readExt static id n e) c1 := by
    rintro x rfl rfl
    exact .of_frame (.refl rfl) (fun _ => rfl) (fun _ => rfl) (fun _ => rfl) (fun j => by rw [hret]; exact ite_self _)
  unfold channelReadExt at he
  cases hf : findSelf c id with
  | none => rw [hf] at he; cases he; exact quiet _ rfl rfl
  | some q =>
    obtain ⟨i, ch⟩ := q
    obtain ⟨hc, hid⟩ := Shape.findSelf_some hf
    have hg := hi.get hc
    rw [hf] at he
    simp only at he
    by_cases hn : n = 0
    · rw [if_pos hn] at he; cases he; exact quiet _ rfl rfl
    rw [if_neg hn] at he
    by_cases hcur : ch.ext.idx > ch.ext.length
    · rw [if_pos hcur] at he; cases he; exact quiet _ rfl rfl
    rw [if_neg hcur] at he
    have hu : sub32 ch.ext.length ch.ext.idx = (unread ch.ext).length := by
      rw [unread_length hg.rx.extOk]
      exact sub32_le hg.rx.extOk.cursor (by have := hg.rx.extOk.fits; have := hg.rx.extOk.size; omega)
    rw [hu] at he
    obtain ⟨c2, ch', h1, hinv, h2, hkey, _, hun, ⟨hin, htk, hgv, hfr⟩, hgx⟩ :=
      readExt_eff hst hi hc (cmin_le n (unread ch.ext).length).2.1 e
    rw [h1] at he; cases he
    have hc' : c1.chans[i]? = some ch' := by rw [h2]; exact get_set hc
    have hg' := hinv.get hc'
    have hgot : ch'.g.got = ch.g.got := by
      rw [hg'.rx.stream, htk, hin]; exact hg.rx.stream.symm
    have hgotx : ch'.g.gotExt = ch.g.gotExt := by
      rw [hg'.rx.streamExt, hgx, hun, List.append_assoc, List.take_append_drop]; exact hg.rx.streamExt.symm
    refine .of_set hi.shape hc h2 ⟨congrArg Prod.fst hkey, hgot.trans (List.append_nil _).symm,
      hgotx.trans (List.append_nil _).symm, hgv.trans (List.append_nil _).symm, ?_, fun _ => hfr⟩ (fun _ _ => rfl) (fun _ _ => rfl)
      (fun _ _ => rfl) ?_
    · rw [hret, if_pos hid.symm]; exact hgx
    · intro j hj; rw [hret, if_neg (by rw [← hid]; exact fun h => hj h.symm)]

/-- Nothing but a new channel is added. -/
theorem Hist.of_append {c c' : Conn} {x : In} {ch : Chan}
    (e : c'.chans = c.chans ++ [ch]) (hnew : ∀ d ∈ c.chans, d.id ≠ ch.id) (hb : Blank ch)
    (h1 : ∀ id, acceptedBy id c x = []) (h2 : ∀ id, acceptedExtBy id c x = [])
    (h3 : ∀ id, returnedBy id c x = []) (h4 : ∀ id, returnedExtBy id c x = []) : Hist c x c' := by
  intro d hd
  rw [e] at hd
  rcases List.mem_append.1 hd with hd | hd
  · exact Hist.of_frame (.refl rfl) h1 h2 h3 h4 d hd
  · simp at hd; subst hd; exact .inr ⟨hnew, hb⟩

theorem newChan_blank (id ctype window maxPacket : Nat) (m : Bytes) (byPeer : Bool) :
    Blank (newChan id ctype window maxPacket m byPeer) := ⟨rfl, rfl, rfl, rfl, rfl⟩

/-- What an open request does to the list of channels. -/
theorem doOpen_chans {c c' : Conn} {r : Ret} (hi : Inv c) (E : OpenEnv) {mem : Bytes} {len idx : Nat}
    (hroom : c.chans.length + 1 < 2^32) (h : doOpen c E mem len idx = some (r, c')) :
    c'.chans = c.chans ∨ ∃ ch, c'.chans = c.chans ++ [ch] ∧ (∀ d ∈ c.chans, d.id ≠ ch.id) ∧ Blank ch := by
  have hfail : ∀ (d : Conn) p q, (sendOpenFail d p q E.send).2.chans = d.chans := by
    intro d p q; unfold sendOpenFail; split <;> rfl
  have hconf : ∀ (d : Conn) p, (sendOpenConf d p E.send).2.chans = d.chans := by
    intro d p; unfold sendOpenConf; split <;> rfl
  have hf2 : ∀ (d : Conn) p q, some (sendOpenFail d p q E.send) = some (r, c') → d.chans = c.chans →
      c'.chans = c.chans := by
    intro d p q he hd
    rw [← hd, ← hfail d p q, Option.some.inj he]
  unfold doOpen at h
  split at h
  · cases h
  · exact .inl (hf2 _ _ _ h rfl)
  split at h
  · cases h
  · exact .inl (hf2 _ _ _ h rfl)
  split at h
  · cases h
  · exact .inl (hf2 _ _ _ h rfl)
  generalize OpenMsg.mk _ _ _ _ = om at h
  unfold answerOpen at h
  split at h
  · cases h
  · exact .inl (hf2 _ _ _ h rfl)
  rcases channelNew_eff hi hroom om.typeId c.ctxMaxPacket E.buffer true with ⟨_, hn⟩ | ⟨bm, id, hbm, hid, hfresh, hn⟩
  · rw [hn] at h
    exact .inl (hf2 c _ _ h rfl)
  · rw [hn] at h
    simp only at h
    split at h
    · exact .inl (hf2 { c with nextChannel := add32 id 1 } _ _ h rfl)
    · refine .inr ⟨updatePeer (newChan id om.typeId c.ctxWindow c.ctxMaxPacket bm true) om.peerId om.window om.maxPacket, ?_, hfresh, ?_⟩
      · have := congrArg (·.2.chans) (Option.some.inj h)
        simp only [hconf, append_chans] at this
        exact this.symm
      · exact ⟨rfl, rfl, rfl, rfl, rfl⟩

theorem openLocal_chans {c c' : Conn} {r : Ret} (hi : Inv c) {keep : Bool} {ctype : Nat} {buffer : Option Bytes} {cb : Ret}
    {e : SendEnv} (hroom : c.chans.length + 1 < 2^32) (h : openLocal c keep ctype buffer cb e = some (r, c')) :
    c'.chans = c.chans ∨ ∃ ch, c'.chans = c.chans ++ [ch] ∧ (∀ d ∈ c.chans, d.id ≠ ch.id) ∧ Blank ch := by
  unfold openLocal at h
  rcases channelNew_eff hi hroom ctype c.ctxMaxPacket buffer false with ⟨_, hn⟩ | ⟨bm, id, hbm, hid, hfresh, hn⟩
  · simp only [hn] at h
    cases h; exact .inl rfl
  · simp only [hn] at h
    have key : ∀ (d : Conn), d.chans = c.chans → ∀ q, some (q, append d (newChan id ctype c.ctxWindow c.ctxMaxPacket bm false)) = some (r, c') →
        c'.chans = c.chans ∨ ∃ ch, c'.chans = c.chans ++ [ch] ∧ (∀ d ∈ c.chans, d.id ≠ ch.id) ∧ Blank ch := by
      intro d hd q he
      refine .inr ⟨_, ?_, hfresh, newChan_blank id ctype c.ctxWindow c.ctxMaxPacket bm false⟩
      have := congrArg (·.2.chans) (Option.some.inj he)
      simp only [append_chans, hd] at this
      exact this.symm
    split at h
    · cases h; exact .inl rfl
    · split at h
      · split at h
        · exact key { c with nextChannel := add32 id 1, out := c.out ++ [.openReq id] } rfl _ h
        · cases h; exact .inl rfl
      · split at h
        · cases h; exact .inl rfl
        · exact key { c with nextChannel := add32 id 1, out := c.out ++ [.openReq id] } rfl _ h

theorem shutdown_frame (c : Conn) (ww : Bool) (es : Nat → SendEnv) : Frame c (shutdown c ww es).2 := by
  unfold shutdown
  cases c.chans with
  | nil => exact .refl rfl
  | cons ch rest =>
    simp only
    cases findSelf c ch.peerId with
    | none => exact .refl rfl
    | some q =>
      simp only
      split
      · exact .refl rfl
      · have h1 := sendEof_frame c ch.peerId (es 0)
        generalize sendEof c ch.peerId (es 0) = r1 at h1
        generalize hr2 : (if decide (r1.1 = none ∨ (r1.1 ≠ some Err.badArgument ∧ ww = true)) = true then
          sendRequest r1.2 ch.peerId (es 1) else r1) = r2
        have h2 : Frame c r2.2 := by
          rw [← hr2]; split
          · exact h1.trans (sendRequest_frame _ _ _)
          · exact h1
        split
        · exact h2.trans (sendClose_frame _ _ _)
        · exact h2

/-- In every step, the history of each channel goes on by what the step shows. -/
theorem step_hist {c c' : Conn} (hi : Inv c) {x : In} (hx : WellFormed c x) (h : step c x = some c') :
    Hist c x c' := by
  have fr : Frame c c' → (∀ id, acceptedBy id c x = []) → (∀ id, acceptedExtBy id c x = []) →
      (∀ id, returnedBy id c x = []) → (∀ id, returnedExtBy id c x = []) → Hist c x c' := Hist.of_frame
  cases x with
  | rxOpen E mem len idx =>
    simp only [step, Option.map_eq_some_iff] at h
    obtain ⟨⟨r, c1⟩, he, rfl⟩ := h
    rcases doOpen_chans hi E hx.2.2.2 he with h | ⟨ch, h1, h2, h3⟩
    · exact fr (.refl h) (fun _ => rfl) (fun _ => rfl) (fun _ => rfl) (fun _ => rfl)
    · exact .of_append h1 h2 h3 (fun _ => rfl) (fun _ => rfl) (fun _ => rfl) (fun _ => rfl)
  | openLocal keep ctype buffer cb e =>
    simp only [step, Option.map_eq_some_iff] at h
    obtain ⟨⟨r, c1⟩, he, rfl⟩ := h
    rcases openLocal_chans hi hx.2 he with h | ⟨ch, h1, h2, h3⟩
    · exact fr (.refl h) (fun _ => rfl) (fun _ => rfl) (fun _ => rfl) (fun _ => rfl)
    · exact .of_append h1 h2 h3 (fun _ => rfl) (fun _ => rfl) (fun _ => rfl) (fun _ => rfl)
  | rxData mem len idx => exact doData_hist hi hx.1 hx.2 h
  | rxExt alloc mem len idx e => exact doExtData_hist hi hx.2.2 hx.1 hx.2.1 h
  | read id n e => exact read_hist hi h
  | readExt static id n e => exact readExt_hist hi hx h
  | streamRead n e => exact streamRead_hist hi h
  | rxOpenConf mem len idx cb =>
    refine fr ?_ (fun _ => rfl) (fun _ => rfl) (fun _ => rfl) (fun _ => rfl)
    simp only [step, Option.map_eq_some_iff] at h
    obtain ⟨⟨r, c1⟩, he, rfl⟩ := h
    unfold doOpenConf at he
    split at he
    · cases he
    · cases he; exact .refl rfl
    · cases hf : findSelf c _ with
      | none => rw [hf] at he; cases he; exact .refl rfl
      | some q =>
        obtain ⟨i, ch⟩ := q
        rw [hf] at he
        simp only at he
        split at he <;> cases he <;> exact .of_set (Shape.findSelf_some hf).1 rfl rfl
  | rxOpenFail mem len idx cb =>
    refine fr ?_ (fun _ => rfl) (fun _ => rfl) (fun _ => rfl) (fun _ => rfl)
    simp only [step, Option.map_eq_some_iff] at h
    obtain ⟨⟨r, c1⟩, he, rfl⟩ := h
    unfold doOpenFail at he
    split at he
    · cases he
    · cases he; exact .refl rfl
    · simp only at he
      split at he
      · cases he; exact .refl rfl
      · split at he <;> cases he <;> exact remove_frame _ _
  | rxAdjust mem len idx =>
    refine fr ?_ (fun _ => rfl) (fun _ => rfl) (fun _ => rfl) (fun _ => rfl)
    simp only [step, Option.map_eq_some_iff] at h
    obtain ⟨⟨r, c1⟩, he, rfl⟩ := h
    unfold doWindowAdjust at he
    split at he
    · cases he
    · cases he; exact .refl rfl
    · cases hf : findSelf c _ with
      | none => rw [hf] at he; cases he; exact .refl rfl
      | some q =>
        obtain ⟨i, ch⟩ := q
        rw [hf] at he
        simp only at he
        split at he
        · cases he; exact .refl rfl
        · cases he; exact .of_set (Shape.findSelf_some hf).1 (ch' := addPeerWindow ch _) rfl rfl
  | rxEof mem len idx e =>
    refine fr ?_ (fun _ => rfl) (fun _ => rfl) (fun _ => rfl) (fun _ => rfl)
    simp only [step, Option.map_eq_some_iff] at h
    obtain ⟨⟨r, c1⟩, he, rfl⟩ := h
    unfold doEof at he
    split at he
    · cases he
    · cases he; exact .refl rfl
    · cases hf : findSelf c _ with
      | none => rw [hf] at he; cases he; exact .refl rfl
      | some q =>
        obtain ⟨i, ch⟩ := q
        rw [hf] at he
        have h1 : Frame c (setChan c i { ch with eofRxd := true }) :=
          .of_set (Shape.findSelf_some hf).1 (ch' := { ch with eofRxd := true }) rfl rfl
        have he := congrArg Prod.snd (Option.some.inj he)
        simp only at he
        rw [← he]
        by_cases ht : ch.eofTxd = false
        · simp only [if_pos ht]
          exact h1.trans (sendEof_frame _ _ _)
        · simp only [if_neg ht]
          exact h1
  | rxClose mem len idx e =>
    refine fr ?_ (fun _ => rfl) (fun _ => rfl) (fun _ => rfl) (fun _ => rfl)
    simp only [step, Option.map_eq_some_iff] at h
    obtain ⟨⟨r, c1⟩, he, rfl⟩ := h
    unfold doClose at he
    split at he
    · cases he
    · cases he; exact .refl rfl
    · cases hf : findSelf c _ with
      | none => rw [hf] at he; cases he; exact .refl rfl
      | some q =>
        obtain ⟨i, ch⟩ := q
        rw [hf] at he
        simp only at he
        generalize hrc : (if ch.closeTxd = false then sendClose c ch.peerId e else (none, c)) = rc at he
        have h1 : Frame c rc.2 := by
          rw [← hrc]; split
          · exact sendClose_frame _ _ _
          · exact .refl rfl
        split at he
        · cases he; exact h1
        · split at he <;> cases he <;> exact h1.trans (remove_frame _ _)
  | send isExt id data flush e =>
    refine fr ?_ (fun _ => rfl) (fun _ => rfl) (fun _ => rfl) (fun _ => rfl)
    cases h
    unfold channelSend
    split
    · exact .refl rfl
    · split
      · exact .refl rfl
      · exact sendData_frame hi _ _ _ _ _
  | streamSend isExt data flush e =>
    refine fr ?_ (fun _ => rfl) (fun _ => rfl) (fun _ => rfl) (fun _ => rfl)
    cases h
    unfold streamSend
    split
    · exact .refl rfl
    · split
      · exact .refl rfl
      · exact sendData_frame hi _ _ _ _ _
  | exit id e1 e2 =>
    refine fr ?_ (fun _ => rfl) (fun _ => rfl) (fun _ => rfl) (fun _ => rfl)
    cases h
    unfold channelExit
    split
    · exact .refl rfl
    · exact andThen_frame (sendEof_frame _ _ _) fun _ =>
        andThen_frame (sendClose_frame _ _ _) fun _ => remove_frame _ _
  | streamExit o es =>
    refine fr ?_ (fun _ => rfl) (fun _ => rfl) (fun _ => rfl) (fun _ => rfl)
    cases h
    unfold streamExit
    split
    · exact .refl rfl
    · refine andThen_frame (sendRequest_frame _ _ _) fun c1 => ?_
      refine andThen_frame ?_ fun _ => andThen_frame (sendEof_frame _ _ _) fun _ => sendClose_frame _ _ _
      split
      · exact sendRequest_frame _ _ _
      · exact .refl rfl
  | shutdown ww es =>
    cases h
    exact fr (shutdown_frame _ _ _) (fun _ => rfl) (fun _ => rfl) (fun _ => rfl) (fun _ => rfl)
  | free id =>
    cases h
    exact fr (remove_frame _ _) (fun _ => rfl) (fun _ => rfl) (fun _ => rfl) (fun _ => rfl)
  | rekey =>
    cases h
    exact fr (.refl (startKeying_flushed c).chans) (fun _ => rfl) (fun _ => rfl) (fun _ => rfl) (fun _ => rfl)
  | keyed es =>
    cases h
    refine fr ?_ (fun _ => rfl) (fun _ => rfl) (fun _ => rfl) (fun _ => rfl)
    have h1 : Inv { c with keying := false } := hi.congr rfl rfl rfl rfl
    unfold sendPendingWindowAdjust
    split
    · exact .refl rfl
    · exact flushPending_frame es _ _ _ h1

/-- Over a run with the channel open, its history grows by what was seen. -/
theorem runs_hist {id : Nat} {c c' : Conn} {xs : List In} (hr : Runs id c xs c') (hi : Inv c) {ch : Chan}
    (hm : ch ∈ c.chans) (hid : ch.id = id) :
    Inv c' ∧ ∃ ch' ∈ c'.chans, ch'.id = id ∧
      ch'.g.got = ch.g.got ++ over (acceptedBy id) c xs ∧
      ch'.g.gotExt = ch.g.gotExt ++ over (acceptedExtBy id) c xs ∧
      ch'.g.gave = ch.g.gave ++ over (returnedBy id) c xs ∧
      ch'.g.gaveExt = ch.g.gaveExt ++ over (returnedExtBy id) c xs ∧
      (NoFailedRead id c xs → ch'.g.failedReads = ch.g.failedReads) := by
  induction hr generalizing ch with
  | nil _ => exact ⟨hi, ch, hm, hid, by simp [over], by simp [over], by simp [over], by simp [over], fun _ => rfl⟩
  | @cons c c1 c' x xs hh hw hs hr ih =>
    obtain ⟨c1', hs', hi1⟩ := step_inv hi x hw
    rw [hs] at hs'; cases hs'
    have hhas : Has id c1 := by cases hr <;> assumption
    obtain ⟨ch1, hm1, hid1⟩ := hhas
    rcases step_hist hi hw hs ch1 hm1 with ⟨ch0, hm0, hd⟩ | ⟨hno, _⟩
    · have e0 : ch0 = ch := by
        obtain ⟨i, hi'⟩ := List.mem_iff_getElem?.1 hm0
        obtain ⟨j, hj'⟩ := List.mem_iff_getElem?.1 hm
        have := nodup_get_inj hi.shape.nodup (a := id) (i := i) (j := j)
          (by simp [hi', ← hd.id, hid1]) (by simp [hj', hid])
        subst this
        rw [hi'] at hj'; exact Option.some.inj hj'
      subst e0
      obtain ⟨h1, ch', h2, h3, h4, h5, h6, h7, h8⟩ := ih hi1 hm1 hid1
      refine ⟨h1, ch', h2, h3, ?_, ?_, ?_, ?_, ?_⟩
      · rw [h4, hd.got, hid, List.append_assoc]; simp only [over, hs]
      · rw [h5, hd.gotExt, hid, List.append_assoc]; simp only [over, hs]
      · rw [h6, hd.gave, hid, List.append_assoc]; simp only [over, hs]
      · rw [h7, hd.gaveExt, hid, List.append_assoc]; simp only [over, hs]
      · rintro ⟨hn1, hn2⟩
        rw [h8 (hn2 _ hs), hd.failed (by rw [hid]; exact hn1)]
    · exact absurd (hid.trans hid1.symm) (hno ch hm)

end Wolf.Channel
