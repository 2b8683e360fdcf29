import Verif.Proofs.ChannelQuiet
/-! What is permitted, and which channel an exit ends. -/

namespace Wolf.Channel
open Wolf Wolf.Wire Wolf.NameList Wolf.Buffer Spec.Buffer Spec.Channel Props.Buffer

theorem chanName (n : Bytes) :
    (nameToId chanTable n = ID_CHANTYPE_SESSION → n = asc "session") ∧
    (nameToId chanTable n = ID_CHANTYPE_TCPIP_FORWARD → n = asc "forwarded-tcpip") ∧
    (nameToId chanTable n = ID_CHANTYPE_TCPIP_DIRECT → n = asc "direct-tcpip") ∧
    (nameToId chanTable n = ID_CHANTYPE_AUTH_AGENT → n = asc "auth-agent@openssh.com") := by
  simp only [nameToId, chanTable, nameToIdType]
  split
  · rename_i h; simp_all [ID_CHANTYPE_SESSION, ID_CHANTYPE_TCPIP_FORWARD, ID_CHANTYPE_TCPIP_DIRECT, ID_CHANTYPE_AUTH_AGENT]
  split
  · rename_i h; simp_all [ID_CHANTYPE_SESSION, ID_CHANTYPE_TCPIP_FORWARD, ID_CHANTYPE_TCPIP_DIRECT, ID_CHANTYPE_AUTH_AGENT]
  split
  · rename_i h; simp_all [ID_CHANTYPE_SESSION, ID_CHANTYPE_TCPIP_FORWARD, ID_CHANTYPE_TCPIP_DIRECT, ID_CHANTYPE_AUTH_AGENT]
  split
  · rename_i h; simp_all [ID_CHANTYPE_SESSION, ID_CHANTYPE_TCPIP_FORWARD, ID_CHANTYPE_TCPIP_DIRECT, ID_CHANTYPE_AUTH_AGENT]
  · simp [ID_UNKNOWN, ID_CHANTYPE_SESSION, ID_CHANTYPE_TCPIP_FORWARD, ID_CHANTYPE_TCPIP_DIRECT, ID_CHANTYPE_AUTH_AGENT]

/-- A type name cut to 31 bytes is a known one only if it was not cut. -/
theorem take_name {s n : Bytes} (h : s.take 31 = n) (hn : n.length < 31) : s = n := by
  have : s.length < 31 := by
    have := congrArg List.length h
    rw [List.length_take] at this; omega
  rw [List.take_of_length_le (by omega)] at h
  exact h

theorem sendOpenFail_refused {c c1 : Conn} {E : OpenEnv} {peer reason : Nat} (h1 : c1.chans = c.chans)
    (h2 : c1.out = c.out) :
    Refused c E peer (sendOpenFail c1 peer reason E.send).1 (sendOpenFail c1 peer reason E.send).2 := by
  unfold sendOpenFail
  by_cases h : E.send.prep ≠ none
  · rw [if_pos h]; exact ⟨h1, .inr ⟨h, rfl, h2⟩⟩
  · rw [if_neg h]; exact ⟨h1, .inl ⟨Decidable.not_not.1 h, rfl, reason, by rw [h2]⟩⟩

theorem answerOpen_outcome {c c' : Conn} (hi : Inv c) {E : OpenEnv} {name : Bytes} {peer win mx : Nat} {mem : Bytes}
    {len idx : Nat} (hroom : c.chans.length + 1 < 2^32) {r : Ret}
    (h : answerOpen c E ⟨nameToId chanTable (name.take 31), peer, win, mx⟩ mem len idx = some (r, c')) :
    Refused c E peer r c' ∨ (Permitted c E name ∧ Accepted c E peer win mx r c') := by
  have fail : ∀ c1 reason, c1.chans = c.chans → c1.out = c.out → some (sendOpenFail c1 peer reason E.send) = some (r, c') →
      Refused c E peer r c' := by
    intro c1 reason h1 h2 h3
    have := sendOpenFail_refused (E := E) (peer := peer) (reason := reason) h1 h2
    rw [Option.some.inj h3] at this
    exact this
  unfold answerOpen at h
  simp only at h
  generalize hty : openType c E ⟨nameToId chanTable (name.take 31), peer, win, mx⟩ mem len idx = ot at h
  cases ot with
  | none => cases h
  | some o =>
    cases o with
    | some reason => exact .inl (fail _ _ rfl rfl h)
    | none =>
      simp only at h
      rcases channelNew_eff hi hroom (nameToId chanTable (name.take 31)) c.ctxMaxPacket E.buffer true with
        ⟨_, hn⟩ | ⟨bm, id, hbm, hid, hfresh, hn⟩
      · rw [hn] at h; exact .inl (fail _ _ rfl rfl h)
      · rw [hn] at h
        simp only at h
        cases hpol : openPolicy c.server E (nameToId chanTable (name.take 31)) with
        | some reason => rw [hpol] at h; exact .inl (fail { c with nextChannel := add32 id 1 } reason rfl rfl h)
        | none =>
          rw [hpol] at h
          simp only at h
          refine .inr ⟨?_, ?_⟩
          · obtain ⟨n1, n2, n3, n4⟩ := chanName (name.take 31)
            generalize nameToId chanTable (name.take 31) = t at *
            unfold openPolicy at hpol
            split at hpol
            · cases hpol
            · rename_i hsrv
              have hcb : (E.openCb = none ∨ E.openCb = some none) := by
                split at hpol
                · cases hpol
                · rename_i hno
                  cases ho : E.openCb with
                  | none => exact .inl rfl
                  | some o => cases o with
                    | none => exact .inr rfl
                    | some e => exact absurd ho (hno e)
              refine ⟨hcb, ?_⟩
              have hfw : t = ID_CHANTYPE_TCPIP_DIRECT ∨ t = ID_CHANTYPE_TCPIP_FORWARD → E.fwdCb = some (none, none) := by
                intro ht
                split at hpol
                · cases hpol
                · rw [if_pos ht] at hpol
                  split at hpol
                  · cases hpol
                  · assumption
                  · cases hpol
              unfold openType at hty
              simp only at hty
              split at hty
              · rename_i ht
                refine .inl ⟨take_name (n1 ht) (by decide), ?_⟩
                have := hi.shape.count
                by_cases hl : c.listSz ≥ 1
                · rw [if_pos hl] at hty; cases hty
                · exact List.length_eq_zero_iff.1 (by omega)
              · split at hty
                · rename_i ht
                  have hf := hfw ht
                  rcases ht with ht | ht
                  · exact .inr (.inl ⟨take_name (n3 ht) (by decide), hf⟩)
                  · refine .inr (.inr (.inl ⟨take_name (n2 ht) (by decide), ?_, hf⟩))
                    simpa [ht] using hsrv
                · split at hty
                  · rename_i ht
                    refine .inr (.inr (.inr ⟨take_name (n4 ht) (by decide), ?_⟩))
                    cases ha : E.agent with
                    | true => rfl
                    | false => rw [ha] at hty; cases hty
                  · cases hty
          · generalize hch : updatePeer (newChan id (nameToId chanTable (name.take 31)) c.ctxWindow c.ctxMaxPacket bm true)
              peer win mx = ch at h
            refine ⟨ch, ?_, ?_, ?_, ?_, ?_, ?_, ?_, ?_⟩
            · unfold sendOpenConf at h
              split at h <;> cases h <;> exact append_chans _ _
            · rw [← hch]; exact hfresh
            · rw [← hch]; rfl
            · rw [← hch]; rfl
            · rw [← hch]; rfl
            · rw [← hch]; rfl
            · rw [← hch]; rfl
            · have hp : ch.peerId = peer := by rw [← hch]; rfl
              unfold sendOpenConf at h
              split at h
              · rename_i hpr
                cases h
                exact .inr ⟨hpr, rfl, (append_rest _ _).2.2.1⟩
              · rename_i hpr
                cases h
                refine .inl ⟨Decidable.not_not.1 hpr, rfl, ?_⟩
                show (append _ ch).out ++ _ = _
                rw [(append_rest _ _).2.2.1, hp]

theorem doOpen_outcome {c c' : Conn} (hi : Inv c) {E : OpenEnv} {mem : Bytes} {len idx : Nat} (hl : len ≤ mem.length)
    (hw : len < 2^32) (hroom : c.chans.length + 1 < 2^32) {r : Ret} (h : doOpen c E mem len idx = some (r, c')) :
    ((∃ peer, Refused c E peer r c') ∧ openMsg ((mem.take len).drop idx) = none) ∨
    (∃ name peer win mx, openMsg ((mem.take len).drop idx) = some (name, peer, win, mx) ∧
      (Refused c E peer r c' ∨ (Permitted c E name ∧ Accepted c E peer win mx r c'))) := by
  have fail : ∀ peer reason, some (sendOpenFail c peer reason E.send) = some (r, c') →
      ∃ peer, Refused c E peer r c' := by
    intro peer reason h3
    have := sendOpenFail_refused (c := c) (E := E) (peer := peer) (reason := reason) rfl rfl
    rw [Option.some.inj h3] at this
    exact ⟨peer, this⟩
  unfold doOpen at h
  have h1 := Props.Wire.C01_getString 32 mem len idx hl hw (by omega)
  have hm : openMsg ((mem.take len).drop idx) = (Spec.Wire.string (Props.Wire.msgFrom mem len idx)).bind fun p =>
    (Spec.Wire.uint32 p.2).bind fun q => (adjustMsg q.2).map fun r => (p.1, q.1, r.1, r.2) := rfl
  rw [hm]
  cases hs : getString 32 mem len idx with
  | ub => rw [hs] at h1; exact h1.elim
  | err e i =>
    rw [hs] at h1 h
    refine .inl ⟨fail _ _ h, ?_⟩
    rcases h1.2 with h2 | h2
    · cases h2
    · rw [h2]; rfl
  | ok type b =>
    rw [hs] at h1 h
    obtain ⟨_, _, s, hd, hst⟩ := h1
    have hdl : type.dropLast = s.take 31 := by rw [hd]; simp
    rw [hst]
    simp only [Option.bind_some]
    simp only at h
    rcases getUint32_cases b hl hw with ⟨e', i, g1, g2⟩ | ⟨peer, g1, _, _, g2⟩
    · rw [g1] at h; rw [g2]; exact .inl ⟨fail _ _ h, rfl⟩
    rw [g1] at h; rw [g2]
    simp only at h
    simp only [Option.bind_some]
    rcases parseAdjust_cases (b + 4) hl hw with ⟨e', i, g3, g4⟩ | ⟨win, mx, g3, _, _, g4⟩
    · rw [g3] at h; rw [g4]; exact .inl ⟨fail _ _ h, rfl⟩
    rw [g3] at h; rw [g4]
    simp only at h
    rw [hdl] at h
    exact .inr ⟨s, peer, win, mx, rfl, answerOpen_outcome hi hroom h⟩

/-! ## Which channel an exit ends -/

theorem findPeer_get {c : Conn} (hc : c.listSz = c.chans.length) {i : Nat} {ch : Chan} (h : c.chans[i]? = some ch)
    (hu : ∀ j d, c.chans[j]? = some d → d.peerId = ch.peerId → j = i) : findPeer c ch.peerId = some (i, ch) := by
  cases hf : findPeer c ch.peerId with
  | none =>
    have := findLoop_none (by rw [hc]; exact Nat.le_refl _) hf ch (List.mem_of_getElem? h)
    simp at this
  | some q =>
    obtain ⟨j, d⟩ := q
    obtain ⟨h1, h2⟩ := findPeer_some hf
    have e := hu j d h1 h2
    subst e
    rw [h] at h1; cases h1; rfl

/-- The channel at `i` goes on under the same numbers, the others are untouched. -/
structure Kept (c : Conn) (i : Nat) (ch : Chan) (c' : Conn) (ch' : Chan) (l : List OutMsg) : Prop where
  chans : c'.chans = c.chans.set i ch'
  size : c'.listSz = c.listSz
  id : ch'.id = ch.id
  peer : ch'.peerId = ch.peerId
  out : c'.out = c.out ++ l

theorem unique_set {c c' : Conn} {i : Nat} {ch ch' : Chan} {l : List OutMsg} (h : c.chans[i]? = some ch)
    (hk : Kept c i ch c' ch' l) (hu : ∀ j d, c.chans[j]? = some d → d.peerId = ch.peerId → j = i) :
    ∀ j d, c'.chans[j]? = some d → d.peerId = ch'.peerId → j = i := by
  intro j d hj hp
  rw [hk.chans, List.getElem?_set] at hj
  by_cases hij : i = j
  · exact hij.symm
  · rw [if_neg hij] at hj
    exact hu j d hj (hp.trans hk.peer)

theorem sendEof_kept {c : Conn} {i : Nat} {ch : Chan} (h : c.chans[i]? = some ch)
    (hf : findPeer c ch.peerId = some (i, ch)) (e : SendEnv)
    (hr : (sendEof c ch.peerId e).1 = none) :
    ∃ ch' l, Kept c i ch (sendEof c ch.peerId e).2 ch' l ∧ ch'.closeTxd = ch.closeTxd ∧
      l = if ch.eofTxd then [] else [.eof ch.peerId] := by
  unfold sendEof at hr ⊢
  rw [hf] at hr ⊢
  simp only at hr ⊢
  split at hr
  · cases hr
  rename_i ha
  rw [if_neg ha]
  split at hr
  · rename_i ht
    rw [if_pos ht]
    exact ⟨ch, [], ⟨(set_same h).symm, rfl, rfl, rfl, (List.append_nil _).symm⟩, rfl, by rw [ht]; rfl⟩
  rename_i ht
  rw [if_neg ht]
  split at hr
  · rename_i hp; exact absurd hr hp
  · rename_i hp
    have hsn : e.sent = none := hr
    rw [if_neg hp, if_pos hsn]
    exact ⟨_, [.eof ch.peerId], ⟨rfl, rfl, rfl, rfl, rfl⟩, rfl, by rw [if_neg ht]⟩

theorem sendClose_kept {c : Conn} {i : Nat} {ch : Chan} (h : c.chans[i]? = some ch)
    (hf : findPeer c ch.peerId = some (i, ch)) (e : SendEnv)
    (hr : (sendClose c ch.peerId e).1 = none) :
    ∃ ch' l, Kept c i ch (sendClose c ch.peerId e).2 ch' l ∧
      l = if ch.closeTxd then [] else [.close ch.peerId] := by
  unfold sendClose at hr ⊢
  rw [hf] at hr ⊢
  simp only at hr ⊢
  split at hr
  · rename_i ht
    rw [if_pos ht]
    exact ⟨ch, [], ⟨(set_same h).symm, rfl, rfl, rfl, (List.append_nil _).symm⟩, by rw [ht]; rfl⟩
  rename_i ht
  rw [if_neg ht]
  split at hr
  · rename_i hp; exact absurd hr hp
  · rename_i hp
    rw [if_neg hp]
    exact ⟨_, [.close ch.peerId], ⟨rfl, rfl, rfl, rfl, rfl⟩, by rw [if_neg ht]⟩

theorem eraseIdx_set_same {α : Type} (l : List α) (i : Nat) (a : α) : (l.set i a).eraseIdx i = l.eraseIdx i := by
  induction l generalizing i with
  | nil => rfl
  | cons x l ih => cases i with
    | zero => rfl
    | succ i => simp [ih]

theorem channelExit_kept {c : Conn} (hs : Shape c) {i : Nat} {ch : Chan} (h : c.chans[i]? = some ch)
    (hu : ∀ j d, c.chans[j]? = some d → d.peerId = ch.peerId → j = i) (e1 e2 : SendEnv)
    (hr : (channelExit c ch.id e1 e2).1 = none) :
    (channelExit c ch.id e1 e2).2.chans = c.chans.eraseIdx i ∧
    (channelExit c ch.id e1 e2).2.out = c.out ++ ((if ch.eofTxd then [] else [.eof ch.peerId]) ++
      if ch.closeTxd then [] else [.close ch.peerId]) := by
  unfold channelExit at hr ⊢
  rw [hs.findSelf_get h] at hr ⊢
  simp only [andThen] at hr ⊢
  by_cases h1 : (sendEof c ch.peerId e1).1 = none
  · rw [if_pos h1] at hr ⊢
    obtain ⟨ch1, l1, k1, hc1, hl1⟩ := sendEof_kept h (findPeer_get hs.count h hu) e1 h1
    have hu1 := unique_set h k1 hu
    have hg1 : (sendEof c ch.peerId e1).2.chans[i]? = some ch1 := by rw [k1.chans]; exact get_set h
    have hs1 : (sendEof c ch.peerId e1).2.listSz = (sendEof c ch.peerId e1).2.chans.length := by
      rw [k1.size, k1.chans, List.length_set]; exact hs.count
    generalize (sendEof c ch.peerId e1).2 = c1 at *
    rw [← k1.peer] at hr ⊢
    by_cases h2 : (sendClose c1 ch1.peerId e2).1 = none
    · rw [if_pos h2] at hr ⊢
      obtain ⟨ch2, l2, k2, hl2⟩ := sendClose_kept hg1 (findPeer_get hs1 hg1 hu1) e2 h2
      have hu2 := unique_set hg1 k2 hu1
      have hg2 : (sendClose c1 ch1.peerId e2).2.chans[i]? = some ch2 := by rw [k2.chans]; exact get_set hg1
      have hs2 : (sendClose c1 ch1.peerId e2).2.listSz = (sendClose c1 ch1.peerId e2).2.chans.length := by
        rw [k2.size, k2.chans, List.length_set]; exact hs1
      generalize (sendClose c1 ch1.peerId e2).2 = c2 at *
      rw [← k2.peer] at hr ⊢
      have hf := findPeer_get hs2 hg2 hu2
      have hne : c2.chans ≠ [] := by intro he; rw [he] at hg2; cases hg2
      unfold findPeer at hf
      unfold removePeer remove
      rw [if_neg hne, hf]
      refine ⟨?_, ?_⟩
      · show c2.chans.eraseIdx i = _
        rw [k2.chans, k1.chans, eraseIdx_set_same, eraseIdx_set_same]
      · show c2.out = _
        rw [k2.out, k1.out, hl1, hl2, hc1, k2.peer, k1.peer, List.append_assoc]
    · rw [if_neg h2] at hr; exact absurd hr h2
  · rw [if_neg h1] at hr; exact absurd hr h1

/-! ## Shutting down -/

theorem findPeer_first {c : Conn} {ch : Chan} (hl : c.listSz ≠ 0) (h : c.chans[0]? = some ch) :
    findPeer c ch.peerId = some (0, ch) := by
  unfold findPeer
  cases hc : c.chans with
  | nil => rw [hc] at h; cases h
  | cons a r =>
    rw [hc] at h
    simp only [List.getElem?_cons_zero, Option.some.injEq] at h
    subst h
    simp [findLoop, hl]

theorem sendEof_fine {c : Conn} {p i : Nat} {ch : Chan} (hf : findPeer c p = some (i, ch)) : (sendEof c p {}).1 = none := by
  unfold sendEof; rw [hf]; simp only; split
  · rename_i h; cases h
  split
  · rfl
  · rfl

theorem sendClose_fine {c : Conn} {p i : Nat} {ch : Chan} (hf : findPeer c p = some (i, ch)) :
    (sendClose c p {}).1 = none := by
  unfold sendClose; rw [hf]; simp only; split
  · rfl
  · rfl

theorem shutdown_first {c : Conn} (hs : Shape c) {ch : Chan} {rest : List Chan} (h : c.chans = ch :: rest)
    {j : Nat} {d : Chan} (hf : findSelf c ch.peerId = some (j, d)) (hd : d.closeTxd = false) (ww : Bool)
    {es : Nat → SendEnv} (hes : ∀ i, es i = {}) :
    (shutdown c ww es).1 = none ∧ (shutdown c ww es).2.out = c.out ++ ((if ch.eofTxd then [] else [.eof ch.peerId]) ++
      ([.request ch.peerId] ++ if ch.closeTxd then [] else [.close ch.peerId])) := by
  have hl : c.listSz ≠ 0 := by rw [hs.count, h]; simp
  have h0 : c.chans[0]? = some ch := by rw [h]; rfl
  have f0 := findPeer_first hl h0
  obtain ⟨ch1, l1, k1, hc1, hl1⟩ := sendEof_kept h0 f0 {} (sendEof_fine f0)
  have hr1 := sendEof_fine f0
  have h1 : (sendEof c ch.peerId {}).2.chans[0]? = some ch1 := by rw [k1.chans]; exact get_set h0
  have f1 : findPeer (sendEof c ch.peerId {}).2 ch.peerId = some (0, ch1) := by
    have := findPeer_first (by rw [k1.size]; exact hl) h1
    rw [k1.peer] at this; exact this
  unfold shutdown
  rw [h]
  simp only [hf, hd, Bool.false_eq_true, if_false, hes]
  generalize sendEof c ch.peerId {} = q1 at *
  obtain ⟨r1, c1⟩ := q1
  simp only at hr1 h1 f1 k1
  subst hr1
  have hq : sendRequest c1 ch.peerId {} = (none, { c1 with out := c1.out ++ [.request ch1.peerId] }) := by
    unfold sendRequest; rw [f1]; rfl
  have f2 : findPeer { c1 with out := c1.out ++ [.request ch1.peerId] } ch1.peerId = some (0, ch1) := by
    rw [k1.peer]; exact f1
  obtain ⟨ch2, l2, k2, hl2⟩ := sendClose_kept (c := { c1 with out := c1.out ++ [.request ch1.peerId] }) h1 f2 {}
    (sendClose_fine f2)
  have hr2 := sendClose_fine f2
  simp only [true_or, decide_true, if_true, hq]
  rw [← k1.peer]
  refine ⟨hr2, ?_⟩
  rw [k2.out, hl2]
  show c1.out ++ _ ++ _ = _
  rw [k1.out, hl1, hc1, k1.peer]
  simp only [List.append_assoc]

end Wolf.Channel
