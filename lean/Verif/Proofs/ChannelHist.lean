import Verif.Proofs.ChannelStep
/-! The recorded history of a channel is what was seen from outside. -/

namespace Wolf.Channel
open Wolf Wolf.Wire Wolf.NameList Wolf.Buffer Spec.Buffer Spec.Channel Props.Buffer

/-- The receive history. -/
def hist (ch : Chan) : Nat × Bytes × Bytes × Bytes × Bytes × Nat :=
  (ch.id, ch.g.got, ch.g.gotExt, ch.g.gave, ch.g.gaveExt, ch.g.failedReads)

/-- No history changes; channels may go. -/
def Frame (c c' : Conn) : Prop := c'.chans.map hist ⊆ c.chans.map hist

theorem Frame.refl {c c' : Conn} (h : c'.chans = c.chans) : Frame c c' := by
  unfold Frame; rw [h]; exact fun _ h => h

theorem Frame.trans {a b c : Conn} (h1 : Frame a b) (h2 : Frame b c) : Frame a c :=
  fun _ h => h1 (h2 h)

theorem Frame.of_set {c c' : Conn} {i : Nat} {ch ch' : Chan} (h : c.chans[i]? = some ch)
    (e : c'.chans = c.chans.set i ch') (hk : hist ch' = hist ch) : Frame c c' := by
  unfold Frame
  rw [e, map_set_same hist c.chans i ch ch' h hk]
  exact fun _ h => h

theorem sendEof_frame (c : Conn) (p : Nat) (e : SendEnv) : Frame c (sendEof c p e).2 := by
  unfold sendEof
  split
  · exact .refl rfl
  cases hf : findPeer c p with
  | none => exact .refl rfl
  | some q =>
    obtain ⟨i, ch⟩ := q
    have hc := (findPeer_some hf).1
    simp only
    split
    · exact .refl rfl
    split
    · exact .refl rfl
    · exact .of_set hc (ch' := { (if e.sent = none then { ch with eofTxd := true } else ch) with
        g := { (if e.sent = none then { ch with eofTxd := true } else ch).g with
          tx := (if e.sent = none then { ch with eofTxd := true } else ch).g.tx ++ [.eof (e.sent == none)] } })
        rfl (by split <;> rfl)

theorem sendRequest_frame (c : Conn) (p : Nat) (e : SendEnv) : Frame c (sendRequest c p e).2 := by
  unfold sendRequest
  cases findPeer c p with
  | none => exact .refl rfl
  | some q => simp only; split <;> exact .refl rfl

theorem sendClose_frame (c : Conn) (p : Nat) (e : SendEnv) : Frame c (sendClose c p e).2 := by
  unfold sendClose
  cases hf : findPeer c p with
  | none => exact .refl rfl
  | some q =>
    obtain ⟨i, ch⟩ := q
    have hc := (findPeer_some hf).1
    simp only
    split
    · exact .refl rfl
    split
    · exact .refl rfl
    · exact .of_set hc (ch' := { ch with closeTxd := true, g := { ch.g with tx := ch.g.tx ++ [.close] } }) rfl rfl

theorem remove_frame (c : Conn) (p : Chan → Bool) : Frame c (remove c p).2 := by
  unfold remove
  split
  · exact .refl rfl
  · cases findLoop p c.chans c.listSz 0 with
    | none => exact .refl rfl
    | some q => exact ((List.eraseIdx_sublist c.chans q.1).map hist).subset

theorem andThen_frame {c : Conn} {a : Ret × Conn} {f : Conn → Ret × Conn} (ha : Frame c a.2)
    (hf : ∀ c, Frame c (f c).2) : Frame c (andThen a f).2 := by
  unfold andThen
  split
  · exact ha.trans (hf _)
  · exact ha

theorem sendData_frame {c : Conn} (hi : Inv c) (isExt : Bool) (id : Nat) (data : Bytes) (flush : Flush)
    (e : SendEnv) : Frame c (sendData isExt c id data flush e).2 := by
  rcases sendData_eff (isExt := isExt) (c := c) (id := id) (data := data) (flush := flush) (e := e)
    (fun ch hc => (hi.good ch hc).tx.lt) with ⟨c1, hf, h, _⟩ | ⟨c1, i, ch, n, _, _, hf, _, _, _, he, hn, hw, _, _, _, h, _⟩
  · rw [h]; exact .refl hf.chans
  · rw [h]
    exact .of_set (Shape.findSelf_some hf).1 (ch' := afterSend isExt ch (data.take n)) rfl rfl

theorem creditWindow_frame {c : Conn} (hs : Shape c) {i : Nat} {ch : Chan} (h : c.chans[i]? = some ch)
    (hp : ch.pending < 2^32) (amount : Nat) (e : SendEnv) : Frame c (creditWindow c i amount e).2 := by
  obtain ⟨r, out', p', cr', lo', he, _⟩ := creditWindow_eff hs h (amount := amount) hp e
  rw [he]
  exact .of_set h (ch' := { ch with pending := p', g := { ch.g with credited := cr', lost := lo' } }) rfl rfl

theorem flushPending_frame (es : Nat → SendEnv) (n i : Nat) (ret : Ret) {c : Conn} (hi : Inv c) :
    Frame c (flushPending es n i ret c).2 := by
  induction n generalizing i ret c with
  | zero => exact .refl rfl
  | succ n ih =>
    unfold flushPending
    cases h : c.chans[i]? with
    | none => exact .refl rfl
    | some ch =>
      simp only
      split
      · exact (creditWindow_frame hi.shape h (hi.get h).rx.pend 0 _).trans (ih _ _ (creditZero_inv hi h _))
      · exact ih _ _ hi

/-- How the history of a channel goes on. -/
structure Delta (c : Conn) (x : In) (ch ch' : Chan) : Prop where
  id : ch'.id = ch.id
  got : ch'.g.got = ch.g.got ++ acceptedBy ch.id c x
  gotExt : ch'.g.gotExt = ch.g.gotExt ++ acceptedExtBy ch.id c x
  gave : ch'.g.gave = ch.g.gave ++ returnedBy ch.id c x
  gaveExt : ch'.g.gaveExt = ch.g.gaveExt ++ returnedExtBy ch.id c x
  failed : readFails ch.id c x = false → ch'.g.failedReads = ch.g.failedReads

/-- A new channel has no history. -/
structure Blank (ch : Chan) : Prop where
  got : ch.g.got = []
  gotExt : ch.g.gotExt = []
  gave : ch.g.gave = []
  gaveExt : ch.g.gaveExt = []
  failed : ch.g.failedReads = 0

def Hist (c : Conn) (x : In) (c' : Conn) : Prop :=
  ∀ ch' ∈ c'.chans, (∃ ch ∈ c.chans, Delta c x ch ch') ∨ ((∀ ch ∈ c.chans, ch.id ≠ ch'.id) ∧ Blank ch')

theorem Hist.of_frame {c c' : Conn} {x : In} (h : Frame c c') (ha : ∀ id, acceptedBy id c x = [])
    (hb : ∀ id, acceptedExtBy id c x = []) (hr : ∀ id, returnedBy id c x = [])
    (hs : ∀ id, returnedExtBy id c x = []) : Hist c x c' := by
  intro ch' hm
  obtain ⟨ch, h1, h2⟩ := List.mem_map.1 (h (List.mem_map_of_mem hm))
  simp only [hist, Prod.mk.injEq] at h2
  obtain ⟨e1, e2, e3, e4, e5, e6⟩ := h2
  exact .inl ⟨ch, h1, ⟨e1.symm, by rw [ha, List.append_nil, e2], by rw [hb, List.append_nil, e3],
    by rw [hr, List.append_nil, e4], by rw [hs, List.append_nil, e5], fun _ => e6.symm⟩⟩

/-- One channel goes on, the others stay. -/
theorem Hist.of_set {c c' : Conn} {x : In} (hs : Shape c) {i : Nat} {ch ch' : Chan} (h : c.chans[i]? = some ch)
    (e : c'.chans = c.chans.set i ch') (hd : Delta c x ch ch')
    (ha : ∀ id, id ≠ ch.id → acceptedBy id c x = [])
    (hb : ∀ id, id ≠ ch.id → acceptedExtBy id c x = []) (hr : ∀ id, id ≠ ch.id → returnedBy id c x = [])
    (hx : ∀ id, id ≠ ch.id → returnedExtBy id c x = []) : Hist c x c' := by
  intro d' hm
  rw [e] at hm
  obtain ⟨j, hj⟩ := List.mem_iff_getElem?.1 hm
  rw [List.getElem?_set] at hj
  split at hj
  · rename_i hij
    subst hij
    split at hj
    · cases hj; exact .inl ⟨ch, List.mem_of_getElem? h, hd⟩
    · cases hj
  · rename_i hij
    have hne : d'.id ≠ ch.id := by
      intro he
      exact hij (nodup_get_inj hs.nodup (a := ch.id) (by simp [h]) (by simp [hj, he]))
    exact .inl ⟨d', List.mem_of_getElem? hj, ⟨rfl, by rw [ha _ hne, List.append_nil],
      by rw [hb _ hne, List.append_nil], by rw [hr _ hne, List.append_nil],
      by rw [hx _ hne, List.append_nil], fun _ => rfl⟩⟩

theorem doData_hist {c c' : Conn} (hi : Inv c) {mem : Bytes} {len idx : Nat} (hl : len ≤ mem.length)
    (hw : len < 2^32) (h : step c (.rxData mem len idx) = some c') : Hist c (.rxData mem len idx) c' := by
  simp only [step, Option.map_eq_some_iff] at h
  obtain ⟨⟨r, c1⟩, he, rfl⟩ := h
  rcases parseData_cases idx hl hw with ⟨e, i, hp, hm⟩ | ⟨id, n, hp, _, hn, hle, hm⟩
  · unfold doData at he
    rw [hp] at he
    cases he
    have hd : dataMsg ((mem.take len).drop idx) = none := hm
    exact .of_frame (.refl rfl) (fun id => by simp [acceptedBy, hd]) (fun _ => rfl) (fun _ => rfl) (fun _ => rfl)
  have hd : dataMsg ((mem.take len).drop idx) = some (id, (mem.drop (idx + 8)).take n) := hm
  have hacc : ∀ j, acceptedBy j c (.rxData mem len idx) =
      if r = some .chanRxd ∧ id = j then (mem.drop (idx + 8)).take n else [] := by
    intro j
    unfold acceptedBy
    simp only
    rw [he, hd]
    by_cases hj : r = some .chanRxd ∧ id = j
    · rw [if_pos hj]; exact if_pos ⟨congrArg some hj.1, hj.2⟩
    · rw [if_neg hj]; exact if_neg (fun h => hj ⟨Option.some.inj h.1, h.2⟩)
  have quiet : c1 = c → r ≠ some .chanRxd → Hist c (.rxData mem len idx) c1 := by
    rintro rfl hne
    refine .of_frame (.refl rfl) (fun id => ?_) (fun _ => rfl) (fun _ => rfl) (fun _ => rfl)
    rw [hacc]
    exact if_neg fun h => hne h.1
  unfold doData at he
  rw [hp] at he
  simp only at he
  rw [if_neg (by omega)] at he
  cases hf : findSelf c id with
  | none => rw [hf] at he; cases he; exact quiet rfl (by simp)
  | some q =>
    obtain ⟨i, ch⟩ := q
    obtain ⟨hc, hid⟩ := Shape.findSelf_some hf
    have hg := hi.get hc
    rw [hf] at he
    simp only at he
    by_cases hmx : n > ch.maxPacketSz
    · rw [if_pos hmx] at he; cases he; exact quiet rfl (by simp)
    rw [if_neg hmx] at he
    obtain ⟨hsl, hsn⟩ := slice_some (show idx + 8 + n ≤ mem.length by omega)
    rw [hsl] at he
    simp only at he
    rcases putData_eff hg.rx ((mem.drop (idx + 8)).take n) with ⟨r', hpd, hwhy⟩ | ⟨m, hpd, hle2, hok, hun⟩
    · rw [hpd] at he; cases he
      refine quiet rfl ?_
      rintro hh; cases hh
      unfold putData at hpd
      split at hpd
      · cases hpd
      · split at hpd
        · split at hpd <;> cases hpd
        · cases hpd
    · rw [hpd] at he; cases he
      refine .of_set hi.shape hc rfl ⟨rfl, ?_, ?_, ?_, ?_, fun _ => rfl⟩ ?_ (fun _ _ => rfl) (fun _ _ => rfl) (fun _ _ => rfl)
      · rw [hacc, if_pos ⟨rfl, hid.symm⟩]
      · exact (List.append_nil _).symm
      · exact (List.append_nil _).symm
      · exact (List.append_nil _).symm
      · intro j hj; rw [hacc, if_neg (by rw [← hid]; exact fun h => hj h.2.symm)]

end Wolf.Channel
