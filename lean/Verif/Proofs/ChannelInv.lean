import Verif.Proofs.Channel
import Verif.Proofs.AuthSafe
/-! The invariant of every channel and its preservation by the calls and messages. -/

namespace Wolf.Channel
open Wolf Wolf.Wire Wolf.NameList Wolf.Buffer Spec.Buffer Spec.Channel Props.Buffer

/-- Receiving side of one channel. -/
structure RxGood (ch : Chan) : Prop where
  inOk : Ok ch.inBuf
  inSz : ch.inBuf.bufferSz = ch.g.initial
  extOk : Ok ch.ext
  window : ch.windowSz + ch.inBuf.length + (unread ch.ext).length = ch.g.initial
  credit : ch.g.initial + ch.g.credited + ch.pending + ch.g.lost =
    ch.windowSz + (ch.g.got.length + ch.g.gotExt.length + ch.g.dropped)
  pend : ch.pending < 2^32
  stream : ch.g.got = ch.g.taken ++ unread ch.inBuf
  streamExt : ch.g.gotExt = ch.g.gaveExt ++ unread ch.ext
  lostWhy : ch.g.got.length + ch.g.gotExt.length + ch.g.dropped < 2^32 → ch.g.lost = 0

/-- What the application got. -/
structure Handed (g : Ghost) : Prop where
  all : g.failedReads = 0 → g.gave = g.taken
  sub : g.gave.Sublist g.taken

/-- Sending side of one channel. -/
structure TxGood (ch : Chan) : Prop where
  balance : ch.g.granted = ch.g.sent + ch.peerWindowSz
  lt : ch.peerWindowSz < 2^32
  sent : ch.g.sent = dataBytes ch.g.tx
  quiet : quietAfterEof ch.g.tx = true
  eof : .eof true ∈ ch.g.tx → ch.eofTxd = true

structure Good (ch : Chan) : Prop where
  rx : RxGood ch
  handed : Handed ch.g
  tx : TxGood ch
  id : ch.id < 2^32

/-- Session channels opened by the peer. -/
def isPeerSession (k : Nat × Nat × Bool) : Bool := k.2.2 && k.2.1 == ID_CHANTYPE_SESSION

structure Inv (c : Conn) : Prop where
  shape : Shape c
  good : ∀ ch ∈ c.chans, Good ch
  next : c.nextChannel < 2^32
  win : c.ctxWindow < 2^32
  sess : (c.chans.map key).countP isPeerSession ≤ 1

theorem Inv.get {c : Conn} (hi : Inv c) {i : Nat} {ch : Chan} (h : c.chans[i]? = some ch) : Good ch :=
  hi.good ch (List.mem_of_getElem? h)

theorem Shape.of_set {c : Conn} (hs : Shape c) {i : Nat} {ch ch' : Chan} (h : c.chans[i]? = some ch)
    (hk : ch'.id = ch.id) {c' : Conn} (e1 : c'.chans = c.chans.set i ch')
    (e2 : c'.listSz = c.listSz) : Shape c' := by
  have := hs.set h hk
  exact ⟨by rw [e2, e1]; exact this.count, by rw [e1]; exact this.few, by rw [e1]; exact this.nodup⟩

theorem Inv.of_set {c : Conn} (hi : Inv c) {i : Nat} {ch ch' : Chan} (h : c.chans[i]? = some ch)
    (hk : key ch' = key ch) (hg : Good ch') {c' : Conn} (e1 : c'.chans = c.chans.set i ch')
    (e2 : c'.listSz = c.listSz) (e3 : c'.nextChannel = c.nextChannel)
    (e4 : c'.ctxWindow = c.ctxWindow) : Inv c' where
  shape := hi.shape.of_set h (by have := congrArg Prod.fst hk; exact this) e1 e2
  good := by
    rw [e1]
    intro d hd
    rcases List.mem_or_eq_of_mem_set hd with hd | rfl
    · exact hi.good d hd
    · exact hg
  next := by rw [e3]; exact hi.next
  win := by rw [e4]; exact hi.win
  sess := by rw [e1, map_set_same key c.chans i ch ch' h hk]; exact hi.sess

/-- The invariant does not look at anything but the list, its count, the next number and the
configured window. -/
theorem Inv.congr {c c' : Conn} (hi : Inv c) (e1 : c'.chans = c.chans)
    (e2 : c'.listSz = c.listSz) (e3 : c'.nextChannel = c.nextChannel)
    (e4 : c'.ctxWindow = c.ctxWindow) : Inv c' where
  shape := ⟨by rw [e2, e1]; exact hi.shape.count, by rw [e1]; exact hi.shape.few,
    by rw [e1]; exact hi.shape.nodup⟩
  good := by rw [e1]; exact hi.good
  next := by rw [e3]; exact hi.next
  win := by rw [e4]; exact hi.win
  sess := by rw [e1]; exact hi.sess

/-! ## Log facts -/

theorem dataBytes_append (l : List Tx) (t : Tx) : dataBytes (l ++ [t]) = dataBytes l + dataBytes [t] := by
  induction l with
  | nil => simp [dataBytes]
  | cons a l ih => cases a <;> simp only [List.cons_append, dataBytes, ih] <;> omega

theorem quiet_append {l : List Tx} {t : Tx} (h : quietAfterEof l = true)
    (ht : isData t = true → Tx.eof true ∉ l) : quietAfterEof (l ++ [t]) = true := by
  induction l with
  | nil => cases t <;> simp [quietAfterEof]; rename_i d; cases d <;> simp [quietAfterEof]
  | cons a l ih =>
    have key : ∀ (x : Tx), x = .eof true ∨ quietAfterEof (x :: l) = quietAfterEof l ∧
        quietAfterEof (x :: (l ++ [t])) = quietAfterEof (l ++ [t]) := by
      intro x
      cases x with
      | eof d => cases d <;> simp [quietAfterEof]
      | _ => simp [quietAfterEof]
    rcases key a with rfl | ⟨h1, h2⟩
    · rw [List.cons_append]
      simp only [quietAfterEof] at h ⊢
      rw [List.all_append, h]
      simp only [List.all_cons, List.all_nil, Bool.and_true, Bool.true_and]
      cases hd : isData t with
      | false => rfl
      | true => exact absurd List.mem_cons_self (ht hd)
    · rw [List.cons_append, h2]
      exact ih (by rw [← h1]; exact h) (fun hd hm => ht hd (List.mem_cons_of_mem _ hm))

/-! ## Opening the receive window -/

/-- The channel after its consumed bytes were dropped and the window opened by as many. -/
def opened (ch : Chan) (m : Bytes) (p cr lo : Nat) : Chan :=
  { ch with
    windowSz := ch.windowSz + ch.inBuf.idx
    inBuf := { ch.inBuf with mem := m, length := ch.inBuf.length - ch.inBuf.idx, idx := 0 }
    pending := p
    g := { ch.g with credited := cr, lost := lo } }

theorem compact_mem {b : Buf} (hin : Ok b) : ∃ m, compactMem b (b.length - b.idx) = some m ∧
        m.length = b.bufferSz ∧ m.take (b.length - b.idx) = unread b := by
  unfold compactMem
  obtain ⟨h1, h2, h3, h4, h5⟩ := hin
  have hin : Ok b := ⟨h1, h2, h3, h4, h5⟩
  have hul := unread_length hin
  by_cases h0 : b.length - b.idx ≠ 0
  · rw [if_pos h0, read_unread hin, Option.bind_some, write_zero (by omega)]
    refine ⟨_, rfl, ?_, ?_⟩
    · rw [List.length_append, List.length_drop]; omega
    rw [List.take_append_of_le_length (by omega), List.take_of_length_le (by omega)]
  · rw [if_neg h0]
    have : b.length - b.idx = 0 := by omega
    refine ⟨_, rfl, h3, ?_⟩
    rw [this, List.take_zero]
    exact (List.length_eq_zero_iff.1 (by omega)).symm

theorem opened_unread {ch : Chan} {m : Bytes} {p cr lo : Nat}
    (hm : m.take (ch.inBuf.length - ch.inBuf.idx) = unread ch.inBuf) :
    unread (opened ch m p cr lo).inBuf = unread ch.inBuf := by
  rw [← hm]
  simp [unread, opened]

theorem opened_rx {ch : Chan} {m : Bytes} {p cr lo : Nat} (hg : RxGood ch)
    (hl : m.length = ch.inBuf.bufferSz)
    (hm : m.take (ch.inBuf.length - ch.inBuf.idx) = unread ch.inBuf)
    (hsum : p + cr + lo = ch.pending + ch.g.credited + ch.g.lost + ch.inBuf.idx) (hp : p < 2^32)
    (hk : ch.pending + ch.inBuf.idx < 2^32 → lo = ch.g.lost) :
    RxGood (opened ch m p cr lo) := by
  obtain ⟨h1, h2, h3, h4, h5⟩ := hg.inOk
  have hw := hg.window
  have hc := hg.credit
  have hu := opened_unread (p := p) (cr := cr) (lo := lo) hm
  exact {
    inOk := ⟨Nat.zero_le _, Nat.le_trans (Nat.sub_le _ _) h2, hl, h4, h5⟩
    inSz := hg.inSz
    extOk := hg.extOk
    window := by
      show ch.windowSz + ch.inBuf.idx + (ch.inBuf.length - ch.inBuf.idx) + (unread ch.ext).length = ch.g.initial
      omega
    credit := by
      show ch.g.initial + cr + p + lo = ch.windowSz + ch.inBuf.idx + (ch.g.got.length + ch.g.gotExt.length + ch.g.dropped)
      omega
    pend := hp
    stream := by rw [hu]; exact hg.stream
    streamExt := hg.streamExt
    lostWhy := by
      intro (ht : ch.g.got.length + ch.g.gotExt.length + ch.g.dropped < 2^32)
      have h0 := hg.lostWhy ht
      show lo = 0
      rw [hk (by omega), h0] }

theorem modChan_set {c : Conn} {i : Nat} {ch a : Chan} (h : c.chans[i]? = some ch) (out' : List OutMsg)
    (f : Chan → Chan) : modChan { c with chans := c.chans.set i a, out := out' } i f =
      { c with chans := c.chans.set i (f a), out := out' } := by
  unfold modChan
  rw [get_set h]
  simp [setChan]

theorem updateWindow_eff {c : Conn} (hs : Shape c) {i : Nat} {ch : Chan} (h : c.chans[i]? = some ch)
    (hg : RxGood ch) (e : SendEnv) :
    (¬(ch.inBuf.length > ch.inBuf.bufferSz / 2 ∨ ch.windowSz = 0) ∧ updateWindow c i e = some (none, c)) ∨
    ((ch.inBuf.length > ch.inBuf.bufferSz / 2 ∨ ch.windowSz = 0) ∧
      ∃ r out' p' cr' lo' m,
      Credit c ch ch.inBuf.idx e r out' p' cr' lo' ∧
      updateWindow c i e = some (r, { c with chans := c.chans.set i (opened ch m p' cr' lo'), out := out' }) ∧
      RxGood (opened ch m p' cr' lo') ∧ unread (opened ch m p' cr' lo').inBuf = unread ch.inBuf) := by
  have h1 := hg.inOk.cursor
  have h2 := hg.inOk.fits
  have h4 := hg.inOk.size
  have hw := hg.window
  have hz := hg.inSz
  have hu : sub32 ch.inBuf.length ch.inBuf.idx = ch.inBuf.length - ch.inBuf.idx := sub32_le h1 (by omega)
  have ha : add32 ch.windowSz ch.inBuf.idx = ch.windowSz + ch.inBuf.idx := by unfold add32; omega
  clear h4 hw hz
  by_cases ht : ch.inBuf.length > ch.inBuf.bufferSz / 2 ∨ ch.windowSz = 0
  · refine .inr ⟨ht, ?_⟩
    obtain ⟨m, hm, hml, hmu⟩ := compact_mem hg.inOk
    obtain ⟨r, out', p', cr', lo', he, hcr⟩ := creditWindow_eff hs h (amount := ch.inBuf.idx) hg.pend e
    refine ⟨r, out', p', cr', lo', m, hcr, ?_, opened_rx hg hml hmu hcr.sum hcr.lt hcr.kept, opened_unread hmu⟩
    unfold updateWindow
    rw [h]
    simp only
    rw [if_pos ht, hu, hm, Option.map_some, he, modChan_set h]
    unfold openWindow opened
    rw [ha]
  · refine .inl ⟨ht, ?_⟩
    unfold updateWindow
    simp only [h]
    rw [if_neg ht]

/-! ## Parsing -/

open Props.Wire in
theorem getUint32_cases {mem : Bytes} {len : Nat} (idx : Nat) (hl : len ≤ mem.length) (hw : len < 2^32) :
    (∃ e i, getUint32 mem len idx = .err e i ∧ Spec.Wire.uint32 (msgFrom mem len idx) = none) ∨
    (∃ v, getUint32 mem len idx = .ok v (idx + 4) ∧ v < 2^32 ∧ idx + 4 ≤ len ∧
      Spec.Wire.uint32 (msgFrom mem len idx) = some (v, msgFrom mem len (idx + 4))) := by
  have h1 := C01_getUint32 mem len idx hl hw
  cases e1 : getUint32 mem len idx with
  | ub => rw [e1] at h1; exact h1.elim
  | err e i => rw [e1] at h1; exact .inl ⟨e, i, rfl, h1.2⟩
  | ok v i =>
    rw [e1] at h1
    obtain ⟨ha, rfl, hb⟩ := h1
    exact .inr ⟨v, rfl, (uint32_some hb).2.1, ha, hb⟩

open Props.Wire in
theorem getSize_cases {mem : Bytes} {len : Nat} (idx : Nat) (hl : len ≤ mem.length) (hw : len < 2^32) :
    (∃ e i, getSize mem len idx = .err e i ∧ Spec.Wire.string (msgFrom mem len idx) = none) ∨
    (∃ v r, getSize mem len idx = .ok v (idx + 4) ∧ v < 2^32 ∧ idx + 4 + v ≤ len ∧
      Spec.Wire.string (msgFrom mem len idx) = some ((mem.drop (idx + 4)).take v, r)) := by
  have h1 := C01_getSize mem len idx hl hw
  cases e1 : getSize mem len idx with
  | ub => rw [e1] at h1; exact h1.elim
  | err e i => rw [e1] at h1; exact .inl ⟨e, i, rfl, h1.2⟩
  | ok v i =>
    rw [e1] at h1
    obtain ⟨rfl, ha, hb⟩ := h1
    refine .inr ⟨v, (msgFrom mem len (idx + 4)).drop v, rfl, (uint32_some hb).2.1, ha, ?_⟩
    unfold Spec.Wire.string
    rw [hb]
    have hlen : (msgFrom mem len (idx + 4)).length = len - (idx + 4) := by
      simp [msgFrom]; omega
    simp only
    rw [if_pos (by omega)]
    congr 2
    unfold msgFrom
    rw [List.drop_take, List.take_take]
    congr 1; omega

open Props.Wire in
theorem parseAdjust_cases {mem : Bytes} {len : Nat} (idx : Nat) (hl : len ≤ mem.length) (hw : len < 2^32) :
    (∃ e i, parseAdjust mem len idx = .err e i ∧ adjustMsg (msgFrom mem len idx) = none) ∨
    (∃ id n, parseAdjust mem len idx = .ok (id, n) (idx + 8) ∧ id < 2^32 ∧ n < 2^32 ∧
      adjustMsg (msgFrom mem len idx) = some (id, n)) := by
  unfold parseAdjust adjustMsg
  rcases getUint32_cases idx hl hw with ⟨e, i, h1, h2⟩ | ⟨v, h1, hv, _, h2⟩
  · rw [h1, h2]; exact .inl ⟨e, i, rfl, rfl⟩
  rw [h1, h2]
  rcases getUint32_cases (idx + 4) hl hw with ⟨e, i, h3, h4⟩ | ⟨w, h3, hw', _, h4⟩
  · simp only [Wolf.Kex.Res.bind, h3, Option.bind_some, h4]; exact .inl ⟨e, i, rfl, rfl⟩
  · simp only [Wolf.Kex.Res.bind, h3, Option.bind_some, h4]
    exact .inr ⟨v, w, rfl, hv, hw', rfl⟩

open Props.Wire in
theorem parseData_cases {mem : Bytes} {len : Nat} (idx : Nat) (hl : len ≤ mem.length) (hw : len < 2^32) :
    (∃ e i, parseData mem len idx = .err e i ∧ dataMsg (msgFrom mem len idx) = none) ∨
    (∃ id n, parseData mem len idx = .ok (id, n) (idx + 8) ∧ id < 2^32 ∧ n < 2^32 ∧ idx + 8 + n ≤ len ∧
      dataMsg (msgFrom mem len idx) = some (id, (mem.drop (idx + 8)).take n)) := by
  unfold parseData dataMsg
  rcases getUint32_cases idx hl hw with ⟨e, i, h1, h2⟩ | ⟨v, h1, hv, _, h2⟩
  · rw [h1, h2]; exact .inl ⟨e, i, rfl, rfl⟩
  rw [h1, h2]
  rcases getSize_cases (idx + 4) hl hw with ⟨e, i, h3, h4⟩ | ⟨w, r, h3, hw', hle, h4⟩
  · simp only [Wolf.Kex.Res.bind, h3, Option.bind_some, h4]; exact .inl ⟨e, i, rfl, rfl⟩
  · simp only [Wolf.Kex.Res.bind, h3, Option.bind_some, h4]
    exact .inr ⟨v, w, rfl, hv, hw', hle, rfl⟩

open Props.Wire in
theorem parseExt_cases {mem : Bytes} {len : Nat} (idx : Nat) (hl : len ≤ mem.length) (hw : len < 2^32) :
    (∃ e i, parseExt mem len idx = .err e i ∧ extMsg (msgFrom mem len idx) = none) ∨
    (∃ id code n, parseExt mem len idx = .ok (id, code, n) (idx + 12) ∧ id < 2^32 ∧ n < 2^32 ∧ idx + 12 + n ≤ len ∧
      extMsg (msgFrom mem len idx) = some (id, code, (mem.drop (idx + 12)).take n)) := by
  unfold parseExt extMsg
  rcases getUint32_cases idx hl hw with ⟨e, i, h1, h2⟩ | ⟨v, h1, hv, _, h2⟩
  · rw [h1, h2]; exact .inl ⟨e, i, rfl, rfl⟩
  rw [h1, h2]
  rcases getUint32_cases (idx + 4) hl hw with ⟨e, i, h3, h4⟩ | ⟨w, h3, hw', _, h4⟩
  · simp only [Wolf.Kex.Res.bind, h3, Option.bind_some, h4]; exact .inl ⟨e, i, rfl, rfl⟩
  rcases getSize_cases (idx + 4 + 4) hl hw with ⟨e, i, h5, h6⟩ | ⟨x, r, h5, hx, hle, h6⟩
  · simp only [Wolf.Kex.Res.bind, h3, Option.bind_some, h4, h5, h6]; exact .inl ⟨e, i, rfl, rfl⟩
  · simp only [Wolf.Kex.Res.bind, h3, Option.bind_some, h4, h5, h6]
    exact .inr ⟨v, w, x, rfl, hv, hx, hle, rfl⟩

open Props.Wire in
theorem parseConf_cases {mem : Bytes} {len : Nat} (idx : Nat) (hl : len ≤ mem.length) (hw : len < 2^32) :
    (∃ e i, parseConf mem len idx = .err e i ∧ confMsg (msgFrom mem len idx) = none) ∨
    (∃ id peer win mx, parseConf mem len idx = .ok (id, peer, win, mx) (idx + 16) ∧
      id < 2^32 ∧ win < 2^32 ∧
      confMsg (msgFrom mem len idx) = some (id, peer, win, mx)) := by
  unfold parseConf confMsg
  rcases getUint32_cases idx hl hw with ⟨e, i, h1, h2⟩ | ⟨v, h1, hv, _, h2⟩
  · rw [h1, h2]; exact .inl ⟨e, i, rfl, rfl⟩
  rw [h1, h2]
  rcases getUint32_cases (idx + 4) hl hw with ⟨e, i, h3, h4⟩ | ⟨w, h3, hw', _, h4⟩
  · simp only [Wolf.Kex.Res.bind, h3, Option.bind_some, h4]; exact .inl ⟨e, i, rfl, rfl⟩
  rcases getUint32_cases (idx + 4 + 4) hl hw with ⟨e, i, h5, h6⟩ | ⟨x, h5, hx, _, h6⟩
  · simp only [Wolf.Kex.Res.bind, h3, Option.bind_some, h4, h5, h6]; exact .inl ⟨e, i, rfl, rfl⟩
  rcases getUint32_cases (idx + 4 + 4 + 4) hl hw with ⟨e, i, h7, h8⟩ | ⟨y, h7, hy, _, h8⟩
  · simp only [Wolf.Kex.Res.bind, h3, Option.bind_some, h4, h5, h6, h7, h8]; exact .inl ⟨e, i, rfl, rfl⟩
  · simp only [Wolf.Kex.Res.bind, h3, Option.bind_some, h4, h5, h6, h7, h8]
    exact .inr ⟨v, w, x, y, rfl, hv, hx, rfl⟩

theorem getString_ne_ub {cap : Nat} {mem : Bytes} {len idx : Nat} (hl : len ≤ mem.length) (hw : len < 2^32)
    (hc : cap < 2^32) : getString cap mem len idx ≠ .ub := by
  have := Props.Wire.C01_getString cap mem len idx hl hw hc
  intro h; rw [h] at this; exact this

theorem getSize_ne_ub {mem : Bytes} {len idx : Nat} (hl : len ≤ mem.length) (hw : len < 2^32) :
    getSize mem len idx ≠ .ub := by
  have := Props.Wire.C01_getSize mem len idx hl hw
  intro h; rw [h] at this; exact this

theorem bind_ne_ub {α β : Type} {r : Res α} {f : α → Nat → Res β} (h : r ≠ .ub) (hf : ∀ a i, f a i ≠ .ub) :
    Wolf.Kex.Res.bind r f ≠ .ub := by
  cases r with
  | ub => exact absurd rfl h
  | err e i => simp [Wolf.Kex.Res.bind]
  | ok a i => simpa [Wolf.Kex.Res.bind] using hf a i

theorem parseFail_ne_ub {mem : Bytes} {len idx : Nat} (hl : len ≤ mem.length) (hw : len < 2^32) :
    parseFail mem len idx ≠ .ub :=
  bind_ne_ub (Wolf.UserAuth.getUint32_ne_ub hl hw) fun _ _ =>
  bind_ne_ub (Wolf.UserAuth.getUint32_ne_ub hl hw) fun _ _ =>
  bind_ne_ub (getString_ne_ub hl hw (by omega)) fun _ _ =>
  bind_ne_ub (getSize_ne_ub hl hw) fun _ _ => by simp

theorem parseForward_ne_ub {mem : Bytes} {len idx : Nat} (hl : len ≤ mem.length) (hw : len < 2^32) :
    parseForward mem len idx ≠ .ub :=
  bind_ne_ub (Wolf.UserAuth.getStringAlloc_ne_ub hl hw) fun _ _ =>
  bind_ne_ub (Wolf.UserAuth.getUint32_ne_ub hl hw) fun _ _ =>
  bind_ne_ub (Wolf.UserAuth.getStringAlloc_ne_ub hl hw) fun _ _ =>
  bind_ne_ub (Wolf.UserAuth.getUint32_ne_ub hl hw) fun _ _ => by simp

end Wolf.Channel
