import Verif.Proofs.ChannelInv
/-! Received messages keep the channel invariant. -/

namespace Wolf.Channel
open Wolf Wolf.Wire Wolf.NameList Wolf.Buffer Spec.Buffer Spec.Channel Props.Buffer

theorem doWindowAdjust_inv {c : Conn} (hi : Inv c) {mem : Bytes} {len : Nat} (idx : Nat)
    (hl : len ≤ mem.length) (hw : len < 2^32) :
    ∃ r c', doWindowAdjust c mem len idx = some (r, c') ∧ Inv c' := by
  unfold doWindowAdjust
  rcases parseAdjust_cases idx hl hw with ⟨e, i, h, _⟩ | ⟨id, n, h, _, hn, _⟩
  · rw [h]; exact ⟨_, _, rfl, hi⟩
  rw [h]
  simp only
  cases hf : findSelf c id with
  | none => exact ⟨_, _, rfl, hi⟩
  | some q =>
    obtain ⟨i, ch⟩ := q
    have hc := (Shape.findSelf_some hf).1
    have hg := hi.get hc
    have hlt := hg.tx.lt
    have hb := hg.tx.balance
    have hsub : sub32 4294967295 ch.peerWindowSz = 4294967295 - ch.peerWindowSz := by unfold sub32; omega
    simp only [hsub]
    by_cases ho : n > 4294967295 - ch.peerWindowSz
    · rw [if_pos ho]; exact ⟨_, _, rfl, hi⟩
    · rw [if_neg ho]
      have hadd : add32 ch.peerWindowSz n = ch.peerWindowSz + n := by unfold add32; omega
      refine ⟨_, _, rfl, hi.of_set hc (ch' := addPeerWindow ch n) rfl ?_ rfl rfl rfl rfl⟩
      exact {
        rx := ⟨hg.rx.inOk, hg.rx.inSz, hg.rx.extOk, hg.rx.window, hg.rx.credit, hg.rx.pend, hg.rx.stream, hg.rx.streamExt, hg.rx.lostWhy⟩
        handed := ⟨hg.handed.all, hg.handed.sub⟩
        tx := ⟨by show ch.g.granted + n = ch.g.sent + add32 ch.peerWindowSz n; omega,
               by show add32 ch.peerWindowSz n < 2^32; omega, hg.tx.sent, hg.tx.quiet, hg.tx.eof⟩
        id := hg.id }

theorem putData_eff {ch : Chan} (hg : RxGood ch) (data : Bytes) :
    (∃ r, putData ch data = some (some r, ch) ∧
      (ch.windowSz < data.length ∨ ch.inBuf.length = ch.inBuf.bufferSz)) ∨
    (∃ m, putData ch data = some (none, { ch with
        inBuf := { ch.inBuf with mem := m, length := ch.inBuf.length + data.length }
        windowSz := ch.windowSz - data.length, g := { ch.g with got := ch.g.got ++ data } }) ∧
      data.length ≤ ch.windowSz ∧
      Ok { ch.inBuf with mem := m, length := ch.inBuf.length + data.length } ∧
      unread { ch.inBuf with mem := m, length := ch.inBuf.length + data.length } = unread ch.inBuf ++ data) := by
  have hw := hg.window
  have hz := hg.inSz
  have hsz := hg.inOk.size
  have hf := hg.inOk.fits
  unfold putData
  by_cases h1 : data.length > ch.windowSz
  · rw [if_pos h1]; exact .inl ⟨_, rfl, .inl h1⟩
  rw [if_neg h1]
  have hadd : add32 ch.inBuf.length data.length = ch.inBuf.length + data.length := by unfold add32; omega
  by_cases h2 : ch.inBuf.length < ch.inBuf.bufferSz ∧ add32 ch.inBuf.length data.length ≤ ch.inBuf.bufferSz
  · rw [if_pos h2]
    obtain ⟨m, hm, hok, hun⟩ := write_append hg.inOk data (by rw [hadd] at h2; exact h2.2)
    have hs : sub32 ch.windowSz data.length = ch.windowSz - data.length := sub32_le (by omega) (by omega)
    rw [hm, hadd, hs]
    rw [hadd] at hok hun
    exact .inr ⟨m, rfl, by omega, hok, hun⟩
  · rw [if_neg h2]; exact .inl ⟨_, rfl, .inr (by omega)⟩

theorem slice_some {mem : Bytes} {off n : Nat} (h : off + n ≤ mem.length) :
    slice mem off n = some ((mem.drop off).take n) ∧ ((mem.drop off).take n).length = n := by
  unfold slice
  rw [if_pos h]
  refine ⟨rfl, ?_⟩
  simp; omega

theorem doData_inv {c : Conn} (hi : Inv c) {mem : Bytes} {len : Nat} (idx : Nat)
    (hl : len ≤ mem.length) (hw : len < 2^32) :
    ∃ r c', doData c mem len idx = some (r, c') ∧ Inv c' := by
  unfold doData
  rcases parseData_cases idx hl hw with ⟨e, i, h, _⟩ | ⟨id, n, h, _, hn, hle, _⟩
  · rw [h]; exact ⟨_, _, rfl, hi⟩
  rw [h]
  simp only
  rw [if_neg (by omega)]
  cases hf : findSelf c id with
  | none => exact ⟨_, _, rfl, hi⟩
  | some q =>
    obtain ⟨i, ch⟩ := q
    have hc := (Shape.findSelf_some hf).1
    have hg := hi.get hc
    simp only
    by_cases hm : n > ch.maxPacketSz
    · rw [if_pos hm]; exact ⟨_, _, rfl, hi⟩
    rw [if_neg hm]
    obtain ⟨hsl, hsn⟩ := slice_some (show idx + 8 + n ≤ mem.length by omega)
    rw [hsl]
    simp only
    rcases putData_eff hg.rx ((mem.drop (idx + 8)).take n) with ⟨r, hp, _⟩ | ⟨m, hp, hle2, hok, hun⟩
    · rw [hp]; exact ⟨_, _, rfl, hi⟩
    · rw [hp]
      have hwin := hg.rx.window
      have hcr := hg.rx.credit
      refine ⟨_, _, rfl, hi.of_set hc (ch' := _) ?_ ?_ rfl rfl rfl rfl⟩
      · rfl
      · rw [hsn] at hle2
        exact {
          rx := {
            inOk := hok, inSz := hg.rx.inSz, extOk := hg.rx.extOk
            window := by
              simp only [hsn]; omega
            credit := by
              simp only [List.length_append, hsn]; omega
            pend := hg.rx.pend
            stream := by simp only; rw [hun, ← List.append_assoc, ← hg.rx.stream]
            streamExt := hg.rx.streamExt
            lostWhy := by
              intro ht
              simp only [List.length_append] at ht
              exact hg.rx.lostWhy (by omega) }
          handed := ⟨hg.handed.all, hg.handed.sub⟩
          tx := ⟨hg.tx.balance, hg.tx.lt, hg.tx.sent, hg.tx.quiet, hg.tx.eof⟩
          id := hg.id }

/-- Credit on a channel all of whose accounts are right except that the amount is still missing. -/
theorem credit_inv {c : Conn} (hs : Shape c) {i : Nat} {ch : Chan} (h : c.chans[i]? = some ch)
    {amount : Nat} (hp : ch.pending < 2^32) (e : SendEnv)
    (hothers : ∀ ch' : Chan, key ch' = key ch → Good ch' → ∀ out', Inv { c with chans := c.chans.set i ch', out := out' })
    (hg : ∀ p' cr' lo', p' + cr' + lo' = ch.pending + ch.g.credited + ch.g.lost + amount → p' < 2^32 →
      (ch.pending + amount < 2^32 → lo' = ch.g.lost) → Good { ch with pending := p', g := { ch.g with credited := cr', lost := lo' } }) :
    Inv (creditWindow c i amount e).2 := by
  obtain ⟨r, out', p', cr', lo', he, hcr⟩ := creditWindow_eff hs h (amount := amount) hp e
  rw [he]
  exact hothers { ch with pending := p', g := { ch.g with credited := cr', lost := lo' } } rfl
    (hg p' cr' lo' hcr.sum hcr.lt hcr.kept) _

theorem dropExt_inv {c : Conn} (hi : Inv c) {i : Nat} {ch : Chan} (h : c.chans[i]? = some ch)
    (id n : Nat) (e : SendEnv) : Inv (dropExt c i ch id n e).2 := by
  unfold dropExt
  simp only
  have hg := hi.get h
  have hs : Shape (setChan c i { ch with g := { ch.g with dropped := ch.g.dropped + n } }) := hi.shape.set h rfl
  have := credit_inv hs (amount := n) (get_set h) hg.rx.pend e ?_ ?_
  · exact this.congr rfl rfl rfl rfl
  · intro ch' hk hg' out'
    refine hi.of_set h (ch' := ch') (hk.trans rfl) hg' ?_ rfl rfl rfl
    simp [setChan]
  · intro p' cr' lo' hsum hlt hk
    have hcr := hg.rx.credit
    have hwin := hg.rx.window
    exact {
      rx := ⟨hg.rx.inOk, hg.rx.inSz, hg.rx.extOk, hg.rx.window, by simp only at hsum ⊢; omega, hlt,
        hg.rx.stream, hg.rx.streamExt, by
          intro (ht : ch.g.got.length + ch.g.gotExt.length + (ch.g.dropped + n) < 2^32)
          have h0 := hg.rx.lostWhy (by omega)
          show lo' = 0
          exact (hk (by show ch.pending + n < 2^32; omega)).trans h0⟩
      handed := ⟨hg.handed.all, hg.handed.sub⟩
      tx := ⟨hg.tx.balance, hg.tx.lt, hg.tx.sent, hg.tx.quiet, hg.tx.eof⟩
      id := hg.id }

/-- The channel after stderr bytes were stored. -/
def charged (ch : Chan) (b : Buf) (d : Bytes) : Chan :=
  { ch with ext := b, windowSz := ch.windowSz - d.length, g := { ch.g with gotExt := ch.g.gotExt ++ d } }

theorem charged_good {ch : Chan} {b : Buf} {d : Bytes} (hg : Good ch) (hok : Ok b)
    (hun : unread b = unread ch.ext ++ d) (hd : d.length ≤ ch.windowSz) : Good (charged ch b d) := by
  have hwin := hg.rx.window
  have hcr := hg.rx.credit
  have hul := congrArg List.length hun
  rw [List.length_append] at hul
  exact {
    rx := {
      inOk := hg.rx.inOk, inSz := hg.rx.inSz, extOk := hok
      window := by
        show ch.windowSz - d.length + ch.inBuf.length + (unread b).length = ch.g.initial
        omega
      credit := by
        show ch.g.initial + ch.g.credited + ch.pending + ch.g.lost = ch.windowSz - d.length +
          (ch.g.got.length + (ch.g.gotExt ++ d).length + ch.g.dropped)
        rw [List.length_append]; omega
      pend := hg.rx.pend
      stream := hg.rx.stream
      streamExt := by
        show ch.g.gotExt ++ d = ch.g.gaveExt ++ unread b
        rw [hun, ← List.append_assoc, ← hg.rx.streamExt]
      lostWhy := by
        intro (ht : ch.g.got.length + (ch.g.gotExt ++ d).length + ch.g.dropped < 2^32)
        rw [List.length_append] at ht
        exact hg.rx.lostWhy (by omega) }
    handed := ⟨hg.handed.all, hg.handed.sub⟩
    tx := ⟨hg.tx.balance, hg.tx.lt, hg.tx.sent, hg.tx.quiet, hg.tx.eof⟩
    id := hg.id }

theorem doExtData_inv {c : Conn} (hi : Inv c) {alloc : Nat → Option Bytes} (ha : Allocator alloc)
    {mem : Bytes} {len : Nat} (idx : Nat) (hl : len ≤ mem.length) (hw : len < 2^32) (e : SendEnv) :
    ∃ r c', doExtData alloc c mem len idx e = some (r, c') ∧ Inv c' := by
  unfold doExtData
  rcases parseExt_cases idx hl hw with ⟨e, i, h, _⟩ | ⟨id, code, n, h, _, hn, hle, _⟩
  · rw [h]; exact ⟨_, _, rfl, hi⟩
  rw [h]
  simp only
  cases hf : findSelf c id with
  | none => exact ⟨_, _, rfl, hi⟩
  | some q =>
    obtain ⟨i, ch⟩ := q
    have hc := (Shape.findSelf_some hf).1
    have hg := hi.get hc
    simp only
    by_cases hm : n > ch.maxPacketSz
    · rw [if_pos hm]; exact ⟨_, _, rfl, hi⟩
    rw [if_neg hm]
    by_cases hwd : n > ch.windowSz
    · rw [if_pos hwd]; exact ⟨_, _, rfl, hi⟩
    rw [if_neg hwd]
    by_cases hcode : code = 1
    · rw [if_pos hcode]
      obtain ⟨hsl, hsn⟩ := slice_some (show idx + 12 + n ≤ mem.length by omega)
      rw [hsl, Option.bind_some]
      unfold storeExt
      obtain ⟨r, b', hap, hok, hres⟩ := C38_append alloc ha ch.ext hg.rx.extOk ((mem.drop (idx + 12)).take n)
      rw [hap, Option.map_some]
      have hwin := hg.rx.window
      have hcr := hg.rx.credit
      have hsz := hg.rx.inOk.size
      have hbz := hg.rx.inSz
      rcases hres with ⟨rfl, hun⟩ | ⟨rfl, rfl, _⟩ | ⟨rfl, rfl, _⟩
      · have hs : sub32 ch.windowSz n = ch.windowSz - n := sub32_le (by omega) (by omega)
        rw [hs, show putExt ch b' ((mem.drop (idx + 12)).take n) (ch.windowSz - n) =
          charged ch b' ((mem.drop (idx + 12)).take n) by unfold charged putExt; rw [hsn]]
        exact ⟨_, _, rfl, hi.of_set hc (ch' := charged ch b' ((mem.drop (idx + 12)).take n)) rfl
          (charged_good hg hok hun (by omega)) rfl rfl rfl rfl⟩
      all_goals
        refine ⟨_, _, rfl, hi.of_set hc (ch' := ch) rfl hg ?_ rfl rfl rfl⟩
        rfl
    · rw [if_neg hcode]
      exact ⟨_, _, rfl, dropExt_inv hi hc id n e⟩

end Wolf.Channel
