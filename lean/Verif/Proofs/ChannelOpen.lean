import Verif.Proofs.ChannelTx
/-! Opening channels keeps the channel invariant. -/

namespace Wolf.Channel
open Wolf Wolf.Wire Wolf.NameList Wolf.Buffer Spec.Buffer Spec.Channel Props.Buffer

theorem nodup_length_le {l m : List Nat} (h : l.Nodup) (hs : ∀ a ∈ l, a ∈ m) : l.length ≤ m.length := by
  induction l generalizing m with
  | nil => simp
  | cons a l ih =>
    obtain ⟨h1, h2⟩ := List.nodup_cons.1 h
    have ha : a ∈ m := hs a List.mem_cons_self
    have := ih (m := m.erase a) h2 (fun b hb => by
      refine (List.mem_erase_of_ne ?_).2 (hs b (List.mem_cons_of_mem _ hb))
      rintro rfl; exact h1 hb)
    rw [List.length_erase_of_mem ha] at this
    have := List.length_pos_of_mem ha
    simp only [List.length_cons]; omega

theorem nextId_none {c : Conn} {fuel n : Nat} (hn : n < 2^32) (h : nextId c fuel n = none) :
    ∀ k, k < fuel → (findSelf c ((n + k) % 2^32)).isSome = true := by
  induction fuel generalizing n with
  | zero => intro k hk; omega
  | succ f ih =>
    unfold nextId at h
    by_cases hs : (findSelf c n).isSome = true
    · rw [if_pos hs] at h
      have := ih (n := add32 n 1) (by unfold add32; omega) h
      intro k hk
      cases k with
      | zero => rw [Nat.add_zero, Nat.mod_eq_of_lt hn]; exact hs
      | succ k =>
        have := this k (by omega)
        have e : (add32 n 1 + k) % 2^32 = (n + (k + 1)) % 2^32 := by unfold add32; omega
        rwa [e] at this
    · rw [if_neg hs] at h; cases h

/-- The search for a free number ends. -/
theorem nextId_total {c : Conn} (hroom : c.chans.length + 1 < 2^32) {n : Nat} (hn : n < 2^32) :
    ∃ id, nextId c (c.chans.length + 1) n = some id := by
  cases h : nextId c (c.chans.length + 1) n with
  | some id => exact ⟨id, rfl⟩
  | none =>
    exfalso
    have hall := nextId_none hn h
    have := nodup_length_le (l := (List.range (c.chans.length + 1)).map (fun k => (n + k) % 2^32))
      (m := c.chans.map (·.id)) ?_ ?_
    · simp only [List.length_map, List.length_range] at this; omega
    · refine List.Pairwise.map _ ?_ (List.Pairwise.and_mem.1 (List.pairwise_lt_range (n := c.chans.length + 1)))
      intro a b hab
      obtain ⟨ha, hb, hne⟩ := hab
      rw [List.mem_range] at ha hb
      omega
    · intro a ha
      obtain ⟨k, hk, rfl⟩ := List.mem_map.1 ha
      rw [List.mem_range] at hk
      have := hall k hk
      obtain ⟨q, hq⟩ := Option.isSome_iff_exists.1 this
      obtain ⟨i, ch⟩ := q
      obtain ⟨h1, h2⟩ := Shape.findSelf_some hq
      exact List.mem_map.2 ⟨ch, List.mem_of_getElem? h1, h2⟩

theorem nextId_free {c : Conn} {fuel n id : Nat} (hn : n < 2^32) (h : nextId c fuel n = some id) :
    id < 2^32 ∧ findSelf c id = none := by
  induction fuel generalizing n with
  | zero => cases h
  | succ f ih =>
    unfold nextId at h
    by_cases hs : (findSelf c n).isSome = true
    · rw [if_pos hs] at h; exact ih (by unfold add32; omega) h
    · rw [if_neg hs] at h; cases h
      exact ⟨hn, by simpa using hs⟩

/-- The channel `ChannelNew` makes. -/
def newChan (id ctype window maxPacket : Nat) (m : Bytes) (byPeer : Bool) : Chan :=
  { id := id, ctype := ctype, windowSz := window, maxPacketSz := maxPacket,
    inBuf := ⟨m, window, 0, 0, true⟩, ext := ⟨List.replicate STATIC_BUFFER_LEN 0, 16, 0, 0, false⟩,
    g := { initial := window, byPeer := byPeer } }

theorem channelNew_eff {c : Conn} (hi : Inv c) (hroom : c.chans.length + 1 < 2^32) (ctype maxPacket : Nat)
    (buffer : Option Bytes) (byPeer : Bool) :
    (buffer = none ∧ channelNew c ctype c.ctxWindow maxPacket buffer byPeer = some (none, c)) ∨
    (∃ m id, buffer = some m ∧ id < 2^32 ∧ (∀ ch ∈ c.chans, ch.id ≠ id) ∧
      channelNew c ctype c.ctxWindow maxPacket buffer byPeer =
        some (some (newChan id ctype c.ctxWindow maxPacket m byPeer), { c with nextChannel := add32 id 1 })) := by
  unfold channelNew
  cases buffer with
  | none => exact .inl ⟨rfl, rfl⟩
  | some m =>
    obtain ⟨id, hid⟩ := nextId_total hroom hi.next
    obtain ⟨h1, h2⟩ := nextId_free hi.next hid
    refine .inr ⟨m, id, rfl, h1, hi.shape.findSelf_none h2, ?_⟩
    simp only [hid]
    rfl

theorem newChan_good {id ctype window maxPacket : Nat} {m : Bytes} {byPeer : Bool} (hid : id < 2^32)
    (hm : m.length = window) (hw : window < 2^32) : Good (newChan id ctype window maxPacket m byPeer) where
  rx := {
    inOk := ⟨Nat.le_refl _, Nat.zero_le _, hm, hw, fun h => nomatch h⟩
    inSz := rfl
    extOk := ⟨Nat.le_refl _, Nat.zero_le _, by simp [newChan, STATIC_BUFFER_LEN], by simp [newChan], fun _ => rfl⟩
    window := by simp [newChan, unread]
    credit := by simp [newChan]
    pend := by simp [newChan]
    stream := by simp [newChan, unread]
    streamExt := by simp [newChan, unread]
    lostWhy := fun _ => rfl }
  handed := ⟨fun _ => rfl, List.Sublist.refl _⟩
  tx := ⟨rfl, by simp [newChan], rfl, rfl, fun h => nomatch h⟩
  id := hid

theorem append_chans (c : Conn) (ch : Chan) : (append c ch).chans = c.chans ++ [ch] := by
  unfold append; split <;> simp_all

theorem append_rest (c : Conn) (ch : Chan) : (append c ch).nextChannel = c.nextChannel ∧
    (append c ch).ctxWindow = c.ctxWindow ∧ (append c ch).out = c.out ∧ (append c ch).keying = c.keying := by
  unfold append; split <;> simp

theorem append_inv {c : Conn} (hi : Inv c) (hroom : c.chans.length + 1 < 2^32) {ch : Chan} (hg : Good ch)
    (hnew : ∀ d ∈ c.chans, d.id ≠ ch.id)
    (hsess : isPeerSession (key ch) = true → c.chans = []) : Inv (append c ch) where
  shape := ⟨by
      rw [append_chans]
      have := hi.shape.count
      unfold append
      split
      · rename_i h; simp [h]
      · show add32 c.listSz 1 = _
        rename_i l hl
        unfold add32
        rw [this, List.length_append, List.length_cons, List.length_nil]; omega, by
      rw [append_chans, List.length_append, List.length_cons, List.length_nil]; omega, by
      rw [append_chans, List.map_append, List.nodup_append]
      refine ⟨hi.shape.nodup, by simp, ?_⟩
      intro a ha b hb
      obtain ⟨d, hd, rfl⟩ := List.mem_map.1 ha
      simp at hb
      subst hb
      exact hnew d hd⟩
  good := by
    rw [append_chans]
    intro d hd
    rcases List.mem_append.1 hd with hd | hd
    · exact hi.good d hd
    · simp at hd; subst hd; exact hg
  next := by rw [(append_rest c ch).1]; exact hi.next
  win := by rw [(append_rest c ch).2.1]; exact hi.win
  sess := by
    rw [append_chans, List.map_append, List.countP_append]
    have := hi.sess
    cases hk : isPeerSession (key ch) with
    | false => rw [List.map_cons, List.map_nil, List.countP_singleton, hk]; simpa using this
    | true => rw [hsess hk]; simp [hk]

theorem answerOpen_inv {c : Conn} (hi : Inv c) (E : OpenEnv) (m : OpenMsg) {mem : Bytes} {len : Nat} (idx : Nat)
    (hl : len ≤ mem.length) (hw : len < 2^32) (hb : ∀ m, E.buffer = some m → m.length = c.ctxWindow)
    (hroom : c.chans.length + 1 < 2^32) (hwin : m.window < 2^32) :
    ∃ r c', answerOpen c E m mem len idx = some (r, c') ∧ Inv c' := by
  have hfail : ∀ (d : Conn), Inv d → ∀ p q, Inv (sendOpenFail d p q E.send).2 := by
    intro d hd p q
    unfold sendOpenFail
    split
    · exact hd
    · exact hd.congr rfl rfl rfl rfl
  have hconf : ∀ (d : Conn), Inv d → ∀ ch, Inv (sendOpenConf d ch E.send).2 := by
    intro d hd p
    unfold sendOpenConf
    split
    · exact hd
    · exact hd.congr rfl rfl rfl rfl
  unfold answerOpen
  have hty : ∃ o, openType c E m mem len idx = some o ∧
      (m.typeId = ID_CHANTYPE_SESSION → o = none → c.chans = []) := by
    unfold openType
    by_cases h1 : m.typeId = ID_CHANTYPE_SESSION
    · rw [if_pos h1]
      refine ⟨_, rfl, fun _ ho => ?_⟩
      by_cases h2 : c.listSz ≥ 1
      · rw [if_pos h2] at ho; cases ho
      · have := hi.shape.count
        exact List.length_eq_zero_iff.1 (by omega)
    · rw [if_neg h1]
      split
      · cases hp : parseForward mem len idx with
        | ub => exact absurd hp (parseForward_ne_ub hl hw)
        | err e i => exact ⟨_, rfl, fun h => absurd h h1⟩
        | ok v i => exact ⟨_, rfl, fun h => absurd h h1⟩
      · split <;> exact ⟨_, rfl, fun h => absurd h h1⟩
  obtain ⟨o, ho, hses⟩ := hty
  rw [ho]
  cases o with
  | some reason => exact ⟨_, _, rfl, hfail _ hi _ _⟩
  | none =>
    simp only
    rcases channelNew_eff hi hroom m.typeId c.ctxMaxPacket E.buffer true with ⟨_, h⟩ | ⟨bm, id, hbm, hid, hfresh, h⟩
    · rw [h]; exact ⟨_, _, rfl, hfail _ hi _ _⟩
    · rw [h]
      have hi1 : Inv { c with nextChannel := add32 id 1 } :=
        ⟨⟨hi.shape.count, hi.shape.few, hi.shape.nodup⟩, hi.good,
         by show add32 id 1 < 2^32; unfold add32; omega, hi.win, hi.sess⟩
      simp only
      cases openPolicy c.server E m.typeId with
      | some reason => exact ⟨_, _, rfl, hfail _ hi1 _ _⟩
      | none =>
        refine ⟨_, _, rfl, hconf _ (append_inv hi1 hroom
          (updatePeer_good (newChan_good hid (hb bm hbm) hi.win) _ _ _ hwin) hfresh ?_) _⟩
        intro hk
        refine hses ?_ rfl
        simp only [isPeerSession, key, updatePeer, newChan, Bool.true_and, beq_iff_eq] at hk
        exact hk


theorem doOpen_inv {c : Conn} (hi : Inv c) (E : OpenEnv) {mem : Bytes} {len : Nat} (idx : Nat)
    (hl : len ≤ mem.length) (hw : len < 2^32) (hb : ∀ m, E.buffer = some m → m.length = c.ctxWindow)
    (hroom : c.chans.length + 1 < 2^32) :
    ∃ r c', doOpen c E mem len idx = some (r, c') ∧ Inv c' := by
  have hfail : ∀ (d : Conn), Inv d → ∀ p q, Inv (sendOpenFail d p q E.send).2 := by
    intro d hd p q
    unfold sendOpenFail
    split
    · exact hd
    · exact hd.congr rfl rfl rfl rfl
  have hconf : ∀ (d : Conn), Inv d → ∀ ch, Inv (sendOpenConf d ch E.send).2 := by
    intro d hd p
    unfold sendOpenConf
    split
    · exact hd
    · exact hd.congr rfl rfl rfl rfl
  unfold doOpen
  cases hs : getString 32 mem len idx with
  | ub => exact absurd hs (getString_ne_ub hl hw (by omega))
  | err e i => exact ⟨_, _, rfl, hfail _ hi _ _⟩
  | ok type b =>
    simp only
    rcases getUint32_cases b hl hw with ⟨e', i, h, _⟩ | ⟨peer, h, _, _, _⟩
    · rw [h]; exact ⟨_, _, rfl, hfail _ hi _ _⟩
    rw [h]
    simp only
    rcases parseAdjust_cases (b + 4) hl hw with ⟨e', i, h, _⟩ | ⟨win, mx, h, hwin, _, _⟩
    · rw [h]; exact ⟨_, _, rfl, hfail _ hi _ _⟩
    rw [h]
    simp only
    exact answerOpen_inv hi E _ (b + 4 + 8) hl hw hb hroom hwin

theorem openLocal_inv {c : Conn} (hi : Inv c) (keep : Bool) (ctype : Nat) (buffer : Option Bytes) (cb : Ret)
    (e : SendEnv) (hb : ∀ m, buffer = some m → m.length = c.ctxWindow)
    (hroom : c.chans.length + 1 < 2^32) :
    ∃ r c', openLocal c keep ctype buffer cb e = some (r, c') ∧ Inv c' := by
  unfold openLocal
  rcases channelNew_eff hi hroom ctype c.ctxMaxPacket buffer false with ⟨_, h⟩ | ⟨bm, id, hbm, hid, hfresh, h⟩
  · rw [h]; exact ⟨_, _, rfl, hi⟩
  · rw [h]
    have hi1 : Inv { c with nextChannel := add32 id 1 } :=
      ⟨⟨hi.shape.count, hi.shape.few, hi.shape.nodup⟩, hi.good,
       by show add32 id 1 < 2^32; unfold add32; omega, hi.win, hi.sess⟩
    simp only
    split
    · exact ⟨_, _, rfl, hi1⟩
    · have hi2 : ∀ o, Inv { c with nextChannel := add32 id 1, out := o } := fun o =>
        hi1.congr rfl rfl rfl rfl
      have hap : ∀ o, Inv (append { c with nextChannel := add32 id 1, out := o }
          (newChan id ctype c.ctxWindow c.ctxMaxPacket bm false)) := fun o =>
        append_inv (hi2 o) hroom (newChan_good hid (hb bm hbm) hi.win) hfresh
          (by simp [isPeerSession, key, newChan])
      split
      · split
        · exact ⟨_, _, rfl, hap _⟩
        · exact ⟨_, _, rfl, hi2 _⟩
      · split
        · exact ⟨_, _, rfl, hi2 _⟩
        · exact ⟨_, _, rfl, hap _⟩

end Wolf.Channel
