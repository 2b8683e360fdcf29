import Verif.Proofs.Receive
/-!
# What holds of the receiving packet layer after any history
-/

namespace Proofs.Receive
open Wolf Wolf.Buffer Wolf.Packet Wolf.Receive Wolf.Wire Spec.Packet Spec.Buffer Spec.Receive
open Proofs.Packet Props.Buffer

variable {P : Prims} {A : Type}

theorem snoc_cases {α : Type} {l pre post : List α} {a b : α} (h : l ++ [a] = pre ++ b :: post) :
    (post = [] ∧ l = pre ∧ a = b) ∨ ∃ post', post = post' ++ [a] ∧ l = pre ++ b :: post' := by
  rcases List.eq_nil_or_concat post with rfl | ⟨p, c, hp⟩
  · left
    have := List.append_inj' h rfl
    exact ⟨rfl, this.1, by simpa using this.2⟩
  · right
    have hp : post = p ++ [c] := by simpa using hp
    subst hp
    rw [show pre ++ b :: (p ++ [c]) = (pre ++ b :: p) ++ [c] by simp] at h
    have := List.append_inj' h rfl
    have hc : a = c := by simpa using this.2
    exact ⟨p, by rw [hc], this.1⟩

/-- What holds of the log. -/
structure LogOk (P : Prims) (q seq : Nat) (log : List Event) : Prop where
  acts : ActsOnChecked P log
  numbered : Numbered q log
  seq : seq = (q + finishedIn log) % 2^32

theorem numbered_snoc {q : Nat} {log : List Event} (h : Numbered q log) (ev : Event)
    (hn : ∀ n, seqOf ev = some n → n = (q + finishedIn log) % 2^32) : Numbered q (log ++ [ev]) := by
  intro pre e post n he hs
  rcases snoc_cases he with ⟨_, rfl, rfl⟩ | ⟨post', _, h2⟩
  · exact hn n hs
  · exact h _ _ _ _ h2 hs

theorem acts_snoc {log : List Event} (h : ActsOnChecked P log) (ev : Event)
    (hne : ∀ s q m p, ev ≠ .acted s q m p) : ActsOnChecked P (log ++ [ev]) := by
  intro pre s seq msg payload post he
  rcases snoc_cases he with ⟨_, _, h3⟩ | ⟨post', _, h2⟩
  · exact absurd h3 (hne _ _ _ _)
  · exact h _ _ _ _ _ _ h2

theorem log_check {q seq : Nat} {log : List Event} (h : LogOk P q seq log) {s : Suite} {p : Bytes} {ev : Event}
    (hc : CheckOf s seq p ev) : LogOk P q seq (log ++ [ev]) := by
  refine ⟨acts_snoc h.acts ev ?_, numbered_snoc h.numbered ev ?_, ?_⟩
  · rintro s q m p rfl; exact hc
  · intro n hn
    rw [← h.seq]
    cases ev with
    | verified => simp only [seqOf, Option.some.injEq] at hn; rw [← hn]; exact hc.2.1
    | opened => simp only [seqOf, Option.some.injEq] at hn; rw [← hn]; exact hc.2.1
    | acted => exact hc.elim
    | finished => exact hc.elim
  · have : finishedIn (log ++ [ev]) = finishedIn log := by
      cases ev with
      | verified => simp [finishedIn]
      | opened => simp [finishedIn]
      | acted => simp [finishedIn]
      | finished => exact hc.elim
    rw [this]; exact h.seq

theorem log_finished {q seq : Nat} {log : List Event} (h : LogOk P q seq log) (r : Option Err) :
    LogOk P q (add32 seq 1) (log ++ [.finished r]) := by
  refine ⟨acts_snoc h.acts _ (by simp), numbered_snoc h.numbered _ (by simp [seqOf]), ?_⟩
  have : finishedIn (log ++ [.finished r]) = finishedIn log + 1 := by simp [finishedIn]
  rw [this, h.seq]
  unfold add32; omega

/-- Message number and payload of the packet at the front of `u`. -/
def contents (cs : Nat) (u : Bytes) : Byte × Bytes :=
  ((u.drop 5).headD 0, (u.drop 6).take (cs - 1 - ((u.drop 4).headD 0).toNat - 1))

theorem judge_contents {H : Handlers P A} {a : A} {cs : Nat} {u : Bytes} {r : Byte × Bytes}
    (h : judge H a cs u = .ok r) : r = contents cs u := by
  unfold judge at h
  simp only at h
  split at h
  · simp at h
  split at h
  · simp at h
  split at h
  · simp at h
  simp only [Except.ok.injEq] at h
  exact h.symm

/-- The packet in `u` has been checked; since then it was at most put off. -/
structure Held (v : View P A) (u : Bytes) (cs : Nat) : Prop where
  small : cs ≤ 35000
  len : 4 + cs ≤ u.length
  five : 5 ≤ u.length
  head : u.take 4 = Spec.Wire.encUint32 cs
  checked : ∃ before check since, v.log = before ++ check :: since ∧ Genuine P check ∧
    CheckOf v.suite v.seq (u.take (4 + cs)) check ∧
    ∀ e ∈ since, e = .acted v.suite v.seq (contents cs u).1 (contents cs u).2

/-- The invariant of the receiving side. -/
structure Inv (q : Nat) (v : View P A) (b : Buf) (cs : Nat) (ph : Phase) : Prop where
  ok : Ok b
  suite : SuiteOk v.suite
  keyed : KeyedFor P v.suite v.cipher
  log : LogOk P q v.seq v.log
  block : ph = .packetLength ∨ ph = .packetFinish → v.suite.blockSz ≤ (unread b).length
  finish : ph = .packetFinish → cs ≤ 35000 ∧ (unread b).take 4 = Spec.Wire.encUint32 cs
  packet : ph = .packet → Held v (unread b) cs

theorem act_inv {q : Nat} {H : Handlers P A} (hT : Tame H) {v : View P A} {u : Bytes} {cs : Nat}
    (hs : SuiteOk v.suite) (hk : KeyedFor P v.suite v.cipher) (hl : LogOk P q v.seq v.log)
    (hh : Held v u cs) :
    match act H v cs u with
    | .refused _ => True
    | .held v' => SuiteOk v'.suite ∧ KeyedFor P v'.suite v'.cipher ∧ LogOk P q v'.seq v'.log ∧ Held v' u cs
    | .done _ v' => SuiteOk v'.suite ∧ KeyedFor P v'.suite v'.cipher ∧ LogOk P q v'.seq v'.log := by
  unfold act
  cases hj : judge H v.app cs u with
  | error e => trivial
  | ok r =>
    obtain ⟨msg, payload⟩ := r
    have hcon := judge_contents hj
    obtain ⟨pad, hpad, hp4, hall⟩ := judge_ok H _ _ _ _ _ hj hh.len hh.head
    obtain ⟨before, check, since, hlog, hgen, hchk, hsince⟩ := hh.checked
    rw [← hcon] at hsince
    simp only at hsince ⊢
    have hlog' : LogOk P q v.seq (v.log ++ [.acted v.suite v.seq msg payload]) := by
      refine ⟨?_, numbered_snoc hl.numbered _ ?_, by rw [show finishedIn (v.log ++ [.acted v.suite v.seq msg payload]) = finishedIn v.log by simp [finishedIn]]; exact hl.seq⟩
      rotate_left
      · intro n hn
        simp only [seqOf, Option.some.injEq] at hn
        rw [← hn]; exact hl.seq
      intro pre s seq m p post he
      rcases snoc_cases he with ⟨_, h2, h3⟩ | ⟨post', _, h2⟩
      · simp only [Event.acted.injEq] at h3
        obtain ⟨rfl, rfl, rfl, rfl⟩ := h3
        exact ⟨before, check, since, pad, by rw [← h2, hlog], hgen, by rw [← hpad]; exact hchk, hp4, hsince⟩
      · exact hl.acts _ _ _ _ _ _ h2
    have hkeys := hT.keys v.app msg payload
    have hheld := hT.held v.app msg payload
    unfold handOver
    simp only
    generalize H.run v.app msg payload = res at hkeys hheld
    obtain ⟨r1, pi, a', k⟩ := res
    simp only at hkeys hheld ⊢
    by_cases c : r1 = some .authPending
    · simp only [c, if_true]
      have hk0 := hheld c
      subst hk0
      refine ⟨hs, hk, hlog', hh.small, hh.len, hh.five, hh.head, before, check, since ++ [.acted v.suite v.seq msg payload], ?_, hgen, hchk, ?_⟩
      · simp [hlog]
      · rw [← hcon]
        intro e he
        rcases List.mem_append.1 he with he | he
        · exact hsince e he
        · simpa using he
    · simp only [c, if_false]
      cases k with
      | none => exact ⟨hs, hk, log_finished hlog' _⟩
      | some sc =>
        obtain ⟨s, c⟩ := sc
        obtain ⟨h1, h2⟩ := hkeys s c rfl
        refine ⟨h1, ?_, log_finished hlog' _⟩
        intro hae
        have hae : s.aead = true := hae
        rw [suite_aead h1] at hae
        unfold FreshCipher at h2
        cases hid : s.encId with
        | gcm k => rw [hid] at h2; obtain ⟨st, h3, h4⟩ := h2; exact ⟨st, s.iv, h3, h4⟩
        | none => rw [hid] at hae; simp [aeadModeForId] at hae
        | cbc k => rw [hid] at hae; simp [aeadModeForId] at hae
        | ctr k => rw [hid] at hae; simp [aeadModeForId] at hae
        | unknown => rw [hid] at hae; simp [aeadModeForId] at hae

theorem verifyMac_ok {s : Suite} (h : SuiteOk s) (hne : s.aead = false) {seq : Nat} {packet u : Bytes}
    (hv : verifyMac P s seq packet (u.take s.macSz) = none) : MacOf P s seq packet (u.take s.macSz) := by
  have hm := suite_macSz h
  rw [hne] at hm
  simp only [Bool.false_eq_true, if_false] at hm
  have h2 := h.2.1
  unfold verifyMac at hv
  unfold MacOf
  rw [← c32toa_eq]
  cases hid : s.macId <;> simp only [hid, ne_eq, not_true_eq_false, reduceCtorEq, not_false_eq_true] at h2 hv hm ⊢
  · simp [hm, macSzForId]
  all_goals
    split at hv
    · simp at hv
    · rename_i d hd
      split at hv
      · rename_i he
        exact ⟨d, hd, he.symm⟩
      · simp at hv

theorem decryptAead_ok {s : Suite} {c : Option P.State} (hk : KeyedFor P s c) (ha : s.aead = true)
    {ct tag aad : Bytes} (h : (decryptAead P s c ct tag aad).1 = none) :
    ∃ st iv0, P.setKey s.encId false iv0 s.encKey = some st ∧ c = some st ∧
      P.gcmOpen s.encId st s.iv ct tag aad = some (decryptAead P s c ct tag aad).2 := by
  obtain ⟨st, iv0, h1, h2⟩ := hk ha
  subst h2
  refine ⟨st, iv0, h1, rfl, ?_⟩
  unfold decryptAead at h ⊢
  cases hid : s.encId with
  | gcm k =>
    simp only [hid] at h ⊢
    cases hg : P.gcmOpen (.gcm k) st s.iv ct tag aad with
    | none => simp [hg] at h
    | some x => rfl
  | none => simp [hid] at h
  | cbc k => simp [hid] at h
  | ctr k => simp [hid] at h
  | unknown => simp [hid] at h

theorem openOn_inv (hsz : Sizes P) {s : Suite} {c : Option P.State} {seq cs : Nat} {u : Bytes}
    (hs : SuiteOk s) (hk : KeyedFor P s c) (hl : 4 + cs + s.macSz ≤ u.length) (hb : s.blockSz ≤ u.length) :
    match openOn P s c seq cs u with
    | .bad _ s' c' u' => SuiteOk s' ∧ KeyedFor P s' c' ∧ u'.length = u.length ∧ u'.take 4 = u.take 4 ∧
        s'.blockSz = s.blockSz
    | .good s' c' u' ev => SuiteOk s' ∧ KeyedFor P s' c' ∧ u'.length = u.length ∧ u'.take 4 = u.take 4 ∧
        Genuine P ev ∧ CheckOf s' seq (u'.take (4 + cs)) ev := by
  have hblk := suite_block hs
  unfold openOn
  simp only
  by_cases ha : s.aead = false
  · simp only [if_pos ha]
    generalize hrest : (if 4 + cs > s.blockSz then 4 + cs - s.blockSz else 0) = rest
    have hrl : s.blockSz + rest ≤ u.length := by rw [← hrest]; split <;> omega
    generalize hct : (u.drop s.blockSz).take rest = ct
    have hctl : ct.length = rest := by rw [← hct]; simp; omega
    generalize hdec : (if rest > 0 then decrypt P s.encId c ct else (none, c, ct)) = r
    have hrr : r.2.2.length = rest := by
      rw [← hdec]; split
      · rw [decrypt_length hsz]; exact hctl
      · exact hctl
    generalize hu' : u.take s.blockSz ++ (r.2.2 ++ u.drop (s.blockSz + r.2.2.length)) = u'
    have hl' : u'.length = u.length := by rw [← hu']; simp; omega
    have ht' : u'.take 4 = u.take 4 := by
      rw [← hu', List.take_append_of_le_length (by simp; omega), List.take_take]
      congr 1; omega
    have hk' : KeyedFor P s r.2.1 := by intro h; rw [ha] at h; simp at h
    cases hr : r.1 with
    | some e => exact ⟨hs, hk', hl', ht', rfl⟩
    | none =>
      cases hv : verifyMac P s seq (u'.take (4 + cs)) ((u'.drop (4 + cs)).take s.macSz) with
      | some e => exact ⟨hs, hk', hl', ht', rfl⟩
      | none => exact ⟨hs, hk', hl', ht', verifyMac_ok hs ha hv, by simp [CheckOf]⟩
  · simp only [if_neg ha]
    have ha : s.aead = true := by simpa using ha
    have hiv := hs.2.2.2 ha
    have hinc := increment_spec s.iv hiv
    have hs' := suite_iv hs _ hinc.1
    have hk' : KeyedFor P { s with iv := aeadIncrementExpIv s.iv } c := hk
    by_cases hz : cs = 0
    · simp only [if_pos hz]
      exact ⟨hs, hk, by simp⟩
    · simp only [if_neg hz]
      generalize hr : decryptAead P s c ((u.drop 4).take cs) ((u.drop (4 + cs)).take s.macSz) (u.take 4) = r
      have hrl : r.2.length = cs := by
        rw [← hr, decryptAead_length hsz]; simp; omega
      have h4 : (u.take 4).length = 4 := by simp; omega
      have hl' : (u.take 4 ++ (r.2 ++ u.drop (4 + r.2.length))).length = u.length := by simp; omega
      have ht' : (u.take 4 ++ (r.2 ++ u.drop (4 + r.2.length))).take 4 = u.take 4 := by
        rw [List.take_append_of_le_length (by omega), List.take_of_length_le (by omega)]
      cases hr1 : r.1 with
      | some e => exact ⟨hs', hk', hl', ht', rfl⟩
      | none =>
        have hd : (decryptAead P s c ((u.drop 4).take cs) ((u.drop (4 + cs)).take s.macSz) (u.take 4)).1 = none := by
          rw [hr, hr1]
        obtain ⟨st, iv0, g1, _, g2⟩ := decryptAead_ok hk ha hd
        rw [hr] at g2
        refine ⟨hs', hk', hl', ht', ⟨st, iv0, g1, ?_⟩, rfl, rfl, ?_⟩
        · have e1 : (u.take 4 ++ r.2).take 4 = u.take 4 := by rw [← h4]; simp
          have e2 : (u.take 4 ++ r.2).drop 4 = r.2 := by
            rw [List.drop_append, List.drop_of_length_le (by omega), h4]; simp
          rw [e1, e2]; exact g2
        · rw [← List.append_assoc, List.take_append_of_le_length (by simp; omega),
            List.take_of_length_le (l := u.take 4 ++ r.2) (by simp; omega)]

theorem suite_mac_le {s : Suite} (h : SuiteOk s) : s.macSz ≤ 64 := by
  rw [suite_macSz h]
  split
  · omega
  · cases s.macId <;> simp [macSzForId]

theorem rxPacket_inv {H : Handlers P A} (hT : Tame H) {q : Nat} {v : View P A} {b : Buf} {cs : Nat}
    (hi : Inv q v b cs .packet) (io : List IoRecv) (net : Bytes) :
    ∃ r v' b' ph', rxPacket H (mk v b cs .packet io net) = some (r, mk v' b' cs ph' io net) ∧ Inv q v' b' cs ph' := by
  have hh := hi.packet rfl
  have h1 := rxPacket_spec H hT.idx v b hi.ok cs .packet io net hh.len hh.five hh.small
  have h2 := act_inv hT hi.suite hi.keyed hi.log hh
  cases hact : act H v cs (unread b) with
  | refused e =>
    rw [hact] at h1
    exact ⟨_, v, b, _, h1, hi⟩
  | held v' =>
    rw [hact] at h1 h2
    exact ⟨_, v', b, _, h1, hi.ok, h2.1, h2.2.1, h2.2.2.1, by simp, by simp, fun _ => h2.2.2.2⟩
  | done r v' =>
    rw [hact] at h1 h2
    obtain ⟨b', hok, hun, he⟩ := h1
    exact ⟨_, v', b', _, he, hok, h2.1, h2.2.1, h2.2.2, by simp, by simp, by simp⟩

theorem rxFinish_inv (hsz : Sizes P) {H : Handlers P A} (hT : Tame H) {alloc : Nat → Option Bytes}
    (ha : Allocator alloc) {q : Nat} {v : View P A} {b : Buf} {cs : Nat} (hi : Inv q v b cs .packetFinish)
    (io : List IoRecv) (net : Bytes) :
    ∃ r v' b' ph' io' net', rxFinish H alloc (mk v b cs .packetFinish io net) = some (r, mk v' b' cs ph' io' net') ∧
      Inv q v' b' cs ph' := by
  have hblk := suite_block hi.suite
  have hm := suite_mac_le hi.suite
  obtain ⟨hc, h4⟩ := hi.finish rfl
  have hbl := hi.block (.inr rfl)
  obtain ⟨io', net', b1, d, hok, hnet, hun, hr⟩ :=
    rxFinish_spec hsz H alloc ha v b hi.ok cs .packetFinish io net hbl (by omega) hc hm
  have ht4 : (unread b1).take 4 = Spec.Wire.encUint32 cs := by
    rw [hun, List.take_append_of_le_length (by omega), h4]
  have hlen1 : v.suite.blockSz ≤ (unread b1).length := by rw [hun, List.length_append]; omega
  rcases hr with ⟨e, _, _, _, he⟩ | ⟨hd, hr⟩
  · exact ⟨_, v, b1, _, io', net', he, hok, hi.suite, hi.keyed, hi.log, fun _ => hlen1, fun _ => ⟨hc, ht4⟩, by simp⟩
  · have hl1 : 4 + cs + v.suite.macSz ≤ (unread b1).length := by rw [hun, List.length_append]; omega
    have h2 := openOn_inv hsz (seq := v.seq) hi.suite hi.keyed hl1 hlen1
    cases ho : openOn P v.suite v.cipher v.seq cs (unread b1) with
    | bad e s' c' u' =>
      rw [ho] at hr h2
      obtain ⟨b2, hok2, hun2, he⟩ := hr
      obtain ⟨g1, g2, g3, g4, g5⟩ := h2
      refine ⟨_, _, b2, _, io', net', he, hok2, g1, g2, hi.log, fun _ => ?_, fun _ => ⟨hc, ?_⟩, by simp⟩
      · show s'.blockSz ≤ _
        rw [hun2, g3, g5]; exact hlen1
      · rw [hun2, g4, ht4]
    | good s' c' u' ev =>
      rw [ho] at hr h2
      obtain ⟨b2, hok2, hun2, he⟩ := hr
      obtain ⟨g1, g2, g3, g4, g5, g6⟩ := h2
      rw [he]
      obtain ⟨r, v', b', ph', h5, h6⟩ := rxPacket_inv (H := H) hT
        (v := { v with suite := s', cipher := c', log := v.log ++ [ev] }) (b := b2) (cs := cs)
        ⟨hok2, g1, g2, log_check hi.log g6, by simp, by simp, fun _ =>
          ⟨hc, by rw [hun2, g3]; omega, by rw [hun2, g3]; omega, by rw [hun2, g4, ht4],
            v.log, ev, [], rfl, g5, by rw [hun2]; exact g6, by simp⟩⟩ io' net'
      exact ⟨r, v', b', ph', io', net', h5, h6⟩

theorem rxLength_inv (hsz : Sizes P) {H : Handlers P A} (hT : Tame H) {alloc : Nat → Option Bytes}
    (ha : Allocator alloc) {q : Nat} {v : View P A} {b : Buf} {cs : Nat} (hi : Inv q v b cs .packetLength)
    (io : List IoRecv) (net : Bytes) :
    ∃ r v' b' cs' ph' io' net', rxLength H alloc (mk v b cs .packetLength io net) =
      some (r, mk v' b' cs' ph' io' net') ∧ Inv q v' b' cs' ph' := by
  have hblk := suite_block hi.suite
  have hbl := hi.block (.inl rfl)
  rw [rxLength_spec H alloc v b hi.ok cs _ io net (by omega)]
  split
  · exact ⟨_, v, b, _, _, io, net, rfl, hi.ok, hi.suite, hi.keyed, hi.log, fun _ => hbl, by simp, by simp⟩
  · rename_i hc
    obtain ⟨r, v', b', ph', io', net', h1, h2⟩ := rxFinish_inv hsz hT ha
      (cs := Spec.Wire.beNat ((unread b).take 4))
      ⟨hi.ok, hi.suite, hi.keyed, hi.log, fun _ => hbl,
        fun _ => ⟨by omega, (enc_beNat _ (by simp; omega)).symm⟩, by simp⟩ io net
    exact ⟨r, v', b', _, ph', io', net', h1, h2⟩

theorem rxInit_inv (hsz : Sizes P) {H : Handlers P A} (hT : Tame H) {alloc : Nat → Option Bytes}
    (ha : Allocator alloc) {q : Nat} {v : View P A} {b : Buf} {cs : Nat} (hi : Inv q v b cs .init)
    (io : List IoRecv) (net : Bytes) :
    ∃ r v' b' cs' ph' io' net', rxInit H alloc (mk v b cs .init io net) =
      some (r, mk v' b' cs' ph' io' net') ∧ Inv q v' b' cs' ph' := by
  have hblk := suite_block hi.suite
  obtain ⟨io', net', b1, d, hok, hnet, hun, hr⟩ :=
    rxInit_spec hsz H alloc ha v b hi.ok cs .init io net (by omega)
  rcases hr with ⟨e, _, _, _, he⟩ | ⟨hd, _, b2, hok2, hr⟩
  · exact ⟨_, v, b1, _, _, io', net', he, hok, hi.suite, hi.keyed, hi.log, by simp, by simp, by simp⟩
  · have hl1 : v.suite.blockSz ≤ (unread b1).length := by rw [hun, List.length_append]; omega
    revert hr
    generalize hdec : (if v.suite.aead = false then decrypt P v.suite.encId v.cipher ((unread b1).take v.suite.blockSz)
            else (none, v.cipher, (unread b1).take v.suite.blockSz)) = r
    intro hr
    obtain ⟨hun2, he⟩ := hr
    have hrl : r.2.2.length = v.suite.blockSz := by
      rw [← hdec]; split
      · rw [decrypt_length hsz]; simp; omega
      · simp; omega
    have hk : KeyedFor P v.suite r.2.1 := by
      intro h; rw [← hdec, if_neg (by simp [h])]; exact hi.keyed h
    have hi2 : Inv q { v with cipher := r.2.1 } b2 cs .packetLength :=
      ⟨hok2, hi.suite, hk, hi.log, fun _ => by rw [hun2, List.length_append]; simp only; omega, by simp, by simp⟩
    rw [he]
    cases hr1 : r.1 with
    | some e => exact ⟨_, _, b2, _, _, io', net', rfl, hi2⟩
    | none => exact rxLength_inv hsz hT ha hi2 io' net'

theorem doReceive_inv (hsz : Sizes P) {H : Handlers P A} (hT : Tame H) {alloc : Nat → Option Bytes}
    (ha : Allocator alloc) {q : Nat} {v : View P A} {b : Buf} {cs : Nat} {ph : Phase} (hi : Inv q v b cs ph)
    (io : List IoRecv) (net : Bytes) :
    ∃ r v' b' cs' ph' io' net', doReceive H alloc (mk v b cs ph io net) =
      some (r, mk v' b' cs' ph' io' net') ∧ Inv q v' b' cs' ph' := by
  cases ph with
  | init => exact rxInit_inv hsz hT ha hi io net
  | packetLength => exact rxLength_inv hsz hT ha hi io net
  | packetFinish =>
    obtain ⟨r, v', b', ph', io', net', h⟩ := rxFinish_inv hsz hT ha hi io net
    exact ⟨r, v', b', _, ph', io', net', h⟩
  | packet =>
    obtain ⟨r, v', b', ph', h⟩ := rxPacket_inv hT hi io net
    exact ⟨r, v', b', _, ph', io, net, h⟩

theorem rxStep_inv (hsz : Sizes P) {H : Handlers P A} (hT : Tame H) {a : RxStep} (ha : Usable a)
    {q : Nat} {v : View P A} {b : Buf} {cs : Nat} {ph : Phase} (hi : Inv q v b cs ph) (io : List IoRecv) (net : Bytes) :
    ∃ r v' b' cs' ph' io' net', rxStep H (mk v b cs ph io net) a =
      some (r, mk v' b' cs' ph' io' net') ∧ Inv q v' b' cs' ph' := by
  cases a with
  | receive alloc io1 => exact doReceive_inv hsz hT ha hi io1 net
  | flushed =>
    unfold rxStep dropHeld
    by_cases hp : ph = .packet
    · obtain ⟨b', hsh, hok, hun⟩ := C38_free [] b
      exact ⟨none, v, b', cs, .init, io, net, by simp [mk, hp, hsh], hok, hi.suite, hi.keyed, hi.log, by simp, by simp, by simp⟩
    · exact ⟨none, v, b, cs, ph, io, net, by simp [mk, hp], hi⟩

theorem rxRun_inv (hsz : Sizes P) {q : Nat} {H : Handlers P A} (hT : Tame H) (as : List RxStep) :
    ∀ (v : View P A) (b : Buf) (cs : Nat) (ph : Phase) (io : List IoRecv) (net : Bytes), (∀ a ∈ as, Usable a) →
    Inv q v b cs ph →
    ∃ rs v' b' cs' ph' io' net', rxRun H (mk v b cs ph io net) as =
      some (rs, mk v' b' cs' ph' io' net') ∧ Inv q v' b' cs' ph' := by
  induction as with
  | nil => intro v b cs ph io net _ hi; exact ⟨_, v, b, cs, ph, io, net, rfl, hi⟩
  | cons a as ih =>
    intro v b cs ph io net hu hi
    obtain ⟨r, v1, b1, cs1, ph1, io1, net1, h1, h2⟩ := rxStep_inv hsz hT (hu a (by simp)) hi io net
    obtain ⟨rs, v', b', cs', ph', io', net', h3, h4⟩ :=
      ih v1 b1 cs1 ph1 io1 net1 (fun a h => hu a (by simp [h])) h2
    unfold rxRun
    rw [h1]
    simp only [h3]
    exact ⟨_, v', b', cs', ph', io', net', rfl, h4⟩

end Proofs.Receive
