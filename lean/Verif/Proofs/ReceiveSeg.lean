import Verif.Proofs.ReceiveInv
/-!
# Receiving as a function of the byte stream alone
-/

namespace Proofs.Receive
open Wolf Wolf.Buffer Wolf.Packet Wolf.Receive Wolf.Wire Spec.Packet Spec.Buffer Spec.Receive
open Proofs.Packet Props.Buffer

variable {P : Prims} {A : Type}

/-- What the front of a byte stream amounts to. -/
inductive Out (P : Prims) (A : Type) where
  | more
  | bad (e : Err) (log : List Event)
  | done (r : Option Err) (v : View P A) (rest : Bytes)

/-- The rest of a packet whose first block decrypted to `p1`. -/
def finishOne (H : Handlers P A) (v : View P A) (c1 : Option P.State) (p1 : Bytes) (cs : Nat) (tail : Bytes) :
    Out P A :=
  let need := 4 + cs + v.suite.macSz - v.suite.blockSz
  if tail.length < need then .more
  else
    match openOn P v.suite c1 v.seq cs (p1 ++ tail.take need) with
    | .bad e _ _ _ => .bad e v.log
    | .good s' c' u' ev =>
      match act H { v with suite := s', cipher := c', log := v.log ++ [ev] } cs u' with
      | .refused e => .bad e (v.log ++ [ev])
      | .held v' => .bad .authPending v'.log
      | .done r v' => .done r v' (tail.drop need)

/-- Decrypting the first block. -/
def firstBlock (v : View P A) (x : Bytes) : Option Err × Option P.State × Bytes :=
  if v.suite.aead = false then decrypt P v.suite.encId v.cipher x else (none, v.cipher, x)

/-- One packet off a stream. -/
def one (H : Handlers P A) (v : View P A) (s : Bytes) : Out P A :=
  if s.length < v.suite.blockSz then .more
  else
    let d := firstBlock v (s.take v.suite.blockSz)
    match d.1 with
    | some e => .bad e v.log
    | none =>
      let cs := Spec.Wire.beNat (d.2.2.take 4)
      if cs > 35000 - v.suite.macSz - 4 then .bad .overflowE v.log
      else finishOne H v d.2.1 d.2.2 cs (s.drop v.suite.blockSz)

theorem decrypt_not_waiting (id : Enc) (c : Option P.State) (x : Bytes) (e : Err)
    (h : (decrypt P id c x).1 = some e) : ¬ Waiting e := by
  unfold decrypt at h
  rintro (rfl | rfl | rfl) <;>
  · repeat' split at h
    all_goals simp at h

theorem verifyMac_not_waiting (s : Suite) (q : Nat) (x y : Bytes) (e : Err)
    (h : verifyMac P s q x y = some e) : ¬ Waiting e := by
  unfold verifyMac at h
  rintro (rfl | rfl | rfl) <;>
  · repeat' split at h
    all_goals simp at h

theorem decryptAead_not_waiting (s : Suite) (c : Option P.State) (x y z : Bytes) (e : Err)
    (h : (decryptAead P s c x y z).1 = some e) : ¬ Waiting e := by
  unfold decryptAead at h
  rintro (rfl | rfl | rfl) <;>
  · repeat' split at h
    all_goals simp at h

theorem openOn_not_waiting {s : Suite} {c : Option P.State} {q cs : Nat} {u : Bytes} {e : Err} {s' : Suite}
    {c' : Option P.State} {u' : Bytes} (h : openOn P s c q cs u = .bad e s' c' u') : ¬ Waiting e := by
  unfold openOn at h
  simp only at h
  split at h
  · split at h
    · rename_i hr
      simp only [Opening.bad.injEq] at h
      rw [← h.1]
      by_cases hc : (if 4 + cs > s.blockSz then 4 + cs - s.blockSz else 0) > 0
      · rw [if_pos hc] at hr
        exact decrypt_not_waiting _ _ _ _ hr
      · rw [if_neg hc] at hr
        simp at hr
    · rename_i hv
      simp only [Opening.bad.injEq] at h
      rw [← h.1]
      exact verifyMac_not_waiting _ _ _ _ _ hv
    · simp at h
  · split at h
    · simp only [Opening.bad.injEq] at h
      rw [← h.1]; rintro (h | h | h) <;> simp at h
    · split at h
      · rename_i hr
        simp only [Opening.bad.injEq] at h
        rw [← h.1]
        exact decryptAead_not_waiting _ _ _ _ _ _ hr
      · simp at h

/-- The concrete state `x` is somewhere in the packet at the front of stream `s`, begun in `v`. -/
inductive Rel (q : Nat) (v : View P A) (s : Bytes) : Conn P A → Prop
  | init (b : Buf) (cs : Nat) (io : List IoRecv) (net : Bytes) (hi : Inv q v b cs .init)
      (hs : s = unread b ++ net) (hw : WithinPacket v.suite (unread b)) : Rel q v s (mk v b cs .init io net)
  | finish (b : Buf) (cs : Nat) (io : List IoRecv) (net first : Bytes) (c1 : Option P.State)
      (hi : Inv q { v with cipher := c1 } b cs .packetFinish) (hf : first.length = v.suite.blockSz)
      (hd : firstBlock v first = (none, c1, (unread b).take v.suite.blockSz))
      (hc : cs ≤ 35000 - v.suite.macSz - 4)
      (hs : s = first ++ ((unread b).drop v.suite.blockSz ++ net))
      (hw : (unread b).length ≤ max v.suite.blockSz (4 + cs + v.suite.macSz)) :
      Rel q v s (mk { v with cipher := c1 } b cs .packetFinish io net)

/-- What a call does to a healthy connection. -/
inductive Called (q : Nat) (G : Prop) (H : Handlers P A) (v : View P A) (s : Bytes) (r : Option Err) (x : Conn P A) : Prop
  | waits (hr : Rel q v s x) (hh : Healthy r x) (hm : G → one H v s = .more)
  | done (v' : View P A) (rest : Bytes) (h1 : one H v s = .done r v' rest) (hr : Rel q v' rest x) (hh : Healthy r x)
  | fails (e : Err) (h1 : one H v s = .bad e x.log) (h2 : r = some e) (hh : ¬ Healthy r x)

theorem firstBlock_length (hsz : Sizes P) (v : View P A) (x : Bytes) : (firstBlock v x).2.2.length = x.length := by
  unfold firstBlock
  split
  · exact decrypt_length hsz _ _ _
  · rfl

theorem rel_finish (hsz : Sizes P) {H : Handlers P A} (hT : Tame H) {alloc : Nat → Option Bytes}
    (ha : Allocator alloc) {q : Nat} {v : View P A} {s : Bytes}
    (b : Buf) (cs : Nat) (io : List IoRecv) (net first : Bytes) (c1 : Option P.State)
    (hi : Inv q { v with cipher := c1 } b cs .packetFinish) (hf : first.length = v.suite.blockSz)
    (hd : firstBlock v first = (none, c1, (unread b).take v.suite.blockSz))
    (hc : cs ≤ 35000 - v.suite.macSz - 4)
    (hs : s = first ++ ((unread b).drop v.suite.blockSz ++ net))
    (hw : (unread b).length ≤ max v.suite.blockSz (4 + cs + v.suite.macSz)) :
    ∃ r x, rxFinish H alloc (mk { v with cipher := c1 } b cs .packetFinish io net) = some (r, x) ∧
      Called q (∃ k, Generous (k + 1) alloc io) H v s r x := by
  have hblk := suite_block hi.suite
  have hm := suite_mac_le hi.suite
  obtain ⟨hcs, h4⟩ := hi.finish rfl
  have hbl := hi.block (.inr rfl)
  simp only at hblk hm hbl
  obtain ⟨io', net', b1, d, hok, hnet, hun, hr⟩ :=
    rxFinish_spec hsz H alloc ha { v with cipher := c1 } b hi.ok cs .packetFinish io net hbl
      (by show 4 ≤ v.suite.blockSz; omega) hcs hm
  simp only at hr
  have ht4 : (unread b1).take 4 = Spec.Wire.encUint32 cs := by
    rw [hun, List.take_append_of_le_length (by omega), h4]
  have hlen1 : v.suite.blockSz ≤ (unread b1).length := by rw [hun, List.length_append]; omega
  have htb : (unread b1).take v.suite.blockSz = (unread b).take v.suite.blockSz := by
    rw [hun, List.take_append_of_le_length hbl]
  have hdb : (unread b1).drop v.suite.blockSz ++ net' = (unread b).drop v.suite.blockSz ++ net := by
    rw [hun, List.drop_append_of_le_length hbl, hnet]; simp
  have hone : one H v s = finishOne H v c1 ((unread b).take v.suite.blockSz) cs
      ((unread b1).drop v.suite.blockSz ++ net') := by
    unfold one
    have e1 : s.take v.suite.blockSz = first := by rw [hs, ← hf]; simp
    have e2 : s.drop v.suite.blockSz = (unread b1).drop v.suite.blockSz ++ net' := by
      rw [hdb, hs, ← hf]; simp
    have e3 : ¬ s.length < v.suite.blockSz := by rw [hs]; simp [hf]
    rw [if_neg e3, e1, e2]
    simp only [hd]
    have e4 : Spec.Wire.beNat (((unread b).take v.suite.blockSz).take 4) = cs := by
      rw [List.take_take, Nat.min_eq_left (by omega), h4]
      exact beNat_encUint32 _ (by omega)
    rw [e4, if_neg (by omega)]
  rcases hr with ⟨e, hwe, hlt, hgen, he⟩ | ⟨hdl, hr⟩
  · refine ⟨_, _, he, .waits (.finish b1 cs io' net' first c1 ?_ hf ?_ hc ?_ ?_) (.inr ⟨rfl, e, rfl, hwe⟩) ?_⟩
    · exact ⟨hok, hi.suite, hi.keyed, hi.log, fun _ => hlen1, fun _ => ⟨hcs, ht4⟩, by simp⟩
    · rw [htb]; exact hd
    · rw [hdb]; exact hs
    · omega
    · rintro ⟨k, hk⟩
      have hg := hgen k hk
      rw [hone]
      unfold finishOne
      simp only
      rw [if_pos]
      rw [hdb, List.length_append, List.length_drop]
      omega
  · have hl1 : 4 + cs + v.suite.macSz ≤ (unread b1).length := by rw [hun, List.length_append]; omega
    -- the bytes in the buffer are exactly the packet
    have hlen : (unread b1).length = max v.suite.blockSz (4 + cs + v.suite.macSz) := by
      have := congrArg List.length hun
      rw [List.length_append] at this
      omega
    have hfin : ∀ X, finishOne H v c1 ((unread b).take v.suite.blockSz) cs
        ((unread b1).drop v.suite.blockSz ++ net') = X ↔
        (match openOn P v.suite c1 v.seq cs (unread b1) with
          | .bad e _ _ _ => Out.bad e v.log
          | .good s' c' u' ev =>
            match act H { v with suite := s', cipher := c', log := v.log ++ [ev] } cs u' with
            | .refused e => .bad e (v.log ++ [ev])
            | .held v' => .bad .authPending v'.log
            | .done r v' => .done r v' net') = X := by
      intro X
      have hdl : ((unread b1).drop v.suite.blockSz).length = 4 + cs + v.suite.macSz - v.suite.blockSz := by
        rw [List.length_drop]; omega
      unfold finishOne
      simp only
      rw [if_neg (by rw [List.length_append, hdl]; omega)]
      have e1 : ((unread b1).drop v.suite.blockSz ++ net').take (4 + cs + v.suite.macSz - v.suite.blockSz) =
          (unread b1).drop v.suite.blockSz := by rw [← hdl]; simp
      have e2 : ((unread b1).drop v.suite.blockSz ++ net').drop (4 + cs + v.suite.macSz - v.suite.blockSz) = net' := by
        rw [← hdl]; simp
      rw [e1, e2, ← htb, List.take_append_drop]
    have h2 := openOn_inv hsz (seq := v.seq) hi.suite hi.keyed hl1 hlen1
    simp only at h2
    cases ho : openOn P v.suite c1 v.seq cs (unread b1) with
    | bad e s' c' u' =>
      rw [ho] at hr
      obtain ⟨b2, hok2, hun2, he⟩ := hr
      refine ⟨_, _, he, .fails e ?_ rfl ?_⟩
      · rw [hone, hfin, ho]; rfl
      · rintro (h | ⟨_, e', h, h'⟩)
        · simp [mk] at h
        · simp only [Option.some.injEq] at h
          subst h
          exact openOn_not_waiting ho h'
    | good s' c' u' ev =>
      rw [ho] at hr h2
      obtain ⟨b2, hok2, hun2, he⟩ := hr
      obtain ⟨g1, g2, g3, g4, g5, g6⟩ := h2
      rw [he]
      have hheld : Held { v with suite := s', cipher := c', log := v.log ++ [ev] } (unread b2) cs :=
        ⟨hcs, by rw [hun2, g3]; omega, by rw [hun2, g3]; omega, by rw [hun2, g4, ht4],
            v.log, ev, [], rfl, g5, by rw [hun2]; exact g6, by simp⟩
      have h5 := rxPacket_spec H hT.idx { v with suite := s', cipher := c', log := v.log ++ [ev] } b2 hok2 cs .packet
        io' net' hheld.len hheld.five hcs
      have h6 := act_inv hT g1 g2 (log_check hi.log g6) hheld
      rw [hun2] at h5 h6
      cases hact : act H { v with suite := s', cipher := c', log := v.log ++ [ev] } cs u' with
      | refused e =>
        rw [hact] at h5
        refine ⟨_, _, h5, .fails e ?_ rfl ?_⟩
        · rw [hone, hfin, ho]; simp only [hact]; rfl
        · rintro (h | ⟨h, _⟩) <;> simp [mk] at h
      | held v' =>
        rw [hact] at h5
        refine ⟨_, _, h5, .fails _ ?_ rfl ?_⟩
        · rw [hone, hfin, ho]; simp only [hact]; rfl
        · rintro (h | ⟨h, _⟩) <;> simp [mk] at h
      | done r v' =>
        rw [hact] at h5 h6
        obtain ⟨b', hok', hun', he'⟩ := h5
        refine ⟨_, _, he', .done v' net' ?_ ?_ (.inl rfl)⟩
        · rw [hone, hfin, ho]; simp only [hact]
        · exact .init b' cs io' net' ⟨hok', h6.1, h6.2.1, h6.2.2, by simp, by simp, by simp⟩ (by rw [hun']; rfl)
            (.inl (by rw [hun']; simp))

theorem called_mono {q : Nat} {G G' : Prop} {H : Handlers P A} {v : View P A} {s : Bytes} (hg : G' → G)
    {o : Option (Option Err × Conn P A)}
    (h : ∃ r x, o = some (r, x) ∧ Called q G H v s r x) :
    ∃ r x, o = some (r, x) ∧ Called q G' H v s r x := by
  obtain ⟨r, x, h1, h2⟩ := h
  refine ⟨r, x, h1, ?_⟩
  cases h2 with
  | waits hr hh hm => exact .waits hr hh (fun g => hm (hg g))
  | done v' rest h3 hr hh => exact .done v' rest h3 hr hh
  | fails e h3 h4 hh => exact .fails e h3 h4 hh

theorem rel_init (hsz : Sizes P) {H : Handlers P A} (hT : Tame H) {alloc : Nat → Option Bytes}
    (ha : Allocator alloc) {q : Nat} {v : View P A} {s : Bytes} (b : Buf) (cs : Nat) (io : List IoRecv) (net : Bytes)
    (hi : Inv q v b cs .init) (hs : s = unread b ++ net) (hw : WithinPacket v.suite (unread b)) :
    ∃ r x, rxInit H alloc (mk v b cs .init io net) = some (r, x) ∧ Called q (∃ k, Generous (k + 2) alloc io) H v s r x := by
  have hblk := suite_block hi.suite
  have hm := suite_mac_le hi.suite
  obtain ⟨io', net', b1, d, hok, hnet, hun, hr⟩ :=
    rxInit_spec hsz H alloc ha v b hi.ok cs .init io net (by omega)
  have hs1 : s = unread b1 ++ net' := by rw [hs, hun, hnet]; simp
  rcases hr with ⟨e, _, hlt, hgen, he⟩ | ⟨hd, hgen, b2, hok2, hr⟩
  · refine ⟨_, _, he, .waits (.init b1 cs io' net' ?_ hs1 (.inl (by omega))) (.inl rfl) ?_⟩
    rotate_left
    · rintro ⟨k, hk⟩
      have := hgen (k + 1) hk (by omega)
      unfold one
      rw [if_pos (by rw [hs, List.length_append]; exact this)]
    exact ⟨hok, hi.suite, hi.keyed, hi.log, by simp, by simp, by simp⟩
  · have hl1 : v.suite.blockSz ≤ (unread b1).length := by rw [hun, List.length_append]; omega
    revert hr
    generalize hdec : (if v.suite.aead = false then decrypt P v.suite.encId v.cipher ((unread b1).take v.suite.blockSz)
            else (none, v.cipher, (unread b1).take v.suite.blockSz)) = r
    intro hr
    obtain ⟨hun2, he⟩ := hr
    have hfirst : firstBlock v ((unread b1).take v.suite.blockSz) = r := hdec
    have hrl : r.2.2.length = v.suite.blockSz := by
      rw [← hfirst, firstBlock_length hsz]; simp; omega
    have hk : KeyedFor P v.suite r.2.1 := by
      intro h; rw [← hdec, if_neg (by simp [h])]; exact hi.keyed h
    have hl2 : v.suite.blockSz ≤ (unread b2).length := by rw [hun2, List.length_append]; omega
    have ht2 : (unread b2).take v.suite.blockSz = r.2.2 := by rw [hun2, ← hrl]; simp
    have ht4 : (unread b2).take 4 = r.2.2.take 4 := by
      rw [hun2, List.take_append_of_le_length (by omega)]
    have hd2 : (unread b2).drop v.suite.blockSz = (unread b1).drop v.suite.blockSz := by
      rw [hun2, ← hrl]; simp
    have e1 : s.take v.suite.blockSz = (unread b1).take v.suite.blockSz := by
      rw [hs1, List.take_append_of_le_length hl1]
    have e3 : ¬ s.length < v.suite.blockSz := by rw [hs1, List.length_append]; omega
    have hone : one H v s = match r.1 with
        | some e => .bad e v.log
        | none => if Spec.Wire.beNat (r.2.2.take 4) > 35000 - v.suite.macSz - 4 then .bad .overflowE v.log
          else finishOne H v r.2.1 r.2.2 (Spec.Wire.beNat (r.2.2.take 4)) (s.drop v.suite.blockSz) := by
      unfold one
      rw [if_neg e3, e1, hfirst]
    rw [he]
    cases hr1 : r.1 with
    | some e =>
      refine ⟨_, _, rfl, .fails e ?_ rfl ?_⟩
      · rw [hone, hr1]; rfl
      · rintro (h | ⟨h, _⟩) <;> simp [mk] at h
    | none =>
      simp only
      rw [rxLength_spec H alloc { v with cipher := r.2.1 } b2 hok2 cs _ io' net' (by omega), ht4]
      rw [hr1] at hone
      simp only at hone ⊢
      by_cases hc : Spec.Wire.beNat (r.2.2.take 4) > 35000 - v.suite.macSz - 4
      · rw [if_pos hc]
        rw [if_pos hc] at hone
        refine ⟨_, _, rfl, .fails _ hone rfl ?_⟩
        rintro (h | ⟨h, _⟩) <;> simp [mk] at h
      · rw [if_neg hc]
        refine called_mono (G := ∃ k, Generous (k + 1) alloc io') (fun ⟨k, hk⟩ => ⟨k, hgen _ hk (by omega)⟩) ?_
        refine rel_finish hsz hT ha b2 _ io' net' ((unread b1).take v.suite.blockSz) r.2.1 ?_ ?_ ?_ (by omega) ?_ ?_
        · refine ⟨hok2, hi.suite, hk, hi.log, fun _ => hl2, fun _ => ⟨by omega, ?_⟩, by simp⟩
          rw [ht4]; exact (enc_beNat _ (by simp; omega)).symm
        · simp; omega
        · rw [hfirst, ht2]
          ext1
          · exact hr1
          · rfl
        · rw [hd2, ← List.append_assoc, List.take_append_drop]; exact hs1
        · rw [hun2, List.length_append, hrl, List.length_drop]
          rcases hw with hw | ⟨h1, h2, h3⟩
          · have := congrArg List.length hun
            rw [List.length_append] at this
            omega
          · have hl := congrArg List.length hun
            rw [List.length_append] at hl
            by_cases hlb : (unread b).length ≤ v.suite.blockSz
            · omega
            · have hd0 : d = [] := List.eq_nil_of_length_eq_zero (by omega)
              have e5 : unread b1 = unread b := by rw [hun, hd0]; simp
              have hae : v.suite.aead = false := by rw [suite_aead hi.suite, h1]; rfl
              have e6 : r.2.2 = (unread b1).take v.suite.blockSz := by
                rw [← hfirst]
                unfold firstBlock
                rw [if_pos hae, h1]
                unfold decrypt
                split <;> rfl
              have e7 : r.2.2.take 4 = (unread b).take 4 := by
                rw [e6, e5, List.take_take, Nat.min_eq_left (by omega)]
              rw [e7, e5]
              omega

theorem rel_receive (hsz : Sizes P) {H : Handlers P A} (hT : Tame H) {alloc : Nat → Option Bytes}
    (ha : Allocator alloc) {q : Nat} {v : View P A} {s : Bytes} {x : Conn P A} (h : Rel q v s x) (io : List IoRecv) :
    ∃ r y, doReceive H alloc { x with io := io } = some (r, y) ∧ Called q (∃ k, Generous (k + 2) alloc io) H v s r y := by
  cases h with
  | init b cs io0 net hi hs hw => exact rel_init hsz hT ha b cs io net hi hs hw
  | finish b cs io0 net first c1 hi hf hd hc hs hw =>
    refine called_mono (G := ∃ k, Generous (k + 1) alloc io) (fun ⟨k, hk⟩ => ⟨k + 1, hk⟩) ?_
    exact rel_finish hsz hT ha b cs io net first c1 hi hf hd hc hs hw

theorem rel_step (hsz : Sizes P) {H : Handlers P A} (hT : Tame H) {a : RxStep} (ha : Usable a)
    {q : Nat} {v : View P A} {s : Bytes} {x : Conn P A} (h : Rel q v s x) :
    ∃ r y, rxStep H x a = some (r, y) ∧ ((a ≠ .flushed ∧ Called q False H v s r y) ∨ (a = .flushed ∧ Rel q v s y)) := by
  cases a with
  | receive alloc io =>
    obtain ⟨r, y, h1, h2⟩ := called_mono (G' := False) False.elim (rel_receive hsz hT ha h io)
    exact ⟨r, y, h1, .inl ⟨by simp, h2⟩⟩
  | flushed =>
    refine ⟨none, x, ?_, .inr ⟨rfl, h⟩⟩
    unfold rxStep dropHeld
    cases h <;> simp [mk]

/-- Consecutive packets off a stream. -/
inductive Chain (H : Handlers P A) : Nat → View P A → Bytes → View P A → Bytes → Prop
  | nil (v : View P A) (s : Bytes) : Chain H 0 v s v s
  | cons {n : Nat} {v v1 v2 : View P A} {s s1 s2 : Bytes} (h : Chain H n v s v1 s1) (r : Option Err)
      (h1 : one H v1 s1 = .done r v2 s2) : Chain H (n + 1) v s v2 s2

theorem act_log {H : Handlers P A} {v v' : View P A} {cs : Nat} {u : Bytes} {r : Option Err}
    (h : act H v cs u = .done r v') : v.log <+: v'.log := by
  unfold act at h
  split at h
  · simp at h
  · unfold handOver at h
    simp only at h
    split at h
    · simp at h
    · simp only [Acted.done.injEq] at h
      rw [← h.2]
      simp

theorem one_log {H : Handlers P A} {v v' : View P A} {s rest : Bytes} {r : Option Err}
    (h : one H v s = .done r v' rest) : v.log <+: v'.log ∧ v.log.length < v'.log.length := by
  unfold one at h
  split at h
  · simp at h
  simp only at h
  split at h
  · simp at h
  split at h
  · simp at h
  unfold finishOne at h
  simp only at h
  split at h
  · simp at h
  split at h
  · simp at h
  split at h
  · simp at h
  · simp at h
  · rename_i hact
    simp only [Out.done.injEq] at h
    obtain ⟨rfl, rfl, rfl⟩ := h
    obtain ⟨t, ht⟩ := act_log hact
    rw [← ht]
    simp

theorem one_bad_log {H : Handlers P A} {v : View P A} {s : Bytes} {e : Err} {log : List Event}
    (h : one H v s = .bad e log) : v.log <+: log := by
  unfold one at h
  split at h
  · simp at h
  simp only at h
  split at h
  · simp only [Out.bad.injEq] at h; rw [h.2]; exact List.prefix_refl _
  split at h
  · simp only [Out.bad.injEq] at h; rw [h.2]; exact List.prefix_refl _
  unfold finishOne at h
  simp only at h
  split at h
  · simp at h
  split at h
  · simp only [Out.bad.injEq] at h; rw [h.2]; exact List.prefix_refl _
  split at h
  · simp only [Out.bad.injEq] at h; rw [← h.2]; exact List.prefix_append _ _
  · rename_i hact
    simp only [Out.bad.injEq] at h
    rw [← h.2]
    unfold act at hact
    split at hact
    · simp at hact
    unfold handOver at hact
    simp only at hact
    split at hact
    · simp only [Acted.held.injEq] at hact
      rw [← hact]
      simp
    · simp at hact
  · simp at h

theorem chain_log {H : Handlers P A} {n : Nat} {v v' : View P A} {s s' : Bytes} (h : Chain H n v s v' s') :
    v.log <+: v'.log := by
  induction h with
  | nil => exact List.prefix_refl _
  | cons _ _ h1 ih => exact ih.trans (one_log h1).1

theorem chain_det {H : Handlers P A} {n : Nat} {v v1 : View P A} {s s1 : Bytes} (h : Chain H n v s v1 s1) :
    ∀ {v2 : View P A} {s2 : Bytes}, Chain H n v s v2 s2 → v1 = v2 ∧ s1 = s2 := by
  induction h with
  | nil => intro v2 s2 h; cases h; exact ⟨rfl, rfl⟩
  | cons _ _ h1 ih =>
    intro v2 s2 h
    cases h with
    | cons h' r' h2 =>
      obtain ⟨rfl, rfl⟩ := ih h'
      rw [h1] at h2
      simp only [Out.done.injEq] at h2
      exact ⟨h2.2.1, h2.2.2⟩

/-- A longer chain passes through the end of a shorter one. -/
theorem chain_split {H : Handlers P A} {m : Nat} {v v2 : View P A} {s s2 : Bytes} (h2 : Chain H m v s v2 s2) :
    ∀ {n : Nat} {v1 : View P A} {s1 : Bytes}, Chain H n v s v1 s1 → n ≤ m →
    (n = m ∧ v1 = v2 ∧ s1 = s2) ∨
      (n < m ∧ v1.log <+: v2.log ∧ v1.log.length < v2.log.length ∧ ∃ r v' s', one H v1 s1 = .done r v' s' ∧ v'.log <+: v2.log) := by
  induction h2 with
  | nil =>
    intro n v1 s1 h hn
    have : n = 0 := by omega
    subst this
    cases h
    exact .inl ⟨rfl, rfl, rfl⟩
  | @cons m v va vb s sa sb h r h1 ih =>
    intro n v1 s1 hn1 hle
    by_cases hc : n = m + 1
    · subst hc
      obtain ⟨e1, e2⟩ := chain_det hn1 (.cons h r h1)
      exact .inl ⟨rfl, e1, e2⟩
    · right
      have hl := one_log h1
      rcases ih hn1 (by omega) with ⟨rfl, rfl, rfl⟩ | ⟨h3, h4, h5, r', v', s', h6, h7⟩
      · exact ⟨by omega, hl.1, hl.2, r, vb, sb, h1, List.prefix_refl _⟩
      · exact ⟨by omega, h4.trans hl.1, by omega, r', v', s', h6, h7.trans hl.1⟩

theorem healthy_run (hsz : Sizes P) {H : Handlers P A} (hT : Tame H) {x y : Conn P A} {q : Nat} {v : View P A} {s : Bytes}
    (hx : Rel q v s x) (h : HealthyRun H x y) : ∃ n v' s', Chain H n v s v' s' ∧ Rel q v' s' y := by
  induction h with
  | start => exact ⟨0, v, s, .nil _ _, hx⟩
  | step hy a ha r z hz hh ih =>
    obtain ⟨n, v', s', hc, hr⟩ := ih
    obtain ⟨r', z', h1, h2⟩ := rel_step hsz hT ha hr
    rw [hz] at h1
    simp only [Option.some.injEq, Prod.mk.injEq] at h1
    obtain ⟨rfl, rfl⟩ := h1
    rcases h2 with ⟨hnf, h2⟩ | ⟨_, h2⟩
    · cases h2 with
      | waits hr' _ _ => exact ⟨n, v', s', hc, hr'⟩
      | done v2 rest h3 hr' _ => exact ⟨n + 1, v2, rest, .cons hc r h3, hr'⟩
      | fails e _ _ h4 => exact absurd (hh hnf) h4
    · exact ⟨n, v', s', hc, h2⟩

theorem rel_log {q : Nat} {v : View P A} {s : Bytes} {x : Conn P A} (h : Rel q v s x) : x.log = v.log := by
  cases h <;> rfl

theorem start_log {x : Conn P A} (h : Start x) : LogOk P x.rcv.peerSeq (view x).seq (view x).log := by
  have e : (view x).log = [] := h.log
  rw [e]
  refine ⟨by intro pre s seq msg payload post he; simp at he, by intro pre e post n he; simp at he, ?_⟩
  have := h.seq
  show x.rcv.peerSeq = _
  simp [finishedIn]; omega

theorem start_rel {x : Conn P A} (h : Start x) (hw : WithinPacket x.rcv.peer (unread x.rcv.inp)) :
    Rel x.rcv.peerSeq (view x) (unread x.rcv.inp ++ x.net) x := by
  have : x = mk (view x) x.rcv.inp x.rcv.curSz .init x.io x.net := by
    rw [← h.phase]; rfl
  have hr := Rel.init (v := view x) (s := unread x.rcv.inp ++ x.net) x.rcv.inp x.rcv.curSz x.io x.net
    ⟨h.inp, h.suite, h.keyed, start_log h, by simp, by simp, by simp⟩ rfl hw
  rw [← this] at hr
  exact hr

end Proofs.Receive
