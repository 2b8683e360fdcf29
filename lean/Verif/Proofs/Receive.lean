import Verif.Spec.Receive
import Verif.Proofs.Packet
/-!
# The receiving packet layer, on the level of byte strings
-/

namespace Proofs.Receive
open Wolf Wolf.Buffer Wolf.Packet Wolf.Receive Wolf.Wire Spec.Packet Spec.Buffer Spec.Receive
open Proofs.Packet Props.Buffer

theorem read_at {b : Buf} (h : Ok b) (k n : Nat) (hk : k + n ≤ (unread b).length) :
    Buffer.read b.mem (b.idx + k) n = some (((unread b).drop k).take n) := by
  rw [unread_length h] at hk
  have h1 := h.cursor; have h2 := h.fits; have h3 := h.mem
  unfold Buffer.read unread
  rw [if_pos (by omega)]
  congr 1
  rw [List.drop_take, List.drop_drop, List.take_take]
  congr 1; omega

theorem write_at {b : Buf} (h : Ok b) (k : Nat) (d : Bytes) (hk : k + d.length ≤ (unread b).length) :
    ∃ m, Buffer.write b.mem (b.idx + k) d = some m ∧ Ok { b with mem := m } ∧
      unread { b with mem := m } = (unread b).take k ++ (d ++ (unread b).drop (k + d.length)) := by
  have hl := unread_length h
  rw [hl] at hk
  have h1 := h.cursor; have h2 := h.fits; have h3 := h.mem
  obtain ⟨x, y, hxy, hx, hy⟩ := split_at b.mem b.idx (by omega)
  have hu : unread b = y.take (b.length - b.idx) := by
    unfold unread; rw [hxy, ← hx]; simp
  obtain ⟨u, z, huz, hul, hz⟩ := split_at y (b.length - b.idx) (by omega)
  have hu : unread b = u := by rw [hu, huz, ← hul]; simp
  obtain ⟨p, q, hpq, hp, hq⟩ := split_at u k (by omega)
  obtain ⟨r, t, hrt, hr, ht⟩ := split_at q d.length (by omega)
  have hm : b.mem = (x ++ p) ++ (r ++ (t ++ z)) := by
    rw [hxy, huz, hpq, hrt]; simp
  refine ⟨(x ++ p) ++ (d ++ (t ++ z)), ?_, ?_, ?_⟩
  · rw [hm]; exact write_mid _ _ _ _ _ (by simp; omega) hr
  · refine ⟨h.cursor, h.fits, ?_, h.size, h.static⟩
    have := h.mem
    rw [hm] at this
    simp only [List.length_append] at this ⊢
    omega
  · rw [hu]
    have e : unread { b with mem := (x ++ p) ++ (d ++ (t ++ z)) } = p ++ (d ++ t) := by
      unfold unread
      show ((x ++ p ++ (d ++ (t ++ z))).drop b.idx).take (b.length - b.idx) = _
      rw [← hx, List.append_assoc, List.drop_left]
      have : b.length - x.length = (p ++ (d ++ t)).length := by
        simp only [List.length_append]; omega
      rw [this]
      have : p ++ (d ++ (t ++ z)) = (p ++ (d ++ t)) ++ z := by simp
      rw [this, List.take_left]
    rw [e, hpq, ← hp, List.take_left, hrt]
    rw [List.drop_append, List.drop_of_length_le (by omega)]
    simp [← hr]

theorem generous_one {k : Nat} {alloc : Nat → Option Bytes} {io : List IoRecv} (h : Generous (k + 1) alloc io) :
    ∃ t, io = .got 40000 :: t ∧ Generous k alloc t := by
  obtain ⟨h1, t, ht⟩ := h
  exact ⟨_, by rw [ht, List.replicate_succ, List.cons_append], h1, t, rfl⟩

theorem recvLoop_spec (io : List IoRecv) :
    ∀ (net : Bytes) (b : Buf) (size : Nat), Ok b → b.length + size ≤ b.bufferSz → 0 < size →
    ∃ r io' net' b' d, recvLoop io net b size = some (r, io', net', b') ∧ Ok b' ∧
      net = d ++ net' ∧ unread b' = unread b ++ d ∧
      ((r = none ∧ d.length = size ∧ (∀ t, io = .got 40000 :: t → size ≤ 40000 → io' = t)) ∨
       (∃ e, r = some e ∧ Waiting e ∧ d.length < size ∧
         ∀ t, io = .got 40000 :: t → size ≤ 40000 → net.length < size)) := by
  induction io with
  | nil =>
    intro net b size hb hr h0
    exact ⟨_, _, _, _, [], rfl, hb, rfl, by simp, .inr ⟨_, rfl, .inl rfl, h0, by simp⟩⟩
  | cons a io ih =>
    intro net b size hb hr h0
    cases a with
    | intr =>
      obtain ⟨r, io', net', b', d, h1, h2, h3, h4, h5⟩ := ih net b size hb hr h0
      refine ⟨r, io', net', b', d, h1, h2, h3, h4, ?_⟩
      rcases h5 with ⟨h5, h6, _⟩ | ⟨e, h5, h6, h7, _⟩
      · exact .inl ⟨h5, h6, by simp⟩
      · exact .inr ⟨e, h5, h6, h7, by simp⟩
    | wantRead => exact ⟨_, _, _, _, [], rfl, hb, rfl, by simp, .inr ⟨_, rfl, .inl rfl, h0, by simp⟩⟩
    | closed => exact ⟨_, _, _, _, [], rfl, hb, rfl, by simp, .inr ⟨_, rfl, .inr (.inl rfl), h0, by simp⟩⟩
    | other => exact ⟨_, _, _, _, [], rfl, hb, rfl, by simp, .inr ⟨_, rfl, .inr (.inl rfl), h0, by simp⟩⟩
    | got n =>
      unfold recvLoop
      simp only
      generalize hg : net.take (min n size) = g
      have hgl : g.length ≤ size := by rw [← hg, List.length_take]; omega
      have hnet : net = g ++ net.drop g.length := by
        generalize min n size = k at hg
        subst hg
        by_cases hc : k ≤ net.length
        · rw [List.length_take, Nat.min_eq_left hc]; simp
        · rw [List.take_of_length_le (by omega)]; simp
      obtain ⟨m, hw, hok, hun⟩ := write_append hb g (by omega)
      rw [hw]
      simp only
      split
      · rename_i h
        exact ⟨_, _, _, _, g, rfl, hok, hnet, hun, .inl ⟨rfl, by omega, by intro t ht; simp only [List.cons.injEq] at ht; intro _; exact ht.2⟩⟩
      · rename_i h
        have hshort : n = 40000 → size ≤ 40000 → net.length < size := by
          intro e1 e2
          have : g.length = min (min n size) net.length := by rw [← hg, List.length_take]
          omega
        have hadd : add32 b.length g.length = b.length + g.length := by
          have := hb.size; unfold add32; omega
        obtain ⟨r, io', net', b', d, h1, h2, h3, h4, h5⟩ :=
          ih (net.drop g.length) _ (size - g.length) hok (by simp only [hadd]; omega) (by omega)
        refine ⟨r, io', net', b', g ++ d, h1, h2, ?_, ?_, ?_⟩
        · rw [List.append_assoc, ← h3]; exact hnet
        · rw [h4, hun]; simp
        · have hnl := congrArg List.length h3
          rw [List.length_append, List.length_drop] at hnl
          rcases h5 with ⟨h5, h6, _⟩ | ⟨e, h5, h6, h7, _⟩
          · refine .inl ⟨h5, by simp; omega, ?_⟩
            intro t ht h4
            simp only [List.cons.injEq, IoRecv.got.injEq] at ht
            have := hshort ht.1 h4
            omega
          · refine .inr ⟨e, h5, h6, by simp; omega, ?_⟩
            intro t ht h4
            simp only [List.cons.injEq, IoRecv.got.injEq] at ht
            exact hshort ht.1 h4

theorem getInputData_spec (alloc : Nat → Option Bytes) (ha : Allocator alloc) (io : List IoRecv)
    (net : Bytes) (b : Buf) (hb : Ok b) (size : Nat) (hs : size < 2^32) :
    ∃ r io' net' b' d, getInputData alloc io net b size = some (r, io', net', b') ∧ Ok b' ∧
      net = d ++ net' ∧ unread b' = unread b ++ d ∧
      ((r = none ∧ d.length = size - (unread b).length ∧
         ∀ k, Generous (k + 1) alloc io → size ≤ 40000 → Generous k alloc io') ∨
       (∃ e, r = some e ∧ Waiting e ∧ (unread b').length < size ∧
         ∀ k, Generous (k + 1) alloc io → size ≤ 40000 → (unread b).length + net.length < size)) := by
  have hl := unread_length hb
  have h1 := hb.cursor; have h2 := hb.fits; have h3 := hb.size
  have e1 : sub32 b.length b.idx = (unread b).length := by
    rw [hl]; exact sub32_le h1 (by omega)
  unfold getInputData
  simp only [e1]
  by_cases hc : (unread b).length ≥ size
  · rw [if_pos hc]
    refine ⟨_, _, _, _, [], rfl, hb, rfl, by simp, .inl ⟨rfl, by simp; omega, fun k hk _ => ?_⟩⟩
    obtain ⟨t, ht, h1, t', ht'⟩ := generous_one hk
    exact ⟨h1, .got 40000 :: t', by
      have := List.replicate_succ' (n := k) (a := IoRecv.got 40000)
      rw [ht, ht', ← List.cons_append, ← List.replicate_succ, this]; simp⟩
  · rw [if_neg hc]
    have e2 : sub32 size (unread b).length = size - (unread b).length := sub32_le (by omega) hs
    rw [e2]
    obtain ⟨r, b1, hg, hok, hun, hr⟩ := C38_grow_partial alloc ha b hb (size - (unread b).length) (by omega)
    rw [hg]
    rcases hr with ⟨rfl, hroom⟩ | ⟨rfl, rfl, hnone⟩
    · simp only
      obtain ⟨r, io', net', b', d, h1, h2, h3, h4, h5⟩ :=
        recvLoop_spec io net b1 (size - (unread b).length) hok hroom (by omega)
      refine ⟨r, io', net', b', d, h1, h2, h3, by rw [h4, hun], ?_⟩
      rcases h5 with ⟨h5, h6, h7⟩ | ⟨e, h5, h6, h7, h8⟩
      · refine .inl ⟨h5, h6, fun k hk hz => ?_⟩
        obtain ⟨t, ht, hg⟩ := generous_one hk
        rw [h7 t ht (by omega)]; exact hg
      · refine .inr ⟨e, h5, h6, ?_, fun k hk hz => ?_⟩
        · rw [h4, hun, List.length_append]; omega
        · obtain ⟨t, ht, hg⟩ := generous_one hk
          have := h8 t ht (by omega)
          omega
    · obtain ⟨n, hn⟩ := hnone
      exact ⟨_, _, _, _, [], rfl, hb, rfl, by simp, .inr ⟨_, rfl, .inr (.inr rfl), by omega,
        fun k hk _ => absurd hn (hk.1 n)⟩⟩

variable {P : Prims} {A : Type}

/-- The state of the receiving side apart from buffer and transport. -/
structure View (P : Prims) (A : Type) where
  suite : Suite
  cipher : Option P.State
  seq : Nat
  app : A
  log : List Event

def view (x : Conn P A) : View P A := ⟨x.rcv.peer, x.rcv.peerCipher, x.rcv.peerSeq, x.app, x.log⟩

/-- A connection in the state `v`, with the buffer, phase, transport given. -/
def mk (v : View P A) (b : Buf) (curSz : Nat) (ph : Phase) (io : List IoRecv) (net : Bytes) : Conn P A :=
  ⟨⟨b, v.suite, v.cipher, v.seq, curSz, ph⟩, v.app, io, net, v.log⟩

theorem mk_view (x : Conn P A) : x = mk (view x) x.rcv.inp x.rcv.curSz x.rcv.phase x.io x.net := rfl

/-- The checks before a handler runs, on the unread bytes `u`. -/
def judge (H : Handlers P A) (a : A) (curSz : Nat) (u : Bytes) : Except Err (Byte × Bytes) :=
  let pad := ((u.drop 4).headD 0).toNat
  if pad < 4 then .error .bufferE
  else if 1 + pad + 1 > curSz then .error .overflowE
  else if H.allowed a ((u.drop 5).headD 0) = false then .error .msgNotAllowed
  else .ok ((u.drop 5).headD 0, (u.drop 6).take (curSz - 1 - pad - 1))

inductive Acted (P : Prims) (A : Type) where
  | refused (e : Err)
  | held (v : View P A)
  | done (r : Option Err) (v : View P A)

/-- Handing a message over. -/
def handOver (H : Handlers P A) (v : View P A) (msg : Byte) (payload : Bytes) : Acted P A :=
  let r := H.run v.app msg payload
  let v' : View P A :=
    { v with
      app := r.2.2.1, log := v.log ++ [.acted v.suite v.seq msg payload]
      suite := match r.2.2.2 with | none => v.suite | some (s, _) => s
      cipher := match r.2.2.2 with | none => v.cipher | some (_, c) => c }
  if r.1 = some .authPending then .held v'
  else
    let hw := H.highwater r.2.2.1
    let ret := if r.1 = none then hw.1 else r.1
    .done ret { v' with app := hw.2, seq := add32 v.seq 1, log := v'.log ++ [.finished ret] }

def act (H : Handlers P A) (v : View P A) (curSz : Nat) (u : Bytes) : Acted P A :=
  match judge H v.app curSz u with
  | .error e => .refused e
  | .ok (msg, payload) => handOver H v msg payload

theorem read_one {b : Buf} (h : Ok b) (k : Nat) (hk : k + 1 ≤ (unread b).length) :
    Buffer.read b.mem (b.idx + k) 1 = some [((unread b).drop k).headD 0] := by
  rw [read_at h k 1 hk]
  cases hd : (unread b).drop k with
  | nil => rw [List.drop_eq_nil_iff] at hd; omega
  | cons a l => simp

theorem rxPacket_spec (H : Handlers P A) (hT : ∀ a m p, (H.run a m p).2.1 ≤ p.length) (v : View P A)
    (b : Buf) (hb : Ok b) (curSz : Nat) (ph : Phase) (io : List IoRecv) (net : Bytes)
    (hl : 4 + curSz ≤ (unread b).length) (h5 : 5 ≤ (unread b).length) (hc : curSz ≤ 35000) :
    match act H v curSz (unread b) with
    | .refused e => rxPacket H (mk v b curSz ph io net) = some (some e, mk v b curSz ph io net)
    | .held v' => rxPacket H (mk v b curSz ph io net) = some (some .authPending, mk v' b curSz ph io net)
    | .done r v' => ∃ b', Ok b' ∧ unread b' = [] ∧
        rxPacket H (mk v b curSz ph io net) = some (r, mk v' b' curSz .init io net) := by
  have hul := unread_length hb
  have h1 := hb.cursor; have h2 := hb.fits; have h3 := hb.size; have h4 := hb.mem
  have e4 : add32 b.idx 4 = b.idx + 4 := by unfold add32; omega
  unfold act judge rxPacket
  simp only [mk, e4]
  rw [read_one hb 4 (by omega)]
  simp only
  generalize hp : (((unread b).drop 4).headD 0).toNat = padSz
  have hp255 : padSz < 256 := by rw [← hp]; exact UInt8.toNat_lt _
  by_cases c1 : padSz < 4
  · simp only [if_pos c1]
  · simp only [if_neg c1]
    by_cases c2 : 1 + padSz + 1 > curSz
    · simp only [if_pos c2]
    · simp only [if_neg c2]
      rw [show b.idx + 4 + 1 = b.idx + 5 from rfl, read_one hb 5 (by omega)]
      simp only
      generalize hm : ((unread b).drop 5).headD 0 = msg
      have e6 : add32 (curSz - 1 - padSz - 1) (b.idx + 4 + 2) = curSz - 1 - padSz - 1 + (b.idx + 4 + 2) := by
        unfold add32; omega
      have c0 : ¬ (b.bufferSz < curSz - 1 - padSz - 1 + (b.idx + 4 + 2) ∨
          curSz - 1 - padSz - 1 + (b.idx + 4 + 2) < curSz - 1 - padSz - 1) := by omega
      simp only [e6, if_neg c0]
      by_cases c3 : H.allowed v.app msg = false
      · simp only [if_pos c3]
      · simp only [if_neg c3]
        rw [show b.idx + 4 + 2 = b.idx + 6 from rfl, read_at hb 6 _ (by omega)]
        simp only
        generalize hpl : ((unread b).drop 6).take (curSz - 1 - padSz - 1) = payload
        have hpll : payload.length = curSz - 1 - padSz - 1 := by rw [← hpl]; simp; omega
        unfold handOver
        simp only
        have hidx := hT v.app msg payload
        generalize H.run v.app msg payload = res at hidx
        obtain ⟨r1, pi, a', k⟩ := res
        simp only at hidx ⊢
        by_cases c4 : r1 = some .authPending
        · simp only [c4, if_true]
          cases k <;> rfl
        · simp only [c4, if_false]
          obtain ⟨b', hs, hok, hun⟩ := C38_free [] b
          have e7 : add32 (add32 (b.idx + 6) pi) padSz = b.idx + 6 + pi + padSz := by
            unfold add32; omega
          have c5 : ¬ (curSz - 1 - padSz - 1 > 0 ∧ add32 (add32 (b.idx + 6) pi) padSz > b.length) := by
            rw [e7]; omega
          rw [if_neg c5]
          refine ⟨b', hok, hun, ?_⟩
          unfold finishPacket
          cases k <;> simp only [hs]

theorem judge_ok (H : Handlers P A) (a : A) (curSz : Nat) (u : Bytes) (msg : Byte) (payload : Bytes)
    (h : judge H a curSz u = .ok (msg, payload)) (hl : 4 + curSz ≤ u.length)
    (h4 : u.take 4 = Spec.Wire.encUint32 curSz) :
    ∃ pad, u.take (4 + curSz) = framed (msg :: payload) pad ∧ 4 ≤ pad.length ∧ H.allowed a msg = true := by
  unfold judge at h
  simp only at h
  generalize hp : (((u).drop 4).headD 0).toNat = padSz at h
  split at h
  · simp at h
  rename_i c1
  split at h
  · simp at h
  rename_i c2
  split at h
  · simp at h
  rename_i c3
  simp only [Except.ok.injEq, Prod.mk.injEq] at h
  obtain ⟨rfl, rfl⟩ := h
  obtain ⟨x, y, hxy, hx, hy⟩ := split_at u 4 (by omega)
  have hx4 : x = Spec.Wire.encUint32 curSz := by rw [← h4, hxy, ← hx]; simp
  match y, hy with
  | p :: m :: z, hy =>
    have d4 : u.drop 4 = p :: m :: z := by rw [hxy, ← hx]; simp
    have d5 : u.drop 5 = m :: z := by rw [show (5:Nat) = 4 + 1 from rfl, ← List.drop_drop, d4]; rfl
    have d6 : u.drop 6 = z := by rw [show (6:Nat) = 4 + 2 from rfl, ← List.drop_drop, d4]; rfl
    rw [d5] at c3 ⊢
    rw [d6]
    rw [d4] at hp
    simp only [List.headD_cons] at hp c3 ⊢
    simp only [List.length_cons] at hy
    have hz : z.length = u.length - 6 := by omega
    refine ⟨(z.drop (curSz - 1 - padSz - 1)).take padSz, ?_, ?_, ?_⟩
    · unfold framed
      have hpl : ((z.drop (curSz - 1 - padSz - 1)).take padSz).length = padSz := by simp; omega
      have hml : (m :: z.take (curSz - 1 - padSz - 1)).length = curSz - 1 - padSz := by simp; omega
      rw [hpl, hml]
      have : 1 + (curSz - 1 - padSz) + padSz = curSz := by omega
      rw [this, ← hx4, hxy, ← hx]
      have : p = UInt8.ofNat padSz := by rw [← hp]; simp
      rw [← this]
      rw [List.take_append, List.take_of_length_le (by omega)]
      congr 1
      have : x.length + curSz - x.length = (curSz - 2) + 2 := by omega
      rw [this]
      simp only [List.take_succ_cons, List.cons_append, List.nil_append, List.cons.injEq, true_and]
      rw [← List.take_add]
      congr 1; omega
    · simp; omega
    · simpa using c3
  | [], hy => simp at hy; omega
  | [_], hy => simp at hy; omega

theorem decrypt_length (hs : Sizes P) (id : Enc) (c : Option P.State) (x : Bytes) :
    (decrypt P id c x).2.2.length = x.length := by
  have hd := hs.dec
  unfold decrypt
  split
  · rfl
  · split
    · rfl
    · split
      · rfl
      · split
        · rfl
        · rename_i h; exact hd _ _ _ _ _ h
    · split
      · rfl
      · split
        · rfl
        · rename_i h; exact hd _ _ _ _ _ h
    all_goals rfl

theorem decryptAead_length (hs : Sizes P) (s : Suite) (c : Option P.State) (x tag aad : Bytes) :
    (decryptAead P s c x tag aad).2.length = x.length := by
  have hd := hs.gcmOpen
  unfold decryptAead
  split
  · split
    · rfl
    · rename_i h; exact hd _ _ _ _ _ _ _ h
  all_goals rfl

inductive Opening (P : Prims) where
  | bad (e : Err) (s : Suite) (c : Option P.State) (u : Bytes)
  | good (s : Suite) (c : Option P.State) (u : Bytes) (ev : Event)

/-- Decrypting and checking a packet all of which is in `u`, the first block already decrypted. -/
def openOn (P : Prims) (s : Suite) (c : Option P.State) (seq curSz : Nat) (u : Bytes) : Opening P :=
  let sz := 4 + curSz
  if s.aead = false then
    let rest := if sz > s.blockSz then sz - s.blockSz else 0
    let ct := (u.drop s.blockSz).take rest
    let r := if rest > 0 then decrypt P s.encId c ct else (none, c, ct)
    let u' := u.take s.blockSz ++ (r.2.2 ++ u.drop (s.blockSz + r.2.2.length))
    match r.1, verifyMac P s seq (u'.take sz) ((u'.drop sz).take s.macSz) with
    | some e, _ => .bad e s r.2.1 u'
    | none, some e => .bad e s r.2.1 u'
    | none, none => .good s r.2.1 u' (.verified s seq (u'.take sz) ((u'.drop sz).take s.macSz))
  else if curSz = 0 then .bad .badArgument s c u
  else
    let r := decryptAead P s c ((u.drop 4).take curSz) ((u.drop sz).take s.macSz) (u.take 4)
    let u' := u.take 4 ++ (r.2 ++ u.drop (4 + r.2.length))
    let s' := { s with iv := aeadIncrementExpIv s.iv }
    match r.1 with
    | some e => .bad e s' c u'
    | none => .good s' c u'
        (.opened s seq (u.take 4 ++ r.2) ((u.drop 4).take curSz) ((u.drop sz).take s.macSz))

theorem rxFinish_spec (hs : Sizes P) (H : Handlers P A) (alloc : Nat → Option Bytes)
    (ha : Allocator alloc) (v : View P A) (b : Buf) (hb : Ok b) (curSz : Nat) (ph : Phase)
    (io : List IoRecv) (net : Bytes) (hl : v.suite.blockSz ≤ (unread b).length) (h4 : 4 ≤ v.suite.blockSz)
    (hc : curSz ≤ 35000) (hm : v.suite.macSz ≤ 64) :
    ∃ io' net' b1 d, Ok b1 ∧ net = d ++ net' ∧ unread b1 = unread b ++ d ∧
      ((∃ e, Waiting e ∧ (unread b1).length < 4 + curSz + v.suite.macSz ∧
          (∀ k, Generous (k + 1) alloc io → (unread b).length + net.length < 4 + curSz + v.suite.macSz) ∧
          rxFinish H alloc (mk v b curSz ph io net) = some (some e, mk v b1 curSz ph io' net')) ∨
       (d.length = 4 + curSz + v.suite.macSz - (unread b).length ∧
        match openOn P v.suite v.cipher v.seq curSz (unread b1) with
        | .bad e s' c' u' => ∃ b2, Ok b2 ∧ unread b2 = u' ∧
            rxFinish H alloc (mk v b curSz ph io net) =
              some (some e, mk { v with suite := s', cipher := c' } b2 curSz ph io' net')
        | .good s' c' u' ev => ∃ b2, Ok b2 ∧ unread b2 = u' ∧
            rxFinish H alloc (mk v b curSz ph io net) =
              rxPacket H (mk { v with suite := s', cipher := c', log := v.log ++ [ev] } b2 curSz .packet io' net'))) := by
  have e1 : add32 4 curSz = 4 + curSz := by unfold add32; omega
  have e2 : add32 (4 + curSz) v.suite.macSz = 4 + curSz + v.suite.macSz := by unfold add32; omega
  obtain ⟨r, io', net', b1, d, hg, hok, hnet, hun, hr⟩ :=
    getInputData_spec alloc ha io net b hb (4 + curSz + v.suite.macSz) (by omega)
  refine ⟨io', net', b1, d, hok, hnet, hun, ?_⟩
  unfold rxFinish openOn
  simp only [mk, e1, e2, hg]
  rcases hr with ⟨rfl, hd, _⟩ | ⟨e, rfl, hw, hlt, hgen⟩
  · right
    refine ⟨hd, ?_⟩
    have hlen : 4 + curSz + v.suite.macSz ≤ (unread b1).length := by rw [hun, List.length_append]; omega
    have hblk : v.suite.blockSz ≤ (unread b1).length := by rw [hun, List.length_append]; omega
    simp only
    by_cases hae : v.suite.aead = false
    · simp only [if_pos hae]
      generalize hrest : (if 4 + curSz > v.suite.blockSz then 4 + curSz - v.suite.blockSz else 0) = rest
      have hrl : v.suite.blockSz + rest ≤ (unread b1).length := by rw [← hrest]; split <;> omega
      rw [read_at hok v.suite.blockSz rest hrl]
      simp only
      generalize hct : ((unread b1).drop v.suite.blockSz).take rest = ct
      have hctl : ct.length = rest := by rw [← hct]; simp; omega
      generalize hdec : (if rest > 0 then decrypt P v.suite.encId v.cipher ct else (none, v.cipher, ct)) = r
      have hrr : r.2.2.length = rest := by
        rw [← hdec]; split
        · rw [decrypt_length hs]; exact hctl
        · exact hctl
      obtain ⟨m, hw, hok2, hun2⟩ := write_at hok v.suite.blockSz r.2.2 (by omega)
      rw [hw]
      simp only
      have hl2 : (unread { b1 with mem := m }).length = (unread b1).length := by
        rw [unread_length hok2, unread_length hok]
      have r1 := read_at hok2 0 (4 + curSz) (by omega)
      have r2 := read_at hok2 (4 + curSz) v.suite.macSz (by omega)
      simp only [Nat.add_zero, List.drop_zero] at r1 r2
      rw [r1, r2]
      simp only
      rw [← hun2]
      cases hr1 : r.1 with
      | some e => exact ⟨_, hok2, rfl, rfl⟩
      | none =>
        cases hv : verifyMac P v.suite v.seq ((unread { b1 with mem := m }).take (4 + curSz))
            (((unread { b1 with mem := m }).drop (4 + curSz)).take v.suite.macSz) with
        | some e => exact ⟨_, hok2, rfl, rfl⟩
        | none => exact ⟨_, hok2, rfl, rfl⟩
    · simp only [if_neg hae]
      by_cases hz : curSz = 0
      · simp only [if_pos hz]
        exact ⟨_, hok, rfl, rfl⟩
      · simp only [if_neg hz]
        have r1 := read_at hok 0 4 (by omega)
        simp only [Nat.add_zero, List.drop_zero] at r1
        rw [r1, read_at hok 4 curSz (by omega), read_at hok (4 + curSz) v.suite.macSz (by omega)]
        simp only
        generalize hr : decryptAead P v.suite v.cipher (((unread b1).drop 4).take curSz)
          (((unread b1).drop (4 + curSz)).take v.suite.macSz) ((unread b1).take 4) = r
        have hrl : r.2.length = curSz := by
          rw [← hr, decryptAead_length hs]; simp; omega
        obtain ⟨m, hw, hok2, hun2⟩ := write_at hok 4 r.2 (by omega)
        rw [hw]
        simp only
        cases hr1 : r.1 with
        | some e => exact ⟨_, hok2, hun2, rfl⟩
        | none => exact ⟨_, hok2, hun2, rfl⟩
  · left
    exact ⟨e, hw, hlt, fun k hk => hgen k hk (by omega), rfl⟩

theorem enc_beNat (u : Bytes) (h : u.length = 4) : Spec.Wire.encUint32 (Spec.Wire.beNat u) = u := by
  have hlt := beNat_lt u
  rw [h] at hlt
  exact beNat_inj _ _ (by simp [Spec.Wire.encUint32, h]) (beNat_encUint32 _ (by omega))

theorem rxLength_spec (H : Handlers P A) (alloc : Nat → Option Bytes) (v : View P A) (b : Buf) (hb : Ok b)
    (cs : Nat) (ph : Phase) (io : List IoRecv) (net : Bytes) (hl : 4 ≤ (unread b).length) :
    rxLength H alloc (mk v b cs ph io net) =
      if Spec.Wire.beNat ((unread b).take 4) > 35000 - v.suite.macSz - 4 then
        some (some .overflowE, mk v b (Spec.Wire.beNat ((unread b).take 4)) ph io net)
      else rxFinish H alloc (mk v b (Spec.Wire.beNat ((unread b).take 4)) .packetFinish io net) := by
  have hul := unread_length hb
  have h1 := hb.cursor; have h2 := hb.fits; have h3 := hb.size
  have e4 : add32 b.idx 4 = b.idx + 4 := by unfold add32; omega
  have r1 := read_at hb 0 4 (by omega)
  simp only [Nat.add_zero, List.drop_zero] at r1
  unfold rxLength
  simp only [mk, e4]
  rw [if_neg (by omega), r1]
  have h4 : ((unread b).take 4).length = 4 := by simp; omega
  match (unread b).take 4, h4 with
  | [a0, a1, a2, a3], _ =>
    simp only [ato32_beNat, MAX_PACKET_SZ]

theorem rxInit_spec (hs : Sizes P) (H : Handlers P A) (alloc : Nat → Option Bytes)
    (ha : Allocator alloc) (v : View P A) (b : Buf) (hb : Ok b) (cs : Nat) (ph : Phase)
    (io : List IoRecv) (net : Bytes) (hk : v.suite.blockSz < 2^32) :
    ∃ io' net' b1 d, Ok b1 ∧ net = d ++ net' ∧ unread b1 = unread b ++ d ∧
      ((∃ e, Waiting e ∧ (unread b1).length < v.suite.blockSz ∧
          (∀ k, Generous (k + 1) alloc io → v.suite.blockSz ≤ 40000 →
            (unread b).length + net.length < v.suite.blockSz) ∧
          rxInit H alloc (mk v b cs ph io net) = some (some e, mk v b1 cs ph io' net')) ∨
       (d.length = v.suite.blockSz - (unread b).length ∧
        (∀ k, Generous (k + 1) alloc io → v.suite.blockSz ≤ 40000 → Generous k alloc io') ∧
        ∃ b2, Ok b2 ∧
          let r := if v.suite.aead = false then decrypt P v.suite.encId v.cipher ((unread b1).take v.suite.blockSz)
            else (none, v.cipher, (unread b1).take v.suite.blockSz)
          unread b2 = r.2.2 ++ (unread b1).drop v.suite.blockSz ∧
          rxInit H alloc (mk v b cs ph io net) =
            match r.1 with
            | some e => some (some e, mk { v with cipher := r.2.1 } b2 cs .packetLength io' net')
            | none => rxLength H alloc (mk { v with cipher := r.2.1 } b2 cs .packetLength io' net'))) := by
  obtain ⟨r, io', net', b1, d, hg, hok, hnet, hun, hr⟩ :=
    getInputData_spec alloc ha io net b hb v.suite.blockSz hk
  refine ⟨io', net', b1, d, hok, hnet, hun, ?_⟩
  unfold rxInit
  simp only [mk, hg]
  rcases hr with ⟨rfl, hd, hgen⟩ | ⟨e, rfl, hw, hlt, hgen⟩
  · right
    refine ⟨hd, hgen, ?_⟩
    have hlen : v.suite.blockSz ≤ (unread b1).length := by rw [hun, List.length_append]; omega
    simp only
    by_cases hae : v.suite.aead = false
    · simp only [if_pos hae]
      have r1 := read_at hok 0 v.suite.blockSz (by omega)
      simp only [Nat.add_zero, List.drop_zero] at r1
      rw [r1]
      simp only
      generalize hr : decrypt P v.suite.encId v.cipher ((unread b1).take v.suite.blockSz) = r
      have hrl : r.2.2.length = v.suite.blockSz := by
        rw [← hr, decrypt_length hs]; simp; omega
      obtain ⟨m, hw, hok2, hun2⟩ := write_at hok 0 r.2.2 (by omega)
      simp only [Nat.add_zero, List.take_zero, List.nil_append, Nat.zero_add, hrl] at hw hun2
      rw [hw]
      exact ⟨_, hok2, hun2, if_pos hae⟩
    · simp only [if_neg hae]
      exact ⟨b1, hok, by simp, if_neg hae⟩
  · left
    exact ⟨e, hw, hlt, hgen, rfl⟩

end Proofs.Receive
