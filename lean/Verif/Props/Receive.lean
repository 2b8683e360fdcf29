import Verif.Proofs.RoundTrip
import Verif.Props.Packet
/-!
# The receiving packet layer: authenticity, sequence numbers, nonces, segmentation, round trip
-/

namespace Props.Receive
open Wolf Wolf.Buffer Wolf.Packet Wolf.Receive Spec.Packet Spec.Buffer Spec.Receive Proofs.Receive

variable {P : Prims} {A : Type}

/-- C27. Whatever the network delivers and however often the application calls again, every message
acted upon is exactly the contents of a packet that passed its integrity check under the keys and
sequence number then in force, and the calls never read or write outside the buffer. -/
theorem C27_checked (hP : Sizes P) (H : Handlers P A) (hH : Tame H) (x : Conn P A) (hx : Start x)
    (as : List RxStep) (ha : ∀ a ∈ as, Usable a) :
    ∃ rs y, rxRun H x as = some (rs, y) ∧ ActsOnChecked P y.log := by
  obtain ⟨rs, v', b', cs', ph', io', net', h1, h2⟩ := rxRun_inv hP (q := x.rcv.peerSeq) hH as (view x) x.rcv.inp x.rcv.curSz
    x.rcv.phase x.io x.net ha ⟨hx.inp, hx.suite, hx.keyed, start_log hx, by simp [hx.phase], by simp [hx.phase], by simp [hx.phase]⟩
  exact ⟨rs, _, h1, h2.log.acts⟩

/-- C28, receiving. In every history the packet checked and acted upon after `k` finished ones has
the sequence number `first + k`, modulo 2^32. -/
theorem C28_received (hP : Sizes P) (H : Handlers P A) (hH : Tame H) (x : Conn P A) (hx : Start x)
    (as : List RxStep) (ha : ∀ a ∈ as, Usable a) :
    ∃ rs y, rxRun H x as = some (rs, y) ∧ Numbered x.rcv.peerSeq y.log ∧
      y.rcv.peerSeq = (x.rcv.peerSeq + finishedIn y.log) % 2^32 := by
  obtain ⟨rs, v', b', cs', ph', io', net', h1, h2⟩ := rxRun_inv hP (q := x.rcv.peerSeq) hH as (view x) x.rcv.inp x.rcv.curSz
    x.rcv.phase x.io x.net ha ⟨hx.inp, hx.suite, hx.keyed, start_log hx, by simp [hx.phase], by simp [hx.phase], by simp [hx.phase]⟩
  exact ⟨rs, _, h1, h2.log.numbered, h2.log.seq⟩

/-- C29, receiving. Under one AES-GCM key, packet number `k` is opened with nonce `iv + k`. -/
theorem C29_received (hP : Sizes P) (H : Handlers P A) (hH : Tame H) (hk : ∀ a m p, (H.run a m p).2.2.2 = none)
    (x y : Conn P A) (hx : Start x) (hw : WithinPacket x.rcv.peer (unread x.rcv.inp)) (hg : x.rcv.peer.aead = true)
    (h : HealthyRun H x y) : NoncesFrom x.rcv.peer.iv y.log := by
  obtain ⟨n, v', s', hc, hr⟩ := healthy_run hP hH (start_rel hx hw) h
  have h0 : (view x).log = [] := hx.log
  have := chain_nonce hk hc hx.suite hg x.rcv.peer.iv 0
    ⟨hx.suite.2.2.2 hg, rfl, by
      have := Wolf.Wire.beNat_lt (x.rcv.peer.iv.drop 4)
      rw [List.length_drop, hx.suite.2.2.2 hg] at this
      show Spec.Wire.beNat (x.rcv.peer.iv.drop 4) = _
      omega⟩
    (by rw [h0]; rfl) (by rw [h0]; intro pre s q pk ct tag post he; simp at he)
  rw [rel_log hr]
  exact this.2.2.2

/-- C26. Two histories of calls on the same byte stream, cut differently by the transport: the
events of one continue those of the other. -/
theorem C26_same_messages_partial (hP : Sizes P) (H : Handlers P A) (hH : Tame H) (x y z : Conn P A) (hx : Start x)
    (hw : WithinPacket x.rcv.peer (unread x.rcv.inp)) (hy : HealthyRun H x y) (hz : HealthyRun H x z) :
    y.log <+: z.log ∨ z.log <+: y.log := by
  obtain ⟨n, v1, s1, hc1, hr1⟩ := healthy_run hP hH (start_rel hx hw) hy
  obtain ⟨m, v2, s2, hc2, hr2⟩ := healthy_run hP hH (start_rel hx hw) hz
  rw [rel_log hr1, rel_log hr2]
  rcases Nat.le_total n m with h | h
  · rcases chain_split hc2 hc1 h with ⟨_, rfl, _⟩ | ⟨_, h1, _⟩
    · exact .inl (List.prefix_refl _)
    · exact .inl h1
  · rcases chain_split hc1 hc2 h with ⟨_, rfl, _⟩ | ⟨_, h1, _⟩
    · exact .inl (List.prefix_refl _)
    · exact .inr h1

/-- C26. With as many packets done and no packet begun, keys, sequence number, application state and
the bytes still to come are the same, however the stream was cut. -/
theorem C26_same_state_partial (hP : Sizes P) (H : Handlers P A) (hH : Tame H) (x y z : Conn P A) (hx : Start x)
    (hw : WithinPacket x.rcv.peer (unread x.rcv.inp)) (hy : HealthyRun H x y) (hz : HealthyRun H x z)
    (hl : y.log.length = z.log.length) (h1 : y.rcv.phase = .init) (h2 : z.rcv.phase = .init) :
    y.log = z.log ∧ y.app = z.app ∧ y.rcv.peer = z.rcv.peer ∧ y.rcv.peerCipher = z.rcv.peerCipher ∧
      y.rcv.peerSeq = z.rcv.peerSeq ∧ unread y.rcv.inp ++ y.net = unread z.rcv.inp ++ z.net := by
  obtain ⟨n, v1, s1, hc1, hr1⟩ := healthy_run hP hH (start_rel hx hw) hy
  obtain ⟨m, v2, s2, hc2, hr2⟩ := healthy_run hP hH (start_rel hx hw) hz
  rw [rel_log hr1, rel_log hr2] at hl
  have heq : v1 = v2 ∧ s1 = s2 := by
    rcases Nat.le_total n m with h | h
    · rcases chain_split hc2 hc1 h with ⟨_, h3, h4⟩ | ⟨_, _, h3, _⟩
      · exact ⟨h3, h4⟩
      · omega
    · rcases chain_split hc1 hc2 h with ⟨_, h3, h4⟩ | ⟨_, _, h3, _⟩
      · exact ⟨h3.symm, h4.symm⟩
      · omega
  obtain ⟨rfl, rfl⟩ := heq
  cases hr1 with
  | finish => simp [mk] at h1
  | init b cs io net hi hs _ =>
    cases hr2 with
    | finish => simp [mk] at h2
    | init b' cs' io' net' hi' hs' _ =>
      exact ⟨rfl, rfl, rfl, rfl, rfl, by show unread b ++ net = unread b' ++ net'; rw [← hs, ← hs']⟩

/-- C26. A call that fails for good (not for want of bytes) under one way of cutting the stream: no
other way gets past that point. -/
theorem C26_same_failure_partial (hP : Sizes P) (H : Handlers P A) (hH : Tame H) (x y y' z : Conn P A) (hx : Start x)
    (hw : WithinPacket x.rcv.peer (unread x.rcv.inp)) (hy : HealthyRun H x y) (hz : HealthyRun H x z)
    (a : RxStep) (ha : Usable a) (hna : a ≠ .flushed) (r : Option Err) (h : rxStep H y a = some (r, y')) (hf : ¬ Healthy r y') :
    z.log <+: y'.log := by
  obtain ⟨n, v1, s1, hc1, hr1⟩ := healthy_run hP hH (start_rel hx hw) hy
  obtain ⟨m, v2, s2, hc2, hr2⟩ := healthy_run hP hH (start_rel hx hw) hz
  obtain ⟨r', y2, e1, e2⟩ := rel_step hP hH ha hr1
  rw [h] at e1
  simp only [Option.some.injEq, Prod.mk.injEq] at e1
  obtain ⟨rfl, rfl⟩ := e1
  rcases e2 with ⟨_, e2⟩ | ⟨e2, _⟩
  · cases e2 with
    | waits _ hh _ => exact absurd hh hf
    | done _ _ _ _ hh => exact absurd hh hf
    | fails e h1 _ _ =>
      rw [rel_log hr2]
      have hb := one_bad_log h1
      rcases Nat.le_total n m with hnm | hnm
      · rcases chain_split hc2 hc1 hnm with ⟨_, rfl, _⟩ | ⟨_, _, _, _, _, _, h4, _⟩
        · exact hb
        · rw [h1] at h4; simp at h4
      · rcases chain_split hc1 hc2 hnm with ⟨_, rfl, _⟩ | ⟨_, h3, _⟩
        · exact hb
        · exact h3.trans hb
  · exact absurd e2 hna

/-- C26. Two calls that fail for good, however the stream was cut, fail alike. -/
theorem C26_same_error_partial (hP : Sizes P) (H : Handlers P A) (hH : Tame H) (x y y' z z' : Conn P A) (hx : Start x)
    (hw : WithinPacket x.rcv.peer (unread x.rcv.inp)) (hy : HealthyRun H x y) (hz : HealthyRun H x z)
    (a b : RxStep) (ha : Usable a) (hb : Usable b) (hna : a ≠ .flushed) (hnb : b ≠ .flushed) (r q : Option Err)
    (h : rxStep H y a = some (r, y')) (h' : rxStep H z b = some (q, z')) (hf : ¬ Healthy r y') (hf' : ¬ Healthy q z') :
    r = q ∧ y'.log = z'.log := by
  obtain ⟨n, v1, s1, hc1, hr1⟩ := healthy_run hP hH (start_rel hx hw) hy
  obtain ⟨m, v2, s2, hc2, hr2⟩ := healthy_run hP hH (start_rel hx hw) hz
  have key : ∀ (w w' : Conn P A) (c : RxStep) (_ : Usable c) (_ : c ≠ .flushed) (t : Option Err) (v : View P A) (s : Bytes),
      Rel x.rcv.peerSeq v s w → rxStep H w c = some (t, w') → ¬ Healthy t w' →
      ∃ e, t = some e ∧ one H v s = .bad e w'.log := by
    intro w w' c hc hnc t v s hr hw hf
    obtain ⟨r', y2, e1, e2⟩ := rel_step hP hH hc hr
    rw [hw] at e1
    simp only [Option.some.injEq, Prod.mk.injEq] at e1
    obtain ⟨rfl, rfl⟩ := e1
    rcases e2 with ⟨_, e2⟩ | ⟨e2, _⟩
    · cases e2 with
      | waits _ hh _ => exact absurd hh hf
      | done _ _ _ _ hh => exact absurd hh hf
      | fails e h1 h2 _ => exact ⟨e, h2, h1⟩
    · exact absurd e2 hnc
  obtain ⟨e1, i1, k1⟩ := key _ _ _ ha hna _ _ _ hr1 h hf
  obtain ⟨e2, i2, k2⟩ := key _ _ _ hb hnb _ _ _ hr2 h' hf'
  have heq : v1 = v2 ∧ s1 = s2 := by
    rcases Nat.le_total n m with hnm | hnm
    · rcases chain_split hc2 hc1 hnm with ⟨_, h3, h4⟩ | ⟨_, _, _, _, _, _, h4, _⟩
      · exact ⟨h3, h4⟩
      · rw [k1] at h4; simp at h4
    · rcases chain_split hc1 hc2 hnm with ⟨_, h3, h4⟩ | ⟨_, _, _, _, _, _, h4, _⟩
      · exact ⟨h3.symm, h4.symm⟩
      · rw [k2] at h4; simp at h4
  obtain ⟨rfl, rfl⟩ := heq
  rw [k1] at k2
  simp only [Out.bad.injEq] at k2
  rw [i1, i2, k2.1]
  exact ⟨rfl, k2.2⟩

/-- C26. What one way of cutting the stream gets done, every other does: a call with memory and a
transport that delivers makes progress. -/
theorem C26_progress_partial (hP : Sizes P) (H : Handlers P A) (hH : Tame H) (x y y' z : Conn P A) (hx : Start x)
    (hw : WithinPacket x.rcv.peer (unread x.rcv.inp)) (hy : HealthyRun H x y) (hz : HealthyRun H x z)
    (hl : y.log.length < z.log.length) (a : RxStep) (ha : Plenty a) (r : Option Err) (h : rxStep H y a = some (r, y')) :
    y.log.length < y'.log.length := by
  obtain ⟨n, v1, s1, hc1, hr1⟩ := healthy_run hP hH (start_rel hx hw) hy
  obtain ⟨m, v2, s2, hc2, hr2⟩ := healthy_run hP hH (start_rel hx hw) hz
  rw [rel_log hr1, rel_log hr2] at hl
  have hone : ∃ r v s, one H v1 s1 = .done r v s := by
    rcases Nat.le_total n m with hnm | hnm
    · rcases chain_split hc2 hc1 hnm with ⟨_, rfl, _⟩ | ⟨_, _, _, r, v, s, h4, _⟩
      · omega
      · exact ⟨r, v, s, h4⟩
    · rcases chain_split hc1 hc2 hnm with ⟨_, rfl, _⟩ | ⟨_, _, h3, _⟩ <;> omega
  obtain ⟨r0, v0, s0, hone⟩ := hone
  obtain ⟨alloc, io, k, rfl, hal, hg⟩ := ha
  obtain ⟨r', y2, e1, e2⟩ := rel_receive hP hH hal hr1 io
  have h : doReceive H alloc { y with io := io } = some (r, y') := h
  rw [h] at e1
  simp only [Option.some.injEq, Prod.mk.injEq] at e1
  obtain ⟨rfl, rfl⟩ := e1
  cases e2 with
  | waits _ _ hm => rw [hm ⟨k, hg⟩] at hone; simp at hone
  | done v' rest h1 hr _ =>
    have := one_log h1
    rw [rel_log hr1, rel_log hr]
    exact this.2
  | fails e h1 _ _ => rw [h1] at hone; simp at hone

/-- C25. What a sender put on the wire, a receiver in step with it hands over: in every history of
calls the messages handed over are a beginning of those sent, in order, each once and unchanged; and
after any history, with memory and a transport that delivers, as many calls as there are messages
hand over all of them and leave nothing behind. Under every cipher mode, and across new keys. -/
theorem C25_delivered (hP : Sizes P) (L : Laws P) (H : Handlers P A) (hH : Tame H) (x : Conn P A) (hx : Start x)
    (hw : WithinPacket x.rcv.peer (unread x.rcv.inp)) (s s' : Crypto P) (items : List Item) (w : Bytes)
    (hs : Stream P s items w s') (hin : InStep L s x.rcv.peer x.rcv.peerCipher x.rcv.peerSeq)
    (hnet : unread x.rcv.inp ++ x.net = w) (hr : ∀ p ∈ payloads items, Receivable p) (ht : Takes H x.app items)
    (as : List RxStep) (ha : ∀ a ∈ as, Usable a) :
    ∃ rs y, rxRun H x as = some (rs, y) ∧ messages y.log <+: payloads items ∧
      ∀ bs, (∀ b ∈ bs, Plenty b) → (payloads items).length ≤ bs.length →
        ∃ qs z, rxRun H y bs = some (qs, z) ∧ messages z.log = payloads items ∧ unread z.rcv.inp = [] ∧ z.net = [] := by
  have hrel := start_rel hx hw
  rw [hnet] at hrel
  have h0 : messages (view x).log = [] := by rw [show (view x).log = [] from hx.log]; rfl
  obtain ⟨rs, y, v', l', s1, h1, h2, h3, h4⟩ := expects_run hP L hH as ha hrel ⟨ht, hr, s, s', hin, stream_front hs⟩
  rw [h0, List.nil_append] at h2
  refine ⟨rs, y, h1, by rw [rel_log h3, h2]; exact List.prefix_append _ _, ?_⟩
  intro bs hb hl
  obtain ⟨qs, z, v2, s2, g1, g2, g3, g4⟩ := expects_drain hP L hH bs hb h3 h4 (by rw [h2] at hl; simp at hl; omega)
  refine ⟨qs, z, g1, by rw [rel_log g3, ← g2, ← h2], ?_⟩
  obtain ⟨_, _, sc, sc', _, hf⟩ := g4
  cases hf
  cases g3 with
  | init b cs io net hi hs _ => exact List.append_eq_nil_iff.1 hs.symm
  | finish b cs io net first c1 hi hf hd hc hs hww =>
    have hb : v2.suite.blockSz = 8 ∨ v2.suite.blockSz = 16 := Proofs.Packet.suite_block hi.suite
    have := (List.append_eq_nil_iff.1 hs.symm).1
    subst this
    simp only [List.length_nil] at hf
    omega

/-- C25, sender and receiver of this code back to back: everything queued is flushed; then whatever
the transport does to the bytes in the way of cutting and delaying them, the receiver hands over
exactly the payloads the sender accepted. -/
theorem C25_end_to_end (hP : Sizes P) (L : Laws P) (a : Ssh P) (hra : Ready a) (hea : unread a.out = [])
    (xs : List TxStep) (hxs : ProperRun a xs) (rs : List (Option Err)) (sent : Bytes) (a' : Ssh P)
    (htx : txRun a xs = some (rs, sent, a')) (hfl : unread a'.out = [])
    (H : Handlers P A) (hH : Tame H) (x : Conn P A) (hx : Start x) (hb : unread x.rcv.inp = []) (hnet : x.net = sent)
    (hin : InStep L (crypto a) x.rcv.peer x.rcv.peerCipher x.rcv.peerSeq)
    (hr : ∀ p ∈ payloads (saidAll xs rs), Receivable p) (ht : Takes H x.app (saidAll xs rs))
    (as : List RxStep) (ha : ∀ a ∈ as, Usable a) :
    ∃ ss y, rxRun H x as = some (ss, y) ∧ messages y.log <+: payloads (saidAll xs rs) ∧
      ∀ bs, (∀ b ∈ bs, Plenty b) → (payloads (saidAll xs rs)).length ≤ bs.length →
        ∃ qs z, rxRun H y bs = some (qs, z) ∧ messages z.log = payloads (saidAll xs rs) ∧
          unread z.rcv.inp = [] ∧ z.net = [] := by
  obtain ⟨rs', sent', s', h1, _, h2⟩ := Props.Packet.C23_stream_partial hP a hra hea xs hxs
  rw [htx] at h1
  simp only [Option.some.injEq, Prod.mk.injEq] at h1
  obtain ⟨rfl, rfl, rfl⟩ := h1
  rw [hfl, List.append_nil] at h2
  exact C25_delivered hP L H hH x hx (.inl (by rw [hb]; simp)) _ _ _ _ h2 hin (by rw [hb, hnet]; rfl) hr ht as ha

/-! ## Concrete cases -/

section Demo
open Props.Packet

/-- The toy ciphers decrypt what they encrypted. -/
def toyLaws : Laws toy where
  sync := fun _ e d => e = d
  fresh := by
    intro id iv key e d h1 h2
    have h1 : some 0 = some e := h1
    have h2 : some 0 = some d := h2
    rw [h1] at h2; injection h2
  inverse := by
    intro id e d x y e' h h16 he
    subst h
    have he : some (mask e x, e + x.length) = some (y, e') := he
    simp only [Option.some.injEq, Prod.mk.injEq] at he
    obtain ⟨rfl, rfl⟩ := he
    exact ⟨e + (mask e x).length, by show some (mask e (mask e x), _) = _; rw [mask_mask], by rw [mask_length]⟩
  parts := by
    intro id d y1 y2 x d' h16 h
    have h : some (mask d (y1 ++ y2), d + (y1 ++ y2).length) = some (x, d') := h
    simp only [Option.some.injEq, Prod.mk.injEq, mask_append, List.length_append] at h
    obtain ⟨rfl, rfl⟩ := h
    refine ⟨mask d y1, mask (d + y1.length) y2, d + y1.length, rfl, ?_, rfl⟩
    show some (mask (d + y1.length) y2, d + y1.length + y2.length) = _
    rw [Nat.add_assoc]
  gcm := by
    intro id e d iv x aad n ct tag h hs
    have hs : some (mask 0 x, List.replicate n (checksum (iv ++ aad ++ mask 0 x))) = some (ct, tag) := hs
    simp only [Option.some.injEq, Prod.mk.injEq] at hs
    obtain ⟨rfl, rfl⟩ := hs
    show (if List.replicate n _ = List.replicate (List.replicate n _).length _ then some (mask 0 (mask 0 x)) else none) = _
    rw [List.length_replicate, if_pos rfl, mask_mask]

/-- An application that counts messages and takes new keys at `SSH_MSG_NEWKEYS`. -/
def demoApp : Handlers toy Nat where
  allowed := fun _ m => m ≠ 200
  run := fun a m p => (none, p.length, a + 1,
    if m = 21 then some (setAlgoIds (.gcm .k128) true .none [0, 0, 0, 1, 0, 0, 0, 0, 0, 0, 255, 255] [6] [], some 0) else none)
  highwater := fun a => (none, a)

/-- The other end of `ctrConn`. -/
def demoRcv : Rcv toy :=
  ⟨⟨List.replicate 16 0, 16, 0, 0, false⟩, ctrConn.suite, some (7 : Nat), 4294967295, 0, .init⟩

/-- The same with `w` on its way. -/
def demoRx (w : Bytes) : Conn toy Nat :=
  { rcv := demoRcv, app := 0, io := [], net := w, log := [] }

theorem demoApp_tame : Tame demoApp where
  idx := fun _ _ p => Nat.le_refl p.length
  keys := by
    intro a m p s c h
    simp only [demoApp] at h
    split at h
    · simp only [Option.some.injEq, Prod.mk.injEq] at h
      obtain ⟨rfl, rfl⟩ := h
      exact ⟨⟨by decide, by decide, by decide, by decide⟩, 0, rfl, rfl⟩
    · simp at h
  held := by intro a m p h; simp [demoApp] at h

theorem demoRx_start (w : Bytes) : Start (demoRx w) :=
  have h1 : Ok demoRcv.inp := ⟨by decide, by decide, by decide, by decide, by decide⟩
  have h2 : SuiteOk demoRcv.peer := ⟨by decide, by decide, by decide, by decide⟩
  have h3 : demoRcv.peerSeq < 2^32 := by decide
  ⟨h1, h2, by intro h; simp [demoRx, demoRcv, ctrConn, setAlgoIds] at h, rfl, rfl, h3⟩

theorem demoRx_inStep (w : Bytes) : InStep toyLaws (crypto ctrConn) (demoRx w).rcv.peer (demoRx w).rcv.peerCipher
    (demoRx w).rcv.peerSeq :=
  ⟨rfl, rfl, fun _ => ⟨7, 7, rfl, rfl, rfl⟩⟩

theorem demo_takes : Takes demoApp 0 [.packet [94, 1, 2], .packet [21],
    .keys (setAlgoIds (.gcm .k128) true .none [0, 0, 0, 1, 0, 0, 0, 0, 0, 0, 255, 255] [6] []), .packet [94, 9]] :=
  .packet _ _ _ _ rfl (by decide) rfl (.rekey _ _ _ _ (some (0 : Nat)) _ rfl (by decide) rfl (.packet _ _ _ _ rfl (by decide) rfl (.nil _)))

/-- A call with plenty of everything. -/
def full : RxStep := .receive zeros (List.replicate 2 (.got 40000))

theorem full_plenty : Plenty full := ⟨zeros, _, 0, rfl, zeros_allocator, by simp [zeros], [], rfl⟩

/-- A call that gets one byte and a call that finds nothing. -/
def byteByByte : List RxStep := (List.replicate 200 [RxStep.receive zeros [.got 1, .wantRead], .receive zeros []]).flatten

/-- The hypotheses of `C25_delivered`, `C27_checked` and the like can be met: ciphers with the laws,
an application that rekeys, a connection, a stream, calls. -/
example : Sizes toy ∧ Tame demoApp ∧ (∀ w, Start (demoRx w)) ∧ (∀ w, unread (demoRx w).rcv.inp = []) ∧
    WithinPacket (demoRx []).rcv.peer (unread (demoRx []).rcv.inp) ∧
    (∀ w, InStep toyLaws (crypto ctrConn) (demoRx w).rcv.peer (demoRx w).rcv.peerCipher (demoRx w).rcv.peerSeq) ∧
    Receivable [94, 1, 2] ∧ Takes demoApp 0 [.packet [94, 1, 2]] ∧ Plenty full ∧ (∀ a ∈ byteByByte, Usable a) ∧
    ProperRun ctrConn shortRun ∧
    (txRun ctrConn shortRun).map (fun r => (r.1, unread r.2.2.out)) = some ([none, some .wantWrite, none], []) ∧
    saidAll shortRun [none, some .wantWrite, none] = [.packet [94, 1, 2]] := by
  refine ⟨toy_sizes, demoApp_tame, demoRx_start, fun _ => rfl, .inl (by decide), demoRx_inStep, ⟨by simp, by decide⟩,
    .packet _ _ _ _ rfl (by decide) rfl (.nil _), full_plenty, ?_, ?_⟩
  · intro a h
    simp only [byteByByte, List.mem_flatten, List.mem_replicate] at h
    obtain ⟨l, ⟨_, rfl⟩, h⟩ := h
    simp only [List.mem_cons, List.not_mem_nil, or_false] at h
    rcases h with rfl | rfl <;> exact zeros_allocator
  · exact ⟨shortRun_proper, by decide +kernel, rfl⟩

/-- The stream of `demoRun` (two packets under AES-CTR, new keys, one under AES-GCM, sequence
numbers 2^32 - 1, 0, 1), received in three calls, and received byte by byte. -/
example : ((txRun ctrConn demoRun).bind fun r => (rxRun demoApp (demoRx r.2.1) [full, full, full]).map fun q =>
      (q.1, messages q.2.log, q.2.rcv.peerSeq, q.2.rcv.peer.iv))
    = some ([none, none, none], [[94, 1, 2], [21], [94, 9]], 2, [0, 0, 0, 1, 0, 0, 0, 0, 0, 1, 0, 0]) := by
  decide +kernel

example : ((txRun ctrConn demoRun).bind fun r => (rxRun demoApp (demoRx r.2.1) byteByByte).map fun q =>
      (messages q.2.log, q.2.rcv.peerSeq, q.2.rcv.phase, q.2.net))
    = some ([[94, 1, 2], [21], [94, 9]], 2, .init, []) := by
  decide +kernel

/-- Two different histories on one stream: the first packet in one call; and 20 bytes, then nothing,
then the rest of the first packet. Both are healthy, and the first packet has been handed over. -/
example : ((txRun ctrConn demoRun).bind fun r =>
      (rxRun demoApp (demoRx r.2.1) [full]).map fun q => (q.2.rcv.phase, messages q.2.log, finishedIn q.2.log, q.2.net.length))
    = some (.init, [[94, 1, 2]], 1, 84) ∧
    ((txRun ctrConn demoRun).bind fun r =>
      (rxRun demoApp (demoRx r.2.1) [.receive zeros [.got 20, .got 4, .wantRead]]).map fun q =>
        (q.1, q.2.rcv.phase, q.2.log, q.2.net.length))
    = some ([some .wantRead], .packetFinish, [], 112) ∧
    ((txRun ctrConn demoRun).bind fun r =>
      (rxRun demoApp (demoRx r.2.1) [.receive zeros [.got 20, .got 4, .wantRead], .flushed, full]).map fun q =>
        (q.2.rcv.phase, messages q.2.log, q.2.net.length))
    = some (.init, [[94, 1, 2]], 84) := by
  decide +kernel

/-- What the sender of `demoRun` sent. -/
def demoSent : Bytes := ((txRun ctrConn demoRun).map fun r => r.2.1).getD []

/-- The hypotheses of the `C26` theorems can be met: two histories of healthy calls on one stream,
one ahead of the other. -/
example : ∃ y z, HealthyRun demoApp (demoRx demoSent) y ∧ HealthyRun demoApp (demoRx demoSent) z ∧
    y.log.length < z.log.length := by
  have e1 : (rxStep demoApp (demoRx demoSent) full).map (fun q => (q.2.rcv.phase, q.2.log.length)) = some (.init, 3) := by
    decide +kernel
  have e2 : (rxStep demoApp (demoRx demoSent) (.receive zeros [.got 20, .got 4, .wantRead])).map
      (fun q => (q.1, q.2.rcv.phase, q.2.log.length)) = some (some .wantRead, .packetFinish, 0) := by
    decide +kernel
  cases h1 : rxStep demoApp (demoRx demoSent) full with
  | none => rw [h1] at e1; simp at e1
  | some q1 =>
    cases h2 : rxStep demoApp (demoRx demoSent) (.receive zeros [.got 20, .got 4, .wantRead]) with
    | none => rw [h2] at e2; simp at e2
    | some q2 =>
      rw [h1] at e1
      rw [h2] at e2
      simp only [Option.map_some, Option.some.injEq, Prod.mk.injEq] at e1 e2
      exact ⟨q2.2, q1.2, .step .start (.receive zeros [.got 20, .got 4, .wantRead]) zeros_allocator _ _ h2 (fun _ => .inr ⟨e2.2.1, .wantRead, e2.1, .inl rfl⟩),
        .step .start full zeros_allocator _ _ h1 (fun _ => .inl e1.1), by rw [e2.2.2, e1.2]; decide⟩

/-- An application that puts the first message off (`WS_AUTH_PENDING`). -/
def pendingApp : Handlers toy Nat where
  allowed := fun _ _ => true
  run := fun a _ p => (if a = 0 then some .authPending else none, if a = 0 then 0 else p.length, a + 1, none)
  highwater := fun a => (none, a)

/-- C28 is false of the code when a packet is put off and output is flushed before it is tried again:
`wolfSSH_accept` drops the packet without counting it, so the next packet, whose MAC the peer
computed over its proper number, is refused. -/
theorem C28_dropped_witness : ∃ (H : Handlers toy Nat) (run : List TxStep),
    Tame H ∧ ((txRun ctrConn run).bind fun t => (rxRun H (demoRx t.2.1) [full, .flushed, full]).map fun q =>
        (payloads (saidAll run t.1), t.2.2.seq, q.1, q.2.rcv.peerSeq, q.2.net)) =
      some ([[50, 1], [94, 2]], 1, [some .authPending, none, some .verifyMac], 4294967295, []) := by
  refine ⟨pendingApp, [.queue zeros zeros 10 [50, 1], .queue zeros zeros 10 [94, 2],
    .flush (List.replicate 16 0) none [.sent 1000]],
    ⟨?_, by intro a m p s c h; simp [pendingApp] at h, by intro a m p h; rfl⟩, by decide +kernel⟩
  intro a m p; simp only [pendingApp]; split <;> simp

/-- The receiving side of a server after the version exchange, no keys yet, with `net` on its way
and `io` the transport's answers while the version line is read. -/
def afterVersion (net : Bytes) (io : List IoRecv) : Option (Conn toy Nat) :=
  (doProtoId zeros true (List.replicate 16 0)
    ⟨false, 0, none, false, ⟨List.replicate 16 0, 16, 0, 0, false⟩, io, net⟩).bind fun r =>
  if r.1 = none then
    some { rcv := ⟨r.2.inp, setAlgoIds .none false .none [] [] [], none, 0, 0, .init⟩, app := 0, io := [], net := r.2.net, log := [] }
  else none

/-- C26 is false of the code right after the version exchange: a read that brings the version line
together with two packets loses the second, which is processed when the reads end where the line
does. -/
theorem C26_read_ahead_witness : ∃ net : Bytes,
    ((afterVersion net [.got 255]).bind fun x => (rxRun demoApp x [full, full]).map fun q =>
      (messages q.2.log, unread q.2.rcv.inp, q.2.net)) = some ([[20, 1]], [], []) ∧
    ((afterVersion net [.got 11]).bind fun x => (rxRun demoApp x [full, full]).map fun q =>
      (messages q.2.log, unread q.2.rcv.inp, q.2.net)) = some ([[20, 1], [30, 2]], [], []) :=
  ⟨[83, 83, 72, 45, 50, 46, 48, 45, 120, 13, 10] ++ framed [20, 1] (List.replicate 9 0) ++ framed [30, 2] (List.replicate 9 0),
    by decide +kernel, by decide +kernel⟩

end Demo

end Props.Receive
