import Verif.Proofs.PacketTx
import Verif.Props.Toy
/-!
# C23, C24, C28, C29: the sending packet layer
-/

namespace Props.Packet
open Wolf Wolf.Buffer Wolf.Packet Spec.Packet Spec.Buffer Proofs.Packet

/-- C24: every sender, whatever is queued already and whatever the payload, appends exactly one
packet to the output, or fails for lack of memory (nothing changed) or of a working primitive. The
packet has 4 to 255 bytes of padding, the length field counts everything behind it, what is
encrypted is a multiple of the block size and at least 16 bytes; the wire bytes are that packet
sealed with the current keys under the current sequence number. The sender tells how long the payload
will be before writing it; it may be short of the truth by a block less three bytes. -/
theorem C24_emitted {P : Prims} (hs : Sizes P) (alloc rng : Nat → Option Bytes) (ha : Allocator alloc)
    (hr : Generator rng) (s : Ssh P) (h : Ready s) (est : Nat) (payload : Bytes)
    (hle : payload.length + 3 ≤ est + s.suite.blockSz) (hsz : est + (unread s.out).length + 200 < 2^32) :
    ∃ r s', queue alloc rng s est payload = some (r, s') ∧
      ((r = none ∧ ∃ pad wire, unread s'.out = unread s.out ++ wire ∧
          4 ≤ pad.length ∧ pad.length ≤ 255 ∧
          s.suite.blockSz ∣ (if s.suite.aead then 0 else 4) + 1 + payload.length + pad.length ∧
          16 ≤ (if s.suite.aead then 0 else 4) + 1 + payload.length + pad.length ∧
          Sealed P s.suite s.cipher s.seq
            (Spec.Wire.encUint32 (1 + payload.length + pad.length) ++
              ([UInt8.ofNat pad.length] ++ (payload ++ pad))) wire s'.cipher ∧
          wire.length = 4 + (1 + payload.length + pad.length) + s.suite.macSz) ∨
       (r = some .memory ∧ s' = s ∧ ∃ n, alloc n = none) ∨ (r ≠ none ∧ Faulty P rng)) := by
  obtain ⟨r, s', e, hO⟩ := queue_spec hs alloc rng ha hr s h.out h.suite h.keyed est payload hle hsz
  refine ⟨r, s', e, ?_⟩
  rcases hO with ⟨h1, h2, h3, ⟨rfl, pad, wire, ⟨hp1, hp2, hp3⟩, hse, hn, hsame, hu, hseq, hl, -⟩ | ⟨e, rfl, hF, -⟩⟩ | hm
  · refine .inl ⟨rfl, pad, wire, hu, hp1, hp2, hp3, ?_, hse, by omega⟩
    obtain ⟨k, hk⟩ := hp3
    have h16 := suite_aead_block h.suite
    rcases suite_block h.suite with hb | hb <;> rw [hb] at hk <;> split at hk <;> split <;> first | omega | (rename_i ha _; rw [h16 ha] at hb; omega) | contradiction
  · exact .inr (.inr ⟨by simp, hF⟩)
  · exact .inr (.inl hm)

/-- C23, for a transport that takes no more than offered and fails otherwise than with the
unspecific error, and working primitives: over any run of queueing packets and lines, changing keys
and flushing, what the transport took so far followed by what is still queued is the stream of
everything successfully said, in order and once. What is missing: a failing primitive leaves bytes
behind that are not a packet, see `C23_failed_packet_leaks_witness`. -/
theorem C23_stream_partial {P : Prims} (hs : Sizes P) (s : Ssh P) (h : Ready s) (he : unread s.out = [])
    (xs : List TxStep) (hx : ProperRun s xs) :
    ∃ rs sent s', txRun s xs = some (rs, sent, s') ∧ Ready s' ∧
      Stream P (crypto s) (saidAll xs rs) (sent ++ unread s'.out) (crypto s') := by
  obtain ⟨rs, d, s', e, hr, hst⟩ := txRun_spec hs xs s h hx (sent := []) (.nil _) (by simpa using he)
  exact ⟨rs, d, s', e, hr, by simpa using hst⟩

/-- C23: a flush that reports success has delivered everything queued; one that does not keeps the
rest, so that delivered and kept bytes are what was queued. -/
theorem C23_flush {P : Prims} (static : Bytes) (hst : static.length = 16) (hwRet : Option Err)
    (io : List IoSend) (s : Ssh P) (h : Ready s) (hh : Honest (unread s.out).length io) :
    ∃ r sent f s', sendPacket static hwRet io s = some (r, sent, f, s') ∧ Ready s' ∧
      sent ++ unread s'.out = unread s.out ∧ (r = none → sent = unread s.out) := by
  obtain ⟨r, d, f, s', e, h1, h2, h3, h4⟩ := sendPacket_spec static hst hwRet io s h.out hh
  unfold crypto at h3
  injection h3 with e1 e2 e3
  refine ⟨r, d, f, s', e, ⟨h1, by rw [e1]; exact h.suite, by unfold Keyed; rw [e1, e2]; exact h.keyed,
    by rw [e3]; exact h.seq⟩, h2, ?_⟩
  intro hr
  rw [← h2, h4 hr, List.append_nil]

theorem packets_append (a b : List Item) : packets (a ++ b) = packets a + packets b := by
  induction a with
  | nil => simp [packets]
  | cons x a ih => cases x <;> simp [packets, ih] <;> omega

theorem stream_seq {P : Prims} {a b : Crypto P} {items : List Item} {w : Bytes} (h : Stream P a items w b)
    (ha : a.seq < 2^32) : b.seq = (a.seq + packets items) % 2^32 := by
  induction h with
  | nil => simp [packets]; omega
  | packet h p pad wire c' iv' hp hs hn ih => simp only [ih, packets_append, packets]; omega
  | raw h line ih => simp only [ih, packets_append, packets]; rfl
  | keys h n c hc ih => simp only [ih, packets_append, packets]; rfl

/-- C28, sending: in the stream of everything said, across changes of keys, the packet after `k`
others is sealed under the sequence number `k` more than the first, modulo 2^32. -/
theorem C28_sent {P : Prims} {a b : Crypto P} {items : List Item} {w : Bytes} (h : Stream P a items w b)
    (ha : a.seq < 2^32) {before after : List Item} {payload : Bytes}
    (hi : items = before ++ .packet payload :: after) :
    ∃ w1 suite c pad wire c', (w1 ++ wire) <+: w ∧
      Sealed P suite c ((a.seq + packets before) % 2^32) (framed payload pad) wire c' := by
  obtain ⟨w1, s1, pad, wire, c', iv', h1, h2, h3, h4, h5⟩ := stream_split h hi
  rw [stream_seq h1 ha] at h3
  exact ⟨w1, _, _, pad, wire, c', h5, h3⟩

theorem stream_nonce {P : Prims} {a b : Crypto P} {items : List Item} {w : Bytes} (h : Stream P a items w b)
    (hk : SameKeys items) {k : KeyLen} (hg : a.suite.encId = .gcm k) (hl : a.suite.iv.length = 12) :
    b.suite.encId = .gcm k ∧ NonceAt a.suite.iv (packets items) b.suite.iv := by
  induction h with
  | nil =>
    refine ⟨hg, hl, rfl, ?_⟩
    have := Wolf.Wire.beNat_lt (List.drop 4 a.suite.iv)
    rw [List.length_drop, hl] at this
    simp only [packets]
    omega
  | packet h p pad wire c' iv' hp hs hn ih =>
    obtain ⟨h1, h2, h3, h4⟩ := ih (fun n hn => hk n (by simp [hn]))
    simp only [NextNonce, h1] at hn
    refine ⟨h1, hn.1.trans h2, hn.2.1.trans h3, ?_⟩
    simp only [packets_append, packets]
    rw [hn.2.2, h4]; omega
  | raw h line ih =>
    obtain ⟨h1, h2⟩ := ih (fun n hn => hk n (by simp [hn]))
    exact ⟨h1, by simpa [packets_append, packets] using h2⟩
  | keys h n c hc ih => exact absurd (by simp) (hk n)

/-- C29, sending: under one AES-GCM key the packet after `k` others is sealed with the nonce `k`
after the first. -/
theorem C29_sent {P : Prims} {a b : Crypto P} {items : List Item} {w : Bytes} (h : Stream P a items w b)
    (hk : SameKeys items) {kl : KeyLen} (hg : a.suite.encId = .gcm kl) (hl : a.suite.iv.length = 12)
    {before after : List Item} {payload : Bytes} (hi : items = before ++ .packet payload :: after) :
    ∃ w1 pad nonce st ct tag, NonceAt a.suite.iv (packets before) nonce ∧
      P.gcmSeal (.gcm kl) st nonce ((framed payload pad).drop 4) ((framed payload pad).take 4) 16 = some (ct, tag) ∧
      (w1 ++ ((framed payload pad).take 4 ++ (ct ++ tag))) <+: w := by
  obtain ⟨w1, s1, pad, wire, c', iv', h1, h2, h3, h4, h5⟩ := stream_split h hi
  obtain ⟨g1, g2⟩ := stream_nonce h1 (fun n hn => hk n (by simp [hi, hn])) hg hl
  simp only [Sealed, g1] at h3
  obtain ⟨st, ct, tag, -, hse, hw, -⟩ := h3
  exact ⟨w1, pad, s1.suite.iv, st, ct, tag, g2, hse, hw ▸ h5⟩

/-- C29: the nonces of different packets differ, up to 2^64 packets. -/
theorem C29_distinct (iv x y : Bytes) (i j : Nat) (hx : NonceAt iv i x) (hy : NonceAt iv j y) (hij : i < j)
    (hlt : j < i + 2^64) : x ≠ y := by
  rintro rfl
  have h1 := hx.2.2
  have h2 := hy.2.2
  omega

/-- C29: there is only one nonce for a packet number, so both ends use the same. -/
theorem C29_same (iv x y : Bytes) (k : Nat) (hx : NonceAt iv k x) (hy : NonceAt iv k y) : x = y := by
  obtain ⟨h1, h2, h3⟩ := hx
  obtain ⟨g1, g2, g3⟩ := hy
  rw [← List.take_append_drop 4 x, ← List.take_append_drop 4 y, h2, g2,
    Wolf.Wire.beNat_inj (x.drop 4) (y.drop 4) (by simp [h1, g1]) (by rw [h3, g3])]

/-! ## Concrete cases -/

/-- Zeroed memory, and a heap that always delivers. -/
def zeros (n : Nat) : Option Bytes := some (List.replicate n 0)

/-- A connection under AES-CTR and HMAC-SHA-256 with nothing queued, sequence number 2^32-1. -/
def ctrConn : Ssh toy :=
  { out := ⟨List.replicate 16 0, 16, 0, 0, false⟩, startIdx := 0
    suite := setAlgoIds (.ctr .k128) false .sha256 [1, 2, 3] [4] [5], cipher := some 7, seq := 4294967295
    hw := ⟨0, 0, false, false, 0, 0, 0, 0⟩ }

/-- The same under AES-GCM, with a nonce about to carry. -/
def gcmConn : Ssh toy :=
  { ctrConn with suite := setAlgoIds (.gcm .k256) true .none [0, 0, 0, 1, 0, 0, 0, 0, 0, 0, 255, 255] [4] [] }

theorem ctrConn_ready : Ready ctrConn :=
  ⟨⟨by decide, by decide, by decide, by decide, by decide⟩, ⟨by decide, by decide, by decide, by decide⟩,
    .inr (by simp [ctrConn]), by decide⟩

theorem gcmConn_ready : Ready gcmConn :=
  ⟨⟨by decide, by decide, by decide, by decide, by decide⟩, ⟨by decide, by decide, by decide, by decide⟩,
    .inr (by simp [gcmConn, ctrConn]), by decide⟩

theorem zeros_allocator : Allocator zeros := by
  intro n m h; simp [zeros] at h; simp [← h]

theorem toy_reliable : ¬ Faulty toy zeros := by
  rintro (⟨n, h⟩ | ⟨m, k, x, h⟩ | ⟨id, st, x, h⟩ | ⟨id, st, iv, x, aad, n, h⟩) <;> simp [zeros, toy] at h

/-- A run: a packet, a partial write, a second packet, a stall, new keys, a third packet, the rest
in two writes. -/
def demoRun : List TxStep :=
  [.queue zeros zeros 10 [94, 1, 2], .flush (List.replicate 16 0) none [.sent 3, .wantWrite],
   .queue zeros zeros 30 [21], .flush (List.replicate 16 0) none [.wantWrite],
   .keys (setAlgoIds (.gcm .k128) true .none [0, 0, 0, 1, 0, 0, 0, 0, 0, 0, 255, 255] [6] []),
   .queue zeros zeros 10 [94, 9], .flush (List.replicate 16 0) none [.sent 60, .sent 69]]

/-- The hypotheses of the theorems hold of a connection and of the start of such a run, and all of
the run is as `C23_stream_partial` says: three packets of 48, 48 and 36 bytes. -/
example : Sizes toy ∧ Ready ctrConn ∧ Ready gcmConn ∧ unread ctrConn.out = [] ∧
    Proper toy 0 (.queue zeros zeros 10 [94, 1, 2]) ∧
    Proper toy 48 (.flush (List.replicate 16 0) none [.sent 3, .wantWrite]) ∧
    ((txRun ctrConn demoRun).map fun r => (r.1, r.2.1.length, unread r.2.2.out, r.2.2.seq, r.2.2.suite.iv))
      = some ([none, some .wantWrite, none, some .wantWrite, none, none, none], 132, [], 2, [0, 0, 0, 1, 0, 0, 0, 0, 0, 1, 0, 0]) :=
  ⟨toy_sizes, ctrConn_ready, gcmConn_ready, by decide,
    ⟨zeros_allocator, zeros_allocator, toy_reliable, by decide, by decide⟩,
    ⟨by decide, by simp [Honest]⟩, by decide +kernel⟩

/-- A packet, three bytes written, a stall, the rest written. -/
def shortRun : List TxStep :=
  [.queue zeros zeros 10 [94, 1, 2], .flush (List.replicate 16 0) none [.sent 3, .wantWrite],
   .flush (List.replicate 16 0) none [.sent 45]]

/-- A whole run meets `ProperRun`. -/
theorem shortRun_proper : ProperRun ctrConn shortRun := by
  refine ⟨⟨zeros_allocator, zeros_allocator, toy_reliable, by decide, by decide⟩, ?_⟩
  intro r d s1 h1
  have e1 : (txStep ctrConn (.queue zeros zeros 10 [94, 1, 2])).map (fun r => (unread r.2.2.out).length) = some 48 := by
    decide +kernel
  have e2 : (txStep ctrConn (.queue zeros zeros 10 [94, 1, 2])).bind (fun r =>
      (txStep r.2.2 (.flush (List.replicate 16 0) none [.sent 3, .wantWrite])).map
        (fun r => (unread r.2.2.out).length)) = some 45 := by
    decide +kernel
  rw [h1] at e1 e2
  simp only [Option.map_some, Option.some.injEq, Option.bind_some] at e1 e2
  refine ⟨⟨by simp, by rw [e1]; simp [Honest]⟩, ?_⟩
  intro r d s2 h2
  rw [h2] at e2
  simp only [Option.map_some, Option.some.injEq] at e2
  exact ⟨⟨by simp, by rw [e2]; simp [Honest]⟩, fun _ _ _ _ => trivial⟩

/-- C23 is false of the code when the random generator fails: the sender reports the failure, yet
the unencrypted payload stays queued and goes out with the next flush. -/
theorem C23_failed_packet_leaks_witness :
    ∃ (s : Ssh toy) (payload : Bytes) (s' : Ssh toy) (sent : Bytes), Ready s ∧ s.suite.encId = .ctr .k128 ∧
      txRun s [.queue zeros (fun _ => none) 20 payload, .flush (List.replicate 16 0) none [.sent 5, .sent 8]]
        = some ([some .cryptoFailed, none], sent, s') ∧ sent.drop 5 = payload ∧ payload.length = 8 :=
  ⟨ctrConn, [94, 1, 2, 3, 4, 5, 6, 7], _, _, ctrConn_ready, rfl, rfl, by decide +kernel, rfl⟩

end Props.Packet
