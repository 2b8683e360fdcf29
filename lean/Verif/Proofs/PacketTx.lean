import Verif.Proofs.Packet
/-!
# Runs of the sending packet layer
-/

namespace Proofs.Packet
open Wolf Wolf.Buffer Wolf.Packet Spec.Packet Spec.Buffer

theorem unread_advance (b : Buf) (hb : Ok b) (n : Nat) (hn : n ≤ b.length - b.idx) :
    Ok { b with idx := add32 b.idx n } ∧
      (unread b).take n ++ unread { b with idx := add32 b.idx n } = unread b ∧
      (unread { b with idx := add32 b.idx n }).length = b.length - b.idx - n := by
  have hl := Props.Buffer.unread_length hb
  have h := Props.Buffer.C38_consume b hb n (by omega)
  unfold consume at h
  refine ⟨h.1, ?_, ?_⟩
  · rw [h.2, List.take_append_drop]
  · rw [h.2, List.length_drop, hl]

/-- The send loop: what the transport took and what is left is what was queued. -/
theorem sendLoop_spec (io : List IoSend) (b : Buf) (hb : Ok b) (hh : Honest (unread b).length io) :
    ∃ r d b', sendLoop io b = some (r, d, b') ∧ Ok b' ∧ d ++ unread b' = unread b ∧
      (r = none → unread b' = [] ∧ b'.idx = b'.length) := by
  have hl := Props.Buffer.unread_length hb
  have hfit : ¬ b.length > b.bufferSz := by have := hb.fits; omega
  induction io generalizing b with
  | nil =>
    unfold sendLoop offer
    split
    · rename_i hgt
      rw [Props.Buffer.read_unread hb]
      exact ⟨_, _, _, rfl, hb, rfl, by simp⟩
    · have := hb.cursor
      exact ⟨_, _, _, rfl, hb, rfl, fun _ => ⟨List.eq_nil_of_length_eq_zero (by omega), by omega⟩⟩
  | cons a io ih =>
    unfold sendLoop offer
    split
    · rename_i hgt
      rw [Props.Buffer.read_unread hb]
      simp only
      cases a with
      | wantWrite => exact ⟨_, _, _, rfl, hb, rfl, by simp⟩
      | connRst => exact ⟨_, _, _, rfl, hb, rfl, by simp⟩
      | connClose => exact ⟨_, _, _, rfl, hb, rfl, by simp⟩
      | other => exact ⟨_, _, _, rfl, hb, rfl, by simp⟩
      | general => simp only [Honest] at hh; omega
      | sent n =>
        simp only [Honest] at hh
        have hno : ¬ n > b.length := by omega
        simp only [if_neg hno]
        obtain ⟨h1, h2, h3⟩ := unread_advance b hb n (by omega)
        obtain ⟨r, d, b', e, ho, hd, hn⟩ := ih _ h1 (by rw [h3, ← hl]; exact hh.2)
          (Props.Buffer.unread_length h1) hfit
        simp only [e, Option.map_some]
        exact ⟨_, _, _, rfl, ho, by rw [List.append_assoc, hd, h2], hn⟩
    · have := hb.cursor
      exact ⟨_, _, _, rfl, hb, rfl, fun _ => ⟨List.eq_nil_of_length_eq_zero (by omega), by omega⟩⟩

theorem sendPacket_err {P : Prims} {static : Bytes} {hwRet : Option Err} {io : List IoSend} {s : Ssh P} {er d b}
    (h : sendLoop io s.out = some (some er, d, b)) :
    sendPacket static hwRet io s = some (some er, d, false, { s with out := b }) := by
  unfold sendPacket; rw [h]

theorem sendPacket_ok {P : Prims} {static : Bytes} {hwRet : Option Err} {io : List IoSend} {s : Ssh P} {d b b2}
    (h : sendLoop io s.out = some (none, d, b)) (h2 : shrinkBuffer static b false = some b2) :
    sendPacket static hwRet io s = some (if (highwaterCheck s.hw).1 then hwRet else none, d, (highwaterCheck s.hw).1,
      { s with out := b2, hw := (highwaterCheck s.hw).2 }) := by
  unfold sendPacket; rw [h]; simp only; rw [h2]

theorem sendPacket_spec {P : Prims} (static : Bytes) (hst : static.length = 16) (hwRet : Option Err)
    (io : List IoSend) (s : Ssh P) (hb : Ok s.out) (hh : Honest (unread s.out).length io) :
    ∃ r d f s', sendPacket static hwRet io s = some (r, d, f, s') ∧ Ok s'.out ∧
      d ++ unread s'.out = unread s.out ∧ crypto s' = crypto s ∧ (r = none → unread s'.out = []) := by
  obtain ⟨r, d, b', e, ho, hd, hn⟩ := sendLoop_spec io s.out hb hh
  cases r with
  | some er => exact ⟨_, _, _, _, sendPacket_err e, ho, hd, rfl, by simp⟩
  | none =>
    obtain ⟨hu, hi⟩ := hn rfl
    obtain ⟨b2, e2, ho2, hu2⟩ := Props.Buffer.C38_shrink_partial static hst b' ho (.inr (.inl hi))
    exact ⟨_, _, _, _, sendPacket_ok e e2, ho2, by simp only [hu2, hd], rfl, fun _ => by simp only [hu2, hu]⟩

theorem queueRaw_err {P : Prims} {alloc : Nat → Option Bytes} {s : Ssh P} {line : Bytes} {er b}
    (h : growBuffer alloc s.out line.length = some (some er, b)) :
    queueRaw alloc s line = some (some er, { s with out := b }) := by
  unfold queueRaw; rw [h]

theorem queueRaw_ok {P : Prims} {alloc : Nat → Option Bytes} {s : Ssh P} {line : Bytes} {b m}
    (h : growBuffer alloc s.out line.length = some (none, b)) (hw : write b.mem b.length line = some m) :
    queueRaw alloc s line = some (none, { s with out := { b with mem := m, length := add32 b.length line.length } }) := by
  unfold queueRaw; rw [h]; simp only; rw [hw]

theorem queueRaw_spec {P : Prims} (alloc : Nat → Option Bytes) (ha : Allocator alloc) (s : Ssh P) (hb : Ok s.out)
    (line : Bytes) (hsz : line.length + (unread s.out).length < 2^32) :
    ∃ r s', queueRaw alloc s line = some (r, s') ∧ Ok s'.out ∧ crypto s' = crypto s ∧
      ((r = none ∧ unread s'.out = unread s.out ++ line) ∨ (r ≠ none ∧ unread s'.out = unread s.out)) := by
  have hl := Props.Buffer.unread_length hb
  obtain ⟨r, b', hg, hok, hun, hcase⟩ := Props.Buffer.C38_grow_partial alloc ha s.out hb line.length (by omega)
  rcases hcase with ⟨rfl, hroom⟩ | ⟨rfl, rfl, n, hn⟩
  · obtain ⟨m, hw, hok', hun'⟩ := Props.Buffer.write_append hok line (by omega)
    exact ⟨_, _, queueRaw_ok hg hw, hok', rfl, .inl ⟨rfl, by rw [← hun, ← hun']⟩⟩
  · exact ⟨_, _, queueRaw_err hg, hb, rfl, .inr ⟨by simp, rfl⟩⟩

theorem installKeys_spec {P : Prims} (n : Suite) (hn : SuiteOk n) (hc : ∃ c, FreshCipher P true n c) (s : Ssh P) :
    ∃ s', installKeys n s = (none, s') ∧ s'.out = s.out ∧ s'.suite = n ∧ FreshCipher P true n s'.cipher ∧
      s'.seq = s.seq ∧ Keyed s' := by
  obtain ⟨c, hc⟩ := hc
  obtain ⟨hu, -, -, -⟩ := hn
  unfold FreshCipher at *
  unfold installKeys Keyed
  cases he : n.encId with
  | none => simp [he]
  | unknown => exact absurd he hu
  | cbc k => simp only [he] at hc ⊢; obtain ⟨st, h1, h2⟩ := hc; simp [h1, he]
  | ctr k => simp only [he] at hc ⊢; obtain ⟨st, h1, h2⟩ := hc; simp [h1, he]
  | gcm k => simp only [he] at hc ⊢; obtain ⟨st, h1, h2⟩ := hc; simp [h1, he]

/-- One proper step extends the stream by what it said. -/
theorem txStep_spec {P : Prims} (hs : Sizes P) (s : Ssh P) (hr : Ready s) (x : TxStep)
    (hx : Proper P (unread s.out).length x) :
    ∃ r d s', txStep s x = some (r, d, s') ∧ Ready s' ∧
      ∀ {s0 : Crypto P} {items w sent}, Stream P s0 items w (crypto s) → sent ++ unread s.out = w →
        ∃ w', Stream P s0 (items ++ said x r) w' (crypto s') ∧ sent ++ d ++ unread s'.out = w' := by
  obtain ⟨ho, hsu, hk, hq⟩ := hr
  cases x with
  | queue alloc rng est payload =>
    obtain ⟨ha, hg, hf, hle, hsz⟩ := hx
    obtain ⟨r, s', e, hO⟩ := queue_spec hs alloc rng ha hg s ho hsu hk est payload (by rcases suite_block hsu with h | h <;> omega) hsz
    simp only [txStep, e, Option.map_some]
    refine ⟨_, _, _, rfl, ?_⟩
    rcases hO with ⟨h1, h2, h3, ⟨rfl, pad, wire, hp, hse, hn, hsame, hu, hseq, -, -⟩ | ⟨e, -, hF, -⟩⟩ | ⟨rfl, rfl, -⟩
    · refine ⟨⟨h1, h2, h3, by rw [hseq]; unfold add32; omega⟩, ?_⟩
      intro s0 items w sent hst hw
      have := Stream.packet hst payload pad wire s'.cipher s'.suite.iv hp hse hn
      refine ⟨w ++ wire, ?_, by rw [hu, ← hw]; simp⟩
      have e : crypto s' = ⟨{ (crypto s).suite with iv := s'.suite.iv }, s'.cipher, ((crypto s).seq + 1) % 2^32⟩ := by
        unfold crypto
        simp only [Crypto.mk.injEq, true_and]
        exact ⟨hsame, by rw [hseq]; rfl⟩
      rw [e]; exact this
    · exact absurd hF hf
    · refine ⟨⟨ho, hsu, hk, hq⟩, ?_⟩
      intro s0 items w sent hst hw
      exact ⟨w, by simpa [said] using hst, by simpa using hw⟩
  | raw alloc line =>
    obtain ⟨ha, hsz⟩ := hx
    obtain ⟨r, s', e, h1, h2, h3⟩ := queueRaw_spec alloc ha s ho line hsz
    simp only [txStep, e, Option.map_some]
    have hc := h2
    unfold crypto at h2
    injection h2 with e1 e2 e3
    refine ⟨_, _, _, rfl, ⟨h1, by rw [e1]; exact hsu, by unfold Keyed; rw [e1, e2]; exact hk, by rw [e3]; exact hq⟩, ?_⟩
    intro s0 items w sent hst hw
    rcases h3 with ⟨rfl, hu⟩ | ⟨hne, hu⟩
    · exact ⟨w ++ line, hc ▸ Stream.raw hst line, by rw [hu, ← hw]; simp⟩
    · cases r with
      | none => exact absurd rfl hne
      | some e => exact ⟨w, by rw [hc]; simpa [said] using hst, by rw [hu]; simpa using hw⟩
  | flush static hwRet io =>
    obtain ⟨hst, hh⟩ := hx
    obtain ⟨r, d, f, s', e, h1, h2, h3, -⟩ := sendPacket_spec static hst hwRet io s ho hh
    simp only [txStep, e, Option.map_some]
    have hc := h3
    unfold crypto at h3
    injection h3 with e1 e2 e3
    refine ⟨_, _, _, rfl, ⟨h1, by rw [e1]; exact hsu, by unfold Keyed; rw [e1, e2]; exact hk, by rw [e3]; exact hq⟩, ?_⟩
    intro s0 items w sent hst hw
    refine ⟨w, by rw [hc]; simpa [said] using hst, ?_⟩
    rw [List.append_assoc, h2, hw]
  | keys n =>
    obtain ⟨hn, hc⟩ := hx
    obtain ⟨s', e, h1, h2, h3, h4, h5⟩ := installKeys_spec n hn hc s
    simp only [txStep, e]
    refine ⟨_, _, _, rfl, ⟨by rw [h1]; exact ho, by rw [h2]; exact hn, h5, by rw [h4]; exact hq⟩, ?_⟩
    intro s0 items w sent hst hw
    have := Stream.keys hst n _ h3
    refine ⟨w, ?_, by rw [h1]; simpa using hw⟩
    have e : crypto s' = ⟨n, s'.cipher, (crypto s).seq⟩ := by
      unfold crypto; rw [h2, h4]
    rw [e]; exact this

theorem txRun_spec {P : Prims} (hs : Sizes P) (xs : List TxStep) (s : Ssh P) (hr : Ready s)
    (hx : ProperRun s xs) {s0 : Crypto P} {items w sent}
    (hst : Stream P s0 items w (crypto s)) (hw : sent ++ unread s.out = w) :
    ∃ rs d s', txRun s xs = some (rs, d, s') ∧ Ready s' ∧
        Stream P s0 (items ++ saidAll xs rs) (sent ++ d ++ unread s'.out) (crypto s') := by
  induction xs generalizing s items w sent with
  | nil => exact ⟨_, _, _, rfl, hr, by simpa [saidAll, hw] using hst⟩
  | cons x xs ih =>
    obtain ⟨hx1, hx2⟩ := hx
    obtain ⟨r, d, s', e, hr', hext⟩ := txStep_spec hs s hr x hx1
    obtain ⟨w', hst', hw'⟩ := hext hst hw
    obtain ⟨rs, d2, s2, e2, hr2, h2⟩ := ih s' hr' (hx2 _ _ _ e) hst' hw'
    unfold txRun
    simp only [e, e2]
    refine ⟨_, _, _, rfl, hr2, ?_⟩
    simpa [saidAll] using h2

theorem snoc_split {α : Type} {a b : List α} {x y : α} {c : List α} (h : a ++ [x] = b ++ y :: c) :
    (c = [] ∧ a = b ∧ x = y) ∨ ∃ c', c = c' ++ [x] ∧ a = b ++ y :: c' := by
  rcases List.eq_nil_or_concat c with rfl | ⟨c', z, rfl⟩
  · have := List.append_inj' h rfl
    simp at this
    exact .inl ⟨rfl, this.1, this.2⟩
  · right
    have h' : a ++ [x] = (b ++ y :: c') ++ [z] := by rw [h]; simp
    have := List.append_inj' h' rfl
    simp at this
    exact ⟨c', by rw [this.2]; simp, this.1⟩

/-- A packet in the middle of a stream. -/
theorem stream_split {P : Prims} {a b : Crypto P} {items : List Item} {w : Bytes} (h : Stream P a items w b)
    {i1 i2 : List Item} {payload : Bytes} (hi : items = i1 ++ .packet payload :: i2) :
    ∃ w1 s1 pad wire c' iv', Stream P a i1 w1 s1 ∧ GoodPad s1.suite.blockSz s1.suite.aead payload pad ∧
      Sealed P s1.suite s1.cipher s1.seq (framed payload pad) wire c' ∧ NextNonce s1.suite iv' ∧
      (w1 ++ wire) <+: w := by
  induction h generalizing i2 with
  | nil => simp at hi
  | packet h p pad wire c' iv' hp hs hn ih =>
    rcases snoc_split hi with ⟨rfl, rfl, he⟩ | ⟨c2, rfl, he⟩
    · injection he with he; subst he
      exact ⟨_, _, pad, wire, c', iv', h, hp, hs, hn, List.prefix_rfl⟩
    · obtain ⟨w1, s1, pad, wire, c', iv', h1, h2, h3, h4, h5⟩ := ih he
      exact ⟨w1, s1, pad, wire, c', iv', h1, h2, h3, h4, h5.trans (List.prefix_append _ _)⟩
  | raw h line ih =>
    rcases snoc_split hi with ⟨rfl, rfl, he⟩ | ⟨c2, rfl, he⟩
    · cases he
    · obtain ⟨w1, s1, pad, wire, c', iv', h1, h2, h3, h4, h5⟩ := ih he
      exact ⟨w1, s1, pad, wire, c', iv', h1, h2, h3, h4, h5.trans (List.prefix_append _ _)⟩
  | keys h n c hc ih =>
    rcases snoc_split hi with ⟨rfl, rfl, he⟩ | ⟨c2, rfl, he⟩
    · cases he
    · exact ih he

end Proofs.Packet
