import Verif.Model.Kdf
import Verif.Spec.Kdf
import Verif.Props.Wire
/-!
# C33: key derivation
-/

namespace Props.Kdf
open Wolf Wolf.Wire Wolf.Kdf Wolf.Packet Spec.Kdf Props.Wire

/-- The hash as a function; what it is where the library fails does not matter. -/
def hashOf (H : HashAlg) (x : Bytes) : Bytes := (H.run x).getD []

theorem write_spec {m d m' : Bytes} {o : Nat} (h : Buffer.write m o d = some m') :
    m'.length = m.length ∧ m'.take o = m.take o ∧ (m'.drop o).take d.length = d ∧ m'.drop (o + d.length) = m.drop (o + d.length) := by
  unfold Buffer.write at h
  split at h
  · rename_i hle
    simp only [Option.some.injEq] at h
    subst h
    have ho : (m.take o).length = o := by rw [List.length_take]; omega
    refine ⟨by simp only [List.length_append, ho, List.length_drop]; omega, ?_, ?_, ?_⟩
    · rw [List.append_assoc, List.take_append_of_le_length (by omega), List.take_take, Nat.min_self]
    · rw [List.append_assoc, show o = (m.take o).length + 0 by omega, List.drop_append]
      simp
    · rw [List.append_assoc, List.drop_append, ho, show o + d.length - o = d.length by omega, List.drop_eq_nil_of_le (by omega)]
      simp
  · simp at h

theorem stream_length (H : HashAlg) (K h sid : Bytes) (l : Byte) (hd : ∀ x, (hashOf H x).length = H.digestSz) :
    ∀ n, (stream (hashOf H) K h sid l n).length = n * H.digestSz := by
  intro n
  induction n with
  | zero => simp [stream]
  | succ n ih =>
    cases n with
    | zero => simp [stream, hd]
    | succ n => simp only [stream, List.length_append, hd, ih]; rw [Nat.succ_mul (n + 1)]

theorem blockLoop_spec (H : HashAlg) (K h sid : Bytes) (l : Byte) (n : Nat) : ∀ (m running : Nat) (key : Bytes),
    1 ≤ m → running = m * H.digestSz → running + n * H.digestSz ≤ key.length →
    key.take running = stream (hashOf H) K h sid l m →
    ∃ e key', blockLoop H (K ++ h) n running key = some (e, (if e = none then running + n * H.digestSz else
        ((blockLoop H (K ++ h) n running key).getD (none, 0, [])).2.1), key') ∧
      key'.length = key.length ∧ key'.drop (running + n * H.digestSz) = key.drop (running + n * H.digestSz) ∧
      (e = none → key'.take (running + n * H.digestSz) = stream (hashOf H) K h sid l (m + n)) ∧
      ((∀ x, H.run x ≠ none) → e = none) := by
  induction n with
  | zero =>
    intro m running key _ hr hl hk
    exact ⟨none, key, by simp [blockLoop], rfl, rfl, fun _ => by simpa using hk, fun _ => rfl⟩
  | succ n ih =>
    intro m running key hm hr hl hk
    have hmul : (n + 1) * H.digestSz = n * H.digestSz + H.digestSz := Nat.succ_mul n _
    unfold blockLoop
    have hread : Buffer.read key 0 running = some (key.take running) := by
      unfold Buffer.read; rw [if_pos (by omega)]; simp
    rw [hread]
    simp only [hk]
    cases hx : H.run (K ++ h ++ stream (hashOf H) K h sid l m) with
    | none => exact ⟨some .cryptoFailed, key, by simp, rfl, rfl, by simp, fun hh => absurd hx (hh _)⟩
    | some d =>
      have hdl := H.len _ _ hx
      have hw : ∃ key1, Buffer.write key running d = some key1 := by
        unfold Buffer.write; rw [if_pos (by omega)]; exact ⟨_, rfl⟩
      obtain ⟨key1, hw⟩ := hw
      obtain ⟨w1, w2, w3, w4⟩ := write_spec hw
      simp only [hw]
      have hs : stream (hashOf H) K h sid l (m + 1) = stream (hashOf H) K h sid l m ++ d := by
        obtain ⟨m', rfl⟩ : ∃ m', m = m' + 1 := ⟨m - 1, by omega⟩
        simp only [stream]
        rw [show hashOf H (K ++ h ++ stream (hashOf H) K h sid l (m' + 1)) = d by
          show (H.run (K ++ h ++ stream (hashOf H) K h sid l (m' + 1))).getD [] = d; rw [hx]; rfl]
      have ht : key1.take (running + H.digestSz) = stream (hashOf H) K h sid l (m + 1) := by
        rw [List.take_add, w2, hk, ← hdl, w3, hs]
      obtain ⟨e, key', i1, i2, i3, i4, i5⟩ := ih (m + 1) (running + H.digestSz) key1 (by omega)
        (by rw [hr, Nat.succ_mul]) (by omega) ht
      refine ⟨e, key', ?_, by omega, ?_, ?_, i5⟩
      · rw [hmul, show running + (n * H.digestSz + H.digestSz) = running + H.digestSz + n * H.digestSz by omega]
        exact i1
      · rw [hmul, show running + (n * H.digestSz + H.digestSz) = running + H.digestSz + n * H.digestSz by omega, i3]
        rw [show running + H.digestSz + n * H.digestSz = running + d.length + n * H.digestSz by omega,
          ← List.drop_drop, ← List.drop_drop (l := key), w4]
      · intro he
        rw [hmul, show running + (n * H.digestSz + H.digestSz) = running + H.digestSz + n * H.digestSz by omega, i4 he,
          show m + 1 + n = m + (n + 1) by omega]

/-- C33: for every hash, secret, exchange hash, session identifier and length, `GenerateKey` stays within the first
`keySz` bytes of its destination and, if it succeeds, these are the derived key of the RFC. It fails only for an empty input
or if the library fails. -/
theorem C33_key (H : HashAlg) (l : Byte) (key : Bytes) (keySz : Nat) (k h sid : Bytes) (pad : Bool) (hl : keySz ≤ key.length) :
    ∃ r key', generateKey H l key keySz k h sid pad = some (r, key') ∧ key'.length = key.length ∧
      key'.drop keySz = key.drop keySz ∧
      (r = none → ∃ n, key'.take keySz <+: stream (hashOf H) (secretBytes k pad) h sid l n) ∧
      ((∀ x, H.run x ≠ none) → H.digestSz ≠ 0 → keySz ≠ 0 → k ≠ [] → h ≠ [] → sid ≠ [] → r = none) := by
  unfold generateKey
  by_cases h0 : keySz = 0 ∨ k.length = 0 ∨ h.length = 0 ∨ sid.length = 0
  · rw [if_pos h0]
    refine ⟨_, _, rfl, rfl, rfl, by simp, fun _ _ h1 h2 h3 h4 => ?_⟩
    simp only [List.length_eq_zero_iff] at h0
    simp_all
  rw [if_neg h0]
  by_cases hd : H.digestSz = 0
  · rw [if_pos hd]; exact ⟨_, _, rfl, rfl, rfl, by simp, fun _ h1 => absurd hd h1⟩
  rw [if_neg hd]
  simp only
  have hdm := Nat.div_add_mod keySz H.digestSz
  have hmod := Nat.mod_lt keySz (show 0 < H.digestSz by omega)
  rw [Nat.mul_comm] at hdm
  generalize hb : keySz / H.digestSz = blocks at hdm ⊢
  generalize hr : keySz % H.digestSz = remainder at hdm hmod ⊢
  generalize hK : secretBytes k pad = K
  cases hx : H.run (K ++ h ++ [l] ++ sid) with
  | none => exact ⟨_, _, rfl, rfl, rfl, by simp, fun hh => absurd hx (hh _)⟩
  | some d =>
    have hdl := H.len _ _ hx
    have hs1 : stream (hashOf H) K h sid l 1 = d := by
      simp only [stream, hashOf, hx, Option.getD_some]
    simp only
    by_cases hb0 : blocks = 0
    · subst hb0
      simp only [Nat.zero_mul, Nat.zero_add] at hdm
      rw [if_pos rfl, if_pos (by omega)]
      have hw : ∃ key1, Buffer.write key 0 (d.take remainder) = some key1 := by
        unfold Buffer.write; rw [if_pos (by rw [List.length_take]; omega)]; exact ⟨_, rfl⟩
      obtain ⟨key1, hw⟩ := hw
      obtain ⟨w1, w2, w3, w4⟩ := write_spec hw
      have htl : (d.take remainder).length = remainder := by rw [List.length_take]; omega
      rw [htl] at w3 w4
      simp only [List.drop_zero, Nat.zero_add] at w3 w4
      rw [hw]
      simp only
      refine ⟨_, _, rfl, w1, by rw [← hdm]; exact w4, fun _ => ⟨1, ?_⟩, by simp⟩
      rw [hs1, ← hdm, w3]
      exact List.take_prefix _ _
    · rw [if_neg hb0]
      have hge : H.digestSz ≤ blocks * H.digestSz := Nat.le_mul_of_pos_left _ (by omega)
      have hw : ∃ key1, Buffer.write key 0 d = some key1 := by
        unfold Buffer.write; rw [if_pos (by omega)]; exact ⟨_, rfl⟩
      obtain ⟨key1, hw⟩ := hw
      obtain ⟨w1, w2, w3, w4⟩ := write_spec hw
      simp only [List.drop_zero, Nat.zero_add, hdl] at w3 w4
      simp only [hw]
      have hbm : H.digestSz + (blocks - 1) * H.digestSz = blocks * H.digestSz := by
        rw [Nat.add_comm, ← Nat.succ_mul, show (blocks - 1).succ = blocks by omega]
      obtain ⟨e, key2, i1, i2, i3, i4, i5⟩ := blockLoop_spec H K h sid l (blocks - 1) 1 H.digestSz key1 (by omega) (by omega)
        (by omega) (by rw [w3, hs1])
      rw [hbm, show 1 + (blocks - 1) = blocks by omega] at i4
      rw [hbm] at i1 i3
      generalize blockLoop H (K ++ h) (blocks - 1) H.digestSz key1 = res at i1
      cases e with
      | some e =>
        rw [i1]
        simp only
        refine ⟨_, _, rfl, by omega, ?_, by simp, fun hh => absurd (i5 hh) (by simp)⟩
        rw [← hdm, ← List.drop_drop, ← List.drop_drop (l := key), i3,
          show blocks * H.digestSz = H.digestSz + (blocks * H.digestSz - H.digestSz) by omega, ← List.drop_drop, ← List.drop_drop (l := key), w4]
      | none =>
        simp only [if_true] at i1
        rw [i1]
        simp only
        have hk2 : key2.drop (blocks * H.digestSz) = key.drop (blocks * H.digestSz) := by
          rw [i3, show blocks * H.digestSz = H.digestSz + (blocks * H.digestSz - H.digestSz) by omega, ← List.drop_drop,
            ← List.drop_drop (l := key), w4]
        have i4 := i4 rfl
        by_cases hr0 : remainder > 0
        · rw [if_pos hr0]
          have hread : Buffer.read key2 0 (blocks * H.digestSz) = some (stream (hashOf H) K h sid l blocks) := by
            unfold Buffer.read; rw [if_pos (by omega)]; simp [i4]
          simp only [hread]
          cases hy : H.run (K ++ h ++ stream (hashOf H) K h sid l blocks) with
          | none =>
            refine ⟨_, _, rfl, by omega, ?_, by simp, fun hh => absurd hy (hh _)⟩
            rw [← hdm, ← List.drop_drop, ← List.drop_drop (l := key), hk2]
          | some d2 =>
            have hdl2 := H.len _ _ hy
            have htl : (d2.take remainder).length = remainder := by rw [List.length_take]; omega
            have hw : ∃ key3, Buffer.write key2 (blocks * H.digestSz) (d2.take remainder) = some key3 := by
              unfold Buffer.write; rw [if_pos (by omega)]; exact ⟨_, rfl⟩
            obtain ⟨key3, hw⟩ := hw
            obtain ⟨x1, x2, x3, x4⟩ := write_spec hw
            rw [htl, hdm] at x4
            rw [htl] at x3
            simp only [hw]
            refine ⟨_, _, rfl, by omega, ?_, fun _ => ⟨blocks + 1, ?_⟩, by simp⟩
            · rw [x4, ← hdm, ← List.drop_drop, ← List.drop_drop (l := key), hk2]
            · have hs : stream (hashOf H) K h sid l (blocks + 1) = stream (hashOf H) K h sid l blocks ++ d2 := by
                obtain ⟨m', rfl⟩ : ∃ m', blocks = m' + 1 := ⟨blocks - 1, by omega⟩
                simp only [stream]
                rw [show hashOf H (K ++ h ++ stream (hashOf H) K h sid l (m' + 1)) = d2 by
                  show (H.run (K ++ h ++ stream (hashOf H) K h sid l (m' + 1))).getD [] = d2; rw [hy]; rfl]
              rw [hs, ← hdm, List.take_add, x2, i4, x3]
              exact (List.prefix_append_right_inj _).mpr (List.take_prefix _ _)
        · rw [if_neg hr0]
          refine ⟨_, _, rfl, by omega, ?_, fun _ => ⟨blocks, ?_⟩, by simp⟩
          · rw [← hdm, show remainder = 0 by omega, Nat.add_zero]; exact hk2
          · rw [← hdm, show remainder = 0 by omega, Nat.add_zero, i4]; exact List.prefix_refl _

theorem stream_prefix (hash : Bytes → Bytes) (K h sid : Bytes) (l : Byte) (n m : Nat) (hnm : n ≤ m) :
    stream hash K h sid l n <+: stream hash K h sid l m := by
  induction m with
  | zero => rw [show n = 0 by omega]; exact List.prefix_refl _
  | succ m ih =>
    by_cases h1 : n = m + 1
    · rw [h1]; exact List.prefix_refl _
    · refine (ih (by omega)).trans ?_
      cases m with
      | zero => simp [stream]
      | succ m => simp only [stream]; exact List.prefix_append _ _

/-- There is only one derived key of a given length. -/
theorem isKey_unique {hash : Bytes → Bytes} {K h sid : Bytes} {c : Char} {len : Nat} {a b : Bytes}
    (ha : IsKey hash K h sid c len a) (hb : IsKey hash K h sid c len b) : a = b := by
  obtain ⟨la, n, pa⟩ := ha
  obtain ⟨lb, m, pb⟩ := hb
  have pa' := pa.trans (stream_prefix hash K h sid _ n (max n m) (Nat.le_max_left _ _))
  have pb' := pb.trans (stream_prefix hash K h sid _ m (max n m) (Nat.le_max_right _ _))
  rw [List.prefix_iff_eq_take] at pa' pb'
  rw [pa', pb', la, lb]

theorem deriveInto_spec (H : HashAlg) (c : Char) (l : Byte) (hc : l = UInt8.ofNat c.toNat) (key : Bytes) (keySz : Nat)
    (k h sid : Bytes) (pad : Bool) (hl : keySz ≤ key.length) :
    ∃ r key', deriveInto H l key keySz k h sid pad = some (r, key') ∧ key'.length = key.length ∧
      (r = none → IsKey (hashOf H) (secretBytes k pad) h sid c keySz (key'.take keySz)) ∧
      ((∀ x, H.run x ≠ none) → H.digestSz ≠ 0 → k ≠ [] → h ≠ [] → sid ≠ [] → r = none) := by
  unfold deriveInto
  by_cases h0 : keySz > 0
  · rw [if_pos h0]
    obtain ⟨r, key', h1, h2, _, h4, h5⟩ := C33_key H l key keySz k h sid pad hl
    refine ⟨r, key', h1, h2, fun hr => ?_, fun a b => h5 a b (by omega)⟩
    obtain ⟨n, hn⟩ := h4 hr
    exact ⟨by rw [List.length_take]; omega, n, hc ▸ hn⟩
  · rw [if_neg h0]
    refine ⟨_, _, rfl, rfl, fun _ => ⟨by rw [List.length_take]; omega, 0, ?_⟩, by simp⟩
    rw [show keySz = 0 by omega]; simp

/-- The sizes of the algorithms fit the arrays. -/
def Fits (k : Keys) : Prop := k.WF ∧ k.ivSz ≤ 16 ∧ k.encKeySz ≤ 32 ∧ k.macKeySz ≤ 64

/-- What is used of the arrays. -/
def ivOf (k : Keys) : Bytes := k.iv.take k.ivSz
def encOf (k : Keys) : Bytes := k.encKey.take k.encKeySz
def macOf (k : Keys) : Bytes := k.macKey.take k.macKeySz

theorem fits_lengths {k : Keys} (h : Fits k) :
    (ivOf k).length = k.ivSz ∧ (encOf k).length = k.encKeySz ∧ (macOf k).length = k.macKeySz := by
  obtain ⟨⟨h1, h2, h3⟩, h4, h5, h6⟩ := h
  simp only [ivOf, encOf, macOf, List.length_take]
  omega

/-- Whatever algorithms were negotiated, their keys fit. -/
theorem C33_fits (k : Keys) (hk : k.WF) (encId : Enc) (macId : Mac) : Fits (k.setSizes encId macId) := by
  obtain ⟨h1, h2, h3⟩ := hk
  refine ⟨⟨h1, h2, h3⟩, ?_⟩
  have hz : ∀ e m, (keySizes e (aeadModeForId e) m).1 ≤ 16 ∧ (keySizes e (aeadModeForId e) m).2.1 ≤ 32 ∧
      (keySizes e (aeadModeForId e) m).2.2 ≤ 64 := by
    intro e m
    cases m <;> rcases e with _ | (_ | _ | _) | (_ | _ | _) | (_ | _ | _) | _ <;> decide
  exact hz encId macId

/-- The keys of the client-to-server direction as a side holds them: `keys` at the client, `peerKeys` at the server. -/
def toServer (isServer : Bool) (keys peerKeys : Keys) : Keys := if isServer then peerKeys else keys
/-- The keys of the server-to-client direction as a side holds them. -/
def toClient (isServer : Bool) (keys peerKeys : Keys) : Keys := if isServer then keys else peerKeys

/-- C33: on either side, if `GenerateKeys` succeeds, the six keys are those of the RFC, each in the direction and role its
letter stands for. It writes only to the arrays, and fails only if the library does or an input is empty. -/
theorem C33_keys (H : HashAlg) (isServer : Bool) (keys peerKeys : Keys) (k h sid : Bytes) (pad : Bool)
    (hk : Fits keys) (hp : Fits peerKeys) :
    ∃ r keys' peerKeys', generateKeys H isServer keys peerKeys k h sid pad = some (r, keys', peerKeys') ∧
      Fits keys' ∧ Fits peerKeys' ∧
      (keys'.ivSz, keys'.encKeySz, keys'.macKeySz) = (keys.ivSz, keys.encKeySz, keys.macKeySz) ∧
      (peerKeys'.ivSz, peerKeys'.encKeySz, peerKeys'.macKeySz) = (peerKeys.ivSz, peerKeys.encKeySz, peerKeys.macKeySz) ∧
      (r = none →
        let cs := toServer isServer keys' peerKeys'
        let sc := toClient isServer keys' peerKeys'
        Six (hashOf H) (secretBytes k pad) h sid (ivOf cs) (encOf cs) (macOf cs) (ivOf sc) (encOf sc) (macOf sc)) ∧
      ((∀ x, H.run x ≠ none) → H.digestSz ≠ 0 → k ≠ [] → h ≠ [] → sid ≠ [] → r = none) := by
  have main : ∀ cK sK : Keys, Fits cK → Fits sK →
      ∃ r c' s', Fits c' ∧ Fits s' ∧ (c'.ivSz, c'.encKeySz, c'.macKeySz) = (cK.ivSz, cK.encKeySz, cK.macKeySz) ∧
        (s'.ivSz, s'.encKeySz, s'.macKeySz) = (sK.ivSz, sK.encKeySz, sK.macKeySz) ∧
        (r = none → Six (hashOf H) (secretBytes k pad) h sid (ivOf c') (encOf c') (macOf c') (ivOf s') (encOf s') (macOf s')) ∧
        ((∀ x, H.run x ≠ none) → H.digestSz ≠ 0 → k ≠ [] → h ≠ [] → sid ≠ [] → r = none) ∧
        (∀ f : Bool, (if f then peerKeys else keys) = cK → (if f then keys else peerKeys) = sK →
          generateKeys H f keys peerKeys k h sid pad = some (if f then (r, s', c') else (r, c', s'))) := by
    intro cK sK hc hs
    obtain ⟨⟨c1, c2, c3⟩, c4, c5, c6⟩ := hc
    obtain ⟨⟨s1, s2, s3⟩, s4, s5, s6⟩ := hs
    obtain ⟨rA, mA, hA, lA, kA, tA⟩ := deriveInto_spec H 'A' 65 rfl cK.iv cK.ivSz k h sid pad (by omega)
    obtain ⟨rB, mB, hB, lB, kB, tB⟩ := deriveInto_spec H 'B' 66 rfl sK.iv sK.ivSz k h sid pad (by omega)
    obtain ⟨rC, mC, hC, lC, kC, tC⟩ := deriveInto_spec H 'C' 67 rfl cK.encKey cK.encKeySz k h sid pad (by omega)
    obtain ⟨rD, mD, hD, lD, kD, tD⟩ := deriveInto_spec H 'D' 68 rfl sK.encKey sK.encKeySz k h sid pad (by omega)
    obtain ⟨rE, mE, hE, lE, kE, tE⟩ := deriveInto_spec H 'E' 69 rfl cK.macKey cK.macKeySz k h sid pad (by omega)
    obtain ⟨rF, mF, hF, lF, kF, tF⟩ := deriveInto_spec H 'F' 70 rfl sK.macKey sK.macKeySz k h sid pad (by omega)
    cases rA with
    | some e =>
      refine ⟨some e, { cK with iv := mA }, sK, ⟨⟨by simp only; omega, c2, c3⟩, c4, c5, c6⟩, ⟨⟨s1, s2, s3⟩, s4, s5, s6⟩, rfl, rfl,
        by simp, tA, ?_⟩
      intro f h1 h2
      unfold generateKeys; simp only [h1, h2, hA]
    | none =>
    cases rB with
    | some e =>
      refine ⟨some e, { cK with iv := mA }, { sK with iv := mB }, ⟨⟨by simp only; omega, c2, c3⟩, c4, c5, c6⟩,
        ⟨⟨by simp only; omega, s2, s3⟩, s4, s5, s6⟩, rfl, rfl, by simp, tB, ?_⟩
      intro f h1 h2
      unfold generateKeys; simp only [h1, h2, hA, hB]
    | none =>
    cases rC with
    | some e =>
      refine ⟨some e, { cK with iv := mA, encKey := mC }, { sK with iv := mB }, ⟨⟨by simp only; omega, by simp only; omega, c3⟩, c4, c5, c6⟩,
        ⟨⟨by simp only; omega, s2, s3⟩, s4, s5, s6⟩, rfl, rfl, by simp, tC, ?_⟩
      intro f h1 h2
      unfold generateKeys; simp only [h1, h2, hA, hB, hC]
    | none =>
    cases rD with
    | some e =>
      refine ⟨some e, { cK with iv := mA, encKey := mC }, { sK with iv := mB, encKey := mD },
        ⟨⟨by simp only; omega, by simp only; omega, c3⟩, c4, c5, c6⟩,
        ⟨⟨by simp only; omega, by simp only; omega, s3⟩, s4, s5, s6⟩, rfl, rfl, by simp, tD, ?_⟩
      intro f h1 h2
      unfold generateKeys; simp only [h1, h2, hA, hB, hC, hD]
    | none =>
    cases rE with
    | some e =>
      refine ⟨some e, { cK with iv := mA, encKey := mC, macKey := mE }, { sK with iv := mB, encKey := mD },
        ⟨⟨by simp only; omega, by simp only; omega, by simp only; omega⟩, c4, c5, c6⟩,
        ⟨⟨by simp only; omega, by simp only; omega, s3⟩, s4, s5, s6⟩, rfl, rfl, by simp, tE, ?_⟩
      intro f h1 h2
      unfold generateKeys; simp only [h1, h2, hA, hB, hC, hD, hE]
    | none =>
      have fc : Fits { cK with iv := mA, encKey := mC, macKey := mE } :=
        ⟨⟨by simp only; omega, by simp only; omega, by simp only; omega⟩, c4, c5, c6⟩
      have fs : Fits { sK with iv := mB, encKey := mD, macKey := mF } :=
        ⟨⟨by simp only; omega, by simp only; omega, by simp only; omega⟩, s4, s5, s6⟩
      refine ⟨rF, { cK with iv := mA, encKey := mC, macKey := mE }, { sK with iv := mB, encKey := mD, macKey := mF }, fc, fs,
        rfl, rfl, ?_, tF, ?_⟩
      · intro hr
        obtain ⟨l1, l2, l3⟩ := fits_lengths fc
        obtain ⟨l4, l5, l6⟩ := fits_lengths fs
        exact ⟨by rw [l1]; exact kA rfl, by rw [l4]; exact kB rfl, by rw [l2]; exact kC rfl, by rw [l5]; exact kD rfl,
          by rw [l3]; exact kE rfl, by rw [l6]; exact kF hr⟩
      · intro f h1 h2
        unfold generateKeys; simp only [h1, h2, hA, hB, hC, hD, hE, hF]
  cases isServer with
  | true =>
    obtain ⟨r, c', s', m1, m2, m3, m4, m5, m6, m7⟩ := main peerKeys keys hp hk
    exact ⟨r, s', c', m7 true rfl rfl, m2, m1, m4, m3, m5, m6⟩
  | false =>
    obtain ⟨r, c', s', m1, m2, m3, m4, m5, m6, m7⟩ := main keys peerKeys hk hp
    exact ⟨r, c', s', m7 false rfl rfl, m1, m2, m3, m4, m5, m6⟩

/-- C33: two sides that hold the same secret (as hashed: leading zeros make no difference, `C33_secret`), exchange hash and session identifier and chose the same algorithms use, in
each direction, the same keys: what one encrypts and authenticates with is what the other decrypts and checks with. -/
theorem C33_agree (H : HashAlg) (ck cp sk sp : Keys) (ck' cp' sk' sp' : Keys) (k k' h sid : Bytes) (pad : Bool)
    (hk : secretBytes k pad = secretBytes k' pad)
    (f1 : Fits ck) (f2 : Fits cp) (f3 : Fits sk) (f4 : Fits sp)
    (z1 : (ck.ivSz, ck.encKeySz, ck.macKeySz) = (sp.ivSz, sp.encKeySz, sp.macKeySz))
    (z2 : (cp.ivSz, cp.encKeySz, cp.macKeySz) = (sk.ivSz, sk.encKeySz, sk.macKeySz))
    (hc : generateKeys H false ck cp k h sid pad = some (none, ck', cp'))
    (hs : generateKeys H true sk sp k' h sid pad = some (none, sk', sp')) :
    (ivOf ck', encOf ck', macOf ck') = (ivOf sp', encOf sp', macOf sp') ∧
    (ivOf sk', encOf sk', macOf sk') = (ivOf cp', encOf cp', macOf cp') := by
  obtain ⟨r, a1, a2, e1, b1, b2, b3, b4, b5, _⟩ := C33_keys H false ck cp k h sid pad f1 f2
  rw [hc] at e1
  simp only [Option.some.injEq, Prod.mk.injEq] at e1
  obtain ⟨rfl, rfl, rfl⟩ := e1
  obtain ⟨r, a1, a2, e1, c1, c2, c3, c4, c5, _⟩ := C33_keys H true sk sp k' h sid pad f3 f4
  rw [hs] at e1
  simp only [Option.some.injEq, Prod.mk.injEq] at e1
  obtain ⟨rfl, rfl, rfl⟩ := e1
  have b5 := b5 rfl
  have c5 := c5 rfl
  rw [← hk] at c5
  simp only [toServer, toClient, if_true, if_false, Bool.false_eq_true] at b5 c5
  obtain ⟨l1, l2, l3⟩ := fits_lengths b1
  obtain ⟨l4, l5, l6⟩ := fits_lengths b2
  obtain ⟨l7, l8, l9⟩ := fits_lengths c1
  obtain ⟨l10, l11, l12⟩ := fits_lengths c2
  simp only [Prod.mk.injEq] at b3 b4 c3 c4 z1 z2 ⊢
  refine ⟨⟨isKey_unique b5.a ?_, isKey_unique b5.c ?_, isKey_unique b5.e ?_⟩,
    (isKey_unique b5.b ?_).symm, (isKey_unique b5.d ?_).symm, (isKey_unique b5.f ?_).symm⟩
  · have := c5.a; rwa [show (ivOf sp').length = (ivOf ck').length by omega] at this
  · have := c5.c; rwa [show (encOf sp').length = (encOf ck').length by omega] at this
  · have := c5.e; rwa [show (macOf sp').length = (macOf ck').length by omega] at this
  · have := c5.b; rwa [show (ivOf sk').length = (ivOf cp').length by omega] at this
  · have := c5.d; rwa [show (encOf sk').length = (encOf cp').length by omega] at this
  · have := c5.f; rwa [show (macOf sk').length = (macOf cp').length by omega] at this

theorem secretBytes_eq {k : Bytes} {pad : Bool} {n : Nat} (h : n = if pad = true ∧ (k.getD 0 0 &&& 0x80) ≠ 0 then 1 else 0) :
    secretBytes k pad = c32toa (add32 k.length n) ++ List.replicate n 0 ++ k := by
  rw [h]; rfl

/-- C33, the secret: whatever buffer the agreement leaves, with or without leading zeros, what is hashed for `K` after
`CreateMpint` is the mpint of its value; without padding (ML-KEM) it is the string itself. -/
theorem C33_secret (s : Bytes) (hs : s ≠ []) (h32 : s.length + 1 < 2 ^ 32) :
    (∃ m, Spec.Wire.CanonicalMpint m (Spec.Wire.beNat s) ∧ secretBytes (createMpint s 0).1 true = Spec.Wire.encString m) ∧
    secretBytes s false = Spec.Wire.encString s := by
  constructor
  · refine ⟨mpintBytes s 0, (C03_canonical s 0 hs).1, ?_⟩
    obtain ⟨hc, hlen, hpad⟩ := C03_canonical s 0 hs
    unfold Spec.Wire.encString
    have hp : (createMpint s 0).2 = if true = true ∧ ((createMpint s 0).1.getD 0 0 &&& 0x80) ≠ 0 then 1 else 0 := by
      obtain ⟨_, hc1, hc2⟩ := hc
      unfold mpintBytes at hc1 hc2
      generalize (createMpint s 0).1 = b at *
      have h01 : (createMpint s 0).2 = 0 ∨ (createMpint s 0).2 = 1 := by omega
      rcases h01 with h01 | h01
      · rw [h01] at hc1 ⊢
        simp only [List.replicate_zero, List.nil_append] at hc1
        rw [if_neg]
        rintro ⟨_, hh⟩
        cases b with
        | nil => simp at hh
        | cons x xs =>
          have := hc1 x xs rfl
          have := (high_bit x).mp (by simpa using hh)
          omega
      · rw [h01] at hc2 ⊢
        obtain ⟨c, rest, hb, hc128⟩ := hc2 b (by simp)
        rw [if_pos]
        refine ⟨rfl, ?_⟩
        rw [hb]
        simpa using (high_bit c).mpr hc128
    rw [secretBytes_eq hp, c32toa_eq]
    unfold mpintBytes
    rw [show add32 (createMpint s 0).1.length (createMpint s 0).2
        = (List.replicate (createMpint s 0).2 0 ++ (createMpint s 0).1).length by
      rw [List.length_append, List.length_replicate]; unfold add32; omega]
    simp
  · unfold secretBytes Spec.Wire.encString
    simp only [Bool.false_eq_true, false_and, if_false, List.replicate_zero, List.append_nil]
    rw [c32toa_eq, show add32 s.length 0 = s.length by unfold add32; omega]

/-! ## Concrete cases -/

/-- A hash for the examples: four bytes, the length of the input, its first and last byte and the sum of all. -/
def toy : HashAlg where
  digestSz := 4
  run x := some [UInt8.ofNat x.length, x.getD 0 0, x.getLastD 0, x.foldl (· + ·) 0]
  len := by intro x d h; simp only [Option.some.injEq] at h; rw [← h]; rfl

/-- Ten bytes: two full blocks and half a block. -/
example : generateKey toy 65 (List.replicate 16 0xEE) 10 [0x80, 1] [7, 8] [9] true =
    some (none, [11, 0, 9, 221, 13, 0, 221, 132, 17, 0, 0xEE, 0xEE, 0xEE, 0xEE, 0xEE, 0xEE]) := by decide +kernel

def blank : Keys := ⟨List.replicate 16 0, 0, List.replicate 32 0, 0, List.replicate 64 0, 0⟩

/-- The hypotheses of `C33_agree` are met: AES-256-CTR with HMAC-SHA2-512 one way, AES-128-GCM the other. -/
example : ∃ ck' cp' sk' sp',
    generateKeys toy false (blank.setSizes (.ctr .k256) .sha512) (blank.setSizes (.gcm .k128) .none) [0x80, 1] [7, 8] [9] true = some (none, ck', cp') ∧
    generateKeys toy true (blank.setSizes (.gcm .k128) .none) (blank.setSizes (.ctr .k256) .sha512) [0x80, 1] [7, 8] [9] true = some (none, sk', sp') ∧
    ck' = sp' ∧ ck' ≠ cp' := by
  refine ⟨((generateKeys toy false (blank.setSizes (.ctr .k256) .sha512) (blank.setSizes (.gcm .k128) .none) [0x80, 1] [7, 8] [9] true).getD (none, blank, blank)).2.1,
    ((generateKeys toy false (blank.setSizes (.ctr .k256) .sha512) (blank.setSizes (.gcm .k128) .none) [0x80, 1] [7, 8] [9] true).getD (none, blank, blank)).2.2,
    ((generateKeys toy true (blank.setSizes (.gcm .k128) .none) (blank.setSizes (.ctr .k256) .sha512) [0x80, 1] [7, 8] [9] true).getD (none, blank, blank)).2.1,
    ((generateKeys toy true (blank.setSizes (.gcm .k128) .none) (blank.setSizes (.ctr .k256) .sha512) [0x80, 1] [7, 8] [9] true).getD (none, blank, blank)).2.2, ?_, ?_, ?_, ?_⟩ <;>
  decide +kernel

end Props.Kdf
