import Verif.Proofs.SftpPacket
import Verif.Proofs.Confine
import Verif.Proofs.Reader
/-! Listings, REALPATH, unknown types, readers. -/

namespace Proofs.Sftp
open Wolf Wolf.Wire Wolf.Buffer Wolf.Sftp Wolf.NameList Spec.Wire Spec.Sftp Proofs.Exchange Props.Wire

/-- An entry of a listing in the terms of the protocol. -/
def toName (n : Wolf.Sftp.Name) : Bytes × Bytes × Attrs := (n.fName, n.lName, toAttrs n.atrb)

/-- Entries the server sends. -/
def SendableNames (l : List Wolf.Sftp.Name) : Prop :=
  (∀ n ∈ l, Sendable n.atrb ∧ n.fName.length + n.lName.length < 2 ^ 31) ∧
    13 + (l.map fun n => n.fName.length + n.lName.length + 8 + attributesSz n.atrb).sum < 2 ^ 32

theorem encName_length (n : Wolf.Sftp.Name) (h : Sendable n.atrb) :
    (encName (toName n)).length = n.fName.length + n.lName.length + 8 + attributesSz n.atrb := by
  rw [(attrs_length h).1]
  simp [encName, toName, encString, enc32_length]
  omega

theorem names_length : ∀ (l : List Wolf.Sftp.Name), (∀ n ∈ l, Sendable n.atrb) →
    ((l.map toName).flatMap encName).length = (l.map fun n => n.fName.length + n.lName.length + 8 + attributesSz n.atrb).sum
  | [], _ => rfl
  | n :: l, h => by
    simp only [List.map_cons, List.flatMap_cons, List.length_append, List.sum_cons]
    rw [names_length l (fun m hm => h m (by simp [hm])), encName_length n (h n (by simp))]

theorem putNames_st (N : Nat) (hN : N < 2 ^ 32) : ∀ (l : List Wolf.Sftp.Name) (m : Option (Bytes × Nat)) (pre : Bytes),
    (∀ n ∈ l, Sendable n.atrb ∧ n.fName.length + n.lName.length < 2 ^ 31) → St N m pre →
    pre.length + ((l.map toName).flatMap encName).length ≤ N →
    ∃ m', putNames N l m = some m' ∧ St N m' (pre ++ (l.map toName).flatMap encName)
  | [], m, pre, _, hs, _ => by
    obtain ⟨rest, rfl, hl⟩ := hs
    exact ⟨_, rfl, rest, by simp, by simpa using hl⟩
  | n :: l, m, pre, h, hs, hl => by
    obtain ⟨h1, h2⟩ := h n (by simp)
    have hn := encName_length n h1
    simp only [List.map_cons, List.flatMap_cons, List.length_append] at hl
    have t1 := hs.put32 n.fName.length (by omega)
    have t2 := t1.put n.fName (by simp [enc32_length]; omega)
    have t3 := t2.put32 n.lName.length (by simp [enc32_length]; omega)
    have t4 := t3.put n.lName (by simp [enc32_length]; omega)
    have t5 := setAttributes_st h1 t4 (by simp [enc32_length]; omega)
    have e : pre ++ encUint32 n.fName.length ++ n.fName ++ encUint32 n.lName.length ++ n.lName ++ encAttrs (toAttrs n.atrb) =
        pre ++ encName (toName n) := by simp [encName, toName, encString]
    rw [e] at t5
    obtain ⟨m', e1, e2⟩ := putNames_st N hN l _ _ (fun x hx => h x (by simp [hx])) t5 (by rw [List.length_append]; omega)
    refine ⟨m', ?_, by simpa using e2⟩
    obtain ⟨rest, rfl, hr⟩ := hs
    unfold putNames
    simp only [Option.bind_some]
    rw [if_neg (by unfold sub32; omega)]
    exact e1

theorem newNames_eq {E : Env} (hE : Good E) (id : Nat) (l : List Wolf.Sftp.Name) (h : SendableNames l) :
    newNames E id l = some (fresh E id (.names (l.map toName))) := by
  obtain ⟨h1, h2⟩ := h
  have hlen := names_length l (fun n hn => (h1 n hn).1)
  have hb : (Reply.names (l.map toName)).body.length = 4 + (l.map fun n => n.fName.length + n.lName.length + 8 + attributesSz n.atrb).sum := by
    simp only [Reply.body, List.length_append, hlen, enc32_length]
  have hsz : namesSz l = 9 + (Reply.names (l.map toName)).body.length := by
    rw [hb]; unfold namesSz HEADER; omega
  have hlt : namesSz l < 2 ^ 32 := by unfold namesSz; omega
  unfold newNames fresh mem
  rw [← hsz]
  cases ha : E.alloc (namesSz l) with
  | none => rfl
  | some out =>
    have hl := hE.alloc _ _ ha
    have h9 : sub32 (namesSz l) HEADER = (Reply.names (l.map toName)).body.length := by unfold sub32 HEADER; omega
    have s0 := St.header (id := id) (type := FTP_NAME) (len := (Reply.names (l.map toName)).body.length) out (by omega) (by omega)
    have s1 := s0.put32 l.length (by rw [hdr_length]; omega)
    rw [hl] at s1
    obtain ⟨m', e1, e2⟩ := putNames_st (namesSz l) hlt l _ _ h1 s1 (by
      rw [List.length_append, hdr_length, enc32_length, hlen]; omega)
    have hp : hdr id FTP_NAME (Reply.names (l.map toName)).body.length ++ encUint32 l.length ++ (l.map toName).flatMap encName =
        (Reply.names (l.map toName)).packet id := by
      rw [packet_eq]; simp [Reply.body, Reply.type, FTP_NAME]
    rw [hp] at e2
    have e3 := e2.done (by rw [packet_length, hsz])
    rw [e3] at e1
    simp only [h9, e1]
    rw [read_all _ (by rw [packet_length, hsz])]
    rfl

/-- REALPATH answers in the memory of the request if that is large enough. -/
theorem realReply_eq {E : Env} (hE : Good E) (id : Nat) (p data : Bytes) (hp : p.length < 256) :
    realReply E id p data data.length =
      some (if mem E (.names [(p, p, {})]) || decide (25 + 2 * p.length ≤ data.length) then .ok ((Reply.names [(p, p, {})]).packet id)
        else .error .memory) := by
  have ha4 : attributesSz {} = 4 := by decide
  have he4 : encAttrs {} = encUint32 0 := by decide
  have hb : (Reply.names [(p, p, {})]).body.length = 16 + 2 * p.length := by
    simp [Reply.body, encName, encString, enc32_length, he4]; omega
  have hz : HEADER + 12 + p.length * 2 + attributesSz {} = 25 + 2 * p.length := by rw [ha4]; unfold HEADER; omega
  unfold realReply mem
  simp only [hz, hb, show 9 + (16 + 2 * p.length) = 25 + 2 * p.length by omega,
    show sub32 (25 + 2 * p.length) HEADER = 16 + 2 * p.length by unfold sub32 HEADER; omega]
  have key : ∀ out : Bytes, 25 + 2 * p.length ≤ out.length →
      ((setAttributes {} (putBytes p (Wolf.Sftp.put32 p.length (putBytes p (Wolf.Sftp.put32 p.length (Wolf.Sftp.put32 1
        ((setHeader id FTP_NAME (16 + 2 * p.length) out).map fun out => (out, HEADER)))))))).bind fun x =>
        (Buffer.read x.1 0 (25 + 2 * p.length)).map (Except.ok (ε := Err))) = some (.ok ((Reply.names [(p, p, {})]).packet id)) := by
    intro out hl
    have s0 := St.header (id := id) (type := FTP_NAME) (len := 16 + 2 * p.length) out (by omega) (by omega)
    have e0 := hdr_length id FTP_NAME (16 + 2 * p.length)
    have s1 := s0.put32 1 (by omega)
    have s2 := s1.put32 p.length (by simp [e0, enc32_length]; omega)
    have s3 := s2.put p (by simp [e0, enc32_length]; omega)
    have s4 := s3.put32 p.length (by simp [e0, enc32_length]; omega)
    have s5 := s4.put p (by simp [e0, enc32_length]; omega)
    have s6 := setAttributes_st (a := {}) (Or.inl rfl) s5 (by simp [e0, enc32_length, ha4]; omega)
    have hpk : hdr id FTP_NAME (16 + 2 * p.length) ++ encUint32 1 ++ encUint32 p.length ++ p ++ encUint32 p.length ++ p ++
        encAttrs (toAttrs {}) = (Reply.names [(p, p, {})]).packet id := by
      rw [packet_eq, hb, show toAttrs {} = {} by decide]
      simp [Reply.body, Reply.type, encName, encString, FTP_NAME]
    rw [hpk] at s6
    obtain ⟨o, ho, hr, _⟩ := s6.upto
    rw [packet_length, hb] at ho hr
    rw [ho]
    simp only [Option.bind_some]
    rw [show 25 + 2 * p.length = 9 + (16 + 2 * p.length) by omega, hr]
    rfl
  unfold realOut
  by_cases hx : 25 + 2 * p.length ≤ data.length
  · rw [if_neg (by omega)]
    simp only [hx, decide_true, Bool.or_true, if_true]
    exact key data hx
  · rw [if_pos (by omega)]
    simp only [hx, decide_false, Bool.or_false]
    cases ha : E.alloc (25 + 2 * p.length) with
    | none => rfl
    | some out =>
      simp only [Option.isSome_some, if_true]
      exact key out (by rw [hE.alloc _ _ ha]; exact Nat.le_refl _)

/-- The reply to an unknown type. -/
def unsupported : Reply := .status 4 (asc "Unknown/Unsupported packet type") english

theorem recvUnknown_eq {E : Env} (hE : Good E) (s : Sess) (id : Nat) (data : Bytes) :
    recvUnknown E s id data = some (if mem E unsupported || decide (59 ≤ data.length) then
      ⟨none, s, [], some (unsupported.packet id)⟩ else ⟨some .fatal, s, [], none⟩) := by
  have hl : (asc "Unknown/Unsupported packet type").length = 31 := by decide
  have hz : statusSz (asc "Unknown/Unsupported packet type") english = 59 := by simp [statusSz, hl, english_len, HEADER]
  have hb : 9 + unsupported.body.length = 59 := by rw [← hz, statusSz_eq 4]; rfl
  unfold recvUnknown mem
  simp only [hz, hb]
  by_cases hx : 59 ≤ data.length
  · rw [if_neg (by omega)]
    obtain ⟨o, h1, h2⟩ := createStatus_at FTP_FAILURE id (asc "Unknown/Unsupported packet type") data data.length (by omega)
      (Nat.le_refl _) (by omega)
    simp only [h1, h2, hx, decide_true, Bool.or_true, if_true]
    rfl
  · rw [if_pos (by omega)]
    cases ha : E.alloc 59 with
    | none => simp [hx, stop]
    | some out =>
      obtain ⟨o, h1, h2⟩ := createStatus_at FTP_FAILURE id (asc "Unknown/Unsupported packet type") out 59 (by omega)
        (by rw [hE.alloc _ _ ha]; exact Nat.le_refl _) (by omega)
      simp only [Option.map_some, h1, h2, Option.isSome_some, Bool.true_or, if_true]
      rfl

/-- A status of READ, in the memory for the data if that is large enough. -/
theorem readStatus_eq {E : Env} (hE : Good E) (s : Sess) (calls : List Posix.Call) (st id : Nat) (msg : Bytes) (ret : Option Err)
    (out : Option Bytes) (n : Nat) (hm : msg.length < 1000) (ho : ∀ o, out = some o → o.length = n) :
    readStatus E s calls st id msg ret out n = some (if mem E (.status st msg english) || (out.isSome && decide (statusSz msg english ≤ n))
      then ⟨ret, s, calls, some ((Reply.status st msg english).packet id)⟩ else ⟨some .memory, s, calls, none⟩) := by
  unfold readStatus
  cases out with
  | none => simp only [finish_eq hE _ _ _ _ _ _ hm, ans]; simp
  | some o =>
    have hl := ho o rfl
    simp only
    by_cases hx : statusSz msg english > n
    · rw [if_pos hx]
      simp only [finish_eq hE _ _ _ _ _ _ hm, ans, show ¬ statusSz msg english ≤ n by omega]
      simp
    · rw [if_neg hx]
      obtain ⟨o', h1, h2⟩ := createStatus_at st id msg o (statusSz msg english) (Nat.le_refl _) (by omega) hm
      simp only [h1, h2, show statusSz msg english ≤ n by omega]
      simp

/-! ## Readers -/

variable {mem' : Bytes} {len : Nat}

theorem getStr_cases (idx : Nat) (hl : len ≤ mem'.length) (hw : len < 2^32) :
    (∃ e i, getStr mem' len idx = .err e i ∧ string (msgFrom mem' len idx) = none) ∨
    (∃ v i, getStr mem' len idx = .ok v i ∧ i ≤ len ∧ string (msgFrom mem' len idx) = some (v, msgFrom mem' len i)) := by
  unfold getStr
  rcases str_ref mem' len idx hl hw with ⟨r, s, h1, h2, _, _, h5, h6, h7⟩ | ⟨i, h1, h2⟩
  · refine .inr ⟨s, idx + 4 + s.length, by simp only [h1, h2], h6, ?_⟩
    rw [h5]
    exact string_enc s _ (by omega)
  · exact .inl ⟨.bufferE, i, by simp only [h1], h2⟩

theorem skip_cases (idx : Nat) (hl : len ≤ mem'.length) (hw : len < 2^32) :
    (∃ e i, getSkip mem' len idx = .err e i ∧ string (msgFrom mem' len idx) = none) ∨
    (∃ s i, getSkip mem' len idx = .ok () i ∧ i ≤ len ∧ string (msgFrom mem' len idx) = some (s, msgFrom mem' len i)) := by
  rcases skip_spec mem' len idx hl hw with ⟨s, h1, h2, h3⟩ | ⟨e, i, h1, h2⟩
  · refine .inr ⟨s, _, h1, h3, ?_⟩
    rw [h2]
    have := congrArg List.length h2
    rw [msgFrom_length _ _ _ hl, List.length_append, enc_length] at this
    exact string_enc s _ (by omega)
  · exact .inl ⟨e, i, h1, h2⟩

theorem uint64_eq (msg : Bytes) :
    uint64 msg = (uint32 msg).bind fun a => (uint32 a.2).map fun b => (a.1 * 2 ^ 32 + b.1, b.2) := by
  unfold uint64 uint32
  by_cases h8 : 8 ≤ msg.length
  · rw [if_pos h8, if_pos (by omega)]
    simp only [Option.bind_some, List.length_drop]
    rw [if_pos (by omega)]
    simp only [Option.map_some, List.drop_drop]
    rw [show msg.take 8 = msg.take 4 ++ (msg.drop 4).take 4 by rw [← List.take_add]]
    rw [beNat_append]
    simp only [List.length_take, List.length_drop]
    rw [show min 4 (msg.length - 4) = 4 by omega]
  · rw [if_neg h8]
    by_cases h4 : 4 ≤ msg.length
    · rw [if_pos h4]
      simp only [Option.bind_some, List.length_drop]
      rw [if_neg (by omega)]
      rfl
    · rw [if_neg h4]; rfl

theorem optPair_cases (flag : Bool) (idx : Nat) (hi : idx ≤ len) (hl : len ≤ mem'.length) (hw : len < 2^32) :
    (∃ e i, optPair flag mem' len idx = .err e i ∧ flag = true ∧ pair (msgFrom mem' len idx) = none ∧
      uint64 (msgFrom mem' len idx) = none) ∨
    (∃ v i, optPair flag mem' len idx = .ok v i ∧ i ≤ len ∧ v.1 < 2 ^ 32 ∧ v.2 < 2 ^ 32 ∧
      (flag = true → pair (msgFrom mem' len idx) = some (v, msgFrom mem' len i) ∧
        uint64 (msgFrom mem' len idx) = some (v.1 * 2 ^ 32 + v.2, msgFrom mem' len i)) ∧
      (flag = false → i = idx)) := by
  cases flag with
  | false => exact .inr ⟨(0, 0), idx, rfl, hi, by decide, by decide, (fun h => nomatch h), fun _ => rfl⟩
  | true =>
    unfold optPair
    simp only [if_true]
    rcases Proofs.Reader.u32 idx hl hw with ⟨e, i, h1, h2⟩ | ⟨a, i, h1, h2, h3, h4⟩
    · exact .inl ⟨e, i, by rw [h1]; rfl, trivial, by simp [pair, h2], by simp [uint64_eq, h2]⟩
    · rw [h1]
      rcases Proofs.Reader.u32 i hl hw with ⟨e, j, g1, g2⟩ | ⟨b, j, g1, g2, g3, g4⟩
      · exact .inl ⟨e, j, by simp only [andThen, g1], trivial, by simp [pair, h4, g2], by simp [uint64_eq, h4, g2]⟩
      · exact .inr ⟨(a, b), j, by simp only [andThen, g1], g3, h2, g2, fun _ => ⟨by simp [pair, h4, g4], by simp [uint64_eq, h4, g4]⟩,
          (fun h => nomatch h)⟩

theorem optWord_cases (flag : Bool) (idx : Nat) (hi : idx ≤ len) (hl : len ≤ mem'.length) (hw : len < 2^32) :
    (∃ e i, optWord flag mem' len idx = .err e i ∧ flag = true ∧ uint32 (msgFrom mem' len idx) = none) ∨
    (∃ v i, optWord flag mem' len idx = .ok v i ∧ i ≤ len ∧ v < 2 ^ 32 ∧
      (flag = true → uint32 (msgFrom mem' len idx) = some (v, msgFrom mem' len i)) ∧
      (flag = false → i = idx ∧ v = 0)) := by
  cases flag with
  | false => exact .inr ⟨0, idx, rfl, hi, by decide, (fun h => nomatch h), fun _ => ⟨rfl, rfl⟩⟩
  | true =>
    unfold optWord
    simp only [if_true]
    rcases Proofs.Reader.u32 idx hl hw with ⟨e, i, h1, h2⟩ | ⟨a, i, h1, h2, h3, h4⟩
    · exact .inl ⟨e, i, h1, trivial, h2⟩
    · exact .inr ⟨a, i, h1, h3, h2, fun _ => h4, (fun h => nomatch h)⟩

theorem skipExts_cases (hl : len ≤ mem'.length) (hw : len < 2^32) : ∀ (n idx : Nat), idx ≤ len →
    (∃ e i, skipExts n mem' len idx = .err e i ∧ extensions n (msgFrom mem' len idx) = none) ∨
    (∃ i, skipExts n mem' len idx = .ok () i ∧ i ≤ len ∧ extensions n (msgFrom mem' len idx) = some (msgFrom mem' len i))
  | 0, idx, hi => .inr ⟨idx, rfl, hi, rfl⟩
  | n + 1, idx, hi => by
    unfold skipExts extensions
    rcases skip_cases idx hl hw with ⟨e, i, h1, h2⟩ | ⟨s, i, h1, h2, h3⟩
    · exact .inl ⟨e, i, by simp only [h1], by simp [h2]⟩
    · simp only [h1, h3, Option.bind_some]
      rcases skip_cases i hl hw with ⟨e, j, g1, g2⟩ | ⟨t, j, g1, g2, g3⟩
      · exact .inl ⟨e, j, by simp only [g1], by simp [g2]⟩
      · simp only [g1, g3, Option.bind_some]
        exact skipExts_cases hl hw n j g2

/-- A field, as the specification reads it. -/
theorem field_pair (flag : Bool) (m : Bytes) (v : Nat × Nat) (r : Bytes) (h1 : flag = true → pair m = some (v, r)) (h2 : flag = false → r = m) :
    field flag pair m = some (if flag then some v else none, r) := by
  cases flag with
  | false => simp [field, h2 rfl]
  | true => simp [field, h1 rfl]

theorem field_u64 (flag : Bool) (m : Bytes) (v : Nat) (r : Bytes) (h1 : flag = true → uint64 m = some (v, r)) (h2 : flag = false → r = m) :
    field flag uint64 m = some (if flag then some v else none, r) := by
  cases flag with
  | false => simp [field, h2 rfl]
  | true => simp [field, h1 rfl]

theorem field_u32 (flag : Bool) (m : Bytes) (v : Nat) (r : Bytes) (h1 : flag = true → uint32 m = some (v, r)) (h2 : flag = false → r = m) :
    field flag uint32 m = some (if flag then some v else none, r) := by
  cases flag with
  | false => simp [field, h2 rfl]
  | true => simp [field, h1 rfl]

theorem parseAttributes_cases (idx : Nat) (hl : len ≤ mem'.length) (hw : len < 2^32) :
    (∃ e i, parseAttributes mem' len idx = .err e i ∧ attrs (msgFrom mem' len idx) = none) ∨
    (∃ a i, parseAttributes mem' len idx = .ok a i ∧ i ≤ len ∧ a.per < 2 ^ 32 ∧
      attrs (msgFrom mem' len idx) = some (toAttrs a, msgFrom mem' len i)) := by
  unfold parseAttributes attrs
  rcases Proofs.Reader.u32 idx hl hw with ⟨e, i, h1, h2⟩ | ⟨flags, i, h1, hfl, h3, h4⟩
  · exact .inl ⟨e, i, by rw [h1]; rfl, by simp [h2]⟩
  rw [h1, h4]
  simp only [andThen, Option.bind_some]
  rcases optPair_cases (flags.testBit 0) i h3 hl hw with ⟨e, j, g1, g2, _, g3⟩ | ⟨sz, j, g1, g2, gb1, gb2, g3, g4⟩
  · exact .inl ⟨e, j, by simp only [g1], by simp [field, g2, g3]⟩
  have f1 := field_u64 (flags.testBit 0) (msgFrom mem' len i) (sz.1 * 2 ^ 32 + sz.2) (msgFrom mem' len j) (fun h => (g3 h).2)
    (fun h => by rw [g4 h])
  simp only [g1, f1, Option.bind_some]
  rcases optPair_cases (flags.testBit 1) j g2 hl hw with ⟨e, k, a1, a2, a3, _⟩ | ⟨ids, k, a1, a2, _, _, a3, a4⟩
  · exact .inl ⟨e, k, by simp only [a1], by simp [field, a2, a3]⟩
  have f2 := field_pair (flags.testBit 1) (msgFrom mem' len j) ids (msgFrom mem' len k) (fun h => (a3 h).1) (fun h => by rw [a4 h])
  simp only [a1, f2, Option.bind_some]
  rcases optWord_cases (flags.testBit 2) k a2 hl hw with ⟨e, l, b1, b2, b3⟩ | ⟨per, l, b1, b2, bp, b3, b4⟩
  · exact .inl ⟨e, l, by simp only [b1], by simp [field, b2, b3]⟩
  have f3 := field_u32 (flags.testBit 2) (msgFrom mem' len k) per (msgFrom mem' len l) b3 (fun h => by rw [(b4 h).1])
  simp only [b1, f3, Option.bind_some]
  rcases optPair_cases (flags.testBit 3) l b2 hl hw with ⟨e, m, c1, c2, c3, _⟩ | ⟨tm, m, c1, c2, _, _, c3, c4⟩
  · exact .inl ⟨e, m, by simp only [c1], by simp [field, c2, c3]⟩
  have f4 := field_pair (flags.testBit 3) (msgFrom mem' len l) tm (msgFrom mem' len m) (fun h => (c3 h).1) (fun h => by rw [c4 h])
  simp only [c1, f4, Option.bind_some]
  rcases optWord_cases (flags.testBit 31) m c2 hl hw with ⟨e, n, d1, d2, d3⟩ | ⟨ext, n, d1, d2, _, d3, d4⟩
  · exact .inl ⟨e, n, by simp only [d1], by simp [field, d2, d3]⟩
  have f5 := field_u32 (flags.testBit 31) (msgFrom mem' len m) ext (msgFrom mem' len n) d3 (fun h => by rw [(d4 h).1])
  have hext : (if flags.testBit 31 = true then some ext else none).getD 0 = ext := by
    cases hb : flags.testBit 31 with
    | true => rfl
    | false => simp [(d4 hb).2]
  simp only [d1, f5, Option.bind_some, hext]
  rcases skipExts_cases hl hw ext n d2 with ⟨e, o, e1, e2⟩ | ⟨o, e1, e2, e3⟩
  · exact .inl ⟨e, o, by simp only [e1], by simp [e2]⟩
  · simp only [e1, e3, Option.map_some]
    exact .inr ⟨_, o, rfl, e2, bp, rfl⟩

/-! ## Paths -/

open Spec.Path Proofs.Path

theorem short_fit {E : Env} (hE : Good E) (d : Option (List Bytes)) (p : Bytes) :
    Short d p ↔ p.length < 256 ∧ ∀ k, fit E.stack.length (resolve (start (d.getD []) (Wolf.Path.str p)) ((components (Wolf.Path.str p)).take k)) := by
  rw [hE.stack]
  rfl

theorem target_names {d : Option (List Bytes)} (hd : ∀ cs, d = some cs → ∀ c ∈ cs, Spec.Path.Name c) (p : Bytes) :
    ∀ c ∈ target d p, Spec.Path.Name c := by
  refine resolve_names (start_names ?_ _) (components_mem _ (str_no_zero p))
  cases d with
  | none => intro c hc; cases hc
  | some cs => exact hd cs rfl

/-- The error for a path that is too long. -/
def longErr (p : Bytes) : Err := if p.length < 256 then .invalidPath else .bufferE

theorem longErr_ne (p : Bytes) : longErr p ≠ .permissions := by unfold longErr; split <;> decide

theorem verdict_admit {d j : Option (List Bytes)} {isLink : Bytes → Bool} {p : Bytes} {cs : List Bytes}
    (h : verdict d j isLink p = .admit cs) : cs = target d p ∧ Confined j isLink cs ∧ (render cs).length < 256 ∧ Short d p := by
  unfold verdict at h
  by_cases hsh : Short d p
  · rw [if_pos hsh] at h
    by_cases hc : Confined j isLink (target d p)
    · rw [if_pos hc] at h
      cases h
      refine ⟨rfl, hc, ?_, hsh⟩
      have := hsh.2 (components (Wolf.Path.str p)).length
      rw [show (components (p.takeWhile (· ≠ 0))).take (components (Wolf.Path.str p)).length = components (p.takeWhile (· ≠ 0)) from
        List.take_length] at this
      exact this
    · rw [if_neg hc] at h; cases h
  · rw [if_neg hsh] at h; cases h

/-- `GetAndCleanPath` gives the verdict of the specification. -/
theorem clean_eq {E : Env} (hE : Good E) {s : Sess} {d j : Option (List Bytes)} (hs : Dirs s d j) (p : Bytes) :
    clean E s p = some (match verdict d j E.isLink p with
      | .admit cs => .ok (render cs)
      | .deny => .error .permissions
      | .tooLong => .error (longErr p)) := by
  obtain ⟨h0, h1, hA, hB, hC⟩ := getAndCleanPath_ok d j E.isLink p E.stack hs.dNames hs.jNames (by rw [hE.stack]; omega)
    (by rw [hE.stack]; omega) _ rfl _ rfl
  unfold clean
  rw [hs.default, hs.confine]
  by_cases hsh : Short d p
  · obtain ⟨g1, g2⟩ := (short_fit hE d p).1 hsh
    by_cases hc : Confined j E.isLink (target d p)
    · have : verdict d j E.isLink p = .admit (target d p) := by unfold verdict; rw [if_pos hsh, if_pos hc]
      rw [this]
      exact hC g1 g2 hc
    · have : verdict d j E.isLink p = .deny := by unfold verdict; rw [if_pos hsh, if_neg hc]
      rw [this]
      exact hB g1 g2 hc
  · have hv : verdict d j E.isLink p = .tooLong := by unfold verdict; rw [if_neg hsh]
    rw [hv]
    unfold longErr
    by_cases hl : p.length < 256
    · rw [if_pos hl]
      exact hA hl fun hf => hsh ((short_fit hE d p).2 ⟨hl, hf⟩)
    · rw [if_neg hl]
      exact h1 (by omega)

end Proofs.Sftp
