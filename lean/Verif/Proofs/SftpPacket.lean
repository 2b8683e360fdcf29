import Verif.Model.Sftp
import Verif.Spec.SftpServer
import Verif.Proofs.Exchange
/-! What the packet building functions of the SFTP server leave in memory. -/

namespace Proofs.Sftp
open Wolf Wolf.Wire Wolf.Buffer Wolf.Sftp Wolf.NameList Spec.Wire Spec.Sftp Proofs.Exchange

/-- `pre` is written, the index is behind it, the memory has `n` bytes. -/
def St (n : Nat) (m : Option (Bytes × Nat)) (pre : Bytes) : Prop :=
  ∃ rest, m = some (pre ++ rest, pre.length) ∧ pre.length + rest.length = n

theorem St.put {n m pre} (h : St n m pre) (d : Bytes) (hd : pre.length + d.length ≤ n) : St n (putBytes d m) (pre ++ d) := by
  obtain ⟨rest, rfl, hl⟩ := h
  refine ⟨rest.drop d.length, ?_, by simp; omega⟩
  unfold putBytes write
  simp only [Option.bind_some]
  rw [if_pos (by simp; omega)]
  simp

theorem put32_eq (v : Nat) (m : Option (Bytes × Nat)) : put32 v m = putBytes (encUint32 v) m := by
  unfold put32 putBytes
  rw [c32toa_eq]
  rfl

theorem enc32_length (v : Nat) : (encUint32 v).length = 4 := rfl

theorem St.put32 {n m pre} (h : St n m pre) (v : Nat) (hd : pre.length + 4 ≤ n) : St n (Wolf.Sftp.put32 v m) (pre ++ encUint32 v) := by
  rw [put32_eq]; exact h.put _ (by rw [enc32_length]; omega)

/-- The header of a packet with `len` bytes behind it. -/
def hdr (id : Nat) (type : Byte) (len : Nat) : Bytes := encUint32 (len + 5) ++ [type] ++ encUint32 id

theorem hdr_length (id : Nat) (type : Byte) (len : Nat) : (hdr id type len).length = 9 := by simp [hdr, enc32_length]

theorem St.header {id type len} (out : Bytes) (hl : 9 ≤ out.length) (hs : len + 5 < 2 ^ 32) :
    St out.length ((setHeader id type len out).map fun out => (out, HEADER)) (hdr id type len) := by
  unfold setHeader write
  rw [c32toa_eq, c32toa_eq, show add32 len 5 = len + 5 by unfold add32; omega]
  refine ⟨out.drop 9, ?_, by rw [hdr_length]; simp; omega⟩
  rw [if_pos (by simp [enc32_length]; omega), hdr_length]
  simp [hdr, enc32_length, HEADER]

theorem St.done {n m pre} (h : St n m pre) (hn : pre.length = n) : m = some (pre, n) := by
  obtain ⟨rest, rfl, hl⟩ := h
  have : rest = [] := List.eq_nil_of_length_eq_zero (by omega)
  subst this
  simp [hn]

theorem St.upto {n m pre} (h : St n m pre) : ∃ out, m = some (out, pre.length) ∧ read out 0 pre.length = some pre ∧ out.length = n := by
  obtain ⟨rest, rfl, hl⟩ := h
  refine ⟨_, rfl, ?_, by simp [hl]⟩
  unfold Buffer.read
  rw [if_pos (by simp)]
  simp

theorem read_all (p : Bytes) {n : Nat} (h : p.length = n) : read p 0 n = some p := by
  unfold Buffer.read; subst h; simp

theorem packet_eq (id : Nat) (r : Reply) : r.packet id = hdr id r.type r.body.length ++ r.body := by
  simp [Reply.packet, encString, hdr, enc32_length]
  rw [show 4 + r.body.length + 1 = r.body.length + 5 by omega]

theorem packet_length (id : Nat) (r : Reply) : (r.packet id).length = 9 + r.body.length := by
  rw [packet_eq]; simp [hdr_length]

/-- There is memory for a reply. -/
def mem (E : Env) (r : Reply) : Bool := (E.alloc (9 + r.body.length)).isSome

/-- A packet in new memory. -/
def fresh (E : Env) (id : Nat) (r : Reply) : Except Err Bytes := if mem E r then .ok (r.packet id) else .error .memory

theorem english_len : english.length = 7 := by decide

theorem statusSz_eq (st : Nat) (msg : Bytes) : statusSz msg english = 9 + (Reply.status st msg english).body.length := by
  simp [statusSz, Reply.body, encString, enc32_length, HEADER]; omega

/-- A status in memory with enough bytes. -/
theorem createStatus_at (st id : Nat) (msg out : Bytes) (outSz : Nat) (h1 : statusSz msg english ≤ outSz)
    (h2 : outSz ≤ out.length) (hm : msg.length < 1000) :
    ∃ out', createStatus st id msg english out outSz = some (.ok (out', statusSz msg english)) ∧
      read out' 0 (statusSz msg english) = some ((Reply.status st msg english).packet id) := by
  have hsz : statusSz msg english = 28 + msg.length := by simp [statusSz, HEADER, english_len]; omega
  have h9 : sub32 (statusSz msg english) HEADER = 19 + msg.length := by rw [hsz]; unfold sub32 HEADER; omega
  unfold createStatus
  rw [if_neg (by omega), h9]
  have s0 : St out.length ((setHeader id FTP_STATUS (19 + msg.length) out).map fun out => (out, HEADER)) _ :=
    St.header out (by omega) (by omega)
  have e0 := hdr_length id FTP_STATUS (19 + msg.length)
  have s1 := s0.put32 st (by omega)
  have s2 := s1.put32 msg.length (by simp [e0, enc32_length]; omega)
  have s3 := s2.put msg (by simp [e0, enc32_length]; omega)
  have s4 := s3.put32 english.length (by simp [e0, enc32_length]; omega)
  have s5 := s4.put english (by simp [e0, enc32_length, english_len]; omega)
  obtain ⟨o, ho, hr, _⟩ := s5.upto
  have hb : (Reply.status st msg english).body.length = 19 + msg.length := by
    simp [Reply.body, encString, enc32_length, english_len]; omega
  have hp : hdr id FTP_STATUS (19 + msg.length) ++ encUint32 st ++ encUint32 msg.length ++ msg ++ encUint32 english.length ++ english =
      (Reply.status st msg english).packet id := by
    rw [packet_eq, hb]
    simp [Reply.body, Reply.type, encString, FTP_STATUS]
  have hl : ((Reply.status st msg english).packet id).length = statusSz msg english := by rw [packet_length, hb, hsz]; omega
  rw [hp, hl] at ho hr
  rw [ho]
  exact ⟨o, rfl, hr⟩

theorem newStatus_eq {E : Env} (hE : Good E) (st id : Nat) (msg : Bytes) (hm : msg.length < 1000) :
    newStatus E st id msg = some (fresh E id (.status st msg english)) := by
  unfold newStatus fresh mem
  rw [← statusSz_eq]
  cases ha : E.alloc (statusSz msg english) with
  | none => rfl
  | some out =>
    obtain ⟨o, h1, h2⟩ := createStatus_at st id msg out _ (Nat.le_refl _) (by rw [hE.alloc _ _ ha]; exact Nat.le_refl _) hm
    simp only [h1, h2]
    rfl

/-- The end of a handler with a packet in new memory. -/
def ans (E : Env) (s : Sess) (calls : List Posix.Call) (id : Nat) (r : Reply) (ret : Option Err) : Out :=
  if mem E r then ⟨ret, s, calls, some (r.packet id)⟩ else ⟨some .memory, s, calls, none⟩

theorem finish_eq {E : Env} (hE : Good E) (s : Sess) (calls : List Posix.Call) (st id : Nat) (msg : Bytes) (ret : Option Err)
    (hm : msg.length < 1000) : finish E s calls st id msg ret = some (ans E s calls id (.status st msg english) ret) := by
  unfold finish ans
  rw [newStatus_eq hE st id msg hm]
  unfold fresh
  by_cases h : mem E (.status st msg english) = true <;> simp [h]

theorem createPacket_eq (s : Sess) (type : Byte) (out : Bytes) (n : Nat) (h : 13 ≤ n) (hn : n ≤ out.length) (hw : n < 2 ^ 32) :
    ∃ rest, rest = out.drop 13 ∧ createPacket s type out n none = some (.ok (hdr s.reqId type (n - 9) ++ encUint32 (n - 13) ++ rest)) := by
  refine ⟨_, rfl, ?_⟩
  unfold createPacket
  rw [if_neg (by unfold HEADER; omega), show sub32 n HEADER = n - 9 by unfold sub32 HEADER; omega,
    show sub32 (n - 9) 4 = n - 13 by unfold sub32; omega]
  unfold setHeader Wolf.Sftp.put32 write
  rw [c32toa_eq, c32toa_eq, c32toa_eq, show add32 (n - 9) 5 = n - 9 + 5 by unfold add32; omega]
  rw [if_pos (by simp [enc32_length]; omega)]
  simp only [Option.map_some, Option.bind_some]
  rw [if_pos (by simp [enc32_length, HEADER]; omega)]
  have h9 : (encUint32 (n - 9 + 5) ++ [type] ++ encUint32 s.reqId).length = 9 := by simp [enc32_length]
  simp only [List.take_zero, List.nil_append, HEADER, Nat.zero_add, h9, hdr, enc32_length]
  rw [List.take_append_of_le_length (by rw [h9]; omega), List.take_of_length_le (by rw [h9]; omega),
    List.drop_append, List.drop_eq_nil_of_le (by rw [h9]; omega), h9, List.drop_drop]
  rfl

theorem encodeId_eq (id : Nat × Nat) : encodeId id = encUint32 id.1 ++ encUint32 id.2 := by
  unfold encodeId; rw [c32toa_eq, c32toa_eq]

theorem newHandle_eq {E : Env} (hE : Good E) (s : Sess) (id : Nat × Nat) :
    newHandle E s id = some (fresh E s.reqId (.handle (encodeId id))) := by
  have hid : (encodeId id).length = 8 := by simp [encodeId_eq, enc32_length]
  have hb : (Reply.handle (encodeId id)).body.length = 12 := by simp [Reply.body, encString, enc32_length, hid]
  unfold newHandle fresh mem
  rw [hb]
  unfold HANDLE_ID_SZ HEADER
  cases ha : E.alloc 21 with
  | none => rfl
  | some out =>
    have hl := hE.alloc _ _ ha
    simp only [Nat.reduceAdd, Option.isSome_some, if_true]
    obtain ⟨rest, hr, e⟩ := createPacket_eq s FTP_HANDLE out 21 (by omega) (by omega) (by omega)
    unfold createPacket at e ⊢
    rw [if_neg (by unfold HEADER; omega)] at e ⊢
    revert e
    cases hp : Wolf.Sftp.put32 (sub32 (sub32 21 HEADER) 4)
      ((setHeader s.reqId FTP_HANDLE (sub32 21 HEADER) out).map fun out => (out, HEADER)) with
    | none => intro e; cases e
    | some q =>
      intro e
      simp only [Option.some.injEq, Except.ok.injEq] at e
      simp only
      rw [if_neg (by rw [hid]; unfold HEADER; omega), e]
      unfold write
      rw [if_pos (by rw [hid]; simp [hr, hdr_length, enc32_length]; omega)]
      have : (hdr s.reqId FTP_HANDLE (21 - 9) ++ encUint32 (21 - 13) ++ rest).take 13 ++ encodeId id ++
          (hdr s.reqId FTP_HANDLE (21 - 9) ++ encUint32 (21 - 13) ++ rest).drop (13 + (encodeId id).length) =
          (Reply.handle (encodeId id)).packet s.reqId := by
        rw [packet_eq, hb, hid, List.take_append_of_le_length (by simp [hdr_length, enc32_length]),
          List.take_of_length_le (by simp [hdr_length, enc32_length]),
          List.drop_eq_nil_of_le (by simp [hdr_length, enc32_length, hr]; omega)]
        simp [Reply.body, Reply.type, encString, hid, FTP_HANDLE]
      rw [this]
      simp only [Option.map_some]
      rw [read_all _ (by rw [packet_length, hb])]
      rfl

/-- The attributes the code calls `a`. -/
def toAttrs (a : Attr) : Attrs :=
  { size := if a.flags.testBit 0 then some (a.sz1 * 2 ^ 32 + a.sz0) else none
    owner := if a.flags.testBit 1 then some (a.uid, a.gid) else none
    perm := if a.flags.testBit 2 then some a.per else none
    times := if a.flags.testBit 3 then some (a.atime, a.mtime) else none }

/-- Attributes the server sends: those of a file, or none. -/
def Sendable (a : Attr) : Prop := a = {} ∨ ∃ st, a = ofStat st

theorem attrs_length {a : Attr} (h : Sendable a) : attributesSz a = (encAttrs (toAttrs a)).length ∧ attributesSz a ≤ 32 := by
  rcases h with rfl | ⟨st, rfl⟩
  · decide
  · simp [attributesSz, ofStat, toAttrs, encAttrs, encField, encUint64, enc32_length, Nat.testBit]

theorem setAttributes_st {a : Attr} (h : Sendable a) {n m pre} (hs : St n m pre) (hl : pre.length + attributesSz a ≤ n) :
    St n (setAttributes a m) (pre ++ encAttrs (toAttrs a)) := by
  rcases h with rfl | ⟨st, rfl⟩
  · have : attributesSz {} = 4 := by decide
    rw [this] at hl
    have e : setAttributes {} m = Wolf.Sftp.put32 0 m := by simp [setAttributes]
    rw [e]
    have h1 := hs.put32 0 hl
    have : encAttrs (toAttrs {}) = encUint32 0 := by decide
    rwa [this]
  · have : attributesSz (ofStat st) = 32 := by simp [attributesSz, ofStat, Nat.testBit]
    rw [this] at hl
    have e : setAttributes (ofStat st) m = Wolf.Sftp.put32 (st.mtime % 2 ^ 32) (Wolf.Sftp.put32 (st.atime % 2 ^ 32)
        (Wolf.Sftp.put32 (st.mode % 2 ^ 32) (Wolf.Sftp.put32 (st.gid % 2 ^ 32) (Wolf.Sftp.put32 (st.uid % 2 ^ 32)
        (Wolf.Sftp.put32 (st.size % 2 ^ 32) (Wolf.Sftp.put32 (st.size / 2 ^ 32 % 2 ^ 32) (Wolf.Sftp.put32 15 m))))))) := by
      simp [setAttributes, ofStat, Nat.testBit]
    rw [e]
    have h1 := hs.put32 15 (by omega)
    have h2 := h1.put32 (st.size / 2 ^ 32 % 2 ^ 32) (by simp [enc32_length]; omega)
    have h3 := h2.put32 (st.size % 2 ^ 32) (by simp [enc32_length]; omega)
    have h4 := h3.put32 (st.uid % 2 ^ 32) (by simp [enc32_length]; omega)
    have h5 := h4.put32 (st.gid % 2 ^ 32) (by simp [enc32_length]; omega)
    have h6 := h5.put32 (st.mode % 2 ^ 32) (by simp [enc32_length]; omega)
    have h7 := h6.put32 (st.atime % 2 ^ 32) (by simp [enc32_length]; omega)
    have h8 := h7.put32 (st.mtime % 2 ^ 32) (by simp [enc32_length]; omega)
    have : encAttrs (toAttrs (ofStat st)) = encUint32 15 ++ encUint32 (st.size / 2 ^ 32 % 2 ^ 32) ++ encUint32 (st.size % 2 ^ 32) ++
        encUint32 (st.uid % 2 ^ 32) ++ encUint32 (st.gid % 2 ^ 32) ++ encUint32 (st.mode % 2 ^ 32) ++
        encUint32 (st.atime % 2 ^ 32) ++ encUint32 (st.mtime % 2 ^ 32) := by
      have a1 : (st.size / 2 ^ 32 % 2 ^ 32 * 2 ^ 32 + st.size % 2 ^ 32) / 2 ^ 32 = st.size / 2 ^ 32 % 2 ^ 32 := by omega
      have a2 : (st.size / 2 ^ 32 % 2 ^ 32 * 2 ^ 32 + st.size % 2 ^ 32) % 2 ^ 32 = st.size % 2 ^ 32 := by omega
      simp only [encAttrs, toAttrs, ofStat, Nat.testBit, encField, encUint64, Attrs.flags]
      simp [a1, a2]
    rw [this]
    simpa only [List.append_assoc] using h8

theorem newAttrs_eq {E : Env} (hE : Good E) (id : Nat) (a : Attr) (h : Sendable a) :
    newAttrs E id a = some (fresh E id (.attrs (toAttrs a))) := by
  obtain ⟨h1, h2⟩ := attrs_length h
  unfold newAttrs fresh mem
  have hb : (Reply.attrs (toAttrs a)).body.length = attributesSz a := h1.symm
  rw [hb, show attributesSz a + HEADER = 9 + attributesSz a by unfold HEADER; omega]
  cases ha : E.alloc (9 + attributesSz a) with
  | none => rfl
  | some out =>
    have hl := hE.alloc _ _ ha
    have s0 := St.header (id := id) (type := FTP_ATTRS) (len := attributesSz a) out (by omega) (by omega)
    have s1 := setAttributes_st h s0 (by rw [hdr_length]; omega)
    have e1 := s1.done (by rw [List.length_append, hdr_length, ← h1, hl])
    have hp : hdr id FTP_ATTRS (attributesSz a) ++ encAttrs (toAttrs a) = (Reply.attrs (toAttrs a)).packet id := by
      rw [packet_eq, hb]; rfl
    simp only [e1, hp, Option.bind_some, Option.isSome_some, if_true]
    rw [read_all _ (by rw [packet_length, hb])]
    rfl

end Proofs.Sftp
