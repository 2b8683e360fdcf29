import Verif.Model.SftpOps
import Verif.Spec.SftpOps
import Verif.Proofs.SftpGetData
import Verif.Proofs.SftpPut
/-! # The SFTP client's other calls: what they send and how they end -/

namespace Proofs.SftpOps
open Wolf Wolf.Wire Wolf.Sftp Wolf.SftpClient Wolf.SftpOps Proofs.SftpLoop Proofs.SftpClient
open Spec.Wire Spec.Sftp
open Spec.SftpOps (Request)
open Proofs.Sftp (toAttrs)

/-! ## Packets -/

theorem packet_eq (id : Nat) (r : Request) : r.packet id = encUint32 (r.body.length + 5) ++ (r.type :: encUint32 id) ++ r.body := by
  unfold Request.packet encString
  have : (r.type :: (encUint32 id ++ r.body)).length = r.body.length + 5 := by simp [enc_len]; omega
  rw [this]; simp

theorem type_eq (r : Request) (id : Nat) (p : Bytes) (hb : r.body = encString p) : typePacket r.type id p = r.packet id := by
  rw [packet_eq, typePacket, header_eq, hb]
  have : (encString p).length = p.length + 4 := by simp [encString, enc_len]; omega
  rw [this]
  have e : encUint32 (add32 p.length 4 + 5) = encUint32 (p.length + 4 + 5) := by
    unfold add32; rw [← enc_mod, ← enc_mod (p.length + 4 + 5)]; congr 1; omega
  rw [e]
  simp [str, encString, c32toa_eq]

theorem rename_eq (id : Nat) (old new : Bytes) : renamePacket id old new = (Request.rename old new).packet id := by
  rw [packet_eq, renamePacket, header_eq]
  have : (Request.rename old new).body.length = old.length + new.length + 8 := by simp [Request.body, encString, enc_len]; omega
  rw [this]
  simp [Request.type, Request.body, str, encString, c32toa_eq]

theorem mkdir_eq (id : Nat) (p : Bytes) : mkdirPacket id p = (Request.mkdir p { perm := some 0o777 }).packet id := by
  rw [packet_eq, mkdirPacket, header_eq]
  have : (Request.mkdir p { perm := some 0o777 }).body.length = p.length + 12 := by
    simp [Request.body, encString, enc_len, encAttrs, encField]; omega
  rw [this]
  simp [Request.type, Request.body, str, encString, c32toa_eq, encAttrs, encField, Attrs.flags]

/-- Attributes that go into a request as they are. -/
structure Plain (a : Attr) : Prop where
  flags : a.flags < 16
  sz0 : a.sz0 < 2 ^ 32

theorem bit31 {n : Nat} (h : n < 16) : n.testBit 31 = false := by
  have : n < 2 ^ 31 := by omega
  exact Nat.testBit_lt_two_pow this

theorem flags_of {n : Nat} (h : n < 16) :
    n = (n.testBit 0).toNat + 2 * (n.testBit 1).toNat + 4 * (n.testBit 2).toNat + 8 * (n.testBit 3).toNat := by
  have : n = 0 ∨ n = 1 ∨ n = 2 ∨ n = 3 ∨ n = 4 ∨ n = 5 ∨ n = 6 ∨ n = 7 ∨ n = 8 ∨ n = 9 ∨ n = 10 ∨ n = 11 ∨ n = 12 ∨ n = 13 ∨ n = 14 ∨ n = 15 := by
    omega
  rcases this with rfl | rfl | rfl | rfl | rfl | rfl | rfl | rfl | rfl | rfl | rfl | rfl | rfl | rfl | rfl | rfl <;> decide

theorem attrBytes_eq {a : Attr} (h : Plain a) : attrBytes a = encAttrs (toAttrs a) := by
  have hf : (toAttrs a).flags = a.flags := by
    unfold toAttrs Attrs.flags
    rw [flags_of h.flags]
    generalize a.flags.testBit 0 = b0
    generalize a.flags.testBit 1 = b1
    generalize a.flags.testBit 2 = b2
    generalize a.flags.testBit 3 = b3
    cases b0 <;> cases b1 <;> cases b2 <;> cases b3 <;> rfl
  unfold attrBytes encAttrs
  rw [hf, bit31 h.flags]
  have e64 := enc64 (a.sz0, a.sz1) h.sz0
  simp only [val] at e64
  simp only [toAttrs, c32toa_eq]
  cases a.flags.testBit 0 <;> cases a.flags.testBit 1 <;> cases a.flags.testBit 2 <;> cases a.flags.testBit 3 <;> simp [encField, e64, ← List.append_assoc]

theorem attributesSz_eq {a : Attr} (h : Plain a) : attributesSz a = (encAttrs (toAttrs a)).length := by
  rw [← attrBytes_eq h]
  unfold attributesSz attrBytes
  rw [bit31 h.flags]
  cases a.flags.testBit 0 <;> cases a.flags.testBit 1 <;> cases a.flags.testBit 2 <;> cases a.flags.testBit 3 <;> simp [c32toa_eq, enc_len]

theorem setstat_eq (id : Nat) (p : Bytes) {a : Attr} (h : Plain a) : setstatPacket id p a = (Request.setstat p (toAttrs a)).packet id := by
  rw [packet_eq, setstatPacket, header_eq, attributesSz_eq h, attrBytes_eq h]
  have : (Request.setstat p (toAttrs a)).body.length = p.length + (encAttrs (toAttrs a)).length + 4 := by
    simp [Request.body, encString, enc_len]; omega
  rw [this]
  simp [Request.type, Request.body, str, encString, c32toa_eq]

/-! ## Sending -/

/-- A packet is not begun, or partly sent. -/
def Part (B Q : Bytes) (c : Chan) : Prop :=
  (c.pkt = none ∧ c.out = B) ∨ ∃ i, c.pkt = some (Q, i) ∧ i ≤ Q.length ∧ c.out = B ++ Q.take i

theorem Part.cut {B Q : Bytes} {c : Chan} (h : Part B Q c) : ∃ n, c.out = B ++ Q.take n := by
  rcases h with ⟨_, h⟩ | ⟨i, _, _, h⟩
  · exact ⟨0, by simpa using h⟩
  · exact ⟨i, h⟩

theorem sendType_part {B : Bytes} {t : Byte} {buf : Bytes} {id : Nat} {c : Chan} (res : Except Err Nat) (err : Ret) (hid : c.reqId = id)
    (h : Part B (typePacket t id buf) c) :
    match sendType res err t buf c with
    | (c', some true) => c'.pkt = none ∧ c'.out = B ++ typePacket t id buf
    | (c', _) => Part B (typePacket t id buf) c' := by
  have hp : ∃ i, c.pkt.getD (typePacket t c.reqId buf, 0) = (typePacket t id buf, i) ∧ i ≤ (typePacket t id buf).length ∧
      c.out = B ++ (typePacket t id buf).take i := by
    rcases h with ⟨h1, h2⟩ | ⟨i, h1, h2, h3⟩
    · exact ⟨0, by rw [h1, hid]; rfl, Nat.zero_le _, by simpa using h2⟩
    · exact ⟨i, by rw [h1]; rfl, h2, h3⟩
  obtain ⟨i, e, hi, ho⟩ := hp
  unfold sendType
  rw [e]
  generalize typePacket t id buf = Q at *
  cases res with
  | error x => exact .inr ⟨i, rfl, hi, ho⟩
  | ok k =>
    obtain ⟨s1, s2⟩ := sendSome_out k err c Q i B hi ho
    simp only
    by_cases hlt : (sendSome k err c Q i).2 < Q.length
    · rw [if_pos hlt]
      exact .inr ⟨_, rfl, s2, s1⟩
    · rw [if_neg hlt]
      exact ⟨rfl, by rw [s1, not_lt_take hlt]⟩

/-! ## Asking about a file: what is sent -/

/-- A request of type `t` for `p` with this id, `B` having been sent before. -/
def LookS (B : Bytes) (t : Byte) (p : Bytes) (id : Nat) (c : Chan) : Stat → Prop
  | .send => c.reqId = id ∧ Part B (typePacket t id p) c
  | .head _ => c.reqId = id ∧ c.pkt = none ∧ c.out = B ++ typePacket t id p
  | .check .. => c.reqId = id ∧ c.pkt = none ∧ c.out = B ++ typePacket t id p
  | .body .. => c.reqId = add32 id 1 ∧ c.pkt = none ∧ c.out = B ++ typePacket t id p

def LookR (B : Bytes) (t : Byte) (p : Bytes) (id : Nat) : Chan × Out Stat Attr → Prop
  | (c, .more s) => LookS B t p id c s
  | (c, .again s) => LookS B t p id c s
  | (c, .ret (some _)) => c.reqId = add32 id 1 ∧ c.pkt = none ∧ c.out = B ++ typePacket t id p
  | (c, .ret none) => (c.pkt = none ∧ c.out = B ++ typePacket t id p) ∨ (notice c.err = false ∧ Part B (typePacket t id p) c)
  | (_, .ub) => True

theorem lookR_ite {B : Bytes} {t : Byte} {p : Bytes} {id : Nat} {b : Prop} [Decidable b] {x y : Chan × Out Stat Attr}
    (hx : b → LookR B t p id x) (hy : ¬ b → LookR B t p id y) : LookR B t p id (if b then x else y) := by
  by_cases hb : b
  · rw [if_pos hb]; exact hx hb
  · rw [if_neg hb]; exact hy hb

theorem lookCheck_sent {B : Bytes} {t : Byte} {p : Bytes} {id : Nat} {c : Chan} (type i sz : Nat) (h1 : c.reqId = id) (h2 : c.pkt = none)
    (h3 : c.out = B ++ typePacket t id p) : LookR B t p id (lookCheck c type i sz) := by
  unfold lookCheck
  exact lookR_ite (fun _ => ⟨h1, h2, h3⟩) (fun _ => ⟨by rw [← h1], h2, h3⟩)

theorem lookReply_sent {B : Bytes} {t : Byte} {p : Bytes} {id : Nat} {c : Chan} (type sz : Nat) (got : Bytes) (h1 : c.reqId = add32 id 1)
    (h2 : c.pkt = none) (h3 : c.out = B ++ typePacket t id p) : LookR B t p id (c, lookReply c type sz got) := by
  unfold lookReply
  split
  · cases parseAttributes got got.length 0 with
    | ok a i => exact ⟨h1, h2, h3⟩
    | ub => exact True.intro
    | err e i =>
      dsimp only
      split
      · exact ⟨h1, h2, h3⟩
      · cases fillAttrs got with
        | on a i => exact ⟨h1, h2, h3⟩
        | stop a => exact ⟨h1, h2, h3⟩
        | ub => exact True.intro
  · split
    · cases doStatus got with
      | ok code i =>
        dsimp only
        split
        · exact ⟨h1, h2, h3⟩
        · exact .inl ⟨h2, h3⟩
      | err e i => exact .inl ⟨h2, h3⟩
      | ub => exact True.intro
    · exact .inl ⟨h2, h3⟩

theorem lookStep_sent {B : Bytes} {t : Byte} {p : Bytes} {id : Nat} (ev : Ev) {c : Chan} {s : Stat} (h : LookS B t p id c s) :
    LookR B t p id (lookStep t p ev c s) := by
  cases s with
  | send =>
    cases ev <;> try exact h
    case send res err pend =>
      obtain ⟨h1, h2⟩ := h
      have hs := sendType_part res err h1 h2
      have hf := (sendType_frame res err t p c).2.1
      simp only [lookStep]
      generalize sendType res err t p c = q at hs hf ⊢
      obtain ⟨c', o⟩ := q
      match o with
      | none => exact ⟨hf.trans h1, hs⟩
      | some true => exact ⟨hf.trans h1, hs⟩
      | some false => exact lookR_ite (fun _ => ⟨hf.trans h1, hs⟩) (fun hn => .inr ⟨eq_false_of_ne_true hn, hs⟩)
  | head got =>
    cases ev <;> try exact h
    case read k err =>
      obtain ⟨h1, h2, h3⟩ := h
      obtain ⟨-, -, f3, f4, f5, -⟩ := getHeader_frame k err c got
      simp only [lookStep]
      generalize getHeader k err c got = q at f3 f4 f5 ⊢
      obtain ⟨c', hd⟩ := q
      simp only at f3 f4 f5
      have g1 := f4.trans h1
      have g2 := f5.trans h2
      have g3 := f3.trans h3
      cases hd with
      | short got' => exact lookR_ite (fun _ => ⟨g1, g2, g3⟩) (fun _ => .inl ⟨g2, g3⟩)
      | bad z => exact lookR_ite (fun _ => ⟨g1, g2, g3⟩) (fun _ => .inl ⟨g2, g3⟩)
      | ok type i sz => exact lookCheck_sent type i sz g1 g2 g3
  | check type i sz => exact lookCheck_sent type i sz h.1 h.2.1 h.2.2
  | body type sz got =>
    cases ev <;> try exact h
    case read k err =>
      obtain ⟨h1, h2, h3⟩ := h
      simp only [lookStep]
      refine lookR_ite (fun _ => lookReply_sent _ _ _ h1 h2 h3) (fun _ => ?_)
      exact lookR_ite (fun _ => ⟨h1, h2, h3⟩) (fun _ => .inl ⟨h2, h3⟩)

/-! ## The request: what is sent -/

/-- The request `Q` with this id, `B` having been sent before. -/
def ExS (o : Op) (B Q : Bytes) (id : Nat) (c : Chan) : Ex → Prop
  | .raw buf i => c.reqId = id ∧ c.pkt = none ∧ buf = Q ∧ i ≤ Q.length ∧ c.out = B ++ Q.take i
  | .typed => c.reqId = id ∧ Q = typePacket o.typed.1 id o.typed.2 ∧ Part B Q c
  | .head _ => c.reqId = id ∧ c.pkt = none ∧ c.out = B ++ Q
  | .status _ _ => c.pkt = none ∧ c.out = B ++ Q

def ExR (o : Op) (B Q : Bytes) (id : Nat) : Chan × Out Ex Unit → Prop
  | (c, .more e) => ExS o B Q id c e
  | (c, .again e) => ExS o B Q id c e
  | (c, .ret (some _)) => c.pkt = none ∧ c.out = B ++ Q
  | (c, .ret none) => (c.pkt = none ∧ c.out = B ++ Q) ∨ (o.keeps c.err = false ∧ ∃ n, c.out = B ++ Q.take n)
  | (_, .ub) => True

theorem exR_ite {o : Op} {B Q : Bytes} {id : Nat} {b : Prop} [Decidable b] {x y : Chan × Out Ex Unit}
    (hx : b → ExR o B Q id x) (hy : ¬ b → ExR o B Q id y) : ExR o B Q id (if b then x else y) := by
  by_cases hb : b
  · rw [if_pos hb]; exact hx hb
  · rw [if_neg hb]; exact hy hb

theorem exR_ite' {o : Op} {B Q : Bytes} {id : Nat} {b : Prop} [Decidable b] {c : Chan} {x y : Out Ex Unit}
    (hx : b → ExR o B Q id (c, x)) (hy : ¬ b → ExR o B Q id (c, y)) : ExR o B Q id (c, if b then x else y) := by
  by_cases hb : b
  · rw [if_pos hb]; exact hx hb
  · rw [if_neg hb]; exact hy hb

theorem exHead_sent {o : Op} {B Q : Bytes} {id : Nat} {c : Chan} (hd : Header) (h1 : c.reqId = id) (h2 : c.pkt = none) (h3 : c.out = B ++ Q) :
    ExR o B Q id (exHead o c hd) := by
  cases hd with
  | short got => exact exR_ite' (fun _ => ⟨h1, h2, h3⟩) (fun _ => .inl ⟨h2, h3⟩)
  | bad z =>
    refine exR_ite' (fun _ => ⟨h1, h2, h3⟩) (fun _ => ?_)
    cases o <;> try exact .inl ⟨h2, h3⟩
    exact exR_ite' (fun _ => ⟨h2, h3⟩) (fun _ => .inl ⟨h2, h3⟩)
  | ok type i sz =>
    cases o with
    | rename => exact exR_ite (fun _ => .inl ⟨h2, h3⟩) (fun _ => exR_ite (fun _ => .inl ⟨h2, h3⟩) (fun _ => ⟨h2, h3⟩))
    | mkdir => exact exR_ite (fun _ => .inl ⟨h2, h3⟩) (fun _ => exR_ite (fun _ => .inl ⟨h2, h3⟩) (fun _ => ⟨h2, h3⟩))
    | setstat => exact exR_ite (fun _ => .inl ⟨h2, h3⟩) (fun _ => ⟨h2, h3⟩)
    | chmod => exact exR_ite (fun _ => .inl ⟨h2, h3⟩) (fun _ => ⟨h2, h3⟩)
    | remove => exact exR_ite (fun _ => exR_ite' (fun _ => ⟨h1, h2, h3⟩) (fun _ => .inl ⟨h2, h3⟩)) (fun _ => ⟨h2, h3⟩)
    | rmdir => exact exR_ite (fun _ => exR_ite' (fun _ => ⟨h1, h2, h3⟩) (fun _ => .inl ⟨h2, h3⟩)) (fun _ => ⟨h2, h3⟩)

theorem exStep_sent {o : Op} {B Q : Bytes} {id : Nat} (ev : Ev) {c : Chan} {e : Ex} (h : ExS o B Q id c e) : ExR o B Q id (exStep o ev c e) := by
  cases e with
  | raw buf i =>
    cases ev <;> try exact h
    case send res err pend =>
      obtain ⟨h1, h2, rfl, h4, h5⟩ := h
      cases res with
      | error x =>
        refine exR_ite' (fun _ => ⟨h1, h2, rfl, h4, h5⟩) (fun hn => .inr ⟨eq_false_of_ne_true hn, i, h5⟩)
      | ok k =>
        obtain ⟨s1, s2⟩ := sendSome_out k err c buf i B h4 h5
        refine exR_ite (fun _ => ⟨h1, h2, rfl, s2, s1⟩) (fun hn => ⟨h1, h2, ?_⟩)
        rw [s1, not_lt_take (fun hl => hn (.inl hl))]
  | typed =>
    cases ev <;> try exact h
    case send res err pend =>
      obtain ⟨h1, rfl, h3⟩ := h
      have hs := sendType_part res err h1 h3
      have hf := (sendType_frame res err o.typed.1 o.typed.2 c).2.1
      simp only [exStep]
      generalize sendType res err o.typed.1 o.typed.2 c = q at hs hf ⊢
      obtain ⟨c', r⟩ := q
      match r with
      | none => exact ⟨hf.trans h1, rfl, hs⟩
      | some true => exact ⟨hf.trans h1, hs⟩
      | some false => exact exR_ite' (fun _ => ⟨hf.trans h1, rfl, hs⟩) (fun hn => .inr ⟨eq_false_of_ne_true hn, hs.cut⟩)
  | head got =>
    cases ev <;> try exact h
    case read k err =>
      obtain ⟨h1, h2, h3⟩ := h
      obtain ⟨-, -, f3, f4, f5, -⟩ := getHeader_frame k err c got
      exact exHead_sent _ (f4.trans h1) (f5.trans h2) (f3.trans h3)
  | status sz got =>
    cases ev <;> try exact h
    case read k err =>
      obtain ⟨h2, h3⟩ := h
      simp only [exStep]
      refine exR_ite (fun _ => ?_) (fun _ => exR_ite' (fun _ => ⟨h2, h3⟩) (fun _ => .inl ⟨h2, h3⟩))
      cases doStatus (bufRead sz k err c got).2.2 with
      | ok code i => exact exR_ite' (fun _ => ⟨h2, h3⟩) (fun _ => .inl ⟨h2, h3⟩)
      | err => exact .inl ⟨h2, h3⟩
      | ub => exact True.intro

end Proofs.SftpOps
