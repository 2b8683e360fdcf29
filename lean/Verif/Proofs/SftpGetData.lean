import Verif.Proofs.SftpGet
namespace Proofs.SftpClient
open Wolf Wolf.Wire Wolf.Sftp Wolf.SftpClient Proofs.SftpLoop
open Wolf.Path (addAssign64)
open Spec.Wire Spec.Sftp Spec.SftpClient

/-! ## Reading what an honest server sends -/

theorem bufRead_of {X R got : Bytes} {c : Chan} (k : Nat) (err : Ret) (hx : got ++ c.inp = X ++ R) (hg : got.length ≤ X.length) :
    bufRead X.length k err c got = (true, { c with inp := R, err := err }, X) ∨
    ∃ got' inp', bufRead X.length k err c got = (false, { c with inp := inp', err := err }, got') ∧ got' ++ inp' = X ++ R ∧
      got'.length < X.length := by
  have e1 : ∀ n, (got ++ c.inp.take n) ++ c.inp.drop n = X ++ R := by intro n; rw [List.append_assoc, List.take_append_drop, hx]
  have hlen : c.inp.length = X.length + R.length - got.length := by
    have := congrArg List.length hx; simp at this; omega
  simp only [bufRead, cmin_eq]
  generalize hn : min k (min (X.length - got.length) c.inp.length) = n
  by_cases hf : X.length ≤ (got ++ c.inp.take n).length
  · left
    have hl : (got ++ c.inp.take n).length = X.length := by
      simp at hf ⊢; omega
    have := List.append_inj (e1 n) hl
    rw [this.1, this.2]
    simp
  · right
    refine ⟨_, _, ?_, e1 n, by omega⟩
    rw [decide_eq_false hf]

theorem ato32_enc (n : Nat) (h : n < 2 ^ 32) : ∃ a b c d, encUint32 n = [a, b, c, d] ∧ ato32 a b c d = n := by
  refine ⟨_, _, _, _, rfl, ?_⟩
  rw [ato32_beNat]
  exact beNat_encUint32 n h

theorem getHeader_of {R got : Bytes} {c : Chan} {n id : Nat} {type : UInt8} (k : Nat) (err : Ret)
    (hx : got ++ c.inp = (encUint32 (n + 5) ++ (type :: encUint32 id)) ++ R) (hg : got.length < 9) (h0 : 0 < n) (hn : n < 2 ^ 31) (hid : id < 2 ^ 32) :
    getHeader k err c got = ({ c with inp := R, err := err }, .ok type.toNat id n) ∨
    ∃ got' inp', getHeader k err c got = ({ c with inp := inp', err := err }, .short got') ∧
      got' ++ inp' = (encUint32 (n + 5) ++ (type :: encUint32 id)) ++ R ∧ got'.length < 9 := by
  obtain ⟨a1, b1, c1, d1, e1, f1⟩ := ato32_enc (n + 5) (by omega)
  obtain ⟨a2, b2, c2, d2, e2, f2⟩ := ato32_enc id hid
  rcases bufRead_of k err hx (by rw [e1, e2]; simp; omega) with h | ⟨got', inp', h, h2, h3⟩
  · left
    unfold getHeader
    have h9 : (encUint32 (n + 5) ++ type :: encUint32 id).length = HEADER := by rw [e1, e2]; rfl
    rw [h9] at h
    rw [h]
    simp only [if_true]
    rw [e1, e2]
    simp only [List.cons_append, List.nil_append, fields, f1, f2]
    have hs : sub32 (sub32 (n + 5) 4) 1 = n := by unfold sub32; omega
    rw [hs, if_neg (by omega), if_neg (by omega)]
  · right
    have h9 : (encUint32 (n + 5) ++ type :: encUint32 id).length = HEADER := by rw [e1, e2]; rfl
    rw [h9] at h h3
    refine ⟨got', inp', ?_, h2, h3⟩
    unfold getHeader
    rw [h]
    simp

theorem reply_eq (id : Nat) (r : Reply) : r.packet id = encUint32 (r.body.length + 5) ++ (r.type :: encUint32 id) ++ r.body := by
  unfold Reply.packet encString
  have : (r.type :: (encUint32 id ++ r.body)).length = r.body.length + 5 := by simp [enc_len]; omega
  rw [this]; simp

theorem doStatus_of (code : Nat) (m l : Bytes) (hc : code ≤ 8) (hl : (Reply.status code m l).body.length < 2 ^ 31) :
    ∃ i, doStatus (Reply.status code m l).body = .ok code i := by
  simp only [Reply.body] at hl ⊢
  have hm : m.length < 2 ^ 32 := by simp [encString, enc_len] at hl; omega
  have hll : l.length < 2 ^ 32 := by simp [encString, enc_len] at hl; omega
  generalize hb : encUint32 code ++ encString m ++ encString l = buf at hl
  unfold doStatus andThen
  rw [getUint32_eq buf buf.length 0 (Nat.le_refl _) (by omega)]
  have e : (buf.take buf.length).drop 0 = encUint32 code ++ (encString m ++ encString l) := by rw [List.take_length, ← hb]; simp
  rw [e, Proofs.Sftp.uint32_enc _ (by omega)]
  simp only
  have m0 : Props.Wire.msgFrom buf buf.length (0 + 4) = encString m ++ encString l := by
    show (buf.take buf.length).drop 4 = _
    rw [List.take_length, ← hb]
    rfl
  rcases Proofs.Sftp.getStr_cases (mem' := buf) (len := buf.length) (0 + 4) (Nat.le_refl _) (by omega) with ⟨e, j, h1, h2⟩ | ⟨v, j, h1, _, h2⟩
  · rw [m0, Proofs.Exchange.string_enc _ _ hm] at h2; cases h2
  · rw [m0, Proofs.Exchange.string_enc _ _ hm] at h2
    rw [h1]
    simp only
    have h3 : Props.Wire.msgFrom buf buf.length j = encString l ++ [] := by rw [List.append_nil]; injection h2 with h2; exact (Prod.mk.inj h2).2.symm
    rcases Proofs.Sftp.getStr_cases (mem' := buf) (len := buf.length) j (Nat.le_refl _) (by omega) with ⟨e, j', g1, g2⟩ | ⟨v', j', g1, _, g2⟩
    · rw [h3, Proofs.Exchange.string_enc _ _ hll] at g2; cases g2
    · rw [g1]
      simp only
      rw [if_neg (by omega)]
      exact ⟨_, rfl⟩

theorem attrPer_parse {buf : Bytes} {len i : Nat} {a : Attr} (hl : len = buf.length) (h : parseAttributes buf len 0 = .ok a i) :
    ∃ j, attrPer buf = .ok a.per j := by
  subst hl
  unfold parseAttributes andThen at h
  unfold attrPer andThen
  cases h1 : getUint32 buf buf.length 0 with
  | ub => rw [h1] at h; cases h
  | err e i => rw [h1] at h; cases h
  | ok v i =>
    simp only [h1] at h ⊢
    cases h2 : optPair (v.testBit 0) buf buf.length i with
    | ub => rw [h2] at h; cases h
    | err e i => rw [h2] at h; cases h
    | ok w i =>
      simp only [h2] at h ⊢
      cases h3 : optPair (v.testBit 1) buf buf.length i with
      | ub => rw [h3] at h; cases h
      | err e i => rw [h3] at h; cases h
      | ok w i =>
        simp only [h3] at h ⊢
        cases h4 : optWord (v.testBit 2) buf buf.length i with
        | ub => rw [h4] at h; cases h
        | err e i => rw [h4] at h; cases h
        | ok w i =>
          simp only [h4] at h ⊢
          cases h5 : optPair (v.testBit 3) buf buf.length i with
          | ub => rw [h5] at h; cases h
          | err e i => rw [h5] at h; cases h
          | ok w i =>
            simp only [h5] at h
            cases h6 : optWord (v.testBit 31) buf buf.length i with
            | ub => rw [h6] at h; cases h
            | err e i => rw [h6] at h; cases h
            | ok w i =>
              simp only [h6] at h
              cases h7 : skipExts w buf buf.length i with
              | ub => rw [h7] at h; cases h
              | err e i => rw [h7] at h; cases h
              | ok w i =>
                simp only [h7] at h
                injection h with h _
                subst h
                exact ⟨_, rfl⟩

theorem encAttrs_len (a : Attrs) : 4 ≤ (encAttrs a).length ∧ (encAttrs a).length ≤ 32 := by
  unfold encAttrs
  simp only [List.length_append, enc_len]
  rcases a with ⟨_ | s, _ | o, _ | p, _ | t⟩ <;> simp [encField, enc_len, enc64_len]

theorem attrPer_of (a : Attrs) (h : a.Fits) (p : Nat) (hp : a.perm = some p) : ∃ i, attrPer (encAttrs a) = .ok p i := by
  have hl := (encAttrs_len a).2
  have he : Props.Wire.msgFrom (encAttrs a) (encAttrs a).length 0 = encAttrs a ++ [] := by
    show ((encAttrs a).take _).drop 0 = _
    simp
  have ha := Proofs.Sftp.attrs_enc a h []
  rcases Proofs.Sftp.parseAttributes_cases (mem' := encAttrs a) (len := (encAttrs a).length) 0 (Nat.le_refl _) (by omega) with ⟨e, i, _, h2⟩ | ⟨at', i, h1, _, _, h2⟩
  · rw [he, ha] at h2; cases h2
  · rw [he, ha] at h2
    injection h2 with h2
    have h2 := (Prod.mk.inj h2).1
    obtain ⟨j, hj⟩ := attrPer_parse rfl h1
    refine ⟨j, ?_⟩
    rw [hj]
    have : (Proofs.Sftp.toAttrs at').perm = some p := by rw [← h2]; exact hp
    unfold Proofs.Sftp.toAttrs at this
    simp only at this
    split at this
    · injection this with this; rw [this]
    · cases this

/-! ## What a fetch makes of the replies -/

/-- What the server sends: attributes, a handle, pieces of a file, "end of file", and whatever follows. -/
structure Conv where
  a : Attrs
  per : Nat
  h : Bytes
  ps : List Bytes
  m : Bytes
  l : Bytes
  rest : Bytes

structure Conv.Ok (V : Conv) : Prop where
  fits : V.a.Fits
  per : V.a.perm = some V.per
  kind : ¬ (V.per &&& 0o770000 ≠ 0o100000 ∧ V.per &&& 0o770000 ≠ 0o120000)
  h : V.h.length ≤ 256
  ps : ∀ p ∈ V.ps, 0 < p.length ∧ p.length ≤ MAX_RW
  s : (Reply.status 1 V.m V.l).body.length < 2 ^ 31

/-- From the replies to reads on. -/
def Conv.rem (V : Conv) (id : Nat) (ps : List Bytes) : Bytes := answers id (ps.map .data ++ [.status 1 V.m V.l]) ++ V.rest

def Conv.r1 (V : Conv) (id : Nat) : Bytes := (Reply.handle V.h).packet id ++ V.rem ((id + 1) % 2 ^ 32) V.ps

def Conv.r0 (V : Conv) (id : Nat) : Bytes := (Reply.attrs V.a).packet id ++ V.r1 ((id + 1) % 2 ^ 32)

theorem rem_cons (V : Conv) (id : Nat) (p : Bytes) (t : List Bytes) :
    V.rem id (p :: t) = (Reply.data p).packet id ++ V.rem ((id + 1) % 2 ^ 32) t := by
  simp [Conv.rem, answers]

theorem rem_nil (V : Conv) (id : Nat) : V.rem id [] = (Reply.status 1 V.m V.l).packet id ++ V.rest := by
  simp [Conv.rem, answers]

theorem add32_eq (a b : Nat) : add32 a b = (a + b) % 2 ^ 32 := rfl

def RdC (V : Conv) (ps : List Bytes) (c : Chan) : Rd → Prop
  | .send _ _ => c.inp = V.rem c.reqId ps
  | .head got => got ++ c.inp = V.rem c.reqId ps ∧ got.length < 9
  | .flat => ∃ p t, ps = p :: t ∧ c.inp = encString p ++ V.rem c.reqId t
  | .rest left got => ∃ p t, ps = p :: t ∧ got ++ c.inp = p ++ V.rem c.reqId t ∧ left = p.length - got.length ∧ got.length < p.length
  | .status sz got => ps = [] ∧ sz = (Reply.status 1 V.m V.l).body.length ∧ got ++ c.inp = (Reply.status 1 V.m V.l).body ++ V.rest ∧
      got.length ≤ sz

def RdResC (V : Conv) (ps : List Bytes) : Chan × Out Rd Bytes → Prop
  | (c, .more r) => c.reqId < 2 ^ 32 ∧ RdC V ps c r
  | (c, .again r) => c.reqId < 2 ^ 32 ∧ RdC V ps c r
  | (c, .ret none) => notice c.err = false
  | (c, .ret (some d)) => c.reqId < 2 ^ 32 ∧ ((ps = [] ∧ d = []) ∨ ∃ t, ps = d :: t ∧ c.inp = V.rem c.reqId t)
  | (_, .ub) => True

theorem rdResC_ite {V : Conv} {ps : List Bytes} {b : Prop} [Decidable b] {x y : Chan × Out Rd Bytes} (hx : b → RdResC V ps x)
    (hy : ¬ b → RdResC V ps y) : RdResC V ps (if b then x else y) := by
  by_cases hb : b
  · rw [if_pos hb]; exact hx hb
  · rw [if_neg hb]; exact hy hb

theorem data_body (p : Bytes) : (Reply.data p).body.length = p.length + 4 := by simp [Reply.body, encString, enc_len]; omega

theorem rdStep_conv {V : Conv} (hV : V.Ok) {ps : List Bytes} (hps : ∀ p ∈ ps, 0 < p.length ∧ p.length ≤ MAX_RW) (ev : Ev) (c : Chan) (r : Rd)
    (hid : c.reqId < 2 ^ 32) (hr : RdC V ps c r) (hk : r = .flat → ∀ k err junk, ev = .stream (.ok k) err junk → 4 ≤ k) :
    RdResC V ps (rdStep MAX_RW ev c r) := by
  have hmax : MAX_RW = 32768 := rfl
  cases r with
  | send buf idx =>
    cases ev <;> try exact ⟨hid, hr⟩
    case send res err p =>
      cases res with
      | error e => exact rdResC_ite (fun _ => ⟨hid, hr⟩) (fun h => eq_false_of_ne_true h)
      | ok k =>
        exact rdResC_ite (fun _ => ⟨hid, hr⟩) (fun _ => ⟨hid, hr, by decide⟩)
  | head got =>
    cases ev <;> try exact ⟨hid, hr⟩
    case read k err =>
      obtain ⟨h1, h2⟩ := hr
      simp only [rdStep]
      cases ps with
      | nil =>
        have h1' := h1
        rw [rem_nil, reply_eq, List.append_assoc] at h1
        rcases getHeader_of k err h1 h2 (by simp [Reply.body, enc_len, encString]; omega) hV.s hid with h | ⟨got', inp', h, h3, h4⟩
        · rw [h]
          simp only [rdCheck]
          rw [if_neg (by simp)]
          simp only [Reply.type, show (101 : UInt8).toNat = 101 from rfl]
          rw [if_neg (by decide), if_pos True.intro]
          exact ⟨Nat.mod_lt _ (Nat.two_pow_pos 32), rfl, rfl, rfl, Nat.zero_le _⟩
        · rw [h]
          refine rdResC_ite (fun _ => ⟨hid, ?_, h4⟩) (fun h => eq_false_of_ne_true h)
          show got' ++ inp' = V.rem c.reqId []
          rw [rem_nil, reply_eq, List.append_assoc]; exact h3
      | cons p t =>
        have hp := hps p (by simp)
        rw [rem_cons, reply_eq, List.append_assoc] at h1
        have hb := data_body p
        rcases getHeader_of k err h1 h2 (by omega) (by omega) hid with h | ⟨got', inp', h, h3, h4⟩
        · rw [h]
          simp only [rdCheck]
          rw [if_neg (by simp)]
          simp only [Reply.type, show (103 : UInt8).toNat = 103 from rfl]
          rw [if_pos True.intro]
          exact ⟨Nat.mod_lt _ (Nat.two_pow_pos 32), p, t, rfl, rfl⟩
        · rw [h]
          refine rdResC_ite (fun _ => ⟨hid, ?_, h4⟩) (fun h => eq_false_of_ne_true h)
          show got' ++ inp' = V.rem c.reqId (p :: t)
          rw [rem_cons, reply_eq, List.append_assoc]; exact h3
  | flat =>
    cases ev <;> try exact ⟨hid, hr⟩
    case stream res err junk =>
      cases res with
      | error e => exact rdResC_ite (fun _ => ⟨hid, hr⟩) (fun h => eq_false_of_ne_true h)
      | ok k =>
        obtain ⟨p, t, h1, h2⟩ := hr
        have hp := hps p (by rw [h1]; simp)
        have h4 := hk rfl k err junk rfl
        simp only [rdStep]
        obtain ⟨a, b, d, e, e1, f1⟩ := ato32_enc p.length (by omega)
        have hinp : c.inp = a :: b :: d :: e :: (p ++ V.rem c.reqId t) := by rw [h2, encString, e1]; rfl
        have hn : cmin k (cmin 4 c.inp.length) = 4 := by rw [cmin_eq, cmin_eq, hinp]; simp; omega
        rw [hn, hinp]
        simp only [List.take_succ_cons, List.take_zero, List.cons_append, List.nil_append, rdFlat, f1, List.drop_succ_cons, List.drop_zero]
        rw [if_neg (by omega)]
        exact ⟨hid, p, t, h1, rfl, by simp, by simpa using hp.1⟩
  | rest left got =>
    cases ev <;> try exact ⟨hid, hr⟩
    case stream res err junk =>
      cases res with
      | error e => exact rdResC_ite (fun _ => ⟨hid, hr⟩) (fun h => eq_false_of_ne_true h)
      | ok k =>
        obtain ⟨p, t, h1, h2, h3, h4⟩ := hr
        refine rdResC_ite (fun h => absurd h (by omega)) (fun _ => rdResC_ite (fun _ => True.intro) fun _ => ?_)
        have e1 : ∀ n, (got ++ c.inp.take n) ++ c.inp.drop n = p ++ V.rem c.reqId t := by
          intro n; rw [List.append_assoc, List.take_append_drop, h2]
        have hlen : c.inp.length + got.length = p.length + (V.rem c.reqId t).length := by
          have := congrArg List.length h2; simp at this; omega
        rw [cmin_eq, cmin_eq]
        generalize hn : min k (min left c.inp.length) = n
        by_cases hz : left - n ≠ 0
        · rw [if_pos hz]
          refine ⟨hid, p, t, h1, e1 n, ?_, ?_⟩
          · simp; omega
          · simp; omega
        · rw [if_neg hz]
          have hl : (got ++ c.inp.take n).length = p.length := by simp; omega
          have := List.append_inj (e1 n) hl
          refine ⟨hid, .inr ⟨t, ?_, this.2⟩⟩
          rw [this.1]; exact h1
  | status sz got =>
    cases ev <;> try exact ⟨hid, hr⟩
    case read k err =>
      obtain ⟨h1, h2, h3, h4⟩ := hr
      simp only [rdStep]
      subst h2
      rcases bufRead_of k err h3 h4 with h | ⟨got', inp', h, h5, h6⟩
      · rw [h]
        simp only [if_true]
        obtain ⟨i, hi⟩ := doStatus_of 1 V.m V.l (by decide) hV.s
        rw [hi]
        simp only
        rw [if_pos (.inr rfl)]
        exact ⟨hid, .inl ⟨h1, rfl⟩⟩
      · rw [h]
        simp only [Bool.false_eq_true, if_false]
        exact rdResC_ite (fun _ => ⟨hid, h1, rfl, h5, Nat.le_of_lt h6⟩) (fun h => eq_false_of_ne_true h)

def StatC (V : Conv) (id0 : Nat) (c : Chan) : Stat → Prop
  | .send => c.inp = V.r0 id0 ∧ c.reqId = id0
  | .head got => got ++ c.inp = V.r0 id0 ∧ got.length < 9 ∧ c.reqId = id0
  | .check _ _ _ => False
  | .body type sz got => type = 105 ∧ sz = (encAttrs V.a).length ∧ got ++ c.inp = encAttrs V.a ++ V.r1 c.reqId ∧ got.length ≤ sz

def StatResC (V : Conv) (id0 : Nat) : Chan × Out Stat Nat → Prop
  | (c, .more r) => c.reqId < 2 ^ 32 ∧ StatC V id0 c r
  | (c, .again r) => c.reqId < 2 ^ 32 ∧ StatC V id0 c r
  | (c, .ret none) => notice c.err = false
  | (c, .ret (some d)) => c.reqId < 2 ^ 32 ∧ d = V.per ∧ c.inp = V.r1 c.reqId
  | (_, .ub) => True

theorem statResC_ite {V : Conv} {id0 : Nat} {b : Prop} [Decidable b] {x y : Chan × Out Stat Nat} (hx : b → StatResC V id0 x)
    (hy : ¬ b → StatResC V id0 y) : StatResC V id0 (if b then x else y) := by
  by_cases hb : b
  · rw [if_pos hb]; exact hx hb
  · rw [if_neg hb]; exact hy hb

theorem sendType_frame (res : Except Err Nat) (err : Ret) (type : Byte) (buf : Bytes) (c : Chan) :
    (sendType res err type buf c).1.inp = c.inp ∧ (sendType res err type buf c).1.reqId = c.reqId ∧ (sendType res err type buf c).1.int = c.int := by
  unfold sendType
  cases res with
  | error e => exact ⟨rfl, rfl, rfl⟩
  | ok k =>
    simp only
    split <;> exact ⟨rfl, rfl, rfl⟩

theorem statStep_conv {V : Conv} (hV : V.Ok) {id0 : Nat} (path : Bytes) (ev : Ev) (c : Chan) (r : Stat)
    (hid : c.reqId < 2 ^ 32) (hr : StatC V id0 c r) : StatResC V id0 (statStep path ev c r) := by
  cases r with
  | send =>
    cases ev <;> try exact ⟨hid, hr⟩
    case send res err p =>
      obtain ⟨h1, h2⟩ := hr
      have hf := sendType_frame res err 17 path c
      simp only [statStep]
      generalize sendType res err 17 path c = q at hf ⊢
      obtain ⟨c', o⟩ := q
      obtain ⟨f1, f2, f3⟩ := hf
      simp only at f1 f2
      have hid' : c'.reqId < 2 ^ 32 := by rw [f2]; exact hid
      match o with
      | none => exact ⟨hid', f1.trans h1, f2.trans h2⟩
      | some true => exact ⟨hid', f1.trans h1, by decide, f2.trans h2⟩
      | some false => exact statResC_ite (fun _ => ⟨hid', f1.trans h1, f2.trans h2⟩) (fun h => eq_false_of_ne_true h)
  | head got =>
    cases ev <;> try exact ⟨hid, hr⟩
    case read k err =>
      obtain ⟨h1, h2, h3⟩ := hr
      simp only [statStep]
      have hl := encAttrs_len V.a
      rw [Conv.r0, reply_eq, List.append_assoc] at h1
      have hid0 : id0 < 2 ^ 32 := by rw [← h3]; exact hid
      rcases getHeader_of k err h1 h2 (by show 0 < (encAttrs V.a).length; omega) (by show (encAttrs V.a).length < _; omega) hid0 with
        h | ⟨got', inp', h, h4, h5⟩
      · rw [h]
        simp only [statCheck]
        rw [if_neg (by rw [h3]; simp)]
        refine ⟨Nat.mod_lt _ (Nat.two_pow_pos 32), rfl, rfl, ?_, Nat.zero_le _⟩
        simp only [add32_eq, h3]
        rfl
      · rw [h]
        refine statResC_ite (fun _ => ⟨hid, ?_, h5, h3⟩) (fun h => eq_false_of_ne_true h)
        show got' ++ inp' = V.r0 id0
        rw [Conv.r0, reply_eq, List.append_assoc]; exact h4
  | check type id sz => exact hr.elim
  | body type sz got =>
    cases ev <;> try exact ⟨hid, hr⟩
    case read k err =>
      obtain ⟨h1, h2, h3, h4⟩ := hr
      subst h1 h2
      simp only [statStep]
      rcases bufRead_of k err h3 h4 with h | ⟨got', inp', h, h5, h6⟩
      · rw [h]
        simp only [if_true, statReply]
        obtain ⟨i, hi⟩ := attrPer_of V.a hV.fits V.per hV.per
        rw [hi]
        exact ⟨hid, rfl, rfl⟩
      · rw [h]
        simp only [Bool.false_eq_true, if_false]
        exact statResC_ite (fun _ => ⟨hid, rfl, rfl, h5, Nat.le_of_lt h6⟩) (fun h => eq_false_of_ne_true h)

def GhC (V : Conv) (c : Chan) : Option Gh → Prop
  | none => c.inp = V.r1 c.reqId
  | some (.head got) => got ++ c.inp = V.r1 c.reqId ∧ got.length < 9
  | some (.handle sz got) => sz = (encString V.h).length ∧ got ++ c.inp = encString V.h ++ V.rem c.reqId V.ps ∧ got.length ≤ sz
  | some (.status _ _) => False

/-- Behind a step of `wolfSSH_SFTP_Open`. -/
def OpenResC (V : Conv) : Chan × Hd × Out Open Unit → Prop
  | (c, h, .more _) => c.reqId < 2 ^ 32 ∧ GhC V c c.gh ∧ h.cap = 256 ∧ h.mem.length = 256
  | (c, h, .again _) => c.reqId < 2 ^ 32 ∧ GhC V c c.gh ∧ h.cap = 256 ∧ h.mem.length = 256
  | (c, h, .ret none) => notice c.err = true → c.reqId < 2 ^ 32 ∧ GhC V c c.gh ∧ h.cap = 256 ∧ h.mem.length = 256
  | (c, h, .ret (some _)) => c.reqId < 2 ^ 32 ∧ c.inp = V.rem c.reqId V.ps ∧ h.handle = V.h
  | (_, _, .ub) => True

theorem openResC_ite {V : Conv} {b : Prop} [Decidable b] {x y : Chan × Hd × Out Open Unit} (hx : b → OpenResC V x)
    (hy : ¬ b → OpenResC V y) : OpenResC V (if b then x else y) := by
  by_cases hb : b
  · rw [if_pos hb]; exact hx hb
  · rw [if_neg hb]; exact hy hb

theorem openResC_ite' {V : Conv} {b : Prop} [Decidable b] {c : Chan} {h : Hd} {x y : Out Open Unit} (hx : b → OpenResC V (c, h, x))
    (hy : ¬ b → OpenResC V (c, h, y)) : OpenResC V (c, h, if b then x else y) := by
  by_cases hb : b
  · rw [if_pos hb]; exact hx hb
  · rw [if_neg hb]; exact hy hb

theorem takeHandle_of (hd : Hd) (h : Bytes) (hl : h.length ≤ 256) (hc : hd.cap = 256) (hm : hd.mem.length = 256) :
    ∃ hd', takeHandle hd (encString h) = some (some hd') ∧ hd'.handle = h := by
  obtain ⟨a, b, d, e, e1, f1⟩ := ato32_enc h.length (by omega)
  refine ⟨⟨h ++ hd.mem.drop h.length, h.length⟩, ?_, by simp [Hd.handle]⟩
  unfold encString
  rw [e1]
  simp only [List.cons_append, List.nil_append, takeHandle, f1]
  have hmax : MAX_HANDLE = 256 := rfl
  rw [if_neg (by unfold add32; simp; omega), if_neg (by simp; omega)]
  simp

theorem openStep_conv {V : Conv} (hV : V.Ok) (ev : Ev) (c : Chan) (h : Hd) (o : Open) (hid : c.reqId < 2 ^ 32) (hg : GhC V c c.gh)
    (hc : h.cap = 256) (hm : h.mem.length = 256) : OpenResC V (openStep ev c h o) := by
  have all : c.reqId < 2 ^ 32 ∧ GhC V c c.gh ∧ h.cap = 256 ∧ h.mem.length = 256 := ⟨hid, hg, hc, hm⟩
  have frame : ∀ c' : Chan, c'.reqId = c.reqId → c'.inp = c.inp → c'.gh = c.gh →
      c'.reqId < 2 ^ 32 ∧ GhC V c' c'.gh ∧ h.cap = 256 ∧ h.mem.length = 256 := by
    intro c' e1 e2 e3
    refine ⟨by rw [e1]; exact hid, ?_, hc, hm⟩
    rw [e3]
    unfold GhC at hg ⊢
    rw [e1, e2]
    exact hg
  cases o with
  | send buf idx =>
    cases ev <;> try exact all
    case send res err p =>
      cases res with
      | error e => exact openResC_ite (fun _ => frame _ rfl rfl rfl) (fun _ _ => frame _ rfl rfl rfl)
      | ok k => exact openResC_ite (fun _ => frame _ rfl rfl rfl) (fun _ => frame _ rfl rfl rfl)
  | get =>
    cases ev <;> try exact all
    case read k err =>
      have head : ∀ got, got ++ c.inp = V.r1 c.reqId → got.length < 9 → OpenResC V (openGet (ghStep k err c h (.head got))) := by
        intro got h1 h2
        simp only [ghStep]
        have hl : (encString V.h).length = V.h.length + 4 := by simp [encString, enc_len]; omega
        have hb := hV.h
        have h1' := h1
        rw [Conv.r1, reply_eq, List.append_assoc] at h1
        rcases getHeader_of k err h1 h2 (by show 0 < (encString V.h).length; omega) (by show (encString V.h).length < _; omega) hid with
          h | ⟨got', inp', h, h4, h5⟩
        · rw [h]
          simp only [Reply.type, show (102 : UInt8).toNat = 102 from rfl]
          rw [if_pos True.intro, if_neg (by simp)]
          exact ⟨Nat.mod_lt _ (Nat.two_pow_pos 32), ⟨rfl, rfl, Nat.zero_le _⟩, hc, hm⟩
        · rw [h]
          have h6 : got' ++ inp' = V.r1 c.reqId := by rw [Conv.r1, reply_eq, List.append_assoc]; exact h4
          by_cases hn : notice err = true
          · simp only [hn, if_true]
            exact openResC_ite' (fun _ => ⟨hid, ⟨h6, h5⟩, hc, hm⟩) (fun _ _ => ⟨hid, ⟨h6, h5⟩, hc, hm⟩)
          · simp only [eq_false_of_ne_true hn, Bool.false_eq_true, if_false]
            exact openResC_ite' (fun hw => absurd (want_notice hw) hn) (fun _ hh => absurd hh hn)
      show OpenResC V (openGet (ghStep k err c h (c.gh.getD (.head []))))
      cases hgh : c.gh with
      | none =>
        rw [hgh] at hg
        exact head [] hg (by decide)
      | some g =>
        rw [hgh] at hg
        cases g with
        | head got => exact head got hg.1 hg.2
        | status sz got => exact hg.elim
        | handle sz got =>
          obtain ⟨h1, h2, h3⟩ := hg
          subst h1
          simp only [Option.getD_some, ghStep]
          rcases bufRead_of k err h2 h3 with h | ⟨got', inp', h, h5, h6⟩
          · rw [h]
            simp only [if_true]
            obtain ⟨hd', ht, hh⟩ := takeHandle_of _ V.h hV.h hc hm
            rw [ht]
            exact ⟨hid, rfl, hh⟩
          · rw [h]
            simp only [Bool.false_eq_true, if_false]
            exact openResC_ite' (fun _ => ⟨hid, ⟨rfl, h5, Nat.le_of_lt h6⟩, hc, hm⟩) (fun _ _ => ⟨hid, ⟨rfl, h5, Nat.le_of_lt h6⟩, hc, hm⟩)

/-! ## A fetch -/

def GetPhC (V : Conv) (I : Prop) (id0 : Nat) (base file0 : Bytes) (g : Get) : GetPh → Prop
  | .stat s => StatC V id0 g.c s ∧ g.file = file0 ∧ g.c.gh = none ∧ g.h.mem.length = 256
  | .open _ => GhC V g.c g.c.gh ∧ g.file = file0 ∧ g.h.cap = 256 ∧ g.h.mem.length = 256
  | .local => g.c.inp = V.rem g.c.reqId V.ps ∧ g.file = file0 ∧ g.h.handle = V.h
  | .read r => ∃ dn t, V.ps = dn ++ t ∧ g.file = base ++ dn.flatten ∧ RdC V t g.c r ∧ g.h.handle = V.h
  | .write d => ∃ dn t, V.ps = dn ++ t ∧ g.file = base ++ dn.flatten ∧ g.h.handle = V.h ∧
      ((t = [] ∧ d = []) ∨ ∃ t', t = d :: t' ∧ g.c.inp = V.rem g.c.reqId t')
  | .close _ => ∃ dn t, V.ps = dn ++ t ∧ g.file = base ++ dn.flatten ∧ (¬ I → t = [])
  | .done true => ∃ dn t, V.ps = dn ++ t ∧ g.file = base ++ dn.flatten ∧ (¬ I → t = [])
  | .done false => g.file = file0 ∨ ∃ dn d t n, V.ps = dn ++ d :: t ∧ g.file = base ++ dn.flatten ++ d.take n ∨
      V.ps = dn ∧ g.file = base ++ dn.flatten
  | .ub => True

structure GetC (V : Conv) (I : Prop) (id0 : Nat) (base file0 : Bytes) (g : Get) : Prop where
  int : g.c.int = true → I
  id : (∃ s, g.ph = .close s) ∨ (∃ b, g.ph = .done b) ∨ g.ph = .ub ∨ g.c.reqId < 2 ^ 32
  ph : GetPhC V I id0 base file0 g g.ph

variable {V : Conv} {I : Prop} {id0 : Nat} {base : Bytes}

theorem partial_inv {dn t : List Bytes} {f : Bytes} (h1 : V.ps = dn ++ t) (h2 : f = base ++ dn.flatten) :
    ∃ dn d t n, V.ps = dn ++ d :: t ∧ f = base ++ dn.flatten ++ d.take n ∨ V.ps = dn ∧ f = base ++ dn.flatten := by
  cases t with
  | nil => exact ⟨dn, [], [], 0, .inr ⟨by rw [h1]; simp, h2⟩⟩
  | cons d t => exact ⟨dn, d, t, 0, .inl ⟨h1, by rw [h2]; simp⟩⟩

theorem getStat_conv (hV : V.Ok) {A : Args} {g : Get} {r : Chan × Out Stat Nat} (hs : Same g.c r.1) (hi : g.c.int = true → I)
    (hr : StatResC V id0 r) (hf : g.file = file0) (hgh : g.c.gh = none) (hm : g.h.mem.length = 256) :
    GetC V I id0 base file0 (getStat A g r.1 r.2) := by
  obtain ⟨c, o⟩ := r
  have hi' : c.int = true → I := by intro h; exact hi (hs.2 ▸ h)
  have hgh' : c.gh = none := hs.1.trans hgh
  match o with
  | .more s => exact ⟨hi', .inr (.inr (.inr hr.1)), hr.2, hf, hgh', hm⟩
  | .again s =>
    simp only [getStat]
    by_cases hn : notice c.err = true
    · rw [if_pos hn]
      refine ⟨hi', .inr (.inr (.inr hr.1)), ?_, hf, hgh', hm⟩
      cases s <;> exact hr.2
    · rw [if_neg hn]; exact ⟨hi', .inr (.inl ⟨_, rfl⟩), .inl hf⟩
  | .ret none =>
    simp only [getStat]
    have hr : notice c.err = false := hr
    rw [if_neg (by rw [hr]; decide)]
    exact ⟨hi', .inr (.inl ⟨_, rfl⟩), .inl hf⟩
  | .ret (some per) =>
    obtain ⟨h1, h2, h3⟩ := hr
    simp only [getStat]
    rw [h2, if_neg hV.kind]
    refine ⟨hi', .inr (.inr (.inr h1)), ?_, hf, rfl, hm⟩
    show GhC V (recall c) c.gh
    rw [hgh']
    exact h3
  | .ub => exact ⟨hi, .inr (.inr (.inl rfl)), True.intro⟩

theorem openStep_int (ev : Ev) (c : Chan) (h : Hd) (o : Open) : (openStep ev c h o).1.int = c.int := by
  cases o with
  | send buf idx =>
    cases ev <;> try rfl
    case send res err p =>
      cases res with
      | error e => simp only [openStep]; split <;> rfl
      | ok k => simp only [openStep]; split <;> rfl
  | get =>
    cases ev <;> try rfl
    case read k err =>
      simp only [openStep]
      have := (ghStep_same k err c h (c.gh.getD (.head []))).2
      generalize ghStep k err c h (c.gh.getD (.head [])) = q at this ⊢
      obtain ⟨c', h', o⟩ := q
      match o with
      | .more g => exact this
      | .again g => exact this
      | .ret none => exact this
      | .ret (some _) => exact this
      | .ub => exact this

theorem getOpen_conv {A : Args} {g : Get} {r : Chan × Hd × Out Open Unit} (hi' : r.1.int = true → I) (hi : g.c.int = true → I)
    (hr : OpenResC V r) (hf : g.file = file0) :
    GetC V I id0 base file0 (getOpen A g r.1 r.2.1 r.2.2) := by
  obtain ⟨c, h, o⟩ := r
  match o with
  | .more s => exact ⟨hi', .inr (.inr (.inr hr.1)), hr.2.1, hf, hr.2.2⟩
  | .again s =>
    simp only [getOpen]
    by_cases hn : notice c.err = true
    · rw [if_pos hn]
      refine ⟨hi', .inr (.inr (.inr hr.1)), ?_, hf, hr.2.2⟩
      exact hr.2.1
    · rw [if_neg hn]; exact ⟨hi', .inr (.inl ⟨_, rfl⟩), .inl hf⟩
  | .ret none =>
    simp only [getOpen]
    by_cases hn : notice c.err = true
    · rw [if_pos hn]
      have hr := hr hn
      refine ⟨hi', .inr (.inr (.inr hr.1)), ?_, hf, hr.2.2⟩
      exact hr.2.1
    · rw [if_neg hn]; exact ⟨hi', .inr (.inl ⟨_, rfl⟩), .inl hf⟩
  | .ret (some _) => exact ⟨hi', .inr (.inr (.inr hr.1)), hr.2.1, hf, hr.2.2⟩
  | .ub => exact ⟨hi, .inr (.inr (.inl rfl)), True.intro⟩

theorem getRead_conv {g : Get} {r : Chan × Out Rd Bytes} {dn t : List Bytes} (hs : Same g.c r.1) (hi : g.c.int = true → I)
    (hr : RdResC V t r) (hps : V.ps = dn ++ t) (hf : g.file = base ++ dn.flatten) (hh : g.h.handle = V.h) :
    GetC V I id0 base file0 (getRead g r.1 r.2) := by
  obtain ⟨c, o⟩ := r
  have hi' : c.int = true → I := by intro h; exact hi (hs.2 ▸ h)
  match o with
  | .more s => exact ⟨hi', .inr (.inr (.inr hr.1)), dn, t, hps, hf, hr.2, hh⟩
  | .again s =>
    simp only [getRead]
    by_cases hn : notice c.err = true
    · rw [if_pos hn]
      refine ⟨hi', .inr (.inr (.inr hr.1)), dn, t, hps, hf, ?_, hh⟩
      cases s <;> exact hr.2
    · rw [if_neg hn]; exact ⟨hi', .inr (.inl ⟨_, rfl⟩), .inr (partial_inv hps hf)⟩
  | .ret none =>
    simp only [getRead]
    have hr : notice c.err = false := hr
    rw [if_neg (by rw [hr]; decide)]
    exact ⟨hi', .inr (.inl ⟨_, rfl⟩), .inr (partial_inv hps hf)⟩
  | .ret (some d) => exact ⟨hi', .inr (.inr (.inr hr.1)), dn, t, hps, hf, hh, hr.2⟩
  | .ub => exact ⟨hi, .inr (.inr (.inl rfl)), True.intro⟩

theorem getWrite_conv {A : Args} (hV : V.Ok) {g : Get} {n : Nat} {d : Bytes} {dn t : List Bytes} (hi : g.c.int = true → I) (hid : g.c.reqId < 2 ^ 32)
    (hps : V.ps = dn ++ t) (hf : g.file = base ++ dn.flatten) (hh : g.h.handle = V.h)
    (hd : (t = [] ∧ d = []) ∨ ∃ t', t = d :: t' ∧ g.c.inp = V.rem g.c.reqId t') : GetC V I id0 base file0 (getWrite A g n d) := by
  unfold getWrite
  simp only
  by_cases h3 : n < d.length
  · rw [if_pos h3]
    refine ⟨hi, .inr (.inl ⟨_, rfl⟩), .inr ?_⟩
    rcases hd with ⟨h1, h2⟩ | ⟨t', h1, h2⟩
    · rw [h2] at h3; exact absurd h3 (by simp)
    · exact ⟨dn, d, t', n, .inl ⟨by rw [hps, h1], by show g.file ++ _ = _; rw [hf]⟩⟩
  · rw [if_neg h3, List.take_of_length_le (by omega)]
    rcases hd with ⟨h1, h2⟩ | ⟨t', h1, h2⟩
    · subst h2
      rw [if_neg (by simp)]
      have e : g.file ++ [] = base ++ dn.flatten := by rw [List.append_nil, hf]
      by_cases h5 : 0 < g.h.cap
      · rw [if_pos h5]
        exact ⟨(fun h => by cases h), .inl ⟨_, rfl⟩, dn, t, hps, e, fun _ => h1⟩
      · rw [if_neg h5]
        exact ⟨(fun h => by cases h), .inr (.inl ⟨_, rfl⟩), dn, t, hps, e, fun _ => h1⟩
    · have hpos := (hV.ps d (by rw [hps, h1]; simp)).1
      have e : g.file ++ d = base ++ (dn ++ [d]).flatten := by rw [hf]; simp
      have hps' : V.ps = (dn ++ [d]) ++ t' := by rw [hps, h1]; simp
      by_cases h4 : 0 < d.length ∧ g.c.int = false
      · rw [if_pos h4]
        exact ⟨hi, .inr (.inr (.inr hid)), dn ++ [d], t', hps', e, h2, hh⟩
      · rw [if_neg h4]
        have hI : I := hi (by
          cases hc : g.c.int with
          | true => rfl
          | false => exact absurd ⟨hpos, hc⟩ h4)
        by_cases h5 : 0 < g.h.cap
        · rw [if_pos h5]
          exact ⟨(fun h => by cases h), .inl ⟨_, rfl⟩, dn ++ [d], t', hps', e, fun hh => absurd hI hh⟩
        · rw [if_neg h5]
          exact ⟨(fun h => by cases h), .inr (.inl ⟨_, rfl⟩), dn ++ [d], t', hps', e, fun hh => absurd hI hh⟩

theorem getClose_conv {g : Get} {c : Chan} {o : Out Close Unit} {dn t : List Bytes} (hi' : c.int = true → I) (hi : g.c.int = true → I)
    (hps : V.ps = dn ++ t) (hf : g.file = base ++ dn.flatten) (ht : ¬ I → t = []) :
    GetC V I id0 base file0 (getClose g c o) := by
  match o with
  | .more s => exact ⟨hi', .inl ⟨_, rfl⟩, dn, t, hps, hf, ht⟩
  | .again s =>
    simp only [getClose]
    by_cases hn : want c.err = true
    · rw [if_pos hn]; exact ⟨hi', .inl ⟨_, rfl⟩, dn, t, hps, hf, ht⟩
    · rw [if_neg hn]; exact ⟨hi', .inr (.inl ⟨_, rfl⟩), .inr (partial_inv hps hf)⟩
  | .ret none =>
    simp only [getClose]
    by_cases hn : want c.err = true
    · rw [if_pos hn]; exact ⟨hi', .inl ⟨_, rfl⟩, dn, t, hps, hf, ht⟩
    · rw [if_neg hn]; exact ⟨hi', .inr (.inl ⟨_, rfl⟩), .inr (partial_inv hps hf)⟩
  | .ret (some d) => exact ⟨hi', .inr (.inl ⟨_, rfl⟩), dn, t, hps, hf, ht⟩
  | .ub => exact ⟨hi, .inr (.inr (.inl rfl)), True.intro⟩

theorem getStep_conv (hV : V.Ok) {A : Args} {tab0 : List Slot} {g : Get} (ev : Ev) (hinv : GetInv A file0 tab0 g)
    (hI : ev.interrupts = true → I) (hk : g.ph = .read .flat → ∀ k err junk, ev = .stream (.ok k) err junk → 4 ≤ k)
    (hg : GetC V I id0 (baseFile A tab0 file0) file0 g) : GetC V I id0 (baseFile A tab0 file0) file0 (getStep A g ev) := by
  have hg0 := hg
  obtain ⟨hi, hid, hp⟩ := hg
  unfold getStep
  by_cases hev : ev.interrupts = true
  · rw [if_pos hev]
    refine ⟨fun _ => hI hev, hid, ?_⟩
    show GetPhC V I id0 (baseFile A tab0 file0) file0 _ g.ph
    generalize g.ph = ph at hp ⊢
    cases ph with
    | stat s => obtain ⟨a, b⟩ := hp; refine ⟨?_, b⟩; cases s <;> exact a
    | «open» s =>
      obtain ⟨a, b⟩ := hp; refine ⟨?_, b⟩
      exact a
    | read r => obtain ⟨dn, t, a, b, c, d⟩ := hp; refine ⟨dn, t, a, b, ?_, d⟩; cases r <;> exact c
    | done b => cases b <;> exact hp
    | _ => exact hp
  · rw [if_neg hev]
    have hid' : (¬ ∃ s, g.ph = .close s) → (¬ ∃ b, g.ph = .done b) → g.ph ≠ .ub → g.c.reqId < 2 ^ 32 := by
      intro a b c
      rcases hid with h | h | h | h
      · exact absurd h a
      · exact absurd h b
      · exact absurd h c
      · exact h
    cases hph : g.ph with
    | stat s =>
      rw [hph] at hp hid'
      obtain ⟨h1, h2, h3, h4⟩ := hp
      exact getStat_conv hV (Same.stat _ _ _ _) hi (statStep_conv hV _ _ _ _ (hid' (by simp) (by simp) (by simp)) h1) h2 h3 h4
    | «open» o =>
      rw [hph] at hp hid'
      obtain ⟨h1, h2, h3, h4⟩ := hp
      exact getOpen_conv (by rw [openStep_int]; exact hi) hi
        (openStep_conv hV _ _ _ _ (hid' (by simp) (by simp) (by simp)) h1 h3 h4) h2
    | «local» =>
      have hip := hinv.ph
      rw [hph] at hp hid' hip
      obtain ⟨h1, h2, h3⟩ := hp
      obtain ⟨_, hv, _⟩ := hip
      cases ev <;> try exact hg0
      case «local» i f s =>
        cases f
        · exact ⟨hi, .inr (.inl ⟨_, rfl⟩), .inl h2⟩
        · refine ⟨hi, .inr (.inr (.inr (hid' (by simp) (by simp) (by simp)))), [], V.ps, rfl, ?_, h1, h3⟩
          show (if 0 < g.ofst.1 ∨ 0 < g.ofst.2 then g.file else []) = _
          rw [List.flatten_nil, List.append_nil, baseFile]
          by_cases hz : 0 < g.ofst.1 ∨ 0 < g.ofst.2
          · rw [if_pos hz, if_neg (by rw [← hv, val_zero]; exact fun h => h hz), h2]
          · rw [if_neg hz, if_pos (by rw [← hv, val_zero]; exact hz)]
    | read r =>
      rw [hph] at hp hid'
      obtain ⟨dn, t, h1, h2, h3, h4⟩ := hp
      exact getRead_conv (rdStep_same _ _ _ _) hi
        (rdStep_conv hV (fun p hp => hV.ps p (by rw [h1]; exact List.mem_append_right _ hp)) ev g.c r (hid' (by simp) (by simp) (by simp)) h3
          (fun hr => hk (by rw [hph, hr]))) h1 h2 h4
    | write d =>
      rw [hph] at hp hid'
      obtain ⟨dn, t, h1, h2, h3, h4⟩ := hp
      cases ev <;> try exact hg0
      case file n => exact getWrite_conv hV hi (hid' (by simp) (by simp) (by simp)) h1 h2 h3 h4
    | close s =>
      rw [hph] at hp
      obtain ⟨dn, t, h1, h2, h3⟩ := hp
      exact getClose_conv (by rw [(closeStep_same _ _ _ _).2]; exact hi) hi h1 h2 h3
    | done b => exact hg0
    | ub => exact hg0

theorem getRun_conv (hV : V.Ok) (A : Args) (c : Chan) (file0 : Bytes) (tab0 : List Slot) (evs : List Ev) (hc : c.gh = none) (htab : TabOk tab0)
    (hid : c.reqId < 2 ^ 32) (hin : c.inp = V.r0 c.reqId)
    (hI : (∃ ev ∈ evs, ev.interrupts = true) → I) (hint : c.int = true → I)
    (hk : ∀ pre k err junk post, evs = pre ++ .stream (.ok k) err junk :: post →
      (getRun A (getStart c file0 tab0) pre).ph = .read .flat → 4 ≤ k) :
    GetC V I c.reqId (baseFile A tab0 file0) file0 (getRun A (getStart c file0 tab0) evs) := by
  refine run_inv' _ _ _ evs ⟨hint, .inr (.inr (.inr hid)), ⟨hin, rfl⟩, rfl, hc, HdOk.fresh.1⟩ ?_
  intro pre ev post he hp
  refine getStep_conv hV ev (getRun_inv A c file0 tab0 pre hc htab) (fun h => hI ⟨ev, by rw [he]; simp, h⟩) ?_ hp
  intro hph k err junk hev
  exact hk pre k err junk post (by rw [he, hev]) hph

theorem kind_of {p : Nat} (h : p / 4096 % 64 = 8 ∨ p / 4096 % 64 = 10) :
    ¬ (p &&& 0o770000 ≠ 0o100000 ∧ p &&& 0o770000 ≠ 0o120000) := by
  have e : p &&& 0o770000 = (p / 4096 % 64) * 4096 := by
    apply Nat.eq_of_testBit_eq
    intro i
    rw [show (0o770000 : Nat) = (2 ^ 6 - 1) <<< 12 by decide, show (4096 : Nat) = 2 ^ 12 by decide, show (64 : Nat) = 2 ^ 6 by decide,
      ← Nat.shiftLeft_eq, Nat.testBit_and, Nat.testBit_shiftLeft, Nat.testBit_shiftLeft, Nat.testBit_two_pow_sub_one, Nat.testBit_mod_two_pow,
      Nat.testBit_div_two_pow]
    by_cases hi : 12 ≤ i
    · simp only [hi, decide_true, Bool.true_and, Nat.sub_add_cancel hi]
      rw [Bool.and_comm]
    · simp [hi]
  rw [e]
  omega

end Proofs.SftpClient
