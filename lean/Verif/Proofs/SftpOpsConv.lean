import Verif.Proofs.SftpOpsRun
/-! # The SFTP client's other calls: with a server that answers -/

namespace Proofs.SftpOps
open Wolf Wolf.Wire Wolf.Sftp Wolf.SftpClient Wolf.SftpOps Proofs.SftpLoop Proofs.SftpClient
open Wolf.Path (oct2dec)
open Spec.Wire Spec.Sftp
open Spec.SftpOps (Request first change chmods Sane outOf shown Fine)
open Proofs.Sftp (toAttrs)

theorem bufRead_all {X R got : Bytes} {c : Chan} (k : Nat) (err : Ret) (hx : got ++ c.inp = X ++ R) (hg : got.length ≤ X.length) (hk : X.length ≤ k) :
    (bufRead X.length k err c got).1 = true := by
  have hlen : c.inp.length = X.length + R.length - got.length := by
    have := congrArg List.length hx; simp at this; omega
  simp only [bufRead, cmin_eq, decide_eq_true_eq, List.length_append, List.length_take]
  omega

theorem header_all {R got : Bytes} {c : Chan} {n id : Nat} {type : UInt8} {got' : Bytes} (k : Nat) (err : Ret)
    (hx : got ++ c.inp = (encUint32 (n + 5) ++ (type :: encUint32 id)) ++ R) (hg : got.length < 9) (h0 : 0 < n) (hn : n < 2 ^ 31) (hid : id < 2 ^ 32)
    (hk : 2 ^ 31 ≤ k) (hs : (getHeader k err c got).2 = .short got') : False := by
  rcases getHeader_of k err hx hg h0 hn hid with h | ⟨g, i, h, h2, h3⟩
  · rw [h] at hs; cases hs
  · have h9 : (encUint32 (n + 5) ++ (type :: encUint32 id)).length = 9 := by simp [enc_len]
    have := bufRead_all k err hx (by rw [h9]; omega) (by rw [h9]; omega)
    rw [h9] at this
    unfold getHeader at h
    simp only at h
    rw [if_pos (show (bufRead HEADER k err c got).1 = true from this)] at h
    obtain ⟨l, t, i', hf, _⟩ := fields_eq (bufRead_full (sz := 9) (by omega) this)
    rw [show bufRead HEADER k err c got = bufRead 9 k err c got from rfl, hf] at h
    simp only at h
    split at h
    · cases (Prod.mk.inj h).2
    · split at h <;> cases (Prod.mk.inj h).2

theorem parse_of (a : Attrs) (h : a.Fits) : ∃ x i, parseAttributes (encAttrs a) (encAttrs a).length 0 = .ok x i ∧ toAttrs x = a ∧ Plain x := by
  have hl := (encAttrs_len a).2
  have he : Props.Wire.msgFrom (encAttrs a) (encAttrs a).length 0 = encAttrs a ++ [] := by
    show ((encAttrs a).take _).drop 0 = _
    simp
  have ha := Proofs.Sftp.attrs_enc a h []
  rcases Proofs.Sftp.parseAttributes_cases (mem' := encAttrs a) (len := (encAttrs a).length) 0 (Nat.le_refl _) (by omega) with ⟨e, i, _, h2⟩ | ⟨x, i, h1, _, _, h2⟩
  · rw [he, ha] at h2; cases h2
  · rw [he, ha] at h2
    injection h2 with h2
    have h2 := (Prod.mk.inj h2).1
    refine ⟨x, i, h1, h2.symm, ?_⟩
    have hfl : a.flags < 16 := by
      unfold Attrs.flags
      cases a.size.isSome <;> cases a.owner.isSome <;> cases a.perm.isSome <;> cases a.times.isSome <;> decide
    have g0 : getUint32 (encAttrs a) (encAttrs a).length 0 = .ok a.flags (0 + 4) := by
      rw [getUint32_eq (encAttrs a) _ 0 (Nat.le_refl _) (by omega)]
      have e : ((encAttrs a).take (encAttrs a).length).drop 0 = encUint32 a.flags ++ (encField encUint64 a.size ++ (encField (fun p => encUint32 p.1 ++ encUint32 p.2) a.owner ++
          (encField encUint32 a.perm ++ encField (fun p => encUint32 p.1 ++ encUint32 p.2) a.times))) := by
        rw [List.take_length]; simp [encAttrs]
      rw [e, Proofs.Sftp.uint32_enc _ (by omega)]
    unfold parseAttributes andThen at h1
    rw [g0] at h1
    simp only at h1
    have bound : ∀ {b : Bool} {j : Nat} {v : Nat × Nat} {j' : Nat}, optPair b (encAttrs a) (encAttrs a).length j = .ok v j' → v.2 < 2 ^ 32 := by
      intro b j v j' hv
      unfold optPair at hv
      cases b with
      | false => simp at hv; rw [← hv.1]; decide
      | true =>
        simp only [if_true, andThen] at hv
        cases q1 : getUint32 (encAttrs a) (encAttrs a).length j with
        | ub => rw [q1] at hv; cases hv
        | err e i => rw [q1] at hv; cases hv
        | ok v1 j1 =>
          rw [q1] at hv
          simp only at hv
          cases q2 : getUint32 (encAttrs a) (encAttrs a).length j1 with
          | ub => rw [q2] at hv; cases hv
          | err e i => rw [q2] at hv; cases hv
          | ok v2 j2 =>
            rw [q2] at hv
            simp only at hv
            injection hv with hv _
            rw [← hv]
            show v2 < 2 ^ 32
            unfold getUint32 at q2
            split at q2
            · split at q2
              · injection q2 with q2 _
                rw [← q2, ato32_beNat]
                refine Nat.lt_of_lt_of_le (Wolf.Wire.beNat_lt _) ?_
                refine Nat.le_trans (Nat.pow_le_pow_right (j := 4) (by decide) ?_) (by decide)
                simp; try omega
              · cases q2
            · cases q2
    cases q1 : optPair (a.flags.testBit 0) (encAttrs a) (encAttrs a).length (0 + 4) with
    | ub => rw [q1] at h1; cases h1
    | err e i => rw [q1] at h1; cases h1
    | ok sz i1 =>
      have hb := bound q1
      rw [q1] at h1
      simp only at h1
      cases q2 : optPair (a.flags.testBit 1) (encAttrs a) (encAttrs a).length i1 with
      | ub => rw [q2] at h1; cases h1
      | err e i => rw [q2] at h1; cases h1
      | ok w i2 =>
        rw [q2] at h1
        simp only at h1
        cases q3 : optWord (a.flags.testBit 2) (encAttrs a) (encAttrs a).length i2 with
        | ub => rw [q3] at h1; cases h1
        | err e i => rw [q3] at h1; cases h1
        | ok w i3 =>
          rw [q3] at h1
          simp only at h1
          cases q4 : optPair (a.flags.testBit 3) (encAttrs a) (encAttrs a).length i3 with
          | ub => rw [q4] at h1; cases h1
          | err e i => rw [q4] at h1; cases h1
          | ok w i4 =>
            rw [q4] at h1
            simp only at h1
            cases q5 : optWord (a.flags.testBit 31) (encAttrs a) (encAttrs a).length i4 with
            | ub => rw [q5] at h1; cases h1
            | err e i => rw [q5] at h1; cases h1
            | ok w i5 =>
              rw [q5] at h1
              simp only at h1
              cases q6 : skipExts w (encAttrs a) (encAttrs a).length i5 with
              | ub => rw [q6] at h1; cases h1
              | err e i => rw [q6] at h1; cases h1
              | ok w i6 =>
                rw [q6] at h1
                simp only at h1
                injection h1 with h1 _
                subst h1
                exact ⟨hfl, hb⟩

theorem want_keeps (o : Op) {e : Ret} (h : want e = true) : o.keeps e = true := by
  cases o <;> first | exact h | exact want_notice h

/-! ## Asking about a file -/

def LookC (a : Attrs) (id : Nat) (R : Bytes) (c : Chan) : Stat → Prop
  | .send => c.inp = (Reply.attrs a).packet id ++ R
  | .head got => got ++ c.inp = (Reply.attrs a).packet id ++ R ∧ got.length < 9
  | .check .. => False
  | .body t sz got => t = 105 ∧ sz = (encAttrs a).length ∧ got ++ c.inp = encAttrs a ++ R ∧ got.length ≤ sz

def LookCR (ev : Ev) (a : Attrs) (id : Nat) (R : Bytes) : Chan × Out Stat Attr → Prop
  | (c, .more s) => LookC a id R c s
  | (c, .again s) => LookC a id R c s ∧ (Fine ev → want c.err = true)
  | (_, .ret none) => ¬ Fine ev
  | (c, .ret (some x)) => Plain x ∧ toAttrs x = a ∧ c.inp = R
  | (_, .ub) => True

theorem lookCR_ite {ev : Ev} {a : Attrs} {id : Nat} {R : Bytes} {b : Prop} [Decidable b] {x y : Chan × Out Stat Attr}
    (hx : b → LookCR ev a id R x) (hy : ¬ b → LookCR ev a id R y) : LookCR ev a id R (if b then x else y) := by
  by_cases hb : b
  · rw [if_pos hb]; exact hx hb
  · rw [if_neg hb]; exact hy hb

theorem sendType_fail {res : Except Err Nat} {err : Ret} {t : Byte} {buf : Bytes} {c c' : Chan} (h : sendType res err t buf c = (c', some false)) :
    (∃ e, res = .error e) ∧ c'.err = err := by
  unfold sendType at h
  cases res with
  | error e => cases h; exact ⟨⟨e, rfl⟩, rfl⟩
  | ok k =>
    simp only at h
    split at h
    · cases h
    · cases h

theorem lookStep_conv {a : Attrs} (ha : a.Fits) {id : Nat} {R B : Bytes} {t : Byte} {p : Bytes} (ev : Ev) {c : Chan} {s : Stat} (hid : id < 2 ^ 32)
    (hs : LookS B t p id c s) (h : LookC a id R c s) : LookCR ev a id R (lookStep t p ev c s) := by
  have hl := encAttrs_len a
  cases s with
  | send =>
    cases ev <;> try exact h
    case send res err pend =>
      have hf := (sendType_frame res err t p c).1
      have hx := @sendType_fail res err t p c
      simp only [lookStep]
      generalize sendType res err t p c = q at hf hx ⊢
      obtain ⟨c', o⟩ := q
      match o with
      | none => exact hf.trans h
      | some true => exact ⟨hf.trans h, by decide⟩
      | some false =>
        obtain ⟨⟨e, rfl⟩, he⟩ := hx rfl
        refine lookCR_ite (fun _ => ⟨hf.trans h, fun hF => by rw [he]; exact hF⟩) (fun hn hF => hn ?_)
        rw [he]; exact want_notice hF
  | head got =>
    cases ev <;> try exact h
    case read k err =>
      obtain ⟨h1, h2⟩ := h
      simp only [lookStep]
      have h1' := h1
      rw [reply_eq, List.append_assoc] at h1
      have h0 : 0 < (Reply.attrs a).body.length := by show 0 < (encAttrs a).length; omega
      have h3 : (Reply.attrs a).body.length < 2 ^ 31 := by show (encAttrs a).length < _; omega
      have hall := fun hk g => header_all (got' := g) k err h1 h2 h0 h3 hid hk
      rcases getHeader_of k err h1 h2 h0 h3 hid with h | ⟨got', inp', h, h4, h5⟩
      · rw [h]
        simp only [lookCheck]
        rw [if_neg (by rw [hs.1]; simp)]
        exact ⟨rfl, rfl, rfl, Nat.zero_le _⟩
      · rw [h] at hall ⊢
        have hw : Fine (.read k err) → want err = true := by
          rintro (hw | hk)
          · exact hw
          · exact (hall hk got' rfl).elim
        refine lookCR_ite (fun _ => ⟨⟨?_, h5⟩, hw⟩) (fun hn hF => hn (want_notice (hw hF)))
        show got' ++ inp' = _
        rw [reply_eq, List.append_assoc]; exact h4
  | check type i sz => exact h.elim
  | body type sz got =>
    cases ev <;> try exact h
    case read k err =>
      obtain ⟨h1, h2, h3, h4⟩ := h
      subst h1 h2
      simp only [lookStep]
      have hall := fun hk => bufRead_all k err h3 h4 hk
      rcases bufRead_of k err h3 h4 with h | ⟨got', inp', h, h5, h6⟩
      · rw [h]
        simp only [if_true, lookReply]
        obtain ⟨x, i, g1, g2, g3⟩ := parse_of a ha
        rw [g1]
        exact ⟨g3, g2, rfl⟩
      · rw [h] at hall ⊢
        simp only [Bool.false_eq_true, if_false]
        have hw : Fine (.read k err) → want err = true := by
          rintro (hw | hk)
          · exact hw
          · exact nomatch (hall (by omega))
        exact lookCR_ite (fun _ => ⟨⟨rfl, rfl, h5, Nat.le_of_lt h6⟩, hw⟩) (fun hn hF => hn (want_notice (hw hF)))

/-! ## The request -/

/-- A status. -/
structure Said where
  code : Nat
  m : Bytes
  l : Bytes
  rest : Bytes

structure Said.Ok (V : Said) : Prop where
  code : V.code ≤ 8
  s : (Reply.status V.code V.m V.l).body.length < 2 ^ 31

def Said.reply (V : Said) : Reply := .status V.code V.m V.l

def ExC (V : Said) (id : Nat) (c : Chan) : Ex → Prop
  | .raw _ _ => c.inp = V.reply.packet id ++ V.rest
  | .typed => c.inp = V.reply.packet id ++ V.rest
  | .head got => got ++ c.inp = V.reply.packet id ++ V.rest ∧ got.length < 9
  | .status sz got => sz = V.reply.body.length ∧ got ++ c.inp = V.reply.body ++ V.rest ∧ got.length < sz

def ExCR (ev : Ev) (V : Said) (id : Nat) (O : Bytes) : Chan × Out Ex Unit → Prop
  | (c, .more e) => ExC V id c e
  | (c, .again e) => ExC V id c e ∧ (Fine ev → want c.err = true)
  | (c, .ret none) => Fine ev → V.code ≠ 0 ∧ c.inp = V.rest ∧ c.out = O ∧ ∃ k, 0 < k ∧ ev = .read k c.err
  | (c, .ret (some _)) => V.code = 0 ∧ c.inp = V.rest
  | (_, .ub) => True

theorem exCR_ite {ev : Ev} {V : Said} {id : Nat} {O : Bytes} {b : Prop} [Decidable b] {x y : Chan × Out Ex Unit}
    (hx : b → ExCR ev V id O x) (hy : ¬ b → ExCR ev V id O y) : ExCR ev V id O (if b then x else y) := by
  by_cases hb : b
  · rw [if_pos hb]; exact hx hb
  · rw [if_neg hb]; exact hy hb

theorem exCR_ite' {ev : Ev} {V : Said} {id : Nat} {O : Bytes} {b : Prop} [Decidable b] {c : Chan} {x y : Out Ex Unit}
    (hx : b → ExCR ev V id O (c, x)) (hy : ¬ b → ExCR ev V id O (c, y)) : ExCR ev V id O (c, if b then x else y) := by
  by_cases hb : b
  · rw [if_pos hb]; exact hx hb
  · rw [if_neg hb]; exact hy hb

theorem status_len (V : Said) : 12 ≤ V.reply.body.length := by
  simp [Said.reply, Reply.body, encString, enc_len]; omega

theorem exStep_conv {V : Said} (hV : V.Ok) {o : Op} {id : Nat} {B Q : Bytes} (ev : Ev) {c : Chan} {e : Ex} (hid : id < 2 ^ 32)
    (hs : ExS o B Q id c e) (h : ExC V id c e) : ExCR ev V id (B ++ Q) (exStep o ev c e) := by
  have hl := status_len V
  have hl' : V.reply.body.length < 2 ^ 31 := hV.s
  cases e with
  | raw buf i =>
    cases ev <;> try exact h
    case send res err pend =>
      cases res with
      | error x => exact exCR_ite' (fun _ => ⟨h, fun hF => hF⟩) (fun hn hF => absurd (want_keeps o hF) hn)
      | ok k => exact exCR_ite (fun _ => ⟨h, fun _ => rfl⟩) (fun _ => ⟨h, by decide⟩)
  | typed =>
    cases ev <;> try exact h
    case send res err pend =>
      have hf := (sendType_frame res err o.typed.1 o.typed.2 c).1
      have hx := @sendType_fail res err o.typed.1 o.typed.2 c
      simp only [exStep]
      generalize sendType res err o.typed.1 o.typed.2 c = q at hf hx ⊢
      obtain ⟨c', r⟩ := q
      match r with
      | none => exact hf.trans h
      | some true => exact ⟨hf.trans h, by decide⟩
      | some false =>
        obtain ⟨⟨e, rfl⟩, he⟩ := hx rfl
        refine exCR_ite' (fun _ => ⟨hf.trans h, fun hF => by rw [he]; exact hF⟩) (fun hn hF => absurd ?_ hn)
        rw [he]; exact want_keeps o hF
  | head got =>
    cases ev <;> try exact h
    case read k err =>
      obtain ⟨h1, h2⟩ := h
      simp only [exStep]
      rw [reply_eq, List.append_assoc] at h1
      have h0 : 0 < V.reply.body.length := by omega
      have hall := fun hk g => header_all (got' := g) k err h1 h2 h0 hl' hid hk
      rcases getHeader_of k err h1 h2 h0 hl' hid with h | ⟨got', inp', h, h4, h5⟩
      · rw [h]
        have ht : V.reply.type.toNat = 101 := rfl
        have hr : id = c.reqId := hs.1.symm
        have key : ∀ c' : Chan, c'.inp = V.reply.body ++ V.rest → ExC V id c' (.status V.reply.body.length []) :=
          fun c' hc => ⟨rfl, by rw [hc]; rfl, h0⟩
        cases o with
        | rename => simp only [exHead]; rw [if_neg (by simp [hr]), ht, if_neg (by simp)]; exact key _ rfl
        | mkdir => simp only [exHead]; rw [ht, if_neg (by simp), if_neg (by simp [hr])]; exact key _ rfl
        | setstat => simp only [exHead]; rw [ht, if_neg (by simp)]; exact key _ rfl
        | chmod => simp only [exHead]; rw [ht, if_neg (by simp)]; exact key _ rfl
        | remove => simp only [exHead]; rw [ht, if_neg (by simp)]; exact key _ rfl
        | rmdir => simp only [exHead]; rw [ht, if_neg (by simp)]; exact key _ rfl
      · rw [h] at hall ⊢
        have hw : Fine (.read k err) → want err = true := by
          rintro (hw | hk)
          · exact hw
          · exact (hall hk got' rfl).elim
        refine exCR_ite' (fun _ => ⟨⟨?_, h5⟩, hw⟩) (fun hn hF => absurd (want_keeps o (hw hF)) hn)
        show got' ++ inp' = _
        rw [reply_eq, List.append_assoc]; exact h4
  | status sz got =>
    cases ev <;> try exact h
    case read k err =>
      obtain ⟨h1, h3, h4⟩ := h
      subst h1
      simp only [exStep]
      have hall := fun hk => bufRead_all k err h3 (Nat.le_of_lt h4) hk
      have hk0 : k = 0 → (bufRead V.reply.body.length k err c got).1 = false := by
        rintro rfl
        simp [bufRead, cmin_eq]; exact h4
      rcases bufRead_of k err h3 (Nat.le_of_lt h4) with h | ⟨got', inp', h, h5, h6⟩
      · rw [h] at hk0 ⊢
        simp only [if_true]
        obtain ⟨i, hi⟩ := doStatus_of V.code V.m V.l hV.code hV.s
        rw [show doStatus V.reply.body = .ok V.code i from hi]
        refine exCR_ite' (fun hc => ⟨hc, rfl⟩) (fun hc _ => ⟨hc, rfl, hs.2, k, ?_, rfl⟩)
        cases k with
        | zero => exact nomatch (hk0 rfl)
        | succ n => omega
      · rw [h] at hall ⊢
        simp only [Bool.false_eq_true, if_false]
        have hw : Fine (.read k err) → want err = true := by
          rintro (hw | hk)
          · exact hw
          · exact nomatch (hall (by omega))
        exact exCR_ite' (fun _ => ⟨⟨rfl, h5, h6⟩, hw⟩) (fun hn hF => absurd (want_keeps o (hw hF)) hn)

/-! ## A call -/

theorem ask_conv {o : Op} {c : Chan} {x : Attr} {a : Attrs} {mode : Nat} (hs : Sane o) (hm : ∀ p oct, o = .chmod p oct → oct2dec oct = .ok mode)
    (hx : chmods o = true → Plain x ∧ toAttrs x = a) (hp : c.pkt = none) :
    ∃ e, ask o c x = some e ∧ ExS o c.out ((change a mode o).packet c.reqId) c.reqId c e ∧
      ∀ (V : Said) (id : Nat), c.inp = V.reply.packet id ++ V.rest → ExC V id c e := by
  cases hc : chmods o with
  | false =>
    cases ha : ask o c x with
    | none => cases o <;> first | cases ha | cases hc
    | some e =>
      refine ⟨e, rfl, ?_, fun V id hi => ?_⟩
      · have := ask_sent hs hc ha hp
        rw [change_any hc _ a 0 mode] at this
        exact this
      · cases o <;> first | (cases ha; exact hi) | cases hc
  | true =>
    obtain ⟨h1, h2⟩ := hx hc
    cases o with
    | chmod p oct =>
      simp only [ask, hm p oct rfl]
      refine ⟨_, rfl, ⟨rfl, hp, ?_, Nat.zero_le _, by simp⟩, fun V id hi => hi⟩
      rw [setstat_eq _ _ (a := { x with per := mode }) ⟨h1.flags, h1.sz0⟩]
      have : toAttrs { x with per := mode } = { a with perm := a.perm.map fun _ => mode } := by
        rw [← h2]; simp only [toAttrs]
        cases x.flags.testBit 2 <;> rfl
      rw [this]
      rfl
    | _ => cases hc

/-- The conversation: the attributes of the file, if the client asks, then the status. -/
structure Talk where
  a : Attrs
  mode : Nat
  V : Said
  id : Nat

def Talk.id1 (T : Talk) (o : Op) : Nat := if (first o).isSome then add32 T.id 1 else T.id

def Talk.inp (T : Talk) (o : Op) : Bytes :=
  (if (first o).isSome then (Reply.attrs T.a).packet T.id else []) ++ T.V.reply.packet (T.id1 o) ++ T.V.rest

def Talk.base (T : Talk) (o : Op) (out0 : Bytes) : Bytes := out0 ++ ((first o).map (·.packet T.id)).getD []

def CInv (T : Talk) (o : Op) (out0 : Bytes) : Call → Prop
  | .at c (.look s left) => left = none ∧ ∃ t p, o.look = some (t, p) ∧ LookS out0 t p T.id c s ∧
      LookC T.a T.id (T.V.reply.packet (add32 T.id 1) ++ T.V.rest) c s
  | .at c (.ex _ e) => ExS o (T.base o out0) ((change T.a T.mode o).packet (T.id1 o)) (T.id1 o) c e ∧ ExC T.V (T.id1 o) c e
  | .done c ok => (ok = true ↔ T.V.code = 0) ∧ c.out = T.base o out0 ++ (change T.a T.mode o).packet (T.id1 o) ∧ c.inp = T.V.rest
  | .ub => True

theorem lookC_congr {a : Attrs} {id : Nat} {R : Bytes} {c c' : Chan} {s : Stat} (h : LookC a id R c s) (h1 : c'.inp = c.inp) : LookC a id R c' s := by
  cases s <;> simp only [LookC, h1] at h ⊢ <;> exact h

theorem exC_congr {V : Said} {id : Nat} {c c' : Chan} {e : Ex} (h : ExC V id c e) (h1 : c'.inp = c.inp) : ExC V id c' e := by
  cases e <;> simp only [ExC, h1] at h ⊢ <;> exact h

theorem add32_lt (a b : Nat) : add32 a b < 2 ^ 32 := Nat.mod_lt _ (Nat.two_pow_pos 32)

theorem step_conv {T : Talk} {o : Op} {out0 : Bytes} {s : Call} (hs : Sane o) (ha : T.a.Fits) (hV : T.V.Ok) (hid : T.id < 2 ^ 32)
    (hm : ∀ p oct, o = .chmod p oct → oct2dec oct = .ok T.mode) (ev : Ev) (hF : Fine ev)
    (hst : chmods o = true → T.V.code ≠ 0 → ∀ k err, ev = .read k err → want err = true → k = 0) (h : CInv T o out0 s) :
    CInv T o out0 (step o s ev) := by
  match s with
  | .at c (.look s left) =>
    obtain ⟨rfl, t, p, hl, h1, h2⟩ := h
    obtain ⟨q, hq, heq⟩ := look_first hl
    have hi1 : T.id1 o = add32 T.id 1 := by simp [Talk.id1, hq]
    simp only [step, hl]
    have r1 := lookStep_sent ev h1
    have r2 := lookStep_conv ha ev hid h1 h2
    generalize lookStep t p ev c s = r at r1 r2 ⊢
    obtain ⟨c', x⟩ := r
    match x with
    | .more s => exact ⟨rfl, t, p, hl, r1, r2⟩
    | .again s =>
      simp only [lookPh]
      rw [if_pos (want_keeps o (r2.2 hF))]
      exact ⟨rfl, t, p, hl, lookS_congr r1 rfl rfl rfl, lookC_congr r2.1 rfl⟩
    | .ret none => exact absurd hF r2
    | .ret (some x) =>
      obtain ⟨g1, g2, g3⟩ := r1
      obtain ⟨k1, k2, k3⟩ := r2
      obtain ⟨e, he, hS, hC⟩ := ask_conv (a := T.a) (mode := T.mode) (c := c') hs hm (fun _ => ⟨k1, k2⟩) g2
      simp only [lookPh, he]
      refine ⟨?_, ?_⟩
      · have hb : T.base o out0 = c'.out := by rw [Talk.base, hq, g3, heq]; rfl
        rw [hb, hi1, ← g1]; exact hS
      · rw [hi1]; exact hC _ _ k3
    | .ub => exact True.intro
  | .at c (.ex a e) =>
    obtain ⟨h1, h2⟩ := h
    have hi : T.id1 o < 2 ^ 32 := by
      unfold Talk.id1
      split
      · exact add32_lt _ _
      · exact hid
    simp only [step]
    have r1 := exStep_sent ev h1
    have r2 := exStep_conv hV ev hi h1 h2
    generalize exStep o ev c e = r at r1 r2 ⊢
    obtain ⟨c', x⟩ := r
    match x with
    | .more e => exact ⟨r1, r2⟩
    | .again e =>
      have hw := r2.2 hF
      have e1 : exPh o a (c', .again e) = .at (o.recall c') (.ex a e) := by
        cases o <;> first | rfl | (simp only [exPh]; rw [if_pos hw]; rfl)
      rw [e1]
      obtain ⟨k1, k2, k3⟩ := recall_congr o c'
      refine ⟨exS_congr r1 k1 k2 k3, exC_congr r2.1 ?_⟩
      cases o <;> rfl
    | .ret (some u) => exact ⟨⟨fun _ => r2.1, fun _ => rfl⟩, r1.2, r2.2⟩
    | .ret none =>
      obtain ⟨g1, g2, go, k, g3, g4⟩ := r2 hF
      have e1 : exPh o a (c', .ret none) = .done c' false := by
        cases o <;> try rfl
        simp only [exPh]
        rw [if_neg]
        intro hw
        have := hst rfl g1 k _ g4 hw
        omega
      rw [e1]
      exact ⟨⟨fun h => (nomatch h), fun h => absurd h g1⟩, go, g2⟩
    | .ub => exact True.intro
  | .done c ok => exact h
  | .ub => exact True.intro

theorem enter_conv {T : Talk} {o : Op} {c : Chan} (hs : Sane o) (hp : c.pkt = none) (hm : ∀ p oct, o = .chmod p oct → oct2dec oct = .ok T.mode)
    (hid : c.reqId = T.id) (hi : c.inp = T.inp o) : CInv T o c.out (enter o c) := by
  cases hl : o.look with
  | none =>
    have hf := no_look hl
    obtain ⟨e, he, hS, hC⟩ := ask_conv (a := T.a) (mode := T.mode) (c := c) (x := {}) hs hm
      (fun h => by cases o <;> first | (cases hl; done) | (simp [chmods] at h; done) | cases hl) hp
    simp only [enter, hl, he]
    have e1 : T.id1 o = T.id := by simp [Talk.id1, hf]
    have e2 : T.base o c.out = c.out := by simp [Talk.base, hf]
    refine ⟨?_, ?_⟩
    · rw [e1, e2, ← hid]; exact hS
    · refine hC _ _ ?_
      show c.inp = _
      rw [hi, Talk.inp, hf, e1]; rfl
  | some tp =>
    obtain ⟨t, p⟩ := tp
    obtain ⟨q, hq, heq⟩ := look_first hl
    simp only [enter, hl]
    refine ⟨rfl, t, p, hl, ?_, ?_⟩
    · exact ⟨hid, .inl ⟨hp, rfl⟩⟩
    · show c.inp = _
      rw [hi, Talk.inp, hq, Talk.id1, hq]
      simp [List.append_assoc]

theorem run_conv {T : Talk} {o : Op} {c : Chan} (hs : Sane o) (hp : c.pkt = none) (ha : T.a.Fits) (hV : T.V.Ok) (hlt : T.id < 2 ^ 32)
    (hm : ∀ p oct, o = .chmod p oct → oct2dec oct = .ok T.mode) (hid : c.reqId = T.id) (hi : c.inp = T.inp o)
    {evs : List Ev} (hF : ∀ ev ∈ evs, Fine ev)
    (hst : chmods o = true → T.V.code ≠ 0 → ∀ k err, .read k err ∈ evs → want err = true → k = 0) :
    CInv T o c.out (run o c evs) := by
  have h0 := enter_conv (T := T) hs hp hm hid hi
  unfold run
  generalize enter o c = s at h0
  induction evs generalizing s with
  | nil => exact h0
  | cons ev evs ih =>
    refine ih (fun e he => hF e (List.mem_cons_of_mem _ he)) (fun a b k err h => hst a b k err (List.mem_cons_of_mem _ h)) _ ?_
    exact step_conv hs ha hV hlt hm ev (hF ev (List.mem_cons_self ..))
      (fun a b k err h => hst a b k err (h ▸ List.mem_cons_self ..)) h0

end Proofs.SftpOps
