import Verif.Proofs.SftpOps
import Verif.Spec.SftpCalls
/-! # The SFTP client's other calls: from beginning to end -/

namespace Proofs.SftpOps
open Wolf Wolf.Wire Wolf.Sftp Wolf.SftpClient Wolf.SftpOps Proofs.SftpLoop Proofs.SftpClient
open Spec.Wire Spec.Sftp
open Spec.SftpOps (Request first change chmods Sane outOf shown)
open Proofs.Sftp (toAttrs)

theorem shown_eq (a : Attr) : shown a = toAttrs a := rfl

/-! ## Safety -/

theorem word_ne (buf : Bytes) (h : buf.length < 2 ^ 32) (bit : Nat) (set : Nat → Attr → Attr) (f : Fill) (hf : f ≠ .ub) : f.word buf bit set ≠ .ub := by
  cases f with
  | ub => exact absurd rfl hf
  | stop a => exact fun h => nomatch h
  | on a i =>
    simp only [Fill.word]
    by_cases hb : a.flags.testBit bit = true
    · rw [if_pos hb]
      have := getUint32_ne buf h i
      cases hg : getUint32 buf buf.length i with
      | ub => exact absurd hg this
      | ok v i => exact fun h => nomatch h
      | err e i => exact fun h => nomatch h
    · rw [if_neg hb]; exact fun h => nomatch h

theorem fillAttrs_ne (buf : Bytes) (h : buf.length < 2 ^ 32) : fillAttrs buf ≠ .ub := by
  unfold fillAttrs
  have := getUint32_ne buf h 0
  cases hg : getUint32 buf buf.length 0 with
  | ub => exact absurd hg this
  | err e i => exact fun h => nomatch h
  | ok v i =>
    refine word_ne _ h _ _ _ (word_ne _ h _ _ _ (word_ne _ h _ _ _ (word_ne _ h _ _ _ (word_ne _ h _ _ _ (word_ne _ h _ _ _
      (word_ne _ h _ _ _ (word_ne _ h _ _ _ ?_)))))))
    exact fun h => nomatch h

theorem lookCheck_safe (c : Chan) (type id sz : Nat) (h : sz < 2 ^ 31) : Safe StatOk (fun _ => True) (lookCheck c type id sz).2 := by
  unfold lookCheck
  by_cases hi : id ≠ c.reqId
  · rw [if_pos hi]; exact h
  · rw [if_neg hi]; exact ⟨h, Nat.zero_le _⟩

theorem lookReply_safe (c : Chan) (type sz : Nat) (got : Bytes) (hs : sz < 2 ^ 31) (h : got.length < 2 ^ 31) :
    Safe StatOk (fun _ => True) (lookReply c type sz got) := by
  unfold lookReply
  by_cases h1 : type = 105
  · rw [if_pos h1]
    rcases Proofs.Sftp.parseAttributes_cases (mem' := got) (len := got.length) 0 (Nat.le_refl _) (by omega) with ⟨e, i, g, _⟩ | ⟨a, i, g, _⟩
    · rw [g]
      dsimp only
      by_cases hw : want c.err = true
      · rw [if_pos hw]; exact ⟨hs, Nat.zero_le _⟩
      · rw [if_neg hw]
        have := fillAttrs_ne got (by omega)
        cases hf : fillAttrs got with
        | ub => exact absurd hf this
        | on a i => exact True.intro
        | stop a => exact True.intro
    · rw [g]; exact True.intro
  · rw [if_neg h1]
    by_cases h2 : type = 101
    · rw [if_pos h2]
      rcases status_cases got (by omega) with ⟨code, i, g, _⟩ | ⟨e, i, g⟩
      · rw [g]
        dsimp only
        by_cases h3 : code = FTP_OK
        · rw [if_pos h3]; exact True.intro
        · rw [if_neg h3]; exact True.intro
      · rw [g]; exact True.intro
    · rw [if_neg h2]; exact True.intro

theorem lookStep_safe (t : Byte) (path : Bytes) (ev : Ev) (c : Chan) (s : Stat) (h : StatOk s) :
    Safe StatOk (fun _ => True) (lookStep t path ev c s).2 := by
  cases s with
  | send =>
    cases ev <;> try exact h
    case send res err p =>
      simp only [lookStep]
      generalize sendType res err t path c = q
      obtain ⟨c', o⟩ := q
      match o with
      | none => exact h
      | some true => exact Nat.zero_le _
      | some false => exact safe_ite (fun _ => h) (fun _ => True.intro)
  | head got =>
    cases ev <;> try exact h
    case read k err =>
      simp only [lookStep]
      have hc := getHeader_cases k err c got h
      generalize getHeader k err c got = q at hc ⊢
      obtain ⟨c', hd⟩ := q
      rcases hc with ⟨g, e, hg⟩ | ⟨z, e⟩ | ⟨ty, i, sz, e, h0, h1, _⟩
      · simp only at e; subst e; exact safe_ite (fun _ => hg) (fun _ => True.intro)
      · simp only at e; subst e; exact safe_ite (fun _ => Nat.zero_le _) (fun _ => True.intro)
      · simp only at e; subst e; exact lookCheck_safe _ _ _ _ h1
  | check type i sz => exact lookCheck_safe _ _ _ _ h
  | body type sz got =>
    cases ev <;> try exact h
    case read k err =>
      obtain ⟨h1, h2⟩ := h
      simp only [lookStep]
      have hle := bufRead_le sz k err c got h2
      exact safe_ite (fun _ => lookReply_safe _ _ _ _ h1 (by omega)) (fun _ => safe_ite (fun _ => ⟨h1, hle⟩) (fun _ => True.intro))

def ExOk : Ex → Prop
  | .head got => got.length ≤ 9
  | .status sz got => sz < 2 ^ 31 ∧ got.length ≤ sz
  | _ => True

theorem safe_ite' {σ α : Type} {P : σ → Prop} {Q : α → Prop} {b : Prop} [Decidable b] {x y : Out σ α}
    (hx : b → Safe P Q x) (hy : ¬ b → Safe P Q y) : Safe P Q (if b then x else y) := by
  by_cases hb : b
  · rw [if_pos hb]; exact hx hb
  · rw [if_neg hb]; exact hy hb

theorem exHead_safe (o : Op) (c : Chan) (hd : Header) (h : ∀ g, hd = .short g → g.length ≤ 9) (h' : ∀ t i sz, hd = .ok t i sz → sz < 2 ^ 31) :
    Safe ExOk (fun _ => True) (exHead o c hd).2 := by
  cases hd with
  | short got => exact safe_ite' (fun _ => h _ rfl) (fun _ => True.intro)
  | bad z =>
    refine safe_ite' (fun _ => Nat.zero_le _) (fun _ => ?_)
    cases o <;> try exact True.intro
    exact safe_ite' (fun _ => True.intro) (fun _ => True.intro)
  | ok type i sz =>
    have h1 := h' _ _ _ rfl
    have hk : ExOk (.status sz []) := ⟨h1, Nat.zero_le _⟩
    cases o with
    | rename => exact safe_ite (fun _ => True.intro) (fun _ => safe_ite (fun _ => True.intro) (fun _ => hk))
    | mkdir => exact safe_ite (fun _ => True.intro) (fun _ => safe_ite (fun _ => True.intro) (fun _ => hk))
    | setstat => exact safe_ite (fun _ => True.intro) (fun _ => hk)
    | chmod => exact safe_ite (fun _ => True.intro) (fun _ => hk)
    | remove => exact safe_ite (fun _ => safe_ite' (fun _ => Nat.zero_le _) (fun _ => True.intro)) (fun _ => hk)
    | rmdir => exact safe_ite (fun _ => safe_ite' (fun _ => Nat.zero_le _) (fun _ => True.intro)) (fun _ => hk)

theorem exStep_safe (o : Op) (ev : Ev) (c : Chan) (e : Ex) (h : ExOk e) : Safe ExOk (fun _ => True) (exStep o ev c e).2 := by
  cases e with
  | raw buf i =>
    cases ev <;> try exact h
    case send res err pend =>
      cases res with
      | error x => exact safe_ite' (fun _ => True.intro) (fun _ => True.intro)
      | ok k => exact safe_ite (fun _ => True.intro) (fun _ => Nat.zero_le _)
  | typed =>
    cases ev <;> try exact h
    case send res err pend =>
      simp only [exStep]
      generalize sendType res err o.typed.1 o.typed.2 c = q
      obtain ⟨c', r⟩ := q
      match r with
      | none => exact True.intro
      | some true => exact Nat.zero_le _
      | some false => exact safe_ite' (fun _ => True.intro) (fun _ => True.intro)
  | head got =>
    cases ev <;> try exact h
    case read k err =>
      have hc := getHeader_cases k err c got h
      simp only [exStep]
      refine exHead_safe _ _ _ (fun g hg => ?_) (fun t i sz hg => ?_)
      · rcases hc with ⟨g', e, h2⟩ | ⟨z, e⟩ | ⟨ty, i, sz, e, _⟩
        · rw [e] at hg; cases hg; exact h2
        · rw [e] at hg; cases hg
        · rw [e] at hg; cases hg
      · rcases hc with ⟨g', e, h2⟩ | ⟨z, e⟩ | ⟨ty, i, sz, e, _, h1, _⟩
        · rw [e] at hg; cases hg
        · rw [e] at hg; cases hg
        · rw [e] at hg; cases hg; exact h1
  | status sz got =>
    cases ev <;> try exact h
    case read k err =>
      obtain ⟨h1, h2⟩ := h
      have hle := bufRead_le sz k err c got h2
      simp only [exStep]
      refine safe_ite (fun _ => ?_) (fun _ => safe_ite' (fun _ => ⟨h1, hle⟩) (fun _ => True.intro))
      rcases status_cases (bufRead sz k err c got).2.2 (by omega) with ⟨code, i, g, _⟩ | ⟨e, i, g⟩
      · rw [g]; exact safe_ite' (fun _ => True.intro) (fun _ => True.intro)
      · rw [g]; exact True.intro

def StOk (o : Op) : Call → Prop
  | .at _ (.look s left) => o.look.isSome ∧ StatOk s ∧ ∀ e, left = some e → ExOk e
  | .at _ (.ex _ e) => ExOk e
  | .done .. => True
  | .ub => False

theorem ask_ok {o : Op} {c : Chan} {a : Attr} {e : Ex} (h : ask o c a = some e) : ExOk e := by
  cases o <;> simp only [ask] at h <;> try (cases h; exact True.intro)
  split at h
  · cases h; exact True.intro
  · cases h

theorem lookPh_ok {o : Op} {left : Option Ex} {r : Chan × Out Stat Attr} (ho : o.look.isSome) (hr : Safe StatOk (fun _ => True) r.2)
    (hl : ∀ e, left = some e → ExOk e) : StOk o (lookPh o left r) := by
  obtain ⟨c, x⟩ := r
  match x with
  | .more s => exact ⟨ho, hr, hl⟩
  | .again s =>
    simp only [lookPh]
    split
    · exact ⟨ho, hr, hl⟩
    · exact True.intro
  | .ret none =>
    simp only [lookPh]
    split
    · exact ⟨ho, True.intro, hl⟩
    · exact True.intro
  | .ret (some a) =>
    simp only [lookPh]
    cases h : ask o c a with
    | none => exact True.intro
    | some e =>
      cases left with
      | none => exact ask_ok h
      | some e' => exact hl e' rfl
  | .ub => exact hr

theorem exPh_ok {o : Op} {a : Attr} {r : Chan × Out Ex Unit} (hr : Safe ExOk (fun _ => True) r.2) : StOk o (exPh o a r) := by
  obtain ⟨c, x⟩ := r
  match x with
  | .more e => exact hr
  | .again e =>
    cases o <;> try exact hr
    simp only [exPh]
    split
    · exact hr
    · refine ⟨rfl, True.intro, fun e' he => ?_⟩
      cases he; exact hr
  | .ret (some u) => exact True.intro
  | .ret none =>
    cases o <;> try exact True.intro
    rename_i p m
    simp only [exPh]
    split
    · cases h : ask (.chmod p m) c a with
      | none => exact True.intro
      | some e => exact ask_ok h
    · exact True.intro
  | .ub => exact hr

theorem step_ok {o : Op} {s : Call} (ev : Ev) (h : StOk o s) : StOk o (step o s ev) := by
  match s with
  | .at c (.look s left) =>
    obtain ⟨h1, h2, h3⟩ := h
    simp only [step]
    cases hl : o.look with
    | none => rw [hl] at h1; cases h1
    | some tp =>
      obtain ⟨t, p⟩ := tp
      exact lookPh_ok h1 (lookStep_safe t p ev c s h2) h3
  | .at c (.ex a e) => exact exPh_ok (exStep_safe o ev c e h)
  | .done c ok => exact True.intro
  | .ub => exact h

theorem enter_ok (o : Op) (c : Chan) : StOk o (enter o c) := by
  unfold enter
  cases hl : o.look with
  | some tp => exact ⟨by rw [hl]; rfl, True.intro, fun e h => nomatch h⟩
  | none =>
    dsimp only
    cases h : ask o c {} with
    | none => exact True.intro
    | some e => exact ask_ok h

theorem run_ok (o : Op) (c : Chan) (evs : List Ev) : StOk o (run o c evs) :=
  run_inv (step o) (StOk o) _ evs (enter_ok o c) (fun _ e h => step_ok e h)

theorem run_ne_ub (o : Op) (c : Chan) (evs : List Ev) : run o c evs ≠ .ub := by
  intro h
  have := run_ok o c evs
  rw [h] at this
  exact this

/-! ## Requests -/

theorem look_first {o : Op} {t : Byte} {p : Bytes} (h : o.look = some (t, p)) :
    ∃ r, first o = some r ∧ ∀ id, typePacket t id p = r.packet id := by
  cases o with
  | rename old new => cases h; exact ⟨_, rfl, fun id => type_eq (.stat p) id p rfl⟩
  | remove p => cases h; exact ⟨_, rfl, fun id => type_eq (.lstat p) id p rfl⟩
  | chmod p m => cases h; exact ⟨_, rfl, fun id => type_eq (.stat p) id p rfl⟩
  | rmdir p => cases h
  | mkdir p => cases h
  | setstat p a => cases h

theorem no_look {o : Op} (h : o.look = none) : first o = none := by
  cases o <;> first | rfl | cases h

/-- The requests of the first kind that were sent. -/
def looks (o : Op) (ids : List Nat) : Bytes := ids.flatMap fun id => ((first o).map (·.packet id)).getD []

theorem looks_snoc {o : Op} {r : Request} (h : first o = some r) (ids : List Nat) (id : Nat) : looks o (ids ++ [id]) = looks o ids ++ r.packet id := by
  simp [looks, h]

/-- The request is ready to go. -/
theorem ask_sent {o : Op} {c : Chan} {a : Attr} {e : Ex} (hs : Sane o) (hc : chmods o = false) (h : ask o c a = some e) (hp : c.pkt = none) :
    ExS o c.out ((change (shown a) 0 o).packet c.reqId) c.reqId c e := by
  cases o with
  | rename old new => cases h; exact ⟨rfl, hp, rename_eq .., Nat.zero_le _, by simp⟩
  | remove p => cases h; exact ⟨rfl, (type_eq (.remove p) c.reqId p rfl).symm, .inl ⟨hp, rfl⟩⟩
  | rmdir p => cases h; exact ⟨rfl, (type_eq (.rmdir p) c.reqId p rfl).symm, .inl ⟨hp, rfl⟩⟩
  | mkdir p => cases h; exact ⟨rfl, hp, mkdir_eq .., Nat.zero_le _, by simp⟩
  | setstat p a => cases h; exact ⟨rfl, hp, setstat_eq _ _ ⟨hs.1, hs.2⟩, Nat.zero_le _, by simp⟩
  | chmod => cases hc

theorem change_any {o : Op} (hc : chmods o = false) (a b : Attrs) (m n : Nat) : change a m o = change b n o := by
  cases o <;> first | rfl | cases hc

def Inv (o : Op) (out0 : Bytes) : Call → Prop
  | .at c (.look s left) => left = none ∧ ∃ t p ids id, o.look = some (t, p) ∧ LookS (out0 ++ looks o ids) t p id c s
  | .at c (.ex _ e) => ∃ ids id, ((first o).isSome → ids ≠ []) ∧ ExS o (out0 ++ looks o ids) ((change {} 0 o).packet id) id c e
  | .done c ok => (ok = false ∧ ∃ r ids id n, first o = some r ∧ c.out = out0 ++ looks o ids ++ (r.packet id).take n) ∨
      ∃ ids id n, ((first o).isSome → ids ≠ []) ∧ c.out = out0 ++ looks o ids ++ ((change {} 0 o).packet id).take n ∧
        (ok = true → n = ((change {} 0 o).packet id).length)
  | .ub => True

theorem lookS_congr {B : Bytes} {t : Byte} {p : Bytes} {id : Nat} {c c' : Chan} {s : Stat} (h : LookS B t p id c s) (h1 : c'.out = c.out)
    (h2 : c'.pkt = c.pkt) (h3 : c'.reqId = c.reqId) : LookS B t p id c' s := by
  cases s <;> simp only [LookS, Part, h1, h2, h3] at h ⊢ <;> exact h

theorem exS_congr {o : Op} {B Q : Bytes} {id : Nat} {c c' : Chan} {e : Ex} (h : ExS o B Q id c e) (h1 : c'.out = c.out)
    (h2 : c'.pkt = c.pkt) (h3 : c'.reqId = c.reqId) : ExS o B Q id c' e := by
  cases e <;> simp only [ExS, Part, h1, h2, h3] at h ⊢ <;> exact h

theorem lookS_cut {B : Bytes} {t : Byte} {p : Bytes} {id : Nat} {c : Chan} {s : Stat} (h : LookS B t p id c s) : ∃ n, c.out = B ++ (typePacket t id p).take n := by
  cases s with
  | send => exact h.2.cut
  | head => exact ⟨(typePacket t id p).length, by rw [List.take_length]; exact h.2.2⟩
  | check => exact ⟨(typePacket t id p).length, by rw [List.take_length]; exact h.2.2⟩
  | body => exact ⟨(typePacket t id p).length, by rw [List.take_length]; exact h.2.2⟩

theorem recall_congr (o : Op) (c : Chan) : (o.recall c).out = c.out ∧ (o.recall c).pkt = c.pkt ∧ (o.recall c).reqId = c.reqId := by
  cases o <;> exact ⟨rfl, rfl, rfl⟩

theorem keeps_notice {o : Op} {e : Ret} (h : o.keeps e = true) : notice e = true := by
  cases o <;> first | exact want_notice h | exact h

theorem lookPh_inv {o : Op} {out0 : Bytes} {t : Byte} {p : Bytes} {ids : List Nat} {id : Nat} {r : Chan × Out Stat Attr} (hs : Sane o)
    (hc : chmods o = false) (hl : o.look = some (t, p)) (h : LookR (out0 ++ looks o ids) t p id r) : Inv o out0 (lookPh o none r) := by
  obtain ⟨q, hq, heq⟩ := look_first hl
  obtain ⟨c, x⟩ := r
  match x with
  | .more s => exact ⟨rfl, t, p, ids, id, hl, h⟩
  | .again s =>
    simp only [lookPh]
    split
    · exact ⟨rfl, t, p, ids, id, hl, lookS_congr h rfl rfl rfl⟩
    · obtain ⟨n, hn⟩ := lookS_cut h
      exact .inl ⟨rfl, q, ids, id, n, hq, by rw [hn, heq]⟩
  | .ret none =>
    simp only [lookPh]
    rcases h with ⟨h1, h2⟩ | ⟨h1, h2⟩
    · split
      · refine ⟨rfl, t, p, ids ++ [id], c.reqId, hl, rfl, .inl ⟨h1, ?_⟩⟩
        rw [looks_snoc hq, ← heq, ← List.append_assoc]; exact h2
      · exact .inl ⟨rfl, q, ids, id, (q.packet id).length, hq, by rw [List.take_length, h2, heq]⟩
    · rw [if_neg (fun hk => by rw [keeps_notice hk] at h1; cases h1)]
      obtain ⟨n, hn⟩ := h2.cut
      exact .inl ⟨rfl, q, ids, id, n, hq, by rw [hn, heq]⟩
  | .ret (some a) =>
    obtain ⟨h1, h2, h3⟩ := h
    simp only [lookPh]
    have hb : c.out = out0 ++ looks o (ids ++ [id]) := by rw [looks_snoc hq, ← heq, ← List.append_assoc]; exact h3
    cases ha : ask o c a with
    | none => exact .inl ⟨rfl, q, ids, id, (q.packet id).length, hq, by rw [List.take_length, h3, heq]⟩
    | some e =>
      have := ask_sent hs hc ha h2
      rw [change_any hc _ {} 0 0, hb] at this
      exact ⟨ids ++ [id], c.reqId, fun _ => by simp, this⟩
  | .ub => exact True.intro

theorem exS_cut {o : Op} {B Q : Bytes} {id : Nat} {c : Chan} {e : Ex} (h : ExS o B Q id c e) : ∃ n, c.out = B ++ Q.take n := by
  cases e with
  | raw buf i => exact ⟨i, h.2.2.2.2⟩
  | typed => exact h.2.2.cut
  | head => exact ⟨Q.length, by rw [List.take_length]; exact h.2.2⟩
  | status => exact ⟨Q.length, by rw [List.take_length]; exact h.2⟩

theorem exPh_inv {o : Op} {out0 : Bytes} {ids : List Nat} {id : Nat} {a : Attr} {r : Chan × Out Ex Unit} (hc : chmods o = false)
    (hi : (first o).isSome → ids ≠ []) (h : ExR o (out0 ++ looks o ids) ((change {} 0 o).packet id) id r) : Inv o out0 (exPh o a r) := by
  obtain ⟨c, x⟩ := r
  match x with
  | .more e => exact ⟨ids, id, hi, h⟩
  | .again e =>
    have e1 : exPh o a (c, .again e) = .at (o.recall c) (.ex a e) := by cases o <;> first | rfl | cases hc
    rw [e1]
    obtain ⟨r1, r2, r3⟩ := recall_congr o c
    exact ⟨ids, id, hi, exS_congr h r1 r2 r3⟩
  | .ret (some u) => exact .inr ⟨ids, id, _, hi, by rw [List.take_length]; exact h.2, fun _ => rfl⟩
  | .ret none =>
    have e1 : exPh o a (c, .ret none) = .done c false := by cases o <;> first | rfl | cases hc
    rw [e1]
    rcases h with ⟨_, h⟩ | ⟨_, n, h⟩
    · exact .inr ⟨ids, id, _, hi, by rw [List.take_length]; exact h, fun hf => nomatch hf⟩
    · exact .inr ⟨ids, id, n, hi, h, fun hf => nomatch hf⟩
  | .ub => exact True.intro

theorem step_inv {o : Op} {out0 : Bytes} {s : Call} (hs : Sane o) (hc : chmods o = false) (ev : Ev) (h : Inv o out0 s) : Inv o out0 (step o s ev) := by
  match s with
  | .at c (.look s left) =>
    obtain ⟨rfl, t, p, ids, id, hl, h⟩ := h
    simp only [step, hl]
    exact lookPh_inv hs hc hl (lookStep_sent ev h)
  | .at c (.ex a e) =>
    obtain ⟨ids, id, hi, h⟩ := h
    exact exPh_inv hc hi (exStep_sent ev h)
  | .done c ok => exact h
  | .ub => exact h

theorem run_inv_sent (o : Op) (c : Chan) (evs : List Ev) (hs : Sane o) (hc : chmods o = false) (hp : c.pkt = none) : Inv o c.out (run o c evs) := by
  refine run_inv (step o) (Inv o c.out) _ evs ?_ (fun _ e h => step_inv hs hc e h)
  unfold enter
  cases hl : o.look with
  | some tp =>
    obtain ⟨t, p⟩ := tp
    exact ⟨rfl, t, p, [], c.reqId, hl, rfl, .inl ⟨hp, by simp [looks]; rfl⟩⟩
  | none =>
    dsimp only
    have hn := no_look hl
    cases ha : ask o c {} with
    | none => cases o <;> first | cases ha | cases hc
    | some e =>
      have := ask_sent hs hc ha hp
      rw [change_any hc _ {} 0 0] at this
      exact ⟨[], c.reqId, (fun h => by rw [hn] at h; cases h), (by simpa [looks] using this)⟩

end Proofs.SftpOps
