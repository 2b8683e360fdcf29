import Verif.Spec.SftpLsOrder
import Verif.Proofs.SftpLsRun
/-! # Listing a directory: what is sent -/

namespace Proofs.SftpLs
open Wolf Wolf.Wire Wolf.Sftp Wolf.SftpClient Wolf.SftpLs Proofs.SftpLoop Proofs.SftpClient Proofs.SftpOps
open Spec.Wire Spec.Sftp
open Spec.SftpLs (Dir Again Request Listing outOf)

abbrev sentAs := Spec.SftpLs.packets

def Done (O : Bytes) (l : List (Nat × Request)) (c : Chan) : Prop := c.pkt = none ∧ c.out = O ++ sentAs l

/-- `r` may be sent, or is partly. -/
def Going (O : Bytes) (l : List (Nat × Request)) (r : Nat × Request) (c : Chan) : Prop := Part (O ++ sentAs l) (r.2.packet r.1) c

theorem packets_snoc (l : List (Nat × Request)) (r : Nat × Request) : sentAs (l ++ [r]) = sentAs l ++ r.2.packet r.1 := by
  simp [sentAs, Spec.SftpLs.packets]

theorem p16 (id : Nat) (p : Bytes) : typePacket 16 id p = (Request.realpath p).packet id := typed_eq 16 id p
theorem p11 (id : Nat) (p : Bytes) : typePacket 11 id p = (Request.opendir p).packet id := typed_eq 11 id p
theorem p12 (id : Nat) (p : Bytes) : typePacket 12 id p = (Request.readdir p).packet id := typed_eq 12 id p
theorem p4 (id : Nat) (p : Bytes) : typePacket 4 id p = (Request.close p).packet id := typed_eq 4 id p

/-- READDIRs, then CLOSEs. -/
def Reads (h : Bytes) (k m : Nat) : List Request := List.replicate k (.readdir h) ++ List.replicate m (.close h)

def Asks (dir name h : Bytes) (k m : Nat) (l : List (Nat × Request)) : Prop :=
  l.map (·.2) = .realpath dir :: .opendir name :: Reads h k m

theorem Asks.read {dir name h : Bytes} {k : Nat} {l : List (Nat × Request)} (ha : Asks dir name h k 0 l) (id : Nat) :
    Asks dir name h (k + 1) 0 (l ++ [(id, .readdir h)]) := by
  unfold Asks Reads at ha ⊢
  rw [List.map_append, ha]
  simp [List.replicate_succ']

theorem Asks.close {dir name h : Bytes} {k m : Nat} {l : List (Nat × Request)} (ha : Asks dir name h k m l) (id : Nat) :
    Asks dir name h k (m + 1) (l ++ [(id, .close h)]) := by
  unfold Asks Reads at ha ⊢
  rw [List.map_append, ha]
  simp [List.replicate_succ']

def ClosingS (dir O h : Bytes) (c : Chan) : Close → Prop
  | .send => ∃ name k m l, Asks dir name h k m l ∧ (Done O l c ∨ (∃ id i, c.pkt = some ((Request.close h).packet id, i) ∧ Going O l (id, .close h) c) ∨
      (m = 0 ∧ ∃ id i, c.pkt = some ((Request.readdir h).packet id, i) ∧ Going O l (id, .readdir h) c))
  | _ => ∃ name k m l, Asks dir name h k m l ∧ Done O l c

def PhS (dir O : Bytes) (c : Chan) : Ph → Prop
  | .realSend => Going O [] (c.reqId, .realpath dir) c
  | .realName _ => ∃ i, Done O [(i, .realpath dir)] c
  | .opendir n => ∃ i, Going O [(i, .realpath dir)] (c.reqId, .opendir n) c
  | .handle _ => ∃ i j n, Done O [(i, .realpath dir), (j, .opendir n)] c
  | .dirSend h _ => ∃ name k l, Asks dir name h.handle k 0 l ∧ Going O l (c.reqId, .readdir h.handle) c
  | .dirName h _ _ => ∃ name k l, Asks dir name h.handle k 0 l ∧ Done O l c
  | .close h _ s => ClosingS dir O h.handle c s

def Sent (dir O : Bytes) (out : Bytes) : Prop :=
  ∃ l r n, Listing dir ((l ++ [r]).map (·.2)) ∧ out = O ++ sentAs l ++ (r.2.packet r.1).take n

def CallS (dir O : Bytes) : Call → Prop
  | .at c p => PhS dir O c p
  | .done c _ => Sent dir O c.out
  | .ub => True

theorem Going.cut {O : Bytes} {l : List (Nat × Request)} {r : Nat × Request} {c : Chan} (h : Going O l r c) :
    ∃ n, c.out = O ++ sentAs l ++ (r.2.packet r.1).take n := Part.cut h

theorem Done.cut {dir O : Bytes} {l : List (Nat × Request)} {c : Chan} (h : Done O l c) (h0 : l ≠ []) (hl : Listing dir (l.map (·.2))) :
    Sent dir O c.out := by
  obtain ⟨a, r, rfl⟩ := List.eq_nil_or_concat l |>.resolve_left h0
  rw [List.concat_eq_append] at h hl
  refine ⟨a, r, (r.2.packet r.1).length, hl, ?_⟩
  rw [List.take_length, h.2, packets_snoc, List.append_assoc]

theorem asks_listing {dir name h : Bytes} {k m : Nat} {l : List (Nat × Request)} (ha : Asks dir name h k m l) : Listing dir (l.map (·.2)) :=
  ⟨name, h, k, m, by rw [ha]; exact List.prefix_refl _⟩

theorem asks_ne {dir name h : Bytes} {k m : Nat} {l : List (Nat × Request)} (ha : Asks dir name h k m l) : l ≠ [] := by
  rintro rfl; cases ha

theorem closing_sent {dir O h : Bytes} {c : Chan} {s : Close} (hs : ClosingS dir O h c s) : Sent dir O c.out := by
  cases s with
  | send =>
    obtain ⟨name, k, m, l, ha, hd | ⟨id, i, _, hg⟩ | ⟨rfl, id, i, _, hg⟩⟩ := hs
    · exact hd.cut (asks_ne ha) (asks_listing ha)
    · obtain ⟨n, hn⟩ := hg.cut
      exact ⟨l, _, n, asks_listing (ha.close id), hn⟩
    · obtain ⟨n, hn⟩ := hg.cut
      exact ⟨l, _, n, asks_listing (ha.read id), hn⟩
  | head => obtain ⟨name, k, m, l, ha, hd⟩ := hs; exact hd.cut (asks_ne ha) (asks_listing ha)
  | status => obtain ⟨name, k, m, l, ha, hd⟩ := hs; exact hd.cut (asks_ne ha) (asks_listing ha)

theorem phS_sent {dir O : Bytes} {c : Chan} {p : Ph} (h : PhS dir O c p) : Sent dir O c.out := by
  cases p with
  | realSend =>
    obtain ⟨n, hn⟩ := Going.cut h
    exact ⟨[], _, n, ⟨[], [], 0, 0, by simp⟩, hn⟩
  | realName s => obtain ⟨i, h⟩ := h; exact h.cut (by simp) ⟨[], [], 0, 0, by simp⟩
  | opendir n =>
    obtain ⟨i, h⟩ := h
    obtain ⟨k, hn⟩ := Going.cut h
    exact ⟨_, _, k, ⟨n, [], 0, 0, by simp⟩, hn⟩
  | handle hd => obtain ⟨i, j, n, h⟩ := h; exact h.cut (by simp) ⟨n, [], 0, 0, by simp⟩
  | dirSend hd acc =>
    obtain ⟨name, k, l, ha, hg⟩ := h
    obtain ⟨n, hn⟩ := hg.cut
    exact ⟨l, _, n, asks_listing (ha.read _), hn⟩
  | dirName hd acc s => obtain ⟨name, k, l, ha, hd⟩ := h; exact hd.cut (asks_ne ha) (asks_listing ha)
  | close hd acc s => exact closing_sent h

theorem back_sent {dir O : Bytes} {c : Chan} {p : Ph} (h : PhS dir O c p) : CallS dir O (back c p) := by
  unfold back
  by_cases hk : keep c.err = true
  · rw [if_pos hk]; exact h
  · rw [if_neg hk]; exact phS_sent h

theorem Done.congr {O : Bytes} {l : List (Nat × Request)} {c c' : Chan} (h : Done O l c) (h1 : c'.out = c.out) (h2 : c'.pkt = c.pkt) : Done O l c' :=
  ⟨h2.trans h.1, h1.trans h.2⟩

/-- Sending what `sendType` builds. -/
theorem send_going {O : Bytes} {l : List (Nat × Request)} {t : Byte} {buf : Bytes} {r : Request} (hr : ∀ id, typePacket t id buf = r.packet id) {c : Chan}
    (res : Except Err Nat) (err : Ret) (h : Going O l (c.reqId, r) c) :
    match sendType res err t buf c with
    | (c', some true) => Done O (l ++ [(c.reqId, r)]) c'
    | (c', _) => Going O l (c'.reqId, r) c' := by
  have hf := sendType_frame res err t buf c
  have hs := sendType_part (t := t) (buf := buf) res err rfl (by rw [hr]; exact h)
  generalize sendType res err t buf c = q at hf hs ⊢
  obtain ⟨c', o⟩ := q
  have hi : c'.reqId = c.reqId := hf.2.1
  match o with
  | none => rw [hr] at hs; show Going O l (c'.reqId, r) c'; rw [hi]; exact hs
  | some true =>
    rw [hr] at hs
    exact ⟨hs.1, by rw [packets_snoc, hs.2, List.append_assoc]⟩
  | some false => rw [hr] at hs; show Going O l (c'.reqId, r) c'; rw [hi]; exact hs

/-- Sending whatever is pending. -/
theorem send_pending {O : Bytes} {l : List (Nat × Request)} {t : Byte} {buf : Bytes} {r : Nat × Request} {c : Chan} {i : Nat}
    (res : Except Err Nat) (err : Ret) (hp : c.pkt = some (r.2.packet r.1, i)) (h : Going O l r c) :
    match sendType res err t buf c with
    | (c', some true) => Done O (l ++ [r]) c'
    | (c', _) => (∃ i, c'.pkt = some (r.2.packet r.1, i)) ∧ Going O l r c' := by
  have hx : i ≤ (r.2.packet r.1).length ∧ c.out = O ++ sentAs l ++ (r.2.packet r.1).take i := by
    rcases h with ⟨h1, _⟩ | ⟨j, h1, h2, h3⟩
    · rw [h1] at hp; cases hp
    · rw [h1] at hp
      cases hp
      exact ⟨h2, h3⟩
  obtain ⟨hi, ho⟩ := hx
  unfold sendType
  rw [hp]
  cases res with
  | error x => exact ⟨⟨i, rfl⟩, .inr ⟨i, rfl, hi, ho⟩⟩
  | ok k =>
    obtain ⟨s1, s2⟩ := sendSome_out k err c (r.2.packet r.1) i (O ++ sentAs l) hi ho
    simp only [Option.getD_some]
    by_cases hlt : (sendSome k err c (r.2.packet r.1) i).2 < (r.2.packet r.1).length
    · rw [if_pos hlt]
      exact ⟨⟨_, rfl⟩, .inr ⟨_, rfl, s2, s1⟩⟩
    · rw [if_neg hlt]
      exact ⟨rfl, by rw [packets_snoc]; show _ = O ++ (sentAs l ++ _); rw [← List.append_assoc, s1, not_lt_take hlt]⟩

theorem sendType_close {dir O h : Bytes} {c : Chan} (res : Except Err Nat) (err : Ret) (hs : ClosingS dir O h c .send) :
    match sendType res err 4 h c with
    | (c', some true) => ClosingS dir O h c' (.head [])
    | (c', _) => ClosingS dir O h c' .send := by
  obtain ⟨name, k, m, l, ha, hd | ⟨id, i, hp, hg⟩ | ⟨rfl, id, i, hp, hg⟩⟩ := hs
  · have hg : Going O l (c.reqId, .close h) c := .inl hd
    have e : ∃ i, (c.pkt.getD (typePacket 4 c.reqId h, 0)) = ((Request.close h).packet c.reqId, i) ∧ i = 0 := ⟨0, by rw [hd.1, p4]; rfl, rfl⟩
    obtain ⟨i, e, rfl⟩ := e
    have hq : sendType res err 4 h c = sendType res err 4 h { c with pkt := some ((Request.close h).packet c.reqId, 0) } := by
      unfold sendType
      rw [e]
      rfl
    rw [hq]
    have := send_pending (O := O) (l := l) (t := 4) (buf := h) (r := (c.reqId, .close h)) (c := { c with pkt := some ((Request.close h).packet c.reqId, 0) })
      (i := 0) res err rfl (.inr ⟨0, rfl, Nat.zero_le _, by simpa using hd.2⟩)
    generalize sendType res err 4 h _ = q at this ⊢
    obtain ⟨c', o⟩ := q
    match o with
    | some true => exact ⟨name, k, m + 1, _, ha.close _, this⟩
    | none => obtain ⟨⟨i, h1⟩, h2⟩ := this; exact ⟨name, k, m, l, ha, .inr (.inl ⟨_, i, h1, h2⟩)⟩
    | some false => obtain ⟨⟨i, h1⟩, h2⟩ := this; exact ⟨name, k, m, l, ha, .inr (.inl ⟨_, i, h1, h2⟩)⟩
  · have := send_pending (t := 4) (buf := h) (r := (id, .close h)) res err hp hg
    generalize sendType res err 4 h c = q at this ⊢
    obtain ⟨c', o⟩ := q
    match o with
    | some true => exact ⟨name, k, m + 1, _, ha.close _, this⟩
    | none => obtain ⟨⟨i, h1⟩, h2⟩ := this; exact ⟨name, k, m, l, ha, .inr (.inl ⟨_, i, h1, h2⟩)⟩
    | some false => obtain ⟨⟨i, h1⟩, h2⟩ := this; exact ⟨name, k, m, l, ha, .inr (.inl ⟨_, i, h1, h2⟩)⟩
  · have := send_pending (t := 4) (buf := h) (r := (id, .readdir h)) res err hp hg
    generalize sendType res err 4 h c = q at this ⊢
    obtain ⟨c', o⟩ := q
    match o with
    | some true => exact ⟨name, k + 1, 0, _, ha.read _, this⟩
    | none => obtain ⟨⟨i, h1⟩, h2⟩ := this; exact ⟨name, k, 0, l, ha, .inr (.inr ⟨rfl, _, i, h1, h2⟩)⟩
    | some false => obtain ⟨⟨i, h1⟩, h2⟩ := this; exact ⟨name, k, 0, l, ha, .inr (.inr ⟨rfl, _, i, h1, h2⟩)⟩

theorem closing_again {dir O h : Bytes} {c : Chan} {s : Close} (hs : ClosingS dir O h c s) : ClosingS dir O h c .send := by
  cases s with
  | send => exact hs
  | head => obtain ⟨name, k, m, l, ha, hd⟩ := hs; exact ⟨name, k, m, l, ha, .inl hd⟩
  | status => obtain ⟨name, k, m, l, ha, hd⟩ := hs; exact ⟨name, k, m, l, ha, .inl hd⟩

def ClosingR (dir O h : Bytes) : Chan × Out Close Unit → Prop
  | (c, .more s) => ClosingS dir O h c s
  | (c, .again s) => ClosingS dir O h c s
  | (c, .ret (some _)) => Sent dir O c.out
  | (c, .ret none) => ClosingS dir O h c .send
  | (_, .ub) => True

theorem closingR_ite {dir O h : Bytes} {b : Prop} [Decidable b] {x y : Chan × Out Close Unit} (hx : b → ClosingR dir O h x)
    (hy : ¬ b → ClosingR dir O h y) : ClosingR dir O h (if b then x else y) := by
  by_cases hb : b
  · rw [if_pos hb]; exact hx hb
  · rw [if_neg hb]; exact hy hb

theorem closing_step {dir O h : Bytes} (ev : Ev) {c : Chan} {s : Close} (hs : ClosingS dir O h c s) : ClosingR dir O h (closeStep h ev c s) := by
  cases s with
  | send =>
    cases ev <;> try exact hs
    case send res err p =>
      have := sendType_close res err hs
      simp only [closeStep]
      generalize sendType res err 4 h c = q at this ⊢
      obtain ⟨c', o⟩ := q
      match o with
      | none => exact this
      | some true => exact closingR_ite (fun _ => closing_again this) (fun _ => closingR_ite (fun _ => this) (fun _ => closing_again this))
      | some false => exact closingR_ite (fun _ => this) (fun _ => closingR_ite (fun h => nomatch h) (fun _ => this))
  | head got =>
    cases ev <;> try exact hs
    case read k err =>
      have hq := Quiet.head k err c got
      simp only [closeStep]
      generalize getHeader k err c got = r at hq ⊢
      obtain ⟨c', hd⟩ := r
      obtain ⟨name, k, m, l, ha, hd'⟩ := hs
      have h' : ∃ name k m l, Asks dir name h k m l ∧ Done O l c' := ⟨name, k, m, l, ha, hd'.congr hq.1 hq.2⟩
      have h2 : ClosingS dir O h c' (.head []) := h'
      cases hd with
      | short got' => exact closingR_ite (fun _ => h') (fun _ => closing_again h2)
      | bad z => exact closingR_ite (fun _ => h') (fun _ => closing_again h2)
      | ok type id sz => exact closingR_ite (fun _ => closing_again h2) (fun _ => h')
  | status sz got =>
    cases ev <;> try exact hs
    case read k err =>
      obtain ⟨name, k', m, l, ha, hd'⟩ := hs
      have h' : ∃ name k m l, Asks dir name h k m l ∧ Done O l (bufRead sz k err c got).2.1 := ⟨name, k', m, l, ha, hd'.congr rfl rfl⟩
      have h2 : ClosingS dir O h (bufRead sz k err c got).2.1 (.head []) := h'
      simp only [closeStep]
      refine closingR_ite (fun _ => ?_) (fun _ => closingR_ite (fun _ => h') (fun _ => closing_again h2))
      cases doStatus (bufRead sz k err c got).2.2 with
      | ok code i =>
        simp only
        by_cases hk : code = FTP_OK
        · rw [if_pos hk]; exact closing_sent h2
        · rw [if_neg hk]; exact closing_again h2
      | err => exact closing_again h2
      | ub => exact True.intro

theorem step_sent (dir O : Bytes) (s : Call) (ev : Ev) (h : CallS dir O s) : CallS dir O (step dir s ev) := by
  match s, h with
  | .ub, _ => exact True.intro
  | .done _ _, h => exact h
  | .at c .realSend, h =>
    cases ev <;> try exact h
    case send res err p =>
      have hs := send_going (fun id => p16 id dir) res err h
      simp only [step]
      generalize sendType res err 16 dir c = r at hs ⊢
      obtain ⟨c', o⟩ := r
      match o with
      | none => exact hs
      | some true => exact ⟨_, hs.congr rfl rfl⟩
      | some false => exact back_sent hs
  | .at c (.realName n), h =>
    cases ev <;> try exact h
    case read k err =>
      obtain ⟨i, h⟩ := h
      have hf := named_frame k err c n
      simp only [step]
      generalize nameStep k err c n = r at hf ⊢
      obtain ⟨c', o⟩ := r
      have hd : Done O [(i, .realpath dir)] c' := h.congr hf.2.1 hf.2.2
      have hp : PhS dir O c' (.realName n) := ⟨i, hd⟩
      match o with
      | .more s => exact ⟨i, hd⟩
      | .null s =>
        simp only [realNamed]
        by_cases hk : keep c'.err = true
        · rw [if_pos hk]; exact ⟨i, hd.congr rfl rfl⟩
        · rw [if_neg hk]; exact phS_sent hp
      | .names [] => exact phS_sent hp
      | .names (e :: t) => exact ⟨i, .inl hd⟩
      | .ub => exact True.intro
  | .at c (.opendir name), h =>
    simp only [step]
    by_cases hn : name = []
    · rw [if_pos hn]; exact back_sent h
    rw [if_neg hn]
    cases ev <;> try exact h
    case send res err p =>
      obtain ⟨i, h⟩ := h
      have hs := send_going (fun id => p11 id name) res err h
      simp only
      generalize sendType res err 11 name c = r at hs ⊢
      obtain ⟨c', o⟩ := r
      match o with
      | none => exact ⟨i, hs⟩
      | some true => exact ⟨i, _, name, hs⟩
      | some false => exact back_sent ⟨i, hs⟩
  | .at c (.handle hd), h =>
    cases ev <;> try exact h
    case read k err =>
      obtain ⟨i, j, n, h⟩ := h
      have hf := ghStep_quiet k err c hd (c.gh.getD (.head []))
      simp only [step]
      generalize ghStep k err c hd (c.gh.getD (.head [])) = r at hf ⊢
      obtain ⟨c', hd', o⟩ := r
      have hd0 : Done O [(i, .realpath dir), (j, .opendir n)] c' := h.congr hf.1 hf.2
      match o with
      | .more g => exact ⟨i, j, n, hd0.congr rfl rfl⟩
      | .again g => exact back_sent ⟨i, j, n, hd0.congr rfl rfl⟩
      | .ret (some _) => exact ⟨n, 0, [(i, .realpath dir), (j, .opendir n)], rfl, .inl (hd0.congr rfl rfl)⟩
      | .ret none => exact back_sent ⟨i, j, n, hd0.congr rfl rfl⟩
      | .ub => exact True.intro
  | .at c (.dirSend hd acc), h =>
    cases ev <;> try exact h
    case send res err p =>
      obtain ⟨name, k, l, ha, hg⟩ := h
      have hs := send_going (fun id => p12 id hd.handle) res err hg
      have hpk : ∀ c', sendType res err 12 hd.handle c = (c', some false) → ∃ i, c'.pkt = some ((Request.readdir hd.handle).packet c'.reqId, i) := by
        intro c' he
        unfold sendType at he
        cases res with
        | error e =>
          cases he
          rcases hg with ⟨h1, _⟩ | ⟨i, h1, _⟩
          · exact ⟨0, by rw [h1, p12]; rfl⟩
          · exact ⟨i, by rw [h1]; rfl⟩
        | ok k =>
          simp only at he
          split at he <;> cases he
      simp only [step]
      generalize sendType res err 12 hd.handle c = r at hs hpk ⊢
      obtain ⟨c', o⟩ := r
      match o with
      | none => exact ⟨name, k, l, ha, hs⟩
      | some true => exact ⟨name, k + 1, _, ha.read _, hs.congr rfl rfl⟩
      | some false =>
        simp only
        by_cases hk : keep c'.err = true
        · rw [if_pos hk]; exact ⟨name, k, l, ha, hs⟩
        · rw [if_neg hk]
          obtain ⟨i, hi⟩ := hpk c' rfl
          exact ⟨name, k, 0, l, ha, .inr (.inr ⟨rfl, _, i, hi, hs⟩)⟩
  | .at c (.dirName hd acc n), h =>
    cases ev <;> try exact h
    case read k err =>
      obtain ⟨name, k', l, ha, h⟩ := h
      have hf := named_frame k err c n
      simp only [step]
      generalize nameStep k err c n = r at hf ⊢
      obtain ⟨c', o⟩ := r
      have hd0 : Done O l c' := h.congr hf.2.1 hf.2.2
      match o with
      | .more s => exact ⟨name, k', l, ha, hd0⟩
      | .null s =>
        simp only [dirNamed]
        by_cases hk : keep c'.err = true
        · rw [if_pos hk]; exact ⟨name, k', l, ha, hd0.congr rfl rfl⟩
        · rw [if_neg hk]; exact ⟨name, k', 0, l, ha, .inl hd0⟩
      | .names q => exact ⟨name, k', l, ha, .inl hd0⟩
      | .ub => exact True.intro
  | .at c (.close hd acc s), h =>
    have hs := closing_step ev (show ClosingS dir O hd.handle c s from h)
    simp only [step]
    generalize closeStep hd.handle ev c s = r at hs ⊢
    obtain ⟨c', o⟩ := r
    match o with
    | .more g => exact hs
    | .again g => exact back_sent (p := .close hd acc g) hs
    | .ret (some _) => exact hs
    | .ret none => exact back_sent (p := .close hd acc .send) hs
    | .ub => exact True.intro

theorem run_sent (dir : Bytes) (c : Chan) (evs : List Ev) (hg : c.gh = none) (hp : c.pkt = none) : Sent dir c.out (outOf (run dir c evs)) := by
  have : ∀ (evs : List Ev) (s : Call), CallS dir c.out s → CallS dir c.out (evs.foldl (step dir) s) := by
    intro evs
    induction evs with
    | nil => intro s hs; exact hs
    | cons e t ih => intro s hs; exact ih _ (step_sent dir _ s e hs)
  have h0 : CallS dir c.out (.at c .realSend) := .inl ⟨hp, by simp [sentAs, Spec.SftpLs.packets]⟩
  have h1 : CallS dir c.out (run dir c evs) := this evs _ h0
  have hu := run_ok dir c evs hg
  generalize run dir c evs = r at h1 hu ⊢
  match r with
  | .at c' p => exact phS_sent h1
  | .done c' l => exact h1
  | .ub => exact absurd rfl hu

end Proofs.SftpLs
