import Verif.Proofs.SftpClientRun
/-! # The SFTP client: what storing a file sends -/

namespace Proofs.SftpClient
open Wolf Wolf.Wire Wolf.Sftp Wolf.SftpClient Proofs.SftpLoop
open Wolf.Path (addAssign64)
open Spec.Wire Spec.Sftp Spec.SftpClient

/-! ## Sending -/

theorem sendSome_out (k : Nat) (err : Ret) (c : Chan) (buf : Bytes) (idx : Nat) (pre : Bytes) (hi : idx ≤ buf.length)
    (ho : c.out = pre ++ buf.take idx) :
    (sendSome k err c buf idx).1.out = pre ++ buf.take (sendSome k err c buf idx).2 ∧ (sendSome k err c buf idx).2 ≤ buf.length := by
  simp only [sendSome, cmin_eq]
  refine ⟨?_, by omega⟩
  rw [ho, List.append_assoc, List.take_add]

theorem not_lt_take {buf : Bytes} {i : Nat} (h : ¬ i < buf.length) : buf.take i = buf := List.take_of_length_le (by omega)

/-- What a function leaves alone that only reads. -/
def Quiet (c c' : Chan) : Prop := c'.out = c.out ∧ c'.pkt = c.pkt

theorem Quiet.refl (c : Chan) : Quiet c c := ⟨rfl, rfl⟩

theorem Quiet.head (k : Nat) (err : Ret) (c : Chan) (got : Bytes) : Quiet c (getHeader k err c got).1 :=
  ⟨(getHeader_frame k err c got).2.2.1, (getHeader_frame k err c got).2.2.2.2.1⟩

theorem quiet_ite {σ : Type} {c : Chan} {b : Prop} [Decidable b] {x y : Chan × σ}
    (hx : b → Quiet c x.1) (hy : ¬ b → Quiet c y.1) : Quiet c (if b then x else y).1 := by
  by_cases h : b
  · rw [if_pos h]; exact hx h
  · rw [if_neg h]; exact hy h

theorem ghStep_quiet (k : Nat) (err : Ret) (c : Chan) (h : Hd) (g : Gh) : Quiet c (ghStep k err c h g).1 := by
  cases g with
  | head got =>
    simp only [ghStep]
    have := Quiet.head k err c got
    generalize getHeader k err c got = r at this ⊢
    obtain ⟨c', hd⟩ := r
    cases hd with
    | short => exact quiet_ite (fun _ => this) (fun _ => this)
    | bad => exact quiet_ite (fun _ => this) (fun _ => this)
    | ok type id sz =>
      exact quiet_ite (fun _ => quiet_ite (fun _ => this) (fun _ => this)) (fun _ => quiet_ite (fun _ => this) (fun _ => this))
  | status sz got =>
    refine quiet_ite (fun _ => ?_) (fun _ => ⟨rfl, rfl⟩)
    cases doStatus (bufRead sz k err c got).2.2 with
    | ok code i => exact quiet_ite (fun _ => ⟨rfl, rfl⟩) (fun _ => ⟨rfl, rfl⟩)
    | err => exact ⟨rfl, rfl⟩
    | ub => exact ⟨rfl, rfl⟩
  | handle sz got =>
    refine quiet_ite (fun _ => ?_) (fun _ => ⟨rfl, rfl⟩)
    match takeHandle h (bufRead sz k err c got).2.2 with
    | none => exact ⟨rfl, rfl⟩
    | some none => exact ⟨rfl, rfl⟩
    | some (some h') => exact ⟨rfl, rfl⟩

/-- The OPEN request is being sent, or has been sent. -/
def OpenSent (pre buf : Bytes) (c : Chan) : Open → Prop
  | .send b idx => b = buf ∧ idx ≤ buf.length ∧ c.out = pre ++ buf.take idx ∧ c.pkt = none
  | .get => c.out = pre ++ buf ∧ c.pkt = none

def OpenRes (pre buf : Bytes) : Chan × Hd × Out Open Unit → Prop
  | (c, _, .more o) => OpenSent pre buf c o
  | (c, _, .again o) => OpenSent pre buf c o ∧ want c.err = true
  | (c, _, .ret none) => want c.err = false
  | (c, _, .ret (some _)) => c.out = pre ++ buf ∧ c.pkt = none
  | (_, _, .ub) => True

theorem openGet_sent {pre buf : Bytes} {r : Chan × GhOut} (h : r.1.out = pre ++ buf ∧ r.1.pkt = none) : OpenRes pre buf (openGet r) := by
  obtain ⟨c, hd, o⟩ := r
  match o with
  | .more g => exact h
  | .again g =>
    simp only [openGet]
    by_cases hw : want c.err = true
    · rw [if_pos hw]; exact ⟨h, hw⟩
    · rw [if_neg hw]; exact eq_false_of_ne_true hw
  | .ret (some _) => exact h
  | .ret none =>
    simp only [openGet]
    by_cases hw : want c.err = true
    · rw [if_pos hw]; exact ⟨h, hw⟩
    · rw [if_neg hw]; exact eq_false_of_ne_true hw
  | .ub => exact True.intro

theorem openStep_sent {pre buf : Bytes} (ev : Ev) {c : Chan} (hd : Hd) {o : Open} (h : OpenSent pre buf c o) :
    OpenRes pre buf (openStep ev c hd o) := by
  cases o with
  | send b idx =>
    obtain ⟨rfl, hi, ho, hp⟩ := h
    cases ev <;> try exact ⟨rfl, hi, ho, hp⟩
    case send res err p =>
      cases res with
      | error e =>
        simp only [openStep]
        by_cases hw : want err = true
        · rw [if_pos hw]; exact ⟨⟨rfl, hi, ho, hp⟩, hw⟩
        · rw [if_neg hw]; exact eq_false_of_ne_true hw
      | ok k =>
        have hs := sendSome_out k err c b idx pre hi ho
        simp only [openStep]
        by_cases hw : (sendSome k err c b idx).2 < b.length ∨ p = true
        · rw [if_pos hw]; exact ⟨⟨rfl, hs.2, hs.1, hp⟩, rfl⟩
        · rw [if_neg hw]
          refine ⟨?_, hp⟩
          rw [hs.1, not_lt_take (fun hh => hw (.inl hh))]
  | get =>
    cases ev <;> try exact h
    case read k err =>
      have hq := ghStep_quiet k err c hd (c.gh.getD (.head []))
      exact openGet_sent ⟨hq.1.trans h.1, hq.2.trans h.2⟩

/-! ## A store -/

/-- A write request. -/
def wreq (h : Bytes) (w : Nat × Nat × Bytes) : Nat × Request := (w.1, .write h w.2.1 w.2.2)

/-- The request to open and write requests. -/
def base (A : Args) (out0 : Bytes) (h : Bytes) (id : Nat) (ws : List (Nat × Nat × Bytes)) : Bytes :=
  out0 ++ requests ((id, .open A.dst PUT_FLAGS) :: ws.map (wreq h))

theorem base_nil (A : Args) (out0 h : Bytes) (id : Nat) : base A out0 h id [] = out0 ++ openPacket id A.dst PUT_FLAGS := by
  simp [base, requests, openPacket_eq]

theorem base_snoc (A : Args) (out0 h : Bytes) (id : Nat) (ws : List (Nat × Nat × Bytes)) (w : Nat × Nat × Bytes) :
    base A out0 h id (ws ++ [w]) = base A out0 h id ws ++ (Request.write h w.2.1 w.2.2).packet w.1 := by
  simp [base, requests, wreq]

/-- How far a write request has got. -/
def WrSent (b : Bytes) (hnd : Bytes) (ofst : Nat × Nat) (data : Bytes) (c : Chan) : Wr → Prop
  | .send buf idx => ∃ id, buf = writeHead id hnd ofst data.length ∧ idx ≤ buf.length ∧ c.out = b ++ buf.take idx
  | .body rest => ∃ id part, c.out = b ++ part ∧ part ++ rest = writeHead id hnd ofst data.length ++ data
  | .head _ => ∃ id, c.out = b ++ (writeHead id hnd ofst data.length ++ data)
  | .status _ _ => ∃ id, c.out = b ++ (writeHead id hnd ofst data.length ++ data)

/-- Between two writes: a beginning of the request has been sent. -/
def WrPart (b : Bytes) (hnd : Bytes) (ofst : Nat × Nat) (data : Bytes) (c : Chan) : Prop :=
  ∃ id part, c.out = b ++ part ∧ part <+: writeHead id hnd ofst data.length ++ data

theorem WrSent.part {b hnd : Bytes} {ofst : Nat × Nat} {data : Bytes} {c : Chan} {w : Wr} (h : WrSent b hnd ofst data c w) :
    WrPart b hnd ofst data c := by
  cases w with
  | send buf idx =>
    obtain ⟨id, rfl, _, ho⟩ := h
    exact ⟨id, _, ho, (List.take_prefix _ _).trans (List.prefix_append _ _)⟩
  | body rest =>
    obtain ⟨id, part, ho, hp⟩ := h
    exact ⟨id, part, ho, ⟨rest, hp⟩⟩
  | head got =>
    obtain ⟨id, ho⟩ := h
    exact ⟨id, _, ho, List.prefix_rfl⟩
  | status sz got =>
    obtain ⟨id, ho⟩ := h
    exact ⟨id, _, ho, List.prefix_rfl⟩

def WrRes (b hnd : Bytes) (ofst : Nat × Nat) (data : Bytes) : Chan × Out Wr Nat → Prop
  | (c, .more w) => WrSent b hnd ofst data c w ∧ c.pkt = none
  | (c, .again w) => WrSent b hnd ofst data c w ∧ c.pkt = none ∧ notice c.err = true
  | (c, .ret none) => c.pkt = none ∧ WrPart b hnd ofst data c ∧
      (notice c.err = true → ∃ id, c.out = b ++ (writeHead id hnd ofst data.length ++ data))
  | (c, .ret (some n)) => c.pkt = none ∧ n = data.length ∧ ∃ id, c.out = b ++ (writeHead id hnd ofst data.length ++ data)
  | (_, .ub) => True

theorem want_notice {e : Ret} (h : want e = true) : notice e = true := by
  simp only [want, notice, decide_eq_true_eq] at *
  rcases h with h | h
  · exact .inl h
  · exact .inr (.inl h)

theorem wrStep_sent {b hnd : Bytes} {ofst : Nat × Nat} {data : Bytes} (ev : Ev) {c : Chan} {w : Wr}
    (h : WrSent b hnd ofst data c w) (hp : c.pkt = none) : WrRes b hnd ofst data (wrStep data ev c w) := by
  cases w with
  | send buf idx =>
    cases ev <;> try exact ⟨h, hp⟩
    case send res err p =>
      have h0 := h
      have hpart : WrPart b hnd ofst data c := h0.part
      obtain ⟨id, rfl, hi, ho⟩ := h
      cases res with
      | error e =>
        simp only [wrStep]
        by_cases hw : notice err = true
        · rw [if_pos hw]; exact ⟨h0, hp, hw⟩
        · rw [if_neg hw]; exact ⟨hp, hpart, fun hh => absurd hh hw⟩
      | ok k =>
        have hs := sendSome_out k err c _ idx b hi ho
        simp only [wrStep]
        by_cases hw : (sendSome k err c (writeHead id hnd ofst data.length) idx).2 < (writeHead id hnd ofst data.length).length ∨ p = true
        · rw [if_pos hw]; exact ⟨⟨id, rfl, hs.2, hs.1⟩, hp, rfl⟩
        · rw [if_neg hw]
          refine ⟨⟨id, _, ?_, rfl⟩, hp⟩
          rw [hs.1, not_lt_take (fun hh => hw (.inl hh))]
  | body rest =>
    cases ev <;> try exact ⟨h, hp⟩
    case body res err after =>
      have h0 := h
      have hpart : WrPart b hnd ofst data c := h0.part
      obtain ⟨id, part, ho, he⟩ := h
      cases res with
      | error e =>
        simp only [wrStep]
        by_cases hw : notice err = true
        · rw [if_pos hw]; exact ⟨h0, hp⟩
        · rw [if_neg hw]; exact ⟨hp, hpart, fun hh => absurd hh hw⟩
      | ok k =>
        have hs := sendSome_out k err c rest 0 c.out (Nat.zero_le _) (by simp)
        simp only [wrStep]
        by_cases hw : (sendSome k err c rest 0).2 < rest.length
        · rw [if_pos hw]
          refine ⟨⟨id, part ++ rest.take (sendSome k err c rest 0).2, ?_, ?_⟩, hp⟩
          · rw [hs.1, ho, List.append_assoc]
          · rw [List.append_assoc, List.take_append_drop, he]
        · rw [if_neg hw]
          refine ⟨⟨id, ?_⟩, hp⟩
          rw [hs.1, not_lt_take hw, ho, List.append_assoc, he]
  | head got =>
    cases ev <;> try exact ⟨h, hp⟩
    case read k err =>
      have hq := Quiet.head k err c got
      simp only [wrStep]
      generalize getHeader k err c got = r at hq ⊢
      obtain ⟨c', hd⟩ := r
      simp only at hq
      have h' : ∃ id, c'.out = b ++ (writeHead id hnd ofst data.length ++ data) := by rw [hq.1]; exact h
      have hp' : c'.pkt = none := hq.2.trans hp
      have hpart : WrPart b hnd ofst data c' := WrSent.part (w := .head []) h'
      cases hd with
      | short got' =>
        simp only
        by_cases hw : notice c'.err = true
        · rw [if_pos hw]; exact ⟨h', hp', hw⟩
        · rw [if_neg hw]; exact ⟨hp', hpart, fun _ => h'⟩
      | bad z =>
        simp only
        by_cases hw : notice c'.err = true
        · rw [if_pos hw]; exact ⟨h', hp', hw⟩
        · rw [if_neg hw]; exact ⟨hp', hpart, fun _ => h'⟩
      | ok type id sz =>
        simp only
        by_cases hw : id ≠ c'.reqId
        · rw [if_pos hw]; exact ⟨hp', hpart, fun _ => h'⟩
        · rw [if_neg hw]
          by_cases hw : type ≠ 101
          · rw [if_pos hw]; exact ⟨hp', hpart, fun _ => h'⟩
          · rw [if_neg hw]; exact ⟨h', hp'⟩
  | status sz got =>
    cases ev <;> try exact ⟨h, hp⟩
    case read k err =>
      simp only [wrStep]
      have hpart : WrPart b hnd ofst data c := WrSent.part h
      by_cases hf : (bufRead sz k err c got).1 = true
      · rw [if_pos hf]
        cases doStatus (bufRead sz k err c got).2.2 with
        | ok code i =>
          simp only
          by_cases hk : code = FTP_OK
          · rw [if_pos hk]; exact ⟨hp, rfl, h⟩
          · rw [if_neg hk]; exact ⟨hp, hpart, fun _ => h⟩
        | err => exact ⟨hp, hpart, fun _ => h⟩
        | ub => exact True.intro
      · rw [if_neg hf]
        by_cases hw : want (bufRead sz k err c got).2.1.err = true
        · rw [if_pos hw]; exact ⟨h, hp, want_notice hw⟩
        · rw [if_neg hw]; exact ⟨hp, hpart, fun _ => h⟩

/-! ## Closing -/

/-- Close requests, and the beginning of one more. -/
def Closes (b hnd : Bytes) (c : Chan) (cl : List (Nat × Request)) : Prop :=
  (∀ x ∈ cl, x.2 = .close hnd) ∧
  match c.pkt with
  | none => c.out = b ++ requests cl
  | some (q, i) => ∃ id, q = typePacket 4 id hnd ∧ i ≤ q.length ∧ c.out = b ++ requests cl ++ q.take i

/-- Close requests, complete. -/
def Closed (b hnd : Bytes) (c : Chan) : Prop :=
  ∃ cl, cl ≠ [] ∧ (∀ x ∈ cl, x.2 = .close hnd) ∧ c.out = b ++ requests cl ∧ c.pkt = none

def ClSent (b hnd : Bytes) (c : Chan) : Close → Prop
  | .send => ∃ cl, Closes b hnd c cl
  | .head _ => Closed b hnd c
  | .status _ _ => Closed b hnd c

theorem Closed.closes {b hnd : Bytes} {c : Chan} (h : Closed b hnd c) : ClSent b hnd c .send := by
  obtain ⟨cl, _, h1, h2, h3⟩ := h
  refine ⟨cl, h1, ?_⟩
  rw [h3]; exact h2

theorem requests_snoc (l : List (Nat × Request)) (r : Nat × Request) : requests (l ++ [r]) = requests l ++ r.2.packet r.1 := by
  simp [requests]

theorem sendType_closes {b hnd : Bytes} {c : Chan} {cl : List (Nat × Request)} (res : Except Err Nat) (err : Ret) (h : Closes b hnd c cl) :
    match (sendType res err 4 hnd c).2 with
    | none => ClSent b hnd (sendType res err 4 hnd c).1 .send
    | some false => ClSent b hnd (sendType res err 4 hnd c).1 .send
    | some true => Closed b hnd (sendType res err 4 hnd c).1 := by
  obtain ⟨hall, hm⟩ := h
  have key : ∃ id i, c.pkt.getD (typePacket 4 c.reqId hnd, 0) = (typePacket 4 id hnd, i) ∧ i ≤ (typePacket 4 id hnd).length ∧
      c.out = b ++ requests cl ++ (typePacket 4 id hnd).take i := by
    cases hp : c.pkt with
    | none => rw [hp] at hm; exact ⟨c.reqId, 0, rfl, Nat.zero_le _, by simpa using hm⟩
    | some q =>
      rw [hp] at hm
      obtain ⟨q, j⟩ := q
      obtain ⟨id, rfl, hi, ho⟩ := hm
      exact ⟨id, j, rfl, hi, ho⟩
  obtain ⟨id, i, he, hi, ho⟩ := key
  unfold sendType
  simp only [he]
  cases res with
  | error e => exact ⟨cl, hall, id, rfl, hi, ho⟩
  | ok k =>
    have hs := sendSome_out k err c _ i _ hi ho
    simp only
    by_cases hw : (sendSome k err c (typePacket 4 id hnd) i).2 < (typePacket 4 id hnd).length
    · rw [if_pos hw]; exact ⟨cl, hall, id, rfl, hs.2, hs.1⟩
    · rw [if_neg hw]
      refine ⟨cl ++ [(id, .close hnd)], by simp, ?_, ?_, rfl⟩
      · intro x hx
        rcases List.mem_append.1 hx with hx | hx
        · exact hall x hx
        · rw [List.mem_singleton.1 hx]
      · rw [hs.1, not_lt_take hw, requests_snoc, closePacket_eq, List.append_assoc]

def ClRes (b hnd : Bytes) : Chan × Out Close Unit → Prop
  | (c, .more s) => ClSent b hnd c s
  | (c, .again s) => ClSent b hnd c s
  | (c, .ret none) => ClSent b hnd c .send
  | (c, .ret (some _)) => Closed b hnd c
  | (_, .ub) => True

theorem Closed.quiet {b hnd : Bytes} {c c' : Chan} (h : Closed b hnd c) (hq : Quiet c c') : Closed b hnd c' := by
  obtain ⟨cl, h0, h1, h2, h3⟩ := h
  exact ⟨cl, h0, h1, hq.1.trans h2, hq.2.trans h3⟩

theorem closeStep_sent {b hnd : Bytes} (ev : Ev) {c : Chan} {s : Close} (h : ClSent b hnd c s) : ClRes b hnd (closeStep hnd ev c s) := by
  cases s with
  | send =>
    cases ev <;> try exact h
    case send res err p =>
      obtain ⟨cl, h⟩ := h
      have hs := sendType_closes res err h
      simp only [closeStep]
      generalize sendType res err 4 hnd c = r at hs ⊢
      obtain ⟨c', o⟩ := r
      match o with
      | none => exact hs
      | some true =>
        simp only
        by_cases hn : notice c'.err = true
        · rw [if_pos hn]; exact Closed.closes hs
        · rw [if_neg hn]; exact hs
      | some false =>
        simp only
        by_cases hn : notice c'.err = true
        · rw [if_pos hn]; exact hs
        · rw [if_neg hn]; exact hs
  | head got =>
    cases ev <;> try exact h
    case read k err =>
      have hq := Quiet.head k err c got
      simp only [closeStep]
      generalize getHeader k err c got = r at hq ⊢
      obtain ⟨c', hd⟩ := r
      have h' : Closed b hnd c' := Closed.quiet h hq
      cases hd with
      | short got' =>
        simp only
        by_cases hw : notice c'.err = true
        · rw [if_pos hw]; exact h'
        · rw [if_neg hw]; exact h'.closes
      | bad z =>
        simp only
        by_cases hw : notice c'.err = true
        · rw [if_pos hw]; exact h'
        · rw [if_neg hw]; exact h'.closes
      | ok type id sz =>
        simp only
        by_cases hw : type ≠ 101
        · rw [if_pos hw]; exact h'.closes
        · rw [if_neg hw]; exact h'
  | status sz got =>
    cases ev <;> try exact h
    case read k err =>
      have h' : Closed b hnd (bufRead sz k err c got).2.1 := Closed.quiet h ⟨rfl, rfl⟩
      simp only [closeStep]
      by_cases hf : (bufRead sz k err c got).1 = true
      · rw [if_pos hf]
        cases doStatus (bufRead sz k err c got).2.2 with
        | ok code i =>
          simp only
          by_cases hk : code = FTP_OK
          · rw [if_pos hk]; exact h'
          · rw [if_neg hk]; exact h'.closes
        | err => exact h'.closes
        | ub => exact True.intro
      · rw [if_neg hf]
        by_cases hw : notice (bufRead sz k err c got).2.1.err = true
        · rw [if_pos hw]; exact h'
        · rw [if_neg hw]; exact h'.closes

/-! ## The whole of a store -/

/-- What the loop over the file has left behind: writes, and perhaps the beginning of one more; unless a write failed (`F`) or
reading the local file failed (`E`), all of the file. -/
def Tail (file : Bytes) (o0 : Nat) (F E : Prop) (hnd : Bytes) (ws : List (Nat × Nat × Bytes)) (part : Bytes) : Prop :=
  ∃ q, Pieces file o0 (ws.map (·.2)) q ∧
    (part = [] ∨ ∃ w q', Pieces file o0 (ws.map (·.2) ++ [w.2]) q' ∧ part <+: (wreq hnd w).2.packet w.1) ∧
    (¬ F → part = [] ∧ (¬ E → file.length ≤ q))

def PutPhInv (A : Args) (file out0 : Bytes) (o0 : Nat) (tab0 : List Slot) (F E : Prop) (p : Put) : PutPh → Prop
  | .local => p.c.out = out0 ∧ p.c.pkt = none ∧ p.ofst = (0, 0) ∧ p.pos = 0 ∧ p.tab = tab0
  | .open o => (∃ id, OpenSent out0 (openPacket id A.dst PUT_FLAGS) p.c o) ∧ val p.ofst = o0 ∧ p.pos = o0
  | .fill => ∃ id ws, p.c.pkt = none ∧ p.c.out = base A out0 p.h.handle id ws ∧ Pieces file o0 (ws.map (·.2)) p.pos ∧ val p.ofst = p.pos
  | .write w d => ∃ id ws, p.c.pkt = none ∧ WrSent (base A out0 p.h.handle id ws) p.h.handle p.ofst d p.c w ∧
      Pieces file o0 (ws.map (·.2) ++ [(val p.ofst, d)]) p.pos ∧ val p.ofst + d.length = p.pos ∧ 0 < d.length
  | .close s => ∃ id ws part, ClSent (base A out0 p.h.handle id ws ++ part) p.h.handle p.c s ∧ Tail file o0 F E p.h.handle ws part
  | .done true => ∃ id ws part cl, p.c.out = base A out0 p.h.handle id ws ++ part ++ requests cl ∧
      (∀ x ∈ cl, x.2 = .close p.h.handle) ∧ (p.h.handle ≠ [] → cl ≠ []) ∧ Tail file o0 F E p.h.handle ws part
  | .done false => True
  | .ub => True

structure PutInv (A : Args) (file out0 : Bytes) (o0 : Nat) (tab0 : List Slot) (F E : Prop) (p : Put) : Prop where
  lo : p.ofst.1 < 2 ^ 32
  hi : p.ofst.2 < 2 ^ 32
  ph : PutPhInv A file out0 o0 tab0 F E p p.ph

theorem putEnd_inv {A : Args} {file out0 : Bytes} {o0 : Nat} {tab0 : List Slot} {F E : Prop} {p : Put} {id : Nat} {ws : List (Nat × Nat × Bytes)}
    {part : Bytes} (h1 : p.ofst.1 < 2 ^ 32) (h2 : p.ofst.2 < 2 ^ 32) (hp : p.c.pkt = none)
    (ho : p.c.out = base A out0 p.h.handle id ws ++ part) (ht : Tail file o0 F E p.h.handle ws part) :
    PutInv A file out0 o0 tab0 F E (putEnd A p) := by
  unfold putEnd
  simp only
  by_cases hc : 0 < p.h.cap
  · rw [if_pos hc]
    refine ⟨h1, h2, id, ws, part, ⟨[], by simp, ?_⟩, ht⟩
    simp only [hp]
    rw [ho]; simp [requests]
  · rw [if_neg hc]
    refine ⟨h1, h2, id, ws, part, [], ?_, by simp, ?_, ht⟩
    · show p.c.out = _
      rw [ho]; simp [requests]
    · intro hh
      refine absurd ?_ hh
      show p.h.mem.take p.h.cap = []
      rw [show p.h.cap = 0 by omega]; rfl

theorem pieces_le {file : Bytes} {o0 q : Nat} {ws : List (Nat × Bytes)} (h : Pieces file o0 ws q) : q = o0 ∨ q ≤ file.length := by
  induction h with
  | nil => exact .inl rfl
  | next _ hn _ _ => exact .inr hn
  | again _ ih => exact ih

theorem pieces_some {file : Bytes} {o0 q : Nat} {ws : List (Nat × Bytes)} (h : Pieces file o0 ws q) (hw : ws ≠ []) : q ≤ file.length := by
  induction h with
  | nil => exact absurd rfl hw
  | next _ hn _ _ => exact hn
  | again _ ih => exact ih (by simp)

theorem recall_same (c : Chan) : (recall c).out = c.out ∧ (recall c).pkt = c.pkt := ⟨rfl, rfl⟩

theorem WrSent.congr {b hnd : Bytes} {o : Nat × Nat} {d : Bytes} {c c' : Chan} {w : Wr} (h : WrSent b hnd o d c w) (he : c'.out = c.out) :
    WrSent b hnd o d c' w := by
  cases w <;> simpa only [WrSent, he] using h

theorem OpenSent.congr {b buf : Bytes} {c c' : Chan} {o : Open} (h : OpenSent b buf c o) (he : c'.out = c.out) (hp : c'.pkt = c.pkt) :
    OpenSent b buf c' o := by
  cases o <;> simpa only [OpenSent, he, hp] using h

theorem Closes.congr {b hnd : Bytes} {c c' : Chan} {cl : List (Nat × Request)} (h : Closes b hnd c cl) (he : c'.out = c.out) (hp : c'.pkt = c.pkt) :
    Closes b hnd c' cl := by
  simpa only [Closes, he, hp] using h

theorem ClSent.congr {b hnd : Bytes} {c c' : Chan} {s : Close} (h : ClSent b hnd c s) (he : c'.out = c.out) (hp : c'.pkt = c.pkt) :
    ClSent b hnd c' s := by
  cases s with
  | send => obtain ⟨cl, h⟩ := h; exact ⟨cl, h.congr he hp⟩
  | head _ => exact Closed.quiet h ⟨he, hp⟩
  | status _ _ => exact Closed.quiet h ⟨he, hp⟩

theorem or_shift (o : Nat × Nat) (h : o.1 < 2 ^ 32) : (o.2 <<< 32) ||| o.1 = val o := by
  rw [← Nat.shiftLeft_add_eq_or_of_lt h, Nat.shiftLeft_eq]; rfl

/-- The offset a store begins at. -/
def start (A : Args) (tab : List Slot) : Nat := if A.resume then val (getOfst A.src A.dst tab).1 else 0

/-- The offsets are words. -/
def TabOk (tab : List Slot) : Prop := ∀ s ∈ tab, s.ofst.1 < 2 ^ 32 ∧ s.ofst.2 < 2 ^ 32

theorem getOfst_ok {src dst : Bytes} {tab : List Slot} (h : TabOk tab) :
    (getOfst src dst tab).1.1 < 2 ^ 32 ∧ (getOfst src dst tab).1.2 < 2 ^ 32 := by
  induction tab with
  | nil => exact ⟨Nat.two_pow_pos 32, Nat.two_pow_pos 32⟩
  | cons s t ih =>
    unfold getOfst
    by_cases hc : src.length = s.src.length ∧ src = s.src ∧ dst.length = s.dst.length ∧ dst = s.dst
    · rw [if_pos hc]; exact h s List.mem_cons_self
    · rw [if_neg hc]; exact ih fun x hx => h x (List.mem_cons_of_mem _ hx)

/-- Does the store still write? -/
def PutPh.loop : PutPh → Bool
  | .write _ _ => true
  | .fill => true
  | _ => false

theorem putEnd_loop (A : Args) (p : Put) : PutPh.loop (putEnd A p).ph = false := by
  unfold putEnd
  simp only
  by_cases hc : 0 < p.h.cap
  · rw [if_pos hc]; rfl
  · rw [if_neg hc]; rfl

theorem putOpen_inv {A : Args} {file out0 : Bytes} {o0 : Nat} {tab0 : List Slot} {F E : Prop} {p : Put} {id : Nat} {c : Chan} {h : Hd} {o : Out Open Unit}
    (h1 : p.ofst.1 < 2 ^ 32) (h2 : p.ofst.2 < 2 ^ 32) (hv : val p.ofst = o0) (hpos : p.pos = o0)
    (hr : OpenRes out0 (openPacket id A.dst PUT_FLAGS) (c, h, o)) : PutInv A file out0 o0 tab0 F E (putOpen A p c h o) := by
  match o with
  | .more o => exact ⟨h1, h2, ⟨id, hr⟩, hv, hpos⟩
  | .again o =>
    obtain ⟨hr, hw⟩ := hr
    simp only [putOpen]
    rw [if_pos hw]
    exact ⟨h1, h2, ⟨id, hr.congr rfl rfl⟩, hv, hpos⟩
  | .ret none =>
    simp only [putOpen]
    rw [if_neg (by rw [show want c.err = false from hr]; decide)]
    exact ⟨h1, h2, True.intro⟩
  | .ret (some _) =>
    obtain ⟨ho, hp⟩ := hr
    refine ⟨h1, h2, id, [], hp, ?_, ?_, hv.trans hpos.symm⟩
    · rw [base_nil]; exact ho
    · show Pieces file o0 [] p.pos
      rw [hpos]; exact .nil
  | .ub => exact ⟨h1, h2, True.intro⟩

theorem freshWrite_inv {A : Args} {file out0 : Bytes} {o0 : Nat} {tab0 : List Slot} {F E : Prop} {p : Put} {id : Nat}
    {ws : List (Nat × Nat × Bytes)} {d : Bytes} (h1 : p.ofst.1 < 2 ^ 32) (h2 : p.ofst.2 < 2 ^ 32) (hp : p.c.pkt = none)
    (ho : p.c.out = base A out0 p.h.handle id ws) (hs : Pieces file o0 (ws.map (·.2) ++ [(val p.ofst, d)]) p.pos)
    (hv : val p.ofst + d.length = p.pos) (hd : 0 < d.length) :
    PutInv A file out0 o0 tab0 F E { p with ph := freshWrite p d } :=
  ⟨h1, h2, id, ws, hp, ⟨p.c.reqId, rfl, Nat.zero_le _, by simpa using ho⟩, hs, hv, hd⟩

theorem putWrite_inv {A : Args} {file out0 : Bytes} {o0 : Nat} {tab0 : List Slot} {F E : Prop} {p : Put} {id : Nat} {ws : List (Nat × Nat × Bytes)}
    {c : Chan} {d : Bytes} {o : Out Wr Nat} (hfile : file.length < 2 ^ 64) (h1 : p.ofst.1 < 2 ^ 32) (h2 : p.ofst.2 < 2 ^ 32)
    (hr : WrRes (base A out0 p.h.handle id ws) p.h.handle p.ofst d (c, o))
    (hs : Pieces file o0 (ws.map (·.2) ++ [(val p.ofst, d)]) p.pos) (hv : val p.ofst + d.length = p.pos) (hd : 0 < d.length)
    (hmax : d.length ≤ MAX_RW) (hle : p.pos ≤ file.length) (hF : PutPh.loop (putWrite A p c d o).ph = false → F) :
    PutInv A file out0 o0 tab0 F E (putWrite A p c d o) := by
  have full : ∀ id', writeHead id' p.h.handle p.ofst d.length ++ d = (Request.write p.h.handle (val p.ofst) d).packet id' :=
    fun id' => writeHead_eq id' p.h.handle p.ofst d h1
  have more : ∀ id', base A out0 p.h.handle id ws ++ (writeHead id' p.h.handle p.ofst d.length ++ d) =
      base A out0 p.h.handle id (ws ++ [(id', val p.ofst, d)]) := by
    intro id'; rw [base_snoc, full]
  have pieces : ∀ id', Pieces file o0 (List.map Prod.snd (ws ++ [(id', val p.ofst, d)])) p.pos := by
    intro id'; simpa using hs
  -- the writes before: any list of pieces but for its last
  have prev : ∃ q, Pieces file o0 (ws.map (·.2)) q := by
    generalize hl : ws.map (·.2) ++ [(val p.ofst, d)] = l at hs
    generalize p.pos = q at hs
    cases hs with
    | nil => simp at hl
    | next h _ _ =>
      have := List.append_inj_left' hl rfl
      rw [this]; exact ⟨_, h⟩
    | again h =>
      have := List.append_inj_left' hl rfl
      rw [this]; exact ⟨_, h⟩
  have stop : ∀ part, F → (part = [] ∨ ∃ id', part <+: writeHead id' p.h.handle p.ofst d.length ++ d) → Tail file o0 F E p.h.handle ws part := by
    intro part hf hpart
    obtain ⟨q, hq⟩ := prev
    refine ⟨q, hq, ?_, fun hn => absurd hf hn⟩
    rcases hpart with hpart | ⟨id', hpart⟩
    · exact .inl hpart
    · rw [full] at hpart
      exact .inr ⟨(id', val p.ofst, d), p.pos, hs, hpart⟩
  match o with
  | .more w => exact ⟨h1, h2, id, ws, hr.2, hr.1, hs, hv, hd⟩
  | .again w =>
    obtain ⟨hr, hp, hn⟩ := hr
    simp only [putWrite]
    rw [if_pos hn]
    exact ⟨h1, h2, id, ws, hp, hr.congr rfl, hs, hv, hd⟩
  | .ret none =>
    obtain ⟨hp, ⟨id', part, ho, hpart⟩, hre⟩ := hr
    simp only [putWrite] at hF ⊢
    by_cases hn : notice c.err = true
    · rw [if_pos hn]
      obtain ⟨id', ho⟩ := hre hn
      have hagain : Pieces file o0 (List.map Prod.snd (ws ++ [(id', val p.ofst, d)]) ++ [(val p.ofst, d)]) p.pos := by
        simpa using Pieces.again hs
      exact freshWrite_inv (p := { p with c := recall c }) h1 h2 hp (ho.trans (more id')) hagain hv hd
    · rw [if_neg hn] at hF ⊢
      have hf := hF (putEnd_loop A _)
      exact putEnd_inv (p := { p with c := c }) h1 h2 hp ho (stop part hf (.inr ⟨id', hpart⟩))
  | .ret (some n) =>
    obtain ⟨hp, rfl, id', ho⟩ := hr
    have hva := val_add p.ofst d.length h1 h2 (by have : MAX_RW = 32768 := rfl; omega)
    have hv' : val (addAssign64 p.ofst d.length) = p.pos := by
      rw [hva.1, hv, Nat.mod_eq_of_lt (by omega)]
    simp only [putWrite] at hF ⊢
    by_cases hi : 0 < d.length ∧ c.int = false
    · rw [if_pos hi, if_pos (by simp)]
      exact ⟨hva.2.1, hva.2.2, id, ws ++ [(id', val p.ofst, d)], hp, ho.trans (more id'), pieces id', hv'⟩
    · rw [if_neg hi] at hF ⊢
      have hf := hF (putEnd_loop A _)
      refine putEnd_inv (p := { p with c := c, ofst := addAssign64 p.ofst d.length }) (id := id) (ws := ws ++ [(id', val p.ofst, d)]) (part := [])
        hva.2.1 hva.2.2 hp ?_ ⟨p.pos, pieces id', .inl rfl, fun hn => absurd hf hn⟩
      rw [List.append_nil]; exact ho.trans (more id')
  | .ub => exact ⟨h1, h2, True.intro⟩

theorem putClose_inv {A : Args} {file out0 : Bytes} {o0 : Nat} {tab0 : List Slot} {F E : Prop} {p : Put} {id : Nat} {ws : List (Nat × Nat × Bytes)}
    {part : Bytes} {c : Chan} {o : Out Close Unit} (h1 : p.ofst.1 < 2 ^ 32) (h2 : p.ofst.2 < 2 ^ 32)
    (hr : ClRes (base A out0 p.h.handle id ws ++ part) p.h.handle (c, o)) (ht : Tail file o0 F E p.h.handle ws part) :
    PutInv A file out0 o0 tab0 F E (putClose p c o) := by
  match o with
  | .more s => exact ⟨h1, h2, id, ws, part, hr, ht⟩
  | .again s =>
    simp only [putClose]
    by_cases hn : notice c.err = true
    · rw [if_pos hn]; exact ⟨h1, h2, id, ws, part, ClSent.congr hr rfl rfl, ht⟩
    · rw [if_neg hn]; exact ⟨h1, h2, True.intro⟩
  | .ret none =>
    simp only [putClose]
    by_cases hn : notice c.err = true
    · rw [if_pos hn]; exact ⟨h1, h2, id, ws, part, ClSent.congr hr rfl rfl, ht⟩
    · rw [if_neg hn]; exact ⟨h1, h2, True.intro⟩
  | .ret (some _) =>
    obtain ⟨cl, h0, hall, ho, _⟩ := hr
    exact ⟨h1, h2, id, ws, part, cl, ho, hall, fun _ => h0, ht⟩
  | .ub => exact ⟨h1, h2, True.intro⟩

theorem PutPhInv.int {A : Args} {file out0 : Bytes} {o0 : Nat} {tab0 : List Slot} {F E : Prop} {p : Put} {ph : PutPh} (b : Bool)
    (h : PutPhInv A file out0 o0 tab0 F E p ph) : PutPhInv A file out0 o0 tab0 F E { p with c := { p.c with int := b } } ph := by
  match ph with
  | .local => exact h
  | .open o => obtain ⟨⟨id, h1⟩, h2⟩ := h; exact ⟨⟨id, h1.congr rfl rfl⟩, h2⟩
  | .fill => exact h
  | .write w d => obtain ⟨id, ws, h1, h2, h3⟩ := h; exact ⟨id, ws, h1, h2.congr rfl, h3⟩
  | .close s => obtain ⟨id, ws, part, h1, h2⟩ := h; exact ⟨id, ws, part, h1.congr rfl rfl, h2⟩
  | .done true => exact h
  | .done false => exact True.intro
  | .ub => exact True.intro

theorem putStep_inv {A : Args} {file out0 : Bytes} {tab0 : List Slot} {F E : Prop} {p : Put} (ev : Ev) (hfile : file.length < 2 ^ 64)
    (htab : TabOk tab0) (hok : PutOk p) (h : PutInv A file out0 (start A tab0) tab0 F E p)
    (hF : ∀ w d, p.ph = .write w d → PutPh.loop (putStep A file p ev).ph = false → F)
    (hE : p.ph = .fill → ev = .file 0 → p.pos < file.length → E) :
    PutInv A file out0 (start A tab0) tab0 F E (putStep A file p ev) := by
  have hb := h.ph
  unfold putStep at hF ⊢
  by_cases hi : ev.interrupts = true
  · rw [if_pos hi]; exact ⟨h.lo, h.hi, hb.int true⟩
  · rw [if_neg hi] at hF ⊢
    cases hph : p.ph with
    | «local» =>
      rw [hph] at hb
      obtain ⟨ho, hp, hof, hpos, htb⟩ := hb
      have hkeep : PutInv A file out0 (start A tab0) tab0 F E p := h
      cases ev <;> try exact hkeep
      case «local» i f s =>
        simp only [putLocal]
        have hw : (if A.resume = true then getOfst A.src A.dst p.tab else (p.ofst, p.tab)).1.1 < 2 ^ 32 ∧
            (if A.resume = true then getOfst A.src A.dst p.tab else (p.ofst, p.tab)).1.2 < 2 ^ 32 := by
          by_cases hr : A.resume = true
          · rw [if_pos hr, htb]; exact getOfst_ok htab
          · rw [if_neg hr]; exact ⟨h.lo, h.hi⟩
        have hv : val (if A.resume = true then getOfst A.src A.dst p.tab else (p.ofst, p.tab)).1 = start A tab0 := by
          unfold start
          by_cases hr : A.resume = true
          · rw [if_pos hr, if_pos hr, htb]
          · rw [if_neg hr, if_neg hr, hof]; simp [val]
        by_cases hc : i = true ∨ ¬ f = true ∨ (A.resume = true ∧ ¬ s = true)
        · rw [if_pos hc]
          refine PutInv.mk ?_ ?_ ?_
          · exact hw.1
          · exact hw.2
          · exact True.intro
        · rw [if_neg hc]
          refine ⟨hw.1, hw.2, ⟨p.c.reqId, rfl, Nat.zero_le _, by rw [List.take_zero, List.append_nil]; exact ho, hp⟩, hv, ?_⟩
          show (if A.resume = true then _ else 0) = _
          by_cases hr : A.resume = true
          · rw [if_pos hr, or_shift _ hw.1]; exact hv
          · rw [if_neg hr]; unfold start; rw [if_neg hr]
    | «open» o =>
      rw [hph] at hb
      obtain ⟨⟨id, hs⟩, hv, hpos⟩ := hb
      exact putOpen_inv h.lo h.hi hv hpos (openStep_sent ev p.h hs)
    | fill =>
      rw [hph] at hb
      obtain ⟨id, ws, hp, ho, hs, hv⟩ := hb
      cases ev <;> try exact h
      case file n =>
        simp only [putFill]
        by_cases hz : ((file.drop p.pos).take (cmin n MAX_RW)).length = 0
        · rw [if_pos hz]
          refine putEnd_inv h.lo h.hi hp (part := []) (by rw [List.append_nil]; exact ho) ⟨p.pos, hs, .inl rfl, fun _ => ⟨rfl, fun hE' => ?_⟩⟩
          refine Nat.le_of_not_lt fun hlt => ?_
          have hn : n ≠ 0 := fun hn => hE' (hE hph (by rw [hn]) hlt)
          rw [cmin_eq] at hz
          simp at hz
          have : MAX_RW = 32768 := rfl
          omega
        · rw [if_neg hz]
          have hlen : ((file.drop p.pos).take (cmin n MAX_RW)).length ≤ file.length - p.pos := by simp; omega
          have hpc := Pieces.next hs (n := ((file.drop p.pos).take (cmin n MAX_RW)).length) (by omega) (by omega)
          have he : (file.drop p.pos).take ((file.drop p.pos).take (cmin n MAX_RW)).length = (file.drop p.pos).take (cmin n MAX_RW) := by
            rw [List.length_take]
            rcases Nat.le_total (cmin n MAX_RW) (file.drop p.pos).length with hl | hl
            · rw [Nat.min_eq_left hl]
            · rw [Nat.min_eq_right hl, List.take_of_length_le (Nat.le_refl _), List.take_of_length_le hl]
          rw [he, ← hv] at hpc
          have hv' := hv
          exact freshWrite_inv (p := { p with pos := p.pos + ((file.drop p.pos).take (cmin n MAX_RW)).length }) h.lo h.hi hp ho
            (by simpa only [hv] using hpc) (by show val p.ofst + _ = p.pos + _; rw [hv]) (by omega)
    | write w d =>
      rw [hph] at hb
      obtain ⟨id, ws, hp, hs, hpc, hv, hd⟩ := hb
      have hpok := hok.ph
      rw [hph] at hpok
      have hle : p.pos ≤ file.length := pieces_some hpc (by simp)
      refine putWrite_inv hfile h.lo h.hi (wrStep_sent ev hs hp) hpc hv hd hpok.2 hle ?_
      intro hl
      refine hF w d hph ?_
      rw [hph]
      exact hl
    | close s =>
      rw [hph] at hb
      obtain ⟨id, ws, part, hs, ht⟩ := hb
      exact putClose_inv h.lo h.hi (closeStep_sent ev hs) ht
    | done b => exact h
    | ub => exact h

/-! ## Runs -/

/-- A write that is not answered by an OK, or an interrupt: the store has left its loop from within a write. -/
def WriteFails (A : Args) (file : Bytes) (p : Put) (evs : List Ev) : Prop :=
  ∃ pre ev post w d, evs = pre ++ ev :: post ∧ (putRun A file p pre).ph = .write w d ∧
    PutPh.loop (putRun A file p (pre ++ [ev])).ph = false

/-- `fread` fails before the end of the file. -/
def ReadFails (A : Args) (file : Bytes) (p : Put) (evs : List Ev) : Prop :=
  ∃ pre post, evs = pre ++ .file 0 :: post ∧ (putRun A file p pre).ph = .fill ∧ (putRun A file p pre).pos < file.length

theorem putRun_inv (A : Args) (file : Bytes) (c : Chan) (tab : List Slot) (evs : List Ev) (hfile : file.length < 2 ^ 64) (htab : TabOk tab)
    (hgh : c.gh = none) (hpkt : c.pkt = none) :
    PutInv A file c.out (start A tab) tab (WriteFails A file (putStart c tab) evs) (ReadFails A file (putStart c tab) evs)
      (putRun A file (putStart c tab) evs) := by
  refine run_inv' _ _ _ evs ⟨Nat.two_pow_pos 32, Nat.two_pow_pos 32, rfl, hpkt, rfl, rfl, rfl⟩ ?_
  intro pre ev post he hp
  refine putStep_inv ev hfile htab (putRun_ok A file c tab pre hgh) hp ?_ ?_
  · intro w d hw hl
    exact ⟨pre, ev, post, w, d, he, hw, by unfold putRun; rw [List.foldl_append]; exact hl⟩
  · intro h1 h2 h3
    exact ⟨pre, post, by rw [he, h2], h1, h3⟩

/-! ## What the writes make of a file -/

theorem pwrite_twice (f : List UInt8) (off : Nat) (d : List UInt8) : pwrite (pwrite f off d) off d = pwrite f off d := by
  have hx : (f.take off ++ List.replicate (off - f.length) (0 : UInt8)).length = off := by simp; omega
  generalize he : f.take off ++ List.replicate (off - f.length) (0 : UInt8) = x at hx
  have e : pwrite f off d = x ++ (d ++ f.drop (off + d.length)) := by unfold pwrite; rw [he]; simp
  have e2 : (x ++ (d ++ f.drop (off + d.length))).take off = x := by rw [← hx]; simp
  have e3 : (x ++ (d ++ f.drop (off + d.length))).drop (off + d.length) = f.drop (off + d.length) := by
    rw [← hx, List.drop_length_add_append]; simp
  rw [e]
  unfold pwrite
  rw [e2, e3, show off - (x ++ (d ++ f.drop (off + d.length))).length = 0 by simp; omega]
  simp

theorem store_snoc (f : List UInt8) (ws : List (Nat × List UInt8)) (w : Nat × List UInt8) : store f (ws ++ [w]) = pwrite (store f ws) w.1 w.2 := by
  simp [Spec.SftpClient.store]

theorem pieces_store {file : List UInt8} {o q : Nat} {ws : List (Nat × List UInt8)} (h : Pieces file o ws q) :
    o ≤ q ∧ (ws = [] → q = o) ∧ (ws ≠ [] → q ≤ file.length ∧ store [] ws = List.replicate o 0 ++ (file.drop o).take (q - o)) := by
  induction h with
  | nil => exact ⟨Nat.le_refl _, fun _ => rfl, fun h => absurd rfl h⟩
  | @next ws pos n h hn hp ih =>
    obtain ⟨h1, h2, h3⟩ := ih
    refine ⟨by omega, fun hh => absurd hh (by simp), fun _ => ⟨hn, ?_⟩⟩
    rw [store_snoc]
    by_cases hw : ws = []
    · subst hw
      rw [h2 rfl]
      have : o + n - o = n := by omega
      rw [this]
      simp [Spec.SftpClient.store, pwrite]
    · obtain ⟨_, h3⟩ := h3 hw
      have hl : (List.replicate o (0 : UInt8) ++ (file.drop o).take (pos - o)).length = pos := by simp; omega
      have e : pos + n - o = (pos - o) + n := by omega
      rw [h3, e, List.take_add, List.drop_drop, show o + (pos - o) = pos by omega, ← List.append_assoc]
      generalize List.replicate o (0 : UInt8) ++ (file.drop o).take (pos - o) = x at hl
      unfold pwrite
      simp only
      rw [List.take_of_length_le (by omega : x.length ≤ pos),
        List.drop_eq_nil_of_le (by omega : x.length ≤ pos + (List.take n (List.drop pos file)).length), hl, Nat.sub_self]
      simp
  | @again ws w pos h ih =>
    obtain ⟨h1, _, h3⟩ := ih
    refine ⟨h1, fun hh => absurd hh (by simp), fun _ => ⟨(h3 (by simp)).1, ?_⟩⟩
    rw [store_snoc, store_snoc, pwrite_twice, ← store_snoc]
    exact (h3 (by simp)).2

end Proofs.SftpClient
