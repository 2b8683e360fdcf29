import Verif.Proofs.SftpLsConv
/-! # Listing a directory: the whole call -/

namespace Proofs.SftpLs
open Wolf Wolf.Wire Wolf.Sftp Wolf.SftpClient Wolf.SftpLs Proofs.SftpLoop Proofs.SftpClient Proofs.SftpOps
open Spec.Wire Spec.Sftp
open Spec.SftpLs (Dir next seen Again Quiet Request)

theorem typed_eq (t : Byte) (id : Nat) (p : Bytes) : typePacket t id p = encString (t :: (encUint32 id ++ encString p)) := by
  have h5 : (t :: (encUint32 id ++ encString p)).length = p.length + 4 + 5 := by simp [encString, enc_len]; omega
  have e : encUint32 (add32 p.length 4 + 5) = encUint32 (p.length + 4 + 5) := by
    unfold add32; rw [← enc_mod, ← enc_mod (p.length + 4 + 5)]; congr 1; omega
  rw [typePacket, header_eq, e]
  rw [show encString (t :: (encUint32 id ++ encString p)) = encUint32 (t :: (encUint32 id ++ encString p)).length ++ (t :: (encUint32 id ++ encString p)) from rfl,
    h5]
  simp [str, encString, c32toa_eq]

/-- The conversation from READDIR on. -/
structure Left (D : Dir) (dir : Bytes) (id0 : Nat) (O : Bytes) (h : Hd) (acc : List Entry) (id : Nat)
    (ls : List (List (Bytes × Bytes × Attrs))) (B : Bytes) : Prop where
  handle : h.handle = D.handle
  lt : id < 2 ^ 32
  sub : ∀ l ∈ ls, l ∈ D.pages
  out : B ++ D.reads id ls = O ++ D.asked dir id0
  all : acc.map seen ++ ls.flatMap List.reverse = D.pages.flatMap List.reverse

def bye (D : Dir) : Reply := .status 0 D.bye.1 D.bye.2

def stop (D : Dir) : Reply := .status D.code D.stop.1 D.stop.2

def PageC (D : Dir) (R : Bytes) (id : Nat) (c : Chan) (s : Nm) : List (List (Bytes × Bytes × Attrs)) → Prop
  | [] => StopC (stop D) id ((bye D).packet id ++ R) c s
  | l :: t => NameC l id (D.rest (next id) t ++ R) c s

def PhInv (D : Dir) (dir : Bytes) (id0 : Nat) (O R : Bytes) (c : Chan) : Ph → Prop
  | .realSend => c.reqId = id0 ∧ c.inp = D.says id0 ++ R ∧ Part O (typePacket 16 id0 dir) c ∧ c.gh = none
  | .realName s => NameC [D.full] id0 ((Reply.handle D.handle).packet (next id0) ++ (D.rest (next (next id0)) D.pages ++ R)) c s ∧ c.pkt = none ∧
      c.out = O ++ typePacket 16 id0 dir ∧ c.gh = none
  | .opendir n => n = D.full.1 ∧ c.reqId = next id0 ∧
      c.inp = (Reply.handle D.handle).packet (next id0) ++ (D.rest (next (next id0)) D.pages ++ R) ∧
      Part (O ++ typePacket 16 id0 dir) (typePacket 11 (next id0) n) c ∧ c.gh = none
  | .handle h => HandleC D.handle (next id0) (D.rest (next (next id0)) D.pages ++ R) c (c.gh.getD (.head [])) ∧ h.cap = 256 ∧ h.mem.length = 256 ∧
      c.pkt = none ∧ c.out = O ++ typePacket 16 id0 dir ++ typePacket 11 (next id0) D.full.1
  | .dirSend h acc => ∃ id ls B, Left D dir id0 O h acc id ls B ∧ c.reqId = id ∧ c.inp = D.rest id ls ++ R ∧ Part B (typePacket 12 id D.handle) c
  | .dirName h acc s => ∃ id ls B, Left D dir id0 O h acc id ls B ∧ c.pkt = none ∧ c.out = B ++ typePacket 12 id D.handle ∧ PageC D R id c s ls
  | .close h acc s => ∃ id B, h.handle = D.handle ∧ id < 2 ^ 32 ∧ CloseC D.handle (bye D) id B R c s ∧ B ++ typePacket 4 id D.handle = O ++ D.asked dir id0 ∧
      acc.map seen = D.pages.flatMap List.reverse

def Inv (D : Dir) (dir : Bytes) (id0 : Nat) (O R : Bytes) : Call → Prop
  | .at c p => PhInv D dir id0 O R c p
  | .done c l => l.map seen = D.pages.flatMap List.reverse ∧ c.inp = R ∧ c.out = O ++ D.asked dir id0
  | .ub => True

variable {D : Dir} {dir : Bytes} {id0 : Nat} {O R : Bytes}

theorem nameC_congr {L : List (Bytes × Bytes × Attrs)} {id : Nat} {R : Bytes} {c c' : Chan} {s : Nm} (h : NameC L id R c s) (h1 : c'.reqId = c.reqId)
    (h2 : c'.inp = c.inp) : NameC L id R c' s := by
  cases s <;> simp only [NameC, h1, h2] at h ⊢ <;> exact h

theorem pageC_congr {id : Nat} {ls : List (List (Bytes × Bytes × Attrs))} {c c' : Chan} {s : Nm} (h : PageC D R id c s ls) (h1 : c'.reqId = c.reqId)
    (h2 : c'.inp = c.inp) : PageC D R id c' s ls := by
  cases ls with
  | nil => cases s <;> simp only [PageC, StopC, h1, h2] at h ⊢ <;> exact h
  | cons l t => exact nameC_congr h h1 h2

theorem back_inv {c : Chan} {p : Ph} (hw : Again c.err) (h : PhInv D dir id0 O R c p) : Inv D dir id0 O R (back c p) := by
  unfold back
  rw [if_pos (again_keep hw)]
  exact h

theorem step_conv (hD : D.Ok) (hid : id0 < 2 ^ 32) (s : Call) (ev : Ev) (hq : Quiet ev) (h : Inv D dir id0 O R s) : Inv D dir id0 O R (step dir s ev) := by
  match s, h with
  | .ub, _ => exact True.intro
  | .done _ _, h => exact h
  | .at c .realSend, h =>
    cases ev <;> try exact h
    case send res err p =>
      obtain ⟨h1, h2, h3, h4⟩ := h
      have hg := (Same.type res err 16 dir c).1
      have hf := sendType_frame res err 16 dir c
      have hs := sendType_part res err h1 h3
      have hx := @sendType_fail res err 16 dir c
      simp only [step]
      generalize sendType res err 16 dir c = r at hg hf hs hx ⊢
      obtain ⟨c', o⟩ := r
      match o with
      | none => exact ⟨hf.2.1.trans h1, hf.1.trans h2, hs, hg.trans h4⟩
      | some true =>
        refine ⟨⟨hf.2.1.trans h1, ?_, by show 0 < 9; decide⟩, hs.1, hs.2, hg.trans h4⟩
        show c'.inp = _
        rw [show c'.inp = c.inp from hf.1, h2, Dir.says, List.append_assoc, List.append_assoc]
      | some false =>
        obtain ⟨⟨e, rfl⟩, he⟩ := hx rfl
        refine back_inv (by rw [he]; exact hq) ⟨hf.2.1.trans h1, hf.1.trans h2, hs, hg.trans h4⟩
  | .at c (.realName n), h =>
    cases ev <;> try exact h
    case read k err =>
      obtain ⟨h1, h2, h3, h4⟩ := h
      have hn := nameStep_names (by simp) hD.full.2 (by intro n hn; rw [List.mem_singleton.1 hn]; exact hD.full.1) hid k err h1
      have hf := named_frame k err c n
      simp only [step]
      generalize nameStep k err c n = r at hn hf ⊢
      obtain ⟨c', o⟩ := r
      obtain ⟨f1, f2, f3⟩ := hf
      match o, hn with
      | .more s, hn => exact ⟨hn, f3.trans h2, f2.trans h3, f1.trans h4⟩
      | .null s, hn =>
        obtain ⟨ha, hn⟩ := hn hq
        simp only [realNamed]
        rw [if_pos (again_keep ha)]
        exact ⟨nameC_congr hn rfl rfl, f3.trans h2, f2.trans h3, f1.trans h4⟩
      | .names [], hn => exact absurd hn.2.2 (by simp)
      | .names (e :: t), hn =>
        obtain ⟨hi, hin, hl⟩ := hn
        have he : seen e = D.full ∧ t = [] := by
          simp only [List.map_cons, List.reverse_cons, List.reverse_nil, List.nil_append, List.cons.injEq, List.map_eq_nil_iff] at hl
          exact hl
        refine ⟨by rw [← he.1]; rfl, hi, hin, .inl ⟨f3.trans h2, f2.trans h3⟩, f1.trans h4⟩
  | .at c (.opendir name), h =>
    obtain ⟨h0, h1, h2, h3, h4⟩ := h
    simp only [step]
    rw [if_neg (by rw [h0]; exact hD.name)]
    cases ev <;> try exact ⟨h0, h1, h2, h3, h4⟩
    case send res err p =>
      have hg := (Same.type res err 11 name c).1
      have hf := sendType_frame res err 11 name c
      have hs := sendType_part res err h1 h3
      have hx := @sendType_fail res err 11 name c
      simp only
      generalize sendType res err 11 name c = r at hg hf hs hx ⊢
      obtain ⟨c', o⟩ := r
      match o with
      | none => exact ⟨h0, hf.2.1.trans h1, hf.1.trans h2, hs, hg.trans h4⟩
      | some true =>
        have hgn : c'.gh = none := hg.trans h4
        refine ⟨?_, by decide +kernel, by decide +kernel, hs.1, by rw [← h0]; exact hs.2⟩
        rw [hgn]
        exact ⟨hf.2.1.trans h1, hf.1.trans h2, by decide⟩
      | some false =>
        obtain ⟨⟨e, rfl⟩, he⟩ := hx rfl
        exact back_inv (by rw [he]; exact hq) ⟨h0, hf.2.1.trans h1, hf.1.trans h2, hs, hg.trans h4⟩
  | .at c (.handle hd), h =>
    cases ev <;> try exact h
    case read k err =>
      obtain ⟨h1, h2, h3, h4, h5⟩ := h
      have hn := ghStep_conv hD.handle (next_lt _) k err h1 h2 h3
      have hf := ghStep_quiet k err c hd (c.gh.getD (.head []))
      simp only [step]
      generalize ghStep k err c hd (c.gh.getD (.head [])) = r at hn hf ⊢
      obtain ⟨c', hd', o⟩ := r
      obtain ⟨f1, f2⟩ := hf
      match o, hn with
      | .more g, hn => 
        refine ⟨?_, hn.2.1, hn.2.2, f2.trans h4, f1.trans h5⟩
        have := hn.1
        cases g <;> exact this
      | .again g, hn =>
        obtain ⟨ha, hn⟩ := hn hq
        refine back_inv ha ⟨?_, hn.2.1, hn.2.2, f2.trans h4, f1.trans h5⟩
        have := hn.1
        cases g <;> exact this
      | .ret (some _), hn =>
        obtain ⟨g1, g2, g3⟩ := hn
        refine ⟨next (next id0), D.pages, _, ⟨g3, next_lt _, fun l hl => hl, ?_, by simp⟩, g1, g2, .inl ⟨f2.trans h4, f1.trans h5⟩⟩
        rw [Dir.asked, typed_eq, typed_eq]
        simp [Request.packet]
      | .ret none, hn => exact absurd hq hn
  | .at c (.dirSend hd acc), h =>
    cases ev <;> try exact h
    case send res err p =>
      obtain ⟨id, ls, B, hL, h1, h2, h3⟩ := h
      have hH := hL.handle
      have hf := sendType_frame res err 12 hd.handle c
      have hs := sendType_part (buf := hd.handle) res err h1 (by rw [hH]; exact h3)
      have hx := @sendType_fail res err 12 hd.handle c
      simp only [step]
      generalize sendType res err 12 hd.handle c = r at hf hs hx ⊢
      obtain ⟨c', o⟩ := r
      rw [hH] at hs
      match o with
      | none => exact ⟨id, ls, B, hL, hf.2.1.trans h1, hf.1.trans h2, hs⟩
      | some true =>
        refine ⟨id, ls, B, hL, hs.1, hs.2, ?_⟩
        have hi : c'.inp = D.rest id ls ++ R := hf.1.trans h2
        cases ls with
        | nil =>
          refine ⟨hf.2.1.trans h1, ?_, by show 0 < 9; decide⟩
          show c'.inp = _
          rw [hi, Dir.rest, List.append_assoc]; rfl
        | cons l t =>
          refine ⟨hf.2.1.trans h1, ?_, by show 0 < 9; decide⟩
          show c'.inp = _
          rw [hi, Dir.rest, List.append_assoc]
      | some false =>
        obtain ⟨⟨e, rfl⟩, he⟩ := hx rfl
        simp only
        rw [if_pos (by rw [he]; exact again_keep hq)]
        exact ⟨id, ls, B, hL, hf.2.1.trans h1, hf.1.trans h2, hs⟩
  | .at c (.dirName hd acc n), h =>
    cases ev <;> try exact h
    case read k err =>
      obtain ⟨id, ls, B, hL, h1, h2, h3⟩ := h
      have hf := named_frame k err c n
      simp only [step]
      cases ls with
      | nil =>
        have hn := nameStep_stop hD.code hD.stop hL.lt k err h3
        generalize nameStep k err c n = r at hn hf ⊢
        obtain ⟨c', o⟩ := r
        obtain ⟨f1, f2, f3⟩ := hf
        match o, hn with
        | .more s, hn => exact ⟨id, [], B, hL, f3.trans h1, f2.trans h2, hn⟩
        | .null s, hn =>
          simp only [dirNamed]
          rcases hn hq with ⟨ha, hn⟩ | ⟨hk, g1, g2⟩
          · rw [if_pos (again_keep ha)]
            exact ⟨id, [], B, hL, f3.trans h1, f2.trans h2, pageC_congr (ls := []) hn rfl rfl⟩
          · rw [if_neg (by rw [hk]; decide)]
            refine ⟨id, B ++ typePacket 12 id D.handle, hL.handle, hL.lt, ⟨g1, g2, .inl ⟨f3.trans h1, f2.trans h2⟩⟩, ?_, ?_⟩
            · rw [← hL.out, typed_eq, typed_eq]
              simp [Dir.reads, Request.packet]
            · simpa using hL.all
      | cons l t =>
        obtain ⟨p1, p2, p3⟩ := hD.pages l (hL.sub l (by simp))
        have hn := nameStep_names p1 p2 p3 hL.lt k err h3
        generalize nameStep k err c n = r at hn hf ⊢
        obtain ⟨c', o⟩ := r
        obtain ⟨f1, f2, f3⟩ := hf
        match o, hn with
        | .more s, hn => exact ⟨id, l :: t, B, hL, f3.trans h1, f2.trans h2, hn⟩
        | .null s, hn =>
          obtain ⟨ha, hn⟩ := hn hq
          simp only [dirNamed]
          rw [if_pos (again_keep ha)]
          exact ⟨id, l :: t, B, hL, f3.trans h1, f2.trans h2, pageC_congr (ls := l :: t) hn rfl rfl⟩
        | .names q, hn =>
          obtain ⟨g1, g2, g3⟩ := hn
          refine ⟨next id, t, B ++ typePacket 12 id D.handle, ⟨hL.handle, next_lt _, fun x hx => hL.sub x (by simp [hx]), ?_, ?_⟩, g1, g2,
            .inl ⟨f3.trans h1, f2.trans h2⟩⟩
          · rw [← hL.out, typed_eq]
            simp [Dir.reads, Request.packet]
          · rw [← hL.all, List.map_append, g3]
            simp
  | .at c (.close hd acc s), h =>
    obtain ⟨id, B, hH, hi, h1, h2, h3⟩ := h
    have hn := closeStep_conv hD.bye hi ev h1
    simp only [step]
    rw [hH]
    generalize closeStep D.handle ev c s = r at hn ⊢
    obtain ⟨c', o⟩ := r
    match o, hn with
    | .more g, hn => exact ⟨id, B, hH, hi, hn hq, h2, h3⟩
    | .again g, hn => exact back_inv (hn hq).1 ⟨id, B, hH, hi, (hn hq).2, h2, h3⟩
    | .ret (some _), hn => exact ⟨h3, hn.1, by rw [← h2]; exact hn.2⟩
    | .ret none, hn => exact absurd hq hn

theorem run_conv (hD : D.Ok) (c : Chan) (evs : List Ev) (hid : c.reqId < 2 ^ 32) (hp : c.pkt = none) (hg : c.gh = none)
    (hi : c.inp = D.says c.reqId ++ R) (hq : ∀ ev ∈ evs, Quiet ev) : Inv D dir c.reqId c.out R (run dir c evs) := by
  have : ∀ (evs : List Ev) (s : Call), (∀ ev ∈ evs, Quiet ev) → Inv D dir c.reqId c.out R s → Inv D dir c.reqId c.out R (evs.foldl (step dir) s) := by
    intro evs
    induction evs with
    | nil => intro s _ hs; exact hs
    | cons e t ih => intro s hq hs; exact ih _ (fun x hx => hq x (by simp [hx])) (step_conv hD hid s e (hq e (by simp)) hs)
  exact this evs _ hq ⟨rfl, hi, .inl ⟨hp, rfl⟩, hg⟩

end Proofs.SftpLs
