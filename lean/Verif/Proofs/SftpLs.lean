import Verif.Spec.SftpLs
import Verif.Proofs.SftpOpsConv
/-! # Listing a directory: nothing goes wrong in memory, and what the packets mean -/

namespace Proofs.SftpLs
open Wolf Wolf.Wire Wolf.Sftp Wolf.SftpClient Wolf.SftpLs Proofs.SftpLoop Proofs.SftpClient Proofs.SftpOps
open Spec.Wire Spec.Sftp
open Spec.SftpLs (Dir next seen Again Quiet)
open Spec.SftpOps (shown)
open Proofs.Sftp (toAttrs)
open Props.Wire (msgFrom)

/-! ## Entries -/

theorem entries_cases (buf : Bytes) (hw : buf.length < 2 ^ 32) : ∀ (n i : Nat) (acc : List Entry), 
    (∃ e j, entries buf n i acc = .err e j ∧ names n (msgFrom buf buf.length i) = none) ∨
    (∃ (l : List Entry) (j : Nat), entries buf n i acc = .ok (l.reverse ++ acc) j ∧ names n (msgFrom buf buf.length i) = some (l.map seen, msgFrom buf buf.length j)) := by
  intro n
  induction n with
  | zero => intro i acc; exact .inr ⟨[], i, rfl, rfl⟩
  | succ n ih =>
    intro i acc
    simp only [entries, names, andThen]
    rcases Proofs.Sftp.getStr_cases (mem' := buf) (len := buf.length) i (Nat.le_refl _) hw with ⟨e, j, h1, h2⟩ | ⟨v, j, h1, _, h2⟩
    · exact .inl ⟨e, j, by rw [h1], by rw [h2]; rfl⟩
    rw [h1, h2]
    simp only [Option.bind_some]
    rcases Proofs.Sftp.getStr_cases (mem' := buf) (len := buf.length) j (Nat.le_refl _) hw with ⟨e, j', h1, h2⟩ | ⟨v', j', h1, _, h2⟩
    · exact .inl ⟨e, j', by rw [h1], by rw [h2]; rfl⟩
    rw [h1, h2]
    simp only [Option.bind_some]
    rcases Proofs.Sftp.parseAttributes_cases (mem' := buf) (len := buf.length) j' (Nat.le_refl _) hw with ⟨e, k, h1, h2⟩ | ⟨a, k, h1, _, _, h2⟩
    · exact .inl ⟨e, k, by rw [h1], by rw [h2]; rfl⟩
    rw [h1, h2]
    simp only [Option.bind_some]
    rcases ih k (⟨v, v', a⟩ :: acc) with ⟨e, m, h1, h2⟩ | ⟨l, m, h1, h2⟩
    · exact .inl ⟨e, m, h1, by rw [h2]; rfl⟩
    · refine .inr ⟨⟨v, v', a⟩ :: l, m, by rw [h1]; simp, ?_⟩
      rw [h2]; rfl

theorem takeNames_of (c : Chan) (L : List (Bytes × Bytes × Attrs)) (h0 : L ≠ []) (hl : (Reply.names L).body.length ≤ 2 ^ 20)
    (hf : ∀ n ∈ L, n.2.2.Fits) : ∃ l, takeNames c (Reply.names L).body = (c, .names l) ∧ l.map seen = L.reverse := by
  have hlen : ∀ n ∈ L, n.1.length < 2 ^ 32 ∧ n.2.1.length < 2 ^ 32 := by
    intro n hn
    have h1 : (encName n).length ≤ (L.flatMap encName).length := by
      obtain ⟨s, t, rfl⟩ := List.append_of_mem hn
      simp only [List.flatMap_append, List.flatMap_cons, List.length_append]
      omega
    simp only [Reply.body, List.length_append] at hl
    simp only [encName, encString, List.length_append] at h1
    omega
  have hn : L.length < 2 ^ 32 := by
    have : L.length ≤ (L.flatMap encName).length := by
      clear hl hf hlen h0
      induction L with
      | nil => simp
      | cons a t ih =>
        simp only [List.flatMap_cons, List.length_append, List.length_cons]
        have : 1 ≤ (encName a).length := by simp [encName, encString, enc_len]; omega
        omega
    simp only [Reply.body, List.length_append] at hl
    omega
  generalize hb : (Reply.names L).body = buf at hl
  have hbody : buf = encUint32 L.length ++ L.flatMap encName := by rw [← hb]; rfl
  unfold takeNames
  rw [getUint32_eq buf buf.length 0 (Nat.le_refl _) (by omega)]
  have e : (buf.take buf.length).drop 0 = encUint32 L.length ++ L.flatMap encName := by rw [List.take_length, ← hbody]; rfl
  rw [e, Proofs.Sftp.uint32_enc _ hn]
  simp only
  have m0 : msgFrom buf buf.length (0 + 4) = L.flatMap encName ++ [] := by
    show (buf.take buf.length).drop 4 = _
    rw [List.take_length, hbody, List.append_nil]
    rfl
  have hd := Proofs.Sftp.names_enc L [] (fun n hn => ⟨(hlen n hn).1, (hlen n hn).2, hf n hn⟩)
  rcases entries_cases buf (by omega) L.length (0 + 4) [] with ⟨e, j, h1, h2⟩ | ⟨l, j, h1, h2⟩
  · rw [m0, hd] at h2; cases h2
  · rw [m0, hd] at h2
    injection h2 with h2
    have h2 := (Prod.mk.inj h2).1
    rw [h1]
    have hr : (l.reverse ++ []).map seen = L.reverse := by rw [List.append_nil, List.map_reverse, ← h2]
    generalize l.reverse ++ [] = q at hr
    cases q with
    | nil => exfalso; apply h0; simpa using hr.symm
    | cons a t => exact ⟨_, rfl, hr⟩

/-! ## Safety -/

def NmOk : Nm → Prop
  | .head got => got.length ≤ 9
  | .status sz got => sz < 2 ^ 31 ∧ got.length ≤ sz
  | .body sz got => sz < 2 ^ 31 ∧ got.length ≤ sz

def NamedOk : Chan × Named → Prop
  | (_, .more s) => NmOk s
  | (_, .null s) => NmOk s
  | (_, .names _) => True
  | (_, .ub) => False

theorem namedOk_ite {b : Prop} [Decidable b] {x y : Chan × Named} (hx : b → NamedOk x) (hy : ¬ b → NamedOk y) : NamedOk (if b then x else y) := by
  by_cases hb : b
  · rw [if_pos hb]; exact hx hb
  · rw [if_neg hb]; exact hy hb

theorem noHeader_safe (c : Chan) (got : Bytes) (h : got.length ≤ 9) : NamedOk (noHeader c got) :=
  namedOk_ite (fun _ => h) (fun _ => Nat.zero_le _)

theorem takeNames_safe (c : Chan) (buf : Bytes) (h : buf.length < 2 ^ 31) : NamedOk (takeNames c buf) := by
  unfold takeNames
  have hu := getUint32_ne buf (by omega) 0
  cases hg : getUint32 buf buf.length 0 with
  | ub => exact absurd hg hu
  | err e i => exact Nat.zero_le _
  | ok n i =>
    simp only
    rcases entries_cases buf (by omega) n i [] with ⟨e, j, h1, h2⟩ | ⟨l, j, h1, h2⟩
    · rw [h1]; exact Nat.zero_le _
    · rw [h1]
      cases l.reverse ++ [] with
      | nil => exact Nat.zero_le _
      | cons a t => exact True.intro

theorem nameStep_safe (k : Nat) (err : Ret) (c : Chan) (s : Nm) (h : NmOk s) : NamedOk (nameStep k err c s) := by
  cases s with
  | head got =>
    simp only [nameStep]
    have hc := getHeader_cases k err c got h
    generalize getHeader k err c got = r at hc ⊢
    obtain ⟨c', hd⟩ := r
    simp only at hc
    rcases hc with ⟨got', rfl, h1⟩ | ⟨z, rfl⟩ | ⟨type, id, sz, rfl, h1, h2, _⟩
    · exact noHeader_safe _ _ h1
    · exact noHeader_safe _ _ (Nat.zero_le _)
    · exact namedOk_ite (fun _ => Nat.zero_le _) (fun _ => namedOk_ite (fun _ => Nat.zero_le _) (fun _ => namedOk_ite (fun _ => ⟨h2, Nat.zero_le _⟩)
        (fun _ => namedOk_ite (fun _ => ⟨h2, Nat.zero_le _⟩) (fun _ => Nat.zero_le _))))
  | status sz got =>
    obtain ⟨h1, h2⟩ := h
    simp only [nameStep]
    by_cases hf : (bufRead sz k err c got).1 = true
    · rw [if_pos hf]
      have := bufRead_full h2 hf
      rcases status_cases (bufRead sz k err c got).2.2 (by omega) with ⟨code, i, h, _⟩ | ⟨e, i, h⟩
      · rw [h]; exact Nat.zero_le _
      · rw [h]; exact Nat.zero_le _
    · rw [if_neg hf]
      show NmOk _
      by_cases hn : notice (bufRead sz k err c got).2.1.err = true
      · rw [if_pos hn]; exact ⟨h1, bufRead_le sz k err c got h2⟩
      · rw [if_neg hn]; exact Nat.zero_le _
  | body sz got =>
    obtain ⟨h1, h2⟩ := h
    simp only [nameStep]
    by_cases hf : (bufRead sz k err c got).1 = true
    · rw [if_pos hf]
      have := bufRead_full h2 hf
      exact takeNames_safe _ _ (by omega)
    · rw [if_neg hf]
      show NmOk _
      by_cases hn : notice (bufRead sz k err c got).2.1.err = true
      · rw [if_pos hn]; exact ⟨h1, bufRead_le sz k err c got h2⟩
      · rw [if_neg hn]; exact Nat.zero_le _

def PhOk (c : Chan) : Ph → Prop
  | .realSend => c.gh = none
  | .realName s => NmOk s ∧ c.gh = none
  | .opendir _ => c.gh = none
  | .handle h => HdOk h ∧ GhOk (c.gh.getD (.head []))
  | .dirSend _ _ => True
  | .dirName _ _ s => NmOk s
  | .close _ _ s => ClOk s

def CallOk : Call → Prop
  | .at c p => PhOk c p
  | .done _ _ => True
  | .ub => False

theorem callOk_ite {b : Prop} [Decidable b] {x y : Call} (hx : b → CallOk x) (hy : ¬ b → CallOk y) : CallOk (if b then x else y) := by
  by_cases hb : b
  · rw [if_pos hb]; exact hx hb
  · rw [if_neg hb]; exact hy hb

theorem back_ok {c : Chan} {p : Ph} (h : PhOk c p) : CallOk (back c p) := callOk_ite (fun _ => h) (fun _ => True.intro)

theorem named_frame (k : Nat) (err : Ret) (c : Chan) (s : Nm) :
    (nameStep k err c s).1.gh = c.gh ∧ (nameStep k err c s).1.out = c.out ∧ (nameStep k err c s).1.pkt = c.pkt := by
  have ite : ∀ {b : Prop} [Decidable b] {x y : Chan × Named}, (x.1.gh = c.gh ∧ x.1.out = c.out ∧ x.1.pkt = c.pkt) →
      (y.1.gh = c.gh ∧ y.1.out = c.out ∧ y.1.pkt = c.pkt) →
      ((if b then x else y).1.gh = c.gh ∧ (if b then x else y).1.out = c.out ∧ (if b then x else y).1.pkt = c.pkt) := by
    intro b _ x y hx hy
    by_cases hb : b
    · rw [if_pos hb]; exact hx
    · rw [if_neg hb]; exact hy
  have nh : ∀ (c' : Chan) (g : Bytes), (c'.gh = c.gh ∧ c'.out = c.out ∧ c'.pkt = c.pkt) →
      ((noHeader c' g).1.gh = c.gh ∧ (noHeader c' g).1.out = c.out ∧ (noHeader c' g).1.pkt = c.pkt) := by
    intro c' g h
    refine ite h ?_
    by_cases he : c'.err = none
    · rw [if_pos he]; exact h
    · rw [if_neg he]; exact h
  cases s with
  | head got =>
    simp only [nameStep]
    have hs := Same.head k err c got
    have hq := Quiet.head k err c got
    generalize getHeader k err c got = r at hs hq ⊢
    obtain ⟨c', hd⟩ := r
    have h : c'.gh = c.gh ∧ c'.out = c.out ∧ c'.pkt = c.pkt := ⟨hs.1, hq.1, hq.2⟩
    cases hd with
    | short g => exact nh c' g h
    | bad z => exact nh c' [] h
    | ok type id sz => exact ite h (ite h (ite h (ite h h)))
  | status sz got =>
    simp only [nameStep]
    refine ite ?_ ⟨rfl, rfl, rfl⟩
    cases doStatus (bufRead sz k err c got).2.2 with
    | ub => exact ⟨rfl, rfl, rfl⟩
    | err e i => exact ⟨rfl, rfl, rfl⟩
    | ok code i =>
      show (if _ then _ else _ : Chan).gh = c.gh ∧ (if _ then _ else _ : Chan).out = c.out ∧ (if _ then _ else _ : Chan).pkt = c.pkt
      by_cases he : code = FTP_OK
      · rw [if_pos he]; exact ⟨rfl, rfl, rfl⟩
      · rw [if_neg he]; exact ⟨rfl, rfl, rfl⟩
  | body sz got =>
    simp only [nameStep]
    refine ite ?_ ⟨rfl, rfl, rfl⟩
    unfold takeNames
    split
    · exact ⟨rfl, rfl, rfl⟩
    · exact ⟨rfl, rfl, rfl⟩
    · split <;> exact ⟨rfl, rfl, rfl⟩

theorem step_ok (dir : Bytes) (s : Call) (ev : Ev) (h : CallOk s) : CallOk (step dir s ev) := by
  match s, h with
  | .done _ _, _ => exact True.intro
  | .at c .realSend, h =>
    cases ev <;> try exact h
    case send res err p =>
      have hg := (Same.type res err 16 dir c).1
      simp only [step]
      generalize sendType res err 16 dir c = r at hg ⊢
      obtain ⟨c', o⟩ := r
      have hg2 : c'.gh = none := hg.trans h
      match o with
      | none => exact hg2
      | some true => exact ⟨Nat.zero_le _, hg2⟩
      | some false => exact back_ok hg2
  | .at c (.realName n), h =>
    cases ev <;> try exact h
    case read k err =>
      have h1 := nameStep_safe k err c n h.1
      have hg := (named_frame k err c n).1
      simp only [step]
      generalize nameStep k err c n = r at h1 hg ⊢
      obtain ⟨c', o⟩ := r
      have hg2 : c'.gh = none := hg.trans h.2
      match o, h1 with
      | .more s, h1 => exact ⟨h1, hg2⟩
      | .null s, h1 => exact callOk_ite (fun _ => ⟨h1, hg2⟩) (fun _ => True.intro)
      | .names [], _ => exact True.intro
      | .names (e :: _), _ => exact hg2
  | .at c (.opendir name), h =>
    simp only [step]
    refine callOk_ite (fun _ => back_ok h) (fun _ => ?_)
    cases ev <;> try exact h
    case send res err p =>
      have hg := (Same.type res err 11 name c).1
      simp only
      generalize sendType res err 11 name c = r at hg ⊢
      obtain ⟨c', o⟩ := r
      have hg2 : c'.gh = none := hg.trans h
      match o with
      | none => exact hg2
      | some true => 
        refine ⟨HdOk.fresh, ?_⟩
        rw [hg2]; exact Nat.zero_le _
      | some false => exact back_ok hg2
  | .at c (.handle hd), h =>
    cases ev <;> try exact h
    case read k err =>
      have h1 := ghStep_safe k err c hd _ h.1 h.2
      simp only [step]
      generalize ghStep k err c hd (c.gh.getD (.head [])) = r at h1 ⊢
      obtain ⟨c', hd', o⟩ := r
      obtain ⟨hh, hs⟩ := h1
      match o, hs with
      | .more g, hs => exact ⟨hh, hs⟩
      | .again g, hs => exact back_ok ⟨hh, hs⟩
      | .ret (some _), _ => exact True.intro
      | .ret none, _ => exact back_ok ⟨hh, Nat.zero_le _⟩
      | .ub, hs => exact hs
  | .at c (.dirSend hd acc), h =>
    cases ev <;> try exact h
    case send res err p =>
      simp only [step]
      generalize sendType res err 12 hd.handle c = r
      obtain ⟨c', o⟩ := r
      match o with
      | none => exact True.intro
      | some true => exact Nat.zero_le _
      | some false => exact callOk_ite (fun _ => True.intro) (fun _ => True.intro)
  | .at c (.dirName hd acc n), h =>
    cases ev <;> try exact h
    case read k err =>
      have h1 := nameStep_safe k err c n h
      simp only [step]
      generalize nameStep k err c n = r at h1 ⊢
      obtain ⟨c', o⟩ := r
      match o, h1 with
      | .more s, h1 => exact h1
      | .null s, h1 => exact callOk_ite (fun _ => h1) (fun _ => True.intro)
      | .names l, _ => exact True.intro
  | .at c (.close hd acc s), h =>
    have h1 := closeStep_safe hd.handle ev c s h
    simp only [step]
    generalize closeStep hd.handle ev c s = r at h1 ⊢
    obtain ⟨c', o⟩ := r
    match o, h1 with
    | .more g, hs => exact hs
    | .again g, hs => exact back_ok hs
    | .ret (some _), _ => exact True.intro
    | .ret none, _ => exact back_ok True.intro
    | .ub, hs => exact hs

theorem run_ok (dir : Bytes) (c : Chan) (evs : List Ev) (h : c.gh = none) : run dir c evs ≠ .ub := by
  have : ∀ (evs : List Ev) (s : Call), CallOk s → CallOk (evs.foldl (step dir) s) := by
    intro evs
    induction evs with
    | nil => intro s hs; exact hs
    | cons e t ih => intro s hs; exact ih _ (step_ok dir s e hs)
  have := this evs (.at c .realSend) h
  intro hu
  unfold run at hu
  rw [hu] at this
  exact this

end Proofs.SftpLs
