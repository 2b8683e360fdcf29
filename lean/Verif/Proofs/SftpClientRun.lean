import Verif.Proofs.SftpClient
namespace Proofs.SftpClient
open Wolf Wolf.Wire Wolf.Sftp Wolf.SftpClient Proofs.SftpLoop
open Wolf.Path (addAssign64)
open Spec.Wire Spec.Sftp Spec.SftpClient

/-! ## Packets -/

theorem enc_mod (n : Nat) : encUint32 (n % 4294967296) = encUint32 n := by
  unfold encUint32
  have h1 : n % 4294967296 / 2 ^ 24 % 256 = n / 2 ^ 24 % 256 := by omega
  have h2 : n % 4294967296 / 2 ^ 16 % 256 = n / 2 ^ 16 % 256 := by omega
  have h3 : n % 4294967296 / 2 ^ 8 % 256 = n / 2 ^ 8 % 256 := by omega
  have h4 : n % 4294967296 % 256 = n % 256 := by omega
  rw [h1, h2, h3, h4]

theorem enc_add32 (a b : Nat) : encUint32 (add32 a b) = encUint32 (a + b) := enc_mod _

theorem enc_len (n : Nat) : (encUint32 n).length = 4 := rfl

theorem header_eq (type : Byte) (id len : Nat) : header type id len = encUint32 (len + 5) ++ (type :: encUint32 id) := by
  simp [header, c32toa_eq, enc_add32]

theorem request_eq (id : Nat) (r : Request) : r.packet id = encUint32 (r.body.length + 5) ++ (r.type :: encUint32 id) ++ r.body := by
  unfold Request.packet encString
  have : (r.type :: (encUint32 id ++ r.body)).length = r.body.length + 5 := by simp [enc_len]; omega
  rw [this]; simp

/-- The value of an offset, low word first. -/
def val (o : Nat × Nat) : Nat := o.2 * 2 ^ 32 + o.1

theorem val_add (o : Nat × Nat) (n : Nat) (h1 : o.1 < 2 ^ 32) (h2 : o.2 < 2 ^ 32) (hn : n < 2 ^ 32) :
    val (addAssign64 o n) = (val o + n) % 2 ^ 64 ∧ (addAssign64 o n).1 < 2 ^ 32 ∧ (addAssign64 o n).2 < 2 ^ 32 := by
  by_cases h : add32 o.1 n < o.1
  · have e : addAssign64 o n = (add32 o.1 n, add32 o.2 1) := by simp only [addAssign64]; rw [if_pos h]
    rw [e]
    simp only [val]
    unfold add32 at *
    omega
  · have e : addAssign64 o n = (add32 o.1 n, o.2) := by simp only [addAssign64]; rw [if_neg h]
    rw [e]
    simp only [val]
    unfold add32 at *
    omega

theorem enc64 (o : Nat × Nat) (h1 : o.1 < 2 ^ 32) : encUint32 o.2 ++ encUint32 o.1 = encUint64 (val o) := by
  unfold encUint64 val
  have e1 : (o.2 * 2 ^ 32 + o.1) / 2 ^ 32 = o.2 := by omega
  have e2 : (o.2 * 2 ^ 32 + o.1) % 2 ^ 32 = o.1 := by omega
  rw [e1, e2]

theorem enc64_len (n : Nat) : (encUint64 n).length = 8 := rfl

theorem readPacket_eq (id : Nat) (h : Bytes) (o : Nat × Nat) (n : Nat) (h1 : o.1 < 2 ^ 32) :
    readPacket id h o n = (Request.read h (val o) n).packet id := by
  rw [request_eq, readPacket, header_eq]
  have : (Request.read h (val o) n).body.length = h.length + 16 := by
    simp [Request.body, encString, enc_len, enc64_len]; omega
  rw [this]
  simp only [Request.type, Request.body, str, encString, c32toa_eq, ← enc64 o h1, List.append_assoc]

theorem writeHead_eq (id : Nat) (h : Bytes) (o : Nat × Nat) (d : Bytes) (h1 : o.1 < 2 ^ 32) :
    writeHead id h o d.length ++ d = (Request.write h (val o) d).packet id := by
  rw [request_eq, writeHead, header_eq]
  have : (Request.write h (val o) d).body.length = h.length + 16 + d.length := by
    simp [Request.body, encString, enc_len, enc64_len]; omega
  rw [this]
  simp only [Request.type, Request.body, str, encString, c32toa_eq, ← enc64 o h1, List.append_assoc]

theorem openPacket_eq (id : Nat) (p : Bytes) (f : Nat) : openPacket id p f = (Request.open p f).packet id := by
  rw [request_eq, openPacket, header_eq]
  have : (Request.open p f).body.length = p.length + 8 + 4 := by
    simp [Request.body, encString, enc_len, encAttrs, encField]; omega
  rw [this]
  simp [Request.type, Request.body, str, encString, c32toa_eq, encAttrs, Attrs.flags, encField]

theorem closePacket_eq (id : Nat) (h : Bytes) : typePacket 4 id h = (Request.close h).packet id := by
  rw [request_eq, typePacket, header_eq]
  have : (Request.close h).body.length = h.length + 4 := by simp [Request.body, encString, enc_len]; omega
  rw [this]
  have e : encUint32 (add32 h.length 4 + 5) = encUint32 (h.length + 4 + 5) := by
    unfold add32; rw [← enc_mod, ← enc_mod (h.length + 4 + 5)]; congr 1; omega
  rw [e]
  simp [Request.type, Request.body, str, encString, c32toa_eq]

theorem statPacket_eq (id : Nat) (h : Bytes) : typePacket 17 id h = (Request.stat h).packet id := by
  rw [request_eq, typePacket, header_eq]
  have : (Request.stat h).body.length = h.length + 4 := by simp [Request.body, encString, enc_len]; omega
  rw [this]
  have e : encUint32 (add32 h.length 4 + 5) = encUint32 (h.length + 4 + 5) := by
    unfold add32; rw [← enc_mod, ← enc_mod (h.length + 4 + 5)]; congr 1; omega
  rw [e]
  simp [Request.type, Request.body, str, encString, c32toa_eq]

/-! ## A run -/

theorem run_inv {σ : Type} (f : σ → Ev → σ) (P : σ → Prop) (s : σ) (evs : List Ev) (h0 : P s) (hs : ∀ s e, P s → P (f s e)) :
    P (evs.foldl f s) := by
  induction evs generalizing s with
  | nil => exact h0
  | cons e es ih => exact ih (f s e) (hs s e h0)

/-- The same, where a step is known by the events before it. -/
theorem run_inv' {σ : Type} (f : σ → Ev → σ) (P : σ → Prop) (s : σ) (evs : List Ev) (h0 : P s)
    (hs : ∀ pre e post, evs = pre ++ e :: post → P (pre.foldl f s) → P (f (pre.foldl f s) e)) : P (evs.foldl f s) := by
  suffices h : ∀ (rest pre : List Ev), evs = pre ++ rest → P (pre.foldl f s) → P (evs.foldl f s) from h evs [] rfl h0
  intro rest
  induction rest with
  | nil => intro pre he hp; rw [he, List.append_nil]; exact hp
  | cons e es ih =>
    intro pre he hp
    refine ih (pre ++ [e]) (by rw [he]; simp) ?_
    rw [List.foldl_append]
    exact hs pre e es he hp

/-! ## Safety of a fetch and of a store -/

def GetPhOk : GetPh → Prop
  | .stat s => StatOk s
  | .read r => RdOk MAX_RW r
  | .write d => d.length ≤ MAX_RW
  | .close s => ClOk s
  | .ub => False
  | _ => True

structure GetOk (g : Get) : Prop where
  c : ChanOk g.c
  h : HdOk g.h
  ph : GetPhOk g.ph

theorem ChanOk.recall {c : Chan} (h : ChanOk c) : ChanOk (recall c) := h

theorem getStat_ok {A : Args} {g : Get} {c : Chan} {o : Out Stat Nat} (hc : ChanOk c) (hh : HdOk g.h) (ho : Safe StatOk (fun _ => True) o) :
    GetOk (getStat A g c o) := by
  match o with
  | .more s => exact ⟨hc, hh, ho⟩
  | .again s =>
    simp only [getStat]
    by_cases hn : notice c.err = true
    · rw [if_pos hn]; exact ⟨hc, hh, ho⟩
    · rw [if_neg hn]; exact ⟨hc, hh, True.intro⟩
  | .ret none =>
    simp only [getStat]
    by_cases hn : notice c.err = true
    · rw [if_pos hn]; exact ⟨hc, hh, True.intro⟩
    · rw [if_neg hn]; exact ⟨hc, hh, True.intro⟩
  | .ret (some per) =>
    simp only [getStat]
    by_cases hn : per &&& 0o770000 ≠ 0o100000 ∧ per &&& 0o770000 ≠ 0o120000
    · rw [if_pos hn]; exact ⟨hc, hh, True.intro⟩
    · rw [if_neg hn]; exact ⟨hc, ⟨hh.1, Nat.le_refl _⟩, True.intro⟩
  | .ub => exact absurd ho (by simp [Safe])

theorem getOpen_ok {A : Args} {g : Get} {c : Chan} {h : Hd} {o : Out Open Unit} (hc : ChanOk c) (hh : HdOk h)
    (ho : Safe (fun _ => True) (fun _ => True) o) : GetOk (getOpen A g c h o) := by
  match o with
  | .more s => exact ⟨hc, hh, True.intro⟩
  | .again s =>
    simp only [getOpen]
    by_cases hn : notice c.err = true
    · rw [if_pos hn]; exact ⟨hc, hh, True.intro⟩
    · rw [if_neg hn]; exact ⟨hc, hh, True.intro⟩
  | .ret none =>
    simp only [getOpen]
    by_cases hn : notice c.err = true
    · rw [if_pos hn]; exact ⟨hc, hh, True.intro⟩
    · rw [if_neg hn]; exact ⟨hc, hh, True.intro⟩
  | .ret (some _) => exact ⟨hc, hh, True.intro⟩
  | .ub => exact absurd ho (by simp [Safe])

theorem getRead_ok {g : Get} {c : Chan} {o : Out Rd Bytes} (hc : ChanOk c) (hh : HdOk g.h)
    (ho : Safe (RdOk MAX_RW) (fun d => d.length ≤ MAX_RW) o) : GetOk (getRead g c o) := by
  match o with
  | .more s => exact ⟨hc, hh, ho⟩
  | .again s =>
    simp only [getRead]
    by_cases hn : notice c.err = true
    · rw [if_pos hn]; exact ⟨hc, hh, ho⟩
    · rw [if_neg hn]; exact ⟨hc, hh, True.intro⟩
  | .ret none =>
    simp only [getRead]
    by_cases hn : notice c.err = true
    · rw [if_pos hn]; exact ⟨hc, hh, True.intro⟩
    · rw [if_neg hn]; exact ⟨hc, hh, True.intro⟩
  | .ret (some d) => exact ⟨hc, hh, ho⟩
  | .ub => exact absurd ho (by simp [Safe])

theorem getClose_ok {g : Get} {c : Chan} {o : Out Close Unit} (hc : ChanOk c) (hh : HdOk g.h)
    (ho : Safe ClOk (fun _ => True) o) : GetOk (getClose g c o) := by
  match o with
  | .more s => exact ⟨hc, hh, ho⟩
  | .again s =>
    simp only [getClose]
    by_cases hn : want c.err = true
    · rw [if_pos hn]; exact ⟨hc, hh, ho⟩
    · rw [if_neg hn]; exact ⟨hc, hh, True.intro⟩
  | .ret none =>
    simp only [getClose]
    by_cases hn : want c.err = true
    · rw [if_pos hn]; exact ⟨hc, hh, True.intro⟩
    · rw [if_neg hn]; exact ⟨hc, hh, True.intro⟩
  | .ret (some d) => exact ⟨hc, hh, True.intro⟩
  | .ub => exact absurd ho (by simp [Safe])

theorem getWrite_ok {A : Args} {g : Get} {n : Nat} {d : Bytes} (hg : GetOk g) : GetOk (getWrite A g n d) := by
  unfold getWrite
  simp only
  by_cases h1 : n < d.length
  · rw [if_pos h1]; exact ⟨hg.c, hg.h, True.intro⟩
  · rw [if_neg h1]
    by_cases h2 : 0 < d.length ∧ g.c.int = false
    · rw [if_pos h2]; exact ⟨hg.c, hg.h, True.intro⟩
    · rw [if_neg h2]
      by_cases h3 : 0 < g.h.cap
      · rw [if_pos h3]; exact ⟨hg.c, hg.h, True.intro⟩
      · rw [if_neg h3]; exact ⟨hg.c, hg.h, True.intro⟩

theorem getStep_ok (A : Args) (g : Get) (ev : Ev) (hg : GetOk g) : GetOk (getStep A g ev) := by
  unfold getStep
  by_cases hi : ev.interrupts = true
  · rw [if_pos hi]; exact ⟨hg.c, hg.h, hg.ph⟩
  · rw [if_neg hi]
    have hp := hg.ph
    cases hph : g.ph with
    | stat s =>
      rw [hph] at hp
      exact getStat_ok (hg.c.same (Same.stat _ _ _ _)) hg.h (statStep_safe _ _ _ _ hp)
    | «open» o =>
      have := openStep_safe ev g.c g.h o hg.c hg.h
      exact getOpen_ok this.1 this.2.1 this.2.2
    | «local» =>
      cases ev <;> try exact hg
      case «local» i f s =>
        cases f
        · exact ⟨hg.c, hg.h, True.intro⟩
        · exact ⟨hg.c, hg.h, True.intro⟩
    | read r =>
      rw [hph] at hp
      exact getRead_ok (hg.c.same (rdStep_same _ _ _ _)) hg.h (rdStep_safe _ _ _ _ hp)
    | write d =>
      cases ev <;> try exact hg
      case file n => exact getWrite_ok hg
    | close s =>
      rw [hph] at hp
      exact getClose_ok (hg.c.same (closeStep_same _ _ _ _)) hg.h (closeStep_safe _ _ _ _ hp)
    | done b => exact hg
    | ub => exact hg

theorem getRun_ok (A : Args) (c : Chan) (file : Bytes) (tab : List Slot) (evs : List Ev) (hc : c.gh = none) :
    GetOk (getRun A (getStart c file tab) evs) :=
  run_inv _ GetOk _ evs ⟨(fun g h => by rw [show (getStart c file tab).c.gh = c.gh from rfl, hc] at h; cases h), HdOk.fresh, True.intro⟩
    (getStep_ok A)
/-- The request to open that is being sent names the remote file. -/
def Opens (A : Args) : GetPh → Prop
  | .open (.send buf _) => ∃ id, buf = openPacket id A.src 1
  | _ => True

def OpensOut (A : Args) : Out Open Unit → Prop
  | .more o => Opens A (.open o)
  | .again o => Opens A (.open o)
  | _ => True

theorem openStep_opens (A : Args) (ev : Ev) (c : Chan) (h : Hd) (o : Open) (ho : Opens A (.open o)) :
    OpensOut A (openStep ev c h o).2.2 := by
  cases o with
  | send buf idx =>
    simp only [openStep]
    split
    · split <;> first | exact ho | trivial
    · split <;> first | exact ho | trivial
    · exact ho
  | get =>
    simp only [openStep]
    split
    · simp only [openGet]
      split <;> try trivial
      · simp only []; split <;> trivial
      · simp only []; split <;> trivial
    · trivial

theorem getStep_opens (A : Args) (g : Get) (ev : Ev) (hg : Opens A g.ph) : Opens A (getStep A g ev).ph := by
  unfold getStep
  by_cases hi : ev.interrupts = true
  · rw [if_pos hi]; exact hg
  · rw [if_neg hi]
    cases hph : g.ph with
    | stat s =>
      simp only [getStat]
      split <;> first | trivial | (split <;> first | trivial | exact ⟨_, rfl⟩)
    | «open» o =>
      rw [hph] at hg
      have h := openStep_opens A ev g.c g.h o hg
      simp only [getOpen]
      revert h
      generalize (openStep ev g.c g.h o) = r
      obtain ⟨c, hd, r⟩ := r
      intro h
      cases r with
      | more o => exact h
      | again o => simp only []; split <;> first | exact h | trivial
      | ret x =>
        cases x with
        | none => simp only []; split <;> first | trivial | exact ⟨_, rfl⟩
        | some _ => trivial
      | ub => trivial
    | «local» =>
      simp only []
      split <;> first | trivial | (rw [hph]; trivial)
    | read r =>
      simp only [getRead]
      split <;> first | trivial | (split <;> trivial)
    | write d =>
      simp only []
      split
      · simp only [getWrite]
        split
        · trivial
        · split
          · trivial
          · split <;> trivial
      · rw [hph]; trivial
    | close s =>
      simp only [getClose]
      split <;> first | trivial | (split <;> trivial)
    | done b => rw [hph]; trivial
    | ub => rw [hph]; trivial

theorem getRun_opens (A : Args) (c : Chan) (file : Bytes) (tab : List Slot) (evs : List Ev) :
    Opens A (getRun A (getStart c file tab) evs).ph :=
  run_inv (getStep A) (fun g : Get => Opens A g.ph) _ evs (show True from True.intro) (getStep_opens A)

def PutPhOk : PutPh → Prop
  | .write w d => WrOk w ∧ d.length ≤ MAX_RW
  | .close s => ClOk s
  | .ub => False
  | _ => True

structure PutOk (p : Put) : Prop where
  c : ChanOk p.c
  h : HdOk p.h
  ph : PutPhOk p.ph

theorem putEnd_ok {A : Args} {p : Put} (hc : ChanOk p.c) (hh : HdOk p.h) : PutOk (putEnd A p) := by
  unfold putEnd
  simp only
  by_cases h3 : 0 < p.h.cap
  · rw [if_pos h3]; exact ⟨hc, hh, True.intro⟩
  · rw [if_neg h3]; exact ⟨hc, hh, True.intro⟩

theorem putOpen_ok {A : Args} {p : Put} {c : Chan} {h : Hd} {o : Out Open Unit} (hc : ChanOk c) (hh : HdOk h)
    (ho : Safe (fun _ => True) (fun _ => True) o) : PutOk (putOpen A p c h o) := by
  match o with
  | .more s => exact ⟨hc, hh, True.intro⟩
  | .again s =>
    simp only [putOpen]
    by_cases hn : want c.err = true
    · rw [if_pos hn]; exact ⟨hc, hh, True.intro⟩
    · rw [if_neg hn]; exact ⟨hc, hh, True.intro⟩
  | .ret none =>
    simp only [putOpen]
    by_cases hn : want c.err = true
    · rw [if_pos hn]; exact ⟨hc, hh, True.intro⟩
    · rw [if_neg hn]; exact ⟨hc, hh, True.intro⟩
  | .ret (some _) => exact ⟨hc, hh, True.intro⟩
  | .ub => exact absurd ho (by simp [Safe])

theorem putWrite_ok {A : Args} {p : Put} {c : Chan} {d : Bytes} {o : Out Wr Nat} (hc : ChanOk c) (hh : HdOk p.h)
    (hd : d.length ≤ MAX_RW) (ho : Safe WrOk (fun n => n = d.length) o) : PutOk (putWrite A p c d o) := by
  match o with
  | .more s => exact ⟨hc, hh, ho, hd⟩
  | .again s =>
    simp only [putWrite]
    by_cases hn : notice c.err = true
    · rw [if_pos hn]; exact ⟨hc, hh, ho, hd⟩
    · rw [if_neg hn]; exact putEnd_ok hc hh
  | .ret none =>
    simp only [putWrite]
    by_cases hn : notice c.err = true
    · rw [if_pos hn]; exact ⟨hc, hh, True.intro, hd⟩
    · rw [if_neg hn]; exact putEnd_ok hc hh
  | .ret (some n) =>
    simp only [putWrite]
    by_cases h1 : 0 < n ∧ c.int = false
    · rw [if_pos h1]
      by_cases h2 : (d.take (d.length - n)).length = 0
      · rw [if_pos h2]; exact ⟨hc, hh, True.intro⟩
      · rw [if_neg h2]
        refine ⟨hc, hh, True.intro, ?_⟩
        simp; omega
    · rw [if_neg h1]; exact putEnd_ok hc hh
  | .ub => exact absurd ho (by simp [Safe])

theorem putClose_ok {p : Put} {c : Chan} {o : Out Close Unit} (hc : ChanOk c) (hh : HdOk p.h)
    (ho : Safe ClOk (fun _ => True) o) : PutOk (putClose p c o) := by
  match o with
  | .more s => exact ⟨hc, hh, ho⟩
  | .again s =>
    simp only [putClose]
    by_cases hn : notice c.err = true
    · rw [if_pos hn]; exact ⟨hc, hh, ho⟩
    · rw [if_neg hn]; exact ⟨hc, hh, True.intro⟩
  | .ret none =>
    simp only [putClose]
    by_cases hn : notice c.err = true
    · rw [if_pos hn]; exact ⟨hc, hh, True.intro⟩
    · rw [if_neg hn]; exact ⟨hc, hh, True.intro⟩
  | .ret (some d) => exact ⟨hc, hh, True.intro⟩
  | .ub => exact absurd ho (by simp [Safe])

theorem putStep_ok (A : Args) (file : Bytes) (p : Put) (ev : Ev) (hp : PutOk p) : PutOk (putStep A file p ev) := by
  unfold putStep
  by_cases hi : ev.interrupts = true
  · rw [if_pos hi]; exact ⟨hp.c, hp.h, hp.ph⟩
  · rw [if_neg hi]
    have hh := hp.ph
    cases hph : p.ph with
    | «local» =>
      cases ev <;> try exact hp
      case «local» i f s =>
        simp only [putLocal]
        by_cases h1 : i = true ∨ ¬ f = true ∨ (A.resume = true ∧ ¬ s = true)
        · rw [if_pos h1]; exact ⟨hp.c, hp.h, True.intro⟩
        · rw [if_neg h1]; exact ⟨hp.c, hp.h, True.intro⟩
    | «open» o =>
      have := openStep_safe ev p.c p.h o hp.c hp.h
      exact putOpen_ok this.1 this.2.1 this.2.2
    | fill =>
      cases ev <;> try exact hp
      case file n =>
        simp only [putFill]
        by_cases h1 : ((file.drop p.pos).take (cmin n MAX_RW)).length = 0
        · rw [if_pos h1]; exact putEnd_ok hp.c hp.h
        · rw [if_neg h1]
          refine ⟨hp.c, hp.h, True.intro, ?_⟩
          rw [cmin_eq]; simp; omega
    | write w d =>
      rw [hph] at hh
      exact putWrite_ok (hp.c.same (wrStep_same _ _ _ _)) hp.h hh.2 (wrStep_safe _ _ _ _ hh.1)
    | close s =>
      rw [hph] at hh
      exact putClose_ok (hp.c.same (closeStep_same _ _ _ _)) hp.h (closeStep_safe _ _ _ _ hh)
    | done b => exact hp
    | ub => exact hp

theorem putRun_ok (A : Args) (file : Bytes) (c : Chan) (tab : List Slot) (evs : List Ev) (hc : c.gh = none) :
    PutOk (putRun A file (putStart c tab) evs) :=
  run_inv _ PutOk _ evs ⟨fun g h => by rw [show (putStart c tab).c.gh = c.gh from rfl, hc] at h; (cases h), HdOk.fresh, True.intro⟩
    (putStep_ok A file)

end Proofs.SftpClient
