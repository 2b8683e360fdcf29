import Verif.Proofs.SftpPut
import Verif.Proofs.SftpDecode
namespace Proofs.SftpClient
open Wolf Wolf.Wire Wolf.Sftp Wolf.SftpClient Proofs.SftpLoop
open Wolf.Path (addAssign64)
open Spec.Wire Spec.Sftp Spec.SftpClient

/-! ## Where a fetch reads, and what becomes of the local file -/

/-- The local file a fetch starts from. -/
def baseFile (A : Args) (tab : List Slot) (file : Bytes) : Bytes := if start A tab = 0 then [] else file

/-- The offsets saved once a fetch has looked its own up. -/
def restTab (A : Args) (tab : List Slot) : List Slot := if A.resume then (getOfst A.src A.dst tab).2 else tab

def At (o0 : Nat) (b : Bytes) (g : Get) (w : Bytes) : Prop := g.file = b ++ w ∧ val g.ofst = (o0 + w.length) % 2 ^ 64

/-- A read request on its way: whole, so far as it is sent. -/
def RdSent (h : Bytes) (o : Nat × Nat) (c : Chan) : Rd → Prop
  | .send buf idx => ∃ id out, buf = readPacket id h o MAX_RW ∧ idx ≤ buf.length ∧ c.out = out ++ buf.take idx
  | _ => True

def GetPhInv (A : Args) (file0 : Bytes) (tab0 : List Slot) (g : Get) : GetPh → Prop
  | .stat _ => g.file = file0 ∧ g.ofst = (0, 0) ∧ g.tab = tab0
  | .open _ => g.file = file0 ∧ g.ofst = (0, 0) ∧ g.tab = tab0
  | .local => g.file = file0 ∧ val g.ofst = start A tab0 ∧ g.tab = restTab A tab0
  | .read r => (∃ w, At (start A tab0) (baseFile A tab0 file0) g w) ∧ g.tab = restTab A tab0 ∧ RdSent g.h.handle g.ofst g.c r
  | .write _ => (∃ w, At (start A tab0) (baseFile A tab0 file0) g w) ∧ g.tab = restTab A tab0
  | .close _ => (∃ w, At (start A tab0) (baseFile A tab0 file0) g w) ∧
      (g.tab = restTab A tab0 ∨ g.tab = (saveOfst A.src A.dst g.ofst (restTab A tab0)).1)
  | .done true => (∃ w, At (start A tab0) (baseFile A tab0 file0) g w) ∧
      (g.tab = restTab A tab0 ∨ g.tab = (saveOfst A.src A.dst g.ofst (restTab A tab0)).1)
  | .done false => g.file = file0 ∨ ∃ w, g.file = baseFile A tab0 file0 ++ w
  | .ub => True

structure GetInv (A : Args) (file0 : Bytes) (tab0 : List Slot) (g : Get) : Prop where
  lo : g.ofst.1 < 2 ^ 32
  hi : g.ofst.2 < 2 ^ 32
  ph : GetPhInv A file0 tab0 g g.ph

variable {A : Args} {file0 : Bytes} {tab0 : List Slot}

theorem freshRead_inv {g : Get} {w : Bytes} (h1 : g.ofst.1 < 2 ^ 32) (h2 : g.ofst.2 < 2 ^ 32) (ha : At (start A tab0) (baseFile A tab0 file0) g w)
    (ht : g.tab = restTab A tab0) : GetInv A file0 tab0 { g with ph := freshRead g } :=
  ⟨h1, h2, ⟨w, ha⟩, ht, g.c.reqId, g.c.out, rfl, Nat.zero_le _, by simp⟩

theorem getStat_inv {g : Get} {c : Chan} (o : Out Stat Nat) (h1 : g.ofst.1 < 2 ^ 32) (h2 : g.ofst.2 < 2 ^ 32)
    (h : g.file = file0 ∧ g.ofst = (0, 0) ∧ g.tab = tab0) : GetInv A file0 tab0 (getStat A g c o) := by
  match o with
  | .more s => exact ⟨h1, h2, h⟩
  | .again s =>
    simp only [getStat]
    by_cases hn : notice c.err = true
    · rw [if_pos hn]; exact ⟨h1, h2, h⟩
    · rw [if_neg hn]; exact ⟨h1, h2, .inl h.1⟩
  | .ret none =>
    simp only [getStat]
    by_cases hn : notice c.err = true
    · rw [if_pos hn]; exact ⟨h1, h2, h⟩
    · rw [if_neg hn]; exact ⟨h1, h2, .inl h.1⟩
  | .ret (some per) =>
    simp only [getStat]
    by_cases hn : per &&& 0o770000 ≠ 0o100000 ∧ per &&& 0o770000 ≠ 0o120000
    · rw [if_pos hn]; exact ⟨h1, h2, .inl h.1⟩
    · rw [if_neg hn]; exact ⟨h1, h2, h⟩
  | .ub => exact ⟨h1, h2, True.intro⟩

theorem start_ok (htab : TabOk tab0) : ∃ o : Nat × Nat, (if A.resume then getOfst A.src A.dst tab0 else ((0, 0), tab0)) = (o, restTab A tab0) ∧
    o.1 < 2 ^ 32 ∧ o.2 < 2 ^ 32 ∧ val o = start A tab0 := by
  unfold restTab start
  by_cases hr : A.resume = true
  · rw [if_pos hr, if_pos hr, if_pos hr]
    exact ⟨_, rfl, (getOfst_ok htab).1, (getOfst_ok htab).2, rfl⟩
  · rw [if_neg hr, if_neg hr, if_neg hr]
    exact ⟨_, rfl, Nat.two_pow_pos 32, Nat.two_pow_pos 32, rfl⟩

theorem getOpen_inv {g : Get} {c : Chan} {h : Hd} (o : Out Open Unit) (htab : TabOk tab0) (h1 : g.ofst.1 < 2 ^ 32) (h2 : g.ofst.2 < 2 ^ 32)
    (hh : g.file = file0 ∧ g.ofst = (0, 0) ∧ g.tab = tab0) : GetInv A file0 tab0 (getOpen A g c h o) := by
  match o with
  | .more s => exact ⟨h1, h2, hh⟩
  | .again s =>
    simp only [getOpen]
    by_cases hn : notice c.err = true
    · rw [if_pos hn]; exact ⟨h1, h2, hh⟩
    · rw [if_neg hn]; exact ⟨h1, h2, .inl hh.1⟩
  | .ret none =>
    simp only [getOpen]
    by_cases hn : notice c.err = true
    · rw [if_pos hn]; exact ⟨h1, h2, hh⟩
    · rw [if_neg hn]; exact ⟨h1, h2, .inl hh.1⟩
  | .ret (some _) =>
    simp only [getOpen, hh.2.1, hh.2.2]
    obtain ⟨o, he, g1, g2, g3⟩ := start_ok (A := A) htab
    rw [he]
    exact ⟨g1, g2, hh.1, g3, rfl⟩
  | .ub => exact ⟨h1, h2, True.intro⟩

def RdRes (h : Bytes) (o : Nat × Nat) : Chan × Out Rd Bytes → Prop
  | (c, .more r) => RdSent h o c r
  | (c, .again r) => RdSent h o c r
  | _ => True

theorem rdRes_ite {h : Bytes} {o : Nat × Nat} {b : Prop} [Decidable b] {x y : Chan × Out Rd Bytes} (hx : b → RdRes h o x) (hy : ¬ b → RdRes h o y) :
    RdRes h o (if b then x else y) := by
  by_cases hb : b
  · rw [if_pos hb]; exact hx hb
  · rw [if_neg hb]; exact hy hb

theorem rdStep_sent (h : Bytes) (o : Nat × Nat) (ev : Ev) (c : Chan) (r : Rd) (hs : RdSent h o c r) : RdRes h o (rdStep MAX_RW ev c r) := by
  cases r with
  | send buf idx =>
    obtain ⟨id, out, h1, h2, h3⟩ := hs
    cases ev <;> try exact ⟨id, out, h1, h2, h3⟩
    case send res err p =>
      cases res with
      | error e => exact rdRes_ite (fun _ => ⟨id, out, h1, h2, h3⟩) (fun _ => True.intro)
      | ok k =>
        have he := sendSome_out k err c buf idx out h2 h3
        exact rdRes_ite (fun _ => ⟨id, out, h1, he.2, he.1⟩) (fun _ => True.intro)
  | head got =>
    cases ev <;> try exact True.intro
    simp only [rdStep]
    generalize getHeader _ _ _ _ = q
    obtain ⟨c', hd⟩ := q
    cases hd
    · exact rdRes_ite (fun _ => True.intro) (fun _ => True.intro)
    · exact rdRes_ite (fun _ => True.intro) (fun _ => True.intro)
    · simp only [rdCheck]
      exact rdRes_ite (fun _ => True.intro) (fun _ => rdRes_ite (fun _ => True.intro) (fun _ => rdRes_ite (fun _ => True.intro) (fun _ => True.intro)))
  | flat =>
    cases ev <;> try exact True.intro
    case stream res err junk =>
      cases res with
      | error e => exact rdRes_ite (fun _ => True.intro) (fun _ => True.intro)
      | ok k =>
        simp only [rdStep, rdFlat]
        split
        · split <;> exact True.intro
        · exact True.intro
  | rest left got =>
    cases ev <;> try exact True.intro
    case stream res err junk =>
      cases res with
      | error e => exact rdRes_ite (fun _ => True.intro) (fun _ => True.intro)
      | ok k =>
        refine rdRes_ite (fun _ => rdRes_ite (fun _ => True.intro) (fun _ => True.intro)) (fun _ => rdRes_ite (fun _ => True.intro) fun _ => ?_)
        split <;> exact True.intro
  | status sz got =>
    cases ev <;> try exact True.intro
    refine rdRes_ite (fun _ => ?_) (fun _ => rdRes_ite (fun _ => True.intro) (fun _ => True.intro))
    split
    · split <;> exact True.intro
    · exact True.intro
    · exact True.intro

theorem getRead_inv {g : Get} {r : Chan × Out Rd Bytes} {w : Bytes} (h1 : g.ofst.1 < 2 ^ 32) (h2 : g.ofst.2 < 2 ^ 32)
    (ha : At (start A tab0) (baseFile A tab0 file0) g w) (ht : g.tab = restTab A tab0) (hr : RdRes g.h.handle g.ofst r) :
    GetInv A file0 tab0 (getRead g r.1 r.2) := by
  obtain ⟨c, o⟩ := r
  match o with
  | .more s => exact ⟨h1, h2, ⟨w, ha⟩, ht, hr⟩
  | .again s =>
    simp only [getRead]
    by_cases hn : notice c.err = true
    · rw [if_pos hn]
      refine ⟨h1, h2, ⟨w, ha⟩, ht, ?_⟩
      cases s <;> exact hr
    · rw [if_neg hn]; exact ⟨h1, h2, .inr ⟨w, ha.1⟩⟩
  | .ret none =>
    simp only [getRead]
    by_cases hn : notice c.err = true
    · rw [if_pos hn]; exact freshRead_inv (g := { g with c := recall c }) h1 h2 ha ht
    · rw [if_neg hn]; exact ⟨h1, h2, .inr ⟨w, ha.1⟩⟩
  | .ret (some d) => exact ⟨h1, h2, ⟨w, ha⟩, ht⟩
  | .ub => exact ⟨h1, h2, True.intro⟩

theorem getWrite_inv {g : Get} {n : Nat} {d w : Bytes} (hd : d.length ≤ MAX_RW) (h1 : g.ofst.1 < 2 ^ 32) (h2 : g.ofst.2 < 2 ^ 32)
    (ha : At (start A tab0) (baseFile A tab0 file0) g w) (ht : g.tab = restTab A tab0) :
    GetInv A file0 tab0 (getWrite A g n d) := by
  unfold getWrite
  simp only
  have hm : MAX_RW = 32768 := rfl
  obtain ⟨hv, hlo, hhi⟩ := val_add g.ofst d.length h1 h2 (by omega)
  by_cases h3 : n < d.length
  · rw [if_pos h3]
    exact ⟨h1, h2, .inr ⟨w ++ d.take n, by show g.file ++ _ = _; rw [ha.1]; simp⟩⟩
  · rw [if_neg h3]
    rw [List.take_of_length_le (by omega)]
    have ha' : ∀ c t, At (start A tab0) (baseFile A tab0 file0)
        { g with c := c, tab := t, file := g.file ++ d, ofst := addAssign64 g.ofst d.length } (w ++ d) := by
      intro c t
      refine ⟨by show g.file ++ d = _; rw [ha.1]; simp, ?_⟩
      show val (addAssign64 g.ofst d.length) = _
      rw [hv, ha.2]
      simp only [List.length_append]
      omega
    by_cases h4 : 0 < d.length ∧ g.c.int = false
    · rw [if_pos h4]
      exact freshRead_inv hlo hhi (ha' g.c g.tab) ht
    · rw [if_neg h4]
      have htt : (if g.c.int = true then (saveOfst A.src A.dst (addAssign64 g.ofst d.length) g.tab).1 else g.tab) = restTab A tab0 ∨
          (if g.c.int = true then (saveOfst A.src A.dst (addAssign64 g.ofst d.length) g.tab).1 else g.tab) =
            (saveOfst A.src A.dst (addAssign64 g.ofst d.length) (restTab A tab0)).1 := by
        by_cases hi : g.c.int = true
        · rw [if_pos hi, ht]; exact .inr rfl
        · rw [if_neg hi, ht]; exact .inl rfl
      by_cases h5 : 0 < g.h.cap
      · rw [if_pos h5]; exact ⟨hlo, hhi, ⟨_, ha' g.c g.tab⟩, htt⟩
      · rw [if_neg h5]; exact ⟨hlo, hhi, ⟨_, ha' g.c g.tab⟩, htt⟩

theorem getClose_inv {g : Get} {c : Chan} {w : Bytes} (o : Out Close Unit) (h1 : g.ofst.1 < 2 ^ 32) (h2 : g.ofst.2 < 2 ^ 32)
    (ha : At (start A tab0) (baseFile A tab0 file0) g w)
    (ht : g.tab = restTab A tab0 ∨ g.tab = (saveOfst A.src A.dst g.ofst (restTab A tab0)).1) : GetInv A file0 tab0 (getClose g c o) := by
  match o with
  | .more s => exact ⟨h1, h2, ⟨w, ha⟩, ht⟩
  | .again s =>
    simp only [getClose]
    by_cases hn : want c.err = true
    · rw [if_pos hn]; exact ⟨h1, h2, ⟨w, ha⟩, ht⟩
    · rw [if_neg hn]; exact ⟨h1, h2, .inr ⟨w, ha.1⟩⟩
  | .ret none =>
    simp only [getClose]
    by_cases hn : want c.err = true
    · rw [if_pos hn]; exact ⟨h1, h2, ⟨w, ha⟩, ht⟩
    · rw [if_neg hn]; exact ⟨h1, h2, .inr ⟨w, ha.1⟩⟩
  | .ret (some d) => exact ⟨h1, h2, ⟨w, ha⟩, ht⟩
  | .ub => exact ⟨h1, h2, True.intro⟩

theorem val_zero {o : Nat × Nat} : val o = 0 ↔ ¬ (0 < o.1 ∨ 0 < o.2) := by
  unfold val; omega

theorem start_lt (htab : TabOk tab0) : start A tab0 < 2 ^ 64 := by
  obtain ⟨o, _, h1, h2, h3⟩ := start_ok (A := A) htab
  rw [← h3]; unfold val; omega

theorem getStep_inv {g : Get} (ev : Ev) (htab : TabOk tab0) (hok : GetOk g) (hg : GetInv A file0 tab0 g) : GetInv A file0 tab0 (getStep A g ev) := by
  obtain ⟨h1, h2, hp⟩ := hg
  unfold getStep
  by_cases hi : ev.interrupts = true
  · rw [if_pos hi]
    refine ⟨h1, h2, ?_⟩
    show GetPhInv A file0 tab0 _ g.ph
    generalize g.ph = ph at hp ⊢
    cases ph with
    | read r => obtain ⟨a, b, c⟩ := hp; refine ⟨a, b, ?_⟩; cases r <;> exact c
    | done b => cases b <;> exact hp
    | _ => exact hp
  · rw [if_neg hi]
    cases hph : g.ph with
    | stat s => rw [hph] at hp; exact getStat_inv _ h1 h2 hp
    | «open» o => rw [hph] at hp; exact getOpen_inv _ htab h1 h2 hp
    | «local» =>
      have hg' : GetInv A file0 tab0 g := ⟨h1, h2, hp⟩
      rw [hph] at hp
      obtain ⟨hf, hv, ht⟩ := hp
      cases ev <;> try exact hg'
      case «local» i f s =>
        cases f
        · exact ⟨h1, h2, .inl hf⟩
        · simp only
          refine freshRead_inv (g := { g with file := if 0 < g.ofst.1 ∨ 0 < g.ofst.2 then g.file else [], ph := .local }) (w := []) h1 h2 ⟨?_, ?_⟩ ht
          · show (if 0 < g.ofst.1 ∨ 0 < g.ofst.2 then g.file else []) = _
            rw [List.append_nil, baseFile]
            by_cases hz : 0 < g.ofst.1 ∨ 0 < g.ofst.2
            · rw [if_pos hz, if_neg (by rw [← hv, val_zero]; exact fun h => h hz), hf]
            · rw [if_neg hz, if_pos (by rw [← hv, val_zero]; exact hz)]
          · show val g.ofst = _
            have := start_lt (A := A) htab
            rw [hv, List.length_nil, Nat.add_zero, Nat.mod_eq_of_lt this]
    | read r =>
      rw [hph] at hp
      obtain ⟨⟨w, ha⟩, ht, hs⟩ := hp
      exact getRead_inv h1 h2 ha ht (rdStep_sent _ _ ev g.c r hs)
    | write d =>
      have hg' : GetInv A file0 tab0 g := ⟨h1, h2, hp⟩
      have hok := hok.ph
      rw [hph] at hp hok
      obtain ⟨⟨w, ha⟩, ht⟩ := hp
      cases ev <;> try exact hg'
      case file n => exact getWrite_inv hok h1 h2 ha ht
    | close s =>
      rw [hph] at hp
      obtain ⟨⟨w, ha⟩, ht⟩ := hp
      exact getClose_inv _ h1 h2 ha ht
    | done b => exact ⟨h1, h2, hp⟩
    | ub => exact ⟨h1, h2, hp⟩

theorem getRun_inv (A : Args) (c : Chan) (file0 : Bytes) (tab0 : List Slot) (evs : List Ev) (hc : c.gh = none) (htab : TabOk tab0) :
    GetInv A file0 tab0 (getRun A (getStart c file0 tab0) evs) := by
  refine run_inv' _ _ _ evs ⟨Nat.two_pow_pos 32, Nat.two_pow_pos 32, rfl, rfl, rfl⟩ ?_
  intro pre ev post he hp
  exact getStep_inv ev htab (getRun_ok A c file0 tab0 pre hc) hp

/-! ## Saved offsets -/

/-- No offset is saved under these names. -/
def Free (src dst : Bytes) (tab : List Slot) : Prop := ∀ s ∈ tab, s.src = src → s.dst = dst → s.ofst = (0, 0)

theorem getOfst_free {src dst : Bytes} {tab : List Slot} (h : Free src dst tab) :
    (getOfst src dst tab).1 = (0, 0) ∧ Free src dst (getOfst src dst tab).2 := by
  induction tab with
  | nil => exact ⟨rfl, h⟩
  | cons s t ih =>
    have ht : Free src dst t := fun x hx => h x (List.mem_cons_of_mem _ hx)
    unfold getOfst
    by_cases hc : src.length = s.src.length ∧ src = s.src ∧ dst.length = s.dst.length ∧ dst = s.dst
    · rw [if_pos hc]
      refine ⟨h s (by simp) hc.2.1.symm hc.2.2.2.symm, ?_⟩
      intro x hx
      rcases List.mem_cons.1 hx with hx | hx
      · intro _ _; rw [hx]
      · exact ht x hx
    · rw [if_neg hc]
      refine ⟨(ih ht).1, ?_⟩
      intro x hx
      rcases List.mem_cons.1 hx with hx | hx
      · rw [hx]; exact h s (by simp)
      · exact (ih ht).2 x hx

theorem saveOfst_cases {src dst : Bytes} {ofst : Nat × Nat} {tab : List Slot} (h : Free src dst tab) :
    ((saveOfst src dst ofst tab).2 = false ∧ (saveOfst src dst ofst tab).1 = tab) ∨
    ((saveOfst src dst ofst tab).2 = true ∧ (getOfst src dst (saveOfst src dst ofst tab).1).1 = ofst) := by
  induction tab with
  | nil => exact .inl ⟨rfl, rfl⟩
  | cons s t ih =>
    have ht : Free src dst t := fun x hx => h x (List.mem_cons_of_mem _ hx)
    unfold saveOfst
    by_cases hz : s.ofst.1 = 0 ∧ s.ofst.2 = 0
    · rw [if_pos hz]
      by_cases hl : 256 ≤ src.length ∨ 256 ≤ dst.length
      · rw [if_pos hl]; exact .inl ⟨rfl, rfl⟩
      · rw [if_neg hl]; exact .inr ⟨rfl, by unfold getOfst; rw [if_pos ⟨rfl, rfl, rfl, rfl⟩]⟩
    · rw [if_neg hz]
      rcases ih ht with ⟨h1, h2⟩ | ⟨h1, h2⟩
      · exact .inl ⟨h1, by simp only; rw [h2]⟩
      · refine .inr ⟨h1, ?_⟩
        simp only
        unfold getOfst
        rw [if_neg]
        · exact h2
        · intro hc
          exact hz (by rw [h s (by simp) hc.2.1.symm hc.2.2.2.symm]; exact ⟨rfl, rfl⟩)

theorem saveOfst_room {src dst : Bytes} {ofst : Nat × Nat} {tab : List Slot} (hs : src.length < 256) (hd : dst.length < 256)
    (h : ∃ s ∈ tab, s.ofst = (0, 0)) : (saveOfst src dst ofst tab).2 = true := by
  induction tab with
  | nil => obtain ⟨s, hs, _⟩ := h; cases hs
  | cons s t ih =>
    unfold saveOfst
    by_cases hz : s.ofst.1 = 0 ∧ s.ofst.2 = 0
    · rw [if_pos hz, if_neg (by omega)]
    · rw [if_neg hz]
      obtain ⟨x, hx, h0⟩ := h
      rcases List.mem_cons.1 hx with hx | hx
      · exact absurd (by rw [← hx, h0]; exact ⟨rfl, rfl⟩) hz
      · exact ih ⟨x, hx, h0⟩

theorem restTab_free (h : Free A.src A.dst tab0) : start A tab0 = 0 ∧ Free A.src A.dst (restTab A tab0) := by
  unfold start restTab
  by_cases hr : A.resume = true
  · rw [if_pos hr, if_pos hr, (getOfst_free h).1]; exact ⟨rfl, (getOfst_free h).2⟩
  · rw [if_neg hr, if_neg hr]; exact ⟨rfl, h⟩

theorem getOfst_tabOk {src dst : Bytes} {tab : List Slot} (h : TabOk tab) : TabOk (getOfst src dst tab).2 := by
  induction tab with
  | nil => exact h
  | cons s t ih =>
    have ht : TabOk t := fun x hx => h x (List.mem_cons_of_mem _ hx)
    unfold getOfst
    by_cases hc : src.length = s.src.length ∧ src = s.src ∧ dst.length = s.dst.length ∧ dst = s.dst
    · rw [if_pos hc]
      intro x hx
      rcases List.mem_cons.1 hx with hx | hx
      · rw [hx]; exact ⟨Nat.two_pow_pos 32, Nat.two_pow_pos 32⟩
      · exact ht x hx
    · rw [if_neg hc]
      intro x hx
      rcases List.mem_cons.1 hx with hx | hx
      · rw [hx]; exact h s (by simp)
      · exact ih ht x hx

theorem restTab_ok (h : TabOk tab0) : TabOk (restTab A tab0) := by
  unfold restTab
  by_cases hr : A.resume = true
  · rw [if_pos hr]; exact getOfst_tabOk h
  · rw [if_neg hr]; exact h

theorem saveOfst_tabOk {src dst : Bytes} {o : Nat × Nat} {tab : List Slot} (h : TabOk tab) (h1 : o.1 < 2 ^ 32) (h2 : o.2 < 2 ^ 32) :
    TabOk (saveOfst src dst o tab).1 := by
  induction tab with
  | nil => exact h
  | cons s t ih =>
    have ht : TabOk t := fun x hx => h x (List.mem_cons_of_mem _ hx)
    unfold saveOfst
    by_cases hz : s.ofst.1 = 0 ∧ s.ofst.2 = 0
    · rw [if_pos hz]
      by_cases hl : 256 ≤ src.length ∨ 256 ≤ dst.length
      · rw [if_pos hl]; exact h
      · rw [if_neg hl]
        intro x hx
        rcases List.mem_cons.1 hx with hx | hx
        · rw [hx]; exact ⟨h1, h2⟩
        · exact ht x hx
    · rw [if_neg hz]
      intro x hx
      rcases List.mem_cons.1 hx with hx | hx
      · rw [hx]; exact h s (by simp)
      · exact ih ht x hx

/-- What a fetch that has succeeded leaves to one that resumes it: nothing, or the place it got to. -/
theorem after_get {g : Get} (hg : GetInv A file0 tab0 g) (hd : g.ph = .done true) (htab : TabOk tab0) (hf : Free A.src A.dst tab0) :
    TabOk g.tab ∧ (start { A with resume := true } g.tab = 0 ∨ start { A with resume := true } g.tab = g.file.length % 2 ^ 64) := by
  obtain ⟨h1, h2, hp⟩ := hg
  rw [hd] at hp
  obtain ⟨⟨w, hw⟩, ht⟩ := hp
  obtain ⟨hs, hr⟩ := restTab_free hf
  have hb : baseFile A tab0 file0 = [] := by unfold baseFile; rw [if_pos hs]
  rcases ht with ht | ht
  · rw [ht]
    refine ⟨restTab_ok htab, .inl ?_⟩
    unfold start
    rw [if_pos rfl]
    show val (getOfst A.src A.dst (restTab A tab0)).1 = 0
    rw [(getOfst_free hr).1]; rfl
  · rw [ht]
    refine ⟨saveOfst_tabOk (restTab_ok htab) h1 h2, ?_⟩
    unfold start
    rw [if_pos rfl]
    show val (getOfst A.src A.dst _).1 = 0 ∨ val (getOfst A.src A.dst _).1 = _
    rcases saveOfst_cases (ofst := g.ofst) hr with ⟨_, e⟩ | ⟨_, e⟩
    · rw [e, (getOfst_free hr).1]; exact .inl rfl
    · rw [e, hw.2, hw.1, hs, hb]
      right
      simp

end Proofs.SftpClient
