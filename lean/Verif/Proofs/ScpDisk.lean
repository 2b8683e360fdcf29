import Verif.Model.ScpDisk
import Verif.Proofs.ScpPeer
/-!
# SCP: the default receive callback
-/

namespace Proofs.Scp
open Wolf Wolf.Scp Spec.Scp

theorem comps_plain : ∀ (n : Bytes), 47 ∉ n → comps n = [n]
  | [], _ => rfl
  | b :: bs, h => by
    have h1 : b ≠ 47 := fun e => h (by rw [e]; exact List.mem_cons_self)
    have h2 : 47 ∉ bs := fun e => h (List.mem_cons_of_mem _ e)
    rw [comps, if_neg h1, comps_plain bs h2]

theorem origin_plain (cwd : Place) (n : Bytes) (h : Plain n) : origin cwd n = cwd := by
  unfold origin
  rw [if_neg]
  intro e
  obtain ⟨_, _, _, h4, _⟩ := h
  cases n with
  | nil => simp at e
  | cons b bs => simp only [List.head?_cons, Option.some.injEq] at e; exact h4 (by rw [e]; exact List.mem_cons_self)

theorem dots_plain (n : Bytes) (h : Plain n) : isDots n = false := by
  obtain ⟨h1, h2, h3, _⟩ := h
  simp [isDots, h1, h2, h3]

theorem leaf_plain (fs : Fs) (cwd : Place) (n : Bytes) (h : Plain n) : leaf fs cwd n = some (cwd ++ [n]) := by
  unfold leaf
  rw [comps_plain n h.2.2.2.1, origin_plain cwd n h]
  simp [dots_plain n h, walk]

theorem chdir_plain (fs : Fs) (cwd : Place) (n : Bytes) (h : Plain n) (hl : isSymlink fs cwd n = false) (p : Place)
    (hp : chdir fs cwd n = some p) : p = cwd ++ [n] ∧ ∃ m, fs (cwd ++ [n]) = some (.dir m) := by
  have h' := h
  obtain ⟨h1, h2, h3, h4, _⟩ := h
  unfold isSymlink at hl
  rw [leaf_plain fs cwd n h'] at hl
  unfold chdir at hp
  rw [if_neg h1, comps_plain n h4, origin_plain cwd n h', walk, if_neg (by simp [h1, h2]), if_neg h3] at hp
  simp only [Option.bind_some] at hl
  cases hf : fs (cwd ++ [n]) with
  | none => rw [hf] at hp; simp at hp
  | some x =>
    rw [hf] at hp hl
    cases x with
    | dir m => simp only [walk, Option.some.injEq] at hp; exact ⟨hp.symm, m, rfl⟩
    | file _ _ => simp at hp
    | link to => simp at hl

theorem chdir_up (fs : Fs) (cwd : Place) : chdir fs cwd [46, 46] = some cwd.dropLast := by
  simp [chdir, comps, origin, walk]

theorem open_plain (fs : Fs) (cwd : Place) (n : Bytes) (h : Plain n) (hl : isSymlink fs cwd n = false) (p : Place)
    (hp : openWrite fs cwd n = some p) : p = cwd ++ [n] := by
  unfold isSymlink at hl
  unfold openWrite at hp
  rw [leaf_plain fs cwd n h] at hl hp
  simp only [Option.bind_some] at hl
  cases hf : fs (cwd ++ [n]) with
  | none => simp only [hf, Option.some.injEq] at hp; exact hp.symm
  | some x =>
    simp only [hf] at hp hl
    cases x with
    | dir m => simp at hp
    | file _ _ => simp only [Option.some.injEq] at hp; exact hp.symm
    | link to => simp at hl

theorem put_other (fs : Fs) (p q : Place) (n : Node) (h : q ≠ p) : fs.put p n q = fs q := by simp [Fs.put, h]
theorem put_same (fs : Fs) (p : Place) (n : Node) : fs.put p n p = some n := by simp [Fs.put]

theorem append_other (fs : Fs) (p q : Place) (bs : Bytes) (h : q ≠ p) : fs.append p bs q = fs q := by
  unfold Fs.append
  match fs p with
  | some (.file _ _) => exact put_other _ _ _ _ h
  | none | some (.dir _) | some (.link _) => rfl
theorem lose_other (fs : Fs) (p q : Place) (n : Nat) (h : q ≠ p) : fs.lose p n q = fs q := by
  unfold Fs.lose
  match fs p with
  | some (.file _ _) => exact put_other _ _ _ _ h
  | none | some (.dir _) | some (.link _) => rfl
theorem stamp_other (fs : Fs) (p q : Place) (m a : Nat) (h : q ≠ p) : fs.stamp p m a q = fs q := by
  unfold Fs.stamp
  match fs p with
  | some (.file _ _) => exact put_other _ _ _ _ h
  | none | some (.dir _) | some (.link _) => rfl

/-- The process is below `b` and knows how deep. -/
def Below (b : Place) (d : Disk) : Prop := ∃ ns, d.cwd = b ++ ns ∧ d.depth = ns.length

def DInv (b : Place) (ph : Phase) (d : Disk) : Prop :=
  Below b d ∧ d.bad = false ∧
  match ph with
  | .before => False
  | .idle => True
  | .inFile _ _ _ _ _ _ => ∃ p, d.fp = some p ∧ d.isOpen = true ∧ b <+: p

/-- What a call may do. -/
def DGood (b : Place) (ph : Phase) (d : Disk) (x : Disk × Cb) : Prop :=
  (∀ p, ¬ b <+: p → x.1.fs p = d.fs p) ∧ x.1.bad = false ∧ (x.2 = .abort ∨ (x.2 = .go ∧ DInv b ph x.1))

theorem good_abort {b ph d} (h : d.bad = false) : DGood b ph d (d, .abort) := ⟨fun _ _ => rfl, h, Or.inl rfl⟩

theorem ne_of_below {b p q : Place} (hp : b <+: p) (hq : ¬ b <+: q) : q ≠ p := fun e => hq (e ▸ hp)

theorem fileDone_good (b : Place) (d : Disk) (mt at_ : Nat) (i : DiskIn) (hB : Below b d) (hbad : d.bad = false) (p : Place)
    (hp : d.fp = some p) (ho : d.isOpen = true) (hb : b <+: p) : DGood b .idle d (fileDone d mt at_ i) := by
  unfold fileDone
  rw [hp]
  simp only [ho]
  rw [if_neg (by simp)]
  split
  · split
    · exact ⟨fun q hq => lose_other _ _ _ _ (ne_of_below hb hq), hbad, Or.inl rfl⟩
    · exact ⟨fun q hq => stamp_other _ _ _ _ _ (ne_of_below hb hq), hbad, Or.inr ⟨rfl, hB, hbad, trivial⟩⟩
  · exact ⟨fun q hq => lose_other _ _ _ _ (ne_of_below hb hq), hbad, Or.inr ⟨rfl, hB, hbad, trivial⟩⟩

theorem below_snoc {b cwd ns : Place} (n : Bytes) (h : cwd = b ++ ns) : b <+: cwd ++ [n] := by
  rw [h, List.append_assoc]; exact List.prefix_append _ _

theorem newDir_good (b : Place) (d : Disk) (n : Bytes) (mode : Nat) (i : DiskIn) (hB : Below b d) (hbad : d.bad = false)
    (hn : Plain n) : DGood b .idle d (newDir d n mode i) := by
  obtain ⟨ns, hc, hd⟩ := hB
  have hleaf := leaf_plain d.fs d.cwd n hn
  unfold newDir
  rw [if_neg hn.1]
  simp only []
  split
  · exact good_abort hbad
  · -- the state after mkdir
    have key : ∀ d1 : Disk, d1.cwd = d.cwd → d1.depth = d.depth → d1.bad = d.bad → (∀ p, ¬ b <+: p → d1.fs p = d.fs p) →
        DGood b .idle d (if isSymlink d1.fs d1.cwd n then (d1, .abort)
          else match chdir d1.fs d1.cwd n with
            | none => (d1, .abort)
            | some p => if i.ok2 = false then (d1, .abort) else ({ d1 with cwd := p, depth := d1.depth + 1 }, .go)) := by
      intro d1 e1 e2 e3 e4
      have ab : DGood b .idle d (d1, .abort) := ⟨e4, by rw [e3]; exact hbad, Or.inl rfl⟩
      by_cases hl : isSymlink d1.fs d1.cwd n = true
      · rw [if_pos hl]; exact ab
      · rw [if_neg hl]
        cases hcd : chdir d1.fs d1.cwd n with
        | none => exact ab
        | some p =>
          simp only []
          split
          · exact ab
          · refine ⟨e4, by rw [← hbad, ← e3], Or.inr ⟨rfl, ⟨ns ++ [n], ?_, ?_⟩, by rw [← hbad, ← e3], trivial⟩⟩
            · have := (chdir_plain d1.fs d1.cwd n hn (by simpa using hl) p hcd).1
              rw [this, e1, hc]; simp
            · simp [e2, hd]
    cases hr : mkdir d.fs d.cwd n with
    | made p =>
      refine key _ rfl rfl rfl ?_
      intro q hq
      refine put_other _ _ _ _ (ne_of_below (p := p) ?_ hq)
      unfold mkdir at hr
      rw [hleaf] at hr
      simp only [] at hr
      split at hr
      · cases hr
      · cases hr; exact below_snoc n hc
    | «exists» => exact key d rfl rfl rfl (fun _ _ => rfl)
    | failed => exact key d rfl rfl rfl (fun _ _ => rfl)

theorem recvCb_good (base : Bytes) (b : Place) (ph ph' : Phase) (d : Disk) (c : Call) (i : DiskIn) (h : DInv b ph d)
    (hf : follow ph c = some ph') (hn : ∀ n ∈ names [c], ∃ x, n = some x ∧ Plain x) : DGood b ph' d (recvCb base d c i) := by
  obtain ⟨hB, hbad, hph⟩ := h
  cases ph with
  | before => exact hph.elim
  | idle =>
    cases c with
    | request => simp [follow] at hf
    | part _ _ _ _ => simp [follow] at hf
    | fileDone _ _ _ _ _ => simp [follow] at hf
    | newFile n m mt at_ sz =>
      simp only [follow, Option.some.injEq] at hf
      subst hf
      obtain ⟨x, rfl, hx⟩ := hn n (by simp [names])
      simp only [recvCb]
      by_cases hl : isSymlink d.fs d.cwd x = true
      · rw [if_pos hl]; exact good_abort hbad
      · rw [if_neg hl]
        cases ho : openWrite d.fs d.cwd x with
        | none => exact good_abort hbad
        | some p =>
          simp only []
          split
          · exact good_abort hbad
          · have hp := open_plain d.fs d.cwd x hx (by simpa using hl) p ho
            obtain ⟨ns, hc, hd⟩ := hB
            have hbp : b <+: p := by rw [hp]; exact below_snoc x hc
            exact ⟨fun q hq => put_other _ _ _ _ (ne_of_below hbp hq), hbad, Or.inr ⟨rfl, ⟨ns, hc, hd⟩, hbad, p, rfl, rfl, hbp⟩⟩
    | newDir n m mt at_ =>
      simp only [follow, Option.some.injEq] at hf
      subst hf
      obtain ⟨x, rfl, hx⟩ := hn n (by simp [names])
      exact newDir_good b d x m i hB hbad hx
    | endDir =>
      simp only [follow, Option.some.injEq] at hf
      subst hf
      simp only [recvCb, chdir_up]
      by_cases h0 : d.depth = 0
      · rw [if_pos h0]; exact good_abort hbad
      · rw [if_neg h0]
        split
        · exact good_abort hbad
        · obtain ⟨ns, hc, hd⟩ := hB
          refine ⟨fun _ _ => rfl, hbad, Or.inr ⟨rfl, ⟨ns.dropLast, ?_, ?_⟩, hbad, trivial⟩⟩
          · have hne : ns ≠ [] := fun e => h0 (by rw [hd, e]; rfl)
            simp only [hc]; exact List.dropLast_append_of_ne_nil hne
          · simp [hd]
  | inFile n m mt at_ sz got =>
    obtain ⟨p, hp, ho, hb⟩ := hph
    cases c with
    | request => simp [follow] at hf
    | newFile _ _ _ _ _ => simp [follow] at hf
    | newDir _ _ _ _ => simp [follow] at hf
    | endDir => simp [follow] at hf
    | part n' sz' off bs =>
      simp only [follow] at hf
      split at hf
      · simp only [Option.some.injEq] at hf
        subst hf
        simp only [recvCb, hp, ho]
        rw [if_neg (by simp)]
        split
        · exact ⟨fun q hq => append_other _ _ _ _ (ne_of_below hb hq), hbad, Or.inl rfl⟩
        · exact ⟨fun q hq => append_other _ _ _ _ (ne_of_below hb hq), hbad, Or.inr ⟨rfl, hB, hbad, p, rfl, rfl, hb⟩⟩
      · cases hf
    | fileDone n' m' mt' at' sz' =>
      simp only [follow] at hf
      split at hf
      · simp only [Option.some.injEq] at hf
        subst hf
        exact fileDone_good b d _ _ i hB hbad p hp ho hb
      · cases hf

/-- After an abort there are no more calls. -/
def Final (os : List Out) : Prop := ∀ pre c post, os = pre ++ .call c .abort :: post → post = [] ∨ post = [.nak]

theorem Final.tail {o os} (h : Final (o :: os)) : Final os := fun pre c post e => h (o :: pre) c post (by rw [e]; rfl)

theorem names_cons (c : Call) (cs : List Call) : names (c :: cs) = names [c] ++ names cs := by
  cases c <;> rfl

theorem serve_nil (base : Bytes) (d : Disk) (os : List Out) (is : List DiskIn) (h : os = [] ∨ os = [.nak]) :
    serve base d os is = some (d, []) := by
  rcases h with h | h <;> subst h
  · cases is <;> rfl
  · cases is <;> rfl

theorem serve_confined (base : Bytes) (b : Place) : ∀ (os : List Out) (ph : Phase) (d : Disk) (is : List DiskIn) (d' : Disk)
    (l : List (Fs × Fs)), DInv b ph d → (∃ q, (calls os).foldlM follow ph = some q) →
    (∀ n ∈ names (calls os), ∃ x, n = some x ∧ Plain x) → Final os → serve base d os is = some (d', l) →
    d'.bad = false ∧ ∀ fg ∈ l, ∀ p, ¬ b <+: p → fg.2 p = fg.1 p
  | [], ph, d, is, d', l, hi, _, _, _, h => by
    simp only [serve, Option.some.injEq, Prod.mk.injEq] at h
    obtain ⟨rfl, rfl⟩ := h
    exact ⟨hi.2.1, by simp⟩
  | .ack :: os, ph, d, is, d', l, hi, hq, hn, hf, h => by
    rw [serve] at h; exact serve_confined base b os ph d is d' l hi hq hn hf.tail h
  | .nak :: os, ph, d, is, d', l, hi, hq, hn, hf, h => by
    rw [serve] at h; exact serve_confined base b os ph d is d' l hi hq hn hf.tail h
  | .conf :: os, ph, d, is, d', l, hi, hq, hn, hf, h => by
    rw [serve] at h; exact serve_confined base b os ph d is d' l hi hq hn hf.tail h
  | .call c r :: os, ph, d, [], d', l, hi, hq, hn, hf, h => by simp [serve] at h
  | .call c r :: os, ph, d, i :: is, d', l, hi, hq, hn, hf, h => by
    have hcalls : calls (.call c r :: os) = c :: calls os := rfl
    rw [hcalls, List.foldlM_cons] at hq
    rw [hcalls, names_cons] at hn
    obtain ⟨q, hq⟩ := hq
    cases hph : follow ph c with
    | none => rw [hph] at hq; simp at hq
    | some ph' =>
      rw [hph] at hq
      rw [serve] at h
      simp only [] at h
      have hi' : DInv b ph { d with fs := i.others d.fs } := hi
      obtain ⟨g1, g2, g3⟩ := recvCb_good base b ph ph' _ c i hi' hph (fun n hm => hn n (List.mem_append_left _ hm))
      split at h
      · next hr =>
        cases hs : serve base (recvCb base { d with fs := i.others d.fs } c i).1 os is with
        | none => rw [hs] at h; simp at h
        | some x =>
          rw [hs] at h
          simp only [Option.map_some, Option.some.injEq, Prod.mk.injEq] at h
          obtain ⟨rfl, rfl⟩ := h
          have hrest : x.1.bad = false ∧ ∀ fg ∈ x.2, ∀ p, ¬ b <+: p → fg.2 p = fg.1 p := by
            rcases g3 with g3 | ⟨g3, g4⟩
            · rw [serve_nil base _ os is (hf [] c os (by rw [← hr, g3]; rfl))] at hs
              simp only [Option.some.injEq] at hs
              rw [← hs]; exact ⟨g2, by simp⟩
            · exact serve_confined base b os ph' _ is x.1 x.2 g4 ⟨q, hq⟩ (fun n hm => hn n (List.mem_append_right _ hm)) hf.tail hs
          refine ⟨hrest.1, ?_⟩
          intro fg hfg
          rcases List.mem_cons.mp hfg with e | e
          · rw [e]; exact g1
          · exact hrest.2 fg e
      · cases h

/-- A whole transfer. -/
theorem transfer_confined (base : Bytes) : ∀ (os : List Out) (d : Disk) (i : DiskIn) (is : List DiskIn) (d' : Disk)
    (l : List (Fs × Fs)), d.bad = false → Orderly (calls os) → (∀ n ∈ names (calls os), ∃ x, n = some x ∧ Plain x) → Final os →
    serve base d os (i :: is) = some (d', l) →
    d'.bad = false ∧ ∀ fg ∈ l, ∀ p, (∀ b, chdir (i.others d.fs) d.cwd base = some b → ¬ b <+: p) → fg.2 p = fg.1 p
  | [], d, i, is, d', l, hb, _, _, _, h => by
    simp only [serve, Option.some.injEq, Prod.mk.injEq] at h
    obtain ⟨rfl, rfl⟩ := h
    exact ⟨hb, by simp⟩
  | .ack :: os, d, i, is, d', l, hb, hq, hn, hf, h => by
    rw [serve] at h; exact transfer_confined base os d i is d' l hb hq hn hf.tail h
  | .nak :: os, d, i, is, d', l, hb, hq, hn, hf, h => by
    rw [serve] at h; exact transfer_confined base os d i is d' l hb hq hn hf.tail h
  | .conf :: os, d, i, is, d', l, hb, hq, hn, hf, h => by
    rw [serve] at h; exact transfer_confined base os d i is d' l hb hq hn hf.tail h
  | .call c r :: os, d, i, is, d', l, hb, hq, hn, hf, h => by
    have hcalls : calls (.call c r :: os) = c :: calls os := rfl
    unfold Orderly at hq
    rw [hcalls, List.foldlM_cons] at hq
    rw [hcalls, names_cons] at hn
    obtain ⟨q, hq⟩ := hq
    cases c with
    | request =>
      simp only [follow, Option.bind_eq_bind, Option.bind_some] at hq
      rw [serve] at h
      simp only [] at h
      have hab : ∀ is', Cb.abort = r → serve base { d with fs := i.others d.fs } os is' = some ({ d with fs := i.others d.fs }, []) :=
        fun is' e => serve_nil base _ os is' (hf [] .request os (by rw [← e]; rfl))
      cases hcd : chdir (i.others d.fs) d.cwd base with
      | none =>
        simp only [recvCb, hcd] at h
        split at h
        · next hr =>
          rw [hab is hr] at h
          simp only [Option.map_some, Option.some.injEq, Prod.mk.injEq] at h
          obtain ⟨rfl, rfl⟩ := h
          refine ⟨hb, ?_⟩
          intro fg hfg p _
          rw [List.mem_singleton] at hfg
          rw [hfg]
        · cases h
      | some b =>
        simp only [recvCb, hcd] at h
        by_cases hok : i.ok = false
        · simp only [hok] at h
          rw [if_pos trivial] at h
          split at h
          · next hr =>
            rw [hab is hr] at h
            simp only [Option.map_some, Option.some.injEq, Prod.mk.injEq] at h
            obtain ⟨rfl, rfl⟩ := h
            refine ⟨hb, ?_⟩
            intro fg hfg p _
            rw [List.mem_singleton] at hfg
            rw [hfg]
          · cases h
        · rw [if_neg hok] at h
          split at h
          · next hr =>
            simp only [] at h
            cases hs : serve base { d with fs := i.others d.fs, cwd := b, depth := 0 } os is with
            | none => rw [hs] at h; simp at h
            | some x =>
              rw [hs] at h
              simp only [Option.map_some, Option.some.injEq, Prod.mk.injEq] at h
              obtain ⟨rfl, rfl⟩ := h
              have := serve_confined base b os .idle { d with fs := i.others d.fs, cwd := b, depth := 0 } is x.1 x.2 ⟨⟨[], by simp, rfl⟩, hb, trivial⟩ ⟨q, hq⟩
                (fun n hm => hn n (List.mem_append_right _ hm)) hf.tail hs
              refine ⟨this.1, ?_⟩
              intro fg hfg p hp
              rcases List.mem_cons.mp hfg with e | e
              · rw [e]
              · exact this.2 fg e p (hp b rfl)
          · cases h
    | newFile _ _ _ _ _ => simp [follow] at hq
    | part _ _ _ _ => simp [follow] at hq
    | fileDone _ _ _ _ _ => simp [follow] at hq
    | newDir _ _ _ _ => simp [follow] at hq
    | endDir => simp [follow] at hq

end Proofs.Scp
