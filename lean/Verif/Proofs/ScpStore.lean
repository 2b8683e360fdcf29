import Verif.Spec.ScpDisk
import Verif.Proofs.ScpDisk
/-!
# SCP: a copy is stored
-/

namespace Proofs.Scp
open Wolf Wolf.Scp Spec.Scp

/-- The same for what an application is given. -/
def gents (at_ : Place) : List Got → List (Place × Node)
  | [] => []
  | .file n _ mt a data :: is => (at_ ++ [n.getD []], .file data (Spec.Scp.stamp (some (mt, a)))) :: gents at_ is
  | .dir n mode _ _ :: is => (at_ ++ [n.getD []], .dir mode) :: gents (at_ ++ [n.getD []]) is
  | .endDir :: is => gents at_.dropLast is

theorem stamp_none (ts : Option (Nat × Nat)) :
    Spec.Scp.stamp (some ((ts.getD (0, 0)).1, (ts.getD (0, 0)).2)) = Spec.Scp.stamp ts := by
  cases ts with
  | none => rfl
  | some x => rfl

theorem gents_wanted : ∀ (is : List Item) (at_ : Place), gents at_ (is.map wanted) = entries at_ is
  | [], _ => rfl
  | .file ts m n d :: is, at_ => by
    simp only [List.map_cons, wanted, gents, entries, gents_wanted is, Option.getD_some]
    rw [stamp_none]
  | .dir ts m n :: is, at_ => by simp only [List.map_cons, wanted, gents, entries, gents_wanted is, Option.getD_some]
  | .endDir :: is, at_ => by simp only [List.map_cons, wanted, gents, entries, gents_wanted is]

def GNested : Nat → List Got → Prop
  | _, [] => True
  | k, .file _ _ _ _ _ :: is => GNested k is
  | k, .dir _ _ _ _ :: is => GNested (k + 1) is
  | 0, .endDir :: _ => False
  | k + 1, .endDir :: is => GNested k is

theorem gnested_wanted : ∀ (is : List Item) (k : Nat), Nested k is → GNested k (is.map wanted)
  | [], _, _ => trivial
  | .file _ _ _ _ :: is, k, h => gnested_wanted is k h
  | .dir _ _ _ :: is, k, h => gnested_wanted is (k + 1) h
  | .endDir :: _, 0, h => h
  | .endDir :: is, k + 1, h => gnested_wanted is k h

/-- The callback on calls that it answers with "go on". -/
def cbs (base : Bytes) : Disk → List Call → Option Disk
  | d, [] => some d
  | d, c :: cs => if (recvCb base d c {}).2 = .go then cbs base (recvCb base d c {}).1 cs else none

theorem serve_cbs (base : Bytes) : ∀ (os : List Out) (d d' : Disk), (∀ c r, Out.call c r ∈ os → r = .go) →
    cbs base d (calls os) = some d' → ∃ l, serve base d os (List.replicate (calls os).length {}) = some (d', l)
  | [], d, d', _, h => by
    simp only [calls, List.filterMap_nil, cbs, Option.some.injEq] at h
    exact ⟨[], by rw [← h]; rfl⟩
  | .ack :: os, d, d', hg, h => by
    obtain ⟨l, hl⟩ := serve_cbs base os d d' (fun c r hm => hg c r (List.mem_cons_of_mem _ hm)) h
    exact ⟨l, by rw [serve]; exact hl⟩
  | .nak :: os, d, d', hg, h => by
    obtain ⟨l, hl⟩ := serve_cbs base os d d' (fun c r hm => hg c r (List.mem_cons_of_mem _ hm)) h
    exact ⟨l, by rw [serve]; exact hl⟩
  | .conf :: os, d, d', hg, h => by
    obtain ⟨l, hl⟩ := serve_cbs base os d d' (fun c r hm => hg c r (List.mem_cons_of_mem _ hm)) h
    exact ⟨l, by rw [serve]; exact hl⟩
  | .call c r :: os, d, d', hg, h => by
    have hcalls : calls (.call c r :: os) = c :: calls os := rfl
    rw [hcalls, cbs] at h
    have hr : r = .go := hg c r List.mem_cons_self
    subst hr
    by_cases hgo : (recvCb base d c {}).2 = .go
    · rw [if_pos hgo] at h
      obtain ⟨l, hl⟩ := serve_cbs base os _ d' (fun c r hm => hg c r (List.mem_cons_of_mem _ hm)) h
      refine ⟨(d.fs, (recvCb base d c {}).1.fs) :: l, ?_⟩
      rw [hcalls, List.length_cons, List.replicate_succ, serve]
      simp only [id]
      rw [if_pos hgo, hl]
      rfl
    · rw [if_neg hgo] at h; cases h

def Ready (d : Disk) (acc : Bytes) : Phase → Prop
  | .before => False
  | .idle => True
  | .inFile n _ _ _ _ _ => ∃ x, n = some x ∧ d.fp = some (d.cwd ++ [x]) ∧ d.isOpen = true ∧
      d.fs (d.cwd ++ [x]) = some (.file acc none)

theorem given_file : ∀ (cs : List Call) (acc : Bytes) (n : Option Bytes) (m mt a sz got : Nat),
    cs.foldlM follow (.inFile n m mt a sz got) = some .idle → ∃ data rest, given acc cs = .file n m mt a data :: rest
  | [], _, _, _, _, _, _, _, h => by simp at h
  | c :: cs, acc, n, m, mt, a, sz, got, h => by
    rw [List.foldlM_cons] at h
    cases c with
    | part n' sz' off d =>
      simp only [follow] at h
      split at h
      · exact given_file cs (acc ++ d) n m mt a sz _ h
      · simp at h
    | fileDone n' m' mt' a' sz' =>
      simp only [follow] at h
      split at h
      · next e => obtain ⟨rfl, rfl, rfl, rfl, rfl, _⟩ := e; exact ⟨acc, given [] cs, rfl⟩
      · simp at h
    | request => simp [follow] at h
    | newFile _ _ _ _ _ => simp [follow] at h
    | newDir _ _ _ _ => simp [follow] at h
    | endDir => simp [follow] at h

theorem free_file_open (fs : Fs) (cwd : Place) (x : Bytes) (hx : Plain x) (data : Bytes) (t : Option (Nat × Nat))
    (h : Free (fs (cwd ++ [x])) (.file data t)) : isSymlink fs cwd x = false ∧ openWrite fs cwd x = some (cwd ++ [x]) := by
  unfold isSymlink openWrite
  rw [leaf_plain fs cwd x hx]
  simp only [Option.bind_some]
  cases hf : fs (cwd ++ [x]) with
  | none => exact ⟨rfl, rfl⟩
  | some y =>
    rw [hf] at h
    cases y with
    | dir _ => exact h.elim
    | file _ _ => exact ⟨rfl, rfl⟩
    | link _ => exact h.elim

theorem chdir_dir (fs : Fs) (cwd : Place) (x : Bytes) (hx : Plain x) (m : Nat) (h : fs (cwd ++ [x]) = some (.dir m)) :
    isSymlink fs cwd x = false ∧ chdir fs cwd x = some (cwd ++ [x]) := by
  have hx' := hx
  obtain ⟨h1, h2, h3, h4, _⟩ := hx
  constructor
  · unfold isSymlink; rw [leaf_plain fs cwd x hx']; simp [h]
  · unfold chdir
    rw [if_neg h1, comps_plain x h4, origin_plain cwd x hx', walk, if_neg (by simp [h1, h2]), if_neg h3, h]
    rfl

theorem newDir_free (d : Disk) (x : Bytes) (hx : Plain x) (m : Nat) (h : Free (d.fs (d.cwd ++ [x])) (.dir m)) :
    ∃ fs' m', newDir d x m {} = ({ d with fs := fs', cwd := d.cwd ++ [x], depth := d.depth + 1 }, .go) ∧
      fs' (d.cwd ++ [x]) = some (.dir m') ∧ (d.fs (d.cwd ++ [x]) = none → m' = m) ∧ ∀ q, q ≠ d.cwd ++ [x] → fs' q = d.fs q := by
  unfold newDir
  rw [if_neg hx.1]
  simp only []
  cases hf : d.fs (d.cwd ++ [x]) with
  | none =>
    have hm : mkdir d.fs d.cwd x = .made (d.cwd ++ [x]) := by
      unfold mkdir; rw [leaf_plain _ _ _ hx]; simp [hf]
    simp only [hm]
    rw [if_neg (by simp)]
    obtain ⟨a, b⟩ := chdir_dir (d.fs.put (d.cwd ++ [x]) (.dir m)) d.cwd x hx m (put_same _ _ _)
    rw [if_neg (by simp [a]), b]
    exact ⟨d.fs.put (d.cwd ++ [x]) (.dir m), m, rfl, put_same _ _ _, fun _ => rfl, fun q hq => put_other _ _ _ _ hq⟩
  | some y =>
    rw [hf] at h
    cases y with
    | file _ _ => exact h.elim
    | link _ => exact h.elim
    | dir m' =>
      have hm : mkdir d.fs d.cwd x = .exists := by
        unfold mkdir; rw [leaf_plain _ _ _ hx]; simp [hf]
      simp only [hm]
      rw [if_neg (by simp)]
      obtain ⟨a, b⟩ := chdir_dir d.fs d.cwd x hx m' hf
      rw [if_neg (by simp [a]), b]
      exact ⟨d.fs, m', rfl, hf, (fun e => by cases e), fun q _ => rfl⟩

/-- The calls of whole entries, answered by the callback, leave these entries in the file system. -/
theorem store (base : Bytes) (b : Place) : ∀ (cs : List Call) (ph : Phase) (acc : Bytes) (d : Disk) (ns : Place),
    d.cwd = b ++ ns → d.depth = ns.length → cs.foldlM follow ph = some .idle → Ready d acc ph →
    (∀ n ∈ names cs, ∃ x, n = some x ∧ Plain x) → GNested ns.length (given acc cs) →
    ((gents d.cwd (given acc cs)).map (·.1)).Nodup → (∀ e ∈ gents d.cwd (given acc cs), Free (d.fs e.1) e.2) →
    ∃ d', cbs base d cs = some d' ∧ (∀ e ∈ gents d.cwd (given acc cs), Holds (d.fs e.1) (d'.fs e.1) e.2) ∧
      ∀ p, p ∉ (gents d.cwd (given acc cs)).map (·.1) → d'.fs p = d.fs p
  | [], ph, acc, d, ns, _, _, _, _, _, _, _, _ => ⟨d, rfl, by simp [given, gents], fun _ _ => rfl⟩
  | c :: cs, ph, acc, d, ns, hc, hd, hf, hR, hn, hN, hD, hF => by
    rw [List.foldlM_cons] at hf
    rw [names_cons] at hn
    have hn2 : ∀ n ∈ names cs, ∃ x, n = some x ∧ Plain x := fun n hm => hn n (List.mem_append_right _ hm)
    cases ph with
    | before => exact hR.elim
    | idle =>
      cases c with
      | request => simp [follow] at hf
      | part _ _ _ _ => simp [follow] at hf
      | fileDone _ _ _ _ _ => simp [follow] at hf
      | newFile n m mt a sz =>
        simp only [follow, Option.bind_eq_bind, Option.bind_some] at hf
        obtain ⟨x, rfl, hx⟩ := hn n (by simp [names])
        have hg : given acc (.newFile (some x) m mt a sz :: cs) = given [] cs := rfl
        rw [hg] at hN hD hF ⊢
        obtain ⟨data, rest, hgv⟩ := given_file cs [] (some x) m mt a sz 0 hf
        have hE : gents d.cwd (given [] cs) = (d.cwd ++ [x], .file data (Spec.Scp.stamp (some (mt, a)))) :: gents d.cwd rest := by
          rw [hgv]; rfl
        have hin : (d.cwd ++ [x], Node.file data (Spec.Scp.stamp (some (mt, a)))) ∈ gents d.cwd (given [] cs) := by rw [hE]; exact List.mem_cons_self
        obtain ⟨h1, h2⟩ := free_file_open d.fs d.cwd x hx _ _ (hF _ hin)
        let d1 : Disk := { d with fs := d.fs.put (d.cwd ++ [x]) (.file [] none), fp := some (d.cwd ++ [x]), isOpen := true }
        have hcb : recvCb base d (.newFile (some x) m mt a sz) {} = (d1, .go) := by
          simp only [recvCb, h1, h2]; rfl
        have hdir : ∀ e ∈ gents d.cwd (given [] cs), e.1 = d.cwd ++ [x] → e.2 = .file data (Spec.Scp.stamp (some (mt, a))) := by
          intro e he h
          rw [hE] at he hD
          rcases List.mem_cons.mp he with h' | h'
          · rw [h']
          · simp only [List.map_cons, List.nodup_cons] at hD
            exact absurd (List.mem_map.mpr ⟨e, h', h⟩) hD.1
        obtain ⟨d', hd1, hd2, hd3⟩ := store base b cs _ [] d1 ns hc hd hf ⟨x, rfl, rfl, rfl, put_same _ _ _⟩ hn2 hN hD (by
          intro e he
          by_cases h : e.1 = d.cwd ++ [x]
          · rw [hdir e he h, h]
            show Free (d.fs.put (d.cwd ++ [x]) (.file [] none) (d.cwd ++ [x])) _
            rw [put_same]; trivial
          · show Free (d.fs.put (d.cwd ++ [x]) (.file [] none) e.1) _
            rw [put_other _ _ _ _ h]; exact hF e he)
        refine ⟨d', by rw [cbs, hcb]; simp only [if_true]; exact hd1, ?_, ?_⟩
        · intro e he
          have := hd2 e he
          by_cases h : e.1 = d.cwd ++ [x]
          · rw [hdir e he h] at this ⊢; exact this
          · have e1 : d1.fs e.1 = d.fs e.1 := put_other _ _ _ _ h
            rw [e1] at this; exact this
        · intro p hp
          rw [hd3 p hp]
          refine put_other _ _ _ _ (fun h => hp ?_)
          rw [h]; exact List.mem_map.mpr ⟨_, hin, rfl⟩
      | newDir n m mt a =>
        simp only [follow, Option.bind_eq_bind, Option.bind_some] at hf
        obtain ⟨x, rfl, hx⟩ := hn n (by simp [names])
        have hg : given acc (.newDir (some x) m mt a :: cs) = .dir (some x) m mt a :: given acc cs := rfl
        rw [hg] at hN hD hF ⊢
        have hE : gents d.cwd (.dir (some x) m mt a :: given acc cs) =
          (d.cwd ++ [x], .dir m) :: gents (d.cwd ++ [x]) (given acc cs) := rfl
        rw [hE] at hD hF ⊢
        simp only [List.map_cons, List.nodup_cons] at hD
        obtain ⟨fs', m', h1, h2, h3, h4⟩ := newDir_free d x hx m (hF _ List.mem_cons_self)
        have hne : ∀ e ∈ gents (d.cwd ++ [x]) (given acc cs), e.1 ≠ d.cwd ++ [x] :=
          fun e he h => hD.1 (List.mem_map.mpr ⟨e, he, h⟩)
        obtain ⟨d', hd1, hd2, hd3⟩ := store base b cs .idle acc { d with fs := fs', cwd := d.cwd ++ [x], depth := d.depth + 1 } (ns ++ [x])
          (by simp [hc]) (by simp [hd]) hf trivial hn2 (by simpa [GNested] using hN) hD.2 (by
            intro e he
            show Free (fs' e.1) e.2
            rw [h4 e.1 (hne e he)]
            exact hF e (List.mem_cons_of_mem _ he))
        have hcb : recvCb base d (.newDir (some x) m mt a) {} = ({ d with fs := fs', cwd := d.cwd ++ [x], depth := d.depth + 1 }, .go) := h1
        refine ⟨d', by rw [cbs, hcb]; simp only [if_true]; exact hd1, ?_, ?_⟩
        · intro e he
          rcases List.mem_cons.mp he with h | h
          · rw [h]
            have : d'.fs (d.cwd ++ [x]) = fs' (d.cwd ++ [x]) := hd3 _ hD.1
            exact ⟨m', by rw [this]; exact h2, h3⟩
          · have := hd2 e h
            have e1 : fs' e.1 = d.fs e.1 := h4 _ (hne e h)
            simp only [e1] at this; exact this
        · intro p hp
          simp only [List.map_cons, List.mem_cons, not_or] at hp
          rw [hd3 p hp.2]
          exact h4 p hp.1
      | endDir =>
        simp only [follow, Option.bind_eq_bind, Option.bind_some] at hf
        have hg : given acc (.endDir :: cs) = .endDir :: given acc cs := rfl
        rw [hg] at hN hD hF ⊢
        have hE : gents d.cwd (.endDir :: given acc cs) = gents d.cwd.dropLast (given acc cs) := rfl
        rw [hE] at hD hF ⊢
        rcases List.eq_nil_or_concat ns with e | ⟨ns', x, e⟩
        · rw [e] at hN; exact hN.elim
        · rw [List.concat_eq_append] at e
          subst e
          have hN' : GNested ns'.length (given acc cs) := by simpa [GNested] using hN
          obtain ⟨d', hd1, hd2, hd3⟩ := store base b cs .idle acc { d with cwd := d.cwd.dropLast, depth := d.depth - 1 } ns'
            (by simp [hc, ← List.append_assoc]) (by simp [hd]) hf trivial hn2 hN' hD hF
          have hcb : recvCb base d .endDir {} = ({ d with cwd := d.cwd.dropLast, depth := d.depth - 1 }, .go) := by
            simp only [recvCb, chdir_up]
            rw [if_neg (by rw [hd]; simp)]
            rfl
          exact ⟨d', by rw [cbs, hcb]; simp only [if_true]; exact hd1, hd2, hd3⟩
    | inFile n m mt a sz got =>
      obtain ⟨x, hx1, hx2, hx3, hx4⟩ := hR
      subst hx1
      cases c with
      | request => simp [follow] at hf
      | newFile _ _ _ _ _ => simp [follow] at hf
      | newDir _ _ _ _ => simp [follow] at hf
      | endDir => simp [follow] at hf
      | part n' sz' off bs =>
        simp only [follow] at hf
        split at hf
        · simp only [Option.bind_eq_bind, Option.bind_some] at hf
          have hg : given acc (.part n' sz' off bs :: cs) = given (acc ++ bs) cs := rfl
          rw [hg] at hN hD hF ⊢
          have hap : d.fs.append (d.cwd ++ [x]) bs = d.fs.put (d.cwd ++ [x]) (.file (acc ++ bs) none) := by
            unfold Fs.append; rw [hx4]
          let d1 : Disk := { d with fs := d.fs.put (d.cwd ++ [x]) (.file (acc ++ bs) none) }
          have hcb : recvCb base d (.part n' sz' off bs) {} = (d1, .go) := by
            simp only [recvCb, hx2, hx3, hap]
            simp [d1, hx2, hx3]
          obtain ⟨data, rest, hgv⟩ := given_file cs (acc ++ bs) (some x) m mt a sz _ hf
          have hE : gents d.cwd (given (acc ++ bs) cs) = (d.cwd ++ [x], .file data (Spec.Scp.stamp (some (mt, a)))) :: gents d.cwd rest := by
            rw [hgv]; rfl
          have hin : (d.cwd ++ [x], Node.file data (Spec.Scp.stamp (some (mt, a)))) ∈ gents d.cwd (given (acc ++ bs) cs) := by rw [hE]; exact List.mem_cons_self
          have hdir : ∀ e ∈ gents d.cwd (given (acc ++ bs) cs), e.1 = d.cwd ++ [x] → e.2 = .file data (Spec.Scp.stamp (some (mt, a))) := by
            intro e he h
            rw [hE] at he hD
            rcases List.mem_cons.mp he with h' | h'
            · rw [h']
            · simp only [List.map_cons, List.nodup_cons] at hD
              exact absurd (List.mem_map.mpr ⟨e, h', h⟩) hD.1
          obtain ⟨d', hd1, hd2, hd3⟩ := store base b cs _ (acc ++ bs) d1 ns hc hd hf ⟨x, rfl, hx2, hx3, put_same _ _ _⟩ hn2 hN hD (by
            intro e he
            by_cases h : e.1 = d.cwd ++ [x]
            · rw [hdir e he h, h]
              show Free (d.fs.put (d.cwd ++ [x]) (.file (acc ++ bs) none) (d.cwd ++ [x])) _
              rw [put_same]; trivial
            · show Free (d.fs.put (d.cwd ++ [x]) (.file (acc ++ bs) none) e.1) _
              rw [put_other _ _ _ _ h]; exact hF e he)
          refine ⟨d', by rw [cbs, hcb]; simp only [if_true]; exact hd1, ?_, ?_⟩
          · intro e he
            have := hd2 e he
            by_cases h : e.1 = d.cwd ++ [x]
            · rw [hdir e he h] at this ⊢; exact this
            · have e1 : d1.fs e.1 = d.fs e.1 := put_other _ _ _ _ h
              rw [e1] at this; exact this
          · intro p hp
            rw [hd3 p hp]
            refine put_other _ _ _ _ (fun h => hp ?_)
            rw [h]; exact List.mem_map.mpr ⟨_, hin, rfl⟩
        · simp at hf
      | fileDone n' m' mt' a' sz' =>
        simp only [follow] at hf
        split at hf
        · next e =>
          obtain ⟨rfl, rfl, rfl, rfl, rfl, _⟩ := e
          simp only [Option.bind_eq_bind, Option.bind_some] at hf
          have hg : given acc (.fileDone (some x) m' mt' a' sz' :: cs) = .file (some x) m' mt' a' acc :: given [] cs := rfl
          rw [hg] at hN hD hF ⊢
          have hE : gents d.cwd (.file (some x) m' mt' a' acc :: given [] cs) =
            (d.cwd ++ [x], .file acc (Spec.Scp.stamp (some (mt', a')))) :: gents d.cwd (given [] cs) := rfl
          rw [hE] at hD hF ⊢
          simp only [List.map_cons, List.nodup_cons] at hD
          have hne : ∀ e ∈ gents d.cwd (given [] cs), e.1 ≠ d.cwd ++ [x] :=
            fun e he h => hD.1 (List.mem_map.mpr ⟨e, he, h⟩)
          have hcb : ∃ fs', recvCb base d (.fileDone (some x) m' mt' a' sz') {} = ({ d with isOpen := false, fs := fs' }, .go) ∧
              fs' (d.cwd ++ [x]) = some (.file acc (Spec.Scp.stamp (some (mt', a')))) ∧ ∀ q, q ≠ d.cwd ++ [x] → fs' q = d.fs q := by
            simp only [recvCb, fileDone, hx2, hx3]
            rw [if_neg (by simp)]
            by_cases ht : mt' ≠ 0 ∨ a' ≠ 0
            · rw [if_pos ht]
              refine ⟨d.fs.stamp (d.cwd ++ [x]) mt' a', by simp, ?_, fun q hq => stamp_other _ _ _ _ _ hq⟩
              unfold Fs.stamp
              rw [hx4]
              simp only [put_same]
              have : Spec.Scp.stamp (some (mt', a')) = some (mt', a') := by
                unfold Spec.Scp.stamp
                rw [if_neg]
                intro h
                simp only [Option.some.injEq, Prod.mk.injEq] at h
                omega
              rw [this]
            · rw [if_neg ht]
              refine ⟨d.fs.lose (d.cwd ++ [x]) 0, rfl, ?_, fun q hq => lose_other _ _ _ _ hq⟩
              unfold Fs.lose
              rw [hx4]
              have h0 : mt' = 0 ∧ a' = 0 := by omega
              rw [h0.1, h0.2]
              simp [put_same, Spec.Scp.stamp]
          obtain ⟨fs', hcb, h2, h4⟩ := hcb
          obtain ⟨d', hd1, hd2, hd3⟩ := store base b cs .idle [] { d with isOpen := false, fs := fs' } ns hc hd hf trivial hn2 hN hD.2 (by
            intro e he
            show Free (fs' e.1) e.2
            rw [h4 e.1 (hne e he)]
            exact hF e (List.mem_cons_of_mem _ he))
          refine ⟨d', by rw [cbs, hcb]; simp only [if_true]; exact hd1, ?_, ?_⟩
          · intro e he
            rcases List.mem_cons.mp he with h | h
            · rw [h]
              have : d'.fs (d.cwd ++ [x]) = fs' (d.cwd ++ [x]) := hd3 _ hD.1
              show d'.fs (d.cwd ++ [x]) = _
              rw [this]; exact h2
            · have := hd2 e h
              have e1 : fs' e.1 = d.fs e.1 := h4 _ (hne e h)
              simp only [e1] at this; exact this
          · intro p hp
            simp only [List.map_cons, List.mem_cons, not_or] at hp
            rw [hd3 p hp.2]
            exact h4 p hp.1
        · simp at hf

/-! ### A receiver that faces a peer is a receiver -/

theorem step_go (s : Sink) (i : In) (h1 : i.cb = .go) (h2 : i.cb2 = .go) (c : Call) (r : Cb) (h : Out.call c r ∈ (step s i).2) :
    r = .go := by
  have hact : ∀ s', Out.call c r ∈ (act s' i).2 → r = .go := by
    intro s' h
    unfold act at h
    split at h
    · simp [h1] at h; exact h.2
    · simp [h1] at h; exact h.2
    · simp at h
    · simp [h1] at h; exact h.2
  have hgot : ∀ s' d, Out.call c r ∈ (gotPart s' i d).2 → r = .go := by
    intro s' d h
    unfold gotPart at h
    simp only [h1, h2] at h
    rw [if_neg (by simp)] at h
    split at h
    · simp at h; exact h.2
    · simp at h; rcases h with h | h <;> exact h.2
  unfold step at h
  cases hs : s.st with
  | begin => simp [hs, h1] at h; exact h.2
  | recvMsg =>
    simp only [hs] at h
    unfold recvMessage at h
    split at h
    · simp at h
    · cases hr : i.rd with
      | take =>
        simp only [hr] at h
        split at h
        · simp at h
        · split at h
          · split at h
            · simp at h
            · simp at h
            · exact hact _ h
          · simp at h
      | zero => simp only [hr] at h; exact hact _ h
      | spin => simp [hr] at h
      | ext => simp [hr] at h
      | want => simp [hr] at h
      | eof => simp [hr] at h
      | fail => simp [hr] at h
  | sendConf =>
    simp only [hs] at h
    unfold sendConf at h
    cases hr : i.snd with
    | sent => simp only [hr] at h; split at h <;> simp at h
    | want => simp [hr] at h
    | fail => simp [hr] at h
  | recvConf =>
    simp only [hs] at h
    unfold recvConf at h
    cases hr : i.rd with
    | take =>
      simp only [hr] at h
      split at h
      · simp at h
      · split at h <;> simp at h
    | zero => simp [hr] at h
    | spin => simp [hr] at h
    | ext => simp [hr] at h
    | want => simp [hr] at h
    | eof => simp [hr] at h
    | fail => simp [hr] at h
  | recvFile =>
    simp only [hs] at h
    unfold recvFile at h
    simp only [] at h
    split at h
    · exact hgot _ _ h
    · cases hr : i.rd with
      | take =>
        simp only [hr] at h
        split at h
        · simp at h
        · exact hgot _ _ h
      | zero => simp only [hr] at h; exact hgot _ _ h
      | spin => simp [hr] at h
      | ext => simp [hr] at h
      | want => simp [hr] at h
      | eof => simp [hr] at h
      | fail => simp [hr] at h
  | done => simp [hs] at h
  | dead => simp [hs] at h
  | crash => simp [hs] at h

theorem answer_sink (σ : Sys) (os : List Out) : (answer σ os).sink = σ.sink := by
  unfold answer
  split
  · split <;> rfl
  · rfl

theorem sys_next (σ : Sys) (m : Move) (hb : Benign m) : ∃ e, NoZero e ∧ next σ.sink e = ((σ.next m).1.sink, (σ.next m).2) ∧
    ∀ c r, Out.call c r ∈ (σ.next m).2 → r = .go := by
  cases m with
  | step i =>
    obtain ⟨h1, _, h3, h4⟩ := hb
    refine ⟨.step i, ?_, ?_, fun c r h => step_go σ.sink i h3 h4 c r h⟩
    · intro h
      have h : i.rd = .zero := h
      rw [h] at h1
      rcases h1 with h1 | h1 | h1 <;> cases h1
    · show step σ.sink i = _
      rw [sys_step σ i (step σ.sink i).1 (step σ.sink i).2 rfl, answer_sink]
  | deliver n =>
    have h0 : next σ.sink (.arrive []) = (σ.sink, []) := by simp [next]
    unfold Sys.next
    simp only []
    split
    · split
      · exact ⟨.arrive [], trivial, h0, by simp⟩
      · split
        · exact ⟨.arrive [], trivial, h0, by simp⟩
        · exact ⟨.arrive [], trivial, h0, by simp⟩
    · exact ⟨.arrive (σ.cur.take n), trivial, rfl, by simp⟩

theorem sys_run : ∀ (ms : List Move) (σ : Sys), (∀ m ∈ ms, Benign m) →
    ∃ es, (∀ e ∈ es, NoZero e) ∧ run σ.sink es = ((σ.run ms).1.sink, (σ.run ms).2) ∧
      ∀ c r, Out.call c r ∈ (σ.run ms).2 → r = .go
  | [], σ, _ => ⟨[], by simp, rfl, by simp [Sys.run]⟩
  | m :: ms, σ, hb => by
    obtain ⟨e, h1, h2, h3⟩ := sys_next σ m (hb m List.mem_cons_self)
    obtain ⟨es, h4, h5, h6⟩ := sys_run ms (σ.next m).1 (fun m' hm => hb m' (List.mem_cons_of_mem _ hm))
    refine ⟨e :: es, ?_, ?_, ?_⟩
    · intro e' he
      rcases List.mem_cons.mp he with h | h
      · rw [h]; exact h1
      · exact h4 e' h
    · rw [run, h2]; simp only [h5]; rfl
    · intro c r h
      rcases List.mem_append.mp h with h | h
      · exact h3 c r h
      · exact h6 c r h

/-- A script received with the default callback. -/
theorem script_stored (is : List Item) (ms : List Move) (σ : Sys) (hs : σ.sink.st = .begin) (ho : σ.sink.off = 0)
    (hr : σ.sink.rename = false) (hb : ∀ m ∈ ms, Benign m) (hq : (σ.run ms).1.sink.st = .recvMsg)
    (hg : given [] (calls (σ.run ms).2) = is.map wanted)
    (base : Bytes) (d : Disk) (b : Place) (hd : chdir d.fs d.cwd base = some b) (hN : Nested 0 is)
    (hD : ((entries b is).map (·.1)).Nodup) (hF : ∀ e ∈ entries b is, Free (d.fs e.1) e.2) :
    ∃ d' l, serve base d (σ.run ms).2 (List.replicate (calls (σ.run ms).2).length {}) = some (d', l) ∧
      (∀ e ∈ entries b is, Holds (d.fs e.1) (d'.fs e.1) e.2) ∧
      ∀ p, p ∉ (entries b is).map (·.1) → d'.fs p = d.fs p := by
  obtain ⟨es, h1, h2, h3⟩ := sys_run ms σ hb
  obtain ⟨p, hp, hi⟩ := run_phase es σ.sink .before (by unfold InPhase; rw [hs]; exact ⟨rfl, ho⟩)
  have hnm := run_names es σ.sink h1
  rw [h2] at hp hi hnm
  simp only [hr] at hnm
  have hnm : ∀ n ∈ names (calls (σ.run ms).2), ∃ x, n = some x ∧ Plain x := by simpa using hnm
  unfold InPhase at hi
  rw [hq] at hi
  obtain ⟨rfl, _⟩ := hi
  generalize hcs : calls (σ.run ms).2 = cs at hp hnm hg
  cases cs with
  | nil => simp at hp
  | cons c cs =>
    rw [List.foldlM_cons] at hp
    rw [names_cons] at hnm
    cases c with
    | request =>
      simp only [follow, Option.bind_eq_bind, Option.bind_some] at hp
      have hg' : given [] cs = is.map wanted := hg
      have hE : gents b (given [] cs) = entries b is := by rw [hg', gents_wanted]
      obtain ⟨d', hd1, hd2, hd3⟩ := store base b cs .idle [] { d with cwd := b, depth := 0 } [] (by simp) rfl hp trivial
        (fun n hm => hnm n (List.mem_append_right _ hm)) (by rw [hg']; exact gnested_wanted is 0 hN)
        (by simp only [hE]; exact hD) (by simp only [hE]; exact hF)
      have hcb : cbs base d (.request :: cs) = some d' := by
        rw [cbs]
        have : recvCb base d .request {} = ({ d with cwd := b, depth := 0 }, .go) := by simp only [recvCb, hd]; rfl
        rw [this]; simp only [if_true]; exact hd1
      obtain ⟨l, hl⟩ := serve_cbs base (σ.run ms).2 d d' h3 (by rw [hcs]; exact hcb)
      rw [hcs] at hl
      simp only [hE] at hd2 hd3
      exact ⟨d', l, hl, hd2, hd3⟩
    | newFile _ _ _ _ _ => simp [follow] at hp
    | part _ _ _ _ => simp [follow] at hp
    | fileDone _ _ _ _ _ => simp [follow] at hp
    | newDir _ _ _ _ => simp [follow] at hp
    | endDir => simp [follow] at hp

end Proofs.Scp
