import Verif.Proofs.OsshParse
/-! The options of a certificate. -/

namespace Proofs.Ossh
open Wolf Wolf.Wire Wolf.NameList Wolf.OsshCert Spec.Wire Props.Wire
open Spec.OsshCert (Option1 optName optValue encOption lexLt ascending Understood Pairs forced sources)

theorem lexLt_irrefl (a : Bytes) : ¬ lexLt a a := by
  induction a with
  | nil => simp [lexLt]
  | cons x a ih => simp only [lexLt]; rintro (h | ⟨_, h⟩); · omega
                   · exact ih h

/-- `memcmp` then the lengths is the lexicographic order. -/
theorem nameCmp_neg (a b : Bytes) : osshNameCmp a b < 0 ↔ lexLt a b := by
  have key : ∀ a b : Bytes, (let n := if a.length < b.length then a.length else b.length
      let c := memcmp n a b
      if c = 0 then (if a.length < b.length then -1 else if a.length > b.length then 1 else 0) else c) < (0 : Int) ↔ lexLt a b := by
    intro a
    induction a with
    | nil =>
      intro b
      cases b with
      | nil => simp [lexLt, memcmp]
      | cons y b => simp [lexLt, memcmp]
    | cons x a ih =>
      intro b
      cases b with
      | nil => simp [lexLt, memcmp]
      | cons y b =>
        have ih := ih b
        have hn : (if (x :: a).length < (y :: b).length then (x :: a).length else (y :: b).length) =
            (if a.length < b.length then a.length else b.length) + 1 := by
          simp only [List.length_cons]; split <;> split <;> omega
        simp only [hn, memcmp, lexLt]
        by_cases h1 : x < y
        · have : x.toNat < y.toNat := by simpa [UInt8.lt_iff_toNat_lt] using h1
          simp [h1, this]
        · rw [if_neg h1]
          have hx : ¬ x.toNat < y.toNat := by simpa [UInt8.lt_iff_toNat_lt] using h1
          by_cases h2 : y < x
          · rw [if_pos h2]
            have hy : y.toNat < x.toNat := by simpa [UInt8.lt_iff_toNat_lt] using h2
            have hne : x ≠ y := by rintro rfl; omega
            simp [hx, hne]
          · rw [if_neg h2]
            have hy : ¬ y.toNat < x.toNat := by simpa [UInt8.lt_iff_toNat_lt] using h2
            have he : x = y := UInt8.toNat_inj.1 (by omega)
            simp only [he, Nat.lt_irrefl, true_and, false_or]
            rw [← ih]
            simp only [List.length_cons, Nat.add_lt_add_iff_right, gt_iff_lt]
  rw [← key a b]
  unfold osshNameCmp
  simp only
  by_cases hn : (if a.length < b.length then a.length else b.length) > 0
  · rw [if_pos hn]
  · have : (if a.length < b.length then a.length else b.length) = 0 := by omega
    rw [this]; simp [memcmp]

theorem memcmp_eq (a b : Bytes) (h : a.length = b.length) : memcmp b.length a b = 0 ↔ a = b := by
  induction a generalizing b with
  | nil => cases b with
    | nil => simp [memcmp]
    | cons _ _ => simp at h
  | cons x a ih => cases b with
    | nil => simp at h
    | cons y b =>
      simp only [List.length_cons, memcmp]
      by_cases h1 : x < y
      · have : x ≠ y := by rintro rfl; exact absurd h1 (UInt8.lt_irrefl _)
        simp [h1, this]
      · rw [if_neg h1]
        by_cases h2 : y < x
        · have : x ≠ y := by rintro rfl; exact absurd h2 (UInt8.lt_irrefl _)
          simp [h2, this]
        · rw [if_neg h2, ih b (by simpa using h)]
          have he : x = y := by
            apply UInt8.toNat_inj.1
            have a1 : ¬ x.toNat < y.toNat := by simpa [UInt8.lt_iff_toNat_lt] using h1
            have a2 : ¬ y.toNat < x.toNat := by simpa [UInt8.lt_iff_toNat_lt] using h2
            omega
          simp [he]

theorem nameEq_iff (a lit : Bytes) : osshNameEq a lit = true ↔ a = lit := by
  unfold osshNameEq
  by_cases h : a.length = lit.length
  · simp [h, memcmp_eq a lit h]
  · simp only [h, decide_false, Bool.false_and]
    constructor
    · nofun
    · rintro rfl; exact absurd rfl h

theorem asc_force : asc "force-command" = Spec.OsshCert.ascii "force-command" := rfl
theorem asc_source : asc "source-address" = Spec.OsshCert.ascii "source-address" := rfl
theorem force_ne_source : asc "source-address" ≠ asc "force-command" := by decide +kernel

/-- What an option sets. -/
def setOpt (r : Restrictions) : Option1 → Restrictions
  | .forceCommand v => { r with forceCommand := some v }
  | .sourceAddress v => { r with sourceAddress := some v }

/-- Ascending, after a name. -/
def ascFrom : Option Bytes → List Option1 → Prop
  | _, [] => True
  | none, o :: l => ascFrom (some (optName o)) l
  | some p, o :: l => lexLt p (optName o) ∧ ascFrom (some (optName o)) l

theorem ascFrom_some (p : Bytes) (o : Option1) (l : List Option1) :
    ascFrom (some p) (o :: l) ↔ lexLt p (optName o) ∧ ascFrom (some (optName o)) l := Iff.rfl

theorem ascFrom_iff (l : List Option1) : ascFrom none l ↔ ascending l := by
  cases l with
  | nil => simp [ascFrom, ascending]
  | cons a l =>
    show ascFrom (some (optName a)) l ↔ _
    induction l generalizing a with
    | nil => simp [ascFrom, ascending]
    | cons b l ih => rw [ascFrom_some, ih b]; simp only [ascending]

theorem optName_ne_nil (o : Option1) : optName o ≠ [] := by
  cases o <;> (simp only [optName]; decide +kernel)

variable {mem : Bytes} {sz : Nat}

theorem flat_cons (o : Option1) (l : List Option1) :
    ((o :: l).map encOption).flatten = encString (optName o) ++ (encString (encString (optValue o)) ++ (l.map encOption).flatten) := by
  simp [encOption]

/-- One option, read. -/
theorem critLoop_iff (hl : sz ≤ mem.length) (hw : sz < 2 ^ 32) (fuel idx : Nat) (hf : sz < fuel + idx) (hi : idx ≤ sz)
    (prev : Option Bytes) (hp : prev ≠ some []) (acc R : Restrictions) :
    (∃ j, critLoop mem sz fuel idx prev acc = .ok R j) ↔
      ∃ opts, msgFrom mem sz idx = (opts.map encOption).flatten ∧ ascFrom prev opts ∧
        (∀ o ∈ opts, optValue o ≠ []) ∧ R = opts.foldl setOpt acc := by
  induction fuel generalizing idx prev acc with
  | zero => omega
  | succ fuel ih =>
    unfold critLoop
    by_cases hlt : idx < sz
    · rw [if_pos hlt]
      constructor
      · rintro ⟨j, h⟩
        obtain ⟨r, i, hr, h⟩ := andThen_ok.1 h
        obtain ⟨name, rfl, rfl, hle1, _, m1⟩ := str_inv hl hw hr
        rw [str_deref hl m1 hw] at h
        simp only at h
        by_cases hord : outOfOrder prev name = true
        · rw [if_pos hord] at h; cases h
        rw [if_neg hord] at h
        obtain ⟨r, i, hr, h⟩ := andThen_ok.1 h
        obtain ⟨data, rfl, rfl, hle2, _, m2⟩ := str_inv hl hw hr
        have hd := holds_at hl hw m2
        have hord' : ∀ p, prev = some p → lexLt p name := by
          intro p hp
          rw [hp] at hord
          simp only [outOfOrder, ge_iff_le, decide_eq_true_eq, Int.not_le] at hord
          exact (nameCmp_neg p name).1 hord
        have step : ∀ (o : Option1) (v : Bytes), optName o = name → optValue o = v → setOpt acc o = setOpt acc o →
            v ≠ [] → encString v = data →
            (∃ j, critLoop mem sz fuel (idx + 4 + name.length + 4 + data.length) (if name = [] then none else some name) (setOpt acc o) = .ok R j) →
            ∃ opts, msgFrom mem sz idx = (opts.map encOption).flatten ∧ ascFrom prev opts ∧
              (∀ o ∈ opts, optValue o ≠ []) ∧ R = opts.foldl setOpt acc := by
          intro o v ho hv _ hne hdata hrec
          have hnn : name ≠ [] := by rw [← ho]; exact optName_ne_nil o
          rw [if_neg hnn] at hrec
          obtain ⟨opts, g1, g2, g3, g4⟩ := (ih _ (by omega) hle2 (some name) (by simpa using hnn) _).1 hrec
          refine ⟨o :: opts, ?_, ?_, ?_, ?_⟩
          · rw [m1, m2, g1, flat_cons, ho, hv, hdata]
          · cases prev with
            | none => show ascFrom (some (optName o)) opts; rw [ho]; exact g2
            | some p => rw [ascFrom_some, ho]; exact ⟨hord' p rfl, g2⟩
          · intro o' ho'
            rcases List.mem_cons.1 ho' with rfl | ho'
            · rw [hv]; exact hne
            · exact g3 o' ho'
          · exact g4
        split at h
        · rename_i hfc
          have hfc := (nameEq_iff _ _).1 hfc
          obtain ⟨rv, di, hr, h⟩ := andThen_ok.1 h
          rw [hd.sz] at hr
          obtain ⟨v, rfl, rfl, _, _, m3⟩ := str_inv hd.len hd.small hr
          rw [refAt_sz] at h
          by_cases hv0 : v.length = 0
          · rw [if_pos hv0] at h; cases h
          rw [if_neg hv0] at h
          split at h
          · cases h
          rename_i hdi
          rw [hd.sz] at hdi
          rw [str_deref hd.len m3 hd.small] at h
          refine step (.forceCommand v) v hfc.symm rfl rfl (by rintro rfl; exact hv0 rfl) ?_ ⟨j, h⟩
          have hm := hd.msg
          rw [hd.sz, m3] at hm
          have : msgFrom (view mem (refAt (idx + 4 + name.length) data)) data.length (0 + 4 + v.length) = [] := by
            apply List.eq_nil_of_length_eq_zero; rw [msgFrom_length _ _ _ hd.len]; omega
          rw [this, List.append_nil] at hm; exact hm
        · split at h
          · rename_i hsa
            have hsa := (nameEq_iff _ _).1 hsa
            obtain ⟨rv, di, hr, h⟩ := andThen_ok.1 h
            rw [hd.sz] at hr
            obtain ⟨v, rfl, rfl, _, _, m3⟩ := str_inv hd.len hd.small hr
            rw [refAt_sz] at h
            by_cases hv0 : v.length = 0
            · rw [if_pos hv0] at h; cases h
            rw [if_neg hv0] at h
            split at h
            · cases h
            rename_i hdi
            rw [hd.sz] at hdi
            rw [str_deref hd.len m3 hd.small] at h
            refine step (.sourceAddress v) v hsa.symm rfl rfl (by rintro rfl; exact hv0 rfl) ?_ ⟨j, h⟩
            have hm := hd.msg
            rw [hd.sz, m3] at hm
            have : msgFrom (view mem (refAt (idx + 4 + name.length) data)) data.length (0 + 4 + v.length) = [] := by
              apply List.eq_nil_of_length_eq_zero; rw [msgFrom_length _ _ _ hd.len]; omega
            rw [this, List.append_nil] at hm; exact hm
          · cases h
      · rintro ⟨opts, g1, g2, g3, g4⟩
        cases opts with
        | nil =>
          exfalso
          have := congrArg List.length g1
          rw [msgFrom_length _ _ _ hl] at this
          simp at this; omega
        | cons o opts =>
          rw [flat_cons] at g1
          obtain ⟨f1, m1⟩ := str_fwd hl hw g1
          rw [andThen_of_ok f1]
          rw [str_deref hl g1 hw]
          simp only
          obtain ⟨f2, m2⟩ := str_fwd hl hw m1
          have hd := holds_at hl hw m1
          have hlen2 := congrArg List.length m1
          rw [msgFrom_length _ _ _ hl, List.length_append, enc_length] at hlen2
          have hrest : ∃ j, critLoop mem sz fuel (idx + 4 + (optName o).length + 4 + (encString (optValue o)).length)
              (if optName o = [] then none else some (optName o)) (setOpt acc o) = .ok R j := by
            rw [if_neg (optName_ne_nil o)]
            refine (ih _ (by omega) (by omega) _ (by simpa using optName_ne_nil o) _).2 ⟨opts, m2, ?_, ?_, g4⟩
            · cases prev with
              | none => exact g2
              | some p => exact ((ascFrom_some _ _ _).1 g2).2
            · intro o' ho'; exact g3 o' (by simp [ho'])
          have hord : outOfOrder prev (optName o) = false := by
            cases prev with
            | none => rfl
            | some p =>
              have := (nameCmp_neg p (optName o)).2 ((ascFrom_some _ _ _).1 g2).1
              simp only [outOfOrder, ge_iff_le, decide_eq_false_iff_not, Int.not_le]; exact this
          rw [hord]
          simp only [Bool.false_eq_true, if_false]
          rw [andThen_of_ok f2]
          have hmv : msgFrom (view mem (refAt (idx + 4 + (optName o).length) (encString (optValue o)))) (encString (optValue o)).length 0 = encString (optValue o) ++ [] := by
            have := hd.msg
            rw [hd.sz] at this; rw [this, List.append_nil]
          obtain ⟨f3, _⟩ := str_fwd hd.len hd.small hmv
          have hv0 : (optValue o).length ≠ 0 := by
            have := g3 o (by simp)
            intro hz; exact this (List.eq_nil_of_length_eq_zero hz)
          have hdr := str_deref hd.len hmv hd.small
          cases o with
          | forceCommand v =>
            have hq : osshNameEq (optName (.forceCommand v)) (asc "force-command") = true := (nameEq_iff _ _).2 rfl
            rw [if_pos hq]
            rw [← hd.sz] at f3
            rw [andThen_of_ok f3, refAt_sz, if_neg hv0, if_neg (by rw [hd.sz, enc_length]; omega), hdr]
            exact hrest
          | sourceAddress v =>
            have hq : osshNameEq (optName (.sourceAddress v)) (asc "source-address") = true := (nameEq_iff _ _).2 rfl
            have hq1 : ¬ osshNameEq (optName (.sourceAddress v)) (asc "force-command") = true := by
              rw [nameEq_iff]; exact force_ne_source
            rw [if_neg hq1, if_pos hq]
            rw [← hd.sz] at f3
            rw [andThen_of_ok f3, refAt_sz, if_neg hv0, if_neg (by rw [hd.sz, enc_length]; omega), hdr]
            exact hrest
    · rw [if_neg hlt]
      have he : msgFrom mem sz idx = [] := by
        apply List.eq_nil_of_length_eq_zero; rw [msgFrom_length _ _ _ hl]; omega
      rw [he]
      constructor
      · rintro ⟨j, h⟩
        simp only [Res.ok.injEq] at h
        exact ⟨[], rfl, by simp [ascFrom], by simp, h.1.symm⟩
      · rintro ⟨opts, g1, _, _, g4⟩
        cases opts with
        | nil => exact ⟨idx, by rw [g4]; rfl⟩
        | cons o opts =>
          exfalso
          have := congrArg List.length g1
          rw [flat_cons, List.length_append, enc_length] at this
          simp at this; omega

theorem critLoop_ne_ub (hl : sz ≤ mem.length) (hw : sz < 2 ^ 32) (fuel idx : Nat) (hf : sz < fuel + idx) (hi : idx ≤ sz)
    (prev : Option Bytes) (acc : Restrictions) : critLoop mem sz fuel idx prev acc ≠ .ub := by
  induction fuel generalizing idx prev acc with
  | zero => omega
  | succ fuel ih =>
    unfold critLoop
    by_cases hlt : idx < sz
    · rw [if_pos hlt]
      refine andThen_right (str_ne_ub _ hl hw) fun r i hr => ?_
      obtain ⟨name, rfl, rfl, hle1, _, m1⟩ := str_inv hl hw hr
      rw [str_deref hl m1 hw]
      simp only
      split
      · nofun
      refine andThen_right (str_ne_ub _ hl hw) fun r i hr => ?_
      obtain ⟨data, rfl, rfl, hle2, _, m2⟩ := str_inv hl hw hr
      have hd := holds_at hl hw m2
      split
      · rw [hd.sz]
        refine andThen_right (str_ne_ub _ hd.len hd.small) fun r i hr => ?_
        obtain ⟨v, rfl, rfl, _, _, m3⟩ := str_inv hd.len hd.small hr
        split
        · nofun
        split
        · nofun
        rw [str_deref hd.len m3 hd.small]
        exact ih _ (by omega) hle2 _ _
      · split
        · rw [hd.sz]
          refine andThen_right (str_ne_ub _ hd.len hd.small) fun r i hr => ?_
          obtain ⟨v, rfl, rfl, _, _, m3⟩ := str_inv hd.len hd.small hr
          split
          · nofun
          split
          · nofun
          rw [str_deref hd.len m3 hd.small]
          exact ih _ (by omega) hle2 _ _
        · nofun
    · rw [if_neg hlt]; nofun

theorem extLoop_iff (hl : sz ≤ mem.length) (hw : sz < 2 ^ 32) (fuel idx : Nat) (hf : sz < fuel + idx) (hi : idx ≤ sz) :
    (∃ u j, extLoop mem sz fuel idx = .ok u j) ↔ Pairs (msgFrom mem sz idx) := by
  induction fuel generalizing idx with
  | zero => omega
  | succ fuel ih =>
    unfold extLoop
    by_cases hlt : idx < sz
    · rw [if_pos hlt]
      constructor
      · rintro ⟨u, j, h⟩
        obtain ⟨r, i, hr, h⟩ := andThen_ok.1 h
        obtain ⟨a, rfl, rfl, hle1, _, m1⟩ := str_inv hl hw hr
        obtain ⟨r, i, hr, h⟩ := andThen_ok.1 h
        obtain ⟨b, rfl, rfl, hle2, _, m2⟩ := str_inv hl hw hr
        obtain ⟨l, hl'⟩ := (ih _ (by omega) hle2).1 ⟨u, j, h⟩
        exact ⟨(a, b) :: l, by rw [m1, m2, hl']; simp⟩
      · rintro ⟨l, g1⟩
        cases l with
        | nil =>
          exfalso
          have := congrArg List.length g1
          rw [msgFrom_length _ _ _ hl] at this
          simp at this; omega
        | cons p l =>
          have g1' : msgFrom mem sz idx = encString p.1 ++ (encString p.2 ++ (l.map (fun p => encString p.1 ++ encString p.2)).flatten) := by
            rw [g1]; simp
          obtain ⟨f1, m1⟩ := str_fwd hl hw g1'
          obtain ⟨f2, m2⟩ := str_fwd hl hw m1
          have hlen2 := congrArg List.length m1
          rw [msgFrom_length _ _ _ hl, List.length_append, enc_length] at hlen2
          rw [andThen_of_ok f1, andThen_of_ok f2]
          exact (ih _ (by omega) (by omega)).2 ⟨l, m2⟩
    · rw [if_neg hlt]
      have he : msgFrom mem sz idx = [] := by
        apply List.eq_nil_of_length_eq_zero; rw [msgFrom_length _ _ _ hl]; omega
      rw [he]
      exact ⟨fun _ => ⟨[], rfl⟩, fun _ => ⟨_, _, rfl⟩⟩

theorem extLoop_ne_ub (hl : sz ≤ mem.length) (hw : sz < 2 ^ 32) (fuel idx : Nat) (hf : sz < fuel + idx) (hi : idx ≤ sz) :
    extLoop mem sz fuel idx ≠ .ub := by
  induction fuel generalizing idx with
  | zero => omega
  | succ fuel ih =>
    unfold extLoop
    by_cases hlt : idx < sz
    · rw [if_pos hlt]
      refine andThen_right (str_ne_ub _ hl hw) fun r i hr => ?_
      obtain ⟨a, rfl, rfl, hle1, _, m1⟩ := str_inv hl hw hr
      refine andThen_right (str_ne_ub _ hl hw) fun r i hr => ?_
      obtain ⟨b, rfl, rfl, hle2, _, m2⟩ := str_inv hl hw hr
      exact ih _ (by omega) hle2
    · rw [if_neg hlt]; nofun

/-- With strictly ascending names there is at most one option of each kind, and what is set is what
the list says. -/
theorem fold_asc (l : List Option1) (h : ascending l) :
    l.foldl setOpt {} = ⟨forced l, sources l⟩ := by
  have ff : ∀ a b : Bytes, ¬ lexLt (optName (.forceCommand a)) (optName (.forceCommand b)) := fun _ _ => lexLt_irrefl _
  have ss : ∀ a b : Bytes, ¬ lexLt (optName (.sourceAddress a)) (optName (.sourceAddress b)) := fun _ _ => lexLt_irrefl _
  have sf : ∀ a b : Bytes, ¬ lexLt (optName (.sourceAddress a)) (optName (.forceCommand b)) := by
    intro a b; rw [← nameCmp_neg]
    show ¬ osshNameCmp (Spec.OsshCert.ascii "source-address") (Spec.OsshCert.ascii "force-command") < 0
    decide +kernel
  match l, h with
  | [], _ => rfl
  | [.forceCommand a], _ => rfl
  | [.sourceAddress a], _ => rfl
  | .forceCommand a :: .forceCommand b :: _, h => exact absurd h.1 (ff a b)
  | .sourceAddress a :: .forceCommand b :: _, h => exact absurd h.1 (sf a b)
  | .sourceAddress a :: .sourceAddress b :: _, h => exact absurd h.1 (ss a b)
  | [.forceCommand a, .sourceAddress b], _ => rfl
  | .forceCommand a :: .sourceAddress b :: .forceCommand c :: _, h => exact absurd h.2.1 (sf b c)
  | .forceCommand a :: .sourceAddress b :: .sourceAddress c :: _, h => exact absurd h.2.1 (ss b c)

/-- The options of a parsed certificate are accepted exactly when they are understood. -/
theorem options_iff {blob : Bytes} {c : Cert} {crit ext : Bytes} (hc : Holds blob c.critOpts crit)
    (he : Holds blob c.extensions ext) (R : Restrictions) :
    (∃ j, osshCertCheckOptions blob c = .ok R j) ↔
      Pairs ext ∧ ∃ opts, Understood crit opts ∧ R = ⟨forced opts, sources opts⟩ := by
  have h1 := critLoop_iff (mem := view blob c.critOpts) (sz := c.critOpts.sz) (by rw [hc.sz]; exact hc.len)
    (by rw [hc.sz]; exact hc.small) (c.critOpts.sz + 1) 0 (by omega) (by omega) none nofun {}
  have h2 := extLoop_iff (mem := view blob c.extensions) (sz := c.extensions.sz) (by rw [he.sz]; exact he.len)
    (by rw [he.sz]; exact he.small) (c.extensions.sz + 1) 0 (by omega) (by omega)
  rw [he.msg] at h2
  simp only [hc.msg] at h1
  unfold osshCertCheckOptions
  constructor
  · rintro ⟨j, h⟩
    obtain ⟨R', i, hr, h⟩ := andThen_ok.1 h
    obtain ⟨u, i2, hr2, h⟩ := andThen_ok.1 h
    simp only [Res.ok.injEq] at h
    obtain ⟨rfl, _⟩ := h
    obtain ⟨opts, g1, g2, g3, g4⟩ := (h1 R').1 ⟨i, hr⟩
    have ha := (ascFrom_iff _).1 g2
    exact ⟨h2.1 ⟨u, i2, hr2⟩, opts, ⟨g1, ha, g3⟩, by rw [g4, fold_asc opts ha]⟩
  · rintro ⟨hp, opts, ⟨g1, g2, g3⟩, hR⟩
    obtain ⟨i, hr⟩ := (h1 R).2 ⟨opts, g1, (ascFrom_iff _).2 g2, g3, by rw [hR, fold_asc opts g2]⟩
    obtain ⟨u, i2, hr2⟩ := h2.2 hp
    exact ⟨i2, by rw [andThen_of_ok hr, andThen_of_ok hr2]⟩

theorem options_ne_ub {blob : Bytes} {c : Cert} {crit ext : Bytes} (hc : Holds blob c.critOpts crit)
    (he : Holds blob c.extensions ext) : osshCertCheckOptions blob c ≠ .ub := by
  unfold osshCertCheckOptions
  refine andThen_right (critLoop_ne_ub (by rw [hc.sz]; exact hc.len) (by rw [hc.sz]; exact hc.small) _ _ (by omega) (by omega) _ _) fun _ _ _ => ?_
  refine andThen_right (extLoop_ne_ub (by rw [he.sz]; exact he.len) (by rw [he.sz]; exact he.small) _ _ (by omega) (by omega)) fun _ _ _ => ?_
  nofun

end Proofs.Ossh
