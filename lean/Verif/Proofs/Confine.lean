import Verif.Proofs.Path

namespace Proofs.Path
open Wolf Wolf.Buffer Wolf.Path Spec.Path

/-! ## The confinement check of `GetAndCleanPath` -/

/-- Empty or beginning with a separator. -/
def SepHead (u : Bytes) : Prop := u = [] ∨ ∃ b v, u = b :: v ∧ isSep b = true

theorem sepHead_flat (cs : List Bytes) : SepHead (flat cs) := by
  cases cs with
  | nil => exact Or.inl rfl
  | cons c cs => exact Or.inr ⟨47, c ++ flat cs, by simp [flat_cons], by decide⟩

theorem takeWhile_sep {a u : Bytes} (ha : ∀ b ∈ a, isSep b = false) (hu : SepHead u) :
    (a ++ u).takeWhile (fun b => !isSep b) = a := by
  rw [takeWhile_all a (fun b hb => by simp [ha b hb])]
  rcases hu with hu | ⟨b, v, hu, hb⟩
  · subst hu; simp
  · subst hu; simp [hb]

theorem name_split {a b u v : Bytes} (ha : ∀ x ∈ a, isSep x = false) (hb : ∀ x ∈ b, isSep x = false)
    (hu : SepHead u) (hv : SepHead v) (h : a ++ u = b ++ v) : a = b ∧ u = v := by
  have : a = b := by rw [← takeWhile_sep ha hu, h, takeWhile_sep hb hv]
  subst this
  exact ⟨rfl, List.append_cancel_left h⟩

theorem sepHead_append {a u : Bytes} (ha : SepHead a) (hu : SepHead u) : SepHead (a ++ u) := by
  rcases ha with ha | ⟨b, v, ha, hb⟩
  · subst ha; exact hu
  · subst ha; exact Or.inr ⟨b, v ++ u, by simp, hb⟩

theorem prefix_of_flat : ∀ (rcs cs : List Bytes) (u : Bytes), (∀ c ∈ rcs, Name c) → (∀ c ∈ cs, Name c) → SepHead u →
    flat rcs ++ u = flat cs → rcs <+: cs
  | [], cs, _, _, _, _, _ => ⟨cs, rfl⟩
  | c :: rcs, [], u, _, _, _, h => by simp [flat_cons, flat_nil] at h
  | c :: rcs, d :: cs, u, hr, hc, hu, h => by
    rw [flat_cons, flat_cons] at h
    have h' : c ++ (flat rcs ++ u) = d ++ flat cs := by simpa using h
    obtain ⟨e1, e2⟩ := name_split (fun x hx => ((hr c (by simp)).2.2.2 x hx).1) (fun x hx => ((hc d (by simp)).2.2.2 x hx).1)
      (sepHead_append (sepHead_flat _) hu) (sepHead_flat _) h'
    subst e1
    obtain ⟨t, ht⟩ := prefix_of_flat rcs cs u (fun x hx => hr x (by simp [hx])) (fun x hx => hc x (by simp [hx])) hu e2
    exact ⟨t, by simp [← ht]⟩

/-- The last byte of a canonical path with components is no separator. -/
theorem flat_last (cs : List Bytes) (h : ∀ c ∈ cs, Name c) (hne : cs ≠ []) :
    isSep ((flat cs).getD ((flat cs).length - 1) 0) = false := by
  obtain ⟨a, c, rfl⟩ : ∃ a c, cs = a ++ [c] := ⟨cs.dropLast, cs.getLast hne, (List.dropLast_concat_getLast hne).symm⟩
  have hc := h c (by simp)
  obtain ⟨d, b, rfl⟩ : ∃ d b, c = d ++ [b] := ⟨c.dropLast, c.getLast hc.1, (List.dropLast_concat_getLast hc.1).symm⟩
  have hb := (hc.2.2.2 b (by simp)).1
  rw [flat_snoc]
  have : flat a ++ 47 :: (d ++ [b]) = (flat a ++ 47 :: d) ++ [b] := by simp
  rw [this]
  simpa using hb

theorem cpLen_flat (cs : List Bytes) (h : ∀ c ∈ cs, Name c) (hne : cs ≠ []) : cpLen (flat cs) (flat cs).length = (flat cs).length := by
  have h1 := flat_last cs h hne
  have h2 : 1 < (flat cs).length := by
    have := render_pos cs
    have h3 := render_len_one h
    rw [render_eq cs hne] at this h3
    have : ¬ (flat cs).length = 1 := fun x => hne (h3.1 x)
    omega
  obtain ⟨m, hm⟩ : ∃ m, (flat cs).length = m + 2 := ⟨(flat cs).length - 2, by omega⟩
  rw [hm] at h1 ⊢
  unfold cpLen
  rw [isDelim_eq, if_neg]
  simpa using h1

/-- The prefix test is component-wise. -/
theorem prefix_test (rcs cs : List Bytes) (hr : ∀ c ∈ rcs, Name c) (hc : ∀ c ∈ cs, Name c) (hne : rcs ≠ []) :
    (¬ ((render cs).take (flat rcs).length ≠ (flat rcs).take (flat rcs).length ∨
      ¬ ((render cs).length = (flat rcs).length ∨ isDelim ((render cs).getD (flat rcs).length 0) = true))) ↔ rcs <+: cs := by
  rw [List.take_length]
  constructor
  · intro h
    have h1 : (render cs).take (flat rcs).length = flat rcs := Classical.byContradiction fun x => h (Or.inl x)
    have h2 : (render cs).length = (flat rcs).length ∨ isDelim ((render cs).getD (flat rcs).length 0) = true :=
      Classical.byContradiction fun x => h (Or.inr x)
    have hpos : 1 < (flat rcs).length := by
      have := render_pos rcs
      have h3 := render_len_one hr
      rw [render_eq rcs hne] at this h3
      have : ¬ (flat rcs).length = 1 := fun x => hne (h3.1 x)
      omega
    have hcs : cs ≠ [] := by
      intro e; subst e
      have := congrArg List.length h1
      simp [render] at this; omega
    rw [render_eq cs hcs] at h1 h2
    have hsplit := List.take_append_drop (flat rcs).length (flat cs)
    rw [h1] at hsplit
    refine prefix_of_flat rcs cs _ hr hc ?_ hsplit
    rcases h2 with h2 | h2
    · left; rw [← h2, List.drop_length]
    · cases hd : (flat cs).drop (flat rcs).length with
      | nil => exact Or.inl rfl
      | cons b v =>
        refine Or.inr ⟨b, v, rfl, ?_⟩
        rw [← hsplit, hd] at h2
        simpa [isDelim_eq] using h2
  · rintro ⟨t, rfl⟩ h
    rw [render_eq _ (by simp [hne]), flat_append] at h
    rcases h with h | h
    · exact h (by simp)
    · apply h
      cases t with
      | nil => left; simp [flat_nil]
      | cons c t => right; simp [flat_cons, isDelim]

/-- Positions with a separator or the end of the path are the ends of components. -/
theorem boundary : ∀ (cs : List Bytes), (∀ c ∈ cs, Name c) → ∀ i, 0 < i → i ≤ (flat cs).length →
    (i = (flat cs).length ∨ isDelim ((flat cs).getD i 0) = true) → ∃ k, k ≤ cs.length ∧ i = (flat (cs.take k)).length
  | [], _, i, h0, hi, _ => by simp [flat_nil] at hi; omega
  | c :: cs, h, i, h0, hi, hb => by
    have hlen : (flat (c :: cs)).length = 1 + c.length + (flat cs).length := by rw [flat_cons]; simp; omega
    by_cases h1 : i ≤ c.length
    · exfalso
      have hget : (flat (c :: cs)).getD i 0 = c.getD (i - 1) 0 := by
        obtain ⟨j, rfl⟩ : ∃ j, i = j + 1 := ⟨i - 1, by omega⟩
        rw [flat_cons]
        simp [List.getD_eq_getElem?_getD, List.getElem?_append_left (show j < c.length by omega)]
      rcases hb with hb | hb
      · omega
      · rw [hget, isDelim_eq] at hb
        have hm : c.getD (i - 1) 0 ∈ c := by
          rw [List.getD_eq_getElem?_getD, List.getElem?_eq_getElem (show i - 1 < c.length by omega)]
          simp
        rw [((h c (by simp)).2.2.2 _ hm).1] at hb
        exact absurd hb (by decide)
    · by_cases h2 : i = c.length + 1
      · exact ⟨1, by simp, by simp [flat_cons, flat_nil, h2]⟩
      · obtain ⟨k, hk, e⟩ := boundary cs (fun x hx => h x (by simp [hx])) (i - (c.length + 1)) (by omega) (by omega) (by
          rcases hb with hb | hb
          · left; omega
          · right
            have : (flat (c :: cs)).getD i 0 = (flat cs).getD (i - (c.length + 1)) 0 := by
              rw [flat_cons, List.getD_eq_getElem?_getD, List.getD_eq_getElem?_getD,
                List.getElem?_append_right (by simp; omega)]
              simp
            rw [← this]; exact hb)
        exact ⟨k + 1, by simp; omega, by simp [flat_cons]; omega⟩

theorem flat_take_mono (cs : List Bytes) {j k : Nat} (h : j ≤ k) : (flat (cs.take j)).length ≤ (flat (cs.take k)).length := by
  obtain ⟨d, rfl⟩ : ∃ d, k = j + d := ⟨k - j, by omega⟩
  rw [List.take_add, flat_append]; simp

theorem flat_take_take (cs : List Bytes) (k : Nat) : (flat cs).take (flat (cs.take k)).length = flat (cs.take k) := by
  conv => lhs; rw [← List.take_append_drop k cs]
  rw [flat_append]
  simp

theorem flat_take_lt (cs : List Bytes) {j k : Nat} (h : j < k) (hk : k ≤ cs.length) :
    (flat (cs.take j)).length < (flat (cs.take k)).length := by
  have h1 := flat_take_mono cs (show j + 1 ≤ k by omega)
  have h2 : cs.take (j + 1) = cs.take j ++ [cs[j]'(by omega)] := by rw [List.take_succ_eq_append_getElem]
  rw [h2, flat_snoc] at h1
  simp at h1
  omega

/-- The loop over the components finds exactly the links below the root. -/
theorem hasLink_iff (isLink : Bytes → Bool) (rcs cs : List Bytes) (hc : ∀ c ∈ cs, Name c) (hne : rcs ≠ []) (hp : rcs <+: cs) :
    hasLink isLink (render cs) (flat rcs).length = true ↔
      ∃ k, rcs.length < k ∧ k ≤ cs.length ∧ isLink (render (cs.take k)) = true := by
  obtain ⟨t, ht⟩ := hp
  have hcs : cs ≠ [] := by rw [← ht]; simp [hne]
  have hrt : rcs = cs.take rcs.length := by rw [← ht]; simp
  rw [render_eq cs hcs]
  unfold hasLink
  rw [List.any_eq_true]
  constructor
  · rintro ⟨i, hi, hcond⟩
    simp only [Bool.and_eq_true, Bool.or_eq_true, decide_eq_true_eq, List.mem_range] at hi hcond
    obtain ⟨⟨h1, h2⟩, h3⟩ := hcond
    obtain ⟨k, hk, e⟩ := boundary cs hc i (by omega) (by omega) h2
    have hgt : rcs.length < k := by
      rcases Nat.lt_or_ge rcs.length k with h | h
      · exact h
      · exfalso
        have := flat_take_mono cs h
        rw [← hrt] at this
        omega
    refine ⟨k, hgt, hk, ?_⟩
    rw [e, flat_take_take] at h3
    rw [render_eq]
    · exact h3
    · intro e0
      have := congrArg List.length e0
      have := List.length_pos_iff.2 hcs
      rw [List.length_take, List.length_nil] at *
      omega
  · rintro ⟨k, hgt, hk, hl⟩
    refine ⟨(flat (cs.take k)).length, ?_, ?_⟩
    · have := flat_take_mono cs hk
      rw [List.take_length] at this
      simp; omega
    · simp only [Bool.and_eq_true, Bool.or_eq_true, decide_eq_true_eq]
      refine ⟨⟨?_, ?_⟩, ?_⟩
      · have := flat_take_lt cs hgt hk
        rw [← hrt] at this
        exact this
      · by_cases he : k = cs.length
        · left; rw [he, List.take_length]
        · right
          have h1 : flat cs = flat (cs.take k) ++ flat (cs.drop k) := by rw [← flat_append, List.take_append_drop]
          have h2 : cs.drop k = cs[k]'(by omega) :: cs.drop (k + 1) := List.drop_eq_getElem_cons (by omega)
          rw [h1, h2, flat_cons]
          simp [isDelim]
      · rw [flat_take_take]
        rw [render_eq] at hl
        · exact hl
        · intro e0
          have := congrArg List.length e0
          have := List.length_pos_iff.2 hcs
          rw [List.length_take, List.length_nil] at *
          omega

theorem str_no_zero (m : Bytes) : 0 ∉ str m := by
  intro h
  have := List.all_takeWhile' h
  simp at this

theorem Holds.str_eq {n mem curSz cs} (h : Holds n mem curSz cs) : Wolf.Path.str mem = render cs := by
  obtain ⟨rest, e⟩ := h.str
  rw [e, str_str (render_no_zero h.names)]

theorem resolve_names {base cs : List Bytes} (hb : ∀ c ∈ base, Name c)
    (hc : ∀ c ∈ cs, c ≠ [] ∧ ∀ b ∈ c, isSep b = false ∧ b ≠ 0) : ∀ c ∈ resolve base cs, Name c := by
  induction cs generalizing base with
  | nil => exact hb
  | cons c cs ih => exact ih (go_names hb (hc c (by simp))) (fun x hx => hc x (by simp [hx]))

theorem start_names {dcs : List Bytes} (h : ∀ c ∈ dcs, Name c) (p : Bytes) : ∀ c ∈ start dcs p, Name c := by
  unfold start
  split
  · exact h
  · simp

/-- `wolfSSH_RealPath` with a canonical start path, in cases. -/
theorem realPath_cases (default : Option (List Bytes)) (inp out : Bytes) (hd : ∀ d, default = some d → ∀ c ∈ d, Name c)
    (hz : 0 ∉ inp) (h2 : 2 ≤ out.length) (hn : out.length < 2 ^ 32) :
    ((∀ k, fit out.length (resolve (start (default.getD []) inp) ((components inp).take k))) →
      ∃ mem cur, realPath (default.map render) inp out = some (none, mem) ∧
        Holds out.length mem cur (resolve (start (default.getD []) inp) (components inp))) ∧
    ((¬ ∀ k, fit out.length (resolve (start (default.getD []) inp) ((components inp).take k))) →
      ∃ mem, mem.length = out.length ∧ realPath (default.map render) inp out = some (some .invalidPath, mem)) := by
  obtain ⟨r, mem, e, hl, h⟩ := realPath_ok (default.map render) (default.getD []) inp out
    (by
      intro d h
      cases default with
      | none => simp at h
      | some cs => simp at h; exact ⟨h.symm, hd cs rfl⟩)
    (by intro h; cases default with | none => rfl | some cs => simp at h) hz h2 hn
  rw [e]
  rcases h with ⟨rfl, ⟨cur, hh⟩, hall⟩ | ⟨rfl, k, hk⟩
  · exact ⟨fun _ => ⟨mem, cur, rfl, hh⟩, fun hx => absurd hall hx⟩
  · exact ⟨fun hall => absurd (hall k) hk, fun _ => ⟨mem, hl, rfl⟩⟩

/-- `GetAndCleanPath`. -/
theorem getAndCleanPath_ok (default root : Option (List Bytes)) (isLink : Bytes → Bool) (data out : Bytes)
    (hd : ∀ d, default = some d → ∀ c ∈ d, Name c) (hr : ∀ d, root = some d → ∀ c ∈ d, Name c)
    (h2 : 2 ≤ out.length) (hn : out.length < 2 ^ 32) (p : Bytes) (hp : p = str data)
    (cs : List Bytes) (hcs : cs = resolve (start (default.getD []) p) (components p)) :
    (∀ c ∈ cs, Name c) ∧
    (256 ≤ data.length →
      getAndCleanPath (default.map render) (root.map render) isLink data out = some (.error .bufferE)) ∧
    (data.length < 256 → (¬ ∀ k, fit out.length (resolve (start (default.getD []) p) ((components p).take k))) →
      getAndCleanPath (default.map render) (root.map render) isLink data out = some (.error .invalidPath)) ∧
    (data.length < 256 → (∀ k, fit out.length (resolve (start (default.getD []) p) ((components p).take k))) →
      ¬ Confined root isLink cs →
      getAndCleanPath (default.map render) (root.map render) isLink data out = some (.error .permissions)) ∧
    (data.length < 256 → (∀ k, fit out.length (resolve (start (default.getD []) p) ((components p).take k))) →
      Confined root isLink cs →
      getAndCleanPath (default.map render) (root.map render) isLink data out = some (.ok (render cs))) := by
  have hz : 0 ∉ p := hp ▸ str_no_zero data
  have hdn : ∀ c ∈ default.getD [], Name c := by
    cases default with
    | none => simp
    | some d => exact hd d rfl
  have hnames : ∀ c ∈ cs, Name c := by
    rw [hcs]
    exact resolve_names (start_names hdn p) (components_mem p hz)
  have hreal := realPath_cases default p out hd hz h2 hn
  rw [← hcs] at hreal
  refine ⟨hnames, ?_, ?_, ?_⟩
  · intro h
    unfold getAndCleanPath
    rw [if_pos (show data.length ≥ MAX_FILENAME from h)]
  · intro h hnf
    obtain ⟨mem, _, e⟩ := hreal.2 hnf
    unfold getAndCleanPath
    rw [if_neg (show ¬ data.length ≥ MAX_FILENAME by unfold MAX_FILENAME; omega), ← hp, e]
  · have main : data.length < 256 → (∀ k, fit out.length (resolve (start (default.getD []) p) ((components p).take k))) →
        (¬ Confined root isLink cs ∧
          getAndCleanPath (default.map render) (root.map render) isLink data out = some (.error .permissions)) ∨
        (Confined root isLink cs ∧
          getAndCleanPath (default.map render) (root.map render) isLink data out = some (.ok (render cs))) := by
      intro h hf
      obtain ⟨mem, cur, e, hh⟩ := hreal.1 hf
      unfold getAndCleanPath
      rw [if_neg (show ¬ data.length ≥ MAX_FILENAME by unfold MAX_FILENAME; omega), ← hp, e]
      dsimp only
      rw [hh.str_eq]
      cases root with
      | none => exact Or.inr ⟨(fun rcs h => nomatch h), rfl⟩
      | some rcs =>
        have hrn := hr rcs rfl
        simp only [Option.map_some]
        by_cases hr0 : rcs = []
        · subst hr0
          right
          refine ⟨?_, ?_⟩
          · intro x hx; cases hx; exact ⟨⟨cs, rfl⟩, fun h => absurd rfl h⟩
          · rw [if_neg (show ¬ cpLen (render []) (render []).length > 1 by decide), if_neg]
            rintro (h0 | h0)
            · have := render_pos cs; rw [h0] at this; simp at this
            · cases cs with
              | nil => exact absurd h0 (by decide)
              | cons c t => rw [render_eq _ (by simp), flat_cons] at h0; exact absurd h0 (by simp [isDelim])
        · rw [render_eq rcs hr0, cpLen_flat rcs hrn hr0]
          have h1 : (flat rcs).length > 1 := by
            have := render_pos rcs
            have h3 := render_len_one hrn
            rw [render_eq rcs hr0] at this h3
            have : ¬ (flat rcs).length = 1 := fun x => hr0 (h3.1 x)
            omega
          rw [if_pos h1]
          have hpt := prefix_test rcs cs hrn hnames hr0
          by_cases hpre : rcs <+: cs
          · rw [if_neg (hpt.2 hpre)]
            have hlk := hasLink_iff isLink rcs cs hnames hr0 hpre
            by_cases hl : hasLink isLink (render cs) (flat rcs).length = true
            · rw [if_pos hl]
              left
              refine ⟨?_, rfl⟩
              intro hconf
              obtain ⟨k, k1, k2, k3⟩ := hlk.1 hl
              have := (hconf rcs rfl).2 hr0 k k1 k2
              rw [k3] at this; cases this
            · rw [if_neg hl]
              right
              refine ⟨?_, rfl⟩
              intro x hx; cases hx
              refine ⟨hpre, fun _ k k1 k2 => ?_⟩
              cases hv : isLink (render (cs.take k)) with
              | false => rfl
              | true => exact absurd (hlk.2 ⟨k, k1, k2, hv⟩) hl
          · rw [if_pos (Classical.byContradiction fun hx => hpre (hpt.1 hx))]
            left
            exact ⟨fun hconf => hpre (hconf rcs rfl).1, rfl⟩
    constructor
    · intro h hf hc
      rcases main h hf with ⟨_, e⟩ | ⟨hc', _⟩
      · exact e
      · exact absurd hc' hc
    · intro h hf hc
      rcases main h hf with ⟨hc', _⟩ | ⟨_, e⟩
      · exact absurd hc hc'
      · exact e

/-! ## What the operating system does with a confined path -/

theorem walk_snoc {link : List Bytes → Prop} {a : List Bytes} {c : Bytes} {r : List Bytes} (h : Walk link (a ++ [c]) r) :
    ∃ r0, Walk link a r0 ∧ ((¬ link (r0 ++ [c]) ∧ r = r0 ++ [c]) ∨ link (r0 ++ [c])) := by
  generalize hx : a ++ [c] = x at h
  cases h with
  | root => simp at hx
  | @down a' r' c' h1 h2 =>
    obtain ⟨e1, e2⟩ := List.append_inj' hx rfl
    simp at e2; subst e1; subst e2
    exact ⟨r', h1, Or.inl ⟨h2, rfl⟩⟩
  | @follow a' r' c' _ h1 h2 =>
    obtain ⟨e1, e2⟩ := List.append_inj' hx rfl
    simp at e2; subst e1; subst e2
    exact ⟨r', h1, Or.inr h2⟩

/-- A walk without links below `rcs` ends below where `rcs` is. -/
theorem walk_stays {link : List Bytes → Prop} {rcs : List Bytes} : ∀ (n : Nat) (t : List Bytes), t.length = n →
    (∀ c ∈ rcs ++ t, Name c) →
    (∀ k, rcs.length < k → k ≤ (rcs ++ t).length → ¬ lstatLink link (render ((rcs ++ t).take k))) →
    ∀ r, Walk link (rcs ++ t) r → ∃ r0, Walk link rcs r0 ∧ r = r0 ++ t := by
  intro n
  induction n with
  | zero =>
    intro t ht _ _ r hw
    have : t = [] := List.length_eq_zero_iff.1 ht
    subst this
    exact ⟨r, by simpa using hw, by simp⟩
  | succ n ih =>
    intro t ht hn hl r hw
    have hne : t ≠ [] := by intro e; subst e; simp at ht
    obtain ⟨u, c, rfl⟩ : ∃ a c, t = a ++ [c] := ⟨t.dropLast, t.getLast hne, (List.dropLast_concat_getLast hne).symm⟩
    rw [← List.append_assoc] at hw
    obtain ⟨r0, h0, hcase⟩ := walk_snoc hw
    have hno : ¬ link (r0 ++ [c]) := by
      intro hlk
      apply hl (rcs ++ (u ++ [c])).length (by simp) (Nat.le_refl _)
      rw [List.take_length]
      exact ⟨rcs ++ u, c, r0, by simp, by simpa using hn, h0, hlk⟩
    obtain ⟨r1, h1, e1⟩ := ih u (by simp at ht; omega) (fun x hx => hn x (by simp at hx ⊢; rcases hx with h | h <;> simp [h]))
      (by
        intro k k1 k2
        have := hl k k1 (by simp at k2 ⊢; omega)
        rwa [← List.append_assoc, List.take_append_of_le_length k2] at this) r0 h0
    rcases hcase with ⟨_, e⟩ | hx
    · exact ⟨r1, h1, by rw [e, e1]; simp⟩
    · exact absurd hx hno

/-! ## `CanonicalizePath` -/

theorem getD_relative (p : Bytes) : (!isDelim (p.getD 0 0) && !isWinPath p) = relative p := by
  match p with
  | [] => decide
  | [a] => simp [relative, isDelim_eq, isWinPath]
  | a :: b :: r =>
    simp [relative, isDelim_eq, isWinPath]
    by_cases hb : b = 58 <;> simp [hb]

/-- `CanonicalizePath` never leaves memory and stores canonical paths only. -/
theorem canonicalizePath_ok (cwd : Option Bytes) (path : Bytes) (hz : 0 ∉ path) (hc : ∀ d, cwd = some d → 0 ∉ d) :
    ∃ res, canonicalizePath cwd path = some res ∧
      ∀ s, res = .ok s → path.length < 256 ∧ (relative path = true → cwd ≠ none) ∧
        Canonical s (resolve (start (resolve [] (components (cwd.getD []))) path) (components path)) := by
  unfold canonicalizePath
  dsimp only
  have hO : (List.replicate MAX_FILENAME (0 : Byte)).length = 256 := List.length_replicate
  by_cases hl : path.length ≥ MAX_FILENAME
  · rw [if_pos hl]; exact ⟨_, rfl, fun s h => by cases h⟩
  rw [if_neg hl, getD_relative]
  have hl' : path.length < 256 := by unfold MAX_FILENAME at hl; omega
  by_cases hrel : relative path = true
  · rw [if_pos hrel]
    cases hcw : cwd with
    | none => exact ⟨_, rfl, fun s h => by cases h⟩
    | some d =>
      dsimp only
      have h1 := realPath_cases none d (List.replicate MAX_FILENAME 0) (by intro _ h; cases h) (hc d hcw) (by omega) (by omega)
      by_cases hf : ∀ k, fit (List.replicate MAX_FILENAME (0 : Byte)).length (resolve (start ((none : Option (List Bytes)).getD []) d) ((components d).take k))
      · obtain ⟨mem, cur, e, hh⟩ := h1.1 hf
        rw [Option.map_none] at e
        rw [e]
        dsimp only
        have hst : start ((none : Option (List Bytes)).getD []) d = [] := by unfold start; split <;> rfl
        rw [hst] at hh
        rw [hh.str_eq]
        have hfit := hh.fits
        rw [if_neg (by rw [hO] at hfit; unfold MAX_FILENAME; omega)]
        have hml : mem.length = 256 := hh.len.trans hO
        have h3 := realPath_cases (some (resolve [] (components d))) path mem (by intro x h; cases h; exact hh.names) hz (by omega) (by omega)
        by_cases hf2 : ∀ k, fit mem.length (resolve (start ((some (resolve [] (components d))).getD []) path) ((components path).take k))
        · obtain ⟨mem2, cur2, e2, hh2⟩ := h3.1 hf2
          rw [Option.map_some] at e2
          rw [e2]
          dsimp only
          rw [hh2.str_eq]
          refine ⟨_, rfl, fun s h => ?_⟩
          cases h
          exact ⟨hl', by simp, rfl, hh2.names⟩
        · obtain ⟨mem2, _, e2⟩ := h3.2 hf2
          rw [Option.map_some] at e2
          rw [e2]
          exact ⟨_, rfl, fun s h => by cases h⟩
      · obtain ⟨mem, _, e⟩ := h1.2 hf
        rw [Option.map_none] at e
        rw [e]
        exact ⟨_, rfl, fun s h => by cases h⟩
  · rw [if_neg hrel]
    have h1 := realPath_cases none path (List.replicate MAX_FILENAME 0) (by intro _ h; cases h) hz (by omega) (by omega)
    have hst : ∀ x, start x path = [] := by intro x; unfold start; rw [if_neg hrel]
    simp only [hst] at h1 ⊢
    by_cases hf : ∀ k, fit (List.replicate MAX_FILENAME (0 : Byte)).length (resolve [] ((components path).take k))
    · obtain ⟨mem, cur, e, hh⟩ := h1.1 hf
      rw [Option.map_none] at e
      rw [e]
      dsimp only
      rw [hh.str_eq]
      refine ⟨_, rfl, fun s h => ?_⟩
      cases h
      exact ⟨hl', fun x => absurd x hrel, rfl, hh.names⟩
    · obtain ⟨mem, _, e⟩ := h1.2 hf
      rw [Option.map_none] at e
      rw [e]
      exact ⟨_, rfl, fun s h => by cases h⟩

end Proofs.Path
