import Verif.Spec.IdentKey
/-!
# C153, C154: telling the type of a key
-/

namespace Props.IdentKey
open Wolf.IdentKey Spec.IdentKey

private theorem curve_iff (c : Curve) (i : Id) : Named c i ↔ curveId c = some i := by
  constructor
  · intro h; cases h <;> rfl
  · intro h; cases c <;> simp only [curveId, Option.some.injEq, reduceCtorEq] at h <;> subst h <;> constructor

private theorem level_iff (l : Lvl) (i : Id) : OfLevel l i ↔ levelId l = i := by
  constructor
  · intro h; cases h <;> rfl
  · intro h; subst h; cases l <;> constructor

private theorem after_append (m : Mem) (a b : List Ev) : after m (a ++ b) = (after m a).bind fun m => after m b := by
  induction a generalizing m with
  | nil => rfl
  | cons x a ih =>
    rw [List.cons_append, after, after]
    cases step m x with
    | none => rfl
    | some m' => exact ih m'

private theorem after_at {tr : List Ev} {m : Mem} (h : after .gone tr = some m) (x : List Ev) : after .gone (tr ++ x) = after m x := by
  rw [after_append, h]; rfl

/-- Nothing decided yet. -/
private def Open (s : St) : Prop := s.id = none ∧ s.noPub = false ∧ after .gone s.tr = some .empty

/-- What one block does to an open state. -/
private def Step (e : Env) (k : Kind) (s : St) : Prop :=
  (∃ i, Takes e k i ∧ Object i = k ∧ s.id = some i ∧ s.noPub = false ∧ after .gone s.tr = some (.holds k)) ∨
  (Refuses e k ∧ s.id = none ∧ s.noPub = true ∧ after .gone s.tr = some .empty) ∨
  ((∀ i, ¬ Takes e k i) ∧ ¬ Refuses e k ∧ Open s)

private theorem step_rsa (e : Env) (s : St) (h : Open s) : Step e .rsa (tryRsa e s) := by
  obtain ⟨h1, h2, h3⟩ := h
  unfold tryRsa
  by_cases a : e.rsa = true
  · rw [if_pos ⟨a, h1⟩]
    by_cases b : e.rsaInit = true
    · rw [if_pos b]
      by_cases c : e.rsaDec e.isPrivate = true
      · rw [if_pos c]
        exact .inl ⟨.rsa, ⟨a, b, c, rfl⟩, rfl, rfl, h2, after_at h3 _⟩
      · rw [if_neg c]
        exact .inr (.inr ⟨fun i t => c t.2.2.1, id, h1, h2, after_at h3 _⟩)
    · rw [if_neg b]
      exact .inr (.inr ⟨fun i t => b t.2.1, id, h1, h2, h3⟩)
  · rw [if_neg (fun t => a t.1)]
    exact .inr (.inr ⟨fun i t => a t.1, id, h1, h2, h3⟩)

private theorem curve_obj {c : Curve} {i : Id} (h : curveId c = some i) : Object i = .ecc := by
  cases (curve_iff c i).2 h <;> rfl

private theorem step_ecc (e : Env) (s : St) (h : Open s) : Step e .ecc (tryEcc e s) := by
  obtain ⟨h1, h2, h3⟩ := h
  unfold tryEcc
  by_cases a : e.ecdsa = true
  · rw [if_pos ⟨a, h1⟩]
    by_cases b : e.eccInit = true
    · rw [if_pos b]
      cases c : (e.eccDec e.isPrivate).bind curveId with
      | none =>
        refine .inr (.inr ⟨?_, ?_, h1, h2, after_at h3 _⟩)
        · rintro i ⟨_, _, ⟨x, hx, hn⟩, _⟩
          rw [hx] at c
          rw [show (some x).bind curveId = curveId x from rfl, (curve_iff x i).1 hn] at c
          cases c
        · rintro ⟨hp, _, _, ⟨x, i, hx, hn⟩, _⟩
          rw [hp, hx] at c
          rw [show (some x).bind curveId = curveId x from rfl, (curve_iff x i).1 hn] at c
          cases c
      | some i =>
        obtain ⟨x, hx, hi⟩ := Option.bind_eq_some_iff.1 c
        simp only
        by_cases d : e.isPrivate = true ∧ e.eccPrivOnly = true ∧ e.eccMakePub = false
        · rw [if_pos d]
          refine .inr (.inl ⟨⟨d.1, a, b, ⟨x, i, ?_, (curve_iff x i).2 hi⟩, d.2⟩, h1, rfl, after_at h3 _⟩)
          rw [← d.1]; exact hx
        · rw [if_neg d]
          refine .inl ⟨i, ⟨a, b, ⟨x, hx, (curve_iff x i).2 hi⟩, fun p q => ?_⟩, curve_obj hi, rfl, h2, after_at h3 _⟩
          cases m : e.eccMakePub with
          | true => rfl
          | false => exact absurd ⟨p, q, m⟩ d
    · rw [if_neg b]
      exact .inr (.inr ⟨fun i t => b t.2.1, fun t => b t.2.2.1, h1, h2, h3⟩)
  · rw [if_neg (fun t => a t.1)]
    exact .inr (.inr ⟨fun i t => a t.1, fun t => a t.2.1, h1, h2, h3⟩)

/-- The loop over the levels, starting and ending with an object, but for a failing initialisation. -/
private theorem probe_spec (e : Env) (ls : List Lvl) :
    (∃ a l b, ls = a ++ l :: b ∧ (∀ x ∈ a, e.again x = true ∧ e.raw x = false) ∧ e.again l = true ∧ e.raw l = true ∧
      (probe e ls).1 = some (levelId l) ∧ (probe e ls).2.1 = true ∧ after (.holds .mldsa) (probe e ls).2.2 = some (.holds .mldsa)) ∨
    ((¬ ∃ a l b, ls = a ++ l :: b ∧ (∀ x ∈ a, e.again x = true ∧ e.raw x = false) ∧ e.again l = true ∧ e.raw l = true) ∧
      (probe e ls).1 = none ∧
      after (.holds .mldsa) (probe e ls).2.2 = some (if (probe e ls).2.1 then .holds .mldsa else .empty)) := by
  induction ls with
  | nil =>
    refine .inr ⟨?_, rfl, rfl⟩
    rintro ⟨a, l, b, h, _⟩
    cases a <;> cases h
  | cons l ls ih =>
    rw [probe]
    by_cases h1 : e.again l = false
    · rw [if_pos h1]
      refine .inr ⟨?_, rfl, rfl⟩
      rintro ⟨a, x, b, h, ha, hx, _⟩
      cases a with
      | nil => injection h with h _; rw [← h, h1] at hx; cases hx
      | cons y a =>
        injection h with h _
        have := (ha y (List.mem_cons_self ..)).1
        rw [← h, h1] at this; cases this
    · rw [if_neg h1]
      have h1' : e.again l = true := eq_true_of_ne_false h1
      by_cases h2 : e.raw l = true
      · rw [if_pos h2]
        exact .inl ⟨[], l, ls, rfl, by simp, h1', h2, rfl, rfl, rfl⟩
      · rw [if_neg h2]
        have h2' : e.raw l = false := eq_false_of_ne_true h2
        rcases ih with ⟨a, x, b, hl, ha, hx, hr, p1, p2, p3⟩ | ⟨hn, p1, p3⟩
        · refine .inl ⟨l :: a, x, b, by rw [hl]; rfl, ?_, hx, hr, p1, p2, p3⟩
          intro y hy
          rcases List.mem_cons.1 hy with rfl | hy
          · exact ⟨h1', h2'⟩
          · exact ha y hy
        · refine .inr ⟨?_, p1, p3⟩
          rintro ⟨a, x, b, h, ha, hx, hr⟩
          cases a with
          | nil => injection h with h _; rw [← h] at hr; exact h2 hr
          | cons y a =>
            injection h with _ h
            exact hn ⟨a, x, b, h, fun z hz => ha z (List.mem_cons_of_mem _ hz), hx, hr⟩

private theorem level_obj (l : Lvl) : Object (levelId l) = .mldsa := by cases l <;> rfl

private theorem told_step (e : Env) (s : St) (h : Open s) (a : e.mldsa = true) (b : e.mlInit = true)
    (c : if e.isPrivate then e.mlPriv = some true else e.mlPub = true) : Step e .mldsa (told e s) := by
  obtain ⟨h1, h2, h3⟩ := h
  unfold told
  cases p : e.params with
  | some l =>
    exact .inl ⟨levelId l, ⟨a, b, .inl ⟨c, l, p, (level_iff ..).2 rfl⟩⟩, level_obj l, rfl, h2, after_at h3 _⟩
  | none =>
    refine .inr (.inr ⟨?_, ?_, h1, h2, after_at h3 _⟩)
    · rintro i ⟨_, _, ⟨_, l, hl, _⟩ | ⟨x, y, _⟩⟩
      · rw [p] at hl; cases hl
      · rw [x] at c; simp only [Bool.false_eq_true, if_false] at c; rw [y] at c; cases c
    · rintro ⟨x, _, _, y⟩
      rw [if_pos x, y] at c; cases c

private theorem step_ml (e : Env) (s : St) (h : Open s) : Step e .mldsa (tryMl e s) := by
  have h0 := h
  obtain ⟨h1, h2, h3⟩ := h
  unfold tryMl
  by_cases a : e.mldsa = true
  · rw [if_pos ⟨a, h1, h2⟩]
    by_cases b : e.mlInit = true
    · rw [if_pos b]
      by_cases c : e.isPrivate = true
      · rw [if_pos c]
        cases d : e.mlPriv with
        | none =>
          refine .inr (.inr ⟨?_, ?_, h1, h2, after_at h3 _⟩)
          · rintro i ⟨_, _, ⟨x, _⟩ | ⟨x, _⟩⟩
            · rw [if_pos c, d] at x; cases x
            · rw [c] at x; cases x
          · rintro ⟨_, _, _, x⟩; rw [d] at x; cases x
        | some p =>
          cases p with
          | false => exact .inr (.inl ⟨⟨c, a, b, d⟩, h1, rfl, after_at h3 _⟩)
          | true => exact told_step e s h0 a b (by rw [if_pos c]; exact d)
      · rw [if_neg c]
        by_cases d : e.mlPub = true
        · rw [if_pos d]
          exact told_step e s h0 a b (by rw [if_neg c]; exact d)
        · rw [if_neg d]
          have c' : e.isPrivate = false := eq_false_of_ne_true c
          have d' : e.mlPub = false := eq_false_of_ne_true d
          rcases probe_spec e (levels e) with ⟨x, l, y, hl, hx, ha, hr, p1, p2, p3⟩ | ⟨hn, p1, p3⟩
          · refine .inl ⟨levelId l, ⟨a, b, .inr ⟨c', d', x, l, y, hl, hx, ha, hr, (level_iff ..).2 rfl⟩⟩, level_obj l, p1, h2, ?_⟩
            rw [after_at h3]
            rw [p1, if_neg (by simp), List.append_nil]
            exact p3
          · refine .inr (.inr ⟨?_, fun t => c t.1, p1, h2, ?_⟩)
            · rintro i ⟨_, _, ⟨x, _⟩ | ⟨_, _, x, l, y, t1, t2, t3, t4, _⟩⟩
              · rw [if_neg c] at x; exact d x
              · exact hn ⟨x, l, y, t1, t2, t3, t4⟩
            · show after .gone (s.tr ++ _) = _
              rw [after_at h3, p1, List.cons_append, after]
              show after (.holds .mldsa) _ = _
              rw [after_append, p3]
              cases (probe e (levels e)).2.1 <;> rfl
    · rw [if_neg b]
      exact .inr (.inr ⟨fun i t => b t.2.1, fun t => b t.2.2.1, h1, h2, h3⟩)
  · rw [if_neg (fun t => a t.1)]
    exact .inr (.inr ⟨fun i t => a t.1, fun t => a t.2.1, h1, h2, h3⟩)

private theorem step_ed (e : Env) (s : St) (h : Open s) : Step e .ed (tryEd e s) := by
  obtain ⟨h1, h2, h3⟩ := h
  unfold tryEd
  by_cases a : e.ed = true
  · rw [if_pos ⟨a, h1, h2⟩]
    by_cases b : e.edInit = true
    · rw [if_pos b]
      by_cases c : e.isPrivate = true
      · rw [if_pos c]
        cases d : e.edPriv with
        | none =>
          refine .inr (.inr ⟨?_, ?_, h1, h2, after_at h3 _⟩)
          · rintro i ⟨_, _, x, _⟩
            rw [if_pos c, d] at x
            rcases x with x | ⟨x, _⟩ <;> cases x
          · rintro ⟨_, _, _, x, _⟩; rw [d] at x; cases x
        | some p =>
          simp only
          by_cases q : p = true ∨ e.edMake = true
          · rw [if_pos q]
            refine .inl ⟨.ed25519, ⟨a, b, ?_, rfl⟩, rfl, rfl, h2, after_at h3 _⟩
            rw [if_pos c, d]
            cases p with
            | true => exact .inl rfl
            | false => exact .inr ⟨rfl, q.resolve_left (by decide)⟩
          · rw [if_neg q]
            have q1 : p = false := eq_false_of_ne_true (fun h => q (.inl h))
            have q2 : e.edMake = false := eq_false_of_ne_true (fun h => q (.inr h))
            exact .inr (.inl ⟨⟨c, a, b, by rw [d, q1], q2⟩, h1, rfl, after_at h3 _⟩)
      · rw [if_neg c]
        by_cases d : e.edPub = true
        · rw [if_pos d]
          exact .inl ⟨.ed25519, ⟨a, b, by rw [if_neg c]; exact d, rfl⟩, rfl, rfl, h2, after_at h3 _⟩
        · rw [if_neg d]
          refine .inr (.inr ⟨?_, fun t => c t.1, h1, h2, after_at h3 _⟩)
          rintro i ⟨_, _, x, _⟩
          rw [if_neg c] at x; exact d x
    · rw [if_neg b]
      exact .inr (.inr ⟨fun i t => b t.2.1, fun t => b t.2.2.1, h1, h2, h3⟩)
  · rw [if_neg (fun t => a t.1)]
    exact .inr (.inr ⟨fun i t => a t.1, fun t => a t.2.1, h1, h2, h3⟩)

/-- Blocks behind a decision do nothing. -/
private theorem ecc_done (e : Env) (s : St) (h : s.id ≠ none) : tryEcc e s = s := by
  unfold tryEcc; rw [if_neg (fun t => h t.2)]

private theorem ml_done (e : Env) (s : St) (h : s.id ≠ none ∨ s.noPub = true) : tryMl e s = s := by
  unfold tryMl
  rw [if_neg (fun t => by
    rcases h with h | h
    · exact h t.2.1
    · rw [t.2.2] at h; cases h)]

private theorem ed_done (e : Env) (s : St) (h : s.id ≠ none ∨ s.noPub = true) : tryEd e s = s := by
  unfold tryEd
  rw [if_neg (fun t => by
    rcases h with h | h
    · exact h t.2.1
    · rw [t.2.2] at h; cases h)]

/-- The end of all blocks. -/
private def Done (e : Env) (ks : List Kind) (s : St) : Prop :=
  (∃ i, Decides e ks (.key i) ∧ s.id = some i ∧ after .gone s.tr = some (.holds (Object i))) ∨
  (s.id = none ∧ Decides e ks (if s.noPub then .crypto else .unimplemented) ∧ after .gone s.tr = some .empty)

private theorem done_next {e : Env} {k : Kind} {ks : List Kind} {s : St} (h1 : ∀ i, ¬ Takes e k i) (h2 : ¬ Refuses e k)
    (h : Done e ks s) : Done e (k :: ks) s := by
  rcases h with ⟨i, hd, h⟩ | ⟨hi, hd, h⟩
  · exact .inl ⟨i, .next h1 h2 hd, h⟩
  · exact .inr ⟨hi, .next h1 h2 hd, h⟩

private theorem done_step {e : Env} {k : Kind} {ks : List Kind} {s : St} (f : St → St) (h : Step e k s)
    (hf : s.id ≠ none ∨ (s.noPub = true ∧ Refuses e k) → f s = s) (hn : Open s → Done e ks (f s)) : Done e (k :: ks) (f s) := by
  rcases h with ⟨i, ht, ho, hi, _, ha⟩ | ⟨hr, hi, hp, ha⟩ | ⟨h1, h2, h⟩
  · rw [hf (.inl (by rw [hi]; simp))]
    exact .inl ⟨i, .takes ht, hi, by rw [ho]; exact ha⟩
  · rw [hf (.inr ⟨hp, hr⟩)]
    exact .inr ⟨hi, by rw [hp]; exact .refuses hr, ha⟩
  · exact done_next h1 h2 (hn h)

private theorem all_done (e : Env) : Done e [.rsa, .ecc, .mldsa, .ed] (tryAll e) := by
  unfold tryAll
  refine done_step (fun s => tryEd e (tryMl e (tryEcc e s))) (step_rsa e _ ⟨rfl, rfl, rfl⟩) ?_ (fun o1 => ?_)
  · rintro (h | ⟨_, h⟩)
    · rw [ecc_done e _ h, ml_done e _ (.inl h), ed_done e _ (.inl h)]
    · exact h.elim
  refine done_step (fun s => tryEd e (tryMl e s)) (step_ecc e _ o1) ?_ (fun o2 => ?_)
  · intro h
    have h : _ ∨ _ := h.imp id And.left
    rw [ml_done e _ h, ed_done e _ h]
  refine done_step (fun s => tryEd e s) (step_ml e _ o2) ?_ (fun o3 => ?_)
  · intro h
    exact ed_done e _ (h.imp id And.left)
  refine done_step (fun s => s) (step_ed e _ o3) (fun _ => rfl) (fun o4 => ?_)
  exact .inr ⟨o4.1, by rw [o4.2.1]; exact .nothing, o4.2.2⟩

private theorem clean_obj (i : Id) : after (.holds (Object i)) (clean (some i) ++ [.release]) = some .gone := by
  cases i <;> rfl

private theorem takes_unique {e : Env} {k : Kind} {i j : Id} (h : Takes e k i) (h' : Takes e k j) : i = j := by
  cases k with
  | rsa => rw [h.2.2.2, h'.2.2.2]
  | ed => rw [h.2.2.2, h'.2.2.2]
  | ecc =>
    obtain ⟨_, _, ⟨c, hc, hn⟩, _⟩ := h
    obtain ⟨_, _, ⟨c', hc', hn'⟩, _⟩ := h'
    rw [hc] at hc'
    injection hc' with hc'
    subst hc'
    rw [curve_iff] at hn hn'
    rw [hn] at hn'
    injection hn'
  | mldsa =>
    have aux : ∀ (a a' b b' : List Lvl) (l l' : Lvl), a ++ l :: b = a' ++ l' :: b' → (∀ x ∈ a, e.raw x = false) →
        (∀ x ∈ a', e.raw x = false) → e.raw l = true → e.raw l' = true → l = l' := by
      intro a
      induction a with
      | nil =>
        intro a' b b' l l' h _ h2 h3 _
        cases a' with
        | nil => injection h
        | cons y a' =>
          injection h with h _
          have := h2 y (List.mem_cons_self ..)
          rw [← h, h3] at this; cases this
      | cons x a ih =>
        intro a' b b' l l' h h1 h2 h3 h4
        cases a' with
        | nil =>
          injection h with h _
          have := h1 x (List.mem_cons_self ..)
          rw [h, h4] at this; cases this
        | cons y a' =>
          injection h with _ h
          exact ih a' b b' l l' h (fun z hz => h1 z (List.mem_cons_of_mem _ hz)) (fun z hz => h2 z (List.mem_cons_of_mem _ hz)) h3 h4
    obtain ⟨_, _, h⟩ := h
    obtain ⟨_, _, h'⟩ := h'
    have no : (if e.isPrivate then e.mlPriv = some true else e.mlPub = true) → e.isPrivate = false → e.mlPub = false → False := by
      intro x y z
      rw [y] at x; simp only [Bool.false_eq_true, if_false] at x; rw [z] at x; cases x
    rcases h with ⟨g, l, hl, ho⟩ | ⟨g1, g2, a, l, b, hl, ha, _, hr, ho⟩
    · rcases h' with ⟨_, l', hl', ho'⟩ | ⟨g1, g2, _⟩
      · rw [hl] at hl'
        injection hl' with hl'
        subst hl'
        rw [level_iff] at ho ho'
        rw [← ho, ho']
      · exact (no g g1 g2).elim
    · rcases h' with ⟨g, _⟩ | ⟨_, _, a', l', b', hl', ha', _, hr', ho'⟩
      · exact (no g g1 g2).elim
      · have := aux a a' b b' l l' (hl.symm.trans hl') (fun x hx => (ha x hx).2) (fun x hx => (ha' x hx).2) hr hr'
        subst this
        rw [level_iff] at ho ho'
        rw [← ho, ho']

private theorem takes_refuses {e : Env} {k : Kind} {i : Id} (h : Takes e k i) (h' : Refuses e k) : False := by
  cases k with
  | rsa => exact h'
  | ecc =>
    have := h.2.2.2 h'.1 h'.2.2.2.2.1
    rw [h'.2.2.2.2.2] at this; cases this
  | mldsa =>
    obtain ⟨_, _, ⟨x, _⟩ | ⟨x, _⟩⟩ := h
    · rw [if_pos h'.1, h'.2.2.2] at x; cases x
    · rw [h'.1] at x; cases x
  | ed =>
    obtain ⟨_, _, x, _⟩ := h
    rw [if_pos h'.1] at x
    rcases x with x | ⟨_, x⟩
    · rw [h'.2.2.2.1] at x; cases x
    · rw [h'.2.2.2.2] at x; cases x

/-- C153: only one answer is right. -/
theorem C153_unique (e : Env) (ks : List Kind) (r r' : Ret) (h : Decides e ks r) (h' : Decides e ks r') : r = r' := by
  induction h with
  | nothing => cases h'; rfl
  | takes t =>
    cases h' with
    | takes t' => rw [takes_unique t t']
    | refuses t' => exact (takes_refuses t t').elim
    | next t' => exact absurd t (t' _)
  | refuses t =>
    cases h' with
    | takes t' => exact (takes_refuses t' t).elim
    | refuses t' => rfl
    | next _ t' => exact absurd t t'
  | next t1 t2 _ ih =>
    cases h' with
    | takes t' => exact absurd t' (t1 _)
    | refuses t' => exact absurd t' t2
    | next _ _ t' => exact ih t'

/-- C153: with memory, the answer is that of the first kind, in the order RSA, ECDSA, ML-DSA, Ed25519, that takes or refuses the
key; and that only. -/
theorem C153 (e : Env) (ha : e.alloc = true) (r : Ret) : (identify e).1 = r ↔ Decides e [.rsa, .ecc, .mldsa, .ed] r := by
  have h : Decides e [.rsa, .ecc, .mldsa, .ed] (identify e).1 := by
    unfold identify
    rw [if_neg (by rw [ha]; decide)]
    rcases all_done e with ⟨i, hd, hi, _⟩ | ⟨hi, hd, _⟩
    · rw [hi]
      simp only
      by_cases w : e.wanted = true
      · rw [if_pos w]; exact hd
      · rw [if_neg w]; exact hd
    · rw [hi]; exact hd
  exact ⟨fun x => x ▸ h, fun x => C153_unique e _ _ _ h x⟩

/-- C154: of what is allocated and initialised, everything is freed once, and nothing is used as another object; but if the type is
told and the key is wanted, the caller has it, with the object of that type in it. -/
theorem C154 (e : Env) : after .gone (identify e).2.2 = some (match (identify e).1 with
      | .key i => if e.wanted then .holds (Object i) else .gone
      | _ => .gone) ∧
    ((identify e).2.1 = true ↔ e.wanted = true ∧ ∃ i, (identify e).1 = .key i) := by
  unfold identify
  by_cases ha : e.alloc = false
  · rw [if_pos ha]
    exact ⟨rfl, (fun h => by cases h), (fun ⟨_, i, h⟩ => by cases h)⟩
  rw [if_neg ha]
  rcases all_done e with ⟨i, _, hi, hm⟩ | ⟨hi, _, hm⟩
  · rw [hi]
    simp only
    by_cases w : e.wanted = true
    · rw [if_pos w]
      exact ⟨by simp only [w, if_true]; exact hm, fun _ => ⟨w, i, rfl⟩, fun _ => rfl⟩
    · rw [if_neg w]
      refine ⟨?_, (fun h => by cases h), fun h => absurd h.1 w⟩
      simp only [List.append_assoc]
      rw [after_at hm, clean_obj, if_neg w]
  · rw [hi]
    simp only
    have hr : ∀ i, (if (tryAll e).noPub = true then Ret.crypto else .unimplemented) ≠ .key i := by
      intro i; split <;> exact (fun h => by cases h)
    refine ⟨?_, (fun h => by cases h), fun ⟨_, i, h⟩ => absurd h (hr i)⟩
    rw [List.append_assoc, after_at hm]
    cases (tryAll e).noPub <;> rfl

/-- A build with everything, and an input that no decoder knows. -/
def env : Env where
  rsa := true
  ecdsa := true
  mldsa := true
  level := fun _ => true
  ed := true
  edMake := false
  isPrivate := true
  wanted := false
  alloc := true
  rsaInit := true
  rsaDec := fun _ => false
  eccInit := true
  eccDec := fun _ => none
  eccPrivOnly := false
  eccMakePub := false
  mlInit := true
  mlPriv := none
  mlPub := false
  params := none
  again := fun _ => true
  raw := fun _ => false
  edInit := true
  edPriv := none
  edPub := false

/-- A private key without its public key is refused, and is not taken for one of another kind. -/
example : (identify { env with mlPriv := some false, edPriv := some true }).1 = .crypto ∧
    (identify { env with eccDec := fun _ => some .secp384r1, eccPrivOnly := true, edPriv := some true }).1 = .crypto ∧
    (identify { env with eccDec := fun _ => some .secp384r1, eccPrivOnly := true, eccMakePub := true }).1 = .key .p384 ∧
    (identify { env with eccDec := fun _ => some .other, edPriv := some true }).1 = .key .ed25519 ∧
    (identify env).1 = .unimplemented := by decide

/-- A raw public key of ML-DSA, wanted: two objects are freed, the third is kept. -/
example : identify { env with isPrivate := false, wanted := true, raw := fun l => l == .l65 } =
    (.key .ml65, true, [.alloc, .init .rsa, .free .rsa, .init .ecc, .free .ecc, .init .mldsa, .free .mldsa, .init .mldsa,
      .free .mldsa, .init .mldsa]) := by decide

/-- An object of ML-DSA that cannot be initialised again is not freed again, and Ed25519 is tried. -/
example : identify { env with isPrivate := false, again := fun _ => false, edPub := true } =
    (.key .ed25519, false, [.alloc, .init .rsa, .free .rsa, .init .ecc, .free .ecc, .init .mldsa, .free .mldsa, .init .ed,
      .free .ed, .release]) := by decide

/-- The order counts: an input that two decoders know. -/
example : Decides { env with rsaDec := fun _ => true, edPriv := some true } [.rsa, .ecc, .mldsa, .ed] (.key .rsa) :=
  .takes ⟨rfl, rfl, rfl, rfl⟩

end Props.IdentKey
