import Verif.Proofs.CleanAbs
/-!
# `wolfSSH_CleanPath` on a canonical path and on its parent
-/

namespace Proofs.Path
open Wolf Wolf.Path Spec.Path

/-- Names without ':' (which `wolfSSH_CleanPath` takes for the end of a drive). -/
def Simple (cs : List Bytes) : Prop := ∀ c ∈ cs, c ≠ [] ∧ c ≠ [46] ∧ c ≠ [46, 46] ∧ ∀ b ∈ c, b ≠ 47 ∧ b ≠ 58 ∧ b ≠ 0

theorem undotP_id : ∀ (qs : List Bytes), [46] ∉ qs → undotP qs = qs
  | [], _ => rfl
  | [_], _ => rfl
  | q :: q2 :: qs, h => by
    simp only [List.mem_cons, not_or] at h
    rw [undotP, if_neg (fun e => h.1 e.symm), undotP_id (q2 :: qs) (by simp [h.2])]

theorem undupP_id : ∀ (qs : List Bytes), [] ∉ qs → undupP qs = qs
  | [], _ => rfl
  | [_], _ => rfl
  | q :: q2 :: qs, h => by
    simp only [List.mem_cons, not_or] at h
    rw [undupP, if_neg (fun e => h.1 e.symm), undupP_id (q2 :: qs) (by simp [h.2])]

theorem tidy_flat (qs : List Bytes) (hne : qs ≠ []) (hf : ∀ q ∈ qs, ∀ b ∈ q, b ≠ 47) (h1 : [46] ∉ qs) (h2 : [] ∉ qs) :
    tidy (flat qs) = flat qs := by
  have e0 : flat qs = 47 :: joined qs := by
    cases qs with
    | nil => exact absurd rfl hne
    | cons q qs => simp [flat_cons, joined]
  have e1 := (undot_flat qs hne hf).1
  rw [undotP_id qs h1] at e1
  have e2 := (undup_flat qs hne hf).1
  rw [undupP_id qs h2] at e2
  unfold tidy
  rw [show undots (flat qs) = flat qs by rw [e0]; show 47 :: undot 47 (joined qs) = _; rw [e1, e0], e2]

theorem cut_root (s' : Bytes) : ¬ Cut [47] s' := by
  intro h
  obtain ⟨p, u, pr, e, _⟩ := h.ex
  have := congrArg List.length e
  simp at this
  omega

theorem cut_simple (cs : List Bytes) (hs : Simple cs) (s' : Bytes) : ¬ Cut (flat cs) s' := by
  intro h
  obtain ⟨p, u, pr, e, hu, hp, _⟩ := h.ex
  have hf47 : ∀ q ∈ cs, ∀ b ∈ q, b ≠ 47 := fun q hq b hb => ((hs q hq).2.2.2 b hb).1
  obtain ⟨c, b0, hq, hp0, hb0⟩ := flat_split cs p _ hf47 e
  obtain ⟨b, hb1, hb2⟩ := dd_flat (fun q hx => hf47 q (by simp [hq, hx])) u hu hb0
  exact (hs [46, 46] (by rw [hq, hb1]; simp)).2.2.1 rfl

theorem split_last {α : Type} {x : α} : ∀ (cs c b : List α), x ∉ cs → cs ++ [x] = c ++ x :: b → c = cs ∧ b = []
  | [], [], b, _, h => by simpa using h.symm
  | [], y :: c, b, _, h => by
    simp only [List.nil_append, List.cons_append, List.cons.injEq] at h
    have := congrArg List.length h.2
    simp at this
  | y :: cs, [], b, hx, h => by
    simp only [List.cons_append, List.nil_append, List.cons.injEq] at h
    exact absurd (by rw [h.1]; exact List.mem_cons_self) hx
  | y :: cs, z :: c, b, hx, h => by
    simp only [List.cons_append, List.cons.injEq] at h
    obtain ⟨h1, h2⟩ := split_last cs c b (fun e => hx (List.mem_cons_of_mem _ e)) h.2
    exact ⟨by rw [h1, h.1], h2⟩

theorem cut_parent (a : List Bytes) (x : Bytes) (hs : Simple (a ++ [x])) (s' : Bytes)
    (h : Cut (flat (a ++ [x] ++ [[46, 46]])) s') : s' = orRoot (flat a) := by
  obtain ⟨p, u, pr, e, hu, hp, hfirst, hpr, hpr1, hpr2, e'⟩ := h.ex
  have hf47 : ∀ q ∈ a ++ [x] ++ [[46, 46]], ∀ b ∈ q, b ≠ 47 := by
    intro q hq b hb
    rcases List.mem_append.mp hq with hq | hq
    · exact ((hs q hq).2.2.2 b hb).1
    · simp only [List.mem_singleton] at hq
      rw [hq] at hb
      simp at hb
      rw [hb]; decide
  obtain ⟨c, b0, hq, hp0, hb0⟩ := flat_split _ p _ hf47 e
  obtain ⟨b, hb1, hb2⟩ := dd_flat (fun q hx => hf47 q (by rw [hq]; simp [hx])) u hu hb0
  rw [hb1] at hq
  obtain ⟨rfl, rfl⟩ := split_last _ _ _ (fun hm => (hs _ hm).2.2.1 rfl) hq
  have hxf : ∀ y ∈ x, y ≠ 47 ∧ y ≠ 58 := fun y hy => ⟨((hs x (by simp)).2.2.2 y hy).1, ((hs x (by simp)).2.2.2 y hy).2.1⟩
  rw [flat_snoc] at hp0
  have hplen : p.length = (flat a).length + 1 + x.length := by rw [hp0]; simp; omega
  have hpre : pr = (flat a).length := by
    rcases Nat.lt_trichotomy pr (flat a).length with hlt | heq | hgt
    · exfalso
      have := (hpr2 (flat a).length hlt (by omega)).1
      apply this
      rw [hp0]; simp
    · exact heq
    · exfalso
      have hin : p.getD pr 0 ∈ x := by
        rw [hp0, List.getD_eq_getElem?_getD, List.getElem?_append_right (by omega)]
        obtain ⟨j, hj⟩ : ∃ j, pr - (flat a).length = j + 1 := ⟨pr - (flat a).length - 1, by omega⟩
        rw [hj, List.getElem?_cons_succ, List.getElem?_eq_getElem (show j < x.length by omega)]
        simp
      rcases hpr1 (by omega) with h47 | h58
      · exact (hxf _ hin).1 h47
      · exact (hxf _ hin).2 h58
  have htake : p.take pr = flat a := by rw [hp0, hpre]; simp
  rw [htake, ← hb2, flat_nil, List.append_nil] at e'
  exact e'

theorem render_flat (cs : List Bytes) : render cs = orRoot (flat cs) := by
  cases cs with
  | nil => rfl
  | cons c cs => simp [render, orRoot, flat]

theorem cuts_render {cs : List Bytes} (hs : Simple cs) {s : Bytes} (h : Cuts (render cs) s) : s = render cs := by
  cases h with
  | done _ => rfl
  | cut h _ =>
    cases cs with
    | nil => exact absurd h (cut_root _)
    | cons c cs => exact absurd h (cut_simple (c :: cs) hs _)

theorem unslash_render {cs : List Bytes} (hs : Simple cs) : unslash (render cs) = render cs := by
  unfold unslash
  rw [if_neg]
  rintro ⟨h1, h2⟩
  rcases List.eq_nil_or_concat cs with e | ⟨a, x, e⟩
  · rw [e] at h1; simp [render] at h1
  · rw [List.concat_eq_append] at e
    subst e
    have hx := hs x (by simp)
    have hr : render (a ++ [x]) = flat a ++ 47 :: x := by
      rw [render_flat]; unfold orRoot; rw [if_neg (by rw [flat_snoc]; simp), flat_snoc]
    rw [hr] at h2
    obtain ⟨y, z, hyz⟩ : ∃ y z, x = y ++ [z] := ⟨x.dropLast, x.getLast hx.1, (List.dropLast_concat_getLast hx.1).symm⟩
    rw [hyz] at h2
    have hl : flat a ++ 47 :: (y ++ [z]) = (flat a ++ 47 :: y) ++ [z] := by simp
    rw [hl] at h2
    simp at h2
    exact ((hx.2.2.2 z (by rw [hyz]; simp)).1) h2

theorem simple_zero {cs : List Bytes} (hs : Simple cs) : 0 ∉ flat cs := by
  intro h
  simp only [flat, List.mem_flatMap, List.mem_cons] at h
  obtain ⟨c, hc, h | h⟩ := h
  · exact absurd h (by decide)
  · exact ((hs c hc).2.2.2 0 h).2.2 rfl

/-- A canonical path is left as it is. -/
theorem clean_same (cs : List Bytes) (hne : cs ≠ []) (hs : Simple cs) (inSz : Nat) (junk : Byte) (hl : (render cs).length < inSz) :
    cleanPath (render cs) inSz junk = some (.ok (render cs)) := by
  have hr : render cs = flat cs := by rw [render_flat]; unfold orRoot; rw [if_neg (flat_ne hne)]
  obtain ⟨s, hc, e⟩ := cleanPath_ok (render cs) inSz junk (by rw [hr]; exact simple_zero hs) (by omega)
  rw [hr, tidy_flat cs hne (fun q hq b hb => ((hs q hq).2.2.2 b hb).1) (fun h => (hs _ h).2.1 rfl) (fun h => (hs _ h).1 rfl), ← hr] at hc
  rw [cuts_render hs hc, unslash_render hs, if_neg (by omega)] at e
  exact e

theorem clean_up (inp : Bytes) (hz : (0 : Byte) ∉ inp) (a : List Bytes) (x : Bytes) (hs : Simple (a ++ [x]))
    (ht : tidy inp = flat (a ++ [x] ++ [[46, 46]])) (inSz : Nat) (junk : Byte)
    (hl : (render (a ++ [x])).length < inSz) : cleanPath inp inSz junk = some (.ok (render a)) := by
  have ha : Simple a := fun c hc => hs c (by simp [hc])
  have hr : render (a ++ [x]) = flat (a ++ [x]) := by rw [render_flat]; unfold orRoot; rw [if_neg (flat_ne (by simp))]
  obtain ⟨s, hc, e⟩ := cleanPath_ok inp inSz junk hz (by omega)
  rw [ht] at hc
  have hs' : s = render a := by
    cases hc with
    | done hd =>
      exfalso
      refine hd (flat (a ++ [x])) (flat [[46, 46]]) (by rw [← flat_append]) (flat_ne (by simp)) ⟨[], by simp [flat], Or.inl rfl⟩
    | cut h h2 =>
      have := cut_parent a x hs _ h
      rw [this, ← render_flat] at h2
      exact cuts_render ha h2
  have hle : (render a).length ≤ (render (a ++ [x])).length := by
    rw [hr, flat_snoc, render_flat]
    unfold orRoot
    split
    · simp; omega
    · simp
  rw [hs', unslash_render ha, if_neg (by omega)] at e
  exact e

theorem parts_mem {a : List Bytes} (hs : Simple a) : ∀ q ∈ a ++ [[46, 46]], q ≠ [] ∧ q ≠ [46] ∧ ∀ b ∈ q, b ≠ 47 := by
  intro q hq
  rcases List.mem_append.mp hq with hq | hq
  · exact ⟨(hs q hq).1, (hs q hq).2.1, fun b hb => ((hs q hq).2.2.2 b hb).1⟩
  · simp only [List.mem_singleton] at hq
    subst hq
    exact ⟨by decide, by decide, by decide⟩

/-- The parent of a canonical path. -/
theorem clean_parent (a : List Bytes) (x : Bytes) (hs : Simple (a ++ [x])) (inSz : Nat) (junk : Byte)
    (hl : (render (a ++ [x])).length < inSz) : cleanPath (render (a ++ [x]) ++ [47, 46, 46]) inSz junk = some (.ok (render a)) := by
  have hr : render (a ++ [x]) = flat (a ++ [x]) := by rw [render_flat]; unfold orRoot; rw [if_neg (flat_ne (by simp))]
  have hin : render (a ++ [x]) ++ [47, 46, 46] = flat (a ++ [x] ++ [[46, 46]]) := by rw [flat_snoc, hr]
  refine clean_up _ ?_ a x hs ?_ inSz junk hl
  · rw [hr]; intro h
    rcases List.mem_append.mp h with h | h
    · exact simple_zero hs h
    · exact absurd h (by decide)
  · have hmem := parts_mem hs
    rw [hin]
    exact tidy_flat _ (by simp) (fun q hq => (hmem q hq).2.2) (fun h => (hmem _ h).2.1 rfl) (fun h => (hmem _ h).1 rfl)

theorem undupP_gap : ∀ (a : List Bytes) (y : Bytes), [] ∉ a → undupP (a ++ [[], y]) = a ++ [y]
  | [], _, _ => rfl
  | [q], y, h => by
    simp only [List.mem_singleton] at h
    have h2 : q ≠ [] := fun e => h e.symm
    simp [undupP, h2]
  | q :: q2 :: qs, y, h => by
    simp only [List.mem_cons, not_or] at h
    have := undupP_gap (q2 :: qs) y (by simp [h.2])
    simp only [List.cons_append] at this ⊢
    rw [undupP, if_neg (fun e => h.1 e.symm), this]

/-- The same if the path ends with a delimiter. -/
theorem clean_parent_slash (a : List Bytes) (x : Bytes) (hs : Simple (a ++ [x])) (inSz : Nat) (junk : Byte)
    (hl : (render (a ++ [x])).length < inSz) :
    cleanPath (render (a ++ [x]) ++ [47] ++ [47, 46, 46]) inSz junk = some (.ok (render a)) := by
  have hr : render (a ++ [x]) = flat (a ++ [x]) := by rw [render_flat]; unfold orRoot; rw [if_neg (flat_ne (by simp))]
  have hin : render (a ++ [x]) ++ [47] ++ [47, 46, 46] = flat (a ++ [x] ++ [[], [46, 46]]) := by
    rw [flat_append, hr]; simp [flat]
  refine clean_up _ ?_ a x hs ?_ inSz junk hl
  · rw [hr, List.append_assoc]; intro h
    rcases List.mem_append.mp h with h | h
    · exact simple_zero hs h
    · exact absurd h (by decide)
  · have hmem : ∀ q ∈ a ++ [x] ++ [[], [46, 46]], q ≠ [46] ∧ ∀ b ∈ q, b ≠ 47 := by
      intro q hq
      rcases List.mem_append.mp hq with hq | hq
      · exact ⟨(hs q hq).2.1, fun b hb => ((hs q hq).2.2.2 b hb).1⟩
      · simp only [List.mem_cons, List.not_mem_nil, or_false] at hq
        rcases hq with rfl | rfl
        · exact ⟨by decide, by simp⟩
        · exact ⟨by decide, by decide⟩
    rw [hin]
    have hne : a ++ [x] ++ [[], [46, 46]] ≠ [] := by simp
    have e0 : flat (a ++ [x] ++ [[], [46, 46]]) = 47 :: joined (a ++ [x] ++ [[], [46, 46]]) := by
      cases h : a ++ [x] ++ [[], [46, 46]] with
      | nil => exact absurd h hne
      | cons q qs => simp [flat_cons, joined]
    have e1 := (undot_flat _ hne (fun q hq => (hmem q hq).2)).1
    rw [undotP_id _ (fun h => (hmem _ h).1 rfl)] at e1
    have e2 := (undup_flat _ hne (fun q hq => (hmem q hq).2)).1
    rw [undupP_gap _ _ (fun h => (hs _ h).1 rfl)] at e2
    unfold tidy
    rw [show undots (flat (a ++ [x] ++ [[], [46, 46]])) = flat (a ++ [x] ++ [[], [46, 46]]) by
      rw [e0]; show 47 :: undot 47 (joined _) = _; rw [e1, e0], e2]

theorem undupP_last : ∀ (a : List Bytes), [] ∉ a → undupP (a ++ [[]]) = a ++ [[]]
  | [], _ => rfl
  | [q], h => by
    simp only [List.mem_singleton] at h
    have h2 : q ≠ [] := fun e => h e.symm
    simp [undupP, h2]
  | q :: q2 :: qs, h => by
    simp only [List.mem_cons, not_or] at h
    have := undupP_last (q2 :: qs) (by simp [h.2])
    simp only [List.cons_append] at this ⊢
    rw [undupP, if_neg (fun e => h.1 e.symm), this]

/-- A delimiter at the end of a canonical path is removed, if the path has at least three bytes. -/
theorem clean_slash (cs : List Bytes) (hne : cs ≠ []) (hs : Simple cs) (inSz : Nat) (junk : Byte) (hl : (render cs).length < inSz)
    (h3 : 3 ≤ (render cs).length) : cleanPath (render cs ++ [47]) inSz junk = some (.ok (render cs)) := by
  have hr : render cs = flat cs := by rw [render_flat]; unfold orRoot; rw [if_neg (flat_ne hne)]
  have hin : render cs ++ [47] = flat (cs ++ [[]]) := by rw [flat_append, hr]; simp [flat]
  obtain ⟨s, hc, e⟩ := cleanPath_ok (render cs ++ [47]) inSz junk (by
    rw [hr]; intro h
    rcases List.mem_append.mp h with h | h
    · exact simple_zero hs h
    · exact absurd h (by decide)) (by omega)
  have hmem : ∀ q ∈ cs ++ [[]], q ≠ [46] ∧ q ≠ [46, 46] ∧ ∀ b ∈ q, b ≠ 47 := by
    intro q hq
    rcases List.mem_append.mp hq with hq | hq
    · exact ⟨(hs q hq).2.1, (hs q hq).2.2.1, fun b hb => ((hs q hq).2.2.2 b hb).1⟩
    · simp only [List.mem_singleton] at hq
      subst hq
      exact ⟨by decide, by decide, by simp⟩
  have ht : tidy (render cs ++ [47]) = flat (cs ++ [[]]) := by
    have hne : cs ++ [[]] ≠ [] := by simp
    have e0 : flat (cs ++ [[]]) = 47 :: joined (cs ++ [[]]) := by
      cases h : cs ++ [[]] with
      | nil => exact absurd h hne
      | cons q qs => simp [flat_cons, joined]
    have e1 := (undot_flat _ hne (fun q hq => (hmem q hq).2.2)).1
    rw [undotP_id _ (fun h => (hmem _ h).1 rfl)] at e1
    have e2 := (undup_flat _ hne (fun q hq => (hmem q hq).2.2)).1
    rw [undupP_last _ (fun h => (hs _ h).1 rfl)] at e2
    rw [hin]
    unfold tidy
    rw [show undots (flat (cs ++ [[]])) = flat (cs ++ [[]]) by
      rw [e0]; show 47 :: undot 47 (joined _) = _; rw [e1, e0], e2]
  rw [ht] at hc
  have hs' : s = flat (cs ++ [[]]) := by
    cases hc with
    | done hd => rfl
    | cut h h2 =>
      obtain ⟨p, u, pr, e, hu, hp, _⟩ := h.ex
      obtain ⟨c, b0, hq, hp0, hb0⟩ := flat_split _ p _ (fun q hq => (hmem q hq).2.2) e
      obtain ⟨b, hb1, hb2⟩ := dd_flat (fun q hx => (hmem q (by rw [hq]; simp [hx])).2.2) u hu hb0
      exact absurd rfl (hmem [46, 46] (by rw [hq, hb1]; simp)).2.1
  rw [hs', ← hin] at e
  have hu : unslash (render cs ++ [47]) = render cs := by
    unfold unslash
    rw [if_pos ⟨by simp; omega, by simp⟩, List.dropLast_concat]
  rw [hu, if_neg (by omega)] at e
  exact e

end Proofs.Path
