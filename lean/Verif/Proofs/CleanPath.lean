import Verif.Proofs.Path

namespace Proofs.Path
open Wolf Wolf.Buffer Wolf.Path Spec.Path

/-! ## The loops of `wolfSSH_CleanPath` on strings -/

theorem read_mid (a b c : Bytes) (n off : Nat) (ho : off = a.length) (hn : n = b.length) : Buffer.read (a ++ b ++ c) off n = some b := by
  unfold Buffer.read
  subst ho hn
  rw [if_pos (by simp)]
  simp

theorem memmove_down (a b c d : Bytes) (dst src n : Nat) (hd : dst = a.length) (hs : src = a.length + b.length) (hn : n = c.length) :
    memmove (a ++ b ++ c ++ d) dst src n = some (a ++ c ++ (b ++ c ++ d).drop c.length) := by
  unfold memmove
  rw [read_mid (a ++ b) c d n src (by simp [hs]) hn]
  dsimp only
  rw [show a ++ b ++ c ++ d = a ++ (b ++ c ++ d) by simp, write_at' a _ c dst hd (by simp; omega)]

/-- Removing `./` behind a '/'. -/
def undot : Byte → Bytes → Bytes
  | _, [] => []
  | _, [a] => [a]
  | prev, a :: b :: r => if a = 46 ∧ prev = 47 ∧ b = 47 then undot 47 r else a :: undot a (b :: r)

theorem dotLoop_ok (n : Nat) : ∀ (fuel : Nat) (p : Bytes) (x : Byte) (t rest : Bytes), t.length ≤ fuel →
    (p ++ [x] ++ t ++ 0 :: rest).length = n → ∃ rest', (p ++ [x] ++ undot x t ++ 0 :: rest').length = n ∧
      dotLoop fuel (p ++ [x] ++ t ++ 0 :: rest) (p.length + 1) (p.length + 1 + t.length) =
        some (p ++ [x] ++ undot x t ++ 0 :: rest', p.length + 1 + (undot x t).length) := by
  intro fuel
  induction fuel with
  | zero =>
    intro p x t rest hf hn
    have : t = [] := List.length_eq_zero_iff.1 (by omega)
    subst this
    exact ⟨rest, by simpa [undot] using hn, by simp [dotLoop, undot]⟩
  | succ fuel ih =>
    intro p x t rest hf hn
    unfold dotLoop
    match t with
    | [] =>
      refine ⟨rest, by simpa [undot] using hn, ?_⟩
      rw [if_neg (by simp)]
      simp [undot]
    | [a] => exact ⟨rest, by simpa [undot] using hn, by simp [undot]⟩
    | a :: b :: r =>
      rw [if_pos (by simp)]
      have hat : dotAt (p ++ [x] ++ (a :: b :: r) ++ 0 :: rest) (p.length + 1) =
          some (decide (a = 46) && decide (x = 47) && decide (b = 47)) := by
        unfold dotAt
        have h0 : (p ++ [x] ++ (a :: b :: r) ++ 0 :: rest)[p.length + 1]? = some a := by simp
        have h1 : (p ++ [x] ++ (a :: b :: r) ++ 0 :: rest)[p.length + 1 - 1]? = some x := by simp
        have h2 : (p ++ [x] ++ (a :: b :: r) ++ 0 :: rest)[p.length + 1 + 1]? = some b := by
          rw [show p ++ [x] ++ (a :: b :: r) ++ 0 :: rest = (p ++ [x, a]) ++ (b :: (r ++ 0 :: rest)) by simp,
            List.getElem?_append_right (by simp)]
          simp
        rw [h0, h1, h2]
      rw [hat]
      by_cases hc : a = 46 ∧ x = 47 ∧ b = 47
      · obtain ⟨rfl, rfl, rfl⟩ := hc
        have hmv : memmove (p ++ [47] ++ (46 :: 47 :: r) ++ 0 :: rest) (p.length + 1 - 1) (p.length + 1 + 1)
            (p.length + 1 + (46 :: 47 :: r).length - (p.length + 1)) =
            some (p ++ (47 :: r ++ [0]) ++ ([47, 46] ++ (47 :: r ++ [0]) ++ rest).drop (47 :: r ++ [0]).length) := by
          rw [show p ++ [47] ++ (46 :: 47 :: r) ++ 0 :: rest = p ++ [47, 46] ++ (47 :: r ++ [0]) ++ rest by simp]
          exact memmove_down _ _ _ _ _ _ _ (by omega) (by simp) (by simp)
        simp only [decide_true, Bool.and_self]
        rw [hmv]
        dsimp only
        have hu : undot 47 (46 :: 47 :: r) = undot 47 r := by simp [undot]
        rw [hu]
        obtain ⟨rest', hl, e⟩ := ih p 47 r (([47, 46] ++ (47 :: r ++ [0]) ++ rest).drop (47 :: r ++ [0]).length)
          (by simp at hf; omega) (by simp at hn ⊢; omega)
        refine ⟨rest', hl, ?_⟩
        rw [← e]
        congr 1
        · simp
      · have hb : (decide (a = 46) && decide (x = 47) && decide (b = 47)) = false := by
          simpa [Bool.and_eq_true, and_assoc] using hc
        rw [hb]
        dsimp only
        have hu : undot x (a :: b :: r) = a :: undot a (b :: r) := by simp [undot, hc]
        rw [hu]
        obtain ⟨rest', hl, e⟩ := ih (p ++ [x]) a (b :: r) rest (by simp at hf ⊢; omega) (by simp at hn ⊢; omega)
        refine ⟨rest', by simp at hl ⊢; omega, ?_⟩
        have e1 : p ++ [x] ++ (a :: b :: r) ++ 0 :: rest = p ++ [x] ++ [a] ++ (b :: r) ++ 0 :: rest := by simp
        rw [e1, show p.length + 1 + 1 = (p ++ [x]).length + 1 by simp,
          show p.length + 1 + (a :: b :: r).length = (p ++ [x]).length + 1 + (b :: r).length by simp; omega, e]
        simp
        omega

/-- Removing doubled '/'. -/
def undup : Bytes → Bytes
  | [] => []
  | [a] => [a]
  | a :: b :: r => if a = 47 ∧ b = 47 then undup (b :: r) else a :: undup (b :: r)

theorem dupLoop_ok (n : Nat) : ∀ (fuel : Nat) (p t rest : Bytes), t.length ≤ fuel →
    (p ++ t ++ 0 :: rest).length = n → ∃ rest', (p ++ undup t ++ 0 :: rest').length = n ∧
      dupLoop fuel (p ++ t ++ 0 :: rest) p.length (p.length + t.length) =
        some (p ++ undup t ++ 0 :: rest', p.length + (undup t).length) := by
  intro fuel
  induction fuel with
  | zero =>
    intro p t rest hf hn
    have : t = [] := List.length_eq_zero_iff.1 (by omega)
    subst this
    exact ⟨rest, by simpa [undup] using hn, by simp [dupLoop, undup]⟩
  | succ fuel ih =>
    intro p t rest hf hn
    unfold dupLoop
    match t with
    | [] => exact ⟨rest, by simpa [undup] using hn, by simp [undup]⟩
    | [a] =>
      rw [if_pos (by simp)]
      have h0 : (p ++ [a] ++ 0 :: rest)[p.length]? = some a := by simp
      have h1 : (p ++ [a] ++ 0 :: rest)[p.length + 1]? = some 0 := by simp
      rw [h0, h1]
      dsimp only
      rw [if_neg (by simp)]
      obtain ⟨rest', hl, e⟩ := ih (p ++ [a]) [] rest (by simp) (by simp at hn ⊢; omega)
      refine ⟨rest', by simpa [undup] using hl, ?_⟩
      simpa [undup] using e
    | a :: b :: r =>
      rw [if_pos (by simp)]
      have h0 : (p ++ (a :: b :: r) ++ 0 :: rest)[p.length]? = some a := by simp
      have h1 : (p ++ (a :: b :: r) ++ 0 :: rest)[p.length + 1]? = some b := by simp
      rw [h0, h1]
      dsimp only
      by_cases hc : a = 47 ∧ b = 47
      · obtain ⟨rfl, rfl⟩ := hc
        rw [if_pos ⟨rfl, rfl⟩]
        have hmv : memmove (p ++ (47 :: 47 :: r) ++ 0 :: rest) p.length (p.length + 1)
            (p.length + (47 :: 47 :: r).length - p.length) =
            some (p ++ (47 :: r ++ [0]) ++ ([47] ++ (47 :: r ++ [0]) ++ rest).drop (47 :: r ++ [0]).length) := by
          rw [show p ++ (47 :: 47 :: r) ++ 0 :: rest = p ++ [47] ++ (47 :: r ++ [0]) ++ rest by simp]
          exact memmove_down _ _ _ _ _ _ _ rfl (by simp) (by simp)
        rw [hmv]
        dsimp only
        have hu : undup (47 :: 47 :: r) = undup (47 :: r) := by simp [undup]
        rw [hu]
        obtain ⟨rest', hl, e⟩ := ih p (47 :: r) (([47] ++ (47 :: r ++ [0]) ++ rest).drop (47 :: r ++ [0]).length)
          (by simp at hf ⊢; omega) (by simp at hn ⊢; omega)
        refine ⟨rest', hl, ?_⟩
        rw [← e]
        congr 1
        · simp
      · rw [if_neg hc]
        have hu : undup (a :: b :: r) = a :: undup (b :: r) := by simp [undup, hc]
        rw [hu]
        obtain ⟨rest', hl, e⟩ := ih (p ++ [a]) (b :: r) rest (by simp at hf ⊢; omega) (by simp at hn ⊢; omega)
        refine ⟨rest', by simp at hl ⊢; omega, ?_⟩
        have e1 : p ++ (a :: b :: r) ++ 0 :: rest = p ++ [a] ++ (b :: r) ++ 0 :: rest := by simp
        rw [e1, show p.length + 1 = (p ++ [a]).length by simp,
          show p.length + (a :: b :: r).length = (p ++ [a]).length + (b :: r).length by simp; omega, e]
        simp
        omega

/-- A `..` segment with the '/' in front of it. -/
def DD (t : Bytes) : Prop := ∃ u, t = 47 :: 46 :: 46 :: u ∧ (u = [] ∨ ∃ v, u = 47 :: v)

theorem dotdotAt_ok (p : Bytes) (a : Byte) (t rest : Bytes) (hz : 0 ∉ a :: t) :
    ∃ v, dotdotAt (p ++ a :: t ++ 0 :: rest) p.length = some v ∧ (v = true ↔ DD (a :: t)) := by
  unfold dotdotAt
  rw [show (p ++ a :: t ++ 0 :: rest)[p.length]? = some a by simp]
  dsimp only
  by_cases ha : a = 47
  rotate_left
  · rw [if_pos ha]; exact ⟨_, rfl, by simp [DD, ha]⟩
  rw [if_neg (by simp [ha])]
  subst ha
  have hz0 : (0 : Byte) ∉ t := fun h => hz (by simp [h])
  have g1 : (p ++ 47 :: t ++ 0 :: rest)[p.length + 1]? = (t ++ 0 :: rest)[0]? := by simp [List.getElem?_append_right]
  have g2 : (p ++ 47 :: t ++ 0 :: rest)[p.length + 2]? = (t ++ 0 :: rest)[1]? := by
    rw [List.append_assoc, List.getElem?_append_right (by omega), show p.length + 2 - p.length = 1 + 1 by omega,
      List.cons_append, List.getElem?_cons_succ]
  have g3 : (p ++ 47 :: t ++ 0 :: rest)[p.length + 3]? = (t ++ 0 :: rest)[2]? := by
    rw [List.append_assoc, List.getElem?_append_right (by omega), show p.length + 3 - p.length = 2 + 1 by omega,
      List.cons_append, List.getElem?_cons_succ]
  rw [g1, g2, g3]
  match t with
  | [] => exact ⟨false, by simp, by simp [DD]⟩
  | [b] =>
    by_cases hb : b = 46
    · subst hb; exact ⟨false, by simp, by simp [DD]⟩
    · exact ⟨false, by simp [hb], by simp [DD]⟩
  | b :: c :: t =>
    by_cases hb : b = 46
    · subst hb
      by_cases hc : c = 46
      · subst hc
        match t with
        | [] => exact ⟨true, by simp, by simp [DD]⟩
        | d :: t =>
          have hd : d ≠ 0 := fun e => hz0 (by simp [e])
          by_cases h47 : d = 47
          · subst h47
            exact ⟨true, by simp, by simp [DD]⟩
          · exact ⟨false, by simp [hd, h47], by simp [DD, h47]⟩
      · exact ⟨false, by simp [hc], by simp [DD, hc]⟩
    · exact ⟨false, by simp [hb], by simp [DD, hb]⟩

theorem findDotdot_ok (rest : Bytes) : ∀ (fuel : Nat) (p t : Bytes), t.length ≤ fuel → 0 ∉ t →
    (findDotdot (p ++ t ++ 0 :: rest) (p.length + t.length) fuel p.length = some none ∧ ∀ a b, t = a ++ b → ¬ DD b) ∨
    (∃ a b, t = a ++ b ∧ DD b ∧ (∀ a' b', t = a' ++ b' → DD b' → a.length ≤ a'.length) ∧
      findDotdot (p ++ t ++ 0 :: rest) (p.length + t.length) fuel p.length = some (some (p.length + a.length))) := by
  intro fuel
  induction fuel with
  | zero =>
    intro p t hf hz
    have : t = [] := List.length_eq_zero_iff.1 (by omega)
    subst this
    left
    refine ⟨rfl, fun a b e => ?_⟩
    rintro ⟨u, e2, _⟩
    subst e2; simp at e
  | succ fuel ih =>
    intro p t hf hz
    unfold findDotdot
    match t with
    | [] =>
      left
      rw [if_neg (by simp)]
      refine ⟨rfl, fun a b e => ?_⟩
      rintro ⟨u, e2, _⟩
      subst e2; simp at e
    | x :: t =>
      rw [if_pos (by simp)]
      obtain ⟨v, e, hv⟩ := dotdotAt_ok p x t rest hz
      rw [e]
      cases v with
      | true =>
        right
        exact ⟨[], x :: t, rfl, hv.1 rfl, fun _ _ _ _ => by simp, rfl⟩
      | false =>
        have hnd : ¬ DD (x :: t) := fun h => by have := hv.2 h; cases this
        dsimp only
        have hi := ih (p ++ [x]) t (by simp at hf; omega) (fun h => hz (by simp [h]))
        have e1 : p ++ [x] ++ t ++ 0 :: rest = p ++ x :: t ++ 0 :: rest := by simp
        have e2 : (p ++ [x]).length + t.length = p.length + (x :: t).length := by simp; omega
        have e3 : (p ++ [x]).length = p.length + 1 := by simp
        rw [e1, e2, e3] at hi
        rcases hi with ⟨h1, h2⟩ | ⟨a, b, h1, h2, h3, h4⟩
        · left
          refine ⟨h1, fun a b eab => ?_⟩
          cases a with
          | nil => simp at eab; subst eab; exact hnd
          | cons y a => simp at eab; exact h2 a b eab.2
        · right
          refine ⟨x :: a, b, by simp [h1], h2, ?_, by rw [h4]; simp; omega⟩
          intro a' b' eab hd
          cases a' with
          | nil => simp at eab; subst eab; exact absurd hd hnd
          | cons y a' =>
            simp at eab
            have := h3 a' b' eab.2 hd
            simp; omega

theorem retrace_ok (rest : Bytes) (p : Bytes) : ∀ (z : Nat), z < p.length ∨ z = 0 →
    ∃ pr, retrace (p ++ rest) z = some pr ∧ pr ≤ z ∧ (0 < pr → p.getD pr 0 = 47 ∨ p.getD pr 0 = 58) ∧
      (∀ k, pr < k → k ≤ z → p.getD k 0 ≠ 47 ∧ p.getD k 0 ≠ 58) := by
  intro z
  induction z with
  | zero => intro _; exact ⟨0, rfl, Nat.le_refl _, fun h => absurd h (by omega), fun k _ _ => by omega⟩
  | succ z ih =>
    intro hz
    have hz : z + 1 < p.length := by omega
    unfold retrace
    have hg : (p ++ rest)[z + 1]? = some (p.getD (z + 1) 0) := by
      rw [List.getElem?_append_left hz, List.getD_eq_getElem?_getD, List.getElem?_eq_getElem hz]; rfl
    rw [hg]
    dsimp only
    by_cases hb : p.getD (z + 1) 0 = 47 ∨ p.getD (z + 1) 0 = 58
    · rw [if_pos hb]
      exact ⟨z + 1, rfl, Nat.le_refl _, fun _ => hb, fun k _ _ => by omega⟩
    · rw [if_neg hb]
      obtain ⟨pr, e, h1, h2, h3⟩ := ih (by omega)
      refine ⟨pr, e, by omega, h2, fun k k1 k2 => ?_⟩
      by_cases hk : k = z + 1
      · subst hk; exact ⟨fun h => hb (Or.inl h), fun h => hb (Or.inr h)⟩
      · exact h3 k k1 (by omega)

/-- The empty string becomes "/". -/
def orRoot (s : Bytes) : Bytes := if s = [] then [47] else s

theorem cutSeg_ok (p u rest : Bytes) (pr : Nat) (hpr : pr ≤ p.length) (hz : 0 ∉ p ++ 47 :: 46 :: 46 :: u) :
    ∃ rest', cutSeg (p ++ 47 :: 46 :: 46 :: u ++ 0 :: rest) (p.length + 3 + u.length) pr (p.length + 3) =
        some (orRoot (p.take pr ++ u) ++ 0 :: rest') ∧
      (orRoot (p.take pr ++ u) ++ 0 :: rest').length = (p ++ 47 :: 46 :: 46 :: u ++ 0 :: rest).length := by
  have hzp : (0 : Byte) ∉ p.take pr ++ u := by
    intro h
    apply hz
    rcases List.mem_append.1 h with h | h
    · exact List.mem_append_left _ (List.mem_of_mem_take h)
    · simp [h]
  obtain ⟨q, hq⟩ : ∃ q, q = p.take pr := ⟨_, rfl⟩
  have hql : q.length = pr := by rw [hq]; simp; omega
  obtain ⟨w, hw⟩ : ∃ w, w = p.drop pr ++ [47, 46, 46] := ⟨_, rfl⟩
  have hwl : w.length = p.length - pr + 3 := by rw [hw]; simp
  have hmem : p ++ 47 :: 46 :: 46 :: u ++ 0 :: rest = q ++ w ++ u ++ 0 :: rest := by
    have : p = q ++ p.drop pr := by rw [hq, List.take_append_drop]
    conv => lhs; rw [this]
    rw [hw]; simp
  rw [hmem]
  rw [← hq] at hzp ⊢
  unfold cutSeg
  rw [memmove_down q w u (0 :: rest) pr (p.length + 3) _ hql.symm (by omega) (by omega)]
  dsimp only
  obtain ⟨r1, hr1⟩ : ∃ r1, r1 = (w ++ u ++ 0 :: rest).drop u.length := ⟨_, rfl⟩
  have hr1l : r1.length = w.length + 1 + rest.length := by rw [hr1]; simp; omega
  rw [← hr1]
  have hw1 : write (q ++ u ++ r1) (p.length + 3 + u.length - (p.length + 3 - pr)) [0] = some (q ++ u ++ 0 :: r1.drop 1) := by
    rw [write_at' (q ++ u) r1 [0] _ (by simp; omega) (by simp; omega)]
    simp
  rw [hw1]
  dsimp only
  have hif : cutEnd (q ++ u ++ 0 :: r1.drop 1) (p.length + 3 + u.length) pr (p.length + 3) = some (q ++ u ++ 0 :: r1.drop 1) := by
    unfold cutEnd
    by_cases hu : u = []
    · subst hu
      rw [if_pos (by simp)]
      rw [show q ++ [] ++ 0 :: r1.drop 1 = q ++ (0 :: r1.drop 1) by simp, write_at' q _ [0] pr hql.symm (by simp)]
      simp
    · have : u.length ≠ 0 := by simpa using hu
      rw [if_neg (by omega)]
  rw [hif]
  dsimp only
  unfold cutRoot
  rw [strlen_str hzp]
  dsimp only
  by_cases he : q ++ u = []
  · rw [he]
    refine ⟨(r1.drop 1).drop 1, ?_, ?_⟩
    · simp only [List.length_nil, List.nil_append, if_true]
      rw [show (0 :: r1.drop 1 : Bytes) = [] ++ (0 :: r1.drop 1) from rfl,
        write_at' [] _ [47, 0] 0 rfl (by simp; omega)]
      simp [orRoot]
    · simp [orRoot] at he ⊢
      simp [he]
      omega
  · have : (q ++ u).length ≠ 0 := by simpa using he
    refine ⟨r1.drop 1, ?_, ?_⟩
    · rw [if_neg this]; simp only [orRoot, he, if_false]
    · have : orRoot (q ++ u) = q ++ u := by simp [orRoot, he]
      rw [this]; simp; omega

/-- One cut: the first `..` segment that is not at the very begin goes, with the bytes back to the last '/' or ':'
that is not at the very begin. -/
structure Cut (s s' : Bytes) : Prop where
  ex : ∃ p u pr, s = p ++ 47 :: 46 :: 46 :: u ∧ (u = [] ∨ ∃ v, u = 47 :: v) ∧ p ≠ [] ∧
    (∀ a b, s = a ++ b → a ≠ [] → DD b → p.length ≤ a.length) ∧ pr < p.length ∧
    (0 < pr → p.getD pr 0 = 47 ∨ p.getD pr 0 = 58) ∧
    (∀ k, pr < k → k < p.length → p.getD k 0 ≠ 47 ∧ p.getD k 0 ≠ 58) ∧ s' = orRoot (p.take pr ++ u)

/-- Nothing more to cut. -/
def Done (s : Bytes) : Prop := ∀ a b, s = a ++ b → a ≠ [] → ¬ DD b

inductive Cuts : Bytes → Bytes → Prop
  | done {s} : Done s → Cuts s s
  | cut {s s' s''} : Cut s s' → Cuts s' s'' → Cuts s s''

theorem Cut.shorter {s s' : Bytes} (h : Cut s s') : s'.length < s.length := by
  obtain ⟨p, u, pr, e, _, hp, _, hpr, _, _, e'⟩ := h.ex
  rw [e, e']
  unfold orRoot
  split <;> simp <;> omega

theorem Cut.no_zero {s s' : Bytes} (h : Cut s s') (hz : 0 ∉ s) : 0 ∉ s' := by
  obtain ⟨p, u, pr, e, _, hp, _, hpr, _, _, e'⟩ := h.ex
  rw [e'] 
  unfold orRoot
  split
  · decide
  · rw [e] at hz
    intro h
    apply hz
    rcases List.mem_append.1 h with h | h
    · exact List.mem_append_left _ (List.mem_of_mem_take h)
    · simp [h]

theorem cutLoop_ok (n : Nat) : ∀ (fuel : Nat) (s rest : Bytes), s.length < fuel → 0 ∉ s → (s ++ 0 :: rest).length = n →
    ∃ s' rest', cutLoop fuel (s ++ 0 :: rest) = some (s' ++ 0 :: rest', s'.length) ∧ Cuts s s' ∧
      (s' ++ 0 :: rest').length = n ∧ 0 ∉ s' := by
  intro fuel
  induction fuel with
  | zero => intro s rest hf; omega
  | succ fuel ih =>
    intro s rest hf hz hn
    unfold cutLoop
    rw [strlen_str hz]
    dsimp only
    match s with
    | [] =>
      refine ⟨[], rest, by simp [findDotdot], Cuts.done ?_, hn, hz⟩
      rintro a b e ha ⟨u, e2, _⟩
      subst e2; simp at e
    | x :: t =>
      have hf := findDotdot_ok rest (x :: t).length [x] t (by simp) (fun h => hz (by simp [h]))
      have e1 : [x] ++ t ++ 0 :: rest = x :: t ++ 0 :: rest := by simp
      have e2 : [x].length + t.length = (x :: t).length := by simp; omega
      rw [e1, e2] at hf
      rcases hf with ⟨h1, h2⟩ | ⟨a, b, h1, h2, h3, h4⟩
      · rw [show [x].length = 1 from rfl] at h1
        rw [h1]
        refine ⟨x :: t, rest, rfl, Cuts.done ?_, hn, hz⟩
        intro a b e ha
        cases a with
        | nil => exact absurd rfl ha
        | cons y a => simp at e; exact h2 a b e.2
      · rw [show [x].length = 1 from rfl] at h4
        rw [h4]
        dsimp only
        obtain ⟨u, hu, hu2⟩ := h2
        subst hu
        obtain ⟨p, hp⟩ : ∃ p, p = x :: a := ⟨_, rfl⟩
        have hpl : p.length = 1 + a.length := by rw [hp]; simp; omega
        have hs : x :: t = p ++ 47 :: 46 :: 46 :: u := by rw [hp, h1]; simp
        rw [hs]
        rw [hs] at hz hn
        obtain ⟨pr, hr, hr1, hr2, hr3⟩ := retrace_ok (47 :: 46 :: 46 :: u ++ 0 :: rest) p (p.length - 1) (by omega)
        rw [show 1 + a.length - 1 = p.length - 1 by omega, show p ++ 47 :: 46 :: 46 :: u ++ 0 :: rest =
          p ++ (47 :: 46 :: 46 :: u ++ 0 :: rest) by simp, hr]
        dsimp only
        obtain ⟨rest', hcut, hcl⟩ := cutSeg_ok p u rest pr (by omega) hz
        rw [show (p ++ 47 :: 46 :: 46 :: u).length = p.length + 3 + u.length by simp; omega,
          show 1 + a.length + 3 = p.length + 3 by omega, show p ++ (47 :: 46 :: 46 :: u ++ 0 :: rest) =
          p ++ 47 :: 46 :: 46 :: u ++ 0 :: rest by simp, hcut]
        dsimp only
        have hc : Cut (p ++ 47 :: 46 :: 46 :: u) (orRoot (p.take pr ++ u)) := by
          refine ⟨p, u, pr, rfl, hu2, by rw [hp]; simp, ?_, by omega, hr2, fun k k1 k2 => hr3 k k1 (by omega), rfl⟩
          intro a' b' e ha' hd
          cases a' with
          | nil => exact absurd rfl ha'
          | cons y a' =>
            rw [← hs] at e
            simp at e
            have := h3 a' b' e.2 hd
            simp; omega
        have hsh := hc.shorter
        obtain ⟨s', rest2, g1, g2, g3, g4⟩ := ih (orRoot (p.take pr ++ u)) rest' (by rw [← hs] at hsh; simp at hsh hf ⊢; omega)
          (hc.no_zero hz) (hcl.trans hn)
        exact ⟨s', rest2, g1, Cuts.cut hc g2, g3, g4⟩

/-- Removing a trailing delimiter. -/
def unslash (s : Bytes) : Bytes := if s.length > 3 ∧ s[s.length - 1]? = some 47 then s.dropLast else s

/-- The first loop. -/
def undots : Bytes → Bytes
  | [] => []
  | x :: t => x :: undot x t

/-- The first two loops. -/
def tidy (s : Bytes) : Bytes := undup (undots s)

theorem undot_sub (x : Byte) (t : Bytes) : (undot x t).Sublist t := by
  fun_induction undot x t with
  | case1 => exact List.Sublist.refl _
  | case2 => exact List.Sublist.refl _
  | case3 prev a b r h ih => exact (ih.cons _).cons _
  | case4 prev a b r h ih => exact ih.cons_cons _

theorem undup_sub (t : Bytes) : (undup t).Sublist t := by
  fun_induction undup t with
  | case1 => exact List.Sublist.refl _
  | case2 => exact List.Sublist.refl _
  | case3 a b r h ih => exact ih.cons _
  | case4 a b r h ih => exact ih.cons_cons _

theorem tidy_sub (s : Bytes) : (tidy s).Sublist s := by
  unfold tidy
  refine (undup_sub _).trans ?_
  match s with
  | [] => exact List.Sublist.refl _
  | x :: t => exact (undot_sub x t).cons_cons _

/-- `wolfSSH_CleanPath`, on strings. -/
theorem cleanPath_ok (inp : Bytes) (inSz : Nat) (junk : Byte) (hz : 0 ∉ inp) (hi : 0 < inSz) :
    ∃ s, Cuts (tidy inp) s ∧
      cleanPath inp inSz junk = some (if (unslash s).length ≥ inSz then .error .bufferE else .ok (unslash s)) := by
  have h1 : ∃ rest, (undots inp ++ 0 :: rest).length = inp.length + 2 ∧
      dotLoop inp.length (inp ++ [0, junk]) 1 inp.length = some (undots inp ++ 0 :: rest, (undots inp).length) := by
    match inp with
    | [] => exact ⟨[junk], by simp [undots], by simp [dotLoop, undots]⟩
    | x :: t =>
      obtain ⟨rest', hl, e⟩ := dotLoop_ok (t.length + 3) (x :: t).length [] x t [junk] (by simp) (by simp)
      refine ⟨rest', by simp [undots] at hl ⊢; omega, ?_⟩
      simp only [List.nil_append, List.length_nil, Nat.zero_add] at e
      rw [show x :: t ++ [0, junk] = [x] ++ t ++ 0 :: [junk] by simp, show (x :: t).length = 1 + t.length by simp; omega] at *
      rw [e]
      simp [undots]
      omega
  obtain ⟨rest, hl1, e1⟩ := h1
  generalize hd : undots inp = d at *
  have hty : tidy inp = undup d := by unfold tidy; rw [← hd]
  obtain ⟨rest2, hl2, e2⟩ := dupLoop_ok (inp.length + 2) d.length [] d rest (Nat.le_refl _) (by simpa using hl1)
  simp only [List.nil_append, List.length_nil, Nat.zero_add] at e2 hl2
  have hz2 : 0 ∉ undup d := fun h => hz ((hty ▸ tidy_sub inp).subset h)
  obtain ⟨s, rest3, e3, hcuts, hl3, hz3⟩ := cutLoop_ok (inp.length + 2) (undup d ++ 0 :: rest2).length (undup d) rest2
    (by simp) hz2 hl2
  refine ⟨s, hty ▸ hcuts, ?_⟩
  unfold cleanPath
  rw [if_neg (by omega), e1]
  dsimp only
  rw [e2]
  dsimp only
  rw [e3]
  dsimp only
  have hlast : s.length > 0 → (s ++ 0 :: rest3)[s.length - 1]? = s[s.length - 1]? := fun h =>
    List.getElem?_append_left (by omega)
  by_cases hc : s.length > 3 ∧ s[s.length - 1]? = some 47
  · rw [if_pos ⟨hc.1, by rw [hlast (by omega)]; exact hc.2⟩]
    have hne : s ≠ [] := by intro e; subst e; simp at hc
    have hsp : s = s.dropLast ++ [s.getLast hne] := (List.dropLast_concat_getLast hne).symm
    have hw : write (s ++ 0 :: rest3) (s.length - 1) [0] = some (s.dropLast ++ 0 :: (0 :: rest3)) := by
      conv => lhs; rw [hsp]
      rw [show s.dropLast ++ [s.getLast hne] ++ 0 :: rest3 = s.dropLast ++ (s.getLast hne :: 0 :: rest3) by simp,
        write_at' s.dropLast _ [0] _ (by simp) (by simp)]
      simp
    rw [hw]
    dsimp only
    have hz4 : 0 ∉ s.dropLast := fun h => hz3 ((List.dropLast_sublist s).subset h)
    rw [strlen_str hz4]
    dsimp only
    rw [List.take_left' rfl]
    unfold unslash
    rw [if_pos hc]
    split <;> rfl
  · rw [if_neg (by
      rintro ⟨h1, h2⟩
      rw [hlast (by omega)] at h2
      exact hc ⟨h1, h2⟩)]
    dsimp only
    rw [strlen_str hz3]
    dsimp only
    rw [List.take_left' rfl]
    unfold unslash
    rw [if_neg hc]
    split <;> rfl

theorem Cuts.le {s s' : Bytes} (h : Cuts s s') : s'.length ≤ s.length := by
  induction h with
  | done _ => exact Nat.le_refl _
  | cut hc _ ih => have := hc.shorter; omega

theorem Cuts.final {s s' : Bytes} (h : Cuts s s') : Done s' := by
  induction h with
  | done h => exact h
  | cut _ _ ih => exact ih

theorem unslash_le (s : Bytes) : (unslash s).length ≤ s.length := by
  unfold unslash; split <;> simp

end Proofs.Path
