import Verif.Proofs.CleanParent
import Verif.Model.ScpDest
import Verif.Spec.ScpDest
/-!
# The destination of a copy
-/

namespace Proofs.Scp
open Wolf Wolf.Scp Wolf.Path Spec.Path Spec.Scp
open Proofs.Path (Simple flat orRoot render_flat flat_ne flat_snoc)

theorem cuts_zero {s t : Bytes} (h : Proofs.Path.Cuts s t) : 0 ∉ s → 0 ∉ t := by
  induction h with
  | done _ => exact id
  | cut h _ ih => exact fun hz => ih (h.no_zero hz)

theorem clean_total (p : Bytes) (hz : 0 ∉ p) (n : Nat) (junk : Byte) (h : p.length < n) :
    ∃ q, cleanPath p n junk = some (.ok q) ∧ q.length ≤ p.length ∧ 0 ∉ q := by
  obtain ⟨s, hc, e⟩ := Proofs.Path.cleanPath_ok p n junk hz (by omega)
  have h1 := hc.le
  have h2 := (Proofs.Path.tidy_sub p).length_le
  have h3 := Proofs.Path.unslash_le s
  refine ⟨_, by rw [e, if_neg (by omega)], by omega, ?_⟩
  intro hm
  exact cuts_zero hc (fun h => hz ((Proofs.Path.tidy_sub p).subset h)) ((Proofs.Path.unslash_prefix s).subset hm)

theorem render_eq (a : List Bytes) (x : Bytes) : render (a ++ [x]) = flat a ++ 47 :: x := by
  rw [render_flat]; unfold orRoot; rw [if_neg (flat_ne (by simp)), flat_snoc]

theorem render_last (a : List Bytes) (x : Bytes) (h : Simple (a ++ [x])) : (render (a ++ [x])).getLast? = x.getLast? := by
  have hx := (h x (by simp)).1
  obtain ⟨y, z, rfl⟩ : ∃ y z, x = y ++ [z] := ⟨x.dropLast, x.getLast hx, (List.dropLast_concat_getLast hx).symm⟩
  rw [render_eq, show flat a ++ 47 :: (y ++ [z]) = (flat a ++ 47 :: y) ++ [z] by simp, List.getLast?_concat, List.getLast?_concat]

theorem split_at (a : List Bytes) (x : Bytes) (h : Simple (a ++ [x])) :
    (if render a = [47] then (render a).length else (render a).length + 1) = (flat a).length + 1 ∧
      below a = flat a ++ [47] := by
  rcases List.eq_nil_or_concat a with e | ⟨b, y, e⟩
  · subst e; simp [render, flat, below]
  · rw [List.concat_eq_append] at e
    subst e
    have hy : y ≠ [] := (h y (by simp)).1
    have hr : render (b ++ [y]) = flat (b ++ [y]) := by rw [render_eq, flat_snoc]
    have hne : render (b ++ [y]) ≠ [47] := by
      rw [render_eq]
      intro e
      have := congrArg List.length e
      have h1 : y.length ≠ 0 := by simpa using hy
      simp at this
      omega
    rw [if_neg hne, hr]
    refine ⟨rfl, ?_⟩
    unfold below
    rw [if_neg (by simp), hr]

theorem room_none (n : Nat) : room none n = ([], n + 1) := rfl

theorem rename_file (a : List Bytes) (x : Bytes) (h : Simple (a ++ [x])) (hl : (render (a ++ [x])).length + 4 ≤ 1024)
    (hx : x.getLast? ≠ some 92) (junk : Byte) :
    checkRename none (render (a ++ [x])) junk = some (.ok ⟨below a, x, x.length + 1, true⟩) := by
  have hxn := (h x (by simp)).1
  obtain ⟨h1, h2⟩ := split_at a x h
  unfold checkRename
  rw [if_neg (by omega), Proofs.Path.clean_parent a x h 1024 junk (by omega)]
  simp only [h1]
  have hr := render_eq a x
  have hd : (render (a ++ [x])).drop ((flat a).length + 1) = x := by
    rw [hr, show flat a ++ 47 :: x = (flat a ++ [47]) ++ x by simp, List.drop_left' (by simp)]
  have ht : (render (a ++ [x])).take ((flat a).length + 1) = below a := by
    rw [hr, show flat a ++ 47 :: x = (flat a ++ [47]) ++ x by simp, List.take_left' (by simp), h2]
  rw [if_neg (by rw [hr]; simp), hd, ht, render_last a x h, room_none]
  obtain ⟨y, z, rfl⟩ : ∃ y z, x = y ++ [z] := ⟨x.dropLast, x.getLast hxn, (List.dropLast_concat_getLast hxn).symm⟩
  rw [List.getLast?_concat] at hx ⊢
  simp only
  rw [if_pos]
  refine ⟨((h (y ++ [z]) (by simp)).2.2.2 z (by simp)).1, fun e => hx (by rw [e]), ?_⟩
  intro e
  simp at e

theorem rename_slash (a : List Bytes) (x : Bytes) (h : Simple (a ++ [x])) (hl : (render (a ++ [x])).length + 5 ≤ 1024)
    (junk : Byte) : ∃ n c, checkRename none (render (a ++ [x]) ++ [47]) junk = some (.ok ⟨render (a ++ [x]) ++ [47], n, c, false⟩) := by
  obtain ⟨h1, h2⟩ := split_at a x h
  unfold checkRename
  rw [if_neg (by simp; omega), Proofs.Path.clean_parent_slash a x h 1024 junk (by omega)]
  simp only [h1]
  have hr := render_eq a x
  rw [if_neg (by rw [hr]; simp), List.getLast?_concat]
  simp only
  exact ⟨_, _, by rw [if_neg (by simp)]⟩

/-- Without a space and '-' in it the rest of a command is passed over. -/
theorem scan_rest (n : Nat) (junk : Byte) (opens : Bytes → Bool) (c : Cmd) : ∀ (fuel : Nat) (p : Bytes),
    (∀ u v, p ≠ u ++ 32 :: 45 :: v) → scan n junk opens fuel c p = some (c, none)
  | 0, p, _ => by unfold scan; rfl
  | fuel + 1, [], _ => by unfold scan; rfl
  | fuel + 1, b :: p, h => by
    have ih := scan_rest n junk opens c fuel p (fun u v e => h (b :: u) v (by rw [e]; rfl))
    unfold scan
    split
    · rename_i e
      simp only [List.cons.injEq] at e
      exact absurd (show b :: p = [] ++ 32 :: 45 :: _ by rw [e.1, e.2]; rfl) (h _ _)
    · rename_i e1 _ e2 
      rename_i e3
      cases e3; cases e2
      exact ih
    · rename_i h1 h2
      exact (h2 _ _ _ rfl rfl).elim

def verdict (x : Cmd × Option Err) : Cmd × Option Err :=
  (x.1, if x.1.dir = none then some .scpCmd else if x.2 = none ∧ x.1.base = none then some .scpCmd else x.2)

theorem parse_to (b : Byte) (p : Bytes) (h : ∀ u v, p ≠ u ++ 32 :: 45 :: v) (junk : Byte) (opens : Bytes → Bool) :
    parseCmd (makeCmd .to (b :: p)) junk opens =
      (takeTo (p.length + 8) junk opens {} (b :: p)).map verdict := by
  unfold parseCmd
  show (match scan (p.length + 8) junk opens (p.length + 8) {} (115 :: 99 :: 112 :: 32 :: 45 :: 116 :: 32 :: b :: p) with
    | none => none
    | some (c, e) => some (verdict (c, e))) = _
  have hs : scan (p.length + 8) junk opens (p.length + 8) {} (115 :: 99 :: 112 :: 32 :: 45 :: 116 :: 32 :: b :: p) =
      match takeTo (p.length + 8) junk opens {} (b :: p) with
        | none => none
        | some (c, some e) => some (c, some e)
        | some (c, none) => scan (p.length + 8) junk opens (p.length + 4) c p := by
    rw [show p.length + 8 = (p.length + 4) + 1 + 1 + 1 + 1 from rfl]
    rw [scan, scan, scan, scan]
    · rfl
    all_goals simp
  rw [hs]
  cases takeTo (p.length + 8) junk opens {} (b :: p) with
  | none => rfl
  | some x =>
    obtain ⟨c, e⟩ := x
    cases e with
    | none => simp only [scan_rest _ _ _ _ _ p h]; rfl
    | some e => rfl

theorem parse_from (b : Byte) (p : Bytes) (h : ∀ u v, p ≠ u ++ 32 :: 45 :: v) (junk : Byte) (opens : Bytes → Bool) :
    parseCmd (makeCmd .from (b :: p)) junk opens =
      (takeFrom (p.length + 8) junk {} (b :: p)).map verdict := by
  unfold parseCmd
  show (match scan (p.length + 8) junk opens (p.length + 8) {} (115 :: 99 :: 112 :: 32 :: 45 :: 102 :: 32 :: b :: p) with
    | none => none
    | some (c, e) => some (verdict (c, e))) = _
  have hs : scan (p.length + 8) junk opens (p.length + 8) {} (115 :: 99 :: 112 :: 32 :: 45 :: 102 :: 32 :: b :: p) =
      match takeFrom (p.length + 8) junk {} (b :: p) with
        | none => none
        | some (c, some e) => some (c, some e)
        | some (c, none) => scan (p.length + 8) junk opens (p.length + 4) c p := by
    rw [show p.length + 8 = (p.length + 4) + 1 + 1 + 1 + 1 from rfl]
    rw [scan, scan, scan, scan]
    · rfl
    all_goals simp
  rw [hs]
  cases takeFrom (p.length + 8) junk {} (b :: p) with
  | none => rfl
  | some x =>
    obtain ⟨c, e⟩ := x
    cases e with
    | none => simp only [scan_rest _ _ _ _ _ p h]; rfl
    | some e => rfl

end Proofs.Scp
