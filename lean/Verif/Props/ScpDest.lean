import Verif.Proofs.ScpDest
import Verif.Model.NameList
/-!
# SCP: C81, the command and the destination
-/

namespace Props.Scp
open Wolf Wolf.Scp Wolf.Path Spec.Path Spec.Scp
open Wolf.NameList (asc)
open Proofs.Path (Simple)

/-! ## Every path -/

/-- C81, for every path: nothing is read outside the string, and the directory and the name are the two parts of the path;
without a name the directory is the whole path. -/
theorem C81_parts (old : Option (Bytes × Nat)) (path : Bytes) (junk : Byte) (hz : 0 ∉ path) :
    ∃ r, checkRename old path junk = some r ∧ ∀ d, r = .ok d →
      (d.rename = true → d.base ++ d.name = path ∧ d.name ≠ []) ∧ (d.rename = false → d.base = path) := by
  unfold checkRename
  by_cases hl : path.length + 4 > 1024
  · rw [if_pos hl]; exact ⟨_, rfl, fun d h => by cases h⟩
  · rw [if_neg hl]
    obtain ⟨up, hu, -, -⟩ := Proofs.Scp.clean_total (path ++ [47, 46, 46]) (by simp [hz]) 1024 junk (by simp; omega)
    simp only [hu]
    generalize hidx : (if up = [47] then up.length else up.length + 1) = idx
    by_cases hi : idx > path.length
    · rw [if_pos hi]; exact ⟨_, rfl, fun d h => by cases h⟩
    · rw [if_neg hi]
      cases hg : path.getLast? with
      | none =>
        exfalso
        rw [List.getLast?_eq_none_iff] at hg
        subst hg
        have h0 : idx = 0 := by simpa using hi
        have hr : cleanPath [47, 46, 46] 1024 junk = some (.ok [47, 46, 46]) := by rfl
        rw [List.nil_append, hr] at hu
        simp only [Option.some.injEq, Except.ok.injEq] at hu
        subst hu
        simp at hidx
        omega
      | some l =>
        simp only
        generalize room old (path.drop idx).length = kept
        by_cases hc : l ≠ 47 ∧ l ≠ 92 ∧ kept.1.take (path.drop idx).length ≠ path.drop idx
        · rw [if_pos hc]
          refine ⟨_, rfl, fun d h => ?_⟩
          cases h
          refine ⟨fun _ => ⟨List.take_append_drop _ _, fun e => ?_⟩, (fun h => nomatch h)⟩
          have e' : path.drop idx = [] := e
          rw [e'] at hc
          exact hc.2.2 (by simp)
        · rw [if_neg hc]
          refine ⟨_, rfl, fun d h => ?_⟩
          cases h
          exact ⟨(fun h => nomatch h), fun _ => rfl⟩

example : (checkRename none (asc "/a/b/c") 7).map Except.toOption = some (some ⟨asc "/a/b/", asc "c", 2, true⟩) ∧
    (checkRename none (asc "/a/b/c/") 7).map Except.toOption = some (some ⟨asc "/a/b/c/", [], 3, false⟩) := by decide +kernel

/-! ## Canonical paths -/


/-- C81, on the receiving client, for an absolute path in canonical form: the directory is the parent with a delimiter, the
name is the last component, if the directory can be opened. With a delimiter behind it, the path is the directory. -/
theorem C81_client_partial (a : List Bytes) (x : Bytes) (h : Simple (a ++ [x])) (hl : (render (a ++ [x])).length + 5 ≤ 1024)
    (hx : x.getLast? ≠ some 92) (junk : Byte) (opens : Bytes → Bool) :
    clientDest (render (a ++ [x])) junk opens =
      some (if opens (below a) then .ok ⟨below a, x, x.length + 1, true⟩ else .error .fatal) ∧
    ∃ n c, clientDest (render (a ++ [x]) ++ [47]) junk opens =
      some (if opens (render (a ++ [x]) ++ [47]) then .ok ⟨render (a ++ [x]) ++ [47], n, c, false⟩ else .error .fatal) := by
  obtain ⟨n, c, h2⟩ := Proofs.Scp.rename_slash a x h (by omega) junk
  unfold clientDest
  rw [Proofs.Scp.rename_file a x h (by omega) hx junk, h2]
  constructor
  · rfl
  · exact ⟨n, c, rfl⟩

example : Simple ([asc "srv", asc "in"] ++ [asc "x.txt"]) ∧ (render ([asc "srv", asc "in"] ++ [asc "x.txt"])).length + 5 ≤ 1024 ∧
    (asc "x.txt").getLast? ≠ some 92 := by
  refine ⟨?_, by decide, by decide⟩
  intro c hc
  simp only [List.cons_append, List.nil_append, List.mem_cons, List.not_mem_nil, or_false] at hc
  rcases hc with rfl | rfl | rfl <;> exact ⟨by decide, by decide, by decide, by decide⟩

/-! ## The command -/

/-- C81, the command of a client, for every path without a space and '-' in a row: the server takes the direction, and, to
send, the cleaned path. -/
theorem C81_command_from (b : Byte) (p : Bytes) (hz : 0 ∉ b :: p) (h : ∀ u v, p ≠ u ++ 32 :: 45 :: v) (junk : Byte)
    (opens : Bytes → Bool) : ∃ q n, cleanPath (b :: p) n junk = some (.ok q) ∧ (b :: p).length < n ∧
      parseCmd (makeCmd .from (b :: p)) junk opens = some ({ dir := some .from, base := some q }, none) := by
  obtain ⟨q, hq, -, -⟩ := Proofs.Scp.clean_total (b :: p) hz (p.length + 8 + 256) junk (by simp)
  refine ⟨q, _, hq, by simp, ?_⟩
  rw [Proofs.Scp.parse_from b p h junk opens]
  unfold takeFrom
  simp only [hq]
  rfl

/-- To receive, for an absolute path in canonical form: the directory is the parent with a delimiter, the name is the last
component. A delimiter at the end of the path makes no difference. -/
theorem C81_command_to_partial (a : List Bytes) (x : Bytes) (h : Simple (a ++ [x])) (hl : (render (a ++ [x])).length + 4 ≤ 1024)
    (hx : x.getLast? ≠ some 92) (h3 : 3 ≤ (render (a ++ [x])).length)
    (hm : ∀ u v, render (a ++ [x]) ≠ u ++ 32 :: 45 :: v) (junk : Byte) (opens : Bytes → Bool) :
    let r := ({ dir := some .to, base := some (below a), name := some (x, x.length + 1), rename := true },
        if opens (below a) then none else some .fatal)
    parseCmd (makeCmd .to (render (a ++ [x]))) junk opens = some r ∧
    parseCmd (makeCmd .to (render (a ++ [x]) ++ [47])) junk opens = some r := by
  intro r
  have hne : a ++ [x] ≠ [] := by simp
  obtain ⟨p, hp⟩ : ∃ p, render (a ++ [x]) = 47 :: p := by
    cases h : a ++ [x] with
    | nil => exact absurd h hne
    | cons c cs => exact ⟨c ++ cs.flatMap (47 :: ·), by simp [render]⟩
  have key : ∀ t n, cleanPath t (n + 256) junk = some (.ok (render (a ++ [x]))) →
      (takeTo n junk opens {} t).map Proofs.Scp.verdict = some r := by
    intro t n ht
    unfold takeTo
    simp only [ht, Proofs.Scp.rename_file a x h hl hx junk]
    simp [Proofs.Scp.verdict, r]
  constructor
  · rw [hp, Proofs.Scp.parse_to _ _ (fun u v e => hm (47 :: u) v (by rw [hp, e]; rfl)) junk opens]
    exact key _ _ (by rw [← hp]; exact Proofs.Path.clean_same _ hne h _ _ (by rw [hp]; simp))
  · rw [hp, List.cons_append, Proofs.Scp.parse_to _ _ ?_ junk opens]
    · refine key _ _ ?_
      rw [← List.cons_append, ← hp]
      exact Proofs.Path.clean_slash _ hne h _ _ (by rw [hp]; simp) h3
    · intro u v e
      rcases List.eq_nil_or_concat v with hv | ⟨v', z, hv⟩
      · subst hv
        have := congrArg List.getLast? e
        rw [List.getLast?_concat, show u ++ [32, 45] = (u ++ [32]) ++ [45] by simp, List.getLast?_concat] at this
        exact absurd this (by decide)
      · rw [hv, List.concat_eq_append, show u ++ 32 :: 45 :: (v' ++ [z]) = (u ++ 32 :: 45 :: v') ++ [z] by simp] at e
        have := (List.append_inj' e rfl).1
        exact hm (47 :: u) v' (by rw [hp, this]; rfl)

example : parseCmd (makeCmd .to (asc "/srv/in/x.txt")) 7 (fun d => d == asc "/srv/in/") =
      some ({ dir := some .to, base := some (asc "/srv/in/"), name := some (asc "x.txt", 6), rename := true }, none) ∧
    parseCmd (makeCmd .from (asc "/srv/../etc/x")) 7 (fun _ => false) =
      some ({ dir := some .from, base := some (asc "/etc/x") }, none) := by decide +kernel

/-! ## What is missing -/

/-- A path that is not canonical is cut in the wrong place: at the length of the cleaned parent. -/
theorem C81_wrong_place :
    (checkRename none (asc "file.txt") 7).map Except.toOption = some (some ⟨asc "f", asc "ile.txt", 8, true⟩) ∧
    (checkRename none (asc "/a//b/c") 7).map Except.toOption = some (some ⟨asc "/a//b", asc "/c", 3, true⟩) ∧
    (checkRename none (asc "..") 7).map Except.toOption = some (some ⟨asc ".", asc ".", 2, true⟩) := by decide +kernel

/-- The root is refused as a destination. -/
theorem C81_root (old : Option (Bytes × Nat)) (junk : Byte) : checkRename old [47] junk = some (.error .bufferE) := rfl

/-- The server loses the delimiter that asks for a copy into a directory: the last component is taken for the name of the
file, and only its parent is opened. -/
theorem C81_into_directory : parseCmd (makeCmd .to (asc "/srv/in/")) 7 (fun d => d == asc "/srv/") =
    some ({ dir := some .to, base := some (asc "/srv/"), name := some (asc "in", 3), rename := true }, none) := by decide +kernel

/-- A path with a space and '-' in it is read as options too: the copy to this file becomes a copy of another one in the
opposite direction. -/
theorem C81_option_in_path : parseCmd (makeCmd .to (asc "/srv/a -f /etc/passwd")) 7 (fun _ => true) =
    some ({ dir := some .from, base := some (asc "/etc/passwd"), name := some (asc "passwd", 7), rename := true }, none) := by
  decide +kernel

end Props.Scp
