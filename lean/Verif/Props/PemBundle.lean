import Verif.Proofs.PemBundle
/-!
# C135: root certificates from a PEM file
-/

namespace Props.PemBundle
open Wolf (Byte Bytes)
open Wolf.PemBundle Spec.PemBundle Proofs.PemBundle

/-- **C135, files.** A file of any lines of text with blocks of certificates among them, some of which may be cut off: exactly
its whole blocks are decoded and loaded, from header to footer and in their order, also behind one that cannot be loaded and
one that is cut off. The call succeeds if at least one was loaded, and otherwise tells whether there was any block. -/
theorem C135_file (tr : Bool) (good : Nat → Bool) (pre : List Bytes) (hp : ∀ l ∈ pre, Free tr l) (es : List Entry)
    (hes : ∀ e ∈ es, Ok tr e) (z : Last) (hz : OkLast tr z) (hne : file pre es z ≠ []) :
    ∃ ret l, load tr good (file pre es z) = some (ret, l) ∧ l.handed = blocks es z ∧
      l.loaded = goods good (blocks es z).length ∧
      ret = if 0 < goods good (blocks es z).length then .success else if blocks es z ≠ [] ∨ 0 < cuts es then .parse else .badFile := by
  obtain ⟨⟨h1, h2⟩, h3⟩ := all_tally good es z
  refine ⟨_, _, load_file good pre hp es hes z hz hne, h3, by rw [← h3]; exact h1, ?_⟩
  unfold retOf
  rw [← h3, ← h1]
  generalize enterLast good (es.foldl (enter good) {}) z = l at *
  by_cases h : 0 < l.loaded
  · rw [if_pos h, if_pos h]
  · rw [if_neg h, if_neg h]
    have hb : (l.handed ≠ [] ∨ 0 < cuts es) ↔ 0 < l.failed := by
      rw [← List.length_pos_iff]
      omega
    by_cases hf : 0 < l.failed
    · rw [if_pos hf, if_pos (hb.2 hf)]
    · rw [if_neg hf, if_neg (fun h => hf (hb.1 h))]

/-- **C135, any input.** Whatever bytes are given, no offset is outside of them and the call ends. All that is decoded is
a part of the input from a header to the first footer of its form, and the call succeeds if and only if one of them is loaded. -/
theorem C135_any (tr : Bool) (good : Nat → Bool) (inp : Bytes) :
    ∃ ret l, load tr good inp = some (ret, l) ∧ (∀ x ∈ l.handed, Sound inp x) ∧
      (ret = .success ↔ ∃ i < l.handed.length, good i = true) := by
  obtain ⟨l, h1, h2, c, h3⟩ := load_any tr good inp
  refine ⟨_, l, h1, h2, ?_⟩
  have h4 : retOf l = .success ↔ 0 < l.loaded := by
    unfold retOf
    by_cases h : 0 < l.loaded
    · rw [if_pos h]; exact ⟨fun _ => h, fun _ => rfl⟩
    · rw [if_neg h]
      refine ⟨fun h' => ?_, fun h' => absurd h' h⟩
      by_cases hf : 0 < l.failed
      · rw [if_pos hf] at h'; cases h'
      · rw [if_neg hf] at h'; cases h'
  rw [h4, h3.loaded]
  unfold goods
  rw [List.countP_pos_iff]
  exact ⟨fun ⟨i, hi, hg⟩ => ⟨i, List.mem_range.1 hi, hg⟩, fun ⟨i, hi, hg⟩ => ⟨i, List.mem_range.2 hi, hg⟩⟩

/-- A line with dashes, a block with a carriage return behind its header, a line with a footer, a block that is cut off, one
of the other form, and a last one whose line is not ended. -/
def pre : List Bytes := [[35, 32, 45, 45, 45, 45, 45, 66], []]
def es : List Entry :=
  [.whole .cert [13] [[77, 73, 73], [65, 61]] [13] [footer .cert, [120]], .cut .trusted [] [[81, 81]], .whole .trusted [] [[82], footer .cert] [] []]
def z : Last := some (.cert, [], [[83]], [])

example : load true (fun n => n != 0) (file pre es z) = some (.success, ⟨blocks es z, 2, 2⟩) ∧ (blocks es z).length = 3 := by
  decide +kernel

-- Without the other form its blocks are text.
example : (load false (fun _ => false) (file pre es z)).map (fun r => (r.1, r.2.handed.length)) = some (.parse, 2) := by decide +kernel

-- They meet the conditions.
example : (∀ l ∈ pre, Free true l) ∧ (∀ e ∈ es, Ok true e) ∧ OkLast true z := by
  have key : ∀ (l : Bytes), ¬ header .cert <:+: l → ¬ header .trusted <:+: l → Free true l := fun l h1 h2 k _ => by
    cases k
    · exact h1
    · exact h2
  refine ⟨?_, ?_, ?_⟩
  · intro l hl
    simp only [pre, List.mem_cons, List.not_mem_nil, or_false] at hl
    rcases hl with rfl | rfl
    · exact key _ (by decide +kernel) (by decide +kernel)
    · exact key _ (by decide +kernel) (by decide +kernel)
  · intro e he
    simp only [es, List.mem_cons, List.not_mem_nil, or_false] at he
    rcases he with rfl | rfl | rfl
    · refine ⟨Or.inl rfl, by unfold Blank; decide, fun l hl => ?_, by unfold Blank; decide, fun l hl => ?_⟩
      · simp only [List.mem_cons, List.not_mem_nil, or_false] at hl
        rcases hl with rfl | rfl
        · exact ⟨key _ (by decide +kernel) (by decide +kernel), by decide +kernel⟩
        · exact ⟨key _ (by decide +kernel) (by decide +kernel), by decide +kernel⟩
      · simp only [List.mem_cons, List.not_mem_nil, or_false] at hl
        rcases hl with rfl | rfl
        · exact key _ (by decide +kernel) (by decide +kernel)
        · exact key _ (by decide +kernel) (by decide +kernel)
    · refine ⟨Or.inr rfl, by unfold Blank; decide, fun l hl => ?_⟩
      simp only [List.mem_cons, List.not_mem_nil, or_false] at hl
      subst hl
      exact ⟨key _ (by decide +kernel) (by decide +kernel), by decide +kernel⟩
    · refine ⟨Or.inr rfl, by unfold Blank; decide, fun l hl => ?_, by unfold Blank; decide, fun l hl => by cases hl⟩
      simp only [List.mem_cons, List.not_mem_nil, or_false] at hl
      rcases hl with rfl | rfl
      · exact ⟨key _ (by decide +kernel) (by decide +kernel), by decide +kernel⟩
      · exact ⟨key _ (by decide +kernel) (by decide +kernel), by decide +kernel⟩
  · refine ⟨Or.inl rfl, by unfold Blank; decide, fun l hl => ?_, by unfold Blank; decide⟩
    simp only [List.mem_cons, List.not_mem_nil, or_false] at hl
    subst hl
    exact ⟨key _ (by decide +kernel) (by decide +kernel), by decide +kernel⟩

end Props.PemBundle
