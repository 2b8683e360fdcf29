import Verif.Proofs.SshdConfig
/-!
# The nodes are the blocks of the file
-/

namespace Proofs.SshdConfig
open Wolf Wolf.Sshd Spec.SshdConfig

/-- The rest of the line after the keyword. -/
def rest (l : Bytes) : Bytes := ((l.dropWhile blank).dropWhile (fun c => !blank c)).dropWhile blank

/-- A line on one node. -/
def setLine (c : Conf) (l : Bytes) : Option Conf :=
  match options.find? (fun o => o.2 = keyword l) with
  | none => some c
  | some (tag, _) =>
    match setOption tag c (value l) (rest l) with
    | .ok c' => some c'
    | .error _ => none

def setAll : List Bytes → Conf → Option Conf
  | [], c => some c
  | l :: ls, c =>
    match setLine c l with
    | none => none
    | some c' => setAll ls c'

theorem setAll_append (a b : List Bytes) (c : Conf) :
    setAll (a ++ b) c = (setAll a c).bind (setAll b) := by
  induction a generalizing c with
  | nil => rfl
  | cons l ls ih =>
    rw [List.cons_append, setAll, setAll]
    cases setLine c l with
    | none => rfl
    | some c' => exact ih c'

theorem dropWhile_two {p q : UInt8 → Bool} (h : ∀ c, p c = true → q c = true) (l : Bytes) :
    (l.dropWhile p).dropWhile q = l.dropWhile q := by
  induction l with
  | nil => rfl
  | cons c t ih =>
    rw [List.dropWhile_cons (p := p)]
    split
    · rename_i hc; rw [ih, List.dropWhile_cons, if_pos (h c hc)]
    · rfl

theorem dropWhile_no {p : UInt8 → Bool} {c : UInt8} {t : Bytes} (h : p c = false) : (c :: t).dropWhile p = c :: t := by
  rw [List.dropWhile_cons, if_neg (by simp [h])]

/-- A line that starts with the name of an option, in a tidy file: its keyword is that name. -/
theorem line_parts {l kw : Bytes} {tag : Tag} (ho : (tag, kw) ∈ options) (ht : ∀ k ∈ keywords, text k <+: keyword l → keyword l = text k)
    (hp : kw <+: strip l) :
    keyword l = kw ∧ rest l = ((strip l).drop kw.length).dropWhile isSpace ∧ words (rest l) = (words l).tail ∧
      (rest l).takeWhile (fun c => !isSpace c) = value l := by
  obtain ⟨t, hs⟩ := hp
  obtain ⟨hchars, hlen⟩ := options_names _ ho
  simp only at hchars hlen
  have hk : ∃ k ∈ keywords, text k = kw := by
    have : ∀ o ∈ options, ∃ k ∈ keywords, text k = o.2 := by decide +kernel
    exact this _ ho
  obtain ⟨k, hk1, hk2⟩ := hk
  have hblank : ∀ c ∈ kw, blank c = false := fun c hc => (hchars c hc).1
  have hne : kw ≠ [] := by intro e; rw [e] at hlen; simp at hlen
  -- the first word
  have hdrop : l.dropWhile blank = kw ++ t := by
    have : (strip l).dropWhile blank = l.dropWhile blank :=
      dropWhile_two (fun c h => by simp at h; rcases h with rfl | rfl <;> rfl) l
    rw [← this, ← hs]
    cases kw with
    | nil => exact absurd rfl hne
    | cons x k => rw [List.cons_append, dropWhile_no (hblank x (by simp))]
  have hkw : keyword l = kw := by
    rw [hk2.symm]
    apply ht k hk1
    rw [hk2, keyword, ← words_strip, ← hs]
    rcases nextWord_spec (kw ++ t) with ⟨h1, h2⟩ | ⟨h1, h2, h3⟩
    · exfalso
      cases kw with
      | nil => exact hne rfl
      | cons x k =>
        have hx : isSpace x = false := hblank x (by simp)
        simp [nextWord, hx] at h1
    · rw [h2, List.headD_cons, nextWord]
      simp only
      have : (kw ++ t).dropWhile isSpace = kw ++ t := by
        cases kw with
        | nil => exact absurd rfl hne
        | cons x k => rw [List.cons_append, dropWhile_no (hchars x (by simp)).1]
      rw [this, List.takeWhile_append_of_pos (fun c hc => by simp [(hchars c hc).1])]
      exact List.prefix_append _ _
  -- what follows it
  have hword : words l = kw :: words t ∧ (t = [] ∨ ∃ b r, t = b :: r ∧ blank b = true) := by
    have hw := words_strip l
    rw [← hs] at hw
    cases t with
    | nil =>
      rw [List.append_nil] at hw
      refine ⟨?_, .inl rfl⟩
      rw [← hw, words_word hne hblank, words_nil]
    | cons b r =>
      by_cases hb : blank b = true
      · refine ⟨?_, .inr ⟨b, r, rfl, hb⟩⟩
        rw [← hw, words_cut hne hblank hb, words_blank hb]
      · exfalso
        -- the first word would be longer
        have hfirst : (keyword l).length > kw.length := by
          rw [keyword, ← hw]
          rcases nextWord_spec (kw ++ b :: r) with ⟨h1, h2⟩ | ⟨h1, h2, h3⟩
          · cases kw with
            | nil => exact absurd rfl hne
            | cons x k =>
              have hx : isSpace x = false := hblank x (by simp)
              simp [nextWord, hx] at h1
          · rw [h2, List.headD_cons, nextWord]
            simp only
            have : (kw ++ b :: r).dropWhile isSpace = kw ++ b :: r := by
              cases kw with
              | nil => exact absurd rfl hne
              | cons x k => rw [List.cons_append, dropWhile_no (hchars x (by simp)).1]
            rw [this, List.takeWhile_append_of_pos (fun c hc => by simp [(hchars c hc).1]), List.takeWhile_cons,
              if_pos (by rw [blank_eq] at hb; simpa using hb), List.length_append, List.length_cons]
            omega
        rw [hkw] at hfirst
        omega
  have hrest : rest l = t.dropWhile isSpace := by
    rw [rest, hdrop, List.dropWhile_append_of_pos (fun c hc => by simp [hblank c hc])]
    rcases hword.2 with rfl | ⟨b, r, rfl, hb⟩
    · rfl
    · rw [dropWhile_no (p := fun c => !blank c) (by simp [hb]), blank_eq]
  have hwr : words (rest l) = (words l).tail := by
    rw [hrest, words_drop isSpace (fun c h => h), hword.1, List.tail_cons]
  refine ⟨hkw, ?_, hwr, ?_⟩
  · rw [hrest, ← hs, List.drop_left]
  · rw [value, ← hwr]
    rcases nextWord_spec (rest l) with ⟨h1, h2⟩ | ⟨h1, h2, h3⟩
    · rw [h2]
      simp only [List.headD_nil]
      rw [nextWord] at h1
      simp only at h1
      rw [hrest] at h1 ⊢
      rw [dropWhile_two (fun c h => h)] at h1
      exact h1
    · rw [h2, List.headD_cons, nextWord]
      simp only
      rw [hrest, dropWhile_two (fun c h => h)]

theorem set_self {α : Type} {l : List α} {i : Nat} {a : α} (h : l[i]? = some a) : l.set i a = l := by
  obtain ⟨hi, rfl⟩ := List.getElem?_eq_some_iff.1 h
  exact List.set_getElem_self hi

theorem options_nodup : ∀ o ∈ options, options.find? (fun p => p.2 = o.2) = some o := by decide +kernel

theorem find_keyword {l : Bytes} (h : known l = false) : options.find? (fun o => o.2 = keyword l) = none := by
  rw [List.find?_eq_none]
  intro o ho he
  rw [known, Bool.eq_false_iff] at h
  exact h (List.any_eq_true.2 ⟨o, ho, he⟩)

/-- A line other than `Include` and `Match` changes the node of the cursor. -/
theorem apply_set {F : Files} {load : Nodes → Bytes → Except Err Nodes} {n m : Nodes} {l : Bytes} {c : Conf}
    (ht : ∀ k ∈ keywords, text k <+: keyword l → keyword l = text k) (hi : keyword l ≠ text "Include")
    (hm : isMatch l = false) (hc : n.list[n.cur]? = some c) (h : applyLine F load n l = some m) :
    ∃ c', setLine c l = some c' ∧ m = { n with list := n.list.set n.cur c' } := by
  rw [applyLine] at h
  cases hf : options.find? (fun o => o.2.isPrefixOf (strip l)) with
  | none =>
    rw [hf] at h; simp only at h
    cases hs : skipped l with
    | false => rw [hs] at h; cases h
    | true =>
      rw [hs] at h
      have hk : known l = false := by rw [skipped, Bool.and_eq_true] at hs; simpa using hs.1
      cases h
      refine ⟨c, ?_, ?_⟩
      · rw [setLine, find_keyword hk]
      · rw [set_self hc]
  | some o =>
    obtain ⟨tag, kw⟩ := o
    rw [hf] at h; simp only at h
    have hmem := List.mem_of_find?_eq_some hf
    have hpre : kw <+: strip l := by simpa using List.find?_some hf
    obtain ⟨e1, e2, e3, e4⟩ := line_parts hmem ht hpre
    have hfind := options_nodup _ hmem
    simp only at hfind
    rw [parseConfigLine, hf] at h
    simp only [← e2, e4] at h
    rw [setLine, e1, hfind]
    simp only
    have key : ∀ tag', tag' = tag → tag' ≠ .incl ∧ tag' ≠ .matchBlock := by
      rintro _ rfl
      constructor
      · rintro rfl
        have : ∀ o ∈ options, o.1 = Tag.incl → o.2 = text "Include" := by decide +kernel
        exact hi (by rw [e1]; exact this _ hmem rfl)
      · rintro rfl
        have : ∀ o ∈ options, o.1 = Tag.matchBlock → o.2 = text "Match" := by decide +kernel
        have e : isMatch l = true := by rw [isMatch, e1]; simpa using this _ hmem rfl
        rw [e] at hm; cases hm
    by_cases hv : (value l).length ≥ MAX_FILENAME_SZ
    · rw [if_pos hv] at h; cases h
    · rw [if_neg hv] at h
      obtain ⟨k1, k2⟩ := key tag rfl
      cases hset : setOption tag c (value l) (rest l) with
      | error e =>
        exfalso
        cases tag <;> simp_all
      | ok c' =>
        refine ⟨c', rfl, ?_⟩
        cases tag <;> simp_all

/-- A `Match` line adds a node. -/
theorem apply_match {F : Files} {load : Nodes → Bytes → Except Err Nodes} {n m : Nodes} {l : Bytes}
    (ht : ∀ k ∈ keywords, text k <+: keyword l → keyword l = text k)
    (hm : isMatch l = true) (h : applyLine F load n l = some m) :
    ∃ head c, n.list.head? = some head ∧ selOk (words l).tail false = true ∧
      crit (words l).tail { head with usr := none, grp := none } = .ok c ∧ m = ⟨n.list ++ [c], n.list.length⟩ := by
  have hkw : keyword l = text "Match" := by simpa [isMatch] using hm
  have hk : known l = true := by
    rw [known, List.any_eq_true]
    refine ⟨(.matchBlock, name "Match"), by simp [options], ?_⟩
    rw [hkw]; simp [text_eq]
  rw [applyLine] at h
  cases hf : options.find? (fun o => o.2.isPrefixOf (strip l)) with
  | none => rw [hf, skipped, hk] at h; cases h
  | some o =>
    obtain ⟨tag, kw⟩ := o
    rw [hf] at h; simp only at h
    have hmem := List.mem_of_find?_eq_some hf
    have hpre : kw <+: strip l := by simpa using List.find?_some hf
    obtain ⟨e1, e2, e3, e4⟩ := line_parts hmem ht hpre
    have htag : tag = .matchBlock := by
      have : ∀ o ∈ options, o.2 = text "Match" → o.1 = Tag.matchBlock := by decide +kernel
      exact this _ hmem (by rw [← hkw, e1])
    subst htag
    rw [parseConfigLine, hf] at h
    simp only [← e2, e4] at h
    by_cases hv : (value l).length ≥ MAX_FILENAME_SZ
    · rw [if_pos hv] at h; cases h
    · rw [if_neg hv, handleMatch_words, e3] at h
      cases hsel : selOk (words l).tail false with
      | false => rw [hsel] at h; cases h
      | true =>
        rw [hsel] at h
        cases hh : n.list.head? with
        | none => rw [hh] at h; cases h
        | some head =>
          rw [hh] at h
          simp only [Bool.not_true, Bool.false_eq_true, if_false] at h
          cases hcr : crit (words l).tail { head with usr := none, grp := none } with
          | error e => rw [hcr] at h; cases h
          | ok c =>
            rw [hcr] at h
            cases h
            exact ⟨head, c, rfl, rfl, hcr, rfl⟩

/-- The nodes of the blocks. -/
inductive BlockNodes (head : Conf) : List (Bytes × List Bytes) → List Conf → Prop
  | nil : BlockNodes head [] []
  | cons {m : Bytes} {body : List Bytes} {c node : Conf} {bs : List (Bytes × List Bytes)} {ns : List Conf} :
      selOk (words m).tail false = true → crit (words m).tail { head with usr := none, grp := none } = .ok c →
      setAll body c = some node → BlockNodes head bs ns → BlockNodes head ((m, body) :: bs) (node :: ns)

theorem run_blocks {F : Files} {load : Nodes → Bytes → Except Err Nodes} : ∀ (ls : List Bytes) (pre : List Conf) (c : Conf) (n' : Nodes),
    (∀ l ∈ ls, (∀ k ∈ keywords, text k <+: keyword l → keyword l = text k) ∧ keyword l ≠ text "Include") →
    runLines F load ls ⟨pre ++ [c], pre.length⟩ = some n' →
    ∃ c' nodes head, setAll (globals ls) c = some c' ∧ n'.list = pre ++ [c'] ++ nodes ∧ (pre ++ [c']).head? = some head ∧
      BlockNodes head (blocks ls) nodes := by
  intro ls
  induction ls with
  | nil =>
    intro pre c n' _ h
    cases h
    cases pre with
    | nil => exact ⟨c, [], c, rfl, by simp, rfl, .nil⟩
    | cons p ps => exact ⟨c, [], p, rfl, by simp, rfl, .nil⟩
  | cons l ls ih =>
    intro pre c n' ht h
    obtain ⟨t1, t2⟩ := ht l (by simp)
    rw [runLines] at h
    cases ha : applyLine F load ⟨pre ++ [c], pre.length⟩ l with
    | none => rw [ha] at h; cases h
    | some m =>
      rw [ha] at h; simp only at h
      cases hm : isMatch l with
      | false =>
        have hc : (⟨pre ++ [c], pre.length⟩ : Nodes).list[(⟨pre ++ [c], pre.length⟩ : Nodes).cur]? = some c := by simp
        obtain ⟨c1, h1, h2⟩ := apply_set t1 t2 hm hc ha
        have h2' : m = ⟨pre ++ [c1], pre.length⟩ := by rw [h2]; simp
        rw [h2'] at h
        obtain ⟨c', nodes, head, g1, g2, g3, g4⟩ := ih pre c1 n' (fun x hx => ht x (by simp [hx])) h
        refine ⟨c', nodes, head, ?_, g2, g3, ?_⟩
        · rw [globals, List.takeWhile_cons, if_pos (by simp [hm]), setAll, h1]; exact g1
        · rw [blocks, if_neg (by simp [hm])]; exact g4
      | true =>
        obtain ⟨head, c0, g1, g2, g3, g4⟩ := apply_match t1 hm ha
        rw [g4] at h
        simp only at h
        have h' : runLines F load ls ⟨(pre ++ [c]) ++ [c0], (pre ++ [c]).length⟩ = some n' := h
        obtain ⟨c', nodes, head', k1, k2, k3, k4⟩ := ih (pre ++ [c]) c0 n' (fun x hx => ht x (by simp [hx])) h'
        have hhead : head' = head := by
          rw [List.head?_append] at k3
          simp only at g1
          rw [g1] at k3
          simpa using k3.symm
        subst hhead
        refine ⟨c, c' :: nodes, head', ?_, ?_, g1, ?_⟩
        · rw [globals, List.takeWhile_cons, if_neg (by simp [hm])]; rfl
        · rw [k2]; simp
        · rw [blocks, if_pos hm]
          exact .cons g2 g3 k1 k4

/-! ## Which node is the user's -/

theorem setOption_sel {tag : Tag} {c c' : Conf} {v f : Bytes} (h : setOption tag c v f = .ok c') :
    c'.usr = c.usr ∧ c'.grp = c.grp := by
  cases tag <;> simp only [setOption, stored, orBad] at h <;> repeat' split at h
  all_goals first | (cases h; exact ⟨rfl, rfl⟩) | cases h

theorem setLine_sel {c c' : Conf} {l : Bytes} (h : setLine c l = some c') : c'.usr = c.usr ∧ c'.grp = c.grp := by
  rw [setLine] at h
  split at h
  · cases h; exact ⟨rfl, rfl⟩
  · split at h
    · cases h; rename_i hs; exact setOption_sel hs
    · cases h

theorem setAll_sel : ∀ {ls : List Bytes} {c c' : Conf}, setAll ls c = some c' → c'.usr = c.usr ∧ c'.grp = c.grp
  | [], c, c', h => by cases h; exact ⟨rfl, rfl⟩
  | l :: ls, c, c', h => by
    rw [setAll] at h
    split at h
    · cases h
    · rename_i c1 h1
      obtain ⟨a, b⟩ := setLine_sel h1
      obtain ⟨a', b'⟩ := setAll_sel h
      exact ⟨a'.trans a, b'.trans b⟩

/-- A node applies if its block does. -/
theorem node_matches {head c node : Conf} {m : Bytes} {body : List Bytes} (h1 : selOk (words m).tail false = true)
    (h2 : crit (words m).tail { head with usr := none, grp := none } = .ok c) (h3 : setAll body c = some node)
    (user : Bytes) (groups : List Bytes) :
    confMatches node (some user) groups = applies m user groups := by
  obtain ⟨e, hne⟩ := crit_selected _ _ _ _ h1 h2
  obtain ⟨a, b⟩ := setAll_sel h3
  have hu : node.usr = selected (text "User") (words m).tail := by rw [a, e]; simp
  have hg : node.grp = selected (text "Group") (words m).tail := by rw [b, e]; simp
  have hne := hne rfl
  rw [confMatches, applies, hu, hg]
  generalize selected (text "User") (words m).tail = x at hne
  generalize selected (text "Group") (words m).tail = y at hne
  rw [if_neg (by rintro ⟨rfl, rfl⟩; simp at hne)]
  congr 1
  cases x with
  | none => rfl
  | some u =>
    simp only [Option.some.injEq]
    congr 1
    exact propext ⟨fun h => h.symm, fun h => h.symm⟩

theorem find_nodes {head : Conf} {bs : List (Bytes × List Bytes)} {ns : List Conf} (h : BlockNodes head bs ns)
    (user : Bytes) (groups : List Bytes) :
    (ns.find? (fun c => confMatches c (some user) groups) = none ∧ bs.find? (fun b => applies b.1 user groups) = none) ∨
    ∃ node m body c, ns.find? (fun c => confMatches c (some user) groups) = some node ∧
      bs.find? (fun b => applies b.1 user groups) = some (m, body) ∧ selOk (words m).tail false = true ∧
      crit (words m).tail { head with usr := none, grp := none } = .ok c ∧ setAll body c = some node := by
  induction h with
  | nil => left; exact ⟨rfl, rfl⟩
  | @cons m body c node bs ns h1 h2 h3 h4 ih =>
    have e := node_matches h1 h2 h3 user groups
    rw [List.find?_cons, List.find?_cons]
    simp only [e]
    cases ha : applies m user groups with
    | true => right; exact ⟨node, m, body, c, rfl, rfl, h1, h2, h3⟩
    | false => exact ih

/-- The user's node, made from the lines in scope: the settings are made on a node that differs in its criteria only. -/
theorem user_conf {F : Files} {load : Nodes → Bytes → Except Err Nodes} {ls : List Bytes} {n' : Nodes}
    (ht : ∀ l ∈ ls, (∀ k ∈ keywords, text k <+: keyword l → keyword l = text k) ∧ keyword l ≠ text "Include")
    (h : runLines F load ls ⟨[{}], 0⟩ = some n') (user : Bytes) (groups : List Bytes) :
    ∃ c head c0 node more, getUserConf n'.list (some user) groups = some c ∧ inScope ls user groups = globals ls ++ more ∧
      setAll (globals ls) {} = some head ∧ ({ c0 with usr := none, grp := none } = ({ head with usr := none, grp := none } : Conf)) ∧
      setAll more c0 = some node ∧ c = node := by
  obtain ⟨c', nodes, head, g1, g2, g3, g4⟩ := run_blocks ls [] {} n' ht h
  have hh : head = c' := by simpa using g3.symm
  subst hh
  obtain ⟨u1, u2⟩ := setAll_sel g1
  have hlist : n'.list = head :: nodes := by rw [g2]; rfl
  have hno : confMatches head (some user) groups = false := by
    rw [confMatches, if_pos]
    exact ⟨u1, u2⟩
  rw [getUserConf, hlist, List.find?_cons]
  simp only [hno]
  rcases find_nodes g4 user groups with ⟨k1, k2⟩ | ⟨node, m, body, c, k1, k2, k3, k4, k5⟩
  · rw [k1, inScope, k2]
    exact ⟨head, head, head, head, [], rfl, rfl, g1, rfl, rfl, rfl⟩
  · rw [k1, inScope, k2]
    refine ⟨node, head, c, node, body, rfl, rfl, g1, ?_, k5, rfl⟩
    obtain ⟨e, _⟩ := crit_selected _ _ _ _ k3 k4
    rw [e]

/-! ## What one keyword sets -/

/-- `f` is set by the keyword `kw` only, as `sem` says. -/
def Sets {α : Type} (f : Conf → α) (kw : String) (sem : Bytes → α → Prop) : Prop :=
  ∀ c l c', setLine c l = some c' → if keyword l = text kw then sem l (f c') else f c' = f c

theorem lastLine_cons (kw : String) (l : Bytes) (ls : List Bytes) :
    lastLine kw (l :: ls) = (lastLine kw ls).or (if keyword l = text kw then some l else none) := by
  rw [lastLine, List.filter_cons]
  by_cases h : keyword l = text kw
  · rw [if_pos (by simpa using h), if_pos h, List.getLast?_cons, lastLine]
    cases (ls.filter (fun l => keyword l = text kw)).getLast? <;> rfl
  · rw [if_neg (by simpa using h), if_neg h, lastLine]; simp

theorem lastLine_append (kw : String) (a b : List Bytes) : lastLine kw (a ++ b) = (lastLine kw b).or (lastLine kw a) := by
  rw [lastLine, List.filter_append, List.getLast?_append, lastLine, lastLine]

theorem sets_all {α : Type} {f : Conf → α} {kw : String} {sem : Bytes → α → Prop} (hs : Sets f kw sem) :
    ∀ {ls : List Bytes} {c c' : Conf}, setAll ls c = some c' →
      match lastLine kw ls with
      | none => f c' = f c
      | some l => sem l (f c')
  | [], c, c', h => by cases h; rfl
  | l :: ls, c, c', h => by
    rw [setAll] at h
    split at h
    · cases h
    · rename_i c1 h1
      have ih := sets_all hs h
      have h0 := hs c l c1 h1
      rw [lastLine_cons]
      cases hl : lastLine kw ls with
      | some x => rw [hl] at ih; exact ih
      | none =>
        rw [hl] at ih
        simp only at ih
        by_cases hk : keyword l = text kw
        · rw [if_pos hk] at h0 ⊢
          simp only [Option.none_or]
          rw [ih]; exact h0
        · rw [if_neg hk] at h0 ⊢
          simp only [Option.none_or]
          rw [ih]; exact h0

/-- A field that is no criterion, over the lines in scope. -/
theorem sets_scope {α : Type} {f : Conf → α} {kw : String} {sem : Bytes → α → Prop} (hs : Sets f kw sem)
    (hf : ∀ c : Conf, f { c with usr := none, grp := none } = f c) {g more : List Bytes} {head c0 node : Conf}
    (h1 : setAll g {} = some head) (h2 : ({ c0 with usr := none, grp := none } : Conf) = { head with usr := none, grp := none })
    (h3 : setAll more c0 = some node) :
    match lastLine kw (g ++ more) with
    | none => f node = f {}
    | some l => sem l (f node) := by
  have a := sets_all hs h1
  have b := sets_all hs h3
  have e : f c0 = f head := by rw [← hf c0, h2, hf]
  rw [lastLine_append]
  cases hm : lastLine kw more with
  | some x => rw [hm] at b; exact b
  | none =>
    rw [hm] at b
    simp only at b
    rw [Option.none_or, b, e]
    exact a

/-- How to show `Sets`: by the one tag. -/
theorem sets_of {α : Type} {f : Conf → α} {kw : String} {sem : Bytes → α → Prop} (tag : Tag)
    (h1 : options.find? (fun o => o.2 = text kw) = some (tag, text kw)) (h1' : ∀ o ∈ options, o.1 = tag → o.2 = text kw)
    (h2 : ∀ c l c', setOption tag c (value l) (rest l) = .ok c' → sem l (f c'))
    (h3 : ∀ t c v r c', t ≠ tag → setOption t c v r = .ok c' → f c' = f c) : Sets f kw sem := by
  intro c l c' h
  rw [setLine] at h
  by_cases hk : keyword l = text kw
  · rw [if_pos hk]
    rw [hk, h1] at h
    simp only at h
    split at h
    · cases h; rename_i hs; exact h2 _ _ _ hs
    · cases h
  · rw [if_neg hk]
    split at h
    · cases h; rfl
    · rename_i t k hfind
      have hmem := List.mem_of_find?_eq_some hfind
      have hk2 : k = keyword l := by simpa using List.find?_some hfind
      split at h
      · cases h; rename_i hs
        refine h3 t _ _ _ _ ?_ hs
        rintro rfl
        exact hk (by rw [← hk2]; exact h1' _ hmem rfl)
      · cases h

end Proofs.SshdConfig
