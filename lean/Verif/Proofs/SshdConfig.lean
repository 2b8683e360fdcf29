import Verif.Model.SshdConfig
import Verif.Spec.SshdConfig
import Verif.Proofs.SshdKeys
/-!
# Words, lines and blocks of a configuration
-/

namespace Proofs.SshdConfig
open Wolf Wolf.Sshd Spec.SshdConfig

theorem blank_eq : blank = isSpace := rfl

theorem text_eq (s : String) : text s = name s := rfl

/-! ## Words -/

theorem cut_ne (l : Bytes) : cut l ≠ [] := by
  cases l with
  | nil => simp [cut]
  | cons c t =>
    rw [cut]
    split
    · simp
    · split <;> simp

theorem words_nil : words [] = [] := by simp [words, cut]

theorem words_blank {c : UInt8} (h : blank c = true) (l : Bytes) : words (c :: l) = words l := by
  rw [words, cut, if_pos h, words]; simp

theorem cut_word {w : Bytes} (h : ∀ c ∈ w, blank c = false) : cut w = [w] := by
  induction w with
  | nil => rfl
  | cons c t ih =>
    rw [cut, if_neg (by simp [h c (by simp)]), ih (fun x hx => h x (by simp [hx]))]

theorem cut_word_blank {w r : Bytes} {b : UInt8} (h : ∀ c ∈ w, blank c = false) (hb : blank b = true) :
    cut (w ++ b :: r) = w :: cut r := by
  induction w with
  | nil => rw [List.nil_append, cut, if_pos hb]
  | cons c t ih =>
    rw [List.cons_append, cut, if_neg (by simp [h c (by simp)]), ih (fun x hx => h x (by simp [hx]))]

theorem words_word {w : Bytes} (hne : w ≠ []) (h : ∀ c ∈ w, blank c = false) : words w = [w] := by
  simp [words, cut_word h, hne]

theorem words_cut {w r : Bytes} {b : UInt8} (hne : w ≠ []) (h : ∀ c ∈ w, blank c = false) (hb : blank b = true) :
    words (w ++ b :: r) = w :: words r := by
  simp [words, cut_word_blank h hb, hne]

theorem cut_snoc {b : UInt8} (hb : blank b = true) (l : Bytes) : cut (l ++ [b]) = cut l ++ [[]] := by
  induction l with
  | nil => simp [cut, hb]
  | cons c t ih =>
    rw [List.cons_append, cut, cut]
    by_cases hc : blank c = true
    · rw [if_pos hc, if_pos hc, ih]; rfl
    · rw [if_neg hc, if_neg hc, ih]
      cases h : cut t with
      | nil => exact absurd h (cut_ne t)
      | cons w ws => rfl

theorem words_snoc {b : UInt8} (hb : blank b = true) (l : Bytes) : words (l ++ [b]) = words l := by
  rw [words, cut_snoc hb, words]; simp

theorem words_drop (p : UInt8 → Bool) (hp : ∀ c, p c = true → blank c = true) (l : Bytes) :
    words (l.dropWhile p) = words l := by
  induction l with
  | nil => rfl
  | cons c t ih =>
    rw [List.dropWhile_cons]
    split
    · rename_i h; rw [ih, words_blank (hp c h)]
    · rfl

theorem dropWhile_head {p : UInt8 → Bool} (l : Bytes) : ∀ c, (l.dropWhile p).head? = some c → p c = false := by
  induction l with
  | nil => intro c h; cases h
  | cons x t ih =>
    intro c h
    rw [List.dropWhile_cons] at h
    split at h
    · exact ih c h
    · rename_i hx; cases h; simpa using hx

theorem takeWhile_mem {p : UInt8 → Bool} {l : Bytes} {x : UInt8} (h : x ∈ l.takeWhile p) : p x = true := by
  induction l with
  | nil => simp at h
  | cons c t ih =>
    rw [List.takeWhile_cons] at h
    split at h
    · rename_i hc
      rcases List.mem_cons.1 h with rfl | h
      · exact hc
      · exact ih h
    · simp at h

theorem nextWord_spec (s : Bytes) :
    ((nextWord s).1 = [] ∧ words s = []) ∨
    ((nextWord s).1 ≠ [] ∧ words s = (nextWord s).1 :: words (nextWord s).2 ∧ (nextWord s).2.length < s.length) := by
  rw [nextWord]
  simp only
  have hw := words_drop isSpace (fun c h => h) s
  generalize hd : s.dropWhile isSpace = d at hw
  have hdl : d.length ≤ s.length := by rw [← hd]; exact (List.dropWhile_sublist _).length_le
  cases d with
  | nil => left; exact ⟨rfl, by rw [← hw, words_nil]⟩
  | cons c t =>
    right
    have hc : isSpace c = false := dropWhile_head s c (by rw [hd]; rfl)
    have happ := List.takeWhile_append_dropWhile (p := fun c => !isSpace c) (l := c :: t)
    have hne : (c :: t).takeWhile (fun c => !isSpace c) ≠ [] := by
      rw [List.takeWhile_cons, if_pos (by simp [hc])]; simp
    have hall : ∀ x ∈ (c :: t).takeWhile (fun c => !isSpace c), blank x = false := by
      intro x hx
      have : (!isSpace x) = true := takeWhile_mem hx
      rw [blank_eq]; simpa using this
    have hpos : 0 < ((c :: t).takeWhile (fun c => !isSpace c)).length := List.length_pos_iff.2 hne
    refine ⟨hne, ?_, ?_⟩
    · rw [← hw]
      cases hr : (c :: t).dropWhile (fun c => !isSpace c) with
      | nil =>
        rw [hr, List.append_nil] at happ
        rw [happ] at hall ⊢
        rw [words_nil]
        exact words_word (by simp) hall
      | cons b r =>
        have hb : blank b = true := by
          have := dropWhile_head (p := fun c => !isSpace c) (c :: t) b (by rw [hr]; rfl)
          simpa [blank_eq] using this
        rw [hr] at happ
        conv => lhs; rw [← happ]
        rw [words_cut hne hall hb, words_blank hb]
    · have := congrArg List.length happ
      rw [List.length_append] at this
      omega

/-! ## The criteria of a Match line -/

/-- `checkMatchSelectors` on words. -/
def selOk : List Bytes → Bool → Bool
  | [], f => f
  | [k], _ => k = name "User" ∨ k = name "Group"
  | k :: _ :: r, _ => if k = name "User" ∨ k = name "Group" then selOk r true else false

theorem checkMatchSelectors_words : ∀ fuel s f, s.length ≤ fuel → checkMatchSelectors fuel s f = selOk (words s) f := by
  intro fuel
  induction fuel with
  | zero =>
    intro s f h
    have : s = [] := List.eq_nil_of_length_eq_zero (by omega)
    subst this; rw [words_nil]; rfl
  | succ fuel ih =>
    intro s f h
    rw [checkMatchSelectors]
    simp only
    rcases nextWord_spec s with ⟨h1, h2⟩ | ⟨h1, h2, h3⟩
    · rw [if_pos h1, h2]; rfl
    · rw [if_neg h1, h2]
      generalize (nextWord s).1 = k at *
      generalize (nextWord s).2 = r at *
      by_cases hk : k = name "User" ∨ k = name "Group"
      · rw [if_pos hk]
        rcases nextWord_spec r with ⟨g1, g2⟩ | ⟨g1, g2, g3⟩
        · rw [g2, selOk]
          have hnil : words (nextWord r).2 = [] := by
            have e : r.dropWhile isSpace = [] := by
              by_cases he : r.dropWhile isSpace = []
              · exact he
              · exfalso
                cases hd : r.dropWhile isSpace with
                | nil => exact he hd
                | cons c t =>
                  have hc : isSpace c = false := dropWhile_head r c (by rw [hd]; rfl)
                  rw [nextWord] at g1
                  simp [hd, hc] at g1
            rw [nextWord]; simp [e, words_nil]
          have hl : (nextWord r).2.length ≤ fuel := by
            have : (nextWord r).2.length ≤ r.length := by
              rw [nextWord]
              exact Nat.le_trans (List.dropWhile_sublist _).length_le (List.dropWhile_sublist _).length_le
            omega
          rw [ih _ _ hl, hnil]; simp [selOk, hk]
        · rw [ih _ _ (by omega), g2, selOk, if_pos hk]
      · rw [if_neg hk]
        cases words r with
        | nil => simp [selOk, hk]
        | cons a ws => simp [selOk, hk]

/-- `parseMatchCriteria` on words. -/
def crit : List Bytes → Conf → Except Err Conf
  | [], c => .ok c
  | [k], c => if k = name "User" ∨ k = name "Group" then .error .fatal else .ok c
  | k :: a :: r, c =>
    if k = name "User" then crit r { c with usr := some a }
    else if k = name "Group" then crit r { c with grp := some a }
    else crit (a :: r) c

theorem parseMatchCriteria_words : ∀ fuel s c, s.length ≤ fuel → parseMatchCriteria fuel s c = crit (words s) c := by
  intro fuel
  induction fuel with
  | zero =>
    intro s c h
    have : s = [] := List.eq_nil_of_length_eq_zero (by omega)
    subst this; rw [words_nil]; rfl
  | succ fuel ih =>
    intro s c h
    rw [parseMatchCriteria]
    simp only
    rcases nextWord_spec s with ⟨h1, h2⟩ | ⟨h1, h2, h3⟩
    · rw [if_pos h1, h2]; rfl
    · rw [if_neg h1, h2]
      generalize (nextWord s).1 = k at *
      generalize (nextWord s).2 = r at *
      rcases nextWord_spec r with ⟨g1, g2⟩ | ⟨g1, g2, g3⟩
      · rw [ih r c (by omega), g2]
        simp only [g1, if_true, crit]
        by_cases hu : k = name "User"
        · simp [hu]
        · by_cases hg : k = name "Group" <;> simp [hu, hg]
      · rw [ih r c (by omega), g2]
        simp only [g1, if_false, crit]
        rw [ih _ _ (by omega), ih _ _ (by omega)]

theorem crit_selected : ∀ (ws : List Bytes) (f : Bool) (c c' : Conf), selOk ws f = true → crit ws c = .ok c' →
    c' = { c with usr := (selected (text "User") ws).or c.usr, grp := (selected (text "Group") ws).or c.grp } ∧
    (f = false → selected (text "User") ws ≠ none ∨ selected (text "Group") ws ≠ none)
  | [], f, c, c', h1, h2 => by
    simp [crit] at h2; subst h2
    simp [selected]
    simpa [selOk] using h1
  | [k], f, c, c', h1, h2 => by
    simp only [selOk, decide_eq_true_eq] at h1
    rw [crit, if_pos h1] at h2; cases h2
  | k :: a :: r, f, c, c', h1, h2 => by
    rw [selOk] at h1
    by_cases hk : k = name "User" ∨ k = name "Group"
    · rw [if_pos hk] at h1
      have hne : name "User" ≠ name "Group" := by decide +kernel
      rw [crit] at h2
      by_cases hu : k = name "User"
      · rw [if_pos hu] at h2
        obtain ⟨e, _⟩ := crit_selected r true _ c' h1 h2
        have hg : ¬ k = text "Group" := by rw [hu]; exact hne
        rw [selected, selected, if_pos (by rw [hu]; rfl), if_neg hg]
        refine ⟨?_, fun _ => .inl ?_⟩
        · rw [e]; simp
        · cases selected (text "User") r <;> simp
      · have hg : k = name "Group" := hk.resolve_left hu
        rw [if_neg hu, if_pos hg] at h2
        obtain ⟨e, _⟩ := crit_selected r true _ c' h1 h2
        rw [selected, selected, if_neg (by rw [text_eq]; exact hu), if_pos (by rw [hg]; rfl)]
        refine ⟨?_, fun _ => .inr ?_⟩
        · rw [e]; simp
        · cases selected (text "Group") r <;> simp
    · rw [if_neg hk] at h1; cases h1

/-! ## A newline at the end of a line changes nothing -/

theorem find_congr {α : Type} {p q : α → Bool} : ∀ {l : List α}, (∀ x ∈ l, p x = q x) → l.find? p = l.find? q
  | [], _ => rfl
  | x :: l, h => by
    rw [List.find?_cons, List.find?_cons, h x (by simp), find_congr (l := l) (fun y hy => h y (by simp [hy]))]

theorem options_names : ∀ o ∈ options, (∀ c ∈ o.2, isSpace c = false ∧ c ≠ 35) ∧ 4 ≤ o.2.length := by decide +kernel

theorem prefix_newline {kw s : Bytes} (h : ∀ c ∈ kw, isSpace c = false ∧ c ≠ 35) :
    kw.isPrefixOf (s ++ [10]) = kw.isPrefixOf s := by
  rw [Bool.eq_iff_iff, List.isPrefixOf_iff_prefix, List.isPrefixOf_iff_prefix, List.prefix_concat_iff]
  constructor
  · rintro (h' | h')
    · subst h'
      have := (h 10 (by simp)).1
      simp [isSpace] at this
    · exact h'
  · intro h; exact .inr h

theorem find_newline (s : Bytes) :
    options.find? (fun o => o.2.isPrefixOf (s ++ [10])) = options.find? (fun o => o.2.isPrefixOf s) :=
  find_congr (fun o ho => prefix_newline (options_names o ho).1)

theorem dropWhile_newline (s : Bytes) :
    (s ++ [10]).dropWhile isSpace = if s.dropWhile isSpace = [] then [] else s.dropWhile isSpace ++ [10] := by
  induction s with
  | nil => rfl
  | cons c t ih =>
    rw [List.cons_append, List.dropWhile_cons, List.dropWhile_cons]
    by_cases h : isSpace c = true
    · rw [if_pos h, if_pos h, ih]
    · rw [if_neg h, if_neg h]; simp

theorem takeWhile_newline (s : Bytes) :
    (s ++ [10]).takeWhile (fun c => !isSpace c) = s.takeWhile (fun c => !isSpace c) := by
  induction s with
  | nil => rfl
  | cons c t ih =>
    rw [List.cons_append, List.takeWhile_cons, List.takeWhile_cons, ih]

theorem createString_newline {s : Bytes} (h : ∀ c, s.head? = some c → isSpace c = false) (hne : s ≠ []) :
    createString (s ++ [10]) = createString s := by
  cases s with
  | nil => exact absurd rfl hne
  | cons c t =>
    have hc : isSpace c = false := h c rfl
    have h32 : ¬ c = 32 := by rintro rfl; simp [isSpace] at hc
    simp only [createString, List.cons_append, List.dropWhile_cons, h32, decide_false, Bool.false_eq_true, if_false,
      List.reverse_append, List.reverse_cons, List.reverse_nil, List.nil_append]
    simp

theorem handleMatch_words (n : Nodes) (full : Bytes) :
    handleMatch n full =
      if !selOk (words full) false then .error .fatal
      else match n.list.head? with
        | none => .error .badArgument
        | some head =>
          match crit (words full) { head with usr := none, grp := none } with
          | .error e => .error e
          | .ok c => .ok ⟨n.list ++ [c], n.list.length⟩ := by
  rw [handleMatch, checkMatchSelectors_words _ _ _ (Nat.le_refl _)]
  simp only [parseMatchCriteria_words _ _ _ (Nat.le_refl _)]
  rfl

theorem setOption_full {tag : Tag} {c : Conf} {value f1 f2 : Bytes} (h : createString f1 = createString f2) :
    setOption tag c value f1 = setOption tag c value f2 := by
  cases tag <;> simp only [setOption, stored, h]

theorem parse_newline (F : Files) (load : Nodes → Bytes → Except Err Nodes) (n : Nodes) (s : Bytes) :
    parseConfigLine F load n (s ++ [10]) = parseConfigLine F load n s := by
  rw [parseConfigLine, parseConfigLine, find_newline]
  cases hf : options.find? (fun o => o.2.isPrefixOf s) with
  | none => rfl
  | some o =>
    obtain ⟨tag, kw⟩ := o
    have hp : kw <+: s := by
      have := List.find?_some hf
      simpa using this
    have hd : (s ++ [10]).drop kw.length = s.drop kw.length ++ [10] := by
      rw [List.drop_append_of_le_length hp.length_le]
    simp only [hd]
    rw [dropWhile_newline]
    by_cases hnil : (s.drop kw.length).dropWhile isSpace = []
    · rw [if_pos hnil, hnil]
    · rw [if_neg hnil, takeWhile_newline]
      generalize hfull : (s.drop kw.length).dropWhile isSpace = full at hnil
      have hhead : ∀ c, full.head? = some c → isSpace c = false := by
        rw [← hfull]; exact dropWhile_head _
      split
      · rfl
      · rw [handleMatch_words, handleMatch_words, words_snoc rfl]
        simp only [setOption_full (createString_newline hhead hnil)]

/-! ## From the lines that are read to the lines of the file -/

/-- Blanks and tabs before a line do not count. -/
def strip (l : Bytes) : Bytes := l.dropWhile (fun c => decide (c = 32 ∨ c = 9))

theorem strip_newline (l : Bytes) : strip (l ++ [10]) = strip l ++ [10] := by
  induction l with
  | nil => rfl
  | cons c t ih =>
    rw [strip, List.cons_append, List.dropWhile_cons, strip, List.dropWhile_cons]
    by_cases h : decide (c = 32 ∨ c = 9) = true
    · rw [if_pos h, if_pos h]; exact ih
    · rw [if_neg h, if_neg h]; rfl

/-- The line has one of the keywords. -/
def known (l : Bytes) : Bool := options.any (fun o => o.2 = keyword l)

/-- The line is too short or a comment, and has none of the keywords. -/
def skipped (l : Bytes) : Bool := !known l && ((strip l).length ≤ 2 || (strip l).head? = some 35)

/-- One line, when the load does not fail. -/
def applyLine (F : Files) (load : Nodes → Bytes → Except Err Nodes) (n : Nodes) (l : Bytes) : Option Nodes :=
  match options.find? (fun o => o.2.isPrefixOf (strip l)) with
  | none => if skipped l then some n else none
  | some _ =>
    match parseConfigLine F load n (strip l) with
    | .ok n' => some n'
    | .error _ => none

def runLines (F : Files) (load : Nodes → Bytes → Except Err Nodes) : List Bytes → Nodes → Option Nodes
  | [], n => some n
  | l :: ls, n =>
    match applyLine F load n l with
    | none => none
    | some n' => runLines F load ls n'

theorem find_short {s : Bytes} (h : s.length < 4) : options.find? (fun o => o.2.isPrefixOf s) = none := by
  rw [List.find?_eq_none]
  intro o ho hp
  have := (List.isPrefixOf_iff_prefix.1 hp).length_le
  have := (options_names o ho).2
  omega

theorem find_comment {s : Bytes} (h : s.head? = some 35) : options.find? (fun o => o.2.isPrefixOf s) = none := by
  rw [List.find?_eq_none]
  intro o ho hp
  obtain ⟨t, ht⟩ := List.isPrefixOf_iff_prefix.1 hp
  obtain ⟨h1, h2⟩ := options_names o ho
  cases hk : o.2 with
  | nil => rw [hk] at h2; simp at h2
  | cons c k =>
    rw [hk] at ht h1
    rw [← ht] at h
    simp at h
    exact (h1 c (by simp)).2 h

theorem words_strip (l : Bytes) : words (strip l) = words l :=
  words_drop _ (fun c h => by simp at h; rcases h with rfl | rfl <;> rfl) l

theorem words_head_length (l : Bytes) : (keyword l).length ≤ l.length := by
  rcases nextWord_spec l with ⟨h1, h2⟩ | ⟨h1, h2, h3⟩
  · simp [keyword, h2]
  · rw [keyword, h2, List.headD_cons, nextWord]
    exact Nat.le_trans (List.takeWhile_sublist _).length_le (List.dropWhile_sublist _).length_le

theorem keyword_head {l : Bytes} {c : UInt8} {t : Bytes} (h : l = c :: t) (hc : isSpace c = false) :
    (keyword l).head? = some c := by
  subst h
  rcases nextWord_spec (c :: t) with ⟨h1, h2⟩ | ⟨h1, h2, h3⟩
  · simp [nextWord, hc] at h1
  · rw [keyword, h2, List.headD_cons, nextWord]
    simp [hc]

theorem known_short {l : Bytes} (h : (strip l).length < 4) : known l = false := by
  rw [known, Bool.eq_false_iff]
  intro hk
  obtain ⟨o, ho, he⟩ := List.any_eq_true.1 hk
  have h1 := (options_names o ho).2
  have h2 := words_head_length (strip l)
  simp only [decide_eq_true_eq] at he
  rw [keyword, words_strip, ← keyword, ← he] at h2
  omega

theorem known_comment {l : Bytes} (h : (strip l).head? = some 35) : known l = false := by
  rw [known, Bool.eq_false_iff]
  intro hk
  obtain ⟨o, ho, he⟩ := List.any_eq_true.1 hk
  obtain ⟨h1, h2⟩ := options_names o ho
  simp only [decide_eq_true_eq] at he
  cases hs : strip l with
  | nil => rw [hs] at h; cases h
  | cons c t =>
    rw [hs] at h; simp at h; subst h
    have := keyword_head hs (by decide)
    rw [keyword, words_strip, ← keyword, ← he] at this
    cases ho2 : o.2 with
    | nil => rw [ho2] at this; cases this
    | cons x k =>
      rw [ho2] at this h1
      simp at this
      exact (h1 x (by simp)).2 this

/-- One read line, with or without its newline. -/
theorem line_step {F : Files} {load : Nodes → Bytes → Except Err Nodes} {raw l : Bytes} {ls : List Bytes} {n n' : Nodes}
    (hraw : raw = l ∨ raw = l ++ [10]) (h : loadLines F load (raw :: ls) n = .ok n') :
    ∃ m, applyLine F load n l = some m ∧ loadLines F load ls m = .ok n' := by
  have hfind : options.find? (fun o => o.2.isPrefixOf (strip raw)) = options.find? (fun o => o.2.isPrefixOf (strip l)) := by
    rcases hraw with rfl | rfl
    · rfl
    · rw [strip_newline, find_newline]
  have hparse : parseConfigLine F load n (strip raw) = parseConfigLine F load n (strip l) := by
    rcases hraw with rfl | rfl
    · rfl
    · rw [strip_newline, parse_newline]
  rw [loadLines] at h
  change (if (strip raw).length ≤ 2 then loadLines F load ls n
    else if (strip raw).head? = some 35 then loadLines F load ls n
    else match parseConfigLine F load n (strip raw) with
      | .error e => .error e
      | .ok n' => loadLines F load ls n') = .ok n' at h
  rw [applyLine, ← hfind, ← hparse]
  by_cases h1 : (strip raw).length ≤ 2
  · rw [if_pos h1] at h
    have hk : known l = false := known_short (by
      rcases hraw with rfl | rfl
      · omega
      · rw [strip_newline, List.length_append] at h1; omega)
    have hs : skipped l = true := by
      rw [skipped, hk]
      rcases hraw with rfl | rfl
      · simp [h1]
      · rw [strip_newline, List.length_append] at h1
        simp [show (strip l).length ≤ 2 by omega]
    rw [find_short (by omega), hs]
    exact ⟨n, rfl, h⟩
  · rw [if_neg h1] at h
    by_cases h2 : (strip raw).head? = some 35
    · rw [if_pos h2] at h
      have hk : skipped l = true := by
        rcases hraw with rfl | rfl
        · rw [skipped, known_comment h2]; simp [h2]
        · rw [strip_newline] at h2
          cases hs : strip l with
          | nil => rw [skipped, known_short (by rw [hs]; simp)]; simp [hs]
          | cons x t =>
            rw [hs] at h2
            have h3 : (strip l).head? = some 35 := by rw [hs]; simpa using h2
            rw [skipped, known_comment h3]; simp [h3]
      rw [find_comment h2, hk]
      exact ⟨n, rfl, h⟩
    · rw [if_neg h2] at h
      cases hp : parseConfigLine F load n (strip raw) with
      | error e => rw [hp] at h; cases h
      | ok m =>
        rw [hp] at h
        simp only at h
        cases hf : options.find? (fun o => o.2.isPrefixOf (strip raw)) with
        | none => rw [parseConfigLine, hf] at hp; cases hp
        | some o => exact ⟨m, rfl, h⟩

theorem readLines_run {F : Files} {load : Nodes → Bytes → Except Err Nodes} : ∀ fuel file n n', file.length ≤ fuel → Tame file →
    loadLines F load (readLines fuel file) n = .ok n' → runLines F load (fileLines file) n = some n' := by
  intro fuel
  induction fuel with
  | zero =>
    intro file n n' hl _ h
    have : file = [] := List.eq_nil_of_length_eq_zero (by omega)
    subst this
    simp only [readLines, loadLines] at h
    cases h
    simp only [fileLines, Spec.NameList.split, runLines, applyLine]
    rw [find_short (by simp [strip]), skipped, known_short (by simp [strip])]; rfl
  | succ fuel ih =>
    intro file n n' hl ht h
    have ht' : Proofs.SshdKeys.Tame ⟨[], fun _ => none, MAX_LINE_SIZE⟩ file := by
      refine ⟨ht.1, fun l hl => ?_⟩
      have : l.length < 159 := ht.2 l hl
      show l.length + 2 ≤ 160
      omega
    by_cases hne : file = []
    · subst hne
      simp only [readLines, fgets, if_true, loadLines] at h
      cases h
      simp only [fileLines, Spec.NameList.split, runLines, applyLine]
      rw [find_short (by simp [strip]), skipped, known_short (by simp [strip])]; rfl
    · rcases Proofs.SshdKeys.first_line ht' hne with ⟨l, h10, h0, e1, e2, e3⟩ | ⟨l, r, h10, h0, e1, e2, e3, ht2⟩
      · rw [readLines, e3] at h
        simp only at h
        rw [Proofs.SshdKeys.cstr_clean h0] at h
        have hrest : readLines fuel [] = [] := by cases fuel <;> simp [readLines, fgets]
        rw [hrest] at h
        obtain ⟨m, h1, h2⟩ := line_step (.inl rfl) h
        have e1' : fileLines file = [l] := e1
        rw [e1', runLines, h1]
        simp only [loadLines] at h2
        cases h2; rfl
      · rw [readLines, e3] at h
        simp only at h
        rw [Proofs.SshdKeys.cstr_clean (by simp [h0])] at h
        obtain ⟨m, h1, h2⟩ := line_step (.inr rfl) h
        have e2' : fileLines file = l :: fileLines r := e2
        rw [e2', runLines, h1]
        simp only
        refine ih r m n' ?_ ⟨ht2.1, fun x hx => ht.2 x (by rw [e2']; exact List.mem_cons_of_mem _ hx)⟩ h2
        rw [e1] at hl; simp at hl; omega

end Proofs.SshdConfig
