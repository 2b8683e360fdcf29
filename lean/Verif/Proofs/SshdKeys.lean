import Verif.Model.SshdKeys
import Verif.Spec.Sshd
/-!
# The keys file scan against the lines and words of the file
-/

namespace Proofs.SshdKeys
open Wolf Wolf.Sshd Wolf.NameList Spec.Sshd
open Spec.NameList (split)

/-! ## Splitting -/

theorem split_ne_nil (c : UInt8) (l : List UInt8) : split c l ≠ [] := by
  induction l with
  | nil => simp [split]
  | cons b bs ih =>
    rw [split]; split
    · simp
    · cases h : split c bs with
      | nil => simp
      | cons w ws => simp

theorem split_none {c : UInt8} {l : List UInt8} (h : c ∉ l) : split c l = [l] := by
  induction l with
  | nil => rfl
  | cons b bs ih =>
    have h1 : b ≠ c := fun e => h (by simp [e])
    have h2 : c ∉ bs := fun e => h (by simp [e])
    rw [split, if_neg h1, ih h2]

theorem split_cut {c : UInt8} {l r : List UInt8} (h : c ∉ l) : split c (l ++ c :: r) = l :: split c r := by
  induction l with
  | nil => simp [split]
  | cons b bs ih =>
    have h1 : b ≠ c := fun e => h (by simp [e])
    have h2 : c ∉ bs := fun e => h (by simp [e])
    rw [List.cons_append, split, if_neg h1, ih h2]

/-- A string is without the separator, or has a first one. -/
theorem cut_cases (c : UInt8) (l : List UInt8) :
    c ∉ l ∨ ∃ a r, c ∉ a ∧ l = a ++ c :: r := by
  induction l with
  | nil => left; simp
  | cons b bs ih =>
    by_cases e : b = c
    · subst e; right; exact ⟨[], bs, by simp, rfl⟩
    · rcases ih with h | ⟨a, r, h1, h2⟩
      · left; simp [h, Ne.symm e]
      · right; exact ⟨b :: a, r, by simp [h1, Ne.symm e], by simp [h2]⟩

theorem takeWhile_self_iff {p : UInt8 → Bool} {l : List UInt8} : l.takeWhile p = l ↔ ∀ x ∈ l, p x = true := by
  induction l with
  | nil => simp
  | cons a t ih =>
    rw [List.takeWhile_cons]
    by_cases h : p a = true
    · simp [h, ih]
    · simp [h]

theorem dropWhile_nil_iff {p : UInt8 → Bool} {l : List UInt8} : l.dropWhile p = [] ↔ ∀ x ∈ l, p x = true := by
  induction l with
  | nil => simp
  | cons a t ih =>
    rw [List.dropWhile_cons]
    by_cases h : p a = true
    · simp [h, ih]
    · simp [h]

theorem words_nil : words [] = [] := by simp [words, split]

theorem words_blank (l : Bytes) : words (32 :: l) = words l := by
  rw [words, split, if_pos rfl]; simp [words]

theorem words_word {w : Bytes} (hw : w ≠ []) (h : (32 : UInt8) ∉ w) : words w = [w] := by
  rw [words, split_none h]; simp [hw]

theorem words_cut {w r : Bytes} (hw : w ≠ []) (h : (32 : UInt8) ∉ w) : words (w ++ 32 :: r) = w :: words r := by
  rw [words, split_cut h]; simp [hw, words]

theorem words_drop (l : Bytes) : words (l.dropWhile (fun c => c = 32)) = words l := by
  induction l with
  | nil => rfl
  | cons b bs ih =>
    by_cases e : b = 32
    · subst e; rw [List.dropWhile_cons, if_pos (by simp), ih, words_blank]
    · rw [List.dropWhile_cons, if_neg (by simp [e])]

theorem dropWhile_head (l : Bytes) : ∀ c, (l.dropWhile (fun c => decide (c = 32))).head? = some c → c ≠ 32 := by
  induction l with
  | nil => simp
  | cons b bs ih =>
    intro c
    by_cases e : b = 32
    · subst e; rw [List.dropWhile_cons, if_pos (by simp)]; exact ih c
    · rw [List.dropWhile_cons, if_neg (by simp [e])]; simp; rintro rfl; exact e

/-- What `strtok` does, in terms of words. -/
theorem strtok_none {s : Bytes} : strtok s = none ↔ words s = [] := by
  rw [strtok]
  rw [← words_drop s]
  have hh := dropWhile_head s
  generalize s.dropWhile (fun c => c = 32) = t at *
  cases t with
  | nil => simp [words_nil]
  | cons b bs =>
    have hb : b ≠ 32 := hh b rfl
    simp only [reduceCtorEq, if_false, false_iff]
    rcases cut_cases 32 (b :: bs) with h | ⟨a, r, h1, h2⟩
    · rw [words_word (by simp) h]; simp
    · cases a with
      | nil => simp at h2; exact absurd h2.1 hb
      | cons x xs => rw [h2, words_cut (by simp) h1]; simp

theorem strtok_some {s t r : Bytes} (h : strtok s = some (t, r)) :
    words s = t :: words r ∧ t ≠ [] ∧ (32 : UInt8) ∉ t := by
  rw [strtok] at h
  rw [← words_drop s]
  have hh := dropWhile_head s
  generalize s.dropWhile (fun c => c = 32) = u at *
  cases u with
  | nil => simp at h
  | cons b bs =>
    have hb : b ≠ 32 := hh b rfl
    simp only [reduceCtorEq, if_false, Option.some.injEq, Prod.mk.injEq] at h
    obtain ⟨h1, h2⟩ := h
    rcases cut_cases 32 (b :: bs) with hn | ⟨a, q, ha, he⟩
    · have e1 : (b :: bs).takeWhile (fun c => decide (c ≠ 32)) = b :: bs := by
        rw [takeWhile_self_iff]; intro x hx; simp; rintro rfl; exact hn hx
      have e2 : (b :: bs).dropWhile (fun c => decide (c ≠ 32)) = [] := by
        rw [dropWhile_nil_iff]; intro x hx; simp; rintro rfl; exact hn hx
      rw [e1] at h1; rw [e2] at h2; subst h1; simp at h2; subst h2
      exact ⟨by rw [words_word (by simp) hn, words_nil], by simp, hn⟩
    · have ta : ∀ x ∈ a, decide (x ≠ 32) = true := by
        intro x hx; simp; rintro rfl; exact ha hx
      have e1 : (b :: bs).takeWhile (fun c => decide (c ≠ 32)) = a := by
        rw [he, List.takeWhile_append_of_pos ta]; simp
      have e2 : (b :: bs).dropWhile (fun c => decide (c ≠ 32)) = 32 :: q := by
        rw [he, List.dropWhile_append_of_pos ta]; simp
      have hane : a ≠ [] := by
        rintro rfl; simp at he; exact hb he.1
      rw [e1] at h1; rw [e2] at h2; subst h1; simp at h2; subst h2
      exact ⟨by rw [he, words_cut hane ha], hane, ha⟩

/-! ## The types -/

theorem strstr_iff (hay needle : Bytes) : strstr hay needle = true ↔ needle <:+: hay := by
  induction hay with
  | nil => simp [strstr]
  | cons c t ih =>
    rw [strstr, Bool.or_eq_true, ih, List.isPrefixOf_iff_prefix, List.infix_cons_iff]

/-- The name of a key row of the table that is no certificate type. -/
def Plain (tbl : Table) (ty : Bytes) : Prop :=
  (∃ e ∈ tbl, e.type = .key ∧ e.name = ty) ∧ ¬ certMark <:+: ty

theorem typeOk_iff (tbl : Table) (ty : Bytes) : typeOk tbl ty = true ↔ Plain tbl ty := by
  rw [typeOk, List.any_eq_true, Plain]
  constructor
  · rintro ⟨e, he, h⟩
    simp only [Bool.and_eq_true, decide_eq_true_eq, Bool.not_eq_true'] at h
    obtain ⟨⟨h1, h2⟩, h3⟩ := h
    refine ⟨⟨e, he, h1, h3.symm⟩, ?_⟩
    rw [h3, ← strstr_iff, h2]; simp
  · rintro ⟨⟨e, he, h1, h2⟩, h3⟩
    refine ⟨e, he, ?_⟩
    simp only [Bool.and_eq_true, decide_eq_true_eq, Bool.not_eq_true']
    refine ⟨⟨h1, ?_⟩, h2.symm⟩
    rw [← h2, ← strstr_iff] at h3; simpa using h3

/-! ## One line -/

theorem line_success {E : KeysEnv} {line key : Bytes} (h : checkAuthKeysLine E line key = .success) :
    ∃ ty b rest, words line = ty :: b :: rest ∧ Plain E.tbl ty ∧ E.base64 b = some key := by
  rw [checkAuthKeysLine] at h
  split at h
  · cases h
  · cases h1 : strtok line with
    | none => simp [h1] at h
    | some p =>
      obtain ⟨ty, last⟩ := p
      simp only [h1] at h
      cases h2 : strtok last with
      | none => simp [h2] at h
      | some q =>
        obtain ⟨b, r⟩ := q
        simp only [h2] at h
        split at h
        · rename_i ht
          cases h3 : E.base64 b with
          | none => simp [h3] at h
          | some cand =>
            simp only [h3] at h
            split at h
            · cases h
            · rename_i hc
              have hk : key = cand := by
                by_cases e : key = cand
                · exact e
                · exact absurd (Or.inr e) hc
              subst hk
              refine ⟨ty, b, words r, ?_, (typeOk_iff _ _).1 ht, h3⟩
              rw [(strtok_some h1).1, (strtok_some h2).1]
        · cases h

theorem line_listed {E : KeysEnv} {line key ty b : Bytes} {rest : List Bytes} (hk : key ≠ [])
    (hw : words line = ty :: b :: rest) (hp : Plain E.tbl ty) (hb : E.base64 b = some key) :
    checkAuthKeysLine E line key = .success := by
  rw [checkAuthKeysLine]
  have hl : line ≠ [] := by rintro rfl; simp [words_nil] at hw
  rw [if_neg (by simp [hl, hk])]
  cases h1 : strtok line with
  | none => rw [strtok_none] at h1; simp [h1] at hw
  | some p =>
    obtain ⟨ty', last⟩ := p
    have e1 := (strtok_some h1).1
    rw [hw] at e1; injection e1 with e1 e1'; subst e1
    simp only
    cases h2 : strtok last with
    | none => rw [strtok_none] at h2; rw [h2] at e1'; cases e1'
    | some q =>
      obtain ⟨b', r⟩ := q
      have e2 := (strtok_some h2).1
      rw [← e1'] at e2; injection e2 with e2 e2'; subst e2
      simp only [(typeOk_iff _ _).2 hp, if_true, hb]
      simp

theorem line_sound {E : KeysEnv} {line key ty b : Bytes} {rest : List Bytes} (hk : key ≠ [])
    (hw : words line = ty :: b :: rest) (hp : Plain E.tbl ty → E.base64 b ≠ none) :
    ∀ e, checkAuthKeysLine E line key ≠ .error e := by
  intro e
  rw [checkAuthKeysLine]
  have hl : line ≠ [] := by rintro rfl; simp [words_nil] at hw
  rw [if_neg (by simp [hl, hk])]
  cases h1 : strtok line with
  | none => rw [strtok_none] at h1; simp [h1] at hw
  | some p =>
    obtain ⟨ty', last⟩ := p
    have e1 := (strtok_some h1).1
    rw [hw] at e1; injection e1 with e1 e1'; subst e1
    simp only
    cases h2 : strtok last with
    | none => rw [strtok_none] at h2; rw [h2] at e1'; cases e1'
    | some q =>
      obtain ⟨b', r⟩ := q
      have e2 := (strtok_some h2).1
      rw [← e1'] at e2; injection e2 with e2 e2'; subst e2
      simp only
      split
      · rename_i ht
        cases h3 : E.base64 b with
        | none => exact absurd h3 (hp ((typeOk_iff _ _).1 ht))
        | some c => simp only; split <;> simp
      · simp

/-! ## A newline at the end -/

theorem words_newline (l : Bytes) (hl : (10 : UInt8) ∉ l) :
    (∃ ws w, words l = ws ++ [w] ∧ words (l ++ [10]) = ws ++ [w ++ [10]]) ∨
    words (l ++ [10]) = words l ++ [[10]] := by
  generalize hn : l.length = n
  induction n using Nat.strongRecOn generalizing l with
  | _ n ih =>
    rcases cut_cases 32 l with h | ⟨a, r, h1, h2⟩
    · by_cases e : l = []
      · subst e; right; rfl
      · left
        refine ⟨[], l, by rw [words_word e h]; rfl, ?_⟩
        rw [words_word (by simp) (by simp [h])]; rfl
    · subst h2
      have hr : (10 : UInt8) ∉ r := fun e => hl (by simp [e])
      have hlen : r.length < n := by subst hn; simp; omega
      by_cases e : a = []
      · subst e
        simp only [List.nil_append, List.cons_append, words_blank]
        exact ih r.length hlen r hr rfl
      · rw [List.append_assoc, List.cons_append, words_cut e h1, words_cut e h1]
        rcases ih r.length hlen r hr rfl with ⟨ws, w, e1, e2⟩ | e1
        · left; exact ⟨a :: ws, w, by simp [e1], by simp [e2]⟩
        · right; simp [e1]

/-- The words of a line as the program sees it, with its newline, and as the file has it. -/
theorem two_words {dec : Bytes → Option Bytes} (hd : Decoder dec) {l ty b : Bytes} {rest : List Bytes}
    (hl : (10 : UInt8) ∉ l) {key : Bytes} (hk : key ≠ [])
    (h : words (l ++ [10]) = ty :: b :: rest) (hb : dec b = some key) :
    ∃ b' rest', words l = ty :: b' :: rest' ∧ dec b' = some key := by
  rcases words_newline l hl with ⟨ws, w, e1, e2⟩ | e1
  · rw [h] at e2
    cases ws with
    | nil => simp at e2
    | cons x xs =>
      simp only [List.cons_append, List.cons.injEq] at e2
      obtain ⟨rfl, e2⟩ := e2
      cases xs with
      | nil =>
        simp only [List.nil_append, List.cons.injEq] at e2
        obtain ⟨rfl, rfl⟩ := e2
        exact ⟨w, [], by simp [e1], by rw [← hd.1, hb]⟩
      | cons y ys =>
        simp only [List.cons_append, List.cons.injEq] at e2
        obtain ⟨rfl, _⟩ := e2
        exact ⟨b, ys ++ [w], by simp [e1], hb⟩
  · rw [h] at e1
    generalize words l = wl at *
    match wl, e1 with
    | [], e1 => simp at e1
    | [x], e1 =>
      simp at e1
      obtain ⟨_, rfl, _⟩ := e1
      have h10 : dec [10] = dec [] := hd.1 []
      rw [h10] at hb
      exact absurd (hd.2 key hb) hk
    | x :: y :: r, e1 =>
      simp at e1
      obtain ⟨rfl, rfl, _⟩ := e1
      exact ⟨b, r, rfl, hb⟩

theorem two_words' {dec : Bytes → Option Bytes} (hd : Decoder dec) {l ty b : Bytes} {rest : List Bytes}
    (hl : (10 : UInt8) ∉ l) (h : words l = ty :: b :: rest) :
    ∃ b' rest', words (l ++ [10]) = ty :: b' :: rest' ∧ dec b' = dec b := by
  rcases words_newline l hl with ⟨ws, w, e1, e2⟩ | e1
  · rw [h] at e1
    cases ws with
    | nil => simp at e1
    | cons x xs =>
      simp only [List.cons_append, List.cons.injEq] at e1
      obtain ⟨rfl, e1⟩ := e1
      cases xs with
      | nil =>
        simp only [List.nil_append, List.cons.injEq] at e1
        obtain ⟨rfl, rfl⟩ := e1
        exact ⟨b ++ [10], [], by simp [e2], hd.1 b⟩
      | cons y ys =>
        simp only [List.cons_append, List.cons.injEq] at e1
        obtain ⟨rfl, _⟩ := e1
        exact ⟨b, _, by simp [e2]; rfl, rfl⟩
  · exact ⟨b, rest ++ [[10]], by simp [e1, h], rfl⟩

/-! ## The first character -/

theorem words_head (s : Bytes) :
    (words s).head?.bind List.head? = (s.dropWhile (fun c => decide (c = 32))).head? := by
  rw [← words_drop s]
  have hh := dropWhile_head s
  generalize s.dropWhile (fun c => decide (c = 32)) = t at *
  cases t with
  | nil => simp [words_nil]
  | cons b bs =>
    have hb : b ≠ 32 := hh b rfl
    rcases cut_cases 32 (b :: bs) with h | ⟨a, r, h1, h2⟩
    · rw [words_word (by simp) h]; simp
    · cases a with
      | nil => simp at h2; exact absurd h2.1 hb
      | cons x xs =>
        rw [h2, words_cut (by simp) h1]
        simp

theorem words_mem_ne {s w : Bytes} (h : w ∈ words s) : w ≠ [] := by
  rw [words, List.mem_filter] at h; simpa using h.2

/-- A line with two words is longer than one character. -/
theorem words_len {s ty b : Bytes} {rest : List Bytes} (h : words s = ty :: b :: rest) : 1 < s.length := by
  have ht : ty ≠ [] := words_mem_ne (s := s) (by simp [h])
  have hb : b ≠ [] := words_mem_ne (s := s) (by simp [h])
  match s, h with
  | [], h => simp [words_nil] at h
  | [c], h =>
    by_cases e : c = 32
    · subst e; rw [words_blank, words_nil] at h; cases h
    · rw [words_word (by simp) (by simp [Ne.symm e])] at h; simp at h
  | _ :: _ :: _, _ => simp

/-! ## `fgets` on files with short lines -/

theorem fgetsGo_short {n : Nat} {l : Bytes} (h : (10 : UInt8) ∉ l) (hn : l.length ≤ n) :
    fgetsGo n l = (l, []) := by
  induction l generalizing n with
  | nil => cases n <;> rfl
  | cons b bs ih =>
    have h1 : b ≠ 10 := fun e => h (by simp [e])
    have h2 : (10 : UInt8) ∉ bs := fun e => h (by simp [e])
    cases n with
    | zero => simp at hn
    | succ n =>
      rw [fgetsGo, if_neg h1, ih h2 (by simpa using hn)]

theorem fgetsGo_cut {n : Nat} {l r : Bytes} (h : (10 : UInt8) ∉ l) (hn : l.length < n) :
    fgetsGo n (l ++ 10 :: r) = (l ++ [10], r) := by
  induction l generalizing n with
  | nil =>
    cases n with
    | zero => simp at hn
    | succ n => rfl
  | cons b bs ih =>
    have h1 : b ≠ 10 := fun e => h (by simp [e])
    have h2 : (10 : UInt8) ∉ bs := fun e => h (by simp [e])
    cases n with
    | zero => simp at hn
    | succ n =>
      rw [List.cons_append, fgetsGo, if_neg h1, ih h2 (by simpa using hn)]
      rfl

theorem cstr_clean {b : Bytes} (h : (0 : UInt8) ∉ b) : cstr b = b := by
  rw [cstr, takeWhile_self_iff]
  intro x hx; simp; rintro rfl; exact h hx

/-- The body of the loop on a buffer. -/
def verdict (E : KeysEnv) (key buf : Bytes) : Option AuthRc :=
  let current := buf.dropWhile (fun c => c = 32)
  if current.length ≤ 1 then none
  else if current.head? = some 35 then none
  else match checkAuthKeysLine E current key with
    | .success => some .success
    | .failure => none
    | .error e => some (.error e)

theorem searchLoop_step {E : KeysEnv} {key file buf rest : Bytes} {fuel : Nat}
    (h : fgets E.maxLine file = some (buf, rest)) (hz : (0 : UInt8) ∉ buf) :
    searchLoop E key (fuel + 1) file = (verdict E key buf).getD (searchLoop E key fuel rest) := by
  rw [searchLoop, h]
  simp only [cstr_clean hz, verdict]
  split
  · rfl
  · split
    · rfl
    · cases checkAuthKeysLine E (buf.dropWhile fun c => decide (c = 32)) key <;> rfl

/-- A buffer on which the search succeeds lists the key. -/
theorem verdict_success {E : KeysEnv} {key buf : Bytes} (h : verdict E key buf = some .success) :
    ∃ ty b rest, words buf = ty :: b :: rest ∧ ty.head? ≠ some 35 ∧ Plain E.tbl ty ∧ E.base64 b = some key := by
  rw [verdict] at h
  split at h
  · cases h
  · split at h
    · cases h
    · rename_i hh
      cases hc : checkAuthKeysLine E (buf.dropWhile fun c => decide (c = 32)) key with
      | failure => simp [hc] at h
      | error e => simp [hc] at h
      | success =>
        obtain ⟨ty, b, rest, h1, h2, h3⟩ := line_success hc
        rw [words_drop] at h1
        refine ⟨ty, b, rest, h1, ?_, h2, h3⟩
        have := words_head buf
        rw [h1] at this
        simp only [List.head?_cons, Option.bind_some] at this
        rw [this]; exact hh

theorem verdict_listed {E : KeysEnv} {key buf ty b : Bytes} {rest : List Bytes} (hk : key ≠ [])
    (hw : words buf = ty :: b :: rest) (hh : ty.head? ≠ some 35) (hp : Plain E.tbl ty)
    (hb : E.base64 b = some key) : verdict E key buf = some .success := by
  rw [verdict]
  have hd : words (buf.dropWhile fun c => decide (c = 32)) = ty :: b :: rest := by rw [words_drop]; exact hw
  have hl := words_len hd
  rw [if_neg (by omega)]
  have := words_head buf
  rw [hw] at this
  simp only [List.head?_cons, Option.bind_some] at this
  rw [if_neg (by rw [← this]; exact hh), line_listed hk hd hp hb]

theorem verdict_sound {E : KeysEnv} {key buf : Bytes} (hk : key ≠ [])
    (h : words buf = [] ∨ (buf.dropWhile fun c => decide (c = 32)).length ≤ 1 ∨
      (∃ w ws, words buf = w :: ws ∧ w.head? = some 35) ∨
      ∃ ty b rest, words buf = ty :: b :: rest ∧ (Plain E.tbl ty → E.base64 b ≠ none)) :
    ∀ e, verdict E key buf ≠ some (.error e) := by
  intro e
  rw [verdict]
  split
  · simp
  · rename_i hlen
    split
    · simp
    · rename_i hh
      have hwh := words_head buf
      rcases h with h | h | ⟨w, ws, h1, h2⟩ | ⟨ty, b, rest, h1, h2⟩
      · rw [h] at hwh
        simp only [List.head?_nil, Option.bind_none] at hwh
        cases ht : (buf.dropWhile fun c => decide (c = 32)) with
        | nil => rw [ht] at hlen; simp at hlen
        | cons a t => rw [ht] at hwh; simp at hwh
      · exact absurd h hlen
      · rw [h1] at hwh
        simp only [List.head?_cons, Option.bind_some] at hwh
        rw [hwh] at h2; exact absurd h2 hh
      · have hd : words (buf.dropWhile fun c => decide (c = 32)) = ty :: b :: rest := by
          rw [words_drop]; exact h1
        have hs := line_sound (E := E) (key := key) hk hd h2
        cases hc : checkAuthKeysLine E (buf.dropWhile fun c => decide (c = 32)) key with
        | success => simp
        | failure => simp
        | error e' => exact absurd hc (hs e')

/-! ## The whole file -/

/-- A file whose lines fit the program's buffer and that has no NUL. -/
def Tame (E : KeysEnv) (file : Bytes) : Prop :=
  (0 : UInt8) ∉ file ∧ ∀ l ∈ fileLines file, l.length + 2 ≤ E.maxLine

/-- One round of the loop, on the first line. -/
theorem first_line {E : KeysEnv} {file : Bytes} (ht : Tame E file) (hne : file ≠ []) :
    (∃ l, (10 : UInt8) ∉ l ∧ (0 : UInt8) ∉ l ∧ fileLines file = [l] ∧ file = l ∧
      fgets E.maxLine file = some (l, [])) ∨
    (∃ l r, (10 : UInt8) ∉ l ∧ (0 : UInt8) ∉ l ∧ file = l ++ 10 :: r ∧ fileLines file = l :: fileLines r ∧
      fgets E.maxLine file = some (l ++ [10], r) ∧ Tame E r) := by
  obtain ⟨hz, hl⟩ := ht
  rcases cut_cases 10 file with h | ⟨a, r, h1, h2⟩
  · left
    have e : fileLines file = [file] := split_none h
    have := hl file (by simp [e])
    exact ⟨file, h, hz, e, rfl, by rw [fgets, if_neg hne, fgetsGo_short h (by omega)]⟩
  · right
    subst h2
    have e : fileLines (a ++ 10 :: r) = a :: fileLines r := split_cut h1
    have := hl a (by simp [e])
    refine ⟨a, r, h1, fun h => hz (by simp [h]), rfl, e, ?_, fun h => hz (by simp [h]), ?_⟩
    · rw [fgets, if_neg hne, fgetsGo_cut h1 (by omega)]
    · intro l hl'; exact hl l (by simp [e, hl'])

theorem search_sound {E : KeysEnv} {key : Bytes} (hd : Decoder E.base64) (hk : key ≠ []) :
    ∀ fuel file, Tame E file → searchLoop E key fuel file = .success →
      ∃ l ∈ fileLines file, Lists (Plain E.tbl) E.base64 l key := by
  intro fuel
  induction fuel with
  | zero => intro file _ h; simp [searchLoop] at h
  | succ fuel ih =>
    intro file ht h
    by_cases hne : file = []
    · subst hne; simp [searchLoop, fgets] at h
    · rcases first_line ht hne with ⟨l, h10, hz, e1, e2, e3⟩ | ⟨l, r, h10, hz, e1, e2, e3, e4⟩
      · rw [searchLoop_step e3 hz] at h
        cases hv : verdict E key l with
        | none =>
          rw [hv, Option.getD_none] at h
          cases fuel <;> simp [searchLoop, fgets] at h
        | some v =>
          rw [hv, Option.getD_some] at h; subst h
          obtain ⟨ty, b, rest, w1, w2, w3, w4⟩ := verdict_success hv
          exact ⟨l, by simp [e1], ty, b, rest, w1, w2, w3, w4⟩
      · rw [searchLoop_step e3 (by simp [hz])] at h
        cases hv : verdict E key (l ++ [10]) with
        | none =>
          rw [hv, Option.getD_none] at h
          obtain ⟨l', hl', h'⟩ := ih r e4 h
          exact ⟨l', by simp [e2, hl'], h'⟩
        | some v =>
          rw [hv, Option.getD_some] at h; subst h
          obtain ⟨ty, b, rest, w1, w2, w3, w4⟩ := verdict_success hv
          obtain ⟨b', rest', w5, w6⟩ := two_words hd h10 hk w1 w4
          exact ⟨l, by simp [e2], ty, b', rest', w5, w2, w3, w6⟩

theorem newline_sound {E : KeysEnv} (hd : Decoder E.base64) {l : Bytes} (h10 : (10 : UInt8) ∉ l)
    (h : Sound (Plain E.tbl) E.base64 l) :
    words (l ++ [10]) = [] ∨ ((l ++ [10]).dropWhile fun c => decide (c = 32)).length ≤ 1 ∨
      (∃ w ws, words (l ++ [10]) = w :: ws ∧ w.head? = some 35) ∨
      ∃ ty b rest, words (l ++ [10]) = ty :: b :: rest ∧ (Plain E.tbl ty → E.base64 b ≠ none) := by
  rcases h with (h | ⟨w, ws, h1, h2⟩) | ⟨ty, b, rest, h1, h2⟩
  · right; left
    have hall : ∀ x ∈ l, decide (x = (32 : UInt8)) = true := by
      have hwh := words_head l
      rw [h] at hwh
      simp only [List.head?_nil, Option.bind_none] at hwh
      have : (l.dropWhile fun c => decide (c = 32)) = [] := by
        cases hx : (l.dropWhile fun c => decide (c = 32)) with
        | nil => rfl
        | cons a t => rw [hx] at hwh; simp at hwh
      exact dropWhile_nil_iff.1 this
    rw [List.dropWhile_append_of_pos hall]
    simp
  · right; right; left
    rcases words_newline l h10 with ⟨xs, x, e1, e2⟩ | e1
    · rw [h1] at e1
      cases xs with
      | nil =>
        simp at e1; obtain ⟨rfl, _⟩ := e1
        refine ⟨w ++ [10], [], by simp [e2], ?_⟩
        cases w with
        | nil => simp at h2
        | cons a t => simpa using h2
      | cons y ys =>
        simp at e1; obtain ⟨rfl, _⟩ := e1
        exact ⟨w, _, by simp [e2]; rfl, h2⟩
    · exact ⟨w, ws ++ [[10]], by simp [e1, h1], h2⟩
  · right; right; right
    obtain ⟨b', rest', e1, e2⟩ := two_words' hd h10 h1
    exact ⟨ty, b', rest', e1, by rw [e2]; exact h2⟩

theorem bare_sound {E : KeysEnv} {l : Bytes} (h : Sound (Plain E.tbl) E.base64 l) :
    words l = [] ∨ (l.dropWhile fun c => decide (c = 32)).length ≤ 1 ∨
      (∃ w ws, words l = w :: ws ∧ w.head? = some 35) ∨
      ∃ ty b rest, words l = ty :: b :: rest ∧ (Plain E.tbl ty → E.base64 b ≠ none) := by
  rcases h with (h | h) | h
  · exact .inl h
  · exact .inr (.inr (.inl h))
  · exact .inr (.inr (.inr h))

theorem verdict_cases {E : KeysEnv} {key buf : Bytes} (h : ∀ e, verdict E key buf ≠ some (.error e)) :
    verdict E key buf = none ∨ verdict E key buf = some .success := by
  rw [verdict] at h ⊢
  by_cases h1 : (buf.dropWhile fun c => decide (c = 32)).length ≤ 1
  · rw [if_pos h1]; exact .inl rfl
  · by_cases h2 : (buf.dropWhile fun c => decide (c = 32)).head? = some 35
    · rw [if_neg h1, if_pos h2]; exact .inl rfl
    · rw [if_neg h1, if_neg h2] at h ⊢
      cases hc : checkAuthKeysLine E (buf.dropWhile fun c => decide (c = 32)) key with
      | success => simp
      | failure => simp
      | error e => rw [hc] at h; exact absurd rfl (h e)

theorem search_complete {E : KeysEnv} {key : Bytes} (hd : Decoder E.base64) (hk : key ≠ []) :
    ∀ fuel file pre l post, Tame E file → file.length ≤ fuel → fileLines file = pre ++ l :: post →
      (∀ m ∈ pre, Sound (Plain E.tbl) E.base64 m) → Lists (Plain E.tbl) E.base64 l key →
      searchLoop E key fuel file = .success := by
  intro fuel
  induction fuel with
  | zero =>
    intro file pre l post _ hf hl _ h
    have : file = [] := List.eq_nil_of_length_eq_zero (by omega)
    subst this
    obtain ⟨ty, b, rest, h1, _⟩ := h
    have e : fileLines [] = [[]] := rfl
    rw [e] at hl
    cases pre with
    | nil => simp at hl; obtain ⟨rfl, _⟩ := hl; simp [words_nil] at h1
    | cons x xs => simp at hl
  | succ fuel ih =>
    intro file pre l post ht hf hl hs h
    by_cases hne : file = []
    · subst hne
      obtain ⟨ty, b, rest, h1, _⟩ := h
      have e : fileLines [] = [[]] := rfl
      rw [e] at hl
      cases pre with
      | nil => simp at hl; obtain ⟨rfl, _⟩ := hl; simp [words_nil] at h1
      | cons x xs => simp at hl
    · rcases first_line ht hne with ⟨l0, h10, hz, e1, e2, e3⟩ | ⟨l0, r, h10, hz, e1, e2, e3, e4⟩
      · rw [searchLoop_step e3 hz]
        rw [e1] at hl
        cases pre with
        | cons x xs => simp at hl
        | nil =>
          simp at hl; obtain ⟨rfl, _⟩ := hl
          obtain ⟨ty, b, rest, w1, w2, w3, w4⟩ := h
          rw [verdict_listed hk w1 w2 w3 w4]; rfl
      · rw [searchLoop_step e3 (by simp [hz])]
        rw [e2] at hl
        cases pre with
        | nil =>
          simp at hl; obtain ⟨rfl, _⟩ := hl
          obtain ⟨ty, b, rest, w1, w2, w3, w4⟩ := h
          obtain ⟨b', rest', w5, w6⟩ := two_words' hd h10 w1
          rw [verdict_listed hk w5 w2 w3 (by rw [w6]; exact w4)]; rfl
        | cons x xs =>
          simp at hl; obtain ⟨rfl, hl⟩ := hl
          have hv := verdict_cases (verdict_sound (E := E) (key := key) hk
            (newline_sound hd h10 (hs l0 (by simp))))
          rcases hv with hv | hv
          · rw [hv, Option.getD_none]
            refine ih r xs l post e4 ?_ hl (fun m hm => hs m (by simp [hm])) h
            subst e1; simp at hf; omega
          · rw [hv]; rfl

/-! ## Any file at all -/

theorem fgetsGo_append (n : Nat) (s : Bytes) : (fgetsGo n s).1 ++ (fgetsGo n s).2 = s := by
  induction n generalizing s with
  | zero => rfl
  | succ n ih =>
    cases s with
    | nil => rfl
    | cons c s =>
      rw [fgetsGo]; split
      · rfl
      · simp [ih]

theorem words_infix {s ty b : Bytes} {rest : List Bytes} (h : words s = ty :: b :: rest) :
    ∃ gap, gap ≠ [] ∧ (∀ c ∈ gap, c = 32) ∧ (ty ++ gap ++ b) <:+: s := by
  generalize hn : s.length = n
  induction n using Nat.strongRecOn generalizing s with
  | _ n ih =>
    rcases cut_cases 32 s with hc | ⟨a, r, h1, h2⟩
    · by_cases e : s = []
      · subst e; simp [words_nil] at h
      · rw [words_word e hc] at h; simp at h
    · subst h2
      by_cases e : a = []
      · subst e
        rw [List.nil_append, words_blank] at h
        obtain ⟨gap, g1, g2, g3⟩ := ih r.length (by subst hn; simp) h rfl
        exact ⟨gap, g1, g2, by
          rw [List.nil_append]; exact List.infix_cons g3⟩
      · rw [words_cut e h1] at h
        injection h with h h'
        subst h
        -- the second word starts after the blanks
        have key : ∀ r : Bytes, words r = b :: rest →
            ∃ g, (∀ c ∈ g, c = 32) ∧ (g ++ b) <+: r := by
          intro r
          induction r with
          | nil => intro h; simp [words_nil] at h
          | cons x xs ihx =>
            intro h
            by_cases ex : x = 32
            · subst ex
              rw [words_blank] at h
              obtain ⟨g, q1, q2⟩ := ihx h
              exact ⟨32 :: g, by simpa using q1, by simpa using q2⟩
            · rcases cut_cases 32 (x :: xs) with hc | ⟨a', r', h1', h2'⟩
              · rw [words_word (by simp) hc] at h
                simp at h; obtain ⟨rfl, _⟩ := h
                exact ⟨[], by simp, by simp⟩
              · have ha' : a' ≠ [] := by rintro rfl; simp at h2'; exact ex h2'.1
                rw [h2', words_cut ha' h1'] at h
                simp at h; obtain ⟨rfl, _⟩ := h
                exact ⟨[], by simp, by rw [h2']; simp⟩
        obtain ⟨g, q1, q2⟩ := key r h'
        obtain ⟨t, ht⟩ := q2
        refine ⟨32 :: g, by simp, by simpa using q1, ⟨[], t, ?_⟩⟩
        rw [← ht]; simp

theorem search_present {E : KeysEnv} {key : Bytes} :
    ∀ fuel file, searchLoop E key fuel file = .success →
      ∃ ty gap b, Plain E.tbl ty ∧ gap ≠ [] ∧ (∀ c ∈ gap, c = 32) ∧ E.base64 b = some key ∧
        (ty ++ gap ++ b) <:+: file := by
  intro fuel
  induction fuel with
  | zero => intro file h; simp [searchLoop] at h
  | succ fuel ih =>
    intro file h
    by_cases hne : file = []
    · subst hne; simp [searchLoop, fgets] at h
    · have hf : fgets E.maxLine file = some (fgetsGo (E.maxLine - 1) file) := by rw [fgets, if_neg hne]
      have happ := fgetsGo_append (E.maxLine - 1) file
      generalize fgetsGo (E.maxLine - 1) file = p at *
      obtain ⟨buf, rest⟩ := p
      simp only at happ
      rw [searchLoop, hf] at h
      simp only at h
      have hrest : rest <:+: file := ⟨buf, [], by simp [happ]⟩
      have lift : searchLoop E key fuel rest = .success →
          ∃ ty gap b, Plain E.tbl ty ∧ gap ≠ [] ∧ (∀ c ∈ gap, c = 32) ∧ E.base64 b = some key ∧
            (ty ++ gap ++ b) <:+: file := by
        intro h
        obtain ⟨ty, gap, b, h1, h2, h3, h4, h5⟩ := ih rest h
        exact ⟨ty, gap, b, h1, h2, h3, h4, h5.trans hrest⟩
      split at h
      · exact lift h
      · split at h
        · exact lift h
        · cases hc : checkAuthKeysLine E ((cstr buf).dropWhile fun c => decide (c = 32)) key with
          | failure => rw [hc] at h; exact lift h
          | error e => rw [hc] at h; cases h
          | success =>
            obtain ⟨ty, b, rest', h1, h2, h3⟩ := line_success hc
            obtain ⟨gap, g1, g2, g3⟩ := words_infix h1
            refine ⟨ty, gap, b, h2, g1, g2, h3, g3.trans ?_⟩
            refine (List.dropWhile_suffix _).isInfix.trans ?_
            rw [cstr]
            refine (List.takeWhile_prefix _).isInfix.trans ?_
            exact ⟨[], rest, by simp [happ]⟩

end Proofs.SshdKeys
