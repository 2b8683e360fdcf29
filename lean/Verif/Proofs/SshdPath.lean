import Verif.Model.SshdKeys
import Verif.Spec.Sshd
/-!
# Expansion of the `AuthorizedKeysFile` pattern
-/

namespace Proofs.SshdPath
open Wolf Wolf.Sshd Spec.Sshd

theorem add32_small {a b : Nat} (h : a + b < 4294967296) : add32 a b = a + b := by
  rw [add32, Nat.mod_eq_of_lt h]

theorem expands_unknown {home user p o : List UInt8} {d : UInt8} (h : Expands home user (37 :: d :: p) o) :
    d = 37 ∨ d = 104 ∨ d = 117 := by
  cases h with
  | percent h => exact .inl rfl
  | home h => exact .inr (.inl rfl)
  | user h => exact .inr (.inr rfl)
  | char hc h => rcases hc with hc | hc
                 · exact absurd rfl hc
                 · cases hc

theorem expandLoop_iff {home user : Bytes} {sz : Nat} (hsz : sz ≤ 2147483648) (hh : home.length < 2147483648)
    (hu : user.length < 2147483648) :
    ∀ (n : Nat) (p out res : Bytes), p.length ≤ n → out.length < sz →
      (expandLoop home user sz p out = .ok res ↔
        ∃ o, Expands home user p o ∧ res = out ++ o ∧ res.length < sz) := by
  intro n
  induction n with
  | zero =>
    intro p out res hp ho
    have : p = [] := List.eq_nil_of_length_eq_zero (by omega)
    subst this
    rw [expandLoop]
    constructor
    · intro h; cases h; exact ⟨[], .nil, by simp, ho⟩
    · rintro ⟨o, h, rfl, _⟩; cases h; simp
  | succ n ih =>
    intro p out res hp ho
    match p, hp with
    | [], _ =>
      rw [expandLoop]
      constructor
      · intro h; cases h; exact ⟨[], .nil, by simp, ho⟩
      · rintro ⟨o, h, rfl, _⟩; cases h; simp
    | [c], _ =>
      rw [expandLoop, add32_small (by omega)]
      constructor
      · intro h
        split at h
        · cases h
        · cases h; exact ⟨[c], .char (.inr rfl) .nil, rfl, by simp; omega⟩
      · rintro ⟨o, h, rfl, hl⟩
        cases h with
        | char hc h => cases h; rw [if_neg (by simp at hl; omega)]
    | c :: d :: t, hp =>
      have ht : t.length ≤ n := by simp at hp; omega
      have hdt : (d :: t).length ≤ n := by simp at hp ⊢; omega
      -- one insertion, then the rest
      have step : ∀ (ins q : Bytes), ins.length < 2147483648 → q.length ≤ n →
          ((if add32 out.length ins.length ≥ sz then (.error .fatal : Except Err Bytes)
            else expandLoop home user sz q (out ++ ins)) = .ok res ↔
          ∃ o, Expands home user q o ∧ res = out ++ (ins ++ o) ∧ res.length < sz) := by
        intro ins q hi hq
        rw [add32_small (by omega)]
        by_cases hb : out.length + ins.length ≥ sz
        · rw [if_pos hb]
          constructor
          · intro h; cases h
          · rintro ⟨o, _, rfl, hl⟩; simp at hl; omega
        · rw [if_neg hb, ih q (out ++ ins) res hq (by simp; omega)]
          simp only [List.append_assoc]
      rw [expandLoop]
      by_cases hc : c = 37
      · subst hc
        rw [if_pos rfl]
        by_cases h1 : d = 37
        · subst h1
          rw [if_pos rfl]
          rw [show (1 : Nat) = ([37] : Bytes).length from rfl, step [37] t (by simp) ht]
          constructor
          · rintro ⟨o, h, e, hl⟩; exact ⟨37 :: o, .percent h, by simpa using e, hl⟩
          · rintro ⟨o, h, e, hl⟩
            cases h with
            | percent h => exact ⟨_, h, by simpa using e, hl⟩
            | char hc h => rcases hc with hc | hc
                           · exact absurd rfl hc
                           · cases hc
        · rw [if_neg h1]
          by_cases h2 : d = 104
          · subst h2
            rw [if_pos rfl, step home t hh ht]
            constructor
            · rintro ⟨o, h, e, hl⟩; exact ⟨home ++ o, .home h, e, hl⟩
            · rintro ⟨o, h, e, hl⟩
              cases h with
              | home h => exact ⟨_, h, e, hl⟩
              | char hc h => rcases hc with hc | hc
                             · exact absurd rfl hc
                             · cases hc
          · rw [if_neg h2]
            by_cases h3 : d = 117
            · subst h3
              rw [if_pos rfl, step user t hu ht]
              constructor
              · rintro ⟨o, h, e, hl⟩; exact ⟨user ++ o, .user h, e, hl⟩
              · rintro ⟨o, h, e, hl⟩
                cases h with
                | user h => exact ⟨_, h, e, hl⟩
                | char hc h => rcases hc with hc | hc
                               · exact absurd rfl hc
                               · cases hc
            · rw [if_neg h3]
              constructor
              · intro h; cases h
              · rintro ⟨o, h, _⟩
                rcases expands_unknown h with h | h | h
                · exact absurd h h1
                · exact absurd h h2
                · exact absurd h h3
      · rw [if_neg hc]
        rw [show (1 : Nat) = ([c] : Bytes).length from rfl, step [c] (d :: t) (by simp) hdt]
        constructor
        · rintro ⟨o, h, e, hl⟩; exact ⟨c :: o, .char (.inl hc) h, by simpa using e, hl⟩
        · rintro ⟨o, h, e, hl⟩
          cases h with
          | percent h => exact absurd rfl hc
          | home h => exact absurd rfl hc
          | user h => exact absurd rfl hc
          | char _ h => exact ⟨_, h, by simpa using e, hl⟩

theorem resolve_iff {home user : Bytes} {pattern : Option Bytes} {path : Bytes}
    (hh : home.length < 2147483648) (hu : user.length < 2147483648) :
    resolveAuthKeysPath home pattern user = .ok path ↔
      KeysPath home user pattern path ∧ path.length < MAX_PATH_SZ := by
  have dflt : ((if home.length + 1 + authKeysDefault.length ≥ MAX_PATH_SZ then (.error .fatal : Except Err Bytes)
      else .ok (home ++ [47] ++ authKeysDefault)) = .ok path ↔
      path = home ++ [47] ++ ".ssh/authorized_keys".toUTF8.toList ∧ path.length < MAX_PATH_SZ) := by
    constructor
    · intro h
      split at h
      · cases h
      · cases h; exact ⟨rfl, by simp; omega⟩
    · rintro ⟨rfl, hl⟩
      rw [if_neg]
      · rfl
      · simp only [List.length_append, List.length_singleton] at hl
        rw [authKeysDefault]; omega
  match pattern with
  | none => rw [resolveAuthKeysPath, KeysPath]; exact dflt
  | some [] => rw [resolveAuthKeysPath, KeysPath]; exact dflt
  | some (c :: p) =>
    simp only [resolveAuthKeysPath, KeysPath]
    have key := fun res => expandLoop_iff (sz := MAX_PATH_SZ) (by decide) hh hu (c :: p).length (c :: p) [] res
      (Nat.le_refl _) (by decide)
    simp only [List.nil_append] at key
    constructor
    · intro h
      cases he : expandLoop home user MAX_PATH_SZ (c :: p) [] with
      | error e => simp [he] at h
      | ok o =>
        obtain ⟨o', h1, e, h2⟩ := (key o).1 he
        rw [← e] at h1
        simp only [he] at h
        by_cases ha : o.head? = some 47
        · rw [if_pos ha] at h; injection h with h; subst h
          exact ⟨⟨_, h1, by rw [under, if_pos ha]⟩, h2⟩
        · rw [if_neg ha] at h
          split at h
          · cases h
          · cases h
            exact ⟨⟨o, h1, by rw [under, if_neg ha]⟩, by simp; omega⟩
    · rintro ⟨⟨o, h1, rfl⟩, h2⟩
      by_cases ha : o.head? = some 47
      · rw [under, if_pos ha] at h2 ⊢
        rw [(key o).2 ⟨o, h1, rfl, h2⟩]
        simp only [if_pos ha]
      · rw [under, if_neg ha] at h2 ⊢
        simp only [List.length_append, List.length_singleton] at h2
        rw [(key o).2 ⟨o, h1, rfl, by omega⟩]
        simp only [if_neg ha]
        rw [if_neg (by omega)]

/-! ## Different users, different paths -/

theorem expands_len {home u1 u2 : List UInt8} (hlt : u1.length < u2.length) :
    ∀ {p o1}, Expands home u1 p o1 → ∀ {o2}, Expands home u2 p o2 →
      o1.length ≤ o2.length ∧ (Names p → o1.length < o2.length) := by
  intro p o1 h1
  induction h1 with
  | nil => intro o2 h2; cases h2; exact ⟨Nat.le_refl _, fun h => by cases h⟩
  | percent h ih =>
    intro o2 h2
    cases h2 with
    | percent h2 =>
      obtain ⟨a, b⟩ := ih h2
      refine ⟨by simp; exact a, fun hn => ?_⟩
      cases hn with
      | skip hn => simp; exact b hn
      | char hc _ => exact absurd rfl hc
    | char hc _ => rcases hc with hc | hc
                   · exact absurd rfl hc
                   · cases hc
  | home h ih =>
    intro o2 h2
    cases h2 with
    | home h2 =>
      obtain ⟨a, b⟩ := ih h2
      refine ⟨by simp; exact a, fun hn => ?_⟩
      cases hn with
      | skip hn => simp; exact b hn
      | char hc _ => exact absurd rfl hc
    | char hc _ => rcases hc with hc | hc
                   · exact absurd rfl hc
                   · cases hc
  | user h ih =>
    intro o2 h2
    cases h2 with
    | user h2 =>
      obtain ⟨a, b⟩ := ih h2
      exact ⟨by simp; omega, fun _ => by simp; omega⟩
    | char hc _ => rcases hc with hc | hc
                   · exact absurd rfl hc
                   · cases hc
  | char hc h ih =>
    intro o2 h2
    cases h2 with
    | percent h2 => rcases hc with hc | hc
                    · exact absurd rfl hc
                    · cases hc
    | home h2 => rcases hc with hc | hc
                 · exact absurd rfl hc
                 · cases hc
    | user h2 => rcases hc with hc | hc
                 · exact absurd rfl hc
                 · cases hc
    | char hc2 h2 =>
      obtain ⟨a, b⟩ := ih h2
      refine ⟨by simp; exact a, fun hn => ?_⟩
      cases hn with
      | here => rcases hc with hc | hc
                · exact absurd rfl hc
                · cases hc
      | skip hn => rcases hc with hc | hc
                   · exact absurd rfl hc
                   · cases hc
      | char _ hn => simp; exact b hn

theorem expands_inj {home u1 u2 : List UInt8} (hl : u1.length = u2.length) {p : List UInt8} (hn : Names p) :
    ∀ {o}, Expands home u1 p o → Expands home u2 p o → u1 = u2 := by
  induction hn with
  | here =>
    intro o h1 h2
    cases h1 with
    | char hc _ => rcases hc with hc | hc
                   · exact absurd rfl hc
                   · cases hc
    | @user _ o1 h1 =>
      generalize hx : u1 ++ o1 = x at h2
      cases h2 with
      | char hc _ => rcases hc with hc | hc
                     · exact absurd rfl hc
                     · cases hc
      | user h2 => exact (List.append_inj hx hl).1
  | skip hn ih =>
    intro o h1 h2
    cases h1 with
    | char hc _ => rcases hc with hc | hc
                   · exact absurd rfl hc
                   · cases hc
    | @percent _ o1 h1 =>
      generalize hx : 37 :: o1 = x at h2
      cases h2 with
      | percent h2 => cases hx; exact ih h1 h2
      | char hc _ => rcases hc with hc | hc
                     · exact absurd rfl hc
                     · cases hc
    | @home _ o1 h1 =>
      generalize hx : home ++ o1 = x at h2
      cases h2 with
      | home h2 => rw [List.append_cancel_left_eq] at hx; subst hx; exact ih h1 h2
      | char hc _ => rcases hc with hc | hc
                     · exact absurd rfl hc
                     · cases hc
    | @user _ o1 h1 =>
      generalize hx : u1 ++ o1 = x at h2
      cases h2 with
      | user h2 => exact (List.append_inj hx hl).1
      | char hc _ => rcases hc with hc | hc
                     · exact absurd rfl hc
                     · cases hc
  | @char c p hc hn ih =>
    intro o h1 h2
    cases h1 with
    | percent h1 => exact absurd rfl hc
    | home h1 => exact absurd rfl hc
    | user h1 => exact absurd rfl hc
    | @char _ _ o1 _ h1 =>
      generalize hx : c :: o1 = x at h2
      cases h2 with
      | percent h2 => exact absurd rfl hc
      | home h2 => exact absurd rfl hc
      | user h2 => exact absurd rfl hc
      | char _ h2 => cases hx; exact ih h1 h2

theorem expands_head {home u1 u2 : List UInt8} (n1 : u1 ≠ []) (n2 : u2 ≠ []) (s1 : (47 : UInt8) ∉ u1)
    (s2 : (47 : UInt8) ∉ u2) :
    ∀ {p o1}, Expands home u1 p o1 → ∀ {o2}, Expands home u2 p o2 →
      (o1.head? = some 47 ↔ o2.head? = some 47) := by
  intro p o1 h1
  induction h1 with
  | nil => intro o2 h2; cases h2; simp
  | percent h ih =>
    intro o2 h2
    cases h2 with
    | percent h2 => simp
    | char hc _ => simp
  | home h ih =>
    intro o2 h2
    cases h2 with
    | home h2 =>
      cases home with
      | nil => simpa using ih h2
      | cons a t => simp
    | char hc _ => rcases hc with hc | hc
                   · exact absurd rfl hc
                   · cases hc
  | user h ih =>
    intro o2 h2
    cases h2 with
    | user h2 =>
      cases u1 with
      | nil => exact absurd rfl n1
      | cons a t =>
        cases u2 with
        | nil => exact absurd rfl n2
        | cons b r =>
          simp only [List.cons_append, List.head?_cons, Option.some.injEq]
          constructor
          · rintro rfl; exact absurd (by simp) s1
          · rintro rfl; exact absurd (by simp) s2
    | char hc _ => rcases hc with hc | hc
                   · exact absurd rfl hc
                   · cases hc
  | char hc h ih =>
    intro o2 h2
    cases h2 with
    | percent h2 => simp
    | home h2 => rcases hc with hc | hc
                 · exact absurd rfl hc
                 · cases hc
    | user h2 => rcases hc with hc | hc
                 · exact absurd rfl hc
                 · cases hc
    | char hc2 h2 => simp

theorem keysPath_inj {home u1 u2 p path : List UInt8} (n1 : u1 ≠ []) (n2 : u2 ≠ []) (s1 : (47 : UInt8) ∉ u1)
    (s2 : (47 : UInt8) ∉ u2) (hn : Names p) (h1 : KeysPath home u1 (some p) path)
    (h2 : KeysPath home u2 (some p) path) : u1 = u2 := by
  cases p with
  | nil => cases hn
  | cons c p =>
    obtain ⟨o1, e1, r1⟩ := h1
    obtain ⟨o2, e2, r2⟩ := h2
    have ho : o1 = o2 := by
      have hh := expands_head n1 n2 s1 s2 e1 e2
      rw [r1] at r2
      rw [under, under] at r2
      by_cases ha : o1.head? = some 47
      · rw [if_pos ha, if_pos (hh.1 ha)] at r2; exact r2
      · rw [if_neg ha, if_neg (fun h => ha (hh.2 h))] at r2
        exact List.append_cancel_left r2
    subst ho
    rcases Nat.lt_trichotomy u1.length u2.length with hl | hl | hl
    · exact absurd ((expands_len hl e1 e2).2 hn) (Nat.lt_irrefl _)
    · exact expands_inj hl hn e1 e2
    · exact absurd ((expands_len hl e2 e1).2 hn) (Nat.lt_irrefl _)

end Proofs.SshdPath
