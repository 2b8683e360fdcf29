import Verif.Spec.Channel
import Verif.Props.Buffer
import Verif.Props.Wire
/-! Invariant of the channel list. -/

namespace Wolf.Channel
open Wolf Wolf.Wire Wolf.NameList Wolf.Buffer Spec.Buffer Spec.Channel Props.Buffer

/-! ## Finding channels -/

theorem findLoop_some {p : Chan → Bool} {l : List Chan} {n k i : Nat} {ch : Chan}
    (h : findLoop p l n k = some (i, ch)) :
    k ≤ i ∧ l[i - k]? = some ch ∧ p ch = true ∧ i - k < n ∧
      ∀ j, j < i - k → ∀ c, l[j]? = some c → p c = false := by
  induction l generalizing n k with
  | nil => simp [findLoop] at h
  | cons a l ih =>
    unfold findLoop at h
    split at h
    · cases h
    · rename_i hn
      split at h
      · rename_i hp
        simp only [Option.some.injEq, Prod.mk.injEq] at h
        obtain ⟨rfl, rfl⟩ := h
        refine ⟨Nat.le_refl _, by simp, hp, by omega, ?_⟩
        intro j hj; omega
      · rename_i hp
        obtain ⟨h1, h2, h3, h4, h5⟩ := ih h
        have e : i - k = (i - (k + 1)) + 1 := by omega
        refine ⟨by omega, by rw [e]; simpa using h2, h3, by omega, ?_⟩
        intro j hj c hc
        cases j with
        | zero => simp at hc; subst hc; simpa using hp
        | succ j => exact h5 j (by omega) c (by simpa using hc)

theorem findLoop_none {p : Chan → Bool} {l : List Chan} {n k : Nat} (hn : l.length ≤ n)
    (h : findLoop p l n k = none) : ∀ c ∈ l, p c = false := by
  induction l generalizing n k with
  | nil => simp
  | cons a l ih =>
    unfold findLoop at h
    simp only [List.length_cons] at hn
    split at h
    · omega
    · split at h
      · cases h
      · rename_i hp
        intro c hc
        rcases List.mem_cons.1 hc with rfl | hc
        · simpa using hp
        · exact ih (by omega) h c hc

/-- What identifies a channel for the list: number, type, who opened it. -/
def key (ch : Chan) : Nat × Nat × Bool := (ch.id, ch.ctype, ch.g.byPeer)

/-- The list and its count agree, numbers are distinct. -/
structure Shape (c : Conn) : Prop where
  count : c.listSz = c.chans.length
  few : c.chans.length < 2^32
  nodup : (c.chans.map (·.id)).Nodup

theorem Shape.findSelf_some {c : Conn} {id i : Nat} {ch : Chan}
    (h : findSelf c id = some (i, ch)) : c.chans[i]? = some ch ∧ ch.id = id := by
  obtain ⟨_, h2, h3, _⟩ := findLoop_some h
  simp at h2 h3
  exact ⟨h2, h3.symm⟩

theorem findPeer_some {c : Conn} {id i : Nat} {ch : Chan}
    (h : findPeer c id = some (i, ch)) : c.chans[i]? = some ch ∧ ch.peerId = id := by
  obtain ⟨_, h2, h3, _⟩ := findLoop_some h
  simp at h2 h3
  exact ⟨h2, h3.symm⟩

theorem Shape.findSelf_none {c : Conn} (hs : Shape c) {id : Nat} (h : findSelf c id = none) :
    ∀ ch ∈ c.chans, ch.id ≠ id := by
  intro ch hc e
  have := findLoop_none (by rw [hs.count]; exact Nat.le_refl _) h ch hc
  simp [e] at this

theorem nodup_get_inj {l : List Nat} (h : l.Nodup) {i j : Nat} {a : Nat}
    (hi : l[i]? = some a) (hj : l[j]? = some a) : i = j := by
  have hil := (List.getElem?_eq_some_iff.1 hi).1
  have hjl := (List.getElem?_eq_some_iff.1 hj).1
  exact (List.getElem_inj (h₀ := hil) (h₁ := hjl) h).1 (by
    rw [(List.getElem?_eq_some_iff.1 hi).2, (List.getElem?_eq_some_iff.1 hj).2])

/-- Looking up a channel by its own number finds it. -/
theorem Shape.findSelf_get {c : Conn} (hs : Shape c) {i : Nat} {ch : Chan}
    (h : c.chans[i]? = some ch) : findSelf c ch.id = some (i, ch) := by
  cases hf : findSelf c ch.id with
  | none => exact absurd rfl (hs.findSelf_none hf ch (List.mem_of_getElem? h))
  | some q =>
    obtain ⟨j, d⟩ := q
    obtain ⟨h1, h2⟩ := Shape.findSelf_some hf
    have e : j = i := nodup_get_inj hs.nodup (a := ch.id)
      (by simp [h1, h2]) (by simp [h])
    subst e
    rw [h] at h1; cases h1; rfl

theorem map_set_same {α β : Type} (f : α → β) (l : List α) (i : Nat) (a b : α) (h : l[i]? = some a)
    (e : f b = f a) : (l.set i b).map f = l.map f := by
  rw [List.map_set, e]
  apply List.ext_getElem?
  intro j
  rw [List.getElem?_set]
  split
  · rename_i hij
    subst hij
    have := (List.getElem?_eq_some_iff.1 h).1
    have e2 := (List.getElem?_eq_some_iff.1 h).2
    simp [this, e2]
  · rfl

theorem Shape.set {c : Conn} (hs : Shape c) {i : Nat} {ch ch' : Chan} (h : c.chans[i]? = some ch)
    (e : ch'.id = ch.id) : Shape (setChan c i ch') :=
  ⟨by simp [setChan, hs.count], by simpa [setChan] using hs.few,
   by simpa [setChan, map_set_same (·.id) c.chans i ch ch' h e] using hs.nodup⟩

theorem get_set {l : List Chan} {i : Nat} {ch ch' : Chan} (h : l[i]? = some ch) :
    (l.set i ch')[i]? = some ch' := by
  rw [List.getElem?_set]
  have := (List.getElem?_eq_some_iff.1 h).1
  simp [this]

theorem set_same {l : List Chan} {i : Nat} {ch : Chan} (h : l[i]? = some ch) : l.set i ch = l := by
  obtain ⟨h1, h2⟩ := List.getElem?_eq_some_iff.1 h
  rw [← h2]; exact List.set_getElem_self h1

/-! ## Credit -/

/-- Effect of `ChannelCreditWindow`: the credit accounts of the channel grow by the amount in total,
and only adjustments are queued, none while keying. -/
structure Credit (c : Conn) (ch : Chan) (amount : Nat) (e : SendEnv) (r : Ret) (out' : List OutMsg)
    (p' cr' lo' : Nat) : Prop where
  sum : p' + cr' + lo' = ch.pending + ch.g.credited + ch.g.lost + amount
  lt : p' < 2^32
  keying : c.keying = true → out' = c.out ∧ cr' = ch.g.credited
  out : out' = c.out ∨ out' = c.out ++ [.adjust ch.peerId (ch.pending + amount)]
  silent : out' = c.out → cr' = ch.g.credited
  exact : cr' = ch.g.credited ∨ cr' = ch.g.credited + (ch.pending + amount)
  fine : c.keying = false → e = {} → ch.pending + amount < 2^32 → r = none ∧ p' = 0 ∧
    cr' = ch.g.credited + ch.pending + amount ∧
    (0 < ch.pending + amount → out' = c.out ++ [.adjust ch.peerId (ch.pending + amount)])
  kept : ch.pending + amount < 2^32 → lo' = ch.g.lost
  success : r = none → ch.pending + amount < 2^32 ∧ (c.keying = false → p' = 0)

theorem creditWindow_eff {c : Conn} (hs : Shape c) {i : Nat} {ch : Chan} (h : c.chans[i]? = some ch)
    {amount : Nat} (hp : ch.pending < 2^32) (e : SendEnv) :
    ∃ r out' p' cr' lo',
      creditWindow c i amount e = (r, { c with
        chans := c.chans.set i { ch with pending := p', g := { ch.g with credited := cr', lost := lo' } },
        out := out' }) ∧
      Credit c ch amount e r out' p' cr' lo' := by
  have hsub : sub32 4294967295 ch.pending = 4294967295 - ch.pending := by unfold sub32; omega
  unfold creditWindow
  simp only [h, hsub]
  by_cases ho : amount > 4294967295 - ch.pending
  · rw [if_pos ho]
    refine ⟨_, c.out, ch.pending, ch.g.credited, ch.g.lost + amount, rfl, ?_⟩
    exact { exact := .inl rfl, sum := by omega, lt := hp, keying := fun _ => ⟨rfl, rfl⟩, out := .inl rfl,
            silent := fun _ => rfl, fine := by intros; omega, kept := by intros; omega,
            success := by simp }
  · rw [if_neg ho]
    have hadd : add32 ch.pending amount = ch.pending + amount := by unfold add32; omega
    rw [hadd]
    by_cases h0 : ch.pending + amount = 0
    · rw [if_pos h0]
      refine ⟨none, c.out, ch.pending, ch.g.credited, ch.g.lost, by rw [set_same h], ?_⟩
      exact { exact := .inl rfl, sum := by omega, lt := hp, keying := fun _ => ⟨rfl, rfl⟩, out := .inl rfl,
              silent := fun _ => rfl, fine := fun _ _ _ => ⟨rfl, by omega, by omega, by omega⟩,
              kept := fun _ => rfl, success := fun _ => ⟨by omega, fun _ => by omega⟩ }
    · rw [if_neg h0]
      by_cases hk : c.keying = true
      · rw [if_pos hk]
        refine ⟨none, c.out, ch.pending + amount, ch.g.credited, ch.g.lost, rfl, ?_⟩
        exact { exact := .inl rfl, sum := by omega, lt := by omega, keying := fun _ => ⟨rfl, rfl⟩, out := .inl rfl,
                silent := fun _ => rfl, fine := fun hk' => (by rw [hk] at hk'; cases hk'),
                kept := fun _ => rfl,
                success := fun _ => ⟨by omega, fun hk' => (by rw [hk] at hk'; cases hk')⟩ }
      · rw [if_neg hk]
        have hs1 : Shape (setChan c i { ch with pending := 0 }) := hs.set h rfl
        have hg1 : (setChan c i { ch with pending := 0 }).chans[i]? = some { ch with pending := 0 } :=
          get_set h
        have hf := hs1.findSelf_get hg1
        simp only at hf
        unfold sendWindowAdjust
        simp only [hf]
        by_cases hal : e.allowed = false
        · rw [if_pos hal]
          simp only [true_or, if_true]
          refine ⟨some .msgNotAllowed, c.out, ch.pending + amount, ch.g.credited, ch.g.lost, ?_, ?_⟩
          · unfold modChan; rw [hg1]; simp [setChan]
          exact { exact := .inl rfl, sum := by omega, lt := by omega, keying := fun _ => ⟨rfl, rfl⟩, out := .inl rfl,
                  silent := fun _ => rfl, fine := fun _ he => (by rw [he] at hal; cases hal),
                  kept := fun _ => rfl, success := by simp }
        · rw [if_neg hal]
          by_cases hpr : e.prep ≠ none
          · rw [if_pos hpr]
            simp only [true_or, if_true]
            refine ⟨e.prep, c.out, ch.pending + amount, ch.g.credited, ch.g.lost, ?_, ?_⟩
            · unfold modChan; rw [hg1]; simp [setChan]
            exact { exact := .inl rfl, sum := by omega, lt := by omega, keying := fun _ => ⟨rfl, rfl⟩, out := .inl rfl,
                    silent := fun _ => rfl, fine := fun _ he => (by rw [he] at hpr; exact absurd rfl hpr),
                    kept := fun _ => rfl, success := fun hh => absurd hh hpr }
          · rw [if_neg hpr]
            simp only
            by_cases hse : e.sent = some .socketError
            · rw [if_pos (.inr hse), if_pos hse]
              refine ⟨e.sent, c.out ++ [.adjust ch.peerId (ch.pending + amount)], ch.pending + amount,
                ch.g.credited, ch.g.lost, ?_, ?_⟩
              · unfold modChan
                simp only [setChan, List.set_set, get_set h]
                simp
              exact { exact := .inl rfl, sum := by omega, lt := by omega, keying := fun hk' => absurd hk' hk, out := .inr rfl,
                      silent := fun _ => rfl, fine := fun _ he => (by rw [he] at hse; cases hse),
                      kept := fun _ => rfl, success := fun hh => (by rw [hse] at hh; cases hh) }
            · rw [if_neg (by simpa using hse), if_neg hse]
              refine ⟨e.sent, c.out ++ [.adjust ch.peerId (ch.pending + amount)], 0,
                ch.g.credited + (ch.pending + amount), ch.g.lost, ?_, ?_⟩
              · simp [setChan, List.set_set]
              exact { exact := .inr rfl, sum := by omega, lt := by omega, keying := fun hk' => absurd hk' hk, out := .inr rfl,
                      silent := fun hh => by simp at hh,
                      fine := fun _ he _ => ⟨by rw [he], rfl, by omega, fun _ => rfl⟩,
                      kept := fun _ => rfl, success := fun _ => ⟨by omega, fun _ => rfl⟩ }

end Wolf.Channel
