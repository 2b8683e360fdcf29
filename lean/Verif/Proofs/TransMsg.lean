import Verif.Model.TransMsg
import Verif.Spec.TransMsg
import Verif.Proofs.OsshWire
/-! Lemmas for the transport messages 1 to 4. -/

namespace Proofs.TransMsg
open Wolf Wolf.Wire Wolf.NameList Wolf.TransMsg Spec.Wire Props.Wire Spec.TransMsg Proofs.Ossh

variable {mem : Bytes} {len : Nat}

theorem from_zero : msgFrom mem len 0 = mem.take len := rfl

theorem from_split (i k : Nat) (a r : Bytes) (ha : a.length = k) (h : msgFrom mem len i = a ++ r) : msgFrom mem len (i + k) = r := by
  have : msgFrom mem len (i + k) = (msgFrom mem len i).drop k := by unfold msgFrom; rw [List.drop_drop]
  rw [this, h, ← ha, List.drop_left]

theorem rd32_ok {i : Nat} (hl : len ≤ mem.length) (hw : len < 2 ^ 32) (hi : i + 4 ≤ len) :
    ∃ v, rd32 mem i = some v ∧ v < 2 ^ 32 ∧ msgFrom mem len i = encUint32 v ++ msgFrom mem len (i + 4) := by
  cases hu : getUint32 mem len i with
  | ub => exact absurd hu (u32_ne_ub i hl hw)
  | err e j =>
    exfalso
    have := C01_getUint32 mem len i hl hw
    rw [hu] at this
    have h2 := this.2
    unfold uint32 at h2
    rw [if_pos (by rw [msgFrom_length mem len i hl]; omega)] at h2
    cases h2
  | ok v j =>
    obtain ⟨h1, h2, h3, h4⟩ := u32_inv hl hw hu
    subst h1
    refine ⟨v, ?_, h3, h4⟩
    unfold getUint32 at hu
    rw [if_pos (by unfold sub32; omega)] at hu
    unfold rd32
    rw [List.getElem?_eq_getElem (by omega : i < mem.length), List.getElem?_eq_getElem (by omega : i + 1 < mem.length),
      List.getElem?_eq_getElem (by omega : i + 2 < mem.length), List.getElem?_eq_getElem (by omega : i + 3 < mem.length)] at hu ⊢
    simp only [Res.ok.injEq] at hu ⊢
    exact congrArg some hu.1

/-- The string as `DoDebug` holds it, and the call that gave the memory. -/
def textOf (s : Bytes) : Option Bytes := if s = [] then none else some s
def evOf (slot : Slot) (s : Bytes) : List HeapEv := if s = [] then [] else [.alloc slot (s.length + 1)]

theorem text_cases (slot : Slot) (early alloc : Bool) {i sz : Nat} (hl : len ≤ mem.length) (hw : len < 2 ^ 32) (hsz : sz < 2 ^ 32)
    (hi : i + 4 ≤ len) (hm : msgFrom mem len i = encUint32 sz ++ msgFrom mem len (i + 4)) :
    (takeText slot early mem len (i + 4) sz alloc = .fail .bufferE ∧
      ∀ s rest, msgFrom mem len i ≠ encString s ++ rest) ∨
    (∃ s, msgFrom mem len i = encString s ++ msgFrom mem len (i + 4 + s.length) ∧ i + 4 + s.length ≤ len ∧
      ((s ≠ [] ∧ alloc = false ∧ takeText slot early mem len (i + 4) sz alloc = .fail .memory) ∨
       ((s = [] ∨ alloc = true) ∧ takeText slot early mem len (i + 4) sz alloc = .got (textOf s) (i + 4 + s.length) (evOf slot s)))) := by
  have hlen := msgFrom_length mem len (i + 4) hl
  by_cases hc : sz ≤ len - (i + 4)
  · right
    refine ⟨(msgFrom mem len (i + 4)).take sz, ?_⟩
    have hs : ((msgFrom mem len (i + 4)).take sz).length = sz := by rw [List.length_take, hlen]; omega
    have hd : msgFrom mem len (i + 4 + sz) = (msgFrom mem len (i + 4)).drop sz := by unfold msgFrom; rw [List.drop_drop]
    refine ⟨?_, by rw [hs]; omega, ?_⟩
    · rw [hm]
      unfold encString
      rw [hs, hd, List.append_assoc, List.take_append_drop]
    · unfold takeText
      by_cases hz : 0 < sz
      · have hne : (msgFrom mem len (i + 4)).take sz ≠ [] := by
          intro h; rw [h] at hs; simp at hs; omega
        rw [if_pos hz, if_neg (by unfold sub32; omega)]
        cases alloc with
        | false => left; exact ⟨hne, rfl, by rw [if_pos rfl]⟩
        | true =>
          right
          refine ⟨Or.inr rfl, ?_⟩
          rw [if_neg (by simp), if_pos (by unfold add32; omega)]
          unfold textOf evOf
          rw [if_neg hne, if_neg hne, hs]
          have e1 : add32 (i + 4) sz = i + 4 + sz := by unfold add32; omega
          have e2 : add32 sz 1 = sz + 1 := by unfold add32; omega
          have e3 : (mem.drop (i + 4)).take sz = (msgFrom mem len (i + 4)).take sz := by
            unfold msgFrom; rw [List.drop_take, List.take_take]; congr 1; omega
          rw [e1, e2, e3]
      · right
        have h0 : sz = 0 := by omega
        subst h0
        refine ⟨Or.inl (by simp), ?_⟩
        rw [if_neg (by omega)]
        simp [textOf, evOf]
  · left
    constructor
    · unfold takeText
      rw [if_pos (by omega), if_pos (Or.inr (by unfold sub32; omega))]
    · intro s rest he
      have h1 := congrArg List.length he
      rw [msgFrom_length mem len i hl, List.length_append, enc_length] at h1
      have h2 := uint32_enc sz hsz (msgFrom mem len (i + 4))
      have h3 := uint32_enc s.length (by omega) (s ++ rest)
      rw [← hm, he] at h2
      unfold encString at h2
      rw [List.append_assoc, h3] at h2
      simp only [Option.some.injEq, Prod.mk.injEq] at h2
      omega

theorem wfree_text (slot : Slot) (s : Bytes) : wfree slot (textOf s) = if s = [] then [] else [.free slot] := by
  unfold wfree textOf; split <;> simp_all

theorem balanced_nil : Balanced [] := by intro s; simp [given, back]

theorem balanced_one (m : Bytes) : Balanced (evOf .msg m ++ wfree .msg (textOf m)) := by
  rw [wfree_text]
  unfold evOf
  by_cases h : m = []
  · simp only [h, if_true]; exact balanced_nil
  · simp only [h, if_false]
    intro s
    refine ⟨by cases s <;> simp [given, back], by cases s <;> simp [given], ?_⟩
    intro n
    match n with
    | 0 => simp [given, back]
    | 1 => cases s <;> simp [given, back]
    | n + 2 => cases s <;> simp [given, back]

theorem balanced_two (m l : Bytes) :
    Balanced (evOf .msg m ++ (evOf .lang l ++ (wfree .msg (textOf m) ++ wfree .lang (textOf l)))) := by
  rw [wfree_text, wfree_text]
  unfold evOf
  by_cases h : m = [] <;> by_cases h' : l = []
  · simp only [h, h', if_true]; exact balanced_nil
  · simp only [h, h', if_true, if_false]
    intro s
    refine ⟨by cases s <;> simp [given, back], by cases s <;> simp [given], ?_⟩
    intro n
    match n with
    | 0 => simp [given, back]
    | 1 => cases s <;> simp [given, back]
    | n + 2 => cases s <;> simp [given, back]
  · simp only [h, h', if_true, if_false]
    intro s
    refine ⟨by cases s <;> simp [given, back], by cases s <;> simp [given], ?_⟩
    intro n
    match n with
    | 0 => simp [given, back]
    | 1 => cases s <;> simp [given, back]
    | n + 2 => cases s <;> simp [given, back]
  · simp only [h, h', if_false]
    intro s
    refine ⟨by cases s <;> simp [given, back], by cases s <;> simp [given], ?_⟩
    intro n
    match n with
    | 0 => simp [given, back]
    | 1 => cases s <;> simp [given, back]
    | 2 => cases s <;> simp [given, back]
    | 3 => cases s <;> simp [given, back]
    | n + 4 => cases s <;> simp [given, back]

/-- What `DoDebug` does. -/
theorem debug_cases (a1 a2 : Bool) (hl : len ≤ mem.length) (hw : len < 2 ^ 32) :
    ((∀ flag m l rest, mem.take len ≠ debugMsg flag m l ++ rest) ∧
      ∃ e ev, doDebug mem len 0 a1 a2 = some ⟨some e, 0, ev, none⟩ ∧ Balanced ev ∧
        (e = .badArgument ∨ e = .bufferE ∨ (e = .memory ∧ a1 = false))) ∨
    (∃ flag m l rest, mem.take len = debugMsg flag m l ++ rest ∧
      (((m ≠ [] ∧ a1 = false) ∨ (l ≠ [] ∧ a2 = false)) ∧
        (∃ ev, doDebug mem len 0 a1 a2 = some ⟨some .memory, 0, ev, none⟩ ∧ Balanced ev) ∨
       ((m = [] ∨ a1 = true) ∧ (l = [] ∨ a2 = true)) ∧
        ∃ ev, doDebug mem len 0 a1 a2 = some ⟨none, (debugMsg flag m l).length, ev,
          if flag ≠ 0 then some ((textOf l).map cstr, (textOf m).map cstr) else none⟩ ∧ Balanced ev)) := by
  have htl : (mem.take len).length = len := by rw [List.length_take]; omega
  by_cases h9 : len < 9
  · left
    refine ⟨?_, .badArgument, [], ?_, balanced_nil, Or.inl rfl⟩
    · intro flag m l rest h
      have := congrArg List.length h
      rw [htl] at this
      simp [debugMsg, enc_length] at this
      omega
    · unfold doDebug; rw [if_pos (by omega)]
  · obtain ⟨flag, hfl⟩ : ∃ flag, mem[0]? = some flag := ⟨mem[0], List.getElem?_eq_getElem (by omega)⟩
    have hm0 : mem.take len = flag :: msgFrom mem len 1 := by
      have h0 : 0 < (mem.take len).length := by omega
      have := List.drop_eq_getElem_cons h0
      rw [List.drop_zero] at this
      rw [this]
      rw [List.getElem?_eq_getElem (by omega)] at hfl
      simp only [Option.some.injEq] at hfl
      rw [List.getElem_take, hfl]
      rfl
    obtain ⟨sz1, hr1, hs1, hm1⟩ := rd32_ok (i := 1) hl hw (by omega)
    have e01 : add32 0 1 = 1 := rfl
    have e05 : add32 1 4 = 1 + 4 := rfl
    unfold doDebug
    rw [if_neg (by omega), e01, hfl, hr1]
    simp only [e05]
    rcases text_cases .msg false a1 hl hw hs1 (by omega) hm1 with ⟨ht, hno⟩ | ⟨m, hmm, hml, ht⟩
    · left
      rw [ht]
      refine ⟨?_, .bufferE, [], rfl, balanced_nil, Or.inr (Or.inl rfl)⟩
      intro f m l rest h
      rw [hm0] at h
      simp only [debugMsg, List.cons_append, List.cons.injEq, List.append_assoc] at h
      exact hno m _ h.2
    · have hml32 : m.length < 2 ^ 32 := by omega
      -- any reading of the message begins with this text
      have huniq : ∀ f m' l' rest, mem.take len = debugMsg f m' l' ++ rest →
          msgFrom mem len (1 + 4 + m.length) = encString l' ++ rest := by
        intro f m' l' rest h
        rw [hm0] at h
        simp only [debugMsg, List.cons_append, List.cons.injEq, List.append_assoc] at h
        have h2 := congrArg List.length h.2
        rw [msgFrom_length mem len 1 hl, List.length_append, enc_length] at h2
        have h3 := h.2
        rw [hmm] at h3
        exact (encString_inj hml32 (by omega) h3).2
      rcases ht with ⟨hne, hal, ht⟩ | ⟨hal, ht⟩
      · rw [ht]
        simp only
        by_cases hf : ∃ flag m l rest, mem.take len = debugMsg flag m l ++ rest
        · right
          obtain ⟨f, m', l', rest, hf⟩ := hf
          refine ⟨f, m', l', rest, hf, Or.inl ⟨Or.inl ⟨?_, hal⟩, [], rfl, balanced_nil⟩⟩
          rw [hm0] at hf
          simp only [debugMsg, List.cons_append, List.cons.injEq, List.append_assoc] at hf
          have h2 := congrArg List.length hf.2
          rw [msgFrom_length mem len 1 hl, List.length_append, enc_length] at h2
          have h3 := hf.2
          rw [hmm] at h3
          rw [← (encString_inj hml32 (by omega) h3).1]; exact hne
        · left
          refine ⟨fun f m' l' rest h => hf ⟨f, m', l', rest, h⟩, .memory, [], rfl, balanced_nil, Or.inr (Or.inr ⟨rfl, hal⟩)⟩
      · rw [ht]
        simp only
        by_cases h4 : 4 > sub32 len (1 + 4 + m.length)
        · left
          rw [if_pos h4]
          refine ⟨?_, .bufferE, _, rfl, balanced_one m, Or.inr (Or.inl rfl)⟩
          intro f m' l' rest h
          have := congrArg List.length (huniq f m' l' rest h)
          rw [msgFrom_length _ _ _ hl, List.length_append, enc_length] at this
          unfold sub32 at h4
          omega
        · rw [if_neg h4]
          have h4' : 1 + 4 + m.length + 4 ≤ len := by unfold sub32 at h4; omega
          obtain ⟨sz2, hr2, hs2, hm2⟩ := rd32_ok (i := 1 + 4 + m.length) hl hw h4'
          have e2 : add32 (1 + 4 + m.length) 4 = 1 + 4 + m.length + 4 := by unfold add32; omega
          rw [hr2]
          simp only [e2]
          rcases text_cases .lang true a2 hl hw hs2 h4' hm2 with ⟨ht2, hno2⟩ | ⟨l, hll, hlb, ht2⟩
          · left
            rw [ht2]
            refine ⟨?_, .bufferE, _, rfl, balanced_one m, Or.inr (Or.inl rfl)⟩
            intro f m' l' rest h
            exact hno2 l' rest (huniq f m' l' rest h)
          · right
            refine ⟨flag, m, l, msgFrom mem len (1 + 4 + m.length + 4 + l.length), ?_, ?_⟩
            · rw [hm0, hmm, hll]
              simp [debugMsg, List.append_assoc]
            · rcases ht2 with ⟨hne2, hal2, ht2⟩ | ⟨hal2, ht2⟩
              · left
                rw [ht2]
                exact ⟨Or.inr ⟨hne2, hal2⟩, _, rfl, balanced_one m⟩
              · right
                rw [ht2]
                refine ⟨⟨hal, hal2⟩, _, ?_, balanced_two m l⟩
                have : 1 + 4 + m.length + 4 + l.length = (debugMsg flag m l).length := by
                  simp [debugMsg, enc_length]; omega
                simp only [this]

theorem debugMsg_inj {f f' : UInt8} {m m' l l' r r' : Bytes} (hw : (debugMsg f m l ++ r).length < 2 ^ 32)
    (h : debugMsg f m l ++ r = debugMsg f' m' l' ++ r') : f = f' ∧ m = m' ∧ l = l' ∧ r = r' := by
  have hlen := congrArg List.length h
  have hw' := hw
  simp only [debugMsg, List.cons_append, List.append_assoc, List.length_cons, List.length_append, enc_length] at hlen hw'
  simp only [debugMsg, List.cons_append, List.append_assoc, List.cons.injEq] at h
  obtain ⟨h1, h2⟩ := encString_inj (by omega) (by omega) h.2
  obtain ⟨h3, h4⟩ := encString_inj (by omega) (by omega) h2
  exact ⟨h.1, h1, h3, h4⟩

theorem takeWhile_self (m : Bytes) (h0 : 0 ∉ m) : m.takeWhile (· ≠ 0) = m := by
  induction m with
  | nil => rfl
  | cons x m ih =>
    simp only [List.mem_cons, not_or] at h0
    rw [List.takeWhile_cons, if_pos (by simp; exact fun h => h0.1 h.symm), ih h0.2]

/-- `c32toa` writes the encoding. -/
theorem c32toa_enc (n : Nat) : c32toa n = encUint32 n := c32toa_eq n

end Proofs.TransMsg
