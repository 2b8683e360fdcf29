import Verif.Spec.CertMan
import Verif.Proofs.OsshWire
/-!
# Proofs about chains of X.509 certificates
-/

namespace Proofs.CertMan
open Wolf (Byte Bytes add32)
open Wolf.Wire Wolf.CertMan Spec.CertMan
open Spec.Wire (encString encUint32)
open Proofs.Ossh (msgFrom_length u32_inv u32_fwd u32_ne_ub enc_length)
open Props.Wire (msgFrom)

variable {mem : Bytes} {len : Nat}

/-! ## Reading -/

theorem sub32_le {a b : Nat} (h : b ≤ a) (ha : a < 2 ^ 32) : Wolf.sub32 a b = a - b := by
  unfold Wolf.sub32
  omega

theorem from_split {i n : Nat} (h : i + n ≤ len) :
    msgFrom mem len i = (mem.drop i).take n ++ msgFrom mem len (i + n) := by
  unfold msgFrom
  have e1 : (mem.take len).drop i = (mem.drop i).take (len - i) := by rw [List.drop_take]
  have e2 : (mem.take len).drop (i + n) = ((mem.drop i).take (len - i)).drop n := by rw [← e1, List.drop_drop]
  rw [e1, e2]
  have e3 : (mem.drop i).take n = ((mem.drop i).take (len - i)).take n := by rw [List.take_take, Nat.min_eq_left (by omega)]
  rw [e3, List.take_append_drop]

theorem cut_inv {idx j : Nat} {c : Bytes} (hl : len ≤ mem.length) (hw : len < 2 ^ 32) (h : cut mem len idx = .ok c j) :
    j = idx + 4 + c.length ∧ j ≤ len ∧ msgFrom mem len idx = encString c ++ msgFrom mem len j := by
  unfold cut getSize at h
  cases h1 : getUint32 mem len idx with
  | ub => rw [h1] at h; cases h
  | err e i => rw [h1] at h; cases h
  | ok v i =>
    obtain ⟨rfl, h2, h3, h4⟩ := u32_inv hl hw h1
    rw [h1] at h
    simp only at h
    rw [sub32_le h2 hw] at h
    by_cases h5 : v > len - (idx + 4)
    · rw [if_pos h5] at h; cases h
    · rw [if_neg h5] at h
      simp only at h
      rw [if_neg (by omega)] at h
      injection h with h6 h7
      have hc : c.length = v := by rw [← h6, List.length_take, List.length_drop]; omega
      have hj : j = idx + 4 + v := by rw [← h7]; unfold add32; omega
      subst hj
      refine ⟨by rw [hc], by omega, ?_⟩
      rw [h4, from_split (mem := mem) (len := len) (i := idx + 4) (n := v) (by omega), h6]
      unfold encString
      rw [hc, List.append_assoc]

theorem cut_fwd {idx : Nat} {c rest : Bytes} (hl : len ≤ mem.length) (hw : len < 2 ^ 32)
    (hm : msgFrom mem len idx = encString c ++ rest) :
    cut mem len idx = .ok c (idx + 4 + c.length) ∧ msgFrom mem len (idx + 4 + c.length) = rest ∧ idx + 4 + c.length ≤ len := by
  have hlen := congrArg List.length hm
  rw [msgFrom_length mem len idx hl, List.length_append, enc_length] at hlen
  unfold encString at hm
  rw [List.append_assoc] at hm
  obtain ⟨h1, h2⟩ := u32_fwd hl hw (by omega) hm
  have h3 := from_split (mem := mem) (len := len) (i := idx + 4) (n := c.length) (by omega)
  rw [h2] at h3
  have h4 : ((mem.drop (idx + 4)).take c.length).length = c.length := by rw [List.length_take, List.length_drop]; omega
  obtain ⟨h5, h6⟩ := List.append_inj h3 h4.symm
  refine ⟨?_, h6.symm, by omega⟩
  unfold cut getSize
  rw [h1]
  simp only
  rw [sub32_le (by omega) hw, if_neg (by omega)]
  simp only
  rw [if_neg (by omega), ← h5]
  congr 1
  unfold add32
  omega

theorem cut_ne_ub (idx : Nat) (hl : len ≤ mem.length) (hw : len < 2 ^ 32) : cut mem len idx ≠ .ub := by
  unfold cut getSize
  cases h1 : getUint32 mem len idx with
  | ub => exact absurd h1 (u32_ne_ub idx hl hw)
  | err e i => exact fun h => by cases h
  | ok v i =>
    obtain ⟨rfl, h2, h3, h4⟩ := u32_inv hl hw h1
    simp only
    rw [sub32_le h2 hw]
    by_cases h5 : v > len - (idx + 4)
    · rw [if_pos h5]; exact fun h => by cases h
    · rw [if_neg h5]
      simp only
      rw [if_neg (by omega)]
      exact fun h => by cases h

theorem encs_cons (c : Bytes) (cs : List Bytes) : encStrings (c :: cs) = encString c ++ encStrings cs := rfl

theorem loop_inv (hl : len ≤ mem.length) (hw : len < 2 ^ 32) : ∀ (n idx : Nat) (cs : List Bytes) (sz j : Nat), idx ≤ len →
    chainLoop mem len n idx = .ok (cs, sz) j → cs.length = n ∧ j = idx + (encStrings cs).length ∧ j ≤ len ∧ sz = (encStrings cs).length ∧
      msgFrom mem len idx = encStrings cs ++ msgFrom mem len j
  | 0, idx, cs, sz, j, hi, h => by
    unfold chainLoop at h
    injection h with h1 h2
    injection h1 with h1 h3
    subst h1 h2 h3
    exact ⟨rfl, rfl, hi, rfl, rfl⟩
  | n + 1, idx, cs, sz, j, hi, h => by
    unfold chainLoop at h
    cases h1 : cut mem len idx with
    | ub => rw [h1] at h; cases h
    | err e i => rw [h1] at h; cases h
    | ok c i =>
      rw [h1] at h
      obtain ⟨h2, h3, h4⟩ := cut_inv hl hw h1
      simp only at h
      cases h5 : chainLoop mem len n i with
      | ub => rw [h5] at h; cases h
      | err e i => rw [h5] at h; cases h
      | ok r k =>
        obtain ⟨cs', sz'⟩ := r
        rw [h5] at h
        injection h with h6 h7
        injection h6 with h6 h8
        obtain ⟨k1, k2, k3, k4, k5⟩ := loop_inv hl hw n i cs' sz' k h3 h5
        subst h6 h7 h8
        refine ⟨by rw [List.length_cons, k1], ?_, k3, ?_, ?_⟩
        · rw [encs_cons, List.length_append, enc_length]; omega
        · rw [encs_cons, List.length_append, enc_length]; unfold add32; omega
        · rw [h4, k5, encs_cons, List.append_assoc]

theorem loop_fwd (hl : len ≤ mem.length) (hw : len < 2 ^ 32) : ∀ (cs : List Bytes) (idx : Nat) (rest : Bytes), idx ≤ len →
    msgFrom mem len idx = encStrings cs ++ rest →
    chainLoop mem len cs.length idx = .ok (cs, (encStrings cs).length) (idx + (encStrings cs).length) ∧
      msgFrom mem len (idx + (encStrings cs).length) = rest
  | [], idx, rest, _, h => ⟨rfl, h⟩
  | c :: cs, idx, rest, hi, h => by
    rw [encs_cons, List.append_assoc] at h
    obtain ⟨h1, h2, h3⟩ := cut_fwd hl hw h
    obtain ⟨h4, h5⟩ := loop_fwd hl hw cs _ rest h3 h2
    have hlen := congrArg List.length h
    rw [msgFrom_length mem len idx hl, List.length_append, List.length_append, enc_length] at hlen
    have e : idx + (encStrings (c :: cs)).length = idx + 4 + c.length + (encStrings cs).length := by
      rw [encs_cons, List.length_append, enc_length]; omega
    refine ⟨?_, by rw [e]; exact h5⟩
    rw [List.length_cons]
    unfold chainLoop
    rw [h1]
    simp only
    rw [h4]
    simp only
    rw [e]
    congr 2
    rw [encs_cons, List.length_append, enc_length]
    unfold add32
    omega

theorem loop_ne_ub (hl : len ≤ mem.length) (hw : len < 2 ^ 32) : ∀ (n idx : Nat), chainLoop mem len n idx ≠ .ub
  | 0, idx => fun h => by unfold chainLoop at h; cases h
  | n + 1, idx => by
    unfold chainLoop
    cases h1 : cut mem len idx with
    | ub => exact absurd h1 (cut_ne_ub idx hl hw)
    | err e i => exact fun h => by cases h
    | ok c i =>
      simp only
      cases h5 : chainLoop mem len n i with
      | ub => exact absurd h5 (loop_ne_ub hl hw n i)
      | err e i => exact fun h => by cases h
      | ok r k => exact fun h => by cases h

theorem split_fwd (hl : len ≤ mem.length) (hw : len < 2 ^ 32) : ∀ (cs : List Bytes) (idx : Nat), idx ≤ len →
    msgFrom mem len idx = encStrings cs → split mem len cs.length idx = .ok cs
  | [], idx, _, h => rfl
  | c :: cs, idx, hi, h => by
    rw [encs_cons] at h
    obtain ⟨h1, h2, h3⟩ := cut_fwd hl hw h
    have h4 := split_fwd hl hw cs _ h3 h2
    rw [List.length_cons]
    unfold split
    rw [if_neg (by unfold add32; omega), h1]
    simp only
    rw [if_neg (by omega), h4]

/-- What the parser gives is what is in the message. -/
theorem parse_inv {msg : Bytes} {ch : Chain} (hw : msg.length < 2 ^ 32) (h : parseChain msg msg.length = .ok ch) :
    ∃ cs, Message msg cs ∧ cs.head? = some ch.leaf ∧ split (msg.drop ch.start) ch.size ch.count 0 = .ok cs ∧ ch.count = cs.length := by
  have hl := Nat.le_refl msg.length
  unfold parseChain at h
  cases h1 : cut msg msg.length 0 with
  | ub => rw [h1] at h; cases h
  | err e i => rw [h1] at h; cases h
  | ok name i =>
    obtain ⟨a1, a2, a3⟩ := cut_inv hl hw h1
    rw [h1] at h
    simp only at h
    cases h2 : getUint32 msg msg.length i with
    | ub => rw [h2] at h; cases h
    | err e i => rw [h2] at h; cases h
    | ok count j =>
      obtain ⟨b1, b2, b3, b4⟩ := u32_inv hl hw h2
      rw [h2] at h
      simp only at h
      by_cases h3 : count = 0
      · rw [if_pos h3] at h; cases h
      rw [if_neg h3] at h
      cases h4 : chainLoop msg msg.length count j with
      | ub => rw [h4] at h; cases h
      | err e i => rw [h4] at h; cases h
      | ok r k =>
        obtain ⟨cs, sz⟩ := r
        obtain ⟨c1, c2, c3, c4, c5⟩ := loop_inv hl hw count j cs sz k b2 h4
        rw [h4] at h
        simp only at h
        cases h5 : getUint32 msg msg.length k with
        | ub => rw [h5] at h; cases h
        | err e i => rw [h5] at h; cases h
        | ok ocsp m =>
          obtain ⟨d1, d2, d3, d4⟩ := u32_inv hl hw h5
          rw [h5] at h
          simp only at h
          by_cases h6 : count < ocsp
          · rw [if_pos h6] at h; cases h
          rw [if_neg h6] at h
          injection h with h
          have hmsg : msgFrom msg msg.length 0 = msg := by unfold msgFrom; simp
          have hne : cs ≠ [] := fun e => h3 (by rw [← c1, e]; rfl)
          refine ⟨cs, ⟨name, ocsp, msgFrom msg msg.length m, ?_, hne, by rw [c1]; exact b3, by rw [c1]; omega⟩, ?_, ?_, ?_⟩
          · rw [c1, ← d4, ← c5, ← b4, ← a3, hmsg]
          · rw [← h]
            cases cs with
            | nil => exact absurd rfl hne
            | cons c cs => rfl
          · rw [← h]
            show split (msg.drop j) sz count 0 = .ok cs
            rw [← c1]
            refine split_fwd (by rw [List.length_drop]; omega) (by omega) cs 0 (Nat.zero_le _) ?_
            have : msgFrom (msg.drop j) sz 0 = (msgFrom msg msg.length j).take sz := by
              unfold msgFrom
              rw [List.drop_zero, List.take_of_length_le (Nat.le_refl _)]
            rw [this, c5, c4, List.take_left]
          · rw [← h]; exact c1.symm

theorem parse_fwd {msg : Bytes} {cs : List Bytes} (hw : msg.length < 2 ^ 32) (h : Message msg cs) :
    ∃ ch, parseChain msg msg.length = .ok ch ∧ cs.head? = some ch.leaf ∧ ch.count = cs.length ∧
      split (msg.drop ch.start) ch.size ch.count 0 = .ok cs := by
  have hl := Nat.le_refl msg.length
  obtain ⟨name, ocsp, rest, hm, hne, hc, ho⟩ := h
  have hmsg : msgFrom msg msg.length 0 = msg := by unfold msgFrom; simp
  obtain ⟨h1, h2, h3⟩ := cut_fwd (idx := 0) hl hw (by rw [hmsg]; exact hm)
  obtain ⟨h4, h5⟩ := u32_fwd hl hw hc h2
  have hj : 0 + 4 + name.length + 4 ≤ msg.length := by
    have := congrArg List.length h2
    rw [msgFrom_length msg _ _ hl, List.length_append] at this
    have h4 : (encUint32 cs.length).length = 4 := rfl
    omega
  obtain ⟨h6, h7⟩ := loop_fwd hl hw cs _ _ hj h5
  obtain ⟨h8, h9⟩ := u32_fwd hl hw (Nat.lt_of_le_of_lt ho hc) h7
  have hp : parseChain msg msg.length = .ok ⟨0 + 4 + name.length + 4, (encStrings cs).length, cs.length, cs.headD []⟩ := by
    unfold parseChain
    rw [h1]
    simp only
    rw [h4]
    simp only
    rw [if_neg (fun e => hne (List.length_eq_zero_iff.1 e)), h6]
    simp only
    rw [h8]
    simp only
    rw [if_neg (by omega)]
  obtain ⟨cs', _, k2, k3, k4⟩ := parse_inv hw hp
  refine ⟨_, hp, ?_, rfl, ?_⟩
  · cases cs with
    | nil => exact absurd rfl hne
    | cons c cs => rfl
  · have hlen : (encStrings cs).length ≤ msg.length - (0 + 4 + name.length + 4) := by
      have := congrArg List.length h5
      rw [msgFrom_length msg _ _ hl, List.length_append] at this
      omega
    refine split_fwd (by rw [List.length_drop]; exact hlen) (show (encStrings cs).length < 2 ^ 32 by omega) cs 0 (Nat.zero_le _) ?_
    have : msgFrom (msg.drop (0 + 4 + name.length + 4)) (encStrings cs).length 0 =
        (msgFrom msg msg.length (0 + 4 + name.length + 4)).take (encStrings cs).length := by
      unfold msgFrom
      rw [List.drop_zero, List.take_of_length_le (l := msg) (Nat.le_refl _)]
    rw [this, h5, List.take_left]

theorem parse_ne_ub {msg : Bytes} (hw : msg.length < 2 ^ 32) : parseChain msg msg.length ≠ .error .ub := by
  have hl := Nat.le_refl msg.length
  unfold parseChain
  cases h1 : cut msg msg.length 0 with
  | ub => exact absurd h1 (cut_ne_ub 0 hl hw)
  | err e i => exact fun h => by cases h
  | ok name i =>
    simp only
    cases h2 : getUint32 msg msg.length i with
    | ub => exact absurd h2 (u32_ne_ub i hl hw)
    | err e i => exact fun h => by cases h
    | ok count j =>
      simp only
      by_cases h3 : count = 0
      · rw [if_pos h3]; exact fun h => by cases h
      rw [if_neg h3]
      cases h4 : chainLoop msg msg.length count j with
      | ub => exact absurd h4 (loop_ne_ub hl hw count j)
      | err e i => exact fun h => by cases h
      | ok r k =>
        simp only
        cases h5 : getUint32 msg msg.length k with
        | ub => exact absurd h5 (u32_ne_ub k hl hw)
        | err e i => exact fun h => by cases h
        | ok ocsp m =>
          simp only
          by_cases h6 : count < ocsp
          · rw [if_pos h6]; exact fun h => by cases h
          · rw [if_neg h6]; exact fun h => by cases h

/-! ## The chain -/

theorem inter_iff (L : Lib) (c : Bytes) : interIsCA L c = true ↔ Authority L c := by
  unfold interIsCA Authority
  cases h : L.inter c with
  | none => simp
  | some i =>
    obtain ⟨a, b, k⟩ := i
    cases a <;> cases b <;> rcases k with _ | _ | _ <;> simp

theorem signature_ok (L : Lib) (now : Nat) (S : List Bytes) (c : Bytes) : signature L now S c = .success ↔ L.verify S now c = .ok := by
  unfold signature
  cases L.verify S now c <;> simp

theorem revocation_ok (L : Lib) (now : Nat) (c : Bytes) : revocation L now c = .success ↔ NotRevoked L now c := by
  unfold revocation NotRevoked
  cases h : L.ocsp with
  | none => simp
  | some f =>
    simp only [Option.some.injEq, forall_eq']
    cases f now c <;> simp

theorem load_ok {L : Lib} {now : Nat} {S S' : List Bytes} {c : Bytes} (h : loadRoot L now S c = (.success, S')) : S' = S ++ [c] := by
  unfold loadRoot at h
  by_cases h0 : c = []
  · rw [if_pos h0] at h; cases h
  · rw [if_neg h0] at h
    by_cases h1 : L.loads S now c = true
    · rw [if_pos h1] at h; injection h with _ h; exact h.symm
    · rw [if_neg h1] at h; cases h

theorem load_bad {L : Lib} {now : Nat} {S S' : List Bytes} {c : Bytes} {e : Ret} (h : loadRoot L now S c = (e, S')) (he : e ≠ .success) : S' = S := by
  unfold loadRoot at h
  by_cases h0 : c = []
  · rw [if_pos h0] at h; injection h with _ h; exact h.symm
  · rw [if_neg h0] at h
    by_cases h1 : L.loads S now c = true
    · rw [if_pos h1] at h; injection h with h _; exact absurd h.symm he
    · rw [if_neg h1] at h; injection h with _ h; exact h.symm

/-- One round of the loop. -/
theorem walk_cases (L : Lib) (now : Nat) (S : List Bytes) (c : Bytes) (cs : List Bytes) :
    (∃ e, e ≠ .success ∧ walk L now S (c :: cs) = (e, S)) ∨
    (signature L now S c = .success ∧ revocation L now c = .success ∧
      (cs = [] ∧ walk L now S (c :: cs) = (.success, S) ∨
       cs ≠ [] ∧ interIsCA L c = true ∧ walk L now S (c :: cs) = walk L now (S ++ [c]) cs)) := by
  rw [walk]
  by_cases h1 : signature L now S c = .success
  · rw [if_neg (fun h => h h1)]
    by_cases h2 : revocation L now c = .success
    · rw [if_neg (fun h => h h2)]
      by_cases h3 : cs = []
      · rw [if_pos h3]; exact .inr ⟨h1, h2, .inl ⟨h3, rfl⟩⟩
      · rw [if_neg h3]
        by_cases h4 : interIsCA L c = true
        · rw [if_pos h4]
          cases h5 : loadRoot L now S c with
          | mk r S' =>
            by_cases h6 : r = .success
            · subst h6
              rw [load_ok h5]
              exact .inr ⟨h1, h2, .inr ⟨h3, h4, rfl⟩⟩
            · refine .inl ⟨r, h6, ?_⟩
              rw [load_bad h5 h6]
              cases r <;> first | rfl | exact absurd rfl h6
        · rw [if_neg h4]; exact .inl ⟨.noSigner, by decide, rfl⟩
    · rw [if_pos h2]; exact .inl ⟨_, h2, rfl⟩
  · rw [if_pos h1]; exact .inl ⟨_, h1, rfl⟩

/-- What is trusted after the loop, and what it means that it succeeds. -/
theorem walk_sound {L : Lib} {signs : Bytes → Bytes → Prop} {valid : Nat → Bytes → Prop} (hS : Sound L signs valid) (now : Nat)
    (P : Bytes → Prop) (mid : Bytes → Prop)
    (hP : ∀ c s, mid c → Authority L c → valid now c → NotRevoked L now c → signs s c → P s → P c) :
    ∀ (l : List Bytes) (S : List Bytes), (∀ c ∈ l.dropLast, mid c) → (∀ s ∈ S, P s) →
      (∀ s ∈ (walk L now S l).2, P s) ∧
      ((walk L now S l).1 = .success → ∀ leaf, l.getLast? = some leaf → valid now leaf ∧ NotRevoked L now leaf ∧ ∃ s, P s ∧ signs s leaf)
  | [], S, _, hs => ⟨hs, fun _ leaf h => by cases h⟩
  | c :: cs, S, hm, hs => by
    rcases walk_cases L now S c cs with ⟨e, he, h⟩ | ⟨h1, h2, h3⟩
    · rw [h]; exact ⟨hs, fun h => absurd h he⟩
    · obtain ⟨⟨s, hss, hsc⟩, hv⟩ := hS S now c ((signature_ok ..).1 h1)
      have hr := (revocation_ok ..).1 h2
      rcases h3 with ⟨h4, h⟩ | ⟨h4, h5, h⟩
      · rw [h]
        refine ⟨hs, fun _ leaf hl => ?_⟩
        rw [h4] at hl
        injection hl with hl
        subst hl
        exact ⟨hv, hr, s, hs s hss, hsc⟩
      · rw [h]
        obtain ⟨d, ds, rfl⟩ : ∃ d ds, cs = d :: ds := by
          cases cs with
          | nil => exact absurd rfl h4
          | cons d ds => exact ⟨d, ds, rfl⟩
        have hpc : P c := hP c s (hm c (List.mem_cons_self ..)) ((inter_iff ..).1 h5) hv hr hsc (hs s hss)
        have := walk_sound hS now P mid hP (d :: ds) (S ++ [c]) (fun x hx => hm x (List.mem_cons_of_mem _ hx)) (fun x hx => by
          rcases List.mem_append.1 hx with hx | hx
          · exact hs x hx
          · rw [List.mem_singleton.1 hx]; exact hpc)
        exact ⟨this.1, fun h leaf hl => this.2 h leaf (by rw [← hl]; rfl)⟩

theorem walk_grows (L : Lib) (now : Nat) : ∀ (l S : List Bytes), ∃ ext, (walk L now S l).2 = S ++ ext
  | [], S => ⟨[], (List.append_nil S).symm⟩
  | c :: cs, S => by
    rcases walk_cases L now S c cs with ⟨e, _, h⟩ | ⟨_, _, ⟨_, h⟩ | ⟨_, _, h⟩⟩
    · rw [h]; exact ⟨[], (List.append_nil S).symm⟩
    · rw [h]; exact ⟨[], (List.append_nil S).symm⟩
    · rw [h]
      obtain ⟨ext, he⟩ := walk_grows L now cs (S ++ [c])
      exact ⟨c :: ext, by rw [he]; simp⟩

/-- From the root on, each certificate signs the next. -/
def Down (signs : Bytes → Bytes → Prop) : Bytes → List Bytes → Prop
  | _, [] => True
  | r, c :: cs => signs r c ∧ Down signs c cs

theorem down_snoc (signs : Bytes → Bytes → Prop) (x : Bytes) : ∀ (l : List Bytes) (r : Bytes),
    Down signs r (l ++ [x]) ↔ Down signs r l ∧ signs (l.getLastD r) x
  | [], r => by simp [Down]
  | c :: l, r => by
    rw [List.cons_append, Down, Down, down_snoc signs x l c, and_assoc, List.getLastD_cons]

theorem linked_down (signs : Bytes → Bytes → Prop) (root : Bytes) : ∀ (l : List Bytes), Linked signs l root → Down signs root l.reverse
  | [], _ => trivial
  | [c], h => ⟨h, trivial⟩
  | c :: d :: cs, h => by
    rw [List.reverse_cons, down_snoc]
    refine ⟨linked_down signs root (d :: cs) h.2, ?_⟩
    rw [List.reverse_cons, List.getLastD_concat]
    exact h.1

theorem walk_fwd {L : Lib} {signs : Bytes → Bytes → Prop} {valid : Nat → Bytes → Prop} (hC : Complete L signs valid) (now : Nat) :
    ∀ (l S : List Bytes) (root : Bytes), root ∈ S → Down signs root l → (∀ c ∈ l, valid now c ∧ NotRevoked L now c) →
      (∀ c ∈ l.dropLast, Authority L c ∧ c ≠ [] ∧ ∀ S', L.loads S' now c = true) → (walk L now S l).1 = .success
  | [], S, root, _, _, _, _ => rfl
  | c :: cs, S, root, hr, hd, hv, hm => by
    have h1 := (signature_ok L now S c).2 (hC S now c root hr hd.1 (hv c (List.mem_cons_self ..)).1)
    have h2 := (revocation_ok L now c).2 (hv c (List.mem_cons_self ..)).2
    rw [walk, if_neg (fun h => h h1), if_neg (fun h => h h2)]
    by_cases h3 : cs = []
    · rw [if_pos h3]
    · rw [if_neg h3]
      obtain ⟨d, ds, rfl⟩ : ∃ d ds, cs = d :: ds := by
        cases cs with
        | nil => exact absurd rfl h3
        | cons d ds => exact ⟨d, ds, rfl⟩
      obtain ⟨m1, m2, m3⟩ := hm c (List.mem_cons_self ..)
      rw [if_pos ((inter_iff ..).2 m1)]
      have : loadRoot L now S c = (.success, S ++ [c]) := by
        unfold loadRoot
        rw [if_neg m2, if_pos (m3 S)]
      rw [this]
      exact walk_fwd hC now (d :: ds) (S ++ [c]) c (by simp) hd.2 (fun x hx => hv x (List.mem_cons_of_mem _ hx))
        (fun x hx => hm x (List.mem_cons_of_mem _ hx))

/-! ## Profiles -/

theorem p13 : asc "2.16.840.1.101.3.2.1.3.13" = policyBase ++ [49, 51] := by decide +kernel
theorem p40 : asc "2.16.840.1.101.3.2.1.3.40" = policyBase ++ [52, 48] := by decide +kernel
theorem p41 : asc "2.16.840.1.101.3.2.1.3.41" = policyBase ++ [52, 49] := by decide +kernel
theorem p45 : asc "2.16.840.1.101.3.2.1.3.45" = policyBase ++ [52, 53] := by decide +kernel
theorem us : asc "US" = [85, 83] := by decide +kernel

/-- What all worksheets demand but for policy, use and names. -/
structure Base (c : Leaf) : Prop where
  usage : c.keyUsage = some 0x80
  country : c.country = [85, 83]
  issued : c.authKeyId ≠ c.subjKeyId
  date : dateOk c = true
  issuer : c.ca = some c.issuerHash
  path : c.pathLength = 0
  uuid : c.uuid = true
  client : c.clientAuth = true
  alg : algOk c.alg = true

theorem check_iff (s : Sheet) (c : Leaf) : checkProfile s c = some true ↔
    Base c ∧ policyOk s c = true ∧ (s = .six → c.fascn = true) ∧ (needsSsh s = true → c.sshMscl = true) := by
  constructor
  · intro h
    unfold checkProfile at h
    by_cases h1 : c.keyUsage ≠ some digitalSig
    · rw [if_pos h1] at h; cases h
    rw [if_neg h1] at h
    by_cases h2 : c.country ≠ [85, 83]
    · rw [if_pos h2] at h; cases h
    rw [if_neg h2] at h
    by_cases h3 : c.authKeyId = c.subjKeyId
    · rw [if_pos h3] at h; cases h
    rw [if_neg h3] at h
    by_cases h4 : (!policyOk s c) = true
    · rw [if_pos h4] at h; cases h
    rw [if_neg h4] at h
    by_cases h5 : (!dateOk c) = true
    · rw [if_pos h5] at h; cases h
    rw [if_neg h5] at h
    cases h6 : c.ca with
    | none => rw [h6] at h; cases h
    | some x =>
      rw [h6] at h
      simp only at h
      by_cases h7 : x ≠ c.issuerHash
      · rw [if_pos h7] at h; cases h
      rw [if_neg h7] at h
      by_cases h8 : c.pathLength ≠ 0
      · rw [if_pos h8] at h; cases h
      rw [if_neg h8] at h
      by_cases h9 : s = .six ∧ c.fascn = false
      · rw [if_pos h9] at h; cases h
      rw [if_neg h9] at h
      by_cases h10 : c.uuid = false
      · rw [if_pos h10] at h; cases h
      rw [if_neg h10] at h
      by_cases h11 : c.clientAuth = false ∨ (needsSsh s = true ∧ c.sshMscl = false)
      · rw [if_pos h11] at h; cases h
      rw [if_neg h11] at h
      injection h with h
      refine ⟨⟨Classical.not_not.1 h1, Classical.not_not.1 h2, h3, by simpa using h5, by rw [h6, Classical.not_not.1 h7],
        Classical.not_not.1 h8, by simpa using h10, ?_, h⟩, by simpa using h4, fun e => ?_, fun e => ?_⟩
      · cases hc : c.clientAuth with
        | true => rfl
        | false => exact absurd (.inl hc) h11
      · cases hf : c.fascn with
        | true => rfl
        | false => exact absurd ⟨e, hf⟩ h9
      · cases hf : c.sshMscl with
        | true => rfl
        | false => exact absurd (.inr ⟨e, hf⟩) h11
  · rintro ⟨hb, hp, hf, hs⟩
    unfold checkProfile
    rw [if_neg (fun h => h hb.usage), if_neg (fun h => h hb.country), if_neg hb.issued, if_neg (by rw [hp]; decide), if_neg (by rw [hb.date]; decide),
      hb.issuer]
    simp only
    rw [if_neg (fun h => h rfl), if_neg (fun h => h hb.path), if_neg (fun h => by rw [hf h.1] at h; exact absurd h.2 (by decide)),
      if_neg (by rw [hb.uuid]; decide), if_neg, hb.alg]
    rintro (h | ⟨h1, h2⟩)
    · rw [hb.client] at h; cases h
    · rw [hs h1] at h2; cases h2

theorem check_some (s : Sheet) (c : Leaf) (h : c.ca ≠ none) : ∃ b, checkProfile s c = some b := by
  unfold checkProfile
  by_cases h1 : c.keyUsage ≠ some digitalSig
  · exact ⟨_, by rw [if_pos h1]⟩
  rw [if_neg h1]
  by_cases h2 : c.country ≠ [85, 83]
  · exact ⟨_, by rw [if_pos h2]⟩
  rw [if_neg h2]
  by_cases h3 : c.authKeyId = c.subjKeyId
  · exact ⟨_, by rw [if_pos h3]⟩
  rw [if_neg h3]
  by_cases h4 : (!policyOk s c) = true
  · exact ⟨_, by rw [if_pos h4]⟩
  rw [if_neg h4]
  by_cases h5 : (!dateOk c) = true
  · exact ⟨_, by rw [if_pos h5]⟩
  rw [if_neg h5]
  cases h6 : c.ca with
  | none => exact absurd h6 h
  | some x =>
    simp only
    by_cases h7 : x ≠ c.issuerHash
    · exact ⟨_, by rw [if_pos h7]⟩
    rw [if_neg h7]
    by_cases h8 : c.pathLength ≠ 0
    · exact ⟨_, by rw [if_pos h8]⟩
    rw [if_neg h8]
    by_cases h9 : s = .six ∧ c.fascn = false
    · exact ⟨_, by rw [if_pos h9]⟩
    rw [if_neg h9]
    by_cases h10 : c.uuid = false
    · exact ⟨_, by rw [if_pos h10]⟩
    rw [if_neg h10]
    by_cases h11 : c.clientAuth = false ∨ (needsSsh s = true ∧ c.sshMscl = false)
    · exact ⟨_, by rw [if_pos h11]⟩
    exact ⟨_, by rw [if_neg h11]⟩

theorem date_iff (c : Leaf) : dateOk c = true ↔ ∃ y f, c.notAfter = some (y, f) ∧ (f = .utc ∧ y ≤ 149 ∨ f = .general ∧ 149 < y) := by
  unfold dateOk
  cases h : c.notAfter with
  | none => simp
  | some r =>
    obtain ⟨y, f⟩ := r
    have e : (∃ y' f', some (y, f) = some (y', f') ∧ (f' = .utc ∧ y' ≤ 149 ∨ f' = .general ∧ 149 < y')) ↔ (f = .utc ∧ y ≤ 149 ∨ f = .general ∧ 149 < y) := by
      constructor
      · rintro ⟨y', f', h1, h2⟩
        injection h1 with h1
        injection h1 with h1 h3
        rw [h1, h3]
        exact h2
      · exact fun h => ⟨y, f, rfl, h⟩
    rw [e]
    by_cases hy : y ≤ 149
    · have hy' : ¬ 149 < y := by omega
      cases f <;> simp [hy, hy']
    · have hy' : 149 < y := by omega
      cases f <;> simp [hy, hy']

theorem alg_iff (a : Alg) : algOk a = true ↔ a ≠ .other := by cases a <;> simp [algOk]

theorem base_iff (c : Leaf) : (Base c ∧
    ((asc "2.16.840.1.101.3.2.1.3.13" ∈ [c.policy0, c.policy1] ∧ c.sshMscl = true ∧ c.fascn = true) ∨
    (asc "2.16.840.1.101.3.2.1.3.40" ∈ [c.policy0, c.policy1] ∨ asc "2.16.840.1.101.3.2.1.3.41" ∈ [c.policy0, c.policy1]) ∨
    (asc "2.16.840.1.101.3.2.1.3.45" ∈ [c.policy0, c.policy1] ∧ c.sshMscl = true))) ↔ Conforms c := by
  constructor
  · rintro ⟨h, hs⟩
    exact ⟨h.usage, by rw [us]; exact h.country, h.issued, (date_iff c).1 h.date, h.issuer, h.path, h.uuid, h.client, (alg_iff _).1 h.alg, hs⟩
  · intro h
    exact ⟨⟨h.usage, by rw [← us]; exact h.country, h.issued, (date_iff c).2 h.date, h.issuer, h.path, h.uuid, h.client, (alg_iff _).2 h.alg⟩, h.sheet⟩

theorem any_true (c : Leaf) (hca : c.ca ≠ none) :
    anyProfile c = some true ↔ checkProfile .six c = some true ∨ checkProfile .ten c = some true ∨ checkProfile .sixteen c = some true := by
  obtain ⟨a, ha⟩ := check_some .six c hca
  obtain ⟨b, hb⟩ := check_some .ten c hca
  obtain ⟨d, hd⟩ := check_some .sixteen c hca
  unfold anyProfile
  rw [ha, hb, hd]
  cases a <;> cases b <;> cases d <;> simp

theorem any_iff (c : Leaf) (hca : c.ca ≠ none) : anyProfile c = some true ↔ Conforms c := by
  rw [any_true c hca, ← base_iff, check_iff, check_iff, check_iff, p13, p40, p41, p45]
  have q6 : policyOk .six c = true ↔ policyBase ++ [49, 51] ∈ [c.policy0, c.policy1] := by
    unfold policyOk policies; simp
  have q10 : policyOk .ten c = true ↔ policyBase ++ [52, 48] ∈ [c.policy0, c.policy1] ∨ policyBase ++ [52, 49] ∈ [c.policy0, c.policy1] := by
    unfold policyOk policies; simp only [Bool.or_eq_true, beq_iff_eq, List.mem_cons, List.not_mem_nil, or_false]
    exact Or.comm
  have q16 : policyOk .sixteen c = true ↔ policyBase ++ [52, 53] ∈ [c.policy0, c.policy1] := by
    unfold policyOk policies; simp
  rw [q6, q10, q16]
  constructor
  · rintro (⟨h, hp, hf, hs⟩ | ⟨h, hp, _, _⟩ | ⟨h, hp, _, hs⟩)
    · exact ⟨h, .inl ⟨hp, hs rfl, hf rfl⟩⟩
    · exact ⟨h, .inr (.inl hp)⟩
    · exact ⟨h, .inr (.inr ⟨hp, hs rfl⟩)⟩
  · rintro ⟨h, ⟨hp, hs, hf⟩ | hp | ⟨hp, hs⟩⟩
    · exact .inl ⟨h, hp, fun _ => hf, fun _ => hs⟩
    · exact .inr (.inl ⟨h, hp, (fun e => by cases e), (fun e => by cases e)⟩)
    · exact .inr (.inr ⟨h, hp, (fun e => by cases e), fun _ => hs⟩)

theorem any_conforms (c : Leaf) (h : anyProfile c = some true) : Conforms c := by
  refine (any_iff c ?_).1 h
  intro hn
  have hne : ∀ s, checkProfile s c ≠ some true := fun s hs => by
    have := ((check_iff s c).1 hs).1.issuer
    rw [hn] at this
    cases this
  unfold anyProfile at h
  cases h6 : checkProfile .six c with
  | none => rw [h6] at h; cases h
  | some a =>
    rw [h6] at h
    cases a with
    | true => exact hne _ h6
    | false =>
      simp only at h
      cases h10 : checkProfile .ten c with
      | none => rw [h10] at h; cases h
      | some b =>
        rw [h10] at h
        cases b with
        | true => exact hne _ h10
        | false => exact hne _ h

theorem leaf_ok {L : Lib} {S : List Bytes} {c : Bytes} (h : leafCheck L S c = .success) :
    ∃ d, L.leaf S c = some d ∧ d.isCA = false ∧ (L.fpki = true → Conforms d) := by
  unfold leafCheck at h
  cases h1 : L.leaf S c with
  | none => rw [h1] at h; cases h
  | some d =>
    rw [h1] at h
    simp only at h
    cases h2 : d.isCA with
    | true => rw [h2] at h; cases h
    | false =>
      rw [h2] at h
      refine ⟨d, rfl, h2, fun hf => ?_⟩
      rw [hf] at h
      simp only [if_true, Bool.false_eq_true, if_false] at h
      cases h3 : anyProfile d with
      | none => rw [h3] at h; cases h
      | some b =>
        rw [h3] at h
        cases b with
        | true => exact any_conforms d h3
        | false => cases h

/-! ## Histories -/

theorem trusted_mono {L : Lib} {signs : Bytes → Bytes → Prop} {valid : Nat → Bytes → Prop} {es es' : List Event}
    (hsub : ∀ e ∈ es, e ∈ es') {c : Bytes} (h : Trusted L signs valid es c) : Trusted L signs valid es' c := by
  induction h with
  | root now c h => exact .root now c (hsub _ h)
  | inter alloc now msg leaf cs c s h1 h2 h3 h4 h5 h6 h7 _ ih => exact .inter alloc now msg leaf cs c s (hsub _ h1) h2 h3 h4 h5 h6 h7 ih

/-- The verification of a message, from what is in it. -/
theorem verify_eq (L : Lib) (alloc : Bool) (now : Nat) (S : List Bytes) (msg : Bytes) (hw : msg.length < 2 ^ 32) :
    (∃ e, e ≠ .success ∧ parseChainVerify L alloc now S msg msg.length = ((e, S), [])) ∨
    ∃ leaf cs, Message msg (leaf :: cs) ∧ (parseChainVerify L alloc now S msg msg.length).2 = leaf ∧
      ((∃ e, e ≠ .success ∧ (parseChainVerify L alloc now S msg msg.length).1 = (e, S)) ∨
       ((walk L now S (leaf :: cs).reverse).1 ≠ .success ∧ (parseChainVerify L alloc now S msg msg.length).1 = walk L now S (leaf :: cs).reverse) ∨
       ((walk L now S (leaf :: cs).reverse).1 = .success ∧ (parseChainVerify L alloc now S msg msg.length).1 =
         (leafCheck L (walk L now S (leaf :: cs).reverse).2 leaf, (walk L now S (leaf :: cs).reverse).2))) := by
  unfold parseChainVerify
  cases h : parseChain msg msg.length with
  | error e =>
    refine .inl ⟨e, ?_, rfl⟩
    rintro rfl
    revert h
    unfold parseChain
    repeat' split
    all_goals (intro h; cases h)
  | ok ch =>
    obtain ⟨cs, hm, hh, hsp, hcc⟩ := parse_inv hw h
    obtain ⟨leaf, cs, rfl⟩ : ∃ leaf cs', cs = leaf :: cs' := by
      cases cs with
      | nil => cases hh
      | cons c cs => exact ⟨c, cs, rfl⟩
    refine .inr ⟨leaf, cs, hm, by injection hh with hh; exact hh.symm, ?_⟩
    simp only
    unfold verifyCerts
    rw [if_neg (by rw [hcc]; simp)]
    by_cases h1 : maxDepth < ch.count
    · rw [if_pos h1]; exact .inl ⟨_, by decide, rfl⟩
    rw [if_neg h1]
    by_cases h2 : alloc = false
    · rw [if_pos h2]; exact .inl ⟨_, by decide, rfl⟩
    rw [if_neg h2, hsp]
    simp only
    cases h3 : walk L now S (leaf :: cs).reverse with
    | mk r S' =>
      by_cases h4 : r = .success
      · subst h4; exact .inr (.inr ⟨rfl, rfl⟩)
      · refine .inr (.inl ⟨h4, ?_⟩)
        cases r <;> first | rfl | exact absurd rfl h4

theorem verify_sound {L : Lib} {signs : Bytes → Bytes → Prop} {valid : Nat → Bytes → Prop} (hS : Sound L signs valid) (alloc : Bool)
    (now : Nat) (S : List Bytes) (msg : Bytes) (hw : msg.length < 2 ^ 32) (es : List Event) (he : .peer alloc now msg ∈ es)
    (hs : ∀ s ∈ S, Trusted L signs valid es s) :
    (∀ s ∈ (parseChainVerify L alloc now S msg msg.length).1.2, Trusted L signs valid es s) ∧
    ((parseChainVerify L alloc now S msg msg.length).1.1 = .success → ∃ leaf cs d, Message msg (leaf :: cs) ∧
      (parseChainVerify L alloc now S msg msg.length).2 = leaf ∧ valid now leaf ∧ NotRevoked L now leaf ∧
      (∃ s, Trusted L signs valid es s ∧ signs s leaf) ∧
      L.leaf (parseChainVerify L alloc now S msg msg.length).1.2 leaf = some d ∧ d.isCA = false ∧ (L.fpki = true → Conforms d)) := by
  rcases verify_eq L alloc now S msg hw with ⟨e, he', h⟩ | ⟨leaf, cs, hm, hl, h⟩
  · rw [h]; exact ⟨hs, fun h => absurd h he'⟩
  · have hlast : (leaf :: cs).reverse.getLast? = some leaf := by simp
    have hw' := walk_sound hS now (Trusted L signs valid es) (· ∈ cs) (fun c s hc ha hv hr hsc ht =>
      .inter alloc now msg leaf cs c s he hm hc ha hv hr hsc ht) (leaf :: cs).reverse S (fun c hc => by
        rw [List.reverse_cons, List.dropLast_concat] at hc
        exact List.mem_reverse.1 hc) hs
    rcases h with ⟨e, he', h⟩ | ⟨hne, h⟩ | ⟨hok, h⟩
    · rw [h]; exact ⟨hs, fun h => absurd h he'⟩
    · rw [h]; exact ⟨hw'.1, fun h => absurd h hne⟩
    · rw [h]
      refine ⟨hw'.1, fun h' => ?_⟩
      obtain ⟨d, d1, d2, d3⟩ := leaf_ok h'
      obtain ⟨v1, v2, v3⟩ := hw'.2 hok leaf hlast
      exact ⟨leaf, cs, d, hm, hl, v1, v2, v3, d1, d2, d3⟩

theorem run_snoc (L : Lib) (es : List Event) (e : Event) : run L (es ++ [e]) = step L (run L es) e := by
  unfold run
  rw [List.foldl_append]
  rfl

/-- The messages of a history are not longer than a length of 32 bits. -/
def Sized (es : List Event) : Prop := ∀ a n m, .peer a n m ∈ es → m.length < 2 ^ 32

theorem run_trusted {L : Lib} {signs : Bytes → Bytes → Prop} {valid : Nat → Bytes → Prop} (hS : Sound L signs valid) (es : List Event)
    (hz : Sized es) : ∀ s ∈ run L es, Trusted L signs valid es s := by
  suffices h : ∀ (n : Nat) (es : List Event), es.length = n → Sized es → ∀ s ∈ run L es, Trusted L signs valid es s from h _ es rfl hz
  intro n
  induction n with
  | zero =>
    intro es hn _ s hs
    rw [List.length_eq_zero_iff.1 hn] at hs
    cases hs
  | succ n ih =>
    intro es hn hz s hs
    have hne : es ≠ [] := fun e => by rw [e] at hn; cases hn
    have e0 := List.dropLast_concat_getLast hne
    generalize es.getLast hne = e at e0
    generalize hq : es.dropLast = pre at e0
    have hpl : pre.length = n := by rw [← hq, List.length_dropLast]; omega
    subst e0
    rw [run_snoc] at hs
    have hp : ∀ s ∈ run L pre, Trusted L signs valid (pre ++ [e]) s := fun s hs =>
      trusted_mono (fun e he => List.mem_append_left _ he) (ih pre hpl (fun a n m h => hz a n m (List.mem_append_left _ h)) s hs)
    have he : e ∈ pre ++ [e] := by simp
    cases e with
    | load now c =>
      replace hs : s ∈ (loadRoot L now (run L pre) c).2 := hs
      cases hl : loadRoot L now (run L pre) c with
      | mk r S' =>
        rw [hl] at hs
        by_cases hr : r = .success
        · subst hr
          rw [load_ok hl] at hs
          rcases List.mem_append.1 hs with hs | hs
          · exact hp s hs
          · rw [List.mem_singleton.1 hs]; exact .root now c he
        · rw [load_bad hl hr] at hs; exact hp s hs
    | peer alloc now msg =>
      exact (verify_sound hS alloc now (run L pre) msg (hz _ _ _ he) _ he hp).1 s hs

end Proofs.CertMan
