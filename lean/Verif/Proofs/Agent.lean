import Verif.Spec.Agent
import Verif.Proofs.OsshWire
/-! The agent messages: every handler stays inside memory and keeps the identities sound. -/

namespace Proofs.Agent
open Wolf Wolf.Wire Wolf.NameList Wolf.OsshCert Wolf.Agent Spec.Wire Spec.Agent Props.Wire Proofs.Ossh

theorem slice_ok {b : Bytes} {o n : Nat} (h : o + n ≤ b.length) : slice b o n = some ((b.drop o).take n) := if_pos h

theorem slice_len {b c : Bytes} {o n : Nat} (h : slice b o n = some c) : c.length = n ∧ o + n ≤ b.length := by
  unfold slice at h
  by_cases hc : o + n ≤ b.length
  · rw [if_pos hc] at h; cases h; simp; omega
  · rw [if_neg hc] at h; cases h

theorem comment_mem {i : Ident} (h : i.fields ≠ []) : i.comment ∈ i.fields := by
  unfold Ident.comment
  rw [List.getLastD_eq_getLast?, List.getLast?_eq_some_getLast h]
  exact List.getLast_mem h

theorem c32toa_length (n : Nat) : (c32toa n).length = 4 := rfl

theorem listIds_some {l : List Ident} (h : ∀ i ∈ l, IdentOk i) : ∃ b, listIds l = some b ∧ b.length = weight l := by
  induction l with
  | nil => exact ⟨[], rfl, rfl⟩
  | cons i l ih =>
    obtain ⟨r, hr, hl⟩ := ih (fun j hj => h j (List.mem_cons_of_mem _ hj))
    obtain ⟨h1, h2, h3⟩ := h i List.mem_cons_self
    have hc := h3 _ (comment_mem h2)
    have e1 : slice i.buf 0 i.blobSz = some ((i.buf.drop 0).take i.blobSz) := slice_ok (by omega)
    have e2 := slice_ok hc
    refine ⟨c32toa i.blobSz ++ (i.buf.drop 0).take i.blobSz ++
      (c32toa i.comment.2 ++ (i.buf.drop i.comment.1).take i.comment.2) ++ r, ?_, ?_⟩
    · unfold listIds
      rw [e1, e2, hr]
    · simp only [List.length_append, c32toa_length, (slice_len e1).1, (slice_len e2).1, hl, weight]
      omega

theorem sum32_weight (l : List Ident) (h : weight l < 4294967296) :
    sum32 (l.map fun i => add32 8 (add32 i.blobSz i.comment.2)) = weight l := by
  induction l with
  | nil => rfl
  | cons i l ih =>
    simp only [weight] at h
    simp only [List.map_cons, sum32, weight]
    rw [ih (by omega)]
    unfold add32
    omega

/-- What a handler keeps. -/
def Kept (a a' : Ctx) (n : Nat) : Prop :=
  a'.lastMsgId = a.lastMsgId ∧ a'.lost = a.lost ∧ Sound a' n

theorem build_some {a : Ctx} (ha : a.msg = .null) (p : Bytes) (hp : 0 < p.length) (hl : p.length + 4 < 4294967296) :
    build a p.length p = some (none, { a with msg := .heap (c32toa p.length ++ p), msgSz := p.length + 4 }) := by
  unfold build
  rw [if_neg (by omega), ha]
  have : add32 p.length 4 = p.length + 4 := by unfold add32; omega
  simp only [this]
  rw [if_neg (by omega)]

theorem buildAndFree_some {a : Ctx} (ha : a.msg = .null) (p : Bytes) (hp : 0 < p.length) (hl : p.length + 4 < 4294967296) :
    buildAndFree a p.length p = some (none, { a with msg := .null, msgSz := 0 }) := by
  unfold buildAndFree
  rw [build_some ha p hp hl]

theorem answer_some {a : Ctx} {n : Nat} (ha : a.msg = .null) (hs : Sound a n) (hn : n + 9 < 4294967296) :
    sendIdentitiesAnswer a = some (none, { a with msg := .null, msgSz := 0 }) := by
  obtain ⟨b, hb, hl⟩ := listIds_some hs.1
  have hw := hs.2
  unfold sendIdentitiesAnswer
  rw [hb, sum32_weight _ (by omega)]
  have e : add32 5 (weight a.ids) = ([12] ++ c32toa a.ids.length ++ b).length := by
    simp only [List.length_append, c32toa_length, hl, List.length_cons, List.length_nil]
    unfold add32; omega
  simp only [e]
  apply buildAndFree_some ha
  · simp
  · simp only [List.length_append, c32toa_length, hl, List.length_cons, List.length_nil]; omega

theorem request_some {a : Ctx} (ha : a.msg = .null) (data key : Bytes) (flags : Nat)
    (h : data.length + key.length + 17 < 4294967296) :
    sendSignRequest a data key flags =
      some (none, { a with msg := .heap (signMessage key data flags), msgSz := (signMessage key data flags).length }) := by
  have e : add32 13 (add32 data.length key.length) =
      ([13] ++ c32toa key.length ++ key ++ (c32toa data.length ++ data) ++ c32toa flags).length := by
    simp only [List.length_append, c32toa_length, List.length_cons, List.length_nil]
    unfold add32; omega
  unfold sendSignRequest
  rw [e, build_some ha _ (by simp) (by simp only [List.length_append, c32toa_length, List.length_cons, List.length_nil]; omega)]
  have e2 : ([13] ++ c32toa key.length ++ key ++ (c32toa data.length ++ data) ++ c32toa flags) =
      (13 : UInt8) :: (encString key ++ encString data ++ encUint32 flags) := by
    simp [encString, c32toa_eq]
  rw [e2, c32toa_eq]
  simp only [signMessage, encString, List.length_append]
  have : ∀ k, (encUint32 k).length = 4 := fun _ => rfl
  simp only [this, Option.some.injEq, Prod.mk.injEq, true_and]
  congr 1
  omega

theorem findKeyId_some (d key : Bytes) {l : List Ident} (h : ∀ i ∈ l, IdentOk i) : ∃ r, findKeyId d key l = some r := by
  induction l with
  | nil => exact ⟨none, rfl⟩
  | cons i l ih =>
    obtain ⟨r, hr⟩ := ih (fun j hj => h j (List.mem_cons_of_mem _ hj))
    unfold findKeyId
    by_cases h1 : d = i.digest
    · exact ⟨some i, by rw [if_pos h1]⟩
    · rw [if_neg h1]
      by_cases h2 : i.blobSz ≠ key.length
      · exact ⟨r, by rw [if_pos h2, hr]⟩
      · rw [if_neg h2, slice_ok (by have := (h i List.mem_cons_self).1; omega)]
        simp only
        by_cases h3 : key = (i.buf.drop 0).take i.blobSz
        · exact ⟨some i, by rw [if_pos h3]⟩
        · exact ⟨r, by rw [if_neg h3, hr]⟩

/-- A result that leaves the context as it was except for an empty message. -/
def Still (a a' : Ctx) : Prop := a' = a ∨ a' = { a with msg := .null, msgSz := 0 }

theorem postSign_some {E : Env} (hE : Sane E) {a : Ctx} {n : Nat} (ha : a.msg = .null) (hs : Sound a n)
    (key data : Bytes) (flags : Nat) :
    ∃ r a', postSignRequest E a key data flags = some (r, a') ∧ Still a a' := by
  unfold postSignRequest
  by_cases hk : key = []
  · exact ⟨_, _, by rw [if_pos hk], .inl rfl⟩
  rw [if_neg hk]
  cases hd : E.sha key with
  | none => exact ⟨_, _, rfl, .inl rfl⟩
  | some d =>
    obtain ⟨r, hr⟩ := findKeyId_some d key hs.1
    simp only [hr]
    cases r with
    | none => exact ⟨_, _, rfl, .inl rfl⟩
    | some i =>
      simp only
      split
      · exact ⟨_, _, rfl, .inl rfl⟩
      split
      · exact ⟨_, _, rfl, .inl rfl⟩
      cases hsg : E.sign i data flags with
      | error e => exact ⟨_, _, rfl, .inl rfl⟩
      | ok k =>
        cases k with
        | zero => exact ⟨_, _, rfl, .inl rfl⟩
        | succ k =>
          have hb := hE _ _ _ _ hsg
          have e : add32 5 (k + 1) = ([14] ++ c32toa (k + 1) ++ List.replicate (k + 1) (0 : UInt8)).length := by
            simp only [List.length_append, c32toa_length, List.length_cons, List.length_nil, List.length_replicate]
            unfold add32; omega
          simp only
          rw [e]
          refine ⟨_, _, buildAndFree_some ha _ (by simp) ?_, .inr rfl⟩
          simp only [List.length_append, c32toa_length, List.length_cons, List.length_nil, List.length_replicate]
          omega

theorem still_kept {a a' : Ctx} {n : Nat} (h : Still a a') (hs : Sound a n) : Kept a a' n ∧ a'.ids = a.ids := by
  rcases h with rfl | rfl
  · exact ⟨⟨rfl, rfl, hs⟩, rfl⟩
  · exact ⟨⟨rfl, rfl, hs⟩, rfl⟩

theorem still_msg {a a' : Ctx} (h : Still a a') (ha : a.msg = .null) : a'.msg = .null := by
  rcases h with rfl | rfl
  · exact ha
  · rfl

theorem doSignRequest_some {E : Env} (hE : Sane E) {a : Ctx} {n : Nat} (ha : a.msg = .null) (hs : Sound a n)
    {mem : Bytes} {len : Nat} (hl : len ≤ mem.length) (hw : len ≤ 2048) :
    ∃ r a' k, doSignRequest E a mem len = some (r, a', k) ∧ Still a a' := by
  unfold doSignRequest
  by_cases h0 : len = 0
  · exact ⟨_, _, _, by rw [if_pos h0], .inl rfl⟩
  rw [if_neg h0]
  have g1 := C01_getStringRef mem len 0 hl (by omega)
  cases e1 : getStringRef mem len 0 with
  | ub => rw [e1] at g1; exact g1.elim
  | err e i => exact ⟨_, _, _, rfl, .inl rfl⟩
  | ok k i =>
    rw [e1] at g1
    obtain ⟨_, s, hk, _, _⟩ := g1
    have g2 := C01_getStringRef mem len i hl (by omega)
    simp only
    cases e2 : getStringRef mem len i with
    | ub => rw [e2] at g2; exact g2.elim
    | err e j => exact ⟨_, _, _, rfl, .inl rfl⟩
    | ok d j =>
      rw [e2] at g2
      obtain ⟨_, t, hd, _, _⟩ := g2
      have g3 := C01_getUint32 mem len j hl (by omega)
      simp only
      cases e3 : getUint32 mem len j with
      | ub => rw [e3] at g3; exact g3.elim
      | err e j => exact ⟨_, _, _, rfl, .inl rfl⟩
      | ok f q =>
        simp only [hk, hd]
        obtain ⟨r, a', hp, hst⟩ := postSign_some hE ha hs s t f
        rw [hp]
        cases r with
        | none => exact ⟨_, _, _, rfl, hst⟩
        | some e => exact ⟨_, _, _, rfl, hst⟩

theorem deref_length {mem s : Bytes} {r : StrRef} (h : deref mem r = some s) : r.sz = s.length := by
  unfold deref at h
  split at h
  · split at h
    · rename_i hz; cases h; simpa using hz
    · cases h
  · split at h
    · cases h; simp; omega
    · cases h

theorem readFields_some {mem : Bytes} {len : Nat} (hl : len ≤ mem.length) (hw : len ≤ 2048) (fs : List Bool) (idx : Nat)
    (hi : idx ≤ len) :
    match readFields mem len idx fs with
    | .ub => False
    | .err _ _ => True
    | .ok s j => s.length = fs.length ∧ j = idx + s.sum + 4 * s.length ∧ j ≤ len := by
  induction fs generalizing idx with
  | nil => exact ⟨rfl, by simp, hi⟩
  | cons m l ih =>
    unfold readFields
    have g : match (if m then getMpint mem len idx else getStringRef mem len idx) with
        | .ub => False
        | .err _ _ => True
        | .ok r i => i ≤ len ∧ i = idx + 4 + r.sz := by
      cases m with
      | true =>
        have g := C01_getMpint mem len idx hl (by omega)
        simp only [if_true]
        cases e : getMpint mem len idx with
        | ub => rw [e] at g; exact g
        | err e i => trivial
        | ok r i =>
          rw [e] at g
          obtain ⟨h1, s, h2, h3, _⟩ := g
          exact ⟨h1, by rw [deref_length h2]; exact h3⟩
      | false =>
        have g := C01_getStringRef mem len idx hl (by omega)
        simp only [Bool.false_eq_true, if_false]
        cases e : getStringRef mem len idx with
        | ub => rw [e] at g; exact g
        | err e i => trivial
        | ok r i =>
          rw [e] at g
          obtain ⟨h1, s, h2, h3, _⟩ := g
          exact ⟨h1, by rw [deref_length h2]; exact h3⟩
    cases e : (if m then getMpint mem len idx else getStringRef mem len idx) with
    | ub => rw [e] at g; exact g.elim
    | err e i => trivial
    | ok r i =>
      rw [e] at g
      have h2 := ih i g.1
      simp only
      cases e2 : readFields mem len i l with
      | ub => rw [e2] at h2; exact h2.elim
      | err e i => trivial
      | ok s j =>
        rw [e2] at h2
        obtain ⟨h3, h4, h5⟩ := h2
        refine ⟨by simp [h3], ?_, h5⟩
        simp only [List.sum_cons, List.length_cons]
        have := g.2
        omega

theorem sum32_sum (l : List Nat) (h : l.sum < 4294967296) : sum32 l = l.sum := by
  induction l with
  | nil => rfl
  | cons n l ih =>
    simp only [List.sum_cons] at h
    simp only [sum32, List.sum_cons]
    rw [ih (by omega)]
    unfold add32; omega

theorem fieldsAt_in (l : List Nat) (k : Nat) (h : k + l.sum + 4 * l.length < 4294967296) :
    ∀ f ∈ fieldsAt k l, f.1 + f.2 ≤ k + l.sum + 4 * l.length := by
  induction l generalizing k with
  | nil => simp [fieldsAt]
  | cons n l ih =>
    simp only [List.sum_cons, List.length_cons] at h
    have e1 : add32 k 4 = k + 4 := by unfold add32; omega
    have e2 : add32 (k + 4) n = k + 4 + n := by unfold add32; omega
    intro f hf
    simp only [fieldsAt, e1, e2, List.mem_cons] at hf
    simp only [List.sum_cons, List.length_cons]
    rcases hf with rfl | hf
    · simp only; omega
    · have := ih (k + 4 + n) (by omega) f hf
      omega

/-- The two shapes of a key. -/
def Shape (s : List Nat) : Prop := s.length = 7 ∨ s.length = 4

theorem shape_bound {s : List Nat} (h : Shape s) :
    fieldsAt 0 s ≠ [] ∧
    8 + (s.getD 0 0 + s.getD 1 0 + 8) + ((fieldsAt 0 s).getLastD (0, 0)).2 ≤ s.sum + 4 * s.length ∧
    s.getD 0 0 + s.getD 1 0 + 8 ≤ s.sum + 4 * s.length := by
  rcases h with h | h
  · match s, h with
    | [a, b, c, d, e, f, g], _ =>
      refine ⟨by simp [fieldsAt], ?_, ?_⟩
      · simp [fieldsAt]; omega
      · simp; omega
  · match s, h with
    | [a, b, c, d], _ =>
      refine ⟨by simp [fieldsAt], ?_, ?_⟩
      · simp [fieldsAt]; omega
      · simp; omega

theorem postAdd_some (E : Env) {a : Ctx} {n : Nat} (hs : Sound a n) (kt : Nat) (key : Bytes) (s : List Nat) (hsh : Shape s)
    (hl : s.sum + 4 * s.length ≤ key.length) (hw : s.sum + 4 * s.length ≤ 2048) :
    ∃ r a', postAddId E a kt key s = some (r, a') ∧ Kept a a' (n + 2048) ∧ a'.msg = a.msg := by
  obtain ⟨b1, b2, b3⟩ := shape_bound hsh
  have e1 : add32 (sum32 s) (4 * s.length) = s.sum + 4 * s.length := by
    rw [sum32_sum s (by omega)]; unfold add32; omega
  have e2 : add32 (add32 (s.getD 0 0) (s.getD 1 0)) 8 = s.getD 0 0 + s.getD 1 0 + 8 := by
    unfold add32; omega
  unfold postAddId
  simp only [e1, e2]
  rw [slice_ok (b := key) (o := 0) (n := s.sum + 4 * s.length) (by omega),
    slice_ok (b := key) (o := 0) (n := s.getD 0 0 + s.getD 1 0 + 8) (by omega)]
  simp only
  cases E.sha ((key.drop 0).take (s.getD 0 0 + s.getD 1 0 + 8)) with
  | none => exact ⟨_, _, rfl, ⟨rfl, rfl, hs.1, by have := hs.2; omega⟩, rfl⟩
  | some d =>
    refine ⟨_, _, rfl, ⟨rfl, rfl, ?_, ?_⟩, rfl⟩
    · intro i hi
      rcases List.mem_cons.1 hi with rfl | hi
      · have hlen : ((key.drop 0).take (s.sum + 4 * s.length)).length = s.sum + 4 * s.length := by
          simp only [List.drop_zero, List.length_take]; omega
        refine ⟨by rw [hlen]; exact b3, b1, ?_⟩
        intro f hf
        rw [hlen]
        have := fieldsAt_in s 0 (by omega) f hf
        omega
      · exact hs.1 i hi
    · have := hs.2
      simp only [weight, Ident.comment]
      omega

theorem withIdx_some {r : ARet} {a' : Ctx} (k : Nat) : ∃ r' k', withIdx (some (r, a')) k = some (r', a', k') := by
  cases r with
  | none => exact ⟨none, k, rfl⟩
  | some e => exact ⟨some e, 0, rfl⟩

theorem sound_mono {a : Ctx} {n m : Nat} (h : Sound a n) (hm : n ≤ m) : Sound a m := ⟨h.1, Nat.le_trans h.2 hm⟩

theorem kept_refl {a : Ctx} {n m : Nat} (h : Sound a n) (hm : n ≤ m) : Kept a a m := ⟨rfl, rfl, sound_mono h hm⟩

theorem doAdd_some (E : Env) {a : Ctx} {n : Nat} (hs : Sound a n) {mem : Bytes} {len : Nat} (hl : len ≤ mem.length)
    (hw : len ≤ 2048) :
    ∃ r a' k, doAddIdentity E a mem len = some (r, a', k) ∧ Kept a a' (n + 2048) ∧ a'.msg = a.msg := by
  have same : ∀ e : AErr, ∃ r a' k, (some (some e, a, 0) : HRes) = some (r, a', k) ∧ Kept a a' (n + 2048) ∧ a'.msg = a.msg :=
    fun e => ⟨_, _, _, rfl, kept_refl hs (by omega), rfl⟩
  unfold doAddIdentity
  by_cases h0 : len = 0
  · rw [if_pos h0]; exact same _
  rw [if_neg h0]
  by_cases h4 : 4 > len
  · rw [if_pos h4]; exact same _
  rw [if_neg h4]
  have g : ∀ k, k < 4 → ∃ b, mem[k]? = some b := fun k hk => ⟨mem[k]'(by omega), List.getElem?_eq_getElem (by omega)⟩
  obtain ⟨b0, e0⟩ := g 0 (by omega)
  obtain ⟨b1, e1⟩ := g 1 (by omega)
  obtain ⟨b2, e2⟩ := g 2 (by omega)
  obtain ⟨b3, e3⟩ := g 3 (by omega)
  simp only [e0, e1, e2, e3]
  have hsz := ato32_lt b0 b1 b2 b3
  generalize ato32 b0 b1 b2 b3 = sz at hsz
  by_cases hb : add32 4 sz > len
  · rw [if_pos hb]; exact same _
  rw [if_neg hb]
  have hname : ∃ kt, nameToIdAt mem 4 sz = some kt := by
    unfold nameToIdAt
    cases hsl : slice mem 4 sz with
    | some nm => exact ⟨_, rfl⟩
    | none =>
      have : ¬ sz ≤ 64 := by
        intro hc
        have : add32 4 sz = 4 + sz := by unfold add32; omega
        rw [slice_ok (by omega)] at hsl
        cases hsl
      exact ⟨_, by simp only; rw [if_neg this]⟩
  obtain ⟨kt, hkt⟩ := hname
  simp only [hkt]
  have body : ∀ fs : List Bool, (fs.length = 7 ∨ fs.length = 4) → ∃ r a' k,
      (match readFields mem len (add32 4 sz) fs with
        | .ub => none
        | .err e _ => some (some (.lib e), a, 0)
        | .ok sizes n => withIdx (postAddId E a kt (mem.drop (add32 4 sz)) sizes) n : HRes) = some (r, a', k) ∧
      Kept a a' (n + 2048) ∧ a'.msg = a.msg := by
    intro fs hfs
    have h := readFields_some hl hw fs (add32 4 sz) (by omega)
    cases e : readFields mem len (add32 4 sz) fs with
    | ub => rw [e] at h; exact h.elim
    | err e i => exact same _
    | ok s j =>
      rw [e] at h
      obtain ⟨h1, h2, h3⟩ := h
      obtain ⟨r, a', hp, hk, hm⟩ := postAdd_some E hs kt (mem.drop (add32 4 sz)) s (by unfold Shape; omega)
        (by rw [List.length_drop]; omega) (by omega)
      simp only
      rw [hp]
      obtain ⟨r', k', hw'⟩ := withIdx_some (r := r) (a' := a') j
      exact ⟨r', a', k', hw', hk, hm⟩
  by_cases c1 : kt = ID_SSH_RSA
  · simp only [c1, if_true]
    rw [c1] at body
    exact body rsaFields (.inl rfl)
  · simp only [c1, if_false]
    by_cases c2 : kt = ID_ECDSA_SHA2_NISTP256 ∨ kt = ID_ECDSA_SHA2_NISTP384 ∨ kt = ID_ECDSA_SHA2_NISTP521
    · simp only [c2, if_true]
      exact body eccFields (.inr rfl)
    · simp only [c2, if_false]
      exact same _

theorem weight_eraseP (l : List Ident) (p : Ident → Bool) : weight (l.eraseP p) ≤ weight l := by
  induction l with
  | nil => simp [weight]
  | cons i l ih =>
    rw [List.eraseP_cons]
    cases p i with
    | true => simp only [cond_true, weight]; omega
    | false => simp only [cond_false, weight]; omega

theorem doRemove_some (E : Env) {a : Ctx} {n : Nat} (hs : Sound a n) {mem : Bytes} {len : Nat} (hl : len ≤ mem.length)
    (hw : len ≤ 2048) :
    ∃ r a' k, doRemoveIdentity E a mem len = some (r, a', k) ∧ Kept a a' (n + 2048) ∧ a'.msg = a.msg := by
  have same : ∀ e : AErr, ∃ r a' k, (some (some e, a, 0) : HRes) = some (r, a', k) ∧ Kept a a' (n + 2048) ∧ a'.msg = a.msg :=
    fun e => ⟨_, _, _, rfl, kept_refl hs (by omega), rfl⟩
  unfold doRemoveIdentity
  by_cases h0 : len = 0
  · rw [if_pos h0]; exact same _
  rw [if_neg h0]
  by_cases h4 : 4 > len
  · rw [if_pos h4]; exact same _
  rw [if_neg h4]
  have g1 := C01_getStringRef mem len 0 hl (by omega)
  cases e1 : getStringRef mem len 0 with
  | ub => rw [e1] at g1; exact g1.elim
  | err e i => exact same _
  | ok k i =>
    rw [e1] at g1
    obtain ⟨_, s, hk, _, _⟩ := g1
    simp only [hk]
    have hp : Kept a (postRemoveId E a s).2 (n + 2048) ∧ (postRemoveId E a s).2.msg = a.msg := by
      unfold postRemoveId
      by_cases hz : s = []
      · rw [if_pos hz]; exact ⟨kept_refl hs (by omega), rfl⟩
      rw [if_neg hz]
      cases E.sha s with
      | none => exact ⟨kept_refl hs (by omega), rfl⟩
      | some d =>
        simp only
        by_cases hany : a.ids.any (fun i => i.digest = d)
        · rw [if_pos hany]
          refine ⟨⟨rfl, rfl, ?_, ?_⟩, rfl⟩
          · intro i hi; exact hs.1 i (List.mem_of_mem_eraseP hi)
          · have := weight_eraseP a.ids (fun i => i.digest = d)
            have := hs.2
            simp only
            omega
        · rw [if_neg hany]; exact ⟨kept_refl hs (by omega), rfl⟩
    obtain ⟨r', k', hw'⟩ := withIdx_some (r := (postRemoveId E a s).1) (a' := (postRemoveId E a s).2) i
    exact ⟨r', _, k', hw', hp.1, hp.2⟩

theorem doLock_some {a : Ctx} {mem : Bytes} {len : Nat} (hl : len ≤ mem.length) (hw : len ≤ 2048) :
    ∃ r k, doLock a mem len = some (r, a, k) := by
  unfold doLock
  by_cases h0 : len = 0
  · exact ⟨_, _, by rw [if_pos h0]⟩
  rw [if_neg h0]
  by_cases h4 : 4 > len
  · exact ⟨_, _, by rw [if_pos h4]⟩
  rw [if_neg h4]
  have g : ∀ k, k < 4 → ∃ b, mem[k]? = some b := fun k hk => ⟨mem[k]'(by omega), List.getElem?_eq_getElem (by omega)⟩
  obtain ⟨b0, e0⟩ := g 0 (by omega)
  obtain ⟨b1, e1⟩ := g 1 (by omega)
  obtain ⟨b2, e2⟩ := g 2 (by omega)
  obtain ⟨b3, e3⟩ := g 3 (by omega)
  simp only [e0, e1, e2, e3]
  generalize ato32 b0 b1 b2 b3 = sz
  by_cases hb : sz > 256 ∨ add32 4 sz > len
  · exact ⟨_, _, by rw [if_pos hb]⟩
  · rw [if_neg hb]
    have : 4 + sz ≤ mem.length := by unfold add32 at hb; omega
    rw [slice_ok this]
    exact ⟨_, _, rfl⟩

/-- The answer with a signature. -/
theorem doSignResponse_eq {a : Ctx} {mem : Bytes} {len base : Nat} (hl : len ≤ mem.length) (hw : len ≤ 2048) :
    ∃ r a' k, doSignResponse a mem len base = some (r, a', k) ∧ a'.ids = a.ids ∧ a'.lost = a.lost ∧
      a'.lastMsgId = a.lastMsgId ∧ a'.failure = a.failure ∧
      (match string (mem.take len) with
        | some (s, _) => r = none ∧ a'.msgSz = s.length ∧ a'.msg = (if s = [] then .null else .rx (base + 4)) ∧
            (s ≠ [] → slice mem 4 s.length = some s)
        | none => r ≠ none ∧ a' = a) := by
  unfold doSignResponse
  by_cases h0 : len = 0
  · rw [if_pos h0]
    refine ⟨_, _, _, rfl, rfl, rfl, rfl, rfl, ?_⟩
    have : string (mem.take len) = none := by subst h0; rfl
    rw [this]
    exact ⟨by simp, rfl⟩
  rw [if_neg h0, getStringRef_eq mem len 0 hl (by omega)]
  rw [List.drop_zero]
  cases hst : string (mem.take len) with
  | none =>
    by_cases h4 : 0 + 4 ≤ len
    · simp only [h4, if_true]
      exact ⟨_, _, _, rfl, rfl, rfl, rfl, rfl, by simp, rfl⟩
    · simp only [h4, if_false]
      exact ⟨_, _, _, rfl, rfl, rfl, rfl, rfl, by simp, rfl⟩
  | some p =>
    obtain ⟨s, rest⟩ := p
    have hd := deref_string mem len 0 s rest hl (by rw [List.drop_zero]; exact hst)
    by_cases hs : s = []
    · subst hs
      exact ⟨_, _, _, rfl, rfl, rfl, rfl, rfl, rfl, rfl, rfl, by simp⟩
    · simp only [hs, if_false]
      refine ⟨_, _, _, rfl, rfl, rfl, rfl, rfl, rfl, rfl, rfl, ?_⟩
      intro _
      have h1 := hd.1
      rw [if_neg hs] at h1
      exact h1

/-- What every message leaves of the context. -/
theorem dispatch_some {E : Env} (hE : Sane E) {a : Ctx} {n : Nat} (ha : a.msg = .null) (hs : Sound a n)
    (hn : n + 9 < 4294967296) (id : UInt8) {mem : Bytes} {len : Nat} (base : Nat) (hl : len ≤ mem.length) (hw : len ≤ 2048) :
    ∃ r a' k, dispatch E a id mem len base = some (r, a', k) ∧ Kept a a' (n + 2048) ∧
      (id ≠ 17 → id ≠ 18 → id ≠ 19 → a'.ids = a.ids) ∧
      lostBy a'.msg = (if id ∈ known then 0 else 1) := by
  have k0 : Kept a a (n + 2048) := kept_refl hs (by omega)
  have l0 : lostBy a.msg = 0 := by rw [ha]; rfl
  have st : ∀ {a' : Ctx}, Still a a' → Kept a a' (n + 2048) ∧ a'.ids = a.ids ∧ lostBy a'.msg = 0 := by
    intro a' h
    obtain ⟨⟨p, q, r⟩, s⟩ := still_kept h hs
    refine ⟨⟨p, q, sound_mono r (by omega)⟩, s, ?_⟩
    rw [still_msg h ha]; rfl
  unfold dispatch
  by_cases c : id = 5
  · subst c
    rw [if_pos rfl]
    by_cases hz : len ≠ 0
    · rw [if_pos hz]; exact ⟨_, _, _, rfl, k0, fun _ _ _ => rfl, l0⟩
    · rw [if_neg hz]; exact ⟨_, _, _, rfl, ⟨rfl, rfl, k0.2.2⟩, fun _ _ _ => rfl, l0⟩
  rw [if_neg c]
  by_cases c' : id = 6
  · subst c'
    rw [if_pos rfl]
    by_cases hz : len ≠ 0
    · rw [if_pos hz]; exact ⟨_, _, _, rfl, k0, fun _ _ _ => rfl, l0⟩
    · rw [if_neg hz]; exact ⟨_, _, _, rfl, ⟨rfl, rfl, k0.2.2⟩, fun _ _ _ => rfl, l0⟩
  rw [if_neg c']
  by_cases c11 : id = 11
  · subst c11
    rw [if_pos rfl]
    by_cases hz : len ≠ 0
    · rw [if_pos hz]; exact ⟨_, _, _, rfl, k0, fun _ _ _ => rfl, l0⟩
    · rw [if_neg hz, answer_some ha hs hn]
      obtain ⟨p, q, r⟩ := st (a' := { a with msg := .null, msgSz := 0 }) (.inr rfl)
      exact ⟨_, _, _, rfl, p, fun _ _ _ => q, r⟩
  rw [if_neg c11]
  by_cases c12 : id = 12
  · subst c12
    rw [if_pos rfl]
    exact ⟨_, _, _, rfl, k0, fun _ _ _ => rfl, l0⟩
  rw [if_neg c12]
  by_cases c13 : id = 13
  · subst c13
    rw [if_pos rfl]
    obtain ⟨r, a', k, h, hst⟩ := doSignRequest_some hE ha hs hl hw
    obtain ⟨p, q, l⟩ := st hst
    exact ⟨r, a', k, h, p, fun _ _ _ => q, l⟩
  rw [if_neg c13]
  by_cases c14 : id = 14
  · subst c14
    rw [if_pos rfl]
    obtain ⟨r, a', k, h, h1, h2, h3, h4, h5⟩ := doSignResponse_eq (a := a) (base := base) hl hw
    refine ⟨r, a', k, h, ⟨h3, h2, ?_⟩, fun _ _ _ => h1, ?_⟩
    · unfold Sound; rw [h1]; exact k0.2.2
    · cases hst : string (mem.take len) with
      | none => rw [hst] at h5; rw [h5.2]; exact l0
      | some p =>
        rw [hst] at h5
        rw [h5.2.2.1]
        by_cases hz : p.1 = []
        · rw [if_pos hz]; rfl
        · rw [if_neg hz]; rfl
  rw [if_neg c14]
  by_cases c17 : id = 17
  · subst c17
    rw [if_pos rfl]
    obtain ⟨r, a', k, h, hk, hm⟩ := doAdd_some E hs hl hw
    exact ⟨r, a', k, h, hk, fun x => absurd rfl x, by rw [hm]; exact l0⟩
  rw [if_neg c17]
  by_cases c18 : id = 18
  · subst c18
    rw [if_pos rfl]
    obtain ⟨r, a', k, h, hk, hm⟩ := doRemove_some E hs hl hw
    exact ⟨r, a', k, h, hk, fun _ x => absurd rfl x, by rw [hm]; exact l0⟩
  rw [if_neg c18]
  by_cases c19 : id = 19
  · subst c19
    rw [if_pos rfl]
    unfold doRemoveAll
    by_cases hz : len ≠ 0
    · rw [if_pos hz]; exact ⟨_, _, _, rfl, k0, fun _ _ _ => rfl, l0⟩
    · rw [if_neg hz]
      exact ⟨_, _, _, rfl, ⟨rfl, rfl, (fun i hi => by cases hi), Nat.zero_le _⟩, fun _ _ x => absurd rfl x, l0⟩
  rw [if_neg c19]
  by_cases c22 : id = 22
  · subst c22
    rw [if_pos rfl]
    obtain ⟨r, k, h⟩ := doLock_some (a := a) hl hw
    exact ⟨r, a, k, h, k0, fun _ _ _ => rfl, l0⟩
  rw [if_neg c22]
  by_cases c23 : id = 23
  · subst c23
    rw [if_pos rfl]
    obtain ⟨r, k, h⟩ := doLock_some (a := a) hl hw
    exact ⟨r, a, k, h, k0, fun _ _ _ => rfl, l0⟩
  rw [if_neg c23]
  have hk : id ∉ known := by
    simp only [known, List.mem_cons, List.not_mem_nil, or_false, not_or]
    exact ⟨c, c', c11, c12, c13, c14, c17, c18, c19, c22, c23⟩
  rw [if_neg hk]
  unfold doUnimplemented
  have hb := build_some ha [(5 : UInt8)] (by decide) (by decide)
  rw [show ([(5 : UInt8)]).length = 1 from rfl] at hb
  rw [hb]
  exact ⟨_, _, _, rfl, ⟨rfl, rfl, k0.2.2⟩, fun _ _ _ => rfl, rfl⟩

/-- The reader of a message, as the grammar has it. -/
theorem doMessage_eq (E : Env) (a : Ctx) {mem : Bytes} {len : Nat} (hl : len ≤ mem.length) (hw : len ≤ 2048) :
    (match string (mem.take len) with
      | some (id :: body, _) =>
          body = (mem.drop 5).take body.length ∧ body.length ≤ (mem.drop 5).length ∧ body.length ≤ 2048 ∧
          doMessage E a mem len = (dispatch E { a with lastMsgId := id.toNat } id (mem.drop 5) body.length 5).map
            (fun x => (x.1, x.2.1))
      | _ => ∃ e, doMessage E a mem len = some (some e, { a with lastMsgId := 0 })) := by
  unfold doMessage
  by_cases h0 : len = 0
  · subst h0
    have : string (mem.take 0) = none := rfl
    rw [this]
    exact ⟨_, rfl⟩
  simp only [h0, if_false]
  have g := C01_getSize mem len 0 hl (by omega)
  cases e : getSize mem len 0 with
  | ub => rw [e] at g; exact g.elim
  | err x i =>
    rw [e] at g
    have := g.2
    rw [show msgFrom mem len 0 = mem.take len by simp [msgFrom]] at this
    rw [this]
    exact ⟨_, rfl⟩
  | ok v i =>
    rw [e] at g
    obtain ⟨g1, g2, g3⟩ := g
    subst g1
    have hm0 : msgFrom mem len 0 = mem.take len := by simp [msgFrom]
    have hm4 : msgFrom mem len (0 + 4) = (mem.take len).drop 4 := rfl
    rw [hm0, hm4] at g3
    have hlen : ((mem.take len).drop 4).length = len - 4 := by simp; omega
    have hst : string (mem.take len) = some (((mem.take len).drop 4).take v, ((mem.take len).drop 4).drop v) := by
      unfold string
      rw [g3]
      simp only
      rw [if_pos (by omega)]
    rw [hst]
    by_cases hv : v = 0
    · subst hv
      simp only [List.take_zero, if_true]
      exact ⟨_, rfl⟩
    · simp only [hv, if_false]
      have hb : mem[0 + 4]? = some (mem[4]'(by omega)) := List.getElem?_eq_getElem (by omega)
      have hcons : ((mem.take len).drop 4).take v = mem[4]'(by omega) :: (mem.drop 5).take (v - 1) := by
        obtain ⟨w, rfl⟩ : ∃ w, v = w + 1 := ⟨v - 1, by omega⟩
        rw [List.drop_take, List.take_take, Nat.min_eq_left (by omega), List.drop_eq_getElem_cons (by omega : 4 < mem.length),
          List.take_succ_cons]
        rfl
      rw [hcons, hb]
      have hlb : ((mem.drop 5).take (v - 1)).length = v - 1 := by simp; omega
      have es : sub32 v 1 = v - 1 := by unfold sub32; omega
      simp only [hlb, es]
      refine ⟨trivial, by simp; omega, by omega, ?_⟩
      rw [show add32 (0 + 4) 1 = 5 from rfl]
      cases dispatch E { a with lastMsgId := (mem[4]'(by omega)).toNat } (mem[4]'(by omega)) (mem.drop 5) (v - 1) 5 with
      | none => rfl
      | some x => rfl

/-- Taking the reply: it is always defined, gives a signature exactly when the grammar finds one that fits, and what it
leaves behind. -/
theorem takeReply_eq {E : Env} (hE : Sane E) {a : Ctx} {w : Nat} (ha : a.msg = .null) (hf : a.failure = false)
    (hs : Sound a w) (hn : w + 9 < 4294967296) {mem : Bytes} {n : Int} (cap : Nat) (hm : mem.length = 2048) (hle : n ≤ 2048) :
    ∃ r a', takeReply E a n mem cap = some (r, a') ∧ Sound a' (w + 2048) ∧
      (∀ s, r = .ok s ↔ sigIn (mem.take n.toNat) = some s ∧ s ≠ [] ∧ s.length ≤ cap) ∧
      (∀ t, msgType (mem.take n.toNat) = some t → t ≠ 17 → t ≠ 18 → t ≠ 19 → a'.ids = a.ids) ∧
      (msgType (mem.take n.toNat) = none → a'.ids = a.ids) ∧
      a'.lost + lostBy a'.msg = a.lost +
        (match msgType (mem.take n.toNat) with | some t => if t ∈ known then 0 else 1 | none => 0) := by
  unfold takeReply
  by_cases h0 : n ≤ 0
  · rw [if_pos h0]
    have hz : n.toNat = 0 := by omega
    rw [hz]
    refine ⟨_, _, rfl, sound_mono hs (by omega), ?_, fun _ _ _ _ _ => rfl, fun _ => rfl, ?_⟩
    · intro s
      constructor
      · intro h; cases h
      · intro h; have h1 := h.1; simp [sigIn, string, uint32] at h1
    · have : msgType (mem.take 0) = none := rfl
      rw [this, ha]; rfl
  rw [if_neg h0]
  have hl : n.toNat ≤ mem.length := by omega
  have hw' : n.toNat ≤ 2048 := by omega
  have hd := doMessage_eq E a hl hw'
  generalize n.toNat = len at hl hw' hd
  have none_case : (∃ e, doMessage E a mem len = some (some e, { a with lastMsgId := 0 })) →
      sigIn (mem.take len) = none → msgType (mem.take len) = none →
      ∃ r a', (match doMessage E a mem len with
        | none => none
        | some (some e, a) => some (.error e, a)
        | some (none, a) =>
          if a.lastMsgId ≠ 14 then some (.error .noKey, a)
          else if a.failure ∨ a.msg = .null ∨ a.msgSz = 0 then some (.error .noKey, { a with failure := false })
          else if a.msgSz > cap then some (.error (.lib .bufferE), a)
          else
            match a.msg with
            | .rx o => (slice mem o a.msgSz).map fun s => (.ok s, a)
            | .heap b => (slice b 0 a.msgSz).map fun s => (.ok s, a)
            | .null => none : Option (Except AErr Bytes × Ctx)) = some (r, a') ∧ Sound a' (w + 2048) ∧
      (∀ s, r = .ok s ↔ sigIn (mem.take len) = some s ∧ s ≠ [] ∧ s.length ≤ cap) ∧
      (∀ t, msgType (mem.take len) = some t → t ≠ 17 → t ≠ 18 → t ≠ 19 → a'.ids = a.ids) ∧
      (msgType (mem.take len) = none → a'.ids = a.ids) ∧
      a'.lost + lostBy a'.msg = a.lost +
        (match msgType (mem.take len) with | some t => if t ∈ known then 0 else 1 | none => 0) := by
    intro ⟨e, he⟩ h1 h2
    rw [he, h1, h2]
    refine ⟨_, _, rfl, ⟨hs.1, by have := hs.2; simp only; omega⟩, ?_, fun _ h => (by cases h), fun _ => rfl, ?_⟩
    · intro s
      constructor
      · intro h; cases h
      · intro h; cases h.1
    · simp only [ha]; rfl
  cases hst : string (mem.take len) with
  | none =>
    rw [hst] at hd
    exact none_case hd (by simp [sigIn, hst]) (by simp [msgType, hst])
  | some p =>
    obtain ⟨c, rest⟩ := p
    cases c with
    | nil =>
      rw [hst] at hd
      exact none_case hd (by simp [sigIn, hst]) (by simp [msgType, hst])
    | cons id body =>
      rw [hst] at hd
      obtain ⟨d1, d2, d3, d4⟩ := hd
      have ht : msgType (mem.take len) = some id := by simp [msgType, hst]
      have hsa : Sound { a with lastMsgId := id.toNat } w := hs
      rw [ht]
      by_cases c14 : id = 14
      · subst c14
        obtain ⟨r, a', k, e1, e2, e3, e4, e5, e6⟩ := doSignResponse_eq (a := { a with lastMsgId := (14 : UInt8).toNat })
          (base := 5) d2 d3
        have hdis : dispatch E { a with lastMsgId := (14 : UInt8).toNat } 14 (mem.drop 5) body.length 5 = some (r, a', k) := e1
        rw [hdis] at d4
        simp only [Option.map_some] at d4
        rw [d4]
        rw [← d1] at e6
        have hsig : sigIn (mem.take len) = (string body).map (·.1) := by simp [sigIn, hst]
        rw [hsig]
        cases hb : string body with
        | none =>
          rw [hb] at e6
          obtain ⟨e6, e7⟩ := e6
          cases r with
          | none => exact absurd rfl e6
          | some e =>
            simp only
            refine ⟨_, _, rfl, ?_, ?_, fun _ _ _ _ _ => e2, fun _ => e2, ?_⟩
            · rw [e7]; exact sound_mono hs (by omega)
            · intro s
              constructor
              · intro h; cases h
              · intro h; cases h.1
            · rw [e7, ha]; rfl
        | some q =>
          obtain ⟨s, tail⟩ := q
          rw [hb] at e6
          obtain ⟨e6, e7, e8, e9⟩ := e6
          subst e6
          simp only [Option.map_some]
          have h14 : ¬ (a'.lastMsgId ≠ 14) := by rw [e4]; exact fun h => h rfl
          rw [if_neg h14]
          have hsd : Sound a' (w + 2048) := by unfold Sound; rw [e2]; exact sound_mono hs (by omega)
          have hlost : lostBy a'.msg = 0 := by
            rw [e8]
            by_cases hz : s = []
            · rw [if_pos hz]; rfl
            · rw [if_neg hz]; rfl
          by_cases hz : s = []
          · subst hz
            rw [if_pos (Or.inr (Or.inl (by rw [e8, if_pos rfl])))]
            refine ⟨_, _, rfl, hsd, ?_, fun _ _ _ _ _ => e2, fun _ => e2, ?_⟩
            · intro s
              constructor
              · intro h; cases h
              · intro h
                have h1 := h.1
                simp only [Option.some.injEq] at h1
                exact absurd h1.symm h.2.1
            · simp only [e3, hlost]; rfl
          · rw [if_neg hz] at e8
            have hlen : s.length ≠ 0 := by
              intro h; exact hz (List.length_eq_zero_iff.1 h)
            have hno : ¬ (a'.failure ∨ a'.msg = .null ∨ a'.msgSz = 0) := by
              rw [e5, hf, e8, e7]; simp [hz]
            rw [if_neg (by simpa using hno)]
            rw [e7]
            by_cases hc : s.length > cap
            · rw [if_pos hc]
              refine ⟨_, _, rfl, hsd, ?_, fun _ _ _ _ _ => e2, fun _ => e2, ?_⟩
              · intro t
                constructor
                · intro h; cases h
                · intro h
                  have h1 := h.1
                  simp only [Option.some.injEq] at h1
                  subst h1
                  have := h.2.2
                  omega
              · rw [e3, hlost]; rfl
            · rw [if_neg hc, e8]
              have hsl := e9 hz
              have h9 : slice mem (5 + 4) s.length = some s := by
                have hb' := (slice_len hsl).2
                rw [List.length_drop] at hb'
                rw [slice_ok (by omega)]
                rw [slice_ok (by rw [List.length_drop]; omega), List.drop_drop] at hsl
                exact hsl
              simp only [h9, Option.map_some]
              refine ⟨_, _, rfl, hsd, ?_, fun _ _ _ _ _ => e2, fun _ => e2, ?_⟩
              · intro t
                constructor
                · intro h; cases h; exact ⟨rfl, hz, by omega⟩
                · intro h
                  have h1 := h.1
                  simp only [Option.some.injEq] at h1
                  rw [h1]
              · rw [e3, hlost]; rfl
      · obtain ⟨r, a', k, e1, ⟨k1, k2, k3⟩, e2, e3⟩ := dispatch_some hE (a := { a with lastMsgId := id.toNat }) ha hsa hn id 5 d2 d3
        rw [e1] at d4
        simp only [Option.map_some] at d4
        rw [d4]
        have hsig : sigIn (mem.take len) = none := by
          unfold sigIn
          rw [hst]
          split
          · rename_i heq
            simp only [Option.some.injEq, Prod.mk.injEq, List.cons.injEq] at heq
            exact absurd heq.1.1 c14
          · rfl
        have hnot : ∀ s, ¬ (sigIn (mem.take len) = some s ∧ s ≠ [] ∧ s.length ≤ cap) := by
          intro s h; rw [hsig] at h; cases h.1
        have fin : ∀ e : AErr, ∃ r' a'', (some (.error e, a') : Option (Except AErr Bytes × Ctx)) = some (r', a'') ∧
            Sound a'' (w + 2048) ∧
            (∀ s, r' = .ok s ↔ sigIn (mem.take len) = some s ∧ s ≠ [] ∧ s.length ≤ cap) ∧
            (∀ t, some id = some t → t ≠ 17 → t ≠ 18 → t ≠ 19 → a''.ids = a.ids) ∧
            (some id = none → a''.ids = a.ids) ∧
            a''.lost + lostBy a''.msg = a.lost +
              (match some id with | some t => if t ∈ known then 0 else 1 | none => 0) := by
          intro e
          refine ⟨_, _, rfl, k3, ?_, ?_, fun h => (by cases h), ?_⟩
          · intro s
            constructor
            · intro h; cases h
            · intro h; exact absurd h (hnot s)
          · intro t ht
            simp only [Option.some.injEq] at ht
            subst ht
            exact e2
          · rw [k2, e3]
        cases r with
        | some e => exact fin e
        | none =>
          have h14 : a'.lastMsgId ≠ 14 := by
            rw [k1]
            intro h
            exact c14 (UInt8.toNat_inj.1 h)
          simp only
          rw [if_pos h14]
          exact fin _

end Proofs.Agent
