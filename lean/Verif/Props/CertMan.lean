import Verif.Proofs.CertMan
/-!
# C140, C141: whose certificates are accepted
-/

namespace Props.CertMan
open Wolf (Bytes)
open Wolf.CertMan Spec.CertMan Proofs.CertMan

/-- C140 (partial): whatever a manager has been through, the chain that a peer sends is accepted only if it is a message of RFC
6187, its first certificate is the one given back, is valid and not revoked at the time, is signed by a certificate which is
trusted after that history and this message, is no authority, and conforms to a profile if these are demanded.

Missing: that the certificates between a root and this one are valid at the time of the check. They were at the time they came,
which may have been in another message, of another peer, long ago; see `C140_stale`. -/
theorem C140_partial (L : Lib) (signs : Bytes → Bytes → Prop) (valid : Nat → Bytes → Prop) (hS : Sound L signs valid)
    (es : List Event) (hz : ∀ a n m, Event.peer a n m ∈ es → m.length < 2 ^ 32)
    (alloc : Bool) (now : Nat) (msg : Bytes) (hw : msg.length < 2 ^ 32) (S' : List Bytes) (leaf : Bytes)
    (h : parseChainVerify L alloc now (run L es) msg msg.length = ((.success, S'), leaf)) :
    (∃ cs, Message msg (leaf :: cs)) ∧ valid now leaf ∧ NotRevoked L now leaf ∧
    (∃ s, Trusted L signs valid (es ++ [.peer alloc now msg]) s ∧ signs s leaf) ∧
    ∃ d, L.leaf S' leaf = some d ∧ d.isCA = false ∧ (L.fpki = true → Conforms d) := by
  obtain ⟨leaf', cs, d, h1, h2, h3, h4, h5, h6, h7, h8⟩ := (verify_sound hS alloc now (run L es) msg hw (es ++ [.peer alloc now msg]) (by simp)
    (fun s hs => trusted_mono (fun e he => List.mem_append_left _ he) (run_trusted hS es hz s hs))).2 (by rw [h])
  rw [h] at h2 h6
  subst h2
  exact ⟨⟨cs, h1⟩, h3, h4, h5, d, h6, h7, h8⟩

/-- C140: what a manager trusts after a history, whether chains were accepted or refused in it. -/
theorem C140_store (L : Lib) (signs : Bytes → Bytes → Prop) (valid : Nat → Bytes → Prop) (hS : Sound L signs valid)
    (es : List Event) (hz : ∀ a n m, Event.peer a n m ∈ es → m.length < 2 ^ 32) :
    ∀ c ∈ run L es, Trusted L signs valid es c := run_trusted hS es hz

/-- C140: with respect to what the manager trusts before, all that is needed of the chain is valid and not revoked at the time of
the check. In particular, this is the full claim if only the application has loaded certificates so far. -/
theorem C140_chain (L : Lib) (signs : Bytes → Bytes → Prop) (valid : Nat → Bytes → Prop) (hS : Sound L signs valid)
    (alloc : Bool) (now : Nat) (S : List Bytes) (msg : Bytes) (hw : msg.length < 2 ^ 32) (S' : List Bytes) (leaf : Bytes)
    (h : parseChainVerify L alloc now S msg msg.length = ((.success, S'), leaf)) :
    ∃ cs, Message msg (leaf :: cs) ∧ valid now leaf ∧ NotRevoked L now leaf ∧
      (∃ s, Path L signs valid now (· ∈ S) (· ∈ cs) s ∧ signs s leaf) ∧
      ∀ c ∈ S', Path L signs valid now (· ∈ S) (· ∈ cs) c := by
  rcases verify_eq L alloc now S msg hw with ⟨e, he, h'⟩ | ⟨leaf', cs, hm, hl, h'⟩
  · rw [h] at h'; injection h' with h' _; injection h' with h' _; exact absurd h'.symm he
  · rw [h] at hl h'
    subst hl
    have hw' := walk_sound hS now (Path L signs valid now (· ∈ S) (· ∈ cs)) (· ∈ cs) (fun c s hc ha hv hr hsc ht =>
      .inter c s hc ha hv hr hsc ht) (leaf :: cs).reverse S (fun c hc => by
        rw [List.reverse_cons, List.dropLast_concat] at hc
        exact List.mem_reverse.1 hc) (fun s hs => .root s hs)
    rcases h' with ⟨e, he, h'⟩ | ⟨hne, h'⟩ | ⟨hok, h'⟩
    · injection h' with h' _; exact absurd h'.symm he
    · exact absurd (congrArg Prod.fst h').symm hne
    · obtain ⟨v1, v2, v3⟩ := hw'.2 hok leaf (by simp)
      refine ⟨cs, hm, v1, v2, v3, ?_⟩
      have e := congrArg Prod.snd h'
      simp only at e
      rw [e]
      exact hw'.1

/-- C140: what is no message of RFC 6187 with one to nine certificates is refused, and changes nothing. -/
theorem C140_refused (L : Lib) (alloc : Bool) (now : Nat) (S : List Bytes) (msg : Bytes) (hw : msg.length < 2 ^ 32)
    (h : ¬ ∃ cs, Message msg cs ∧ cs.length ≤ 9) :
    ∃ e, e ≠ .success ∧ e ≠ .ub ∧ (parseChainVerify L alloc now S msg msg.length).1 = (e, S) := by
  unfold parseChainVerify
  cases hp : parseChain msg msg.length with
  | error e =>
    refine ⟨e, ?_, fun he => parse_ne_ub hw (by rw [hp, he]), rfl⟩
    rintro rfl
    revert hp
    unfold parseChain
    repeat' split
    all_goals (intro h; cases h)
  | ok ch =>
    obtain ⟨cs, hm, _, _, hcc⟩ := parse_inv hw hp
    have h9 : maxDepth < ch.count := by
      rw [hcc]
      unfold maxDepth
      exact Nat.lt_of_not_le (fun hle => h ⟨cs, hm, hle⟩)
    refine ⟨.badArgument, by decide, by decide, ?_⟩
    show verifyCerts .. = _
    unfold verifyCerts
    rw [if_neg (by unfold maxDepth at h9; omega), if_pos h9]

/-- C140: a certificate that is trusted stays so. -/
theorem C140_grows (L : Lib) (alloc : Bool) (now : Nat) (S : List Bytes) (msg : Bytes) (hw : msg.length < 2 ^ 32) :
    ∃ ext, (parseChainVerify L alloc now S msg msg.length).1.2 = S ++ ext := by
  rcases verify_eq L alloc now S msg hw with ⟨e, _, h⟩ | ⟨leaf, cs, _, _, ⟨e, _, h⟩ | ⟨_, h⟩ | ⟨_, h⟩⟩
  · rw [h]; exact ⟨[], (List.append_nil S).symm⟩
  · rw [h]; exact ⟨[], (List.append_nil S).symm⟩
  · rw [h]; exact walk_grows L now _ S
  · rw [h]; exact walk_grows L now _ S

/-- C141: if each certificate of the chain is signed by the next, up to nine, the last by one that is trusted, all are valid and
not revoked, and all but the first are authorities, then it depends on the first alone whether the chain is accepted: it must not be
an authority, and must conform to one of the profiles if these are demanded. -/
theorem C141_partial (L : Lib) (signs : Bytes → Bytes → Prop) (valid : Nat → Bytes → Prop) (hC : Complete L signs valid)
    (now : Nat) (S : List Bytes) (msg : Bytes) (hw : msg.length < 2 ^ 32) (leaf : Bytes) (cs : List Bytes) (root : Bytes)
    (hm : Message msg (leaf :: cs)) (h9 : (leaf :: cs).length ≤ 9) (hr : root ∈ S) (hl : Linked signs (leaf :: cs) root)
    (hv : ∀ c ∈ leaf :: cs, valid now c ∧ NotRevoked L now c)
    (ha : ∀ c ∈ cs, Authority L c ∧ c ≠ [] ∧ ∀ S', L.loads S' now c = true)
    (d : Leaf) (hd : ∀ S', L.leaf S' leaf = some d) (hca : d.ca ≠ none) :
    (parseChainVerify L true now S msg msg.length).2 = leaf ∧
    (((parseChainVerify L true now S msg msg.length).1.1 = .success ∧ d.isCA = false ∧ (L.fpki = true → Conforms d)) ∨
     ((parseChainVerify L true now S msg msg.length).1.1 = .profile ∧ (d.isCA = true ∨ (L.fpki = true ∧ ¬ Conforms d)))) := by
  obtain ⟨ch, hp, hh, hcc, hsp⟩ := parse_fwd hw hm
  have hwalk := walk_fwd hC now (leaf :: cs).reverse S root hr (linked_down signs root _ hl)
    (fun c hc => hv c (List.mem_reverse.1 hc)) (fun c hc => by
      rw [List.reverse_cons, List.dropLast_concat] at hc
      exact ha c (List.mem_reverse.1 hc))
  have hlc : ∀ S', (leafCheck L S' leaf = .success ∧ d.isCA = false ∧ (L.fpki = true → Conforms d)) ∨
      (leafCheck L S' leaf = .profile ∧ (d.isCA = true ∨ (L.fpki = true ∧ ¬ Conforms d))) := by
    intro S'
    unfold leafCheck
    rw [hd S']
    simp only
    cases h1 : d.isCA with
    | true => exact .inr ⟨by simp, .inl rfl⟩
    | false =>
      simp only [Bool.false_eq_true, if_false]
      cases h2 : L.fpki with
      | false => exact .inl ⟨by simp, by simp, fun h => by cases h⟩
      | true =>
        simp only [if_true]
        have hi := any_iff d hca
        cases h3 : anyProfile d with
        | none =>
          exfalso
          unfold anyProfile at h3
          obtain ⟨a, ha⟩ := check_some .six d hca
          obtain ⟨b, hb⟩ := check_some .ten d hca
          obtain ⟨c, hc⟩ := check_some .sixteen d hca
          rw [ha, hb, hc] at h3
          cases a <;> cases b <;> cases h3
        | some b =>
          rw [h3] at hi
          cases b with
          | true => exact .inl ⟨by simp, by simp, fun _ => hi.1 rfl⟩
          | false => exact .inr ⟨by simp, .inr ⟨by simp, fun hc => by cases hi.2 hc⟩⟩
  unfold parseChainVerify
  rw [hp]
  simp only
  refine ⟨by injection hh with hh; exact hh.symm, ?_⟩
  unfold verifyCerts
  rw [if_neg (by rw [hcc]; simp), if_neg (by rw [hcc]; unfold maxDepth; omega), if_neg (by decide), hsp]
  simp only
  cases h3 : walk L now S (leaf :: cs).reverse with
  | mk r S' =>
    rw [h3] at hwalk
    replace hwalk : r = .success := hwalk
    subst hwalk
    exact hlc S'

/-! ## A certificate authority in miniature

`[1]` signs `[2]`, and `[2]` signs `[3]`; `[2]` is valid until 10. -/

/-- Who signs whom. -/
def mSigns (s c : Bytes) : Prop := (s = [1] ∧ c = [2]) ∨ (s = [2] ∧ c = [3])

/-- Until when. -/
def mValid (now : Nat) (c : Bytes) : Prop := c = [2] → now ≤ 10

/-- A good leaf. -/
def mLeaf : Leaf := ⟨false, some 0x80, asc "US", [1], [2], [], asc "2.16.840.1.101.3.2.1.3.40", some (130, .utc), some [7], [7], 0, false, true,
  true, false, .sha256Rsa⟩

/-- A library for these, without OCSP. -/
def mLib (fpki : Bool) (d : Leaf) : Lib where
  verify S now c := if c = [2] ∧ [1] ∈ S then (if now ≤ 10 then .ok else .afterDate) else if c = [3] ∧ [2] ∈ S then .ok else .noSigner
  loads _ _ _ := true
  ocsp := none
  inter c := some ⟨c != [3], c == [1], some true⟩
  leaf _ _ := some d
  fpki := fpki

theorem m_sound (f : Bool) (d : Leaf) : Sound (mLib f d) mSigns mValid := by
  intro S now c h
  change (if c = [2] ∧ [1] ∈ S then (if now ≤ 10 then VRet.ok else .afterDate) else if c = [3] ∧ [2] ∈ S then .ok else .noSigner) = .ok at h
  by_cases h1 : c = [2] ∧ [1] ∈ S
  · rw [if_pos h1] at h
    by_cases h2 : now ≤ 10
    · exact ⟨⟨[1], h1.2, .inl ⟨rfl, h1.1⟩⟩, fun _ => h2⟩
    · rw [if_neg h2] at h; cases h
  · rw [if_neg h1] at h
    by_cases h2 : c = [3] ∧ [2] ∈ S
    · exact ⟨⟨[2], h2.2, .inr ⟨rfl, h2.1⟩⟩, fun e => by rw [h2.1] at e; cases e⟩
    · rw [if_neg h2] at h; cases h

theorem m_complete (f : Bool) (d : Leaf) : Complete (mLib f d) mSigns mValid := by
  intro S now c s hs h hv
  change (if c = [2] ∧ [1] ∈ S then (if now ≤ 10 then VRet.ok else .afterDate) else if c = [3] ∧ [2] ∈ S then .ok else .noSigner) = .ok
  rcases h with ⟨rfl, rfl⟩ | ⟨rfl, rfl⟩
  · rw [if_pos ⟨rfl, hs⟩, if_pos (hv rfl)]
  · rw [if_neg (fun h => by cases h.1), if_pos ⟨rfl, hs⟩]

/-- `[3]` with `[2]`. -/
def mBoth : Bytes := [0, 0, 0, 0, 0, 0, 0, 2, 0, 0, 0, 1, 3, 0, 0, 0, 1, 2, 0, 0, 0, 0]

/-- `[3]` alone. -/
def mOne : Bytes := [0, 0, 0, 0, 0, 0, 0, 1, 0, 0, 0, 1, 3, 0, 0, 0, 0]

theorem m_both : Message mBoth [[3], [2]] := ⟨[], 0, [], by decide +kernel, by decide, by decide, by decide⟩

/-- The hypotheses of `C140_partial` and `C140_chain` are met. -/
example : parseChainVerify (mLib true mLeaf) true 5 (run (mLib true mLeaf) [.load 0 [1]]) mBoth mBoth.length = ((.success, [[1], [2]]), [3]) := by
  decide +kernel

/-- Those of `C140_refused`. -/
example : ¬ ∃ cs, Message [0, 0, 0, 9] cs ∧ cs.length ≤ 9 := by
  rintro ⟨cs, hm, _⟩
  obtain ⟨ch, h, _⟩ := parse_fwd (by decide) hm
  have e : (parseChain [0, 0, 0, 9] [(0 : UInt8), 0, 0, 9].length).isOk = false := by decide +kernel
  rw [h] at e
  cases e

/-- And those of `C141_partial`. -/
example : Linked mSigns [[3], [2]] [1] ∧ (∀ c ∈ [[3], [2]], mValid 5 c ∧ NotRevoked (mLib true mLeaf) 5 c) ∧
    (∀ c ∈ [([2] : Bytes)], Authority (mLib true mLeaf) c ∧ c ≠ [] ∧ ∀ S', (mLib true mLeaf).loads S' 5 c = true) ∧ mLeaf.ca ≠ none :=
  ⟨⟨.inr ⟨rfl, rfl⟩, .inl ⟨rfl, rfl⟩⟩, fun c _ => ⟨fun _ => by decide, fun f h => by cases h⟩,
    fun c hc => by
      rw [List.mem_singleton.1 hc]
      exact ⟨⟨_, rfl, rfl, .inr (by decide)⟩, by decide, fun _ => rfl⟩, by decide⟩

/-- C140 is not true without that: at 20 there is no path any more from what the application has loaded to `[3]`, by whatever
certificates, since `[2]` is not valid any more. But `[3]` is accepted, because some peer sent `[2]` at 5. -/
theorem C140_stale : ∃ L signs valid es, Sound L signs valid ∧ Complete L signs valid ∧
    (parseChainVerify L true 20 (run L es) mOne mOne.length).1.1 = .success ∧
    (parseChainVerify L true 20 (run L es) mOne mOne.length).2 = [3] ∧
    ¬ ∃ s, Path L signs valid 20 (fun c => ∃ now, Event.load now c ∈ es) (fun _ => True) s ∧ signs s [3] := by
  refine ⟨mLib true mLeaf, mSigns, mValid, [.load 0 [1], .peer true 5 mBoth], m_sound _ _, m_complete _ _, by decide +kernel, by decide +kernel, ?_⟩
  rintro ⟨s, hp, hs⟩
  have h2 : s = [2] := by
    rcases hs with ⟨_, h⟩ | ⟨h, _⟩
    · cases h
    · exact h
  subst h2
  cases hp with
  | root _ h =>
    obtain ⟨now, h⟩ := h
    simp at h
  | inter _ s _ _ hv _ _ _ =>
    have := hv rfl
    omega

/-- C140: a chain that is refused leaves its intermediate certificates behind. Here the leaf is an authority, which is refused; the
peer that comes next need not send `[2]`. -/
theorem C140_failed : ∃ L signs valid, Sound L signs valid ∧ Complete L signs valid ∧
    (parseChainVerify L true 5 [[1]] mBoth mBoth.length).1 = (.profile, [[1], [2]]) :=
  ⟨mLib true { mLeaf with isCA := true }, mSigns, mValid, m_sound _ _, m_complete _ _, by decide +kernel⟩

/-- C141: a leaf whose signer is not found by its key identifier is compared with the name of no signer: a NULL pointer is followed.
The checks before that one do not prevent it. -/
theorem C141_null (L : Lib) (S : List Bytes) (c : Bytes) (d : Leaf) (hd : L.leaf S c = some d) (hf : L.fpki = true) (hc : d.isCA = false)
    (hn : d.ca = none) : leafCheck L S c = .ub ∨ leafCheck L S c = .profile := by
  have hne : ∀ s, checkProfile s d ≠ some true := fun s hs => by
    have := ((check_iff s d).1 hs).1.issuer
    rw [hn] at this
    cases this
  unfold leafCheck
  rw [hd]
  simp only
  rw [hc, hf]
  simp only [Bool.false_eq_true, if_false, if_true]
  cases h : anyProfile d with
  | none => exact .inl rfl
  | some b =>
    cases b with
    | false => exact .inr rfl
    | true =>
      have := (any_conforms d h).issuer
      rw [hn] at this
      cases this

/-- Both happen. -/
theorem C141_null_occurs : leafCheck (mLib true { mLeaf with ca := none }) [] [3] = .ub ∧
    leafCheck (mLib true { mLeaf with ca := none, country := asc "DE" }) [] [3] = .profile := by decide +kernel

end Props.CertMan
