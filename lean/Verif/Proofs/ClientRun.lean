import Verif.Proofs.ClientKey
/-! The server's messages as the client reads them, and whole runs of a client. -/

namespace Proofs.ClientAuth
open Wolf Wolf.Wire Wolf.NameList Wolf.OsshCert Wolf.ClientAuth Spec.Wire Spec.ClientAuth Props.Wire Proofs.Ossh
open Wolf.UserAuth (Ret queued ID_SERVICE_CONNECTION ID_USERAUTH_PASSWORD ID_USERAUTH_KEYBOARD ID_USERAUTH_PUBLICKEY)

variable {mem : Bytes} {len : Nat}

/-! ## Readers -/

theorem bool_inv {idx i : Nat} {b : Byte} (hl : len ≤ mem.length) (hw : len < 2 ^ 32) (h : getBoolean mem len idx = .ok b i) :
    i = idx + 1 ∧ i ≤ len ∧ msgFrom mem len idx = b :: msgFrom mem len i := by
  unfold getBoolean at h
  by_cases hi : idx < len
  · rw [if_pos hi] at h
    have hm : idx < mem.length := by omega
    rw [List.getElem?_eq_getElem hm] at h
    simp only [Res.ok.injEq] at h
    obtain ⟨h1, h2⟩ := h
    have : i = idx + 1 := by rw [← h2]; unfold add32; omega
    subst this
    refine ⟨rfl, by omega, ?_⟩
    unfold msgFrom
    rw [List.drop_eq_getElem_cons (by rw [List.length_take]; omega), List.getElem_take, h1]
  · rw [if_neg hi] at h; cases h

theorem bool_fwd {idx : Nat} {b : Byte} {rest : Bytes} (hl : len ≤ mem.length) (hw : len < 2 ^ 32) (h : msgFrom mem len idx = b :: rest) :
    getBoolean mem len idx = .ok b (idx + 1) ∧ msgFrom mem len (idx + 1) = rest := by
  have hlen := msgFrom_length mem len idx hl
  rw [h, List.length_cons] at hlen
  have hi : idx < len := by omega
  have hm : idx < mem.length := by omega
  have h' := h
  unfold msgFrom at h
  rw [List.drop_eq_getElem_cons (by rw [List.length_take]; omega), List.getElem_take] at h
  injection h with h1 h2
  refine ⟨?_, h2⟩
  unfold getBoolean
  rw [if_pos hi, List.getElem?_eq_getElem hm, h1]
  simp only
  congr 1
  unfold add32; omega

theorem bool_ne_ub (idx : Nat) (hl : len ≤ mem.length) : getBoolean mem len idx ≠ .ub := by
  unfold getBoolean
  by_cases hi : idx < len
  · rw [if_pos hi, List.getElem?_eq_getElem (by omega)]; simp
  · rw [if_neg hi]; simp

theorem alloc_fwd {idx : Nat} {s rest : Bytes} (hl : len ≤ mem.length) (hw : len < 2 ^ 32) (hm : msgFrom mem len idx = encString s ++ rest) :
    getStringAlloc mem len idx = .ok s (idx + 4 + s.length) ∧ msgFrom mem len (idx + 4 + s.length) = rest := by
  obtain ⟨h1, h2⟩ := str_fwd hl hw hm
  refine ⟨?_, h2⟩
  have hsl : s.length + 4 ≤ len := by
    have := congrArg List.length hm
    rw [msgFrom_length mem len idx hl, List.length_append, enc_length] at this; omega
  unfold getStringAlloc
  rw [h1]
  simp only
  rw [str_deref hl hm hw]
  simp only
  rw [if_pos (by rw [refAt_sz]; unfold add32; omega)]

theorem alloc_inv {idx i : Nat} {s : Bytes} (hl : len ≤ mem.length) (hw : len < 2 ^ 32) (h : getStringAlloc mem len idx = .ok s i) :
    i = idx + 4 + s.length ∧ i ≤ len ∧ msgFrom mem len idx = encString s ++ msgFrom mem len i := by
  cases h1 : getStringRef mem len idx with
  | ub => unfold getStringAlloc at h; rw [h1] at h; cases h
  | err e j => unfold getStringAlloc at h; rw [h1] at h; cases h
  | ok r j =>
    obtain ⟨s', hr, hj, hjl, _, hm⟩ := str_inv hl hw h1
    have := (alloc_fwd hl hw hm).1
    rw [this] at h
    injection h with e1 e2
    subst e1
    exact ⟨e2.symm, by omega, by rw [hm, ← e2, hj]⟩

theorem alloc_ne_ub (idx : Nat) (hl : len ≤ mem.length) (hw : len < 2 ^ 32) : getStringAlloc mem len idx ≠ .ub := by
  cases h1 : getStringRef mem len idx with
  | ub => exact absurd h1 (str_ne_ub idx hl hw)
  | err e j => unfold getStringAlloc; rw [h1]; simp
  | ok r j =>
    obtain ⟨s', hr, hj, hjl, _, hm⟩ := str_inv hl hw h1
    rw [(alloc_fwd hl hw hm).1]; simp

/-! ## Prompts -/

def promptsMsg (ps : List (Bytes × Byte)) : Bytes := ps.flatMap fun p => encString p.1 ++ [p.2]

theorem promptsMsg_cons (p : Bytes × Byte) (ps : List (Bytes × Byte)) : promptsMsg (p :: ps) = encString p.1 ++ (p.2 :: promptsMsg ps) := by
  simp [promptsMsg]

theorem prompts_ne_ub (hl : len ≤ mem.length) (hw : len < 2 ^ 32) (n : Nat) : ∀ idx, getPrompts mem len n idx ≠ .ub := by
  induction n with
  | zero => intro idx; simp [getPrompts]
  | succ n ih =>
    intro idx h
    unfold getPrompts at h
    rcases andThen_ub.1 h with h | ⟨v, i, _, h⟩
    · exact alloc_ne_ub idx hl hw h
    rcases andThen_ub.1 h with h | ⟨v, i, _, h⟩
    · exact bool_ne_ub _ hl h
    rcases andThen_ub.1 h with h | ⟨v, i, _, h⟩
    · exact ih _ h
    · cases h

theorem prompts_inv (hl : len ≤ mem.length) (hw : len < 2 ^ 32) (n : Nat) : ∀ idx q i, getPrompts mem len n idx = .ok q i →
    ∃ ps, ps.length = n ∧ q = ps.map (fun p => (cut p.1, p.2)) ∧ msgFrom mem len idx = promptsMsg ps ++ msgFrom mem len i := by
  induction n with
  | zero =>
    intro idx q i h
    unfold getPrompts at h
    injection h with h1 h2
    subst h1; subst h2
    exact ⟨[], rfl, rfl, rfl⟩
  | succ n ih =>
    intro idx q i h
    unfold getPrompts at h
    obtain ⟨p, i1, h1, h⟩ := andThen_ok.1 h
    obtain ⟨e, i2, h2, h⟩ := andThen_ok.1 h
    obtain ⟨q', i3, h3, h⟩ := andThen_ok.1 h
    injection h with h4 h5
    subst h4; subst h5
    obtain ⟨_, _, m1⟩ := alloc_inv hl hw h1
    obtain ⟨_, _, m2⟩ := bool_inv hl hw h2
    obtain ⟨ps, hn, hq, m3⟩ := ih _ _ _ h3
    refine ⟨(p, e) :: ps, by simp [hn], by simp [hq, cstr, cut], ?_⟩
    rw [m1, m2, m3, promptsMsg_cons]; simp

theorem prompts_fwd (hl : len ≤ mem.length) (hw : len < 2 ^ 32) (ps : List (Bytes × Byte)) : ∀ idx rest,
    msgFrom mem len idx = promptsMsg ps ++ rest → ∃ i, getPrompts mem len ps.length idx = .ok (ps.map fun p => (cut p.1, p.2)) i := by
  induction ps with
  | nil => intro idx rest h; exact ⟨idx, rfl⟩
  | cons p ps ih =>
    intro idx rest h
    rw [promptsMsg_cons, List.append_assoc] at h
    obtain ⟨a1, m1⟩ := alloc_fwd hl hw h
    obtain ⟨a2, m2⟩ := bool_fwd hl hw m1
    obtain ⟨i, a3⟩ := ih _ _ m2
    refine ⟨i, ?_⟩
    show getPrompts mem len (ps.length + 1) idx = _
    unfold getPrompts
    rw [andThen_of_ok a1, andThen_of_ok a2, andThen_of_ok a3]
    rfl

theorem info_ne_ub (hl : len ≤ mem.length) (hw : len < 2 ^ 32) : getInfo mem len ≠ .ub := by
  intro h
  unfold getInfo at h
  rcases andThen_ub.1 h with h | ⟨v, i, _, h⟩
  · exact alloc_ne_ub _ hl hw h
  rcases andThen_ub.1 h with h | ⟨v, i, _, h⟩
  · exact alloc_ne_ub _ hl hw h
  rcases andThen_ub.1 h with h | ⟨v, i, _, h⟩
  · exact alloc_ne_ub _ hl hw h
  rcases andThen_ub.1 h with h | ⟨v, i, _, h⟩
  · exact u32_ne_ub _ hl hw h
  split at h
  · cases h
  rcases andThen_ub.1 h with h | ⟨v, i, _, h⟩
  · exact prompts_ne_ub hl hw _ _ h
  · cases h

theorem info_inv (hl : len ≤ mem.length) (hw : len < 2 ^ 32) {p : ClientAuth.Shown} {i : Nat} (h : getInfo mem len = .ok p i) :
    ∃ n t l ps rest, mem.take len = infoRequest n t l ps ++ rest ∧ p = shown n t l ps ∧ ps.length ≤ 64 := by
  unfold getInfo at h
  obtain ⟨n, i1, h1, h⟩ := andThen_ok.1 h
  obtain ⟨t, i2, h2, h⟩ := andThen_ok.1 h
  obtain ⟨l, i3, h3, h⟩ := andThen_ok.1 h
  obtain ⟨k, i4, h4, h⟩ := andThen_ok.1 h
  by_cases hk : k > UserAuth.MAX_PROMPTS
  · rw [if_pos hk] at h; cases h
  rw [if_neg hk] at h
  obtain ⟨q, i5, h5, h⟩ := andThen_ok.1 h
  injection h with h6 h7
  subst h6
  obtain ⟨_, _, m1⟩ := alloc_inv hl hw h1
  obtain ⟨_, _, m2⟩ := alloc_inv hl hw h2
  obtain ⟨_, _, m3⟩ := alloc_inv hl hw h3
  obtain ⟨_, _, _, m4⟩ := u32_inv hl hw h4
  obtain ⟨ps, hn, hq, m5⟩ := prompts_inv hl hw _ _ _ _ h5
  refine ⟨n, t, l, ps, msgFrom mem len i5, ?_, ?_, ?_⟩
  · show msgFrom mem len 0 = _
    rw [m1, m2, m3, m4, m5, infoRequest, hn]
    simp [promptsMsg]
  · rw [hq]; rfl
  · rw [hn]; unfold UserAuth.MAX_PROMPTS at hk; omega

theorem info_fwd (hl : len ≤ mem.length) (hw : len < 2 ^ 32) {n t l : Bytes} {ps : List (Bytes × Byte)} {rest : Bytes}
    (hm : mem.take len = infoRequest n t l ps ++ rest) (hps : ps.length ≤ 64) : ∃ i, getInfo mem len = .ok (shown n t l ps) i := by
  have hm0 : msgFrom mem len 0 = encString n ++ (encString t ++ (encString l ++ (encUint32 ps.length ++ (promptsMsg ps ++ rest)))) := by
    show mem.take len = _
    rw [hm, infoRequest]; simp [promptsMsg]
  obtain ⟨a1, m1⟩ := alloc_fwd hl hw hm0
  obtain ⟨a2, m2⟩ := alloc_fwd hl hw m1
  obtain ⟨a3, m3⟩ := alloc_fwd hl hw m2
  obtain ⟨a4, m4⟩ := u32_fwd hl hw (by omega) m3
  obtain ⟨i, a5⟩ := prompts_fwd hl hw ps _ _ m4
  refine ⟨i, ?_⟩
  unfold getInfo
  rw [andThen_of_ok a1, andThen_of_ok a2, andThen_of_ok a3, andThen_of_ok a4, if_neg (by unfold UserAuth.MAX_PROMPTS; omega),
    andThen_of_ok a5]
  rfl

/-! ## The list of methods -/

theorem keep_mem {l : List Nat} {x : Nat} (hx : x ≠ ID_UNKNOWN) : x ∈ keep l ↔ x ∈ l := by
  cases l with
  | nil => rfl
  | cons y l =>
    simp only [keep, List.mem_cons, List.mem_filter]
    constructor
    · rintro (h | ⟨h, _⟩)
      · exact .inl h
      · exact .inr h
    · rintro (h | h)
      · exact .inl h
      · exact .inr ⟨h, by simpa using hx⟩

theorem typesOf_password (n : Nat) (ids : List Nat) : (typesOf n ids).password = true ↔ ID_USERAUTH_PASSWORD ∈ ids := by
  induction ids with
  | nil => simp [typesOf]
  | cons x l ih =>
    unfold typesOf
    simp only [List.mem_cons]
    by_cases h1 : x = ID_USERAUTH_PASSWORD
    · rw [if_pos h1]; simp [h1]
    · rw [if_neg h1]
      have h1' : ¬ ID_USERAUTH_PASSWORD = x := fun h => h1 h.symm
      simp only [h1', false_or]
      by_cases h2 : x = ID_USERAUTH_KEYBOARD
      · rw [if_pos h2]
        by_cases h3 : n < 3
        · rw [if_pos h3]; exact ih
        · rw [if_neg h3]; exact ih
      · rw [if_neg h2]
        by_cases h4 : x = ID_USERAUTH_PUBLICKEY
        · rw [if_pos h4]; exact ih
        · rw [if_neg h4]; exact ih

theorem typesOf_publicKey (n : Nat) (ids : List Nat) : (typesOf n ids).publicKey = true ↔ ID_USERAUTH_PUBLICKEY ∈ ids := by
  induction ids with
  | nil => simp [typesOf]
  | cons x l ih =>
    unfold typesOf
    simp only [List.mem_cons]
    by_cases h1 : x = ID_USERAUTH_PASSWORD
    · rw [if_pos h1]
      have : ¬ ID_USERAUTH_PUBLICKEY = x := by rw [h1]; decide
      simp only [this, false_or]; exact ih
    · rw [if_neg h1]
      by_cases h2 : x = ID_USERAUTH_KEYBOARD
      · rw [if_pos h2]
        have : ¬ ID_USERAUTH_PUBLICKEY = x := by rw [h2]; decide
        simp only [this, false_or]
        by_cases h3 : n < 3
        · rw [if_pos h3]; exact ih
        · rw [if_neg h3]; exact ih
      · rw [if_neg h2]
        by_cases h4 : x = ID_USERAUTH_PUBLICKEY
        · rw [if_pos h4]; simp [h4]
        · rw [if_neg h4]
          have : ¬ ID_USERAUTH_PUBLICKEY = x := fun h => h4 h.symm
          simp only [this, false_or]; exact ih

theorem typesOf_keyboard (n : Nat) (ids : List Nat) : (typesOf n ids).keyboard = true ↔ n < 3 ∧ ID_USERAUTH_KEYBOARD ∈ ids := by
  induction ids with
  | nil => simp [typesOf]
  | cons x l ih =>
    unfold typesOf
    simp only [List.mem_cons]
    by_cases h1 : x = ID_USERAUTH_PASSWORD
    · rw [if_pos h1]
      have : ¬ ID_USERAUTH_KEYBOARD = x := by rw [h1]; decide
      simp only [this, false_or]; exact ih
    · rw [if_neg h1]
      by_cases h2 : x = ID_USERAUTH_KEYBOARD
      · rw [if_pos h2]
        by_cases h3 : n < 3
        · rw [if_pos h3]; simp [h2, h3]
        · rw [if_neg h3, ih]; simp [h3]
      · rw [if_neg h2]
        have : ¬ ID_USERAUTH_KEYBOARD = x := fun h => h2 h.symm
        simp only [this, false_or]
        by_cases h4 : x = ID_USERAUTH_PUBLICKEY
        · rw [if_pos h4]; exact ih
        · rw [if_neg h4]; exact ih

/-- The identifiers of a list of names. -/
theorem ids_mem {l : Bytes} {x : Nat} {name : Bytes} (hx : x ≠ ID_UNKNOWN) (h1 : ∀ n, nameToId table n = x ↔ n = name) :
    x ∈ keep ((Spec.NameList.names l).map (nameToId table)) ↔ name ∈ Spec.NameList.names l := by
  rw [keep_mem hx, List.mem_map]
  constructor
  · rintro ⟨n, hn, he⟩; rw [(h1 n).1 he] at hn; exact hn
  · intro h; exact ⟨name, h, (h1 name).2 rfl⟩

theorem nameList_inv (hl : len ≤ mem.length) (hw : len < 2 ^ 32) {cap i : Nat} {ids : List Nat} (h : getNameList table cap mem len 0 = .ok ids i) :
    ∃ l, mem.take len = encString l ++ msgFrom mem len i ∧ ids = keep ((Spec.NameList.names l).map (nameToId table)) := by
  unfold getNameList at h
  by_cases h0 : len = 0
  · rw [if_pos h0] at h; cases h
  rw [if_neg h0] at h
  cases h1 : getStringRef mem len 0 with
  | ub => rw [h1] at h; cases h
  | err e j => rw [h1] at h; cases h
  | ok r j =>
    obtain ⟨l, hr, hj, hjl, _, hm⟩ := str_inv hl hw h1
    rw [h1] at h
    simp only at h
    rw [hr, str_deref hl hm hw] at h
    simp only [refAt_sz, getNameListRaw_eq] at h
    by_cases hc : l.length ≤ MAX_NAMELIST_SZ ∧ (Spec.NameList.names l).length ≤ MAX_NAMELIST_CNT ∧
         (keep ((Spec.NameList.names l).map (nameToId table))).length ≤ cap
    · rw [if_pos hc] at h
      injection h with e1 e2
      exact ⟨l, by rw [← e2]; exact hm, e1.symm⟩
    · rw [if_neg hc] at h; cases h

theorem nameList_ne_ub (hl : len ≤ mem.length) (hw : len < 2 ^ 32) (cap : Nat) : getNameList table cap mem len 0 ≠ .ub := by
  unfold getNameList
  by_cases h0 : len = 0
  · rw [if_pos h0]; simp
  rw [if_neg h0]
  cases h1 : getStringRef mem len 0 with
  | ub => exact absurd h1 (str_ne_ub 0 hl hw)
  | err e j => simp
  | ok r j =>
    obtain ⟨l, hr, hj, hjl, _, hm⟩ := str_inv hl hw h1
    simp only
    rw [hr, str_deref hl hm hw]
    simp only [refAt_sz, getNameListRaw_eq]
    by_cases hc : l.length ≤ MAX_NAMELIST_SZ ∧ (Spec.NameList.names l).length ≤ MAX_NAMELIST_CNT ∧
         (keep ((Spec.NameList.names l).map (nameToId table))).length ≤ cap
    · rw [if_pos hc]; simp
    · rw [if_neg hc]; simp

/-- The methods a failure message offers, as the client takes them. -/
structure Offers (mem : Bytes) (len : Nat) (attempts : Nat) (t : Types) : Prop where
  ex : ∃ l rest, mem.take len = encString l ++ rest ∧ (t.password = true ↔ text "password" ∈ Spec.NameList.names l) ∧
    (t.publicKey = true ↔ text "publickey" ∈ Spec.NameList.names l) ∧
    (t.keyboard = true ↔ attempts < 3 ∧ text "keyboard-interactive" ∈ Spec.NameList.names l)

theorem failure_spec (hl : len ≤ mem.length) (hw : len < 2 ^ 32) (E : Env) (s : Cl) :
    (∃ e, doUserAuthFailure E s mem len = some (some e, s)) ∨
    ∃ t, Offers mem len s.kbAttempts t ∧ t ≠ {} ∧ doUserAuthFailure E s mem len = some (sendUserAuthRequest E s t) := by
  unfold doUserAuthFailure
  by_cases h0 : len = 0
  · rw [if_pos h0]; exact .inl ⟨_, rfl⟩
  rw [if_neg h0]
  cases h1 : getNameList table 4 mem len 0 with
  | ub => exact absurd h1 (nameList_ne_ub hl hw 4)
  | err e i => exact .inl ⟨_, rfl⟩
  | ok ids i =>
    obtain ⟨l, hm, hids⟩ := nameList_inv hl hw h1
    simp only
    cases h2 : getBoolean mem len i with
    | ub => exact absurd h2 (bool_ne_ub _ hl)
    | err e j => exact .inl ⟨_, rfl⟩
    | ok b j =>
      simp only
      by_cases ht : typesOf s.kbAttempts ids = {}
      · rw [if_pos ht]; exact .inl ⟨_, rfl⟩
      · rw [if_neg ht]
        refine .inr ⟨_, ⟨l, _, hm, ?_, ?_, ?_⟩, ht, rfl⟩
        · rw [typesOf_password, hids]; exact ids_mem (by decide) id_password
        · rw [typesOf_publicKey, hids]; exact ids_mem (by decide) id_publickey
        · rw [typesOf_keyboard, hids, ids_mem (by decide) id_keyboard]

/-! ## The server's signature algorithms -/

theorem sigAlgs_spec (s : Cl) (l : Bytes) : (∃ e, doServerSigAlgs s l = some (some e, s)) ∨
    ∃ p, doServerSigAlgs s l = some (none, { s with peerSigId := p }) ∧ Known p (Spec.NameList.names l) := by
  unfold doServerSigAlgs
  rw [getNameListRaw_eq]
  by_cases hc : l.length ≤ MAX_NAMELIST_SZ ∧ (Spec.NameList.names l).length ≤ MAX_NAMELIST_CNT ∧
         (keep ((Spec.NameList.names l).map (nameToId table))).length ≤ MAX_NAMELIST_CNT
  · rw [if_pos hc]
    simp only
    by_cases h0 : (keep ((Spec.NameList.names l).map (nameToId table))).length = 0
    · rw [if_pos h0]
      exact .inr ⟨[], rfl, .inl (List.eq_nil_of_length_eq_zero h0).symm⟩
    rw [if_neg h0]
    by_cases hm : matchIdLists .client (keep ((Spec.NameList.names l).map (nameToId table))) cannedKeyAlgoClient = ID_UNKNOWN
    · rw [if_pos hm]
      refine .inr ⟨[], rfl, .inr ⟨rfl, ?_⟩⟩
      intro n hn hcn
      rw [match_client _ _ (fun h => h0 (by rw [h]; rfl))] at hm
      have hne : nameToId table n ≠ ID_UNKNOWN := by
        have : ∀ x ∈ cannedKeyAlgoClient, x ≠ ID_UNKNOWN := by decide
        exact this _ hcn
      have hin : nameToId table n ∈ keep ((Spec.NameList.names l).map (nameToId table)) :=
        (keep_mem hne).2 (List.mem_map_of_mem hn)
      cases hf : cannedKeyAlgoClient.find? fun x => (keep ((Spec.NameList.names l).map (nameToId table))).contains x with
      | none =>
        rw [List.find?_eq_none] at hf
        exact hf _ hcn (by simpa using hin)
      | some y =>
        rw [hf] at hm
        have : ∀ x ∈ cannedKeyAlgoClient, x ≠ ID_UNKNOWN := by decide
        exact this y (List.mem_of_find?_eq_some hf) hm
    · rw [if_neg hm]
      exact .inr ⟨_, rfl, .inl rfl⟩
  · rw [if_neg hc]; exact .inl ⟨_, rfl⟩

theorem extLoop_spec (hl : len ≤ mem.length) (hw : len < 2 ^ 32) (n : Nat) : ∀ (s : Cl) (idx : Nat),
    ∃ r p, ClientAuth.extLoop s mem len n idx = some (r, { s with peerSigId := p }) ∧
      (p = s.peerSigId ∨ ∃ l, Announces mem len l ∧ Known p (Spec.NameList.names l)) := by
  induction n with
  | zero => intro s idx; exact ⟨none, s.peerSigId, rfl, .inl rfl⟩
  | succ n ih =>
    intro s idx
    unfold ClientAuth.extLoop
    cases h1 : getStringRef mem len idx with
    | ub => exact absurd h1 (str_ne_ub idx hl hw)
    | err e j => exact ⟨some e, s.peerSigId, rfl, .inl rfl⟩
    | ok r j =>
      obtain ⟨name, hr, hj, hjl, _, hm⟩ := str_inv hl hw h1
      simp only
      cases h2 : getStringRef mem len j with
      | ub => exact absurd h2 (str_ne_ub j hl hw)
      | err e j => exact ⟨some e, s.peerSigId, rfl, .inl rfl⟩
      | ok r2 j2 =>
        obtain ⟨value, hr2, hj2, hjl2, _, hm2⟩ := str_inv hl hw h2
        simp only
        rw [hr, hr2, str_deref hl hm hw, str_deref hl hm2 hw]
        simp only
        by_cases hn : nameToId table name = ID_EXTINFO_SERVER_SIG_ALGS
        · rw [if_pos hn]
          have hname : name = text "server-sig-algs" :=
            (nameToId_one (id := ID_EXTINFO_SERVER_SIG_ALGS) (by decide) (by decide +kernel) id_sigalgs name).1 hn
          have hann : Announces mem len value := by
            refine ⟨(mem.take len).take idx, msgFrom mem len j2, ?_⟩
            rw [← hname, List.append_assoc, List.append_assoc, ← hm2, ← hm]
            exact List.take_append_drop idx (mem.take len)
          rcases sigAlgs_spec s value with ⟨e, he⟩ | ⟨p, he, hp⟩
          · rw [he]; exact ⟨some e, s.peerSigId, rfl, .inl rfl⟩
          · rw [he]
            simp only
            obtain ⟨r, p', h3, h4⟩ := ih { s with peerSigId := p } j2
            refine ⟨r, p', h3, .inr ?_⟩
            rcases h4 with h4 | h4
            · rw [h4]; exact ⟨value, hann, hp⟩
            · exact h4
        · rw [if_neg hn]; exact ih s j2

theorem ext_spec (hl : len ≤ mem.length) (hw : len < 2 ^ 32) (s : Cl) :
    ∃ r p, doExtInfo s mem len = some (r, { s with peerSigId := p }) ∧
      (p = s.peerSigId ∨ ∃ l, Announces mem len l ∧ Known p (Spec.NameList.names l)) := by
  unfold doExtInfo
  cases h1 : getUint32 mem len 0 with
  | ub => exact absurd h1 (u32_ne_ub 0 hl hw)
  | err e j => exact ⟨some e, s.peerSigId, rfl, .inl rfl⟩
  | ok n i => exact extLoop_spec hl hw n s i

/-- The plain message. -/
theorem ext_fwd (hl : len ≤ mem.length) (hw : len < 2 ^ 32) (s : Cl) (l : Bytes) (hm : mem.take len = sigAlgs l)
    (hsz : l.length ≤ 4096) (hcnt : (Spec.NameList.names l).length ≤ 64) :
    ∃ p, doExtInfo s mem len = some (none, { s with peerSigId := p }) ∧ Known p (Spec.NameList.names l) := by
  have hm0 : msgFrom mem len 0 = encUint32 1 ++ (encString (text "server-sig-algs") ++ (encString l ++ [])) := by
    show mem.take len = _
    rw [hm, sigAlgs]; simp
  obtain ⟨a1, m1⟩ := u32_fwd hl hw (by omega) hm0
  obtain ⟨a2, m2⟩ := str_fwd hl hw m1
  obtain ⟨a3, m3⟩ := str_fwd hl hw m2
  unfold doExtInfo
  rw [a1]
  simp only
  unfold ClientAuth.extLoop
  rw [a2]
  simp only
  rw [a3]
  simp only
  rw [str_deref hl m1 hw, str_deref hl m2 hw]
  simp only
  rw [if_pos id_sigalgs]
  have hk : (keep ((Spec.NameList.names l).map (nameToId table))).length ≤ 64 := by
    have : ∀ ids : List Nat, (keep ids).length ≤ ids.length := by
      intro ids
      cases ids with
      | nil => exact Nat.le_refl _
      | cons x xs =>
        have := List.length_filter_le (fun i => decide (i ≠ ID_UNKNOWN)) xs
        simp only [keep, List.length_cons]; omega
    have := this ((Spec.NameList.names l).map (nameToId table))
    rw [List.length_map] at this; omega
  rcases sigAlgs_spec s l with ⟨e, he⟩ | ⟨p, he, hp⟩
  · exfalso
    unfold doServerSigAlgs at he
    rw [getNameListRaw_eq, if_pos ⟨hsz, hcnt, hk⟩] at he
    simp only at he
    split at he
    · cases he
    · split at he <;> cases he
  · rw [he]
    exact ⟨p, rfl, hp⟩

/-! ## A step -/

theorem method_request (user : Bytes) (name : String) (b : Bytes) (hu : user.length < 2 ^ 32) (hn : (text name).length < 2 ^ 32) :
    method (request user name b) = some (text name) := by
  have e : request user name b = 50 :: (encString user ++ (encString (text "ssh-connection") ++ (encString (text name) ++ b))) := by
    simp [request]
  rw [e]
  unfold method
  simp only
  rw [string_enc _ _ hu]
  simp only
  rw [string_enc _ _ (by decide)]
  simp only
  rw [string_enc _ _ hn]
  rfl

/-- The limits a client keeps. -/
structure Limits (s : Cl) : Prop where
  key : requests "publickey" s.log ≤ if s.pkDone then 1 else 0
  kb : requests "keyboard-interactive" s.log ≤ s.kbAttempts
  att : s.kbAttempts ≤ 3

theorem requests_append (n : String) (a b : List Ev) : requests n (a ++ b) = requests n a + requests n b := by
  simp [requests]

theorem requests_sent (n : String) (est : Nat) (p : Bytes) : requests n [.sent est p] = if method p = some (text n) then 1 else 0 := by
  unfold requests
  by_cases h : method p = some (text n)
  · rw [if_pos h]; simp [h]
  · rw [if_neg h]; simp [h]

theorem asked_requests {E : Env} {t : Types} {l : List Ev} (h : Asked E t l) (n : String) : requests n l = 0 := by
  unfold requests
  rw [List.length_eq_zero_iff, List.filter_eq_nil_iff]
  intro e he
  rcases (h e he).2.2 with ⟨rfl, -⟩ | ⟨rfl, -⟩ <;> simp

theorem asked_sent {E : Env} {t : Types} {l : List Ev} (h : Asked E t l) {est : Nat} {p : Bytes} (hm : Ev.sent est p ∈ l) : False := by
  rcases (h _ hm).2.2 with ⟨h, -⟩ | ⟨h, -⟩ <;> cases h

/-- A request keeps the limits. -/
theorem send_limits (E : Env) (s : Cl) (t : Types) (hu : s.userName.length < 2 ^ 32) (hs : Limits s)
    (ht : t.keyboard = true → s.kbAttempts < 3) : Limits (sendUserAuthRequest E s t).2 := by
  obtain ⟨asked, ha, haf, hpk, hc⟩ := send_spec E s t
  have hk := hs.key
  have hb := hs.kb
  have hat := hs.att
  have h0 := asked_requests ha
  have hmono : (if s.pkDone = true then 1 else 0) ≤ if (sendUserAuthRequest E s t).2.pkDone = true then 1 else 0 := by
    by_cases hd : s.pkDone = true
    · rw [if_pos hd, if_pos (hpk hd)]; omega
    · rw [if_neg hd]; omega
  rcases hc with ⟨hlog, hkb⟩ | ⟨m, est, p, hlog, hm, hkb, hd⟩
  · refine ⟨?_, ?_, ?_⟩
    · rw [hlog, requests_append, h0]; omega
    · rw [hlog, requests_append, h0]
      rcases hkb with h | ⟨h1, h⟩
      · rw [h]; exact hb
      · have := ht h1; rw [h]; omega
    · rcases hkb with h | ⟨h1, h⟩
      · rw [h]; exact hat
      · have := ht h1; rw [h]; omega
  · have hme : method p = some (text (nameOf m)) := by
      cases hm
      · exact method_request _ _ _ hu (by decide)
      · exact method_request _ _ _ hu (by decide)
      · exact method_request _ _ _ hu (by decide)
      · exact method_request _ _ _ hu (by decide)
    have htk : ∀ t' : Method, m = t' → (match t' with | .keyboard => t.keyboard = true | _ => True) := by
      rintro t' rfl
      cases hm with
      | keyboard h => cases h; assumption
      | _ => trivial
    refine ⟨?_, ?_, ?_⟩
    · rw [hlog, requests_append, requests_append, h0, requests_sent, hme]
      cases m with
      | publicKey o =>
        simp only at hd
        rw [hd.1] at hk
        rw [hd.2]
        simp only [nameOf, if_true]
        simp at hk; omega
      | none => rw [if_neg (by simp only [nameOf, Option.some.injEq]; decide)]; omega
      | keyboard => rw [if_neg (by simp only [nameOf, Option.some.injEq]; decide)]; omega
      | password pw => rw [if_neg (by simp only [nameOf, Option.some.injEq]; decide)]; omega
    · rw [hlog, requests_append, requests_append, h0, requests_sent, hme]
      cases m with
      | keyboard =>
        have := ht (htk .keyboard rfl)
        simp only at hkb
        rw [hkb]
        simp only [nameOf, if_true]; omega
      | none => simp only at hkb; rw [hkb, if_neg (by simp only [nameOf, Option.some.injEq]; decide)]; omega
      | publicKey o => simp only at hkb; rw [hkb, if_neg (by simp only [nameOf, Option.some.injEq]; decide)]; omega
      | password pw => simp only at hkb; rw [hkb, if_neg (by simp only [nameOf, Option.some.injEq]; decide)]; omega
    · cases m with
      | keyboard =>
        have := ht (htk .keyboard rfl)
        simp only at hkb
        rw [hkb]; omega
      | none => simp only at hkb; rw [hkb]; omega
      | publicKey o => simp only at hkb; rw [hkb]; omega
      | password pw => simp only at hkb; rw [hkb]; omega

theorem request_length (user : Bytes) (name : String) (b : Bytes) :
    (request user name b).length = 1 + 4 * 3 + user.length + (text "ssh-connection").length + (text name).length + b.length := by
  simp only [request, List.length_append, enc_length, List.length_cons, List.length_nil]; omega

theorem choice_len {kt : Bytes} {algs : List Bytes} {x : Bytes × Bytes} (h : choice kt algs = some x) : kt.length ≤ 50 := by
  unfold choice at h
  by_cases h1 : kt = text "ssh-rsa"
  · rw [h1]; decide
  rw [if_neg h1] at h
  have hl : ∀ k ∈ rsaCerts, k.length ≤ 50 := by decide
  by_cases h2 : kt ∈ rsaCerts
  · exact hl _ h2
  rw [if_neg h2] at h
  have hl : ∀ k ∈ plain, k.length ≤ 50 := by decide
  by_cases h3 : kt ∈ plain
  · exact hl _ h3
  rw [if_neg h3] at h
  have hl : ∀ k ∈ plain, (certOf k).length ≤ 50 := by decide
  cases hf : plain.find? fun t => certOf t = kt with
  | none => rw [hf] at h; cases h
  | some t =>
    have h4 := List.find?_some hf
    simp only [decide_eq_true_eq] at h4
    rw [← h4]; exact hl _ (List.mem_of_find?_eq_some hf)

/-- The size said to the packet layer. -/
theorem sends_fits {E : Env} {s : Cl} {t : Types} {m : Method} {est : Nat} {p : Bytes} (h : Sends E s t m est p)
    (ho : ∀ o, E.key = some o → Honest o) {algs : List Bytes} (hk : Known s.peerSigId algs) (hp : p.length + 30000 < 2 ^ 32) :
    p.length ≤ est + 8 := by
  cases h with
  | none h => 
    rw [noneRequest, request_length] at hp ⊢
    simp only [headSz, nameOf, List.length_nil] at hp ⊢; omega
  | keyboard h =>
    have e : (encString ([] : Bytes) ++ encString []).length = 8 := rfl
    rw [keyboardRequest, request_length, e] at hp ⊢
    simp only [headSz, nameOf] at hp ⊢; omega
  | password h h2 =>
    rw [passwordRequest, request_length] at hp ⊢
    simp only [List.length_append, enc_length, List.length_cons, List.length_nil] at hp ⊢
    unfold preparePassword at h2
    split at h2
    · cases h2
    · cases h2
      simp only [headSz, nameOf] at hp ⊢; omega
  | @key o _ _ _ h hd h2 h3 =>
    obtain ⟨alg, sn, sig, h4, _, _, h5⟩ := key_sent hk h2 h3
    have := choice_len h4
    cases h with
    | key _ _ _ hkey _ =>
      have h6 := h5 (ho _ hkey)
      rw [request_length] at hp ⊢
      have : headSz s (.publicKey o) = 1 + 4 * 3 + s.userName.length + (text "ssh-connection").length + (text "publickey").length :=
        Nat.mod_eq_of_lt (by simp only [nameOf]; omega)
      rw [this] at h6
      have := h6 (by omega)
      omega

theorem strs_length (rs : List Bytes) : (strs rs).length = strsSz rs := by
  induction rs with
  | nil => rfl
  | cons r rs ih => simp only [strs, str_eq, strsSz, List.length_append, enc_length, ih]; omega

/-- What a step does. -/
structure Stepped (E : Env) (s : Cl) (i : In) (s' : Cl) (new : List Ev) : Prop where
  log : s'.log = s.log ++ new
  user : s'.userName = s.userName
  sid : s'.sessionId = s.sessionId
  why : ∀ algs, Known s.peerSigId algs → ∀ est p, Ev.sent est p ∈ new → Reason E s.userName s.sessionId algs i p
  asked : ∀ e ∈ new, (∃ est p, e = .sent est p) ∨ Question E i e
  peer : s'.peerSigId = s.peerSigId ∨ ∃ mem len l, i = .ext mem len ∧ Announces mem len l ∧ Known s'.peerSigId (Spec.NameList.names l)
  limits : s.userName.length < 2 ^ 32 → Limits s → Limits s'
  fits : (∀ o, E.key = some o → Honest o) → ∀ algs, Known s.peerSigId algs → ∀ est p, Ev.sent est p ∈ new → p.length + 30000 < 2 ^ 32 →
    p.length ≤ est + 8

theorem strs_eq (rs : List Bytes) : strs rs = rs.flatMap encString := by
  induction rs with
  | nil => rfl
  | cons r rs ih => simp [strs, ih, str_eq]

theorem response_eq (rs : List Bytes) : [61] ++ c32toa rs.length ++ strs rs = infoResponse rs := by
  rw [strs_eq, c32toa_eq]; rfl

theorem refl_step (E : Env) (s : Cl) (i : In) : Stepped E s i s [] :=
  ⟨by simp, rfl, rfl, by simp, by simp, .inl rfl, fun _ h => h, by simp⟩

theorem step_start (E : Env) (s : Cl) : ∃ new, Stepped E s .start (sendUserAuthRequest E s {}).2 new := by
  obtain ⟨asked, ha, haf, hpk, hc⟩ := send_spec E s {}
  have ha0 : asked = [] := by
    cases asked with
    | nil => rfl
    | cons e l =>
      rcases (ha e List.mem_cons_self).2.2 with ⟨-, h⟩ | ⟨-, h, -⟩ <;> cases h
  subst ha0
  rcases hc with ⟨hlog, hkb⟩ | ⟨m, est, p, hlog, hm, hkb, hd⟩
  · exact ⟨[], hlog, haf.user, haf.sid, by simp, by simp, .inl haf.peer,
      fun hu hs => send_limits E s {} hu hs (fun h => by cases h), by simp⟩
  · refine ⟨[.sent est p], by rw [hlog]; simp, haf.user, haf.sid, ?_, ?_, .inl haf.peer,
      fun hu hs => send_limits E s {} hu hs (fun h => by cases h), ?_⟩
    · intro algs _ est' p' h
      simp only [List.mem_cons, Ev.sent.injEq, List.not_mem_nil, or_false] at h
      obtain ⟨rfl, rfl⟩ := h
      cases hm with
      | none h => exact .none
      | keyboard h => cases h with | keyboard h => cases h
      | password h => cases h with | password _ h => cases h
      | key h => cases h with | key _ h => cases h
    · intro e he
      simp only [List.mem_cons, List.not_mem_nil, or_false] at he
      exact .inl ⟨_, _, he⟩
    · intro ho algs hk est' p' h
      simp only [List.mem_cons, Ev.sent.injEq, List.not_mem_nil, or_false] at h
      obtain ⟨rfl, rfl⟩ := h
      exact sends_fits hm ho hk

theorem step_failure (hl : len ≤ mem.length) (hw : len < 2 ^ 32) (E : Env) (s : Cl) :
    ∃ r s' new, doUserAuthFailure E s mem len = some (r, s') ∧ Stepped E s (.failure mem len) s' new := by
  rcases failure_spec hl hw E s with ⟨e, he⟩ | ⟨t, ⟨l, rest, hm0, hpw, hpk, hkb⟩, hne, he⟩
  · exact ⟨some e, s, [], he, refl_step _ _ _⟩
  · obtain ⟨asked, ha, haf, hpkd, hc⟩ := send_spec E s t
    have hq : ∀ e ∈ asked, Question E (.failure mem len) e := by
      intro e he
      obtain ⟨_, _, h⟩ := ha e he
      rcases h with ⟨rfl, h⟩ | ⟨rfl, h1, h2⟩
      · exact .password hm0 (hpw.1 h)
      · exact .key hm0 (hpk.1 h1) (fun h => h2 (hpw.2 h))
    have hlim : s.userName.length < 2 ^ 32 → Limits s → Limits (sendUserAuthRequest E s t).2 :=
      fun hu hs => send_limits E s t hu hs (fun h => (hkb.1 h).1)
    refine ⟨(sendUserAuthRequest E s t).1, (sendUserAuthRequest E s t).2, ?_⟩
    rcases hc with ⟨hlog, hkb'⟩ | ⟨m, est, p, hlog, hm, hkb', hd⟩
    · exact ⟨asked, he, hlog, haf.user, haf.sid, fun _ _ _ _ h => (asked_sent ha h).elim,
        fun e h => .inr (hq e h), .inl haf.peer, hlim, fun _ _ _ _ _ h => (asked_sent ha h).elim⟩
    · refine ⟨asked ++ [.sent est p], he, by rw [hlog]; simp, haf.user, haf.sid, ?_, ?_, .inl haf.peer, hlim, ?_⟩
      · intro algs hk est' p' hmem
        rcases List.mem_append.1 hmem with h | h
        · exact (asked_sent ha h).elim
        clear hmem
        simp only [List.mem_cons, Ev.sent.injEq, List.not_mem_nil, or_false] at h
        obtain ⟨rfl, rfl⟩ := h
        cases hm with
        | none h =>
          cases h with
          | none h1 h2 h3 =>
            exfalso; apply hne
            cases t; simp_all
        | keyboard h => cases h with | keyboard h => exact .keyboard hm0 (hkb.1 h).2
        | password h => cases h with | password _ h h1 h2 => exact .password hm0 (hpw.1 h) h1 h2
        | @key o _ k b h hd' hp hb =>
          obtain ⟨alg, sn, sig, h1, h2, h3, _⟩ := key_sent hk hp hb
          cases h with
          | key _ h4 h5 h6 h7 =>
            have : request s.userName "publickey" b = keyRequest s.userName alg o.blob sig := by
              rw [h3]; simp only [request, keyRequest, keyOffer, fields, List.append_assoc]
            rw [this]
            exact .key hm0 (hpk.1 h4) h5 h6 (fun h => h7 (hpw.2 h)) h1 h2
      · intro e h
        rcases List.mem_append.1 h with h | h
        · exact .inr (hq e h)
        · simp only [List.mem_cons, List.not_mem_nil, or_false] at h
          exact .inl ⟨_, _, h⟩
      · intro ho algs hk est' p' h
        rcases List.mem_append.1 h with h | h
        · exact (asked_sent ha h).elim
        simp only [List.mem_cons, Ev.sent.injEq, List.not_mem_nil, or_false] at h
        obtain ⟨rfl, rfl⟩ := h
        exact sends_fits hm ho hk

theorem step_info (hl : len ≤ mem.length) (hw : len < 2 ^ 32) (E : Env) (s : Cl) :
    ∃ r s' new, doUserAuthInfoRequest E s mem len = some (r, s') ∧ Stepped E s (.info mem len) s' new := by
  unfold doUserAuthInfoRequest
  by_cases h0 : len = 0
  · rw [if_pos h0]; exact ⟨_, s, [], rfl, refl_step _ _ _⟩
  rw [if_neg h0]
  cases h1 : getInfo mem len with
  | ub => exact absurd h1 (info_ne_ub hl hw)
  | err e i => exact ⟨_, s, [], rfl, refl_step _ _ _⟩
  | ok p i =>
    obtain ⟨n, t, l, ps, rest, hm, rfl, _⟩ := info_inv hl hw h1
    simp only [sendUserAuthKeyboardResponse]
    by_cases hset : E.set = false
    · rw [if_pos hset]; exact ⟨_, s, [], rfl, refl_step _ _ _⟩
    rw [if_neg hset]
    simp only [Bool.not_eq_false] at hset
    have hlim : ∀ k ev, requests "publickey" [ev] = 0 → requests "keyboard-interactive" [ev] = 0 → s.log ++ k = s.log ++ [.askedKeyboard (shown n t l ps), ev] →
        s.userName.length < 2 ^ 32 → Limits s → Limits { s with log := s.log ++ [.askedKeyboard (shown n t l ps), ev] } := by
      intro k ev e1 e2 _ _ hs
      have e3 : s.log ++ [Ev.askedKeyboard (shown n t l ps), ev] = s.log ++ [.askedKeyboard (shown n t l ps)] ++ [ev] := by simp
      refine ⟨?_, ?_, hs.att⟩
      · show requests _ (s.log ++ [Ev.askedKeyboard (shown n t l ps), ev]) ≤ _
        rw [e3, requests_append, requests_append, e1]; exact hs.key
      · show requests _ (s.log ++ [Ev.askedKeyboard (shown n t l ps), ev]) ≤ _
        rw [e3, requests_append, requests_append, e2]; exact hs.kb
    have hask : Stepped E s (.info mem len) (s.note (.askedKeyboard (shown n t l ps))) [.askedKeyboard (shown n t l ps)] := by
      refine ⟨rfl, rfl, rfl, by simp, ?_, .inl rfl, fun _ hs => ⟨?_, ?_, hs.att⟩, by simp⟩
      · intro e h
        simp only [List.mem_cons, List.not_mem_nil, or_false] at h
        subst h
        exact .inr (.keyboard hm)
      · show requests _ (s.log ++ [_]) ≤ _
        rw [requests_append]; exact hs.key
      · show requests _ (s.log ++ [_]) ≤ _
        rw [requests_append]; exact hs.kb
    cases hr : E.keyboard (shown n t l ps) with
    | none => exact ⟨_, _, _, rfl, hask⟩
    | some rs =>
      simp only
      by_cases hlen : (shown n t l ps).prompts.length ≠ rs.length
      · rw [if_pos hlen]; exact ⟨_, _, _, rfl, hask⟩
      rw [if_neg hlen]
      simp only [Decidable.not_not] at hlen
      cases hroom : E.room with
      | some e => exact ⟨_, _, _, rfl, hask⟩
      | none =>
        simp only [emit]
        by_cases hqd : queued E.send = true
        · rw [if_pos hqd, response_eq]
          refine ⟨_, _, [.askedKeyboard (shown n t l ps), .sent ((1 + 4 + strsSz rs) % 2 ^ 32) (infoResponse rs)], rfl, ?_, rfl, rfl, ?_, ?_, .inl rfl, ?_, ?_⟩
          · simp [Cl.note]
          · intro algs _ est' p' h
            simp only [List.mem_cons, Ev.sent.injEq, List.not_mem_nil, or_false, reduceCtorEq, false_or] at h
            obtain ⟨rfl, rfl⟩ := h
            exact .answers hm hset hr (by rw [← hlen]; simp [shown])
          · intro e h
            simp only [List.mem_cons, List.not_mem_nil, or_false] at h
            rcases h with rfl | rfl
            · exact .inr (.keyboard hm)
            · exact .inl ⟨_, _, rfl⟩
          · have hmeth : method (infoResponse rs) = none := rfl
            intro hu hs
            have := hlim _ (.sent ((1 + 4 + strsSz rs) % 2 ^ 32) (infoResponse rs)) (by rw [requests_sent, hmeth]; rfl) (by rw [requests_sent, hmeth]; rfl) rfl hu hs
            have e : (s.note (Ev.askedKeyboard (shown n t l ps))).note (Ev.sent ((1 + 4 + strsSz rs) % 2 ^ 32) (infoResponse rs)) =
                { s with log := s.log ++ [.askedKeyboard (shown n t l ps), .sent ((1 + 4 + strsSz rs) % 2 ^ 32) (infoResponse rs)] } := by
              simp [Cl.note]
            rw [e]; exact this
          · intro _ algs _ est' p' h
            simp only [List.mem_cons, Ev.sent.injEq, List.not_mem_nil, or_false, reduceCtorEq, false_or] at h
            obtain ⟨rfl, rfl⟩ := h
            rw [← response_eq]
            simp only [List.length_append, strs_length]
            have e4 : (c32toa rs.length).length = 4 := rfl
            rw [e4]
            simp only [List.length_cons, List.length_nil]; omega
        · rw [if_neg hqd]; exact ⟨_, _, _, rfl, hask⟩

theorem step_spec (E : Env) (s : Cl) (i : In) (hi : Sane i) : ∃ r s' new, step E s i = some (r, s') ∧ Stepped E s i s' new := by
  cases i with
  | start =>
    obtain ⟨new, h⟩ := step_start E s
    exact ⟨_, _, new, rfl, h⟩
  | failure mem len => exact step_failure hi.1 hi.2 E s
  | info mem len => exact step_info hi.1 hi.2 E s
  | ext mem len =>
    obtain ⟨r, p, h1, h2⟩ := ext_spec hi.1 hi.2 s
    refine ⟨r, _, [], h1, by simp, rfl, rfl, by simp, by simp, ?_, fun _ hs => ⟨hs.key, hs.kb, hs.att⟩, by simp⟩
    rcases h2 with h2 | ⟨l, h2, h3⟩
    · exact .inl h2
    · exact .inr ⟨mem, len, l, rfl, h2, h3⟩

/-! ## Runs -/

theorem run_spec (xs : List (Env × In)) : ∀ (s : Cl) (done : List (Env × In)), (∀ x ∈ xs, Sane x.2) →
    (∃ algs, Known s.peerSigId algs ∧ Heard done algs) →
    ∃ s' new, run s xs = some s' ∧ s'.log = s.log ++ new ∧ s'.userName = s.userName ∧
      (∀ est p, Ev.sent est p ∈ new → ∃ pre E i post algs, xs = pre ++ (E, i) :: post ∧ Heard (done ++ pre) algs ∧
        Reason E s.userName s.sessionId algs i p) ∧
      (∀ e ∈ new, (∃ est p, e = .sent est p) ∨ ∃ E i, (E, i) ∈ xs ∧ Question E i e) ∧
      (s.userName.length < 2 ^ 32 → Limits s → Limits s') ∧
      ((∀ x ∈ xs, ∀ o, x.1.key = some o → Honest o) → ∀ est p, Ev.sent est p ∈ new → p.length + 30000 < 2 ^ 32 → p.length ≤ est + 8) := by
  induction xs with
  | nil => intro s done _ _; exact ⟨s, [], rfl, by simp, rfl, by simp, by simp, fun _ h => h, by simp⟩
  | cons x xs ih =>
    intro s done hs hk
    obtain ⟨E, i⟩ := x
    obtain ⟨r, s1, n1, he, hst⟩ := step_spec E s i (hs _ List.mem_cons_self)
    have hk1 : ∃ algs, Known s1.peerSigId algs ∧ Heard (done ++ [(E, i)]) algs := by
      rcases hst.peer with h | ⟨mem, len, l, rfl, h1, h2⟩
      · rw [h]
        obtain ⟨algs, h1, h2⟩ := hk
        refine ⟨algs, h1, ?_⟩
        rcases h2 with h2 | ⟨E', mem, len, l, h3, h4⟩
        · exact .inl h2
        · exact .inr ⟨E', mem, len, l, List.mem_append_left _ h3, h4⟩
      · exact ⟨_, h2, .inr ⟨E, mem, len, l, by simp, h1, rfl⟩⟩
    obtain ⟨s2, n2, h1, h2, h3, h4, h5, h6, h10⟩ := ih s1 (done ++ [(E, i)]) (fun x hx => hs x (List.mem_cons_of_mem _ hx)) hk1
    refine ⟨s2, n1 ++ n2, ?_, by rw [h2, hst.log]; simp, by rw [h3, hst.user], ?_, ?_, ?_, ?_⟩
    · simp only [run, he]; exact h1
    · intro est p hm
      rcases List.mem_append.1 hm with hm | hm
      · obtain ⟨algs, hk1, hk2⟩ := hk
        exact ⟨[], E, i, xs, algs, rfl, by simpa using hk2, hst.why algs hk1 est p hm⟩
      · obtain ⟨pre, E', i', post, algs, h7, h8, h9⟩ := h4 est p hm
        rw [hst.user, hst.sid] at h9
        refine ⟨(E, i) :: pre, E', i', post, algs, by rw [h7]; rfl, ?_, h9⟩
        rw [List.append_assoc] at h8
        exact h8
    · intro e hm
      rcases List.mem_append.1 hm with hm | hm
      · rcases hst.asked e hm with h | h
        · exact .inl h
        · exact .inr ⟨E, i, List.mem_cons_self, h⟩
      · rcases h5 e hm with h | ⟨E', i', h7, h8⟩
        · exact .inl h
        · exact .inr ⟨E', i', List.mem_cons_of_mem _ h7, h8⟩
    · intro hu hL
      exact h6 (by rw [hst.user]; exact hu) (hst.limits hu hL)
    · intro ho est p hm
      rcases List.mem_append.1 hm with hm | hm
      · obtain ⟨algs, hk1, hk2⟩ := hk
        exact hst.fits (ho _ List.mem_cons_self) algs hk1 est p hm
      · exact h10 (fun x hx => ho x (List.mem_cons_of_mem _ hx)) est p hm

end Proofs.ClientAuth
