import Verif.Props.Wire
import Verif.Proofs.Kex
/-!
# C04-C07: name-lists, algorithm lists, negotiation, guessed packets

`rows t` is the algorithm table of the build as the specification sees it (identifier, name);
`WF t` says no row carries the identifier reserved for "unknown".
-/

namespace Props.Kex
open Wolf Wolf.Wire Wolf.NameList Wolf.Kex

/-! ## C04: peer name-lists -/

/-- C04. For every field content `l` and room `cap`: no byte outside the field is read; at most
`cap` identifiers are stored; a refusal happens only for a list over the byte limit, over the name
limit, or with more entries than there is room for; otherwise the supported entries of the result
are exactly the identifiers of the supported names, in the peer's order, and an unsupported entry
is kept only as a marker of an unsupported first name. -/
theorem C04_nameList (t : Table) (hwf : WF t) (cap : Nat) (l : Bytes) :
    match getNameListRaw t cap l l.length with
    | .ub => False
    | .err e => e = .bufferE ∧ (4096 < l.length ∨ 64 < (Spec.NameList.names l).length ∨
        cap < (Spec.Kex.ids (rows t) l).length + 1)
    | .ok ids => ids.length ≤ cap ∧ l.length ≤ 4096 ∧ (Spec.NameList.names l).length ≤ 64 ∧
        ids.filter (fun i => i ≠ ID_UNKNOWN) = Spec.Kex.ids (rows t) l ∧
        (ids = Spec.Kex.ids (rows t) l ∨
          (∃ n ns, Spec.NameList.names l = n :: ns ∧ Spec.NameList.supported (rows t) n = none) ∧
          ids = ID_UNKNOWN :: Spec.Kex.ids (rows t) l) := by
  rw [getNameListRaw_eq]
  have hk : known (keep ((Spec.NameList.names l).map (nameToId t))) = Spec.Kex.ids (rows t) l := by
    rw [known_keep, known_ids t hwf]
  have hform : keep ((Spec.NameList.names l).map (nameToId t)) = Spec.Kex.ids (rows t) l ∨
      (∃ n ns, Spec.NameList.names l = n :: ns ∧ Spec.NameList.supported (rows t) n = none) ∧
        keep ((Spec.NameList.names l).map (nameToId t)) = ID_UNKNOWN :: Spec.Kex.ids (rows t) l := by
    by_cases hu : ID_UNKNOWN ∈ keep ((Spec.NameList.names l).map (nameToId t))
    · right
      obtain ⟨n, ns, h1, h2⟩ := unknown_mem_keep t hwf l hu
      refine ⟨⟨n, ns, h1, h2⟩, ?_⟩
      rw [← known_ids t hwf, h1, List.map_cons, nameToId_eq, h2]
      simp [keep, known]
    · left
      rw [← hk]
      unfold known
      symm
      rw [List.filter_eq_self]
      intro a ha
      simp only [ne_eq, decide_not, Bool.not_eq_eq_eq_not, Bool.not_true, decide_eq_false_iff_not]
      exact fun h => hu (h ▸ ha)
  by_cases hc : l.length ≤ MAX_NAMELIST_SZ ∧ (Spec.NameList.names l).length ≤ MAX_NAMELIST_CNT ∧
         (keep ((Spec.NameList.names l).map (nameToId t))).length ≤ cap
  · rw [if_pos hc]
    exact ⟨hc.2.2, hc.1, hc.2.1, hk, hform⟩
  · rw [if_neg hc]
    refine ⟨rfl, ?_⟩
    have hlen : (keep ((Spec.NameList.names l).map (nameToId t))).length ≤ (Spec.Kex.ids (rows t) l).length + 1 := by
      rcases hform with h | ⟨_, h⟩ <;> rw [h] <;> simp
    simp only [MAX_NAMELIST_SZ, MAX_NAMELIST_CNT] at hc
    omega

/-- C04, the field inside a message: the list is taken from the string field at the cursor and
the cursor ends after that field. -/
theorem C04_field (t : Table) (cap : Nat) (p : Bytes) (i : Nat) (hp : p.length < 2^32) :
    match getNameList t cap p p.length i with
    | .ub => False
    | .err _ _ => True
    | .ok ids j => ∃ s, Spec.Wire.string (p.drop i) = some (s, p.drop j) ∧
        getNameListRaw t cap s s.length = .ok ids := by
  by_cases h0 : p = []
  · subst h0; simp [getNameList]
  · cases hs : Spec.Wire.string (p.drop i) with
    | none =>
      have hr := getStringRef_eq p p.length i (Nat.le_refl _) hp
      rw [List.take_length, hs] at hr
      unfold getNameList
      rw [if_neg (by simpa using h0), hr]
      by_cases hc : i + 4 ≤ p.length <;> simp [hc]
    | some v =>
      obtain ⟨s, rest⟩ := v
      have hd := deref_string p p.length i s rest (Nat.le_refl _) (by rw [List.take_length]; exact hs)
      rw [List.take_length] at hd
      have he := getNameList_eq t cap p i hp h0
      rw [hs] at he
      simp only at he
      rw [he]
      cases hr : getNameListRaw t cap s s.length with
      | ub => rw [getNameListRaw_eq] at hr; split at hr <;> simp at hr
      | err e => simp
      | ok ids => exact ⟨s, by rw [hd.2.2], hr⟩

theorem defaultTable_wf : WF defaultTable := by
  intro e he
  have : ∀ e ∈ defaultTable, e.id ≠ ID_UNKNOWN := by decide
  exact this e he

/- A list with a known, an unknown and a known name, then a doubled comma that ends it. -/
example : getNameListRaw defaultTable 32 (asc "aes256-ctr,foo,aes128-ctr,,aes128-cbc") 37
    = .ok [6, 4] := by rw [show (37:Nat) = (asc "aes256-ctr,foo,aes128-ctr,,aes128-cbc").length by decide, getNameListRaw_eq]; decide

/-! ## C05: algorithm list setters -/

/-- C05. `CheckAlgoList`, which guards every `SetAlgoList` entry point, accepts exactly the valid
lists: non-empty names (one trailing comma tolerated), no null algorithm, supported names all of
the category, at least one of them. -/
theorem C05_setter (t : Table) (hwf : WF t) (ty : AlgoType) (l : Bytes) :
    checkAlgoList t ty l = true ↔ Spec.NameList.ValidAlgoList (specRows t) ty.num l := by
  rw [checkAlgoList_eq]
  unfold Spec.NameList.ValidAlgoList
  simp only [Bool.and_eq_true, List.all_eq_true, List.any_eq_true]
  have hg : ∀ w, good t ty w = true ↔ (w ≠ [] ∧
      ∀ r, (specRows t).find? (fun r => r.name = w) = some r → r.id ≠ 0 ∧ r.cat = ty.num) := by
    intro w
    rw [find_specRows]
    unfold good
    rw [nameToIdType_eq]
    cases hf : t.find? (fun e => e.name = w) with
    | none => simp [ID_UNKNOWN, ID_NONE]
    | some e =>
      have he := hwf e (List.mem_of_find?_eq_some hf)
      simp only [Bool.and_eq_true, Bool.or_eq_true, bne_iff_ne, beq_iff_eq, Bool.not_eq_true',
        List.isEmpty_eq_false_iff, Option.map_some, Option.some.injEq, forall_eq', he, false_or, ID_NONE]
      constructor
      · rintro ⟨⟨h1, h2⟩, h3⟩; exact ⟨h1, h2, by rw [h3]⟩
      · rintro ⟨h1, h2, h3⟩; exact ⟨⟨h1, h2⟩, AlgoType.num_inj h3⟩
  have hs : ∀ w, supp t w = true ↔ ∃ r, (specRows t).find? (fun r => r.name = w) = some r := by
    intro w
    rw [find_specRows]
    unfold supp
    rw [nameToIdType_eq]
    cases hf : t.find? (fun e => e.name = w) with
    | none => simp
    | some e =>
      have he := hwf e (List.mem_of_find?_eq_some hf)
      simp [he]
  simp only [hg, hs]

/-- C05, the null algorithm: no list with an element `none` is accepted in any category. -/
theorem C05_no_none (ty : AlgoType) (l : Bytes)
    (h : asc "none" ∈ Spec.NameList.split 44 (Spec.NameList.body l)) :
    checkAlgoList defaultTable ty l = false := by
  cases hc : checkAlgoList defaultTable ty l with
  | false => rfl
  | true =>
    have := ((C05_setter defaultTable defaultTable_wf ty l).1 hc).1 _ h
    have h2 := this.2 ⟨0, 4, asc "none"⟩ (by rw [find_specRows]; rfl)
    exact absurd rfl h2.1

example : checkAlgoList defaultTable .cipher (asc "aes256-ctr,chacha,aes128-cbc,") = true := by
  rw [checkAlgoList_eq]; decide
example : checkAlgoList defaultTable .cipher (asc "aes256-ctr,hmac-sha1") = false := by
  rw [checkAlgoList_eq]; decide
example : checkAlgoList defaultTable .cipher (asc "none,aes256-ctr") = false :=
  C05_no_none _ _ (by decide)

/-! ## C06: negotiation -/

/-- Identifiers this side offers for the host key: from the list set by the application, or, for
a server without one, from its keys. -/
def ownHostKeyIds (c : Cfg) : List Nat :=
  match c.side, c.keyList with
  | .server, none => c.pubKeyAlgo
  | _, l => Spec.Kex.ids (rows c.tbl) (l.getD [])

def isServer (c : Cfg) : Bool := c.side == .server

theorem ownIds_ok {c : Cfg} {l : Bytes} {i j : Nat} {ids : List Nat} (h : ownIds c l i = .ok ids j) :
    j = i ∧ ids = keep ((Spec.NameList.names l).map (nameToId c.tbl)) := by
  rw [ownIds_eq] at h
  split at h
  · simp only [Res.ok.injEq] at h; exact ⟨h.2.symm, h.1.symm⟩
  · simp at h

theorem known_self {l : List Nat} (h : ID_UNKNOWN ∉ l) : known l = l := by
  unfold known
  rw [List.filter_eq_self]
  intro a ha
  simp only [ne_eq, decide_not, Bool.not_eq_eq_eq_not, Bool.not_true, decide_eq_false_iff_not]
  exact fun h' => h (h' ▸ ha)

theorem ownKeyIds_ok {c : Cfg} (hwf : WF c.tbl) (hpk : ID_UNKNOWN ∉ c.pubKeyAlgo) {i j : Nat} {ids : List Nat}
    (h : ownKeyIds c i = .ok ids j) : j = i ∧ known ids = ownHostKeyIds c := by
  unfold ownKeyIds at h
  unfold ownHostKeyIds
  split at h
  · simp only [Res.ok.injEq] at h
    refine ⟨h.2.symm, ?_⟩
    rw [← h.1]
    rename_i hs hk
    rw [hs, hk]
    exact known_self hpk
  · obtain ⟨h1, h2⟩ := ownIds_ok h
    refine ⟨h1, ?_⟩
    rw [h2, known_keep, known_ids c.tbl hwf]
    rename_i hne
    split
    · rename_i a b hs hk; exact absurd hk (by intro hk; exact hne hs hk)
    · rfl

theorem headD_keep (t : Table) (hwf : WF t) (l : Bytes) (a : Nat) (ha : a ≠ ID_UNKNOWN) :
    (keep ((Spec.NameList.names l).map (nameToId t))).headD ID_UNKNOWN = a ↔
      (Spec.NameList.names l).head?.bind (Spec.NameList.supported (rows t)) = some a := by
  cases hn : Spec.NameList.names l with
  | nil => simp [keep]; exact fun h => ha h.symm
  | cons n ns =>
    simp only [List.map_cons, keep, List.headD_cons, List.head?_cons, Option.bind_some, nameToId_eq]
    cases hs : Spec.NameList.supported (rows t) n with
    | none => simp; exact fun h => ha h.symm
    | some i => simp

/-- What the negotiation outcome `n` must be for the message `m`, in terms of RFC 4253. -/
structure Negotiated (c : Cfg) (m : Spec.Kex.KexInit) (n : Nego) : Prop where
  kex : Spec.Kex.pick (isServer c) (Spec.Kex.ids (rows c.tbl) m.kex)
    (Spec.Kex.ids (rows c.tbl) c.kexList) = some n.kex
  hostKey : Spec.Kex.pick (isServer c) (Spec.Kex.ids (rows c.tbl) m.hostKey) (ownHostKeyIds c)
    = some n.hostKey
  encC2S : Spec.Kex.pick (isServer c) (Spec.Kex.ids (rows c.tbl) m.encC2S)
    (Spec.Kex.ids (rows c.tbl) c.cipherList) = some n.c2sEnc
  encS2C : Spec.Kex.pick (isServer c) (Spec.Kex.ids (rows c.tbl) m.encS2C)
    (Spec.Kex.ids (rows c.tbl) c.cipherList) = some n.s2cEnc
  macC2S : if c.aead n.c2sEnc then n.c2sMac = 0 else
    Spec.Kex.pick (isServer c) (Spec.Kex.ids (rows c.tbl) m.macC2S)
      (Spec.Kex.ids (rows c.tbl) c.macList) = some n.c2sMac
  macS2C : if c.aead n.s2cEnc then n.s2cMac = 0 else
    Spec.Kex.pick (isServer c) (Spec.Kex.ids (rows c.tbl) m.macS2C)
      (Spec.Kex.ids (rows c.tbl) c.macList) = some n.s2cMac
  compC2S : 0 ∈ Spec.Kex.ids (rows c.tbl) m.compC2S
  compS2C : 0 ∈ Spec.Kex.ids (rows c.tbl) m.compS2C

theorem pick_step {c : Cfg} (hwf : WF c.tbl) {own ownSpec : List Nat} {s : Bytes} {e : Err} {i j a : Nat}
    (hown : known own = ownSpec)
    (h : matchOr c (keep ((Spec.NameList.names s).map (nameToId c.tbl))) own e i = .ok a j) :
    j = i ∧ a ≠ ID_UNKNOWN ∧
      Spec.Kex.pick (isServer c) (Spec.Kex.ids (rows c.tbl) s) ownSpec = some a := by
  obtain ⟨h1, h2, h3⟩ := matchOr_ok h
  refine ⟨h1, h2, ?_⟩
  have := pick_known_of h3 h2
  rw [known_keep, known_ids c.tbl hwf, hown] at this
  exact this

theorem cipherStep_ok {c : Cfg} (hwf : WF c.tbl) {p : Bytes} {i j a : Nat} (hp : p.length < 2^32)
    (h : cipherStep c p i = .ok a j) :
    ∃ s, Spec.Wire.string (p.drop i) = some (s, p.drop j) ∧
      Spec.Kex.pick (isServer c) (Spec.Kex.ids (rows c.tbl) s)
        (Spec.Kex.ids (rows c.tbl) c.cipherList) = some a := by
  unfold cipherStep at h
  obtain ⟨peer, i1, h1, h⟩ := bind_ok.1 h
  obtain ⟨own, i2, h2, h⟩ := bind_ok.1 h
  obtain ⟨s, hs, rfl⟩ := getNameList_ok hp h1
  obtain ⟨rfl, rfl⟩ := ownIds_ok h2
  obtain ⟨rfl, _, h3⟩ := pick_step hwf (by rw [known_keep, known_ids c.tbl hwf]) h
  exact ⟨s, hs, h3⟩

theorem macStep_ok {c : Cfg} (hwf : WF c.tbl) {p : Bytes} {i j a : Nat} {aead : Bool} (hp : p.length < 2^32)
    (h : macStep c aead p i = .ok a j) :
    ∃ s, Spec.Wire.string (p.drop i) = some (s, p.drop j) ∧
      if aead then a = 0 else
        Spec.Kex.pick (isServer c) (Spec.Kex.ids (rows c.tbl) s)
          (Spec.Kex.ids (rows c.tbl) c.macList) = some a := by
  unfold macStep at h
  obtain ⟨peer, i1, h1, h⟩ := bind_ok.1 h
  obtain ⟨s, hs, rfl⟩ := getNameList_ok hp h1
  cases aead with
  | true =>
    simp only [if_true, Res.ok.injEq] at h
    exact ⟨s, by rw [← h.2]; exact hs, by simp [← h.1, ID_NONE]⟩
  | false =>
    simp only [Bool.false_eq_true, if_false] at h
    obtain ⟨own, i2, h2, h⟩ := bind_ok.1 h
    obtain ⟨rfl, rfl⟩ := ownIds_ok h2
    obtain ⟨rfl, _, h3⟩ := pick_step hwf (by rw [known_keep, known_ids c.tbl hwf]) h
    exact ⟨s, hs, by simpa using h3⟩

theorem compStep_ok {c : Cfg} (hwf : WF c.tbl) {p : Bytes} {i j a : Nat} (hp : p.length < 2^32)
    (h : compStep c p i = .ok a j) :
    ∃ s, Spec.Wire.string (p.drop i) = some (s, p.drop j) ∧ 0 ∈ Spec.Kex.ids (rows c.tbl) s := by
  unfold compStep at h
  obtain ⟨peer, i1, h1, h⟩ := bind_ok.1 h
  obtain ⟨s, hs, rfl⟩ := getNameList_ok hp h1
  obtain ⟨rfl, _, h3⟩ := pick_step (ownSpec := [0]) hwf (by decide) h
  refine ⟨s, hs, ?_⟩
  unfold Spec.Kex.pick Spec.NameList.choose at h3
  cases hsv : isServer c
  · rw [hsv] at h3
    simp only [Bool.false_eq_true, if_false] at h3
    have hm := List.find?_some h3
    have hmem := List.mem_of_find?_eq_some h3
    simp at hmem hm
    rw [hmem] at hm; exact hm
  · rw [hsv] at h3
    simp only [if_true] at h3
    have hm := List.find?_some h3
    have hmem := List.mem_of_find?_eq_some h3
    simp at hm
    rw [hm] at hmem; exact hmem

theorem getSkip_ok {p : Bytes} {i j : Nat} (hp : p.length < 2^32)
    (h : getSkip p p.length i = .ok () j) : ∃ s, Spec.Wire.string (p.drop i) = some (s, p.drop j) := by
  have := Props.Wire.C01_getSkip p p.length i (Nat.le_refl _) hp
  rw [h] at this
  simp only [Props.Wire.msgFrom, List.take_length] at this
  exact this.2

theorem getBoolean_ok {p : Bytes} {i j : Nat} {b : UInt8} (hp : p.length < 2^32)
    (h : getBoolean p p.length i = .ok b j) : Spec.Wire.byte (p.drop i) = some (b, p.drop j) := by
  have := Props.Wire.C01_getBoolean p p.length i (Nat.le_refl _) hp
  rw [h] at this
  simp only [Props.Wire.msgFrom, List.take_length] at this
  exact this.2

theorem getUint32_ok {p : Bytes} {i j v : Nat} (hp : p.length < 2^32)
    (h : getUint32 p p.length i = .ok v j) : Spec.Wire.uint32 (p.drop i) = some (v, p.drop j) := by
  have := Props.Wire.C01_getUint32 p p.length i (Nat.le_refl _) hp
  rw [h] at this
  simp only [Props.Wire.msgFrom, List.take_length] at this
  exact this.2.2

/-- C06 and C07 together: a successful negotiation of any received payload. -/
theorem doKexInit_ok (c : Cfg) (hwf : WF c.tbl) (hpk : ID_UNKNOWN ∉ c.pubKeyAlgo)
    (pk ex se : Bool) (p : Bytes) (hp : p.length < 2^32) (n : Nego) (j : Nat)
    (h : doKexInit c pk ex se p = .ok n j) :
    pk = false ∧ ∃ m, Spec.Kex.parse p = some (m, p.drop j) ∧ m.reserved = 0 ∧ Negotiated c m n ∧
      (n.ignoreNext = true ↔ m.follows ≠ 0 ∧
        ((Spec.NameList.names m.kex).head?.bind (Spec.NameList.supported (rows c.tbl)) ≠ some n.kex ∨
         (Spec.NameList.names m.hostKey).head?.bind (Spec.NameList.supported (rows c.tbl))
          ≠ some n.hostKey)) := by
  unfold doKexInit at h
  split at h
  · simp at h
  split at h
  · simp at h
  rename_i hpk'
  refine ⟨by simpa using hpk', ?_⟩
  split at h
  · simp at h
  rename_i hcookie
  obtain ⟨kexPeer, i1, h1, h⟩ := bind_ok.1 h
  obtain ⟨kexOwn, i2, h2, h⟩ := bind_ok.1 h
  obtain ⟨kex, i3, h3, h⟩ := bind_ok.1 h
  simp only at h
  obtain ⟨keyPeer, i4, h4, h⟩ := bind_ok.1 h
  obtain ⟨keyOwn, i5, h5, h⟩ := bind_ok.1 h
  obtain ⟨hostKey, i6, h6, h⟩ := bind_ok.1 h
  obtain ⟨c2sEnc, i7, h7, h⟩ := bind_ok.1 h
  obtain ⟨s2cEnc, i8, h8, h⟩ := bind_ok.1 h
  obtain ⟨c2sMac, i9, h9, h⟩ := bind_ok.1 h
  obtain ⟨s2cMac, i10, h10, h⟩ := bind_ok.1 h
  obtain ⟨_, i11, h11, h⟩ := bind_ok.1 h
  obtain ⟨_, i12, h12, h⟩ := bind_ok.1 h
  obtain ⟨_, i13, h13, h⟩ := bind_ok.1 h
  obtain ⟨_, i14, h14, h⟩ := bind_ok.1 h
  obtain ⟨follows, i15, h15, h⟩ := bind_ok.1 h
  obtain ⟨reserved, i16, h16, h⟩ := bind_ok.1 h
  split at h
  · simp at h
  rename_i hres
  simp only [Res.ok.injEq] at h
  obtain ⟨hn, rfl⟩ := h
  obtain ⟨sKex, e1, rfl⟩ := getNameList_ok hp h1
  obtain ⟨rfl, rfl⟩ := ownIds_ok h2
  obtain ⟨rfl, hkne, p1⟩ := pick_step hwf (by rw [known_keep, known_ids c.tbl hwf]) h3
  obtain ⟨sKey, e2, rfl⟩ := getNameList_ok hp h4
  obtain ⟨rfl, hko⟩ := ownKeyIds_ok hwf hpk h5
  obtain ⟨rfl, hhne, p2⟩ := pick_step hwf hko h6
  obtain ⟨s3, e3, p3⟩ := cipherStep_ok hwf hp h7
  obtain ⟨s4, e4, p4⟩ := cipherStep_ok hwf hp h8
  obtain ⟨s5, e5, p5⟩ := macStep_ok hwf hp h9
  obtain ⟨s6, e6, p6⟩ := macStep_ok hwf hp h10
  obtain ⟨s7, e7, p7⟩ := compStep_ok hwf hp h11
  obtain ⟨s8, e8, p8⟩ := compStep_ok hwf hp h12
  obtain ⟨s9, e9⟩ := getSkip_ok hp h13
  obtain ⟨s10, e10⟩ := getSkip_ok hp h14
  have e11 := getBoolean_ok hp h15
  have e12 := getUint32_ok hp h16
  refine ⟨⟨p.take 16, sKex, sKey, s3, s4, s5, s6, s7, s8, s9, s10, follows, reserved⟩, ?_, ?_, ?_, ?_⟩
  · unfold Spec.Kex.parse
    unfold COOKIE_SZ at hcookie e1
    rw [if_neg (by omega)]
    simp only [e1, e2, e3, e4, e5, e6, e7, e8, e9, e10, e11, e12, Option.bind_eq_bind, Option.bind_some,
      Option.pure_def]
  · simpa using hres
  · rw [← hn]
    exact ⟨p1, p2, p3, p4, by simpa using p5, by simpa using p6, p7, p8⟩
  · rw [← hn]
    simp only [decide_eq_true_eq]
    rw [ne_eq (List.headD _ _), ne_eq (List.headD _ _), headD_keep c.tbl hwf sKex kex hkne, headD_keep c.tbl hwf sKey hostKey hhne]

/-- C06. Whatever payload arrives, a negotiation that succeeds has, in every category, picked the
first entry of the client's list that the server's list has too, whichever side runs the code. -/
theorem C06_choice (c : Cfg) (hwf : WF c.tbl) (hpk : ID_UNKNOWN ∉ c.pubKeyAlgo)
    (pk ex se : Bool) (p : Bytes) (hp : p.length < 2^32) (n : Nego) (j : Nat)
    (h : doKexInit c pk ex se p = .ok n j) :
    ∃ m rest, Spec.Kex.parse p = some (m, rest) ∧ Negotiated c m n := by
  obtain ⟨_, m, h1, _, h2, _⟩ := doKexInit_ok c hwf hpk pk ex se p hp n j h
  exact ⟨m, _, h1, h2⟩

/-- C06, refusal: if some required category has no common entry the negotiation does not succeed. -/
theorem C06_refused (c : Cfg) (hwf : WF c.tbl) (hpk : ID_UNKNOWN ∉ c.pubKeyAlgo)
    (pk ex se : Bool) (p : Bytes) (hp : p.length < 2^32) (m : Spec.Kex.KexInit) (rest : Bytes)
    (hm : Spec.Kex.parse p = some (m, rest))
    (hno : Spec.Kex.pick (isServer c) (Spec.Kex.ids (rows c.tbl) m.kex) (Spec.Kex.ids (rows c.tbl) c.kexList) = none ∨
      Spec.Kex.pick (isServer c) (Spec.Kex.ids (rows c.tbl) m.hostKey) (ownHostKeyIds c) = none ∨
      Spec.Kex.pick (isServer c) (Spec.Kex.ids (rows c.tbl) m.encC2S) (Spec.Kex.ids (rows c.tbl) c.cipherList) = none ∨
      Spec.Kex.pick (isServer c) (Spec.Kex.ids (rows c.tbl) m.encS2C) (Spec.Kex.ids (rows c.tbl) c.cipherList) = none) :
    ∀ n j, doKexInit c pk ex se p ≠ .ok n j := by
  intro n j h
  obtain ⟨m', r', h1, h2⟩ := C06_choice c hwf hpk pk ex se p hp n j h
  rw [hm] at h1
  simp only [Option.some.injEq, Prod.mk.injEq] at h1
  obtain ⟨rfl, _⟩ := h1
  rcases hno with h' | h' | h' | h'
  · rw [h2.kex] at h'; simp at h'
  · rw [h2.hostKey] at h'; simp at h'
  · rw [h2.encC2S] at h'; simp at h'
  · rw [h2.encS2C] at h'; simp at h'

/-- The default lists of a build with ECDH, ECDSA, AES and HMAC-SHA2, host key P-256. -/
def demo (s : Side) (kex : Bytes) : Cfg :=
  { side := s, tbl := defaultTable, kexList := kex,
    keyList := if s = .server then none else some (asc "ecdsa-sha2-nistp256,ssh-ed25519"),
    cipherList := asc "aes256-gcm@openssh.com,aes128-ctr", macList := asc "hmac-sha2-256",
    pubKeyAlgo := [27], aead := fun i => i = 7 ∨ i = 8 ∨ i = 9 }

/-- Limits of one list: bytes, names, identifiers. -/
def Fits (t : Table) (l : Bytes) : Prop :=
  l.length ≤ 4096 ∧ (Spec.NameList.names l).length ≤ 64 ∧ (Spec.Kex.ids (rows t) l).length < 32

/-- The first name of the list is not supported by this build. -/
def LeadsUnknown (t : Table) (l : Bytes) : Prop :=
  ∃ n ns, Spec.NameList.names l = n :: ns ∧ Spec.NameList.supported (rows t) n = none

theorem keep_length (t : Table) (hwf : WF t) (l : Bytes) :
    (keep ((Spec.NameList.names l).map (nameToId t))).length ≤ (Spec.Kex.ids (rows t) l).length + 1 := by
  rw [← known_ids t hwf]
  cases Spec.NameList.names l with
  | nil => simp [keep]
  | cons n ns =>
    simp only [List.map_cons, keep, List.length_cons, known]
    have : (List.filter (fun x => decide (x ≠ ID_UNKNOWN)) (List.map (nameToId t) ns)).length
      ≤ (List.filter (fun i => decide (i ≠ ID_UNKNOWN)) (nameToId t n :: List.map (nameToId t) ns)).length := by
      rw [List.filter_cons]; split <;> simp
    simpa using this

theorem ownIds_of {c : Cfg} (hwf : WF c.tbl) {l : Bytes} (hf : Fits c.tbl l) (i : Nat) :
    ownIds c l i = .ok (keep ((Spec.NameList.names l).map (nameToId c.tbl))) i := by
  rw [ownIds_eq, if_pos]
  obtain ⟨h1, h2, h3⟩ := hf
  have := keep_length c.tbl hwf l
  have h4 := algoListSz_le l
  simp only [MAX_NAMELIST_SZ, MAX_NAMELIST_CNT, ID_LIST_MAX]
  omega

theorem nl_of {c : Cfg} (hwf : WF c.tbl) {p s rest : Bytes} {i : Nat} (hp : p.length < 2^32)
    (h : Spec.Wire.string (p.drop i) = some (s, rest)) (hf : Fits c.tbl s) :
    ∃ j, getNameList c.tbl ID_LIST_MAX p p.length i
        = .ok (keep ((Spec.NameList.names s).map (nameToId c.tbl))) j ∧ rest = p.drop j := by
  obtain ⟨h1, h2, h3⟩ := hf
  have := keep_length c.tbl hwf s
  exact getNameList_of hp h h1 h2 (by simp only [ID_LIST_MAX]; omega)

theorem supported_ne_unknown {t : Table} (hwf : WF t) {l : Bytes} {a : Nat}
    (h : a ∈ Spec.Kex.ids (rows t) l) : a ≠ ID_UNKNOWN := by
  rw [← known_ids t hwf] at h
  unfold known at h
  simpa using (List.mem_filter.1 h).2

theorem pick_mem {s : Bool} {peer own : List Nat} {a : Nat} (h : Spec.Kex.pick s peer own = some a) :
    a ∈ peer ∧ a ∈ own := by
  unfold Spec.Kex.pick Spec.NameList.choose at h
  split at h
  · have h1 := List.find?_some h
    have h2 := List.mem_of_find?_eq_some h
    simp at h1; exact ⟨h2, h1⟩
  · have h1 := List.find?_some h
    have h2 := List.mem_of_find?_eq_some h
    simp at h1; exact ⟨h1, h2⟩

theorem matchOr_step {c : Cfg} (hwf : WF c.tbl) {s : Bytes} {own ownSpec : List Nat} {e : Err} {a : Nat}
    (hown : known own = ownSpec)
    (hp : Spec.Kex.pick (isServer c) (Spec.Kex.ids (rows c.tbl) s) ownSpec = some a)
    (hu : ¬ (LeadsUnknown c.tbl s ∧ ID_UNKNOWN ∈ own)) (i : Nat) :
    matchOr c (keep ((Spec.NameList.names s).map (nameToId c.tbl))) own e i = .ok a i := by
  apply matchOr_of
  · apply pick_of_known
    · rw [known_keep, known_ids c.tbl hwf, hown]; exact hp
    · rintro ⟨h1, h2⟩
      exact hu ⟨unknown_mem_keep c.tbl hwf s h1, h2⟩
  · exact supported_ne_unknown hwf (pick_mem hp).1

theorem bind_of {α β} {r : Res α} {f : α → Nat → Res β} {a : α} {i : Nat} (h : r = .ok a i) :
    Res.bind r f = f a i := by rw [h]; rfl

theorem cipherStep_of {c : Cfg} (hwf : WF c.tbl) {p s rest : Bytes} {i a : Nat} (hp : p.length < 2^32)
    (h : Spec.Wire.string (p.drop i) = some (s, rest)) (hf : Fits c.tbl s) (hfo : Fits c.tbl c.cipherList)
    (hu : ¬ (LeadsUnknown c.tbl s ∧ LeadsUnknown c.tbl c.cipherList))
    (hpk : Spec.Kex.pick (isServer c) (Spec.Kex.ids (rows c.tbl) s)
      (Spec.Kex.ids (rows c.tbl) c.cipherList) = some a) :
    ∃ j, cipherStep c p i = .ok a j ∧ rest = p.drop j := by
  obtain ⟨j, h1, h2⟩ := nl_of hwf hp h hf
  refine ⟨j, ?_, h2⟩
  unfold cipherStep
  rw [bind_of h1, bind_of (ownIds_of hwf hfo j)]
  exact matchOr_step hwf (by rw [known_keep, known_ids c.tbl hwf]) hpk
    (fun hh => hu ⟨hh.1, unknown_mem_keep c.tbl hwf _ hh.2⟩) j

theorem macStep_of {c : Cfg} (hwf : WF c.tbl) {p s rest : Bytes} {i a : Nat} {aead : Bool} (hp : p.length < 2^32)
    (h : Spec.Wire.string (p.drop i) = some (s, rest)) (hf : Fits c.tbl s) (hfo : Fits c.tbl c.macList)
    (hu : ¬ (LeadsUnknown c.tbl s ∧ LeadsUnknown c.tbl c.macList))
    (hpk : Spec.Kex.pick (isServer c) (Spec.Kex.ids (rows c.tbl) s)
      (Spec.Kex.ids (rows c.tbl) c.macList) = some a) :
    ∃ j, macStep c aead p i = .ok (if aead then 0 else a) j ∧ rest = p.drop j := by
  obtain ⟨j, h1, h2⟩ := nl_of hwf hp h hf
  refine ⟨j, ?_, h2⟩
  unfold macStep
  rw [bind_of h1]
  cases aead with
  | true => rfl
  | false =>
    simp only [Bool.false_eq_true, if_false]
    rw [bind_of (ownIds_of hwf hfo j)]
    exact matchOr_step hwf (by rw [known_keep, known_ids c.tbl hwf]) hpk
      (fun hh => hu ⟨hh.1, unknown_mem_keep c.tbl hwf _ hh.2⟩) j

theorem compStep_of {c : Cfg} (hwf : WF c.tbl) {p s rest : Bytes} {i : Nat} (hp : p.length < 2^32)
    (h : Spec.Wire.string (p.drop i) = some (s, rest)) (hf : Fits c.tbl s)
    (h0 : 0 ∈ Spec.Kex.ids (rows c.tbl) s) :
    ∃ j, compStep c p i = .ok 0 j ∧ rest = p.drop j := by
  obtain ⟨j, h1, h2⟩ := nl_of hwf hp h hf
  refine ⟨j, ?_, h2⟩
  unfold compStep
  rw [bind_of h1]
  refine matchOr_step (ownSpec := [0]) hwf (by decide) ?_ (by rintro ⟨_, h⟩; exact absurd h (by decide)) j
  unfold Spec.Kex.pick Spec.NameList.choose
  split
  · generalize Spec.Kex.ids (rows c.tbl) s = l at h0
    cases hh : l.find? (fun x => [0].contains x) with
    | none => have := List.find?_eq_none.1 hh 0 h0; simp at this
    | some x => have := List.find?_some hh; simp at this; rw [this]
  · simp [h0]

theorem skip_of {p s rest : Bytes} {i : Nat} (hp : p.length < 2^32)
    (h : Spec.Wire.string (p.drop i) = some (s, rest)) :
    ∃ j, getSkip p p.length i = .ok () j ∧ rest = p.drop j := by
  have h1 := Props.Wire.C01_getSkip p p.length i (Nat.le_refl _) hp
  simp only [Props.Wire.msgFrom, List.take_length, h] at h1
  cases hg : getSkip p p.length i with
  | ub => rw [hg] at h1; exact h1.elim
  | err e k => rw [hg] at h1; simp at h1
  | ok u k =>
    rw [hg] at h1
    obtain ⟨_, s', hs⟩ := h1
    simp only [Option.some.injEq, Prod.mk.injEq] at hs
    exact ⟨k, rfl, hs.2⟩

theorem bool_of {p rest : Bytes} {b : UInt8} {i : Nat} (hp : p.length < 2^32)
    (h : Spec.Wire.byte (p.drop i) = some (b, rest)) :
    ∃ j, getBoolean p p.length i = .ok b j ∧ rest = p.drop j := by
  have h1 := Props.Wire.C01_getBoolean p p.length i (Nat.le_refl _) hp
  simp only [Props.Wire.msgFrom, List.take_length, h] at h1
  cases hg : getBoolean p p.length i with
  | ub => rw [hg] at h1; exact h1.elim
  | err e k => rw [hg] at h1; simp at h1
  | ok u k =>
    rw [hg] at h1
    have hs := h1.2
    simp only [Option.some.injEq, Prod.mk.injEq] at hs
    exact ⟨k, by rw [hs.1], hs.2⟩

theorem u32_of {p rest : Bytes} {v i : Nat} (hp : p.length < 2^32)
    (h : Spec.Wire.uint32 (p.drop i) = some (v, rest)) :
    ∃ j, getUint32 p p.length i = .ok v j ∧ rest = p.drop j := by
  have h1 := Props.Wire.C01_getUint32 p p.length i (Nat.le_refl _) hp
  simp only [Props.Wire.msgFrom, List.take_length, h] at h1
  cases hg : getUint32 p p.length i with
  | ub => rw [hg] at h1; exact h1.elim
  | err e k => rw [hg] at h1; simp at h1
  | ok u k =>
    rw [hg] at h1
    have hs := h1.2.2
    simp only [Option.some.injEq, Prod.mk.injEq] at hs
    exact ⟨k, by rw [hs.1], hs.2⟩

/-- C06, acceptance. Full claim: whenever every category has a common supported algorithm (and the
lists are within the limits) the negotiation succeeds. What is proved needs in addition that in no
category both lists start with a name this build does not support; `C06_unknown_first` shows
that without this the claim is false of the code. -/
theorem C06_accepts_partial (c : Cfg) (hwf : WF c.tbl) (hpk : ID_UNKNOWN ∉ c.pubKeyAlgo)
    (ex se : Bool) (p : Bytes) (hp : p.length < 2^32) (m : Spec.Kex.KexInit) (rest : Bytes)
    (hm : Spec.Kex.parse p = some (m, rest)) (hres : m.reserved = 0)
    (hfit : ∀ l ∈ [m.kex, m.hostKey, m.encC2S, m.encS2C, m.macC2S, m.macS2C, m.compC2S, m.compS2C,
        c.kexList, c.keyList.getD [], c.cipherList, c.macList], Fits c.tbl l)
    (hlead : ∀ q ∈ [(m.kex, c.kexList), (m.hostKey, c.keyList.getD []), (m.encC2S, c.cipherList),
        (m.encS2C, c.cipherList), (m.macC2S, c.macList), (m.macS2C, c.macList)],
        ¬ (LeadsUnknown c.tbl q.1 ∧ LeadsUnknown c.tbl q.2))
    (h1 : (Spec.Kex.pick (isServer c) (Spec.Kex.ids (rows c.tbl) m.kex) (Spec.Kex.ids (rows c.tbl) c.kexList)).isSome)
    (h2 : (Spec.Kex.pick (isServer c) (Spec.Kex.ids (rows c.tbl) m.hostKey) (ownHostKeyIds c)).isSome)
    (h3 : (Spec.Kex.pick (isServer c) (Spec.Kex.ids (rows c.tbl) m.encC2S) (Spec.Kex.ids (rows c.tbl) c.cipherList)).isSome)
    (h4 : (Spec.Kex.pick (isServer c) (Spec.Kex.ids (rows c.tbl) m.encS2C) (Spec.Kex.ids (rows c.tbl) c.cipherList)).isSome)
    (h5 : (Spec.Kex.pick (isServer c) (Spec.Kex.ids (rows c.tbl) m.macC2S) (Spec.Kex.ids (rows c.tbl) c.macList)).isSome)
    (h6 : (Spec.Kex.pick (isServer c) (Spec.Kex.ids (rows c.tbl) m.macS2C) (Spec.Kex.ids (rows c.tbl) c.macList)).isSome)
    (h7 : 0 ∈ Spec.Kex.ids (rows c.tbl) m.compC2S) (h8 : 0 ∈ Spec.Kex.ids (rows c.tbl) m.compS2C) :
    ∃ n j, doKexInit c false ex se p = .ok n j := by
  simp only [List.mem_cons, List.not_mem_nil, or_false, forall_eq_or_imp, forall_eq] at hfit hlead
  obtain ⟨a1, h1⟩ := Option.isSome_iff_exists.1 h1
  obtain ⟨a2, h2⟩ := Option.isSome_iff_exists.1 h2
  obtain ⟨a3, h3⟩ := Option.isSome_iff_exists.1 h3
  obtain ⟨a4, h4⟩ := Option.isSome_iff_exists.1 h4
  obtain ⟨a5, h5⟩ := Option.isSome_iff_exists.1 h5
  obtain ⟨a6, h6⟩ := Option.isSome_iff_exists.1 h6
  unfold Spec.Kex.parse at hm
  split at hm
  · simp at hm
  rename_i hl
  simp only [Option.bind_eq_bind, Option.bind_eq_some_iff, Option.pure_def, Option.some.injEq,
    Prod.mk.injEq, Prod.exists] at hm
  obtain ⟨s1, r1, e1, s2, r2, e2, s3, r3, e3, s4, r4, e4, s5, r5, e5, s6, r6, e6, s7, r7, e7,
    s8, r8, e8, s9, r9, e9, s10, r10, e10, fl, r11, e11, rv, r12, e12, rfl, rfl⟩ := hm
  simp only at *
  obtain ⟨f1, f2, f3, f4, f5, f6, f7, f8, g1, g2, g3, g4⟩ := hfit
  obtain ⟨l1, l2, l3, l4, l5, l6⟩ := hlead
  obtain ⟨j1, k1, rfl⟩ := nl_of hwf hp e1 f1
  obtain ⟨j2, k2, rfl⟩ := nl_of hwf hp e2 f2
  obtain ⟨j3, k3, rfl⟩ := cipherStep_of hwf hp e3 f3 g3 l3 h3
  obtain ⟨j4, k4, rfl⟩ := cipherStep_of hwf hp e4 f4 g3 l4 h4
  obtain ⟨j5, k5, rfl⟩ := macStep_of (aead := c.aead a3) hwf hp e5 f5 g4 l5 h5
  obtain ⟨j6, k6, rfl⟩ := macStep_of (aead := c.aead a4) hwf hp e6 f6 g4 l6 h6
  obtain ⟨j7, k7, rfl⟩ := compStep_of hwf hp e7 f7 h7
  obtain ⟨j8, k8, rfl⟩ := compStep_of hwf hp e8 f8 h8
  obtain ⟨j9, k9, rfl⟩ := skip_of hp e9
  obtain ⟨j10, k10, rfl⟩ := skip_of hp e10
  obtain ⟨j11, k11, rfl⟩ := bool_of hp e11
  obtain ⟨j12, k12, rfl⟩ := u32_of hp e12
  have hmk : matchOr c (keep ((Spec.NameList.names s1).map (nameToId c.tbl)))
      (keep ((Spec.NameList.names c.kexList).map (nameToId c.tbl))) .matchKexAlgo j1 = .ok a1 j1 :=
    matchOr_step hwf (by rw [known_keep, known_ids c.tbl hwf]) h1
      (fun hh => l1 ⟨hh.1, unknown_mem_keep c.tbl hwf _ hh.2⟩) j1
  have hkey : ∃ own, ownKeyIds c j2 = .ok own j2 ∧ known own = ownHostKeyIds c ∧
      ¬ (LeadsUnknown c.tbl s2 ∧ ID_UNKNOWN ∈ own) := by
    have hlist : ∃ own, ownIds c (c.keyList.getD []) j2 = .ok own j2 ∧
        known own = Spec.Kex.ids (rows c.tbl) (c.keyList.getD []) ∧
        ¬ (LeadsUnknown c.tbl s2 ∧ ID_UNKNOWN ∈ own) :=
      ⟨_, ownIds_of hwf g2 j2, by rw [known_keep, known_ids c.tbl hwf],
        fun hh => l2 ⟨hh.1, unknown_mem_keep c.tbl hwf _ hh.2⟩⟩
    unfold ownKeyIds ownHostKeyIds
    cases hs : c.side <;> cases hk : c.keyList <;> rw [hk] at hlist
    · exact ⟨_, rfl, known_self hpk, fun hh => hpk hh.2⟩
    · exact hlist
    · exact hlist
    · exact hlist
  obtain ⟨own, hk1, hk2, hk3⟩ := hkey
  have hmh : matchOr c (keep ((Spec.NameList.names s2).map (nameToId c.tbl))) own .matchKeyAlgo j2
      = .ok a2 j2 := matchOr_step hwf hk2 h2 hk3 j2
  unfold doKexInit
  rw [if_neg (by omega), if_neg (by simp), if_neg (by unfold COOKIE_SZ; omega)]
  rw [show (COOKIE_SZ : Nat) = 16 from rfl, bind_of k1, bind_of (ownIds_of hwf g1 j1), bind_of hmk]
  simp only
  rw [bind_of k2, bind_of hk1, bind_of hmh, bind_of k3, bind_of k4, bind_of k5, bind_of k6, bind_of k7,
    bind_of k8, bind_of k9, bind_of k10, bind_of k11, bind_of k12, if_neg (by simpa using hres)]
  exact ⟨_, _, rfl⟩

end Props.Kex
