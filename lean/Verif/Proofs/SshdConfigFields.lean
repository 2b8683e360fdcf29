import Verif.Proofs.SshdConfigBlocks
/-!
# What each keyword sets, and which lines are accepted
-/

namespace Proofs.SshdConfig
open Wolf Wolf.Sshd Spec.SshdConfig

/-! ## Strings -/

theorem cut_clean (l : Bytes) : ∀ w ∈ cut l, ∀ c ∈ w, blank c = false := by
  induction l with
  | nil => simp [cut]
  | cons x t ih =>
    rw [cut]
    split
    · intro w hw
      rcases List.mem_cons.1 hw with rfl | hw
      · simp
      · exact ih w hw
    · rename_i hx
      have hx : blank x = false := by simpa using hx
      split
      · intro w hw c hc
        simp at hw; subst hw; simp at hc; subst hc; exact hx
      · rename_i w ws hcut
        rw [hcut] at ih
        intro w' hw c hc
        rcases List.mem_cons.1 hw with rfl | hw
        · rcases List.mem_cons.1 hc with rfl | hc
          · exact hx
          · exact ih w (by simp) c hc
        · exact ih w' (by simp [hw]) c hc

theorem value_clean (l : Bytes) : ∀ c ∈ value l, blank c = false := by
  rw [value]
  cases h : (words l).tail with
  | nil => simp
  | cons w ws =>
    have : w ∈ words l := List.mem_of_mem_tail (by rw [h]; simp)
    exact cut_clean l w (List.mem_filter.1 this).1

theorem strip_end {t : Bytes} (h : ∀ c ∈ t, blank c = false) :
    (t.reverse.dropWhile (fun c => decide (c = 10 ∨ c = 32 ∨ c = 13))).reverse = t := by
  have : t.reverse.dropWhile (fun c => decide (c = 10 ∨ c = 32 ∨ c = 13)) = t.reverse := by
    have h' : ∀ c ∈ t.reverse, blank c = false := fun c hc => h c (List.mem_reverse.1 hc)
    generalize t.reverse = u at h'
    cases u with
    | nil => rfl
    | cons c u =>
      have hb := h' c (by simp)
      rw [dropWhile_no]
      simp only [decide_eq_false_iff_not]
      rintro (e | e | e) <;> rw [e] at hb <;> cases hb
  rw [this, List.reverse_reverse]

theorem createString_value (l : Bytes) : createString (value l) = if value l = [] then .error .badArgument else .ok (value l) := by
  have h := value_clean l
  generalize value l = v at h
  cases v with
  | nil => rfl
  | cons c t =>
    have hc : c ≠ 32 := by intro e; have := h c (by simp); rw [e] at this; cases this
    rw [createString, List.dropWhile_cons, if_neg (by simpa using hc), if_neg (by simp)]
    simp only
    rw [strip_end (fun x hx => h x (by simp [hx]))]

theorem rest_head (l : Bytes) : ∀ c, (rest l).head? = some c → blank c = false := dropWhile_head _

theorem createString_rest (l : Bytes) : createString (rest l) = if rest l = [] then .error .badArgument else .ok (argument l) := by
  have h := rest_head l
  rw [argument]
  change _ = if rest l = [] then _ else Except.ok (((rest l).reverse.dropWhile (fun c => decide (c = 10 ∨ c = 32 ∨ c = 13))).reverse)
  generalize rest l = r at h
  cases r with
  | nil => rfl
  | cons c t =>
    have hb := h c rfl
    have hc : c ≠ 32 := by intro e; rw [e] at hb; cases hb
    have hc' : ¬(c = 10 ∨ c = 32 ∨ c = 13) := by rintro (e | e | e) <;> rw [e] at hb <;> cases hb
    rw [createString, List.dropWhile_cons, if_neg (by simpa using hc), if_neg (by simp)]
    simp only
    rw [List.reverse_cons]
    have : (t.reverse ++ [c]).dropWhile (fun c => decide (c = 10 ∨ c = 32 ∨ c = 13)) =
        t.reverse.dropWhile (fun c => decide (c = 10 ∨ c = 32 ∨ c = 13)) ++ [c] := by
      generalize t.reverse = u
      induction u with
      | nil => simp [hc']
      | cons x u ih =>
        rw [List.cons_append, List.dropWhile_cons, List.dropWhile_cons]
        split
        · exact ih
        · rfl
    rw [this, List.reverse_append]; rfl

theorem stored_value {l : Bytes} {f : Bytes → Conf} {c' : Conf} (h : stored (value l) f = .ok c') : value l ≠ [] ∧ c' = f (value l) := by
  rw [stored, createString_value] at h
  by_cases hv : value l = []
  · rw [if_pos hv] at h; cases h
  · rw [if_neg hv] at h; cases h; exact ⟨hv, rfl⟩

theorem stored_rest {l : Bytes} {f : Bytes → Conf} {c' : Conf} (h : stored (rest l) f = .ok c') : rest l ≠ [] ∧ c' = f (argument l) := by
  rw [stored, createString_rest] at h
  by_cases hv : rest l = []
  · rw [if_pos hv] at h; cases h
  · rw [if_neg hv] at h; cases h; exact ⟨hv, rfl⟩

theorem yesNo_some {v : Bytes} {b : Bool} (h : yesNo v = some b) : (v = text "yes" ∧ b = true) ∨ (v = text "no" ∧ b = false) := by
  rw [yesNo] at h
  split at h
  · cases h; right; exact ⟨‹_›, rfl⟩
  · split at h
    · cases h; left; exact ⟨‹_›, rfl⟩
    · cases h

theorem permitRoot_some {v : Bytes} {n : Nat} (h : permitRootOf v = some n) :
    (v = text "no" ∧ n = 0) ∨ (v = text "yes" ∧ n = 1) ∨
    ((v = text "prohibit-password" ∨ v = text "without-password") ∧ n = 2) ∨ (v = text "forced-commands-only" ∧ n = 3) := by
  rw [permitRootOf] at h
  split at h
  · cases h; exact .inl ⟨‹_›, rfl⟩
  · split at h
    · cases h; exact .inr (.inl ⟨‹_›, rfl⟩)
    · split at h
      · cases h; exact .inr (.inr (.inl ⟨‹_›, rfl⟩))
      · split at h
        · cases h; exact .inr (.inr (.inr ⟨‹_›, rfl⟩))
        · cases h

theorem privSep_some {v : Bytes} {n : Nat} (h : privSepOf v = some n) :
    (v = text "yes" ∧ n = 0) ∨ (v = text "sandbox" ∧ n = 1) ∨ (v = text "no" ∧ n = 2) := by
  rw [privSepOf] at h
  split at h
  · cases h; exact .inr (.inl ⟨‹_›, rfl⟩)
  · split at h
    · cases h; exact .inl ⟨‹_›, rfl⟩
    · split at h
      · cases h; exact .inr (.inr ⟨‹_›, rfl⟩)
      · cases h

theorem orBad_ok {α : Type} {o : Option α} {f : α → Conf} {c' : Conf} (h : orBad o f = .ok c') : ∃ a, o = some a ∧ c' = f a := by
  cases o with
  | none => cases h
  | some a => cases h; exact ⟨a, rfl, rfl⟩

/-! ## Fields -/

/-- Proves that other options leave a field alone. -/
macro "others" : tactic => `(tactic|
  (intro t c v r c' hne h
   cases t <;> first | exact absurd rfl hne | skip
   all_goals simp only [setOption, stored, orBad] at h
   all_goals repeat' split at h
   all_goals first | (cases h; rfl) | cases h))

def ToggleSem (l : Bytes) (b : Bool) : Prop := (value l = text "yes" ∧ b = true) ∨ (value l = text "no" ∧ b = false)

theorem sets_password : Sets Conf.passwordAuth "PasswordAuthentication" ToggleSem :=
  sets_of .passwordAuth (by decide +kernel) (by decide +kernel)
    (fun c l c' h => by obtain ⟨a, h1, rfl⟩ := orBad_ok h; exact yesNo_some h1) (by others)

theorem sets_pubkey : Sets Conf.pubKeyAuth "PubkeyAuthentication" ToggleSem :=
  sets_of .pubkeyAuth (by decide +kernel) (by decide +kernel)
    (fun c l c' h => by obtain ⟨a, h1, rfl⟩ := orBad_ok h; exact yesNo_some h1) (by others)

theorem sets_empty : Sets Conf.permitEmpty "PermitEmptyPasswords" ToggleSem :=
  sets_of .permitEmptyPw (by decide +kernel) (by decide +kernel)
    (fun c l c' h => by obtain ⟨a, h1, rfl⟩ := orBad_ok h; exact yesNo_some h1) (by others)

theorem sets_strict : Sets Conf.strictModes "StrictModes" ToggleSem :=
  sets_of .strictModes (by decide +kernel) (by decide +kernel)
    (fun c l c' h => by obtain ⟨a, h1, rfl⟩ := orBad_ok h; exact yesNo_some h1) (by others)

theorem sets_root : Sets Conf.permitRoot "PermitRootLogin" (fun l n =>
    (value l = text "no" ∧ n = 0) ∨ (value l = text "yes" ∧ n = 1) ∨
    ((value l = text "prohibit-password" ∨ value l = text "without-password") ∧ n = 2) ∨
    (value l = text "forced-commands-only" ∧ n = 3)) :=
  sets_of .permitRoot (by decide +kernel) (by decide +kernel)
    (fun c l c' h => by obtain ⟨a, h1, rfl⟩ := orBad_ok h; exact permitRoot_some h1) (by others)

theorem sets_sep : Sets Conf.privSep "UsePrivilegeSeparation" (fun l n =>
    (value l = text "yes" ∧ n = 0) ∨ (value l = text "sandbox" ∧ n = 1) ∨ (value l = text "no" ∧ n = 2)) :=
  sets_of .privSep (by decide +kernel) (by decide +kernel)
    (fun c l c' h => by obtain ⟨a, h1, rfl⟩ := orBad_ok h; exact privSep_some h1) (by others)

theorem sets_chroot : Sets Conf.chrootDir "ChrootDirectory" (fun l x => x = some (value l)) :=
  sets_of .chrootDir (by decide +kernel) (by decide +kernel)
    (fun c l c' h => by obtain ⟨_, rfl⟩ := stored_value h; rfl) (by others)

theorem sets_keys : Sets Conf.authKeysFile "AuthorizedKeysFile" (fun l x => x = some (value l)) :=
  sets_of .authKeysFile (by decide +kernel) (by decide +kernel)
    (fun c l c' h => by obtain ⟨_, rfl⟩ := stored_value h; rfl) (by others)

theorem sets_keysSet : Sets Conf.authKeysFileSet "AuthorizedKeysFile" (fun _ x => x = true) :=
  sets_of .authKeysFile (by decide +kernel) (by decide +kernel)
    (fun c l c' h => by obtain ⟨_, rfl⟩ := stored_value h; rfl) (by others)

theorem sets_ca : Sets Conf.userCAKeysFile "TrustedUserCAKeys" (fun l x => x = some (value l)) :=
  sets_of .trustedUserCA (by decide +kernel) (by decide +kernel)
    (fun c l c' h => by obtain ⟨_, rfl⟩ := stored_value h; rfl) (by others)

theorem sets_hostKey : Sets Conf.hostKeyFile "HostKey" (fun l x => x = some (value l)) :=
  sets_of .hostKey (by decide +kernel) (by decide +kernel)
    (fun c l c' h => by obtain ⟨_, rfl⟩ := stored_value h; rfl) (by others)

theorem sets_hostCert : Sets Conf.hostCertFile "HostCertificate" (fun l x => x = some (value l)) :=
  sets_of .hostCert (by decide +kernel) (by decide +kernel)
    (fun c l c' h => by obtain ⟨_, rfl⟩ := stored_value h; rfl) (by others)

theorem sets_pid : Sets Conf.pidFile "PidFile" (fun l x => x = some (value l)) :=
  sets_of .pidFile (by decide +kernel) (by decide +kernel)
    (fun c l c' h => by obtain ⟨_, rfl⟩ := stored_value h; rfl) (by others)

theorem sets_banner : Sets Conf.banner "Banner" (fun l x => x = some (value l)) :=
  sets_of .banner (by decide +kernel) (by decide +kernel)
    (fun c l c' h => by obtain ⟨_, rfl⟩ := stored_value h; rfl) (by others)

theorem sets_force : Sets Conf.forceCmd "ForceCommand" (fun l x => x = some (argument l)) :=
  sets_of .forceCmd (by decide +kernel) (by decide +kernel)
    (fun c l c' h => by obtain ⟨_, rfl⟩ := stored_rest h; rfl) (by others)

theorem sets_upn : Sets Conf.upnDomains "AuthorizedUPNDomains" (fun l x => x = some (argument l)) :=
  sets_of .upnDomains (by decide +kernel) (by decide +kernel)
    (fun c l c' h => by obtain ⟨_, rfl⟩ := stored_rest h; rfl) (by others)

theorem digits_all {s : Bytes} (h : ∀ c ∈ s, 48 ≤ c ∧ c ≤ 57) : digits s = decimal s := by
  have : s.takeWhile (fun c => decide (48 ≤ c ∧ c ≤ 57)) = s := by
    have := List.takeWhile_append_of_pos (p := fun c => decide (48 ≤ c ∧ c ≤ 57)) (l₁ := s) (l₂ := []) (fun c hc => by simpa using h c hc)
    simpa using this
  rw [digits, this, decimal]

theorem atol_all {s : Bytes} (h : ∀ c ∈ s, 48 ≤ c ∧ c ≤ 57) : atol s = (decimal s : Int) := by
  have hd : s.dropWhile isSpace = s := by
    cases s with
    | nil => rfl
    | cons c t =>
      have := h c (by simp)
      rw [dropWhile_no]
      simp only [isSpace, decide_eq_false_iff_not, not_or, not_and]
      constructor
      · rintro rfl; exact absurd this (by decide)
      · intro _ h2
        have a := UInt8.le_iff_toNat_le.1 this.1
        have b := UInt8.le_iff_toNat_le.1 h2
        simp at a b; omega
  rw [atol, hd]
  cases s with
  | nil => rfl
  | cons c t =>
    have h0 := h c (by simp)
    have e1 : c ≠ 45 := by rintro rfl; exact absurd h0 (by decide)
    have e2 : c ≠ 43 := by rintro rfl; exact absurd h0 (by decide)
    split
    · rename_i heq; cases heq; exact absurd rfl e1
    · rename_i heq; cases heq; exact absurd rfl e2
    · rw [digits_all h]

theorem sets_port : Sets Conf.port "Port" (fun l n => 1 ≤ n ∧ n ≤ 65535 ∧ ((∀ c ∈ value l, 48 ≤ c ∧ c ≤ 57) → n = decimal (value l))) :=
  sets_of .port (by decide +kernel) (by decide +kernel)
    (fun c l c' h => by
      simp only [setOption] at h
      cases hg : getConfigInt (value l) false with
      | none => rw [hg] at h; cases h
      | some n =>
        rw [hg] at h; simp only at h
        split at h
        · cases h
        · split at h
          · cases h
            refine ⟨by show 1 ≤ n.toNat; omega, by show n.toNat ≤ 65535; omega, fun hd => ?_⟩
            show n.toNat = _
            rw [getConfigInt] at hg
            split at hg
            · cases hg
            · simp only [Bool.false_eq_true, false_and, if_false, atol_all hd] at hg
              split at hg
              · cases hg
              · split at hg
                · cases hg
                · cases hg; simp
          · cases h)
    (by others)

/-! ## Lines that are accepted -/

theorem options_prefix : ∀ o ∈ options, ∀ k ∈ keywords, text k <+: o.2 → o.2 = text k := by decide +kernel

theorem keyword_prefix {l kw : Bytes} (hne : kw ≠ []) (hblank : ∀ c ∈ kw, isSpace c = false) (hp : kw <+: strip l) : kw <+: keyword l := by
  obtain ⟨t, hs⟩ := hp
  rw [keyword, ← words_strip, ← hs]
  have hd : (kw ++ t).dropWhile isSpace = kw ++ t := by
    cases kw with
    | nil => exact absurd rfl hne
    | cons x k => rw [List.cons_append, dropWhile_no (hblank x (by simp))]
  have hn : (nextWord (kw ++ t)).1 = kw ++ t.takeWhile (fun c => !isSpace c) := by
    rw [nextWord]; simp only
    rw [hd, List.takeWhile_append_of_pos (fun c hc => by simp [hblank c hc])]
  rcases nextWord_spec (kw ++ t) with ⟨h1, h2⟩ | ⟨h1, h2, h3⟩
  · rw [hn] at h1; simp at h1; exact absurd h1.1 hne
  · rw [h2, List.headD_cons, hn]; exact List.prefix_append _ _

/-- An accepted line with one of the keywords. -/
theorem apply_known {F : Files} {load : Nodes → Bytes → Except Err Nodes} {n m : Nodes} {l kw : Bytes} {tag : Tag}
    (ho : (tag, kw) ∈ options) (hk : keyword l = kw) (h : applyLine F load n l = some m) :
    (tag = .incl ∧ ∃ fs, includeNames F (value l) = .ok fs) ∨
    (tag = .matchBlock ∧ selOk (words l).tail false = true ∧ ∃ c c', crit (words l).tail c = .ok c') ∨
    ∃ c c', setOption tag c (value l) (rest l) = .ok c' := by
  have hknown : known l = true := by
    rw [known, List.any_eq_true]
    exact ⟨_, ho, by simp [hk]⟩
  rw [applyLine] at h
  cases hf : options.find? (fun o => o.2.isPrefixOf (strip l)) with
  | none => rw [hf, skipped, hknown] at h; cases h
  | some o =>
    obtain ⟨tag', kw'⟩ := o
    rw [hf] at h; simp only at h
    have hmem := List.mem_of_find?_eq_some hf
    have hpre : kw' <+: strip l := by simpa using List.find?_some hf
    obtain ⟨hc, hl⟩ := options_names _ hmem
    simp only at hc hl
    have ht : ∀ k ∈ keywords, text k <+: keyword l → keyword l = text k := by
      rw [hk]; exact options_prefix _ ho
    obtain ⟨e1, e2, e3, e4⟩ := line_parts hmem ht hpre
    have htag : tag' = tag := by
      have a := options_nodup _ hmem
      have b := options_nodup _ ho
      simp only at a b
      rw [← hk, e1, a] at b
      cases b; rfl
    subst htag
    rw [parseConfigLine, hf] at h
    simp only [← e2, e4] at h
    by_cases hv : (value l).length ≥ MAX_FILENAME_SZ
    · rw [if_pos hv] at h; cases h
    · rw [if_neg hv] at h
      by_cases t1 : tag' = .incl
      · subst t1
        left
        refine ⟨rfl, ?_⟩
        simp only at h
        cases hi : includeNames F (value l) with
        | error e => rw [hi] at h; cases h
        | ok fs => exact ⟨fs, rfl⟩
      · by_cases t2 : tag' = .matchBlock
        · subst t2
          right; left
          simp only at h
          rw [handleMatch_words, e3] at h
          cases hsel : selOk (words l).tail false with
          | false => rw [hsel] at h; cases h
          | true =>
            rw [hsel] at h
            cases hh : n.list.head? with
            | none => rw [hh] at h; cases h
            | some head =>
              rw [hh] at h
              simp only [Bool.not_true, Bool.false_eq_true, if_false] at h
              cases hcr : crit (words l).tail { head with usr := none, grp := none } with
              | error e => rw [hcr] at h; cases h
              | ok c => exact ⟨rfl, rfl, _, c, hcr⟩
        · right; right
          cases hn : n.list[n.cur]? with
          | none => exfalso; cases tag' <;> simp_all
          | some c =>
            cases hs : setOption tag' c (value l) (rest l) with
            | ok c' => exact ⟨c, c', hs⟩
            | error e => exfalso; cases tag' <;> simp_all

theorem include_plain {F : Files} {v : Bytes} (hne : v ≠ []) (h : (42 : UInt8) ∉ v) : includeNames F v = .ok [v] := by
  rw [includeNames, if_neg hne]
  simp only
  split
  · rename_i revPre heq
    exfalso
    apply h
    have : (42 : UInt8) ∈ v.reverse.drop (v.reverse.takeWhile (fun c => decide (c ≠ 47 ∧ c ≠ 42))).length := by rw [heq]; simp
    exact List.mem_reverse.1 (List.mem_of_mem_drop this)
  · rfl

/-- An accepted `Include` line of a plain name has loaded the file. -/
theorem apply_include {F : Files} {load : Nodes → Bytes → Except Err Nodes} {n m : Nodes} {l : Bytes}
    (hk : keyword l = text "Include") (h : applyLine F load n l = some m) (hs : (42 : UInt8) ∉ value l) :
    ∃ m', load n (value l) = .ok m' := by
  have ho : (Tag.incl, text "Include") ∈ options := by decide +kernel
  have hknown : known l = true := by
    rw [known, List.any_eq_true]
    exact ⟨_, ho, by simp [hk]⟩
  rw [applyLine] at h
  cases hf : options.find? (fun o => o.2.isPrefixOf (strip l)) with
  | none => rw [hf, skipped, hknown] at h; cases h
  | some o =>
    obtain ⟨tag', kw'⟩ := o
    rw [hf] at h; simp only at h
    have hmem := List.mem_of_find?_eq_some hf
    have hpre : kw' <+: strip l := by simpa using List.find?_some hf
    obtain ⟨e1, e2, e3, e4⟩ := line_parts hmem (by rw [hk]; exact options_prefix _ ho) hpre
    have htag : tag' = .incl := by
      have a := options_nodup _ hmem
      have b := options_nodup _ ho
      simp only at a b
      rw [← hk, e1, a] at b
      cases b; rfl
    subst htag
    rw [parseConfigLine, hf] at h
    simp only [← e2, e4] at h
    by_cases hv : (value l).length ≥ MAX_FILENAME_SZ
    · rw [if_pos hv] at h; cases h
    · rw [if_neg hv] at h
      by_cases hne : value l = []
      · rw [hne] at h; cases h
      · rw [include_plain hne hs] at h
        simp only [loadAll] at h
        cases hl : load n (value l) with
        | error e => rw [hl] at h; cases h
        | ok m' => exact ⟨m', rfl⟩

theorem selOk_selectors : ∀ (ws : List Bytes) (f : Bool) (c c' : Conf), selOk ws f = true → crit ws c = .ok c' → Selectors ws
  | [], _, _, _, _, _ => trivial
  | [k], f, c, c', h1, h2 => by
    simp only [selOk, decide_eq_true_eq] at h1
    rw [crit, if_pos h1] at h2; cases h2
  | k :: a :: r, f, c, c', h1, h2 => by
    rw [selOk] at h1
    split at h1
    · rename_i hk
      refine ⟨hk, ?_⟩
      rw [crit] at h2
      split at h2
      · exact selOk_selectors r true _ c' h1 h2
      · rw [if_pos (hk.resolve_left ‹_›)] at h2
        exact selOk_selectors r true _ c' h1 h2
    · cases h1

theorem rest_value {l : Bytes} (h : value l = []) {tag : Tag} {kw : Bytes} (ho : (tag, kw) ∈ options) (hk : keyword l = kw)
    (hp : kw <+: strip l) : rest l = [] := by
  obtain ⟨_, _, _, e4⟩ := line_parts ho (by rw [hk]; exact options_prefix _ ho) hp
  rw [h] at e4
  have hh := rest_head l
  cases hr : rest l with
  | nil => rfl
  | cons c t =>
    have hb := hh c (by rw [hr]; rfl)
    rw [hr, List.takeWhile_cons, if_pos (by rw [blank_eq] at hb; simp [hb])] at e4
    cases e4

theorem known_prefix {F : Files} {load : Nodes → Bytes → Except Err Nodes} {n m : Nodes} {l kw : Bytes} {tag : Tag}
    (ho : (tag, kw) ∈ options) (hk : keyword l = kw) (h : applyLine F load n l = some m) : kw <+: strip l := by
  have hknown : known l = true := by
    rw [known, List.any_eq_true]
    exact ⟨_, ho, by simp [hk]⟩
  rw [applyLine] at h
  cases hf : options.find? (fun o => o.2.isPrefixOf (strip l)) with
  | none => rw [hf, skipped, hknown] at h; cases h
  | some o =>
    obtain ⟨tag', kw'⟩ := o
    have hmem := List.mem_of_find?_eq_some hf
    have hpre : kw' <+: strip l := by simpa using List.find?_some hf
    obtain ⟨e1, _⟩ := line_parts hmem (by rw [hk]; exact options_prefix _ ho) hpre
    rw [← hk, e1]; exact hpre

theorem getConfigInt_nil (b : Bool) : getConfigInt [] b = none := by simp [getConfigInt]

theorem acceptable {F : Files} {load : Nodes → Bytes → Except Err Nodes} {n m : Nodes} {l : Bytes} (h : applyLine F load n l = some m) :
    Acceptable l := by
  have set : ∀ {tag kw}, (tag, kw) ∈ options → tag ≠ .incl → tag ≠ .matchBlock → keyword l = kw →
      ∃ c c', setOption tag c (value l) (rest l) = .ok c' := by
    intro tag kw ho t1 t2 hk
    rcases apply_known ho hk h with ⟨e, _⟩ | ⟨e, _⟩ | h'
    · exact absurd e t1
    · exact absurd e t2
    · exact h'
  constructor
  · rw [applyLine] at h
    cases hf : options.find? (fun o => o.2.isPrefixOf (strip l)) with
    | none =>
      rw [hf] at h
      simp only at h
      cases hs : skipped l with
      | false => rw [hs] at h; cases h
      | true =>
        rw [skipped, Bool.and_eq_true, Bool.or_eq_true] at hs
        rcases hs.2 with hs | hs
        · right; left; exact of_decide_eq_true hs
        · left; exact of_decide_eq_true hs
    | some o =>
      right; right
      have hmem := List.mem_of_find?_eq_some hf
      have hpre : o.2 <+: strip l := by simpa using List.find?_some hf
      obtain ⟨hc, hl⟩ := options_names _ hmem
      have hne : o.2 ≠ [] := by intro e; rw [e] at hl; simp at hl
      have hp := keyword_prefix hne (fun c hx => (hc c hx).1) hpre
      have : ∀ o ∈ options, ∃ k ∈ keywords, text k = o.2 := by decide +kernel
      obtain ⟨k, hk, e⟩ := this _ hmem
      exact ⟨k, hk, by rw [e]; exact hp⟩
  · intro k hk hl
    have tog : ∀ tag, (tag, text k) ∈ options → tag ≠ .incl → tag ≠ .matchBlock →
        (∀ c c', setOption tag c (value l) (rest l) = .ok c' → ∃ b, yesNo (value l) = some b) → value l = text "yes" ∨ value l = text "no" := by
      intro tag ho t1 t2 hh
      obtain ⟨c, c', hs⟩ := set ho t1 t2 hl
      obtain ⟨b, hb⟩ := hh c c' hs
      rcases yesNo_some hb with ⟨e, _⟩ | ⟨e, _⟩
      · exact .inl e
      · exact .inr e
    simp only [List.mem_cons, List.not_mem_nil, or_false] at hk
    rcases hk with rfl | rfl | rfl | rfl
    · exact tog .permitEmptyPw (by decide +kernel) (by simp) (by simp) (fun c c' hs => by obtain ⟨b, hb, _⟩ := orBad_ok hs; exact ⟨b, hb⟩)
    · exact tog .passwordAuth (by decide +kernel) (by simp) (by simp) (fun c c' hs => by obtain ⟨b, hb, _⟩ := orBad_ok hs; exact ⟨b, hb⟩)
    · exact tog .pubkeyAuth (by decide +kernel) (by simp) (by simp) (fun c c' hs => by obtain ⟨b, hb, _⟩ := orBad_ok hs; exact ⟨b, hb⟩)
    · exact tog .strictModes (by decide +kernel) (by simp) (by simp) (fun c c' hs => by obtain ⟨b, hb, _⟩ := orBad_ok hs; exact ⟨b, hb⟩)
  · intro hl
    obtain ⟨c, c', hs⟩ := set (tag := .permitRoot) (kw := text "PermitRootLogin") (by decide +kernel) (by simp) (by simp) hl
    obtain ⟨a, ha, _⟩ := orBad_ok hs
    rcases permitRoot_some ha with ⟨e, _⟩ | ⟨e, _⟩ | ⟨e | e, _⟩ | ⟨e, _⟩ <;> rw [e] <;> decide +kernel
  · intro hl
    obtain ⟨c, c', hs⟩ := set (tag := .privSep) (kw := text "UsePrivilegeSeparation") (by decide +kernel) (by simp) (by simp) hl
    obtain ⟨a, ha, _⟩ := orBad_ok hs
    rcases privSep_some ha with ⟨e, _⟩ | ⟨e, _⟩ | ⟨e, _⟩ <;> rw [e] <;> decide +kernel
  · intro k hk hl hv
    have file : ∀ tag, (tag, text k) ∈ options → tag ≠ .incl → tag ≠ .matchBlock →
        (∀ c c', setOption tag c [] [] = .ok c' → False) → False := by
      intro tag ho t1 t2 hh
      obtain ⟨c, c', hs⟩ := set ho t1 t2 hl
      rw [rest_value hv ho hl (known_prefix ho hl h), hv] at hs
      exact hh c c' hs
    simp only [List.mem_cons, List.not_mem_nil, or_false] at hk
    rcases hk with rfl | rfl | rfl | rfl | rfl | rfl | rfl | rfl | rfl | rfl | rfl | rfl | rfl
    · exact file .authKeysFile (by decide +kernel) (by simp) (by simp) (fun c c' hs => by cases hs)
    · exact file .hostKey (by decide +kernel) (by simp) (by simp) (fun c c' hs => by cases hs)
    · exact file .hostCert (by decide +kernel) (by simp) (by simp) (fun c c' hs => by cases hs)
    · exact file .chrootDir (by decide +kernel) (by simp) (by simp) (fun c c' hs => by cases hs)
    · exact file .trustedUserCA (by decide +kernel) (by simp) (by simp) (fun c c' hs => by cases hs)
    · exact file .pidFile (by decide +kernel) (by simp) (by simp) (fun c c' hs => by cases hs)
    · exact file .banner (by decide +kernel) (by simp) (by simp) (fun c c' hs => by cases hs)
    · exact file .forceCmd (by decide +kernel) (by simp) (by simp) (fun c c' hs => by cases hs)
    · exact file .upnDomains (by decide +kernel) (by simp) (by simp) (fun c c' hs => by cases hs)
    · exact file .port (by decide +kernel) (by simp) (by simp) (fun c c' hs => by rw [setOption, getConfigInt_nil] at hs; cases hs)
    · exact file .protocol (by decide +kernel) (by simp) (by simp) (fun c c' hs => by rw [setOption, getConfigInt_nil] at hs; cases hs)
    · exact file .loginGrace (by decide +kernel) (by simp) (by simp) (fun c c' hs => by rw [setOption, getConfigInt_nil] at hs; cases hs)
    · have ho : (Tag.incl, text "Include") ∈ options := by decide +kernel
      rcases apply_known ho hl h with ⟨_, fs, e⟩ | ⟨e, _⟩ | ⟨c, c', e⟩
      · rw [hv] at e; cases e
      · cases e
      · cases e
  · intro hm
    have hl : keyword l = text "Match" := by simpa [isMatch] using hm
    have ho : (Tag.matchBlock, text "Match") ∈ options := by decide +kernel
    rcases apply_known ho hl h with ⟨e, _⟩ | ⟨_, hs, c, c', hc⟩ | ⟨c, c', e⟩
    · cases e
    · refine ⟨?_, selOk_selectors _ _ _ _ hs hc⟩
      intro e; rw [e] at hs; cases hs
    · cases e

theorem run_mem {F : Files} {load : Nodes → Bytes → Except Err Nodes} : ∀ {ls : List Bytes} {n n' : Nodes},
    runLines F load ls n = some n' → ∀ l ∈ ls, ∃ m m', applyLine F load m l = some m'
  | [], _, _, _, _, hl => by cases hl
  | x :: ls, n, n', h, l, hl => by
    rw [runLines] at h
    cases ha : applyLine F load n x with
    | none => rw [ha] at h; cases h
    | some m =>
      rw [ha] at h
      rcases List.mem_cons.1 hl with rfl | hl
      · exact ⟨n, m, ha⟩
      · exact run_mem h l hl

theorem load_run {F : Files} {k : Nat} {n n' : Nodes} {filename file : Bytes} (hf : F.file filename = some file) (ht : Tame file)
    (h : configLoad F (k + 1) n filename = .ok n') :
    ∃ n1, runLines F (configLoad F k) (fileLines file) n = some n1 ∧ n'.list = n1.list := by
  rw [configLoad, hf] at h
  simp only at h
  cases hl : loadLines F (configLoad F k) (readLines file.length file) n with
  | error e => rw [hl] at h; cases h
  | ok n1 =>
    rw [hl] at h
    cases h
    exact ⟨n1, readLines_run _ _ _ _ (Nat.le_refl _) ht hl, rfl⟩

end Proofs.SshdConfig
