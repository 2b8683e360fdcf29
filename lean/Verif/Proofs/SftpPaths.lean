import Verif.Proofs.SftpHandlers
/-! Components of joined paths, their length; the entries of a directory; REALPATH. -/

namespace Proofs.Sftp
open Wolf Wolf.Wire Wolf.Buffer Wolf.Sftp Wolf.NameList Spec.Wire Spec.Sftp Spec.Path Proofs.Exchange Props.Wire Proofs.Path

theorem split_append_sep (x : Byte) (hx : isSep x = true) (b : Bytes) : ∀ (a : Bytes), split (a ++ x :: b) = split a ++ split b
  | [] => by simp [split, hx]
  | y :: a => by
    have ih := split_append_sep x hx b a
    simp only [List.cons_append, split]
    by_cases hy : isSep y = true
    · rw [if_pos hy, if_pos hy, ih]; rfl
    · rw [if_neg hy, if_neg hy, ih]
      cases hs : split a with
      | nil => exact absurd hs (split_ne a)
      | cons c cs => rfl

theorem components_append_sep (a b : Bytes) : components (a ++ 47 :: b) = components a ++ components b := by
  unfold components
  rw [split_append_sep 47 (by decide) b a, List.filter_append]

theorem components_flat : ∀ (cs : List Bytes), (∀ c ∈ cs, Spec.Path.Name c) → components (flat cs) = cs
  | [], _ => components_nil
  | c :: cs, h => by
    have hc := h c (by simp)
    have ih := components_flat cs fun x hx => h x (by simp [hx])
    have h1 : components c = [c] := components_name c hc.1 fun b hb => (hc.2.2.2 b hb).1
    rw [flat_cons, show (47 :: c ++ flat cs : Bytes) = 47 :: (c ++ flat cs) from rfl, components_sep _ _ (by decide)]
    cases cs with
    | nil => simp [flat_nil, h1]
    | cons c' cs =>
      rw [flat_cons] at ih ⊢
      rw [show (47 :: c' ++ flat cs : Bytes) = 47 :: (c' ++ flat cs) from rfl] at ih ⊢
      rw [components_sep _ _ (by decide)] at ih
      rw [components_append_sep, h1, ih]
      rfl

theorem components_render (cs : List Bytes) (h : ∀ c ∈ cs, Spec.Path.Name c) : components (render cs) = cs := by
  cases cs with
  | nil => decide
  | cons c cs => exact components_flat _ h

theorem resolve_id : ∀ (cs base : List Bytes), (∀ c ∈ cs, Spec.Path.Name c) → resolve base cs = base ++ cs
  | [], base, _ => by simp [resolve]
  | c :: cs, base, h => by
    have hc := h c (by simp)
    have : resolve base (c :: cs) = resolve (go base c) cs := rfl
    rw [this, go, if_neg hc.2.1, if_neg hc.2.2.1, resolve_id cs _ fun x hx => h x (by simp [hx])]
    simp

theorem flat_dropLast_le (l : List Bytes) : (flat l.dropLast).length ≤ (flat l).length := by
  rw [List.dropLast_eq_take]
  have := flat_take_mono l (Nat.sub_le l.length 1)
  rwa [List.take_length] at this

theorem flat_resolve_le : ∀ (cs base : List Bytes), (flat (resolve base cs)).length ≤ (flat base).length + (flat cs).length
  | [], base => by simp [resolve]
  | c :: cs, base => by
    have h1 := flat_resolve_le cs (go base c)
    have h2 : (flat (go base c)).length ≤ (flat base).length + (c.length + 1) := by
      unfold go
      split
      · omega
      · split
        · have := flat_dropLast_le base; omega
        · rw [flat_snoc]; simp
    have : resolve base (c :: cs) = resolve (go base c) cs := rfl
    rw [this, flat_cons]
    simp only [List.length_append, List.length_cons]
    omega

theorem render_le (cs : List Bytes) : (render cs).length ≤ max 1 (flat cs).length := by
  cases cs with
  | nil => simp only [render, List.length_cons, List.length_nil]; omega
  | cons c cs => rw [render_eq _ (by simp)]; omega

theorem flat_filter_le (p : Bytes → Bool) : ∀ (l : List Bytes), (flat (l.filter p)).length ≤ (flat l).length
  | [] => by simp
  | c :: l => by
    have ih := flat_filter_le p l
    rw [List.filter_cons]
    split
    · rw [flat_cons, flat_cons]; simp only [List.length_append, List.length_cons]; omega
    · rw [flat_cons]; simp only [List.length_append, List.length_cons]; omega

theorem flat_split : ∀ (p : Bytes), (flat (split p)).length = p.length + 1
  | [] => by decide
  | b :: p => by
    have ih := flat_split p
    unfold split
    split
    · rw [flat_cons]; simp only [List.length_append, List.length_cons, List.length_nil]; omega
    · cases hs : split p with
      | nil => exact absurd hs (split_ne p)
      | cons c cs =>
        rw [hs, flat_cons] at ih
        simp only
        rw [flat_cons]
        simp only [List.length_append, List.length_cons] at ih ⊢
        omega

theorem flat_components (p : Bytes) : (flat (components p)).length ≤ p.length + 1 := by
  have := flat_filter_le (· ≠ []) (split p)
  rw [flat_split] at this
  exact this

theorem flat_take_le (cs : List Bytes) (k : Nat) : (flat (cs.take k)).length ≤ (flat cs).length := by
  by_cases h : k ≤ cs.length
  · have := flat_take_mono cs h
    rwa [List.take_length] at this
  · rw [List.take_of_length_le (by omega)]; exact Nat.le_refl _

/-- Whatever an absolute path of less than `n` bytes names fits into `n` bytes. -/
theorem absolute_fits (p : Bytes) (n : Nat) (hp : (47 :: p).length < n) (k : Nat) (h2 : 2 ≤ n) :
    fit n (resolve [] ((components (47 :: p)).take k)) := by
  unfold fit
  have h1 := render_le (resolve [] ((components (47 :: p)).take k))
  have h3 := flat_resolve_le ((components (47 :: p)).take k) []
  have h4 := flat_take_le (components (47 :: p)) k
  rw [components_sep _ _ (by decide)] at *
  have h5 := flat_components p
  rw [flat_nil] at h3
  simp only [List.length_nil, List.length_cons] at *
  omega

theorem render_cons (cs : List Bytes) : ∃ p, render cs = 47 :: p := by
  cases cs with
  | nil => exact ⟨[], rfl⟩
  | cons c cs => exact ⟨c ++ flat cs, by rw [render_eq _ (by simp), flat_cons]; rfl⟩

theorem start_abs (b : List Bytes) (p : Bytes) : start b (47 :: p) = [] := by
  unfold start
  cases p <;> simp [relative, isSep]

/-- The resolved path of an entry. -/
theorem entryPath_eq {E : Env} (hE : Good E) {s : Sess} {d j : Option (List Bytes)} (hs : Dirs s d j) (cs : List Bytes)
    (hcs : ∀ c ∈ cs, Spec.Path.Name c) (name : Bytes) (hn : 0 ∉ name) :
    entryPath E s (render cs) name = some (if (render cs).length + 1 + name.length < 256 then .ok (render (resolve cs (components name)))
      else .error .fatal) := by
  unfold entryPath
  by_cases hl : (render cs).length + 1 + name.length < 256
  · rw [if_pos hl, if_neg (by unfold Path.MAX_FILENAME; omega)]
    obtain ⟨p, hp⟩ := render_cons cs
    have hz : (0 : Byte) ∉ render cs ++ 47 :: name := by
      have := render_no_zero hcs
      simp [this, hn]
    have hcomp : components (render cs ++ 47 :: name) = cs ++ components name := by
      rw [components_append_sep, components_render cs hcs]
    have h1 := realPath_cases d (render cs ++ 47 :: name) E.stack hs.dNames hz (by rw [hE.stack]; omega) (by rw [hE.stack]; omega)
    have hst : start (d.getD []) (render cs ++ 47 :: name) = [] := by rw [hp]; exact start_abs _ _
    rw [hst] at h1
    obtain ⟨mem, cur, e, hh⟩ := h1.1 (by
      intro k
      rw [hE.stack, hp]
      exact absolute_fits (p ++ 47 :: name) 256 (by rw [hp] at hl; simp at hl ⊢; omega) k (by omega))
    rw [hs.default, e]
    simp only
    rw [hh.str_eq, hcomp]
    have : resolve [] (cs ++ components name) = resolve cs (components name) := by
      have : resolve [] cs = cs := by rw [resolve_id cs [] hcs]; rfl
      unfold resolve at this ⊢
      rw [List.foldl_append, this]
    rw [this]
  · rw [if_neg hl, if_pos (by unfold Path.MAX_FILENAME; omega)]

/-- The attributes and the entry of a listing for a name in the directory `cs`. -/
def entryAttr (E : Env) (cs : List Bytes) (name : Bytes) : Attr := ((E.stat (place cs name)).map ofStat).getD {}

def entryOf (E : Env) (cs : List Bytes) (name : Bytes) : Option Wolf.Sftp.Name :=
  if (render cs).length + 1 + name.length < 256 then
    (E.longName name (entryAttr E cs name)).map fun l => ⟨name, l, entryAttr E cs name⟩
  else none

def lookCalls (E : Env) (cs : List Bytes) (name : Bytes) : List Posix.Call :=
  if (render cs).length + 1 + name.length < 256 then [.lstat (place cs name) (E.stat (place cs name))] else []

theorem readEntry_eq {E : Env} (hE : Good E) {s : Sess} {d j : Option (List Bytes)} (hs : Dirs s d j) (cs : List Bytes)
    (hcs : ∀ c ∈ cs, Spec.Path.Name c) (name : Bytes) (hn : 0 ∉ name) :
    readEntry E s (render cs) name = some (entryOf E cs name, lookCalls E cs name) := by
  unfold readEntry entryOf lookCalls
  rw [entryPath_eq hE hs cs hcs name hn]
  by_cases hl : (render cs).length + 1 + name.length < 256
  · simp only [if_pos hl]
    show (match E.longName name (entryAttr E cs name) with | none => _ | some l => _) = _
    cases E.longName name (entryAttr E cs name) <;> rfl
  · simp only [if_neg hl]

/-- The entries until the first one that fails, and the calls. -/
def listing (E : Env) (dir : Nat) (cs : List Bytes) : List Bytes → List Wolf.Sftp.Name × List Posix.Call
  | [] => ([], [.readdir dir none])
  | n :: ns =>
    match entryOf E cs n with
    | none => ([], .readdir dir (some n) :: lookCalls E cs n)
    | some e => (e :: (listing E dir cs ns).1, .readdir dir (some n) :: lookCalls E cs n ++ (listing E dir cs ns).2)

theorem readEntries_eq {E : Env} (hE : Good E) {s : Sess} {d j : Option (List Bytes)} (hs : Dirs s d j) (dir : Nat) (cs : List Bytes)
    (hcs : ∀ c ∈ cs, Spec.Path.Name c) : ∀ (ns : List Bytes) (acc : List Wolf.Sftp.Name) (calls : List Posix.Call), (∀ n ∈ ns, 0 ∉ n) →
    readEntries E s dir (render cs) ns acc calls = some ((listing E dir cs ns).1.reverse ++ acc, calls ++ (listing E dir cs ns).2)
  | [], acc, calls, _ => by simp [readEntries, listing]
  | n :: ns, acc, calls, h => by
    unfold readEntries listing
    rw [readEntry_eq hE hs cs hcs n (h n (by simp))]
    cases entryOf E cs n with
    | none => simp
    | some e =>
      simp only
      rw [readEntries_eq hE hs dir cs hcs ns _ _ fun x hx => h x (by simp [hx])]
      simp

theorem entryOf_sendable {E : Env} (hE : Good E) {cs : List Bytes} {n : Bytes} {e : Wolf.Sftp.Name} (h : entryOf E cs n = some e) :
    Sendable e.atrb ∧ e.fName.length + e.lName.length + 8 + attributesSz e.atrb ≤ 650 ∧ e.fName = n ∧ e.atrb = entryAttr E cs n ∧
      E.longName n (entryAttr E cs n) = some e.lName := by
  unfold entryOf at h
  by_cases hl : (render cs).length + 1 + n.length < 256
  · rw [if_pos hl] at h
    cases hg : E.longName n (entryAttr E cs n) with
    | none => rw [hg] at h; cases h
    | some l =>
      rw [hg] at h
      simp only [Option.map_some, Option.some.injEq] at h
      subst h
      have := hE.longName _ _ _ hg
      have hsd : Sendable (entryAttr E cs n) := by
        unfold entryAttr
        cases E.stat (place cs n) with
        | none => exact .inl rfl
        | some st => exact .inr ⟨st, rfl⟩
      have h32 := (attrs_length hsd).2
      exact ⟨hsd, by simp only; omega, rfl, rfl, rfl⟩
  · rw [if_neg hl] at h; cases h

theorem listing_sum {E : Env} (hE : Good E) (dir : Nat) (cs : List Bytes) : ∀ (ns : List Bytes),
    (∀ e ∈ (listing E dir cs ns).1, Sendable e.atrb ∧ e.fName.length + e.lName.length < 2 ^ 31) ∧
    ((listing E dir cs ns).1.map fun n => n.fName.length + n.lName.length + 8 + attributesSz n.atrb).sum ≤ 650 * ns.length
  | [] => by simp [listing]
  | n :: ns => by
    obtain ⟨h1, h2⟩ := listing_sum hE dir cs ns
    unfold listing
    cases he : entryOf E cs n with
    | none => simp
    | some e =>
      obtain ⟨g1, g2, _⟩ := entryOf_sendable hE he
      simp only [List.mem_cons, List.map_cons, List.sum_cons, List.length_cons]
      refine ⟨?_, by omega⟩
      rintro x (rfl | hx)
      · exact ⟨g1, by omega⟩
      · exact h1 x hx

theorem listing_sendable {E : Env} (hE : Good E) (dir : Nat) (cs : List Bytes) : SendableNames (listing E dir cs E.entries).1.reverse := by
  obtain ⟨h1, h2⟩ := listing_sum hE dir cs E.entries
  refine ⟨fun n hn => h1 n (by simpa using hn), ?_⟩
  rw [List.map_reverse, List.sum_reverse]
  have := hE.few
  omega

theorem size0 (data : Bytes) (hw : data.length < 2 ^ 32) :
    (∃ e i, getSize data data.length 0 = .err e i ∧ string data = none) ∨
    (∃ h, getSize data data.length 0 = .ok h.length 4 ∧ string data = some (h, msgFrom data data.length (4 + h.length)) ∧
      msgFrom data data.length 4 = h ++ msgFrom data data.length (4 + h.length)) := by
  rcases size_spec data 0 hw with ⟨h, h1, h2, h3⟩ | ⟨e, i, h1, h2⟩
  · have hlen := congrArg List.length h3
    rw [msgFrom_zero, List.length_append, enc_length] at hlen
    refine .inr ⟨h, by simpa using h1, ?_, ?_⟩
    · have := string_enc h (msgFrom data data.length (0 + 4 + h.length)) (by omega)
      rw [← h3, msgFrom_zero] at this
      simpa using this
    · rw [msgFrom_zero] at h3
      have : msgFrom data data.length 4 = data.drop 4 := by simp [msgFrom]
      rw [this]
      have h5 := congrArg (List.drop 4) h3
      rw [h5, Nat.zero_add, encString]
      rw [List.append_assoc, List.drop_append_of_le_length (Nat.le_refl 4)]
      rfl
  · rw [msgFrom_zero] at h2
    exact .inl ⟨e, i, h1, h2⟩

theorem readdir_eq {E : Env} (hE : Good E) {s : Sess} {d j : Option (List Bytes)} (hs : Dirs s d j) (hi : Ids s)
    (hdn : ∀ x ∈ s.dirs, ∃ cs, x.name = render cs ∧ ∀ c ∈ cs, Spec.Path.Name c) (id : Nat) (data : Bytes) (hw : data.length < 2 ^ 32) :
    recvReadDir E s id data data.length = some (match string data with
      | none => stop s .bufferE
      | some (h, _) => if h.length > 256 then stop s .bufferE else match dirOf s h with
        | none => stop s .fatal
        | some x => if x.isEof then ans E s [] id (said 1 (asc "No More Files In Directory")) none
          else
            let l := listing E x.dir (components x.name) E.entries
            if l.1 = [] then ans E s l.2 id (said 1 (asc "No More Files In Directory")) none
            else ans E (setEof s x.id) l.2 id (.names (l.1.reverse.map toName)) none) := by
  unfold recvReadDir
  rcases size0 data hw with ⟨e, i, h1, h2⟩ | ⟨h, h1, h2, h3⟩
  · simp only [h1, h2]
  simp only [h1, h2, show MAX_HANDLE = 256 from rfl]
  by_cases hm : h.length > 256
  · rw [if_pos hm, if_pos hm]
  rw [if_neg hm, if_neg hm]
  by_cases h8 : h.length = 8
  · rw [if_neg (by rw [h8]; decide)]
    obtain ⟨hid, e1, e2, e3⟩ := decodeId_some h8
    have hlen := congrArg List.length h3
    rw [msgFrom_length _ _ _ (Nat.le_refl _), List.length_append] at hlen
    have hpair : pair (msgFrom data data.length 4) = some (hid, msgFrom data data.length (4 + h.length)) := by
      rw [h3, ← e3, encodeId_eq]
      unfold pair uint32
      simp only [List.length_append, enc32_length]
      rw [if_pos (by omega)]
      simp only [Option.bind_some, List.append_assoc, List.drop_append_of_le_length (show 4 ≤ (encUint32 hid.1).length from Nat.le_refl 4),
        List.take_append_of_le_length (show 4 ≤ (encUint32 hid.1).length from Nat.le_refl 4)]
      have t1 : (encUint32 hid.1).drop 4 = [] := rfl
      have t2 : (encUint32 hid.1).take 4 = encUint32 hid.1 := rfl
      have t3 : (encUint32 hid.2).drop 4 = [] := rfl
      have t4 : (encUint32 hid.2).take 4 = encUint32 hid.2 := rfl
      rw [t1, t2, List.nil_append, if_pos (by rw [List.length_append, enc32_length]; omega)]
      rw [List.drop_append_of_le_length (show 4 ≤ (encUint32 hid.2).length from Nat.le_refl 4),
        List.take_append_of_le_length (show 4 ≤ (encUint32 hid.2).length from Nat.le_refl 4), t3, t4]
      simp only [Option.map_some, beNat_encUint32 _ e2.1, beNat_encUint32 _ e2.2, List.nil_append]
    rcases optPair_cases (mem' := data) true 4 (by omega) (Nat.le_refl _) hw with ⟨e, k, g1, _, g3, _⟩ | ⟨v, k, g1, _, _, _, g3, _⟩
    · rw [hpair] at g3; cases g3
    · have hv : v = hid := by
        have := (g3 rfl).1
        rw [hpair] at this
        simp only [Option.some.injEq, Prod.mk.injEq] at this
        exact this.1.symm
      subst hv
      simp only [g1, findDir_eq hi e2 e3]
      cases hd : dirOf s h with
      | none => rfl
      | some x =>
        have hx : x ∈ s.dirs := List.mem_of_find?_eq_some hd
        obtain ⟨cs, hn, hcs⟩ := hdn x hx
        have hnc : components x.name = cs := by rw [hn]; exact components_render cs hcs
        simp only
        cases heof : x.isEof with
        | true =>
          simp only [if_true, answerNames, true_or, newStatus_eq hE FTP_EOF id (asc "No More Files In Directory") (by decide), fresh, ans]
          show _ = some (if mem E (.status 1 (asc "No More Files In Directory") english) then _ else _)
          unfold FTP_EOF
          cases mem E (.status 1 (asc "No More Files In Directory") english) <;> rfl
        | false =>
          simp only [Bool.false_eq_true, if_false, hnc]
          rw [hn, readEntries_eq hE hs x.dir cs hcs E.entries [] [] hE.entries]
          simp only [List.append_nil, List.nil_append, answerNames, heof, Bool.false_eq_true, or_false, List.reverse_eq_nil_iff]
          by_cases hnil : (listing E x.dir cs E.entries).1 = []
          · rw [if_pos hnil, if_pos hnil]
            simp only [newStatus_eq hE FTP_EOF id (asc "No More Files In Directory") (by decide), fresh, ans]
            show _ = some (if mem E (.status 1 (asc "No More Files In Directory") english) then _ else _)
            unfold FTP_EOF
            cases mem E (.status 1 (asc "No More Files In Directory") english) <;> rfl
          · rw [if_neg hnil, if_neg hnil, newNames_eq hE id _ (listing_sendable hE x.dir cs)]
            unfold fresh ans
            cases mem E (.names ((listing E x.dir cs E.entries).1.reverse.map toName)) <;> rfl
  · rw [if_pos (show h.length ≠ HANDLE_ID_SZ from h8), dirOf_short h8]

end Proofs.Sftp
