import Verif.Proofs.Kex
import Verif.Proofs.AlgoList
/-! Helper lemmas for the agreement of two ends on the negotiated algorithms. -/

namespace Wolf.Kex
open Wolf Wolf.Wire Wolf.NameList

theorem spec_uint32_enc (n : Nat) (hn : n < 4294967296) (rest : Bytes) :
    Spec.Wire.uint32 (c32toa n ++ rest) = some (n, rest) := by
  unfold Spec.Wire.uint32
  have hl : (c32toa n).length = 4 := rfl
  have hn' : n < 2^32 := hn
  rw [if_pos (by simp [hl]), ← hl, List.take_left, List.drop_left, c32toa_eq, beNat_encUint32 _ hn]

theorem spec_string_enc (s : Bytes) (hs : s.length < 4294967296) (rest : Bytes) :
    Spec.Wire.string (c32toa s.length ++ (s ++ rest)) = some (s, rest) := by
  unfold Spec.Wire.string
  rw [spec_uint32_enc _ hs]
  simp

/-- What `kexInitPayload` puts in each list. -/
def ownKeyBody (c : Cfg) : Bytes :=
  match c.side, c.keyList with
    | .server, none => buildNameList c.tbl c.pubKeyAlgo
    | _, l => l.getD []

def plusExt (s : Side) : Bytes :=
  match s with
  | .client => asc ",ext-info-c"
  | .server => asc ",ext-info-s"

theorem body_length (l : Bytes) : (Spec.NameList.body l).length = algoListSz l := by
  rw [← take_algoListSz, List.length_take, Nat.min_eq_left (algoListSz_le l)]

theorem body_le (l : Bytes) : (Spec.NameList.body l).length ≤ l.length := by
  rw [body_length]; exact algoListSz_le l

theorem copy_eq (l : Bytes) : copyNameList l (algoListSz l)
    = c32toa (Spec.NameList.body l).length ++ Spec.NameList.body l := by
  unfold copyNameList
  rw [take_algoListSz, body_length]

/-- A string field on the wire. -/
def fld (s : Bytes) : Bytes := c32toa s.length ++ s

theorem string_fld (s : Bytes) (hs : s.length < 4294967296) (rest : Bytes) :
    Spec.Wire.string (fld s ++ rest) = some (s, rest) := by
  unfold fld
  rw [List.append_assoc, spec_string_enc s hs]

theorem fld_length (s : Bytes) : (fld s).length = 4 + s.length := by
  unfold fld; rw [List.length_append]; rfl

theorem copy_fld (l : Bytes) : copyNameList l (algoListSz l) = fld (Spec.NameList.body l) := by
  unfold copyNameList fld
  rw [take_algoListSz, body_length]

def layout (cookie s1 s2 s3 s4 s5 s6 s7 s8 s9 s10 tl : Bytes) : Bytes :=
  cookie ++ (fld s1 ++ (fld s2 ++ (fld s3 ++ (fld s4 ++ (fld s5 ++ (fld s6 ++ (fld s7 ++ (fld s8 ++
    (fld s9 ++ (fld s10 ++ tl))))))))))

theorem parse_layout (cookie s1 s2 s3 s4 s5 s6 s7 s8 s9 s10 : Bytes) (hc : cookie.length = 16)
    (h1 : s1.length < 4294967296) (h2 : s2.length < 4294967296) (h3 : s3.length < 4294967296)
    (h4 : s4.length < 4294967296) (h5 : s5.length < 4294967296) (h6 : s6.length < 4294967296)
    (h7 : s7.length < 4294967296) (h8 : s8.length < 4294967296) (h9 : s9.length < 4294967296)
    (h10 : s10.length < 4294967296) :
    Spec.Kex.parse (layout cookie s1 s2 s3 s4 s5 s6 s7 s8 s9 s10 (0 :: (c32toa 0 ++ []))) =
      some (⟨cookie, s1, s2, s3, s4, s5, s6, s7, s8, s9, s10, 0, 0⟩, []) := by
  unfold layout
  generalize ht : (0 : UInt8) :: (c32toa 0 ++ []) = tl
  have hd : ∀ r : Bytes, (cookie ++ r).drop 16 = r := by intro r; rw [← hc, List.drop_left]
  have ht' : ∀ r : Bytes, (cookie ++ r).take 16 = cookie := by intro r; rw [← hc, List.take_left]
  have hlen : ∀ r : Bytes, ¬ (cookie ++ r).length < 16 := by
    intro r; rw [List.length_append, hc]; exact Nat.not_lt.2 (Nat.le_add_right _ _)
  unfold Spec.Kex.parse
  rw [if_neg (hlen _), hd, ht']
  rw [string_fld _ h1]; simp only [Option.bind_eq_bind, Option.bind_some]
  rw [string_fld _ h2]; simp only [Option.bind_some]
  rw [string_fld _ h3]; simp only [Option.bind_some]
  rw [string_fld _ h4]; simp only [Option.bind_some]
  rw [string_fld _ h5]; simp only [Option.bind_some]
  rw [string_fld _ h6]; simp only [Option.bind_some]
  rw [string_fld _ h7]; simp only [Option.bind_some]
  rw [string_fld _ h8]; simp only [Option.bind_some]
  rw [string_fld _ h9]; simp only [Option.bind_some]
  rw [string_fld _ h10]; simp only [Option.bind_some]
  rw [← ht]
  have hu := spec_uint32_enc 0 (by decide) []
  simp only [Spec.Wire.byte, Option.bind_some]
  rw [hu]
  rfl

theorem payload_eq (c : Cfg) (cookie : Bytes) : kexInitPayload c cookie =
    layout cookie (Spec.NameList.body c.kexList ++ plusExt c.side) (Spec.NameList.body (ownKeyBody c))
      (Spec.NameList.body c.cipherList) (Spec.NameList.body c.cipherList)
      (Spec.NameList.body c.macList) (Spec.NameList.body c.macList) (asc "none") (asc "none") [] []
      (0 :: (c32toa 0 ++ [])) := by
  have hn : Spec.NameList.body (asc "none") = asc "none" := by decide
  have e1 : c32toa (algoListSz c.kexList + (plusExt c.side).length)
      ++ c.kexList.take (algoListSz c.kexList) ++ plusExt c.side
      = fld (Spec.NameList.body c.kexList ++ plusExt c.side) := by
    unfold fld
    rw [take_algoListSz, List.length_append, body_length, List.append_assoc]
  have e2 : kexInitPayload c cookie = cookie
    ++ (c32toa (algoListSz c.kexList + (plusExt c.side).length)
      ++ c.kexList.take (algoListSz c.kexList) ++ plusExt c.side)
    ++ copyNameList (ownKeyBody c) (algoListSz (ownKeyBody c))
    ++ copyNameList c.cipherList (algoListSz c.cipherList)
    ++ copyNameList c.cipherList (algoListSz c.cipherList)
    ++ copyNameList c.macList (algoListSz c.macList)
    ++ copyNameList c.macList (algoListSz c.macList)
    ++ copyNameList (asc "none") (algoListSz (asc "none"))
    ++ copyNameList (asc "none") (algoListSz (asc "none")) ++ fld [] ++ fld [] ++ [0] ++ c32toa 0 := by
    unfold kexInitPayload ownKeyBody plusExt
    have : fld [] = c32toa 0 := rfl
    rw [this]
    rfl
  rw [e2, e1]
  simp only [copy_fld, hn, layout, List.append_assoc, List.cons_append, List.append_nil, List.nil_append]

theorem layout_length (cookie a b d e f g t : Bytes) :
    (layout cookie a b d d e e f f g g t).length =
      cookie.length + 40 + a.length + b.length + d.length + d.length + e.length + e.length
        + f.length + f.length + g.length + g.length + t.length := by
  unfold layout
  simp only [List.length_append, fld_length]
  omega

theorem parse_payload (c : Cfg) (cookie : Bytes) (hc : cookie.length = 16)
    (hl : (kexInitPayload c cookie).length < 2^32) :
    Spec.Kex.parse (kexInitPayload c cookie) =
      some (⟨cookie, Spec.NameList.body c.kexList ++ plusExt c.side,
        Spec.NameList.body (ownKeyBody c), Spec.NameList.body c.cipherList,
        Spec.NameList.body c.cipherList, Spec.NameList.body c.macList, Spec.NameList.body c.macList,
        asc "none", asc "none", [], [], 0, 0⟩, []) := by
  rw [payload_eq] at hl ⊢
  have hn' : (asc "none").length < 4294967296 := by decide
  have hn := hn'
  have h0 : ([] : Bytes).length < 4294967296 := by decide
  revert hl
  generalize Spec.NameList.body c.kexList ++ plusExt c.side = a
  generalize Spec.NameList.body (ownKeyBody c) = b
  generalize Spec.NameList.body c.cipherList = d
  generalize Spec.NameList.body c.macList = e
  intro hl
  rw [layout_length] at hl
  generalize (asc "none").length = f at hl hn
  have ha : a.length < 4294967296 := by omega
  have hb : b.length < 4294967296 := by omega
  have hd : d.length < 4294967296 := by omega
  have he : e.length < 4294967296 := by omega
  exact parse_layout cookie a b d d e e _ _ _ _ hc ha hb hd hd he he hn' hn' h0 h0

theorem split_append (a b : Bytes) : Spec.NameList.split 44 (a ++ 44 :: b)
    = Spec.NameList.split 44 a ++ Spec.NameList.split 44 b := by
  induction a with
  | nil => simp [Spec.NameList.split]
  | cons x xs ih =>
    rw [List.cons_append, Spec.NameList.split, Spec.NameList.split.eq_2 44 x xs]
    by_cases h : x = 44
    · simp only [h, if_true, List.cons_append]; rw [ih]
    · simp only [h, if_false]; rw [ih]
      cases hs : Spec.NameList.split 44 xs with
      | nil => exact absurd hs (split_ne_nil _ xs)
      | cons w ws => simp

theorem names_append (a b : Bytes) (h : ∀ w ∈ Spec.NameList.split 44 a, w ≠ []) :
    Spec.NameList.names (a ++ 44 :: b) = Spec.NameList.names a ++ Spec.NameList.names b := by
  unfold Spec.NameList.names
  have hp : ∀ w ∈ Spec.NameList.split 44 a, (!w.isEmpty) = true := by
    intro w hw
    simpa using h w hw
  rw [split_append, List.takeWhile_append_of_pos hp, ← List.append_nil (Spec.NameList.split 44 a),
    List.takeWhile_append_of_pos hp]
  simp

theorem ids_body (r : List (Nat × Bytes)) (l : Bytes) :
    Spec.Kex.ids r (Spec.NameList.body l) = Spec.Kex.ids r l := by
  unfold Spec.Kex.ids; rw [names_body]

/-- A word without comma that is not empty is a one-name list. -/
theorem split_word (w : Bytes) (hw : 44 ∉ w) : Spec.NameList.split 44 w = [w] := by
  induction w with
  | nil => rfl
  | cons x xs ih =>
    simp only [List.mem_cons, not_or] at hw
    unfold Spec.NameList.split
    rw [if_neg (fun h => hw.1 h.symm), ih hw.2]

theorem names_word (w : Bytes) (h0 : w ≠ []) (hw : 44 ∉ w) : Spec.NameList.names w = [w] := by
  unfold Spec.NameList.names
  rw [split_word w hw]
  simp [h0]

/-- The rows for `l` are usable as wire names and identify their row. -/
def Named (t : Table) (l : List Nat) : Prop :=
  ∀ id ∈ l, nameToId t (idToName t id) = id ∧ id ≠ ID_UNKNOWN ∧ idToName t id ≠ [] ∧ 44 ∉ idToName t id

theorem names_build (t : Table) (l : List Nat) (h : Named t l) :
    Spec.NameList.names (buildNameList t l) = l.map (idToName t) := by
  induction l with
  | nil => rfl
  | cons a l ih =>
    have ha := h a (by simp)
    have hl : Named t l := fun id hid => h id (by simp [hid])
    cases l with
    | nil => exact names_word _ ha.2.2.1 ha.2.2.2
    | cons b l =>
      have e : buildNameList t (a :: b :: l) = idToName t a ++ 44 :: buildNameList t (b :: l) := by
        simp [buildNameList, comma]
      rw [e, names_append _ _ (by rw [split_word _ ha.2.2.2]; simpa using ha.2.2.1), ih hl,
        names_word _ ha.2.2.1 ha.2.2.2]
      rfl

theorem ids_build (t : Table) (l : List Nat) (hwf : WF t) (h : Named t l) :
    Spec.Kex.ids (rows t) (buildNameList t l) = l := by
  rw [← known_ids t hwf, names_build t l h, List.map_map]
  have : l.map (nameToId t ∘ idToName t) = l := by
    conv => rhs; rw [← List.map_id l]
    apply List.map_congr_left
    intro a ha
    exact (h a ha).1
  rw [this]
  unfold known
  rw [List.filter_eq_self]
  intro a ha
  simpa using (h a ha).2.1

end Wolf.Kex
