import Verif.Model.CertKey
import Verif.Spec.CertKey
import Verif.Proofs.CertMan
/-! Lemmas for host keys in X.509 certificates. -/

namespace Proofs.CertKey
open Wolf Wolf.Wire Wolf.NameList Wolf.CertKey Spec.CertKey Spec.Wire Spec.CertMan Proofs.Ossh Props.Wire
open Wolf.CertMan (Lib Ret parseChainVerify)

theorem typeName_eq (id : CertId) : typeName id = name id := by cases id <;> decide +kernel

theorem name_length (id : CertId) : (name id).length ≤ 26 := by cases id <;> decide +kernel

/-- All that is written. -/
def flat (fs : List (Bytes × Nat)) : Bytes := (fs.map Prod.fst).flatten

theorem emit_eq (fs : List (Bytes × Nat)) (hf : ∀ f ∈ fs, f.2 = f.1.length) : ∀ (out : Bytes) (i : Nat), out.length < 2 ^ 32 →
    i + (flat fs).length ≤ out.length →
    emit fs out i = some (out.take i ++ flat fs ++ out.drop (i + (flat fs).length), i + (flat fs).length) := by
  induction fs with
  | nil => intro out i _ _; simp [emit, flat]
  | cons f fs ih =>
    intro out i hw hi
    obtain ⟨b, n⟩ := f
    have hn : n = b.length := hf (b, n) List.mem_cons_self
    have hfl : flat ((b, n) :: fs) = b ++ flat fs := by simp [flat]
    rw [hfl] at hi ⊢
    rw [List.length_append] at hi
    unfold emit Buffer.write
    rw [if_pos (by omega)]
    simp only
    have e : add32 i n = i + b.length := by unfold add32; omega
    have hol : (out.take i ++ b ++ out.drop (i + b.length)).length = out.length := by
      simp only [List.length_append, List.length_take, List.length_drop]; omega
    rw [e, ih (fun f h => hf f (List.mem_cons_of_mem _ h)) _ _ (by rw [hol]; exact hw) (by rw [hol]; omega)]
    have ht : (out.take i ++ b ++ out.drop (i + b.length)).take (i + b.length) = out.take i ++ b := by
      rw [List.take_append_of_le_length (by simp; omega), List.take_of_length_le (by simp; omega)]
    have hd : (out.take i ++ b ++ out.drop (i + b.length)).drop (i + b.length + (flat fs).length) =
        out.drop (i + (b ++ flat fs).length) := by
      have hl : (out.take i ++ b).length = i + b.length := by simp; omega
      rw [← List.drop_drop, ← hl, List.drop_left, hl, List.drop_drop, List.length_append]
      congr 1; omega
    rw [ht, hd, List.length_append]
    simp only [List.append_assoc, Nat.add_assoc]

theorem skim_eq (fs : List (Bytes × Nat)) (hf : ∀ f ∈ fs, f.2 = f.1.length) : ∀ i, i + (flat fs).length < 2 ^ 32 →
    skim fs i = i + (flat fs).length := by
  induction fs with
  | nil => intro i _; simp [skim, flat]
  | cons f fs ih =>
    intro i hi
    obtain ⟨b, n⟩ := f
    have hn : n = b.length := hf (b, n) List.mem_cons_self
    have hfl : flat ((b, n) :: fs) = b ++ flat fs := by simp [flat]
    rw [hfl, List.length_append] at hi ⊢
    unfold skim
    have e : add32 i n = i + b.length := by unfold add32; omega
    rw [e, ih (fun f h => hf f (List.mem_cons_of_mem _ h)) _ (by omega)]
    omega

theorem fields_len (id : CertId) (cert : Bytes) : ∀ f ∈ fields id cert, f.2 = f.1.length := by
  intro f hf
  simp only [fields, List.mem_cons, List.not_mem_nil, or_false] at hf
  rcases hf with rfl | rfl | rfl | rfl | rfl | rfl | rfl <;> rfl

theorem keyBlob_length (id : CertId) (cert : Bytes) : (keyBlob id cert).length = (name id).length + cert.length + 16 := by
  simp [keyBlob, enc_length, encUint32]; omega

theorem flat_fields (id : CertId) (cert : Bytes) (hc : cert.length + 100 < 2 ^ 32) :
    flat (fields id cert) = encString (keyBlob id cert) := by
  have hn := name_length id
  have hl : add32 (add32 (4 * 2 + 4 * 2) (name id).length) cert.length = (keyBlob id cert).length := by
    rw [keyBlob_length]; unfold add32; omega
  simp only [flat, fields, List.map_cons, List.map_nil, List.flatten_cons, List.flatten_nil, c32toa_eq, typeName_eq, hl]
  simp [encString, keyBlob]

theorem message (id : CertId) (cert : Bytes) : Message (keyBlob id cert) [cert] :=
  ⟨name id, 0, [], by simp [keyBlob, encStrings], by simp, by simp, by simp⟩

theorem encString_length (s : Bytes) : (encString s).length = s.length + 4 := enc_length s

/-- One name for the two kinds of reading. -/
theorem take_cases (K : KLib) (e : Env) (der : Bytes) (S : List Bytes) (id : CertId) (ev : List Ev) :
    let o := takeAny id K e der ev S
    o.store = S ∧
    ((o.ret = .success ∧ e.init = true ∧ (id = .rsa ∨ e.set = true) ∧ ∃ k, K.decode (kindOf id) der = some k ∧ o.key = some k) ∨
     (o.ret = .other ∧ o.key = none ∧ (e.init = false ∨ (id ≠ .rsa ∧ e.set = false) ∨ K.decode (kindOf id) der = none))) ∧
    (∃ t, finish o = ev ++ t ∧ (t = [.derFree] ∨ t = [.keyInit, .derFree, .keyFree] ∨ t = [.keyInit, .keyFree, .derFree])) := by
  cases hi : e.init <;> cases hs : e.set <;> cases hd : K.decode (kindOf id) der <;> cases id <;>
    simp only [kindOf] at hd <;>
    simp [takeAny, takeKey, takeMlDsa, hi, hs, hd, finish]

/-- What `ParsePubKeyCert` does with its memory. -/
theorem leafDer_cases (K : KLib) (e : Env) (leaf : Bytes) :
    (∃ der, leafDer K e leaf = (.ok der, [.derAlloc der.length]) ∧ K.parses leaf = true ∧ K.pubDer leaf = some der ∧ e.derMem = true ∧
      K.copies leaf = true) ∨
    (∃ r ev, leafDer K e leaf = (.error r, ev) ∧ r ≠ .success ∧ Clean ev ∧
      ¬ (K.parses leaf = true ∧ (∃ der, K.pubDer leaf = some der) ∧ e.derMem = true ∧ K.copies leaf = true)) := by
  unfold leafDer
  cases hp : K.parses leaf with
  | false => exact .inr ⟨_, _, rfl, by decide, rfl, by simp⟩
  | true =>
    cases hd : K.pubDer leaf with
    | none => exact .inr ⟨_, _, rfl, by decide, rfl, by simp⟩
    | some der =>
      cases hm : e.derMem with
      | false => exact .inr ⟨_, _, rfl, by decide, rfl, by simp⟩
      | true =>
        cases hc : K.copies leaf with
        | false => exact .inr ⟨.other, _, rfl, by decide, rfl, by simp⟩
        | true => exact .inl ⟨der, rfl, rfl, rfl, rfl, rfl⟩

theorem parseCert_cases (L : Lib) (K : KLib) (e : Env) (now : Nat) (S : List Bytes) (id : CertId) (mem : Bytes) (len : Nat) :
    (parseCertKey L K e now S id mem len).store = (parseChainVerify L e.chainMem now S mem len).1.2 ∧
    Clean (finish (parseCertKey L K e now S id mem len)) ∧
    (((parseCertKey L K e now S id mem len).ret = .success ∧ (parseChainVerify L e.chainMem now S mem len).1.1 = .success ∧
      ∃ der k, K.parses (parseChainVerify L e.chainMem now S mem len).2 = true ∧
        K.pubDer (parseChainVerify L e.chainMem now S mem len).2 = some der ∧
        K.decode (kindOf id) der = some k ∧ (parseCertKey L K e now S id mem len).key = some k) ∨
     ((parseCertKey L K e now S id mem len).ret ≠ .success ∧ (parseCertKey L K e now S id mem len).key = none ∧
      ((parseCertKey L K e now S id mem len).ret = (parseChainVerify L e.chainMem now S mem len).1.1 ∨
       ((parseChainVerify L e.chainMem now S mem len).1.1 = .success ∧
        ((K.parses (parseChainVerify L e.chainMem now S mem len).2 = true ∧ e.derMem = true ∧ e.init = true ∧ e.set = true ∧
          K.copies (parseChainVerify L e.chainMem now S mem len).2 = true) →
          ∀ der, K.pubDer (parseChainVerify L e.chainMem now S mem len).2 = some der → K.decode (kindOf id) der = none))))) := by
  unfold parseCertKey certDer
  rcases hv : parseChainVerify L e.chainMem now S mem len with ⟨⟨r, S'⟩, leaf⟩
  by_cases hr : r = .success
  · subst hr
    simp only
    rcases leafDer_cases K e leaf with ⟨der, h, h1, h2, h3, h4⟩ | ⟨r, ev, h, hne, hcl, hno⟩
    · rw [h]
      simp only
      obtain ⟨t1, t2, t3⟩ := take_cases K e der S' id [.derAlloc der.length]
      refine ⟨t1, ?_, ?_⟩
      · obtain ⟨t, ht, hc⟩ := t3
        unfold Clean
        rw [ht]
        rcases hc with rfl | rfl | rfl <;> rfl
      · rcases t2 with ⟨a, b, c, k, hk, hk'⟩ | ⟨a, b, c⟩
        · exact .inl ⟨a, trivial, der, k, h1, h2, hk, hk'⟩
        · refine .inr ⟨by rw [a]; decide, b, .inr ⟨trivial, ?_⟩⟩
          rintro ⟨_, _, g1, g2, _⟩ der' hd'
          rw [h2] at hd'
          cases hd'
          rcases c with c | ⟨_, c⟩ | c
          · rw [g1] at c; cases c
          · rw [g2] at c; cases c
          · exact c
    · rw [h]
      refine ⟨rfl, hcl, .inr ⟨hne, rfl, .inr ⟨trivial, ?_⟩⟩⟩
      rintro ⟨g1, g2, _, _, g3⟩ der hd
      exact absurd ⟨g1, ⟨der, hd⟩, g2, g3⟩ hno
  · cases r <;> first
      | exact absurd rfl hr
      | exact ⟨rfl, rfl, .inr ⟨(fun e => by cases e), rfl, .inl rfl⟩⟩

end Proofs.CertKey
