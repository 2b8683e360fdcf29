import Verif.Spec.ReadCert
import Verif.Proofs.ReadKey
/-! # Lemmas about reading certificates -/

namespace Proofs.ReadCert
open Wolf (Byte Bytes add32)
open Wolf.ReadKey (nameToId idToName sshPub strnstr token place decode pubSz give)
open Wolf.ReadCert Spec.ReadCert
open Spec.ReadKey (asc Line NumberOf NameOf Short)
open Proofs.ReadKey (nameOf_iff numberOf_iff line_fwd line_inv strnstr_inv strnstr_fwd decode_some decode_good place_ok place_room)

theorem strnstr_has (m : Bytes) (hm : m ≠ []) (hz : m.head? ≠ some 0) (b : Bytes) : (strnstr m b).isSome ↔ Has m b := by
  constructor
  · intro h
    obtain ⟨k, hk⟩ := Option.isSome_iff_exists.1 h
    obtain ⟨rest, h1, h2, _⟩ := strnstr_inv hk
    exact ⟨_, rest, h1, h2⟩
  · rintro ⟨a, r, rfl, h0⟩
    induction a with
    | nil =>
      have := strnstr_fwd m hm [] r (by simp) hz (by simp)
      rw [List.nil_append] at this
      rw [List.nil_append, this]; rfl
    | cons x a ih =>
      have ih := ih (fun h => h0 (List.mem_cons_of_mem _ h))
      have hx : x ≠ 0 := fun h => h0 (h ▸ List.mem_cons_self ..)
      rw [List.cons_append, strnstr, if_pos ⟨by simp only [List.length_append]; omega, hx⟩]
      by_cases h : List.take m.length (x :: (a ++ (m ++ r))) = m
      · rw [if_pos h]; rfl
      · rw [if_neg h, Option.isSome_map]; exact ih

theorem cert_has (b : Bytes) : (strnstr certMark b).isSome ↔ Has (asc "-----BEGIN CERTIFICATE-----") b :=
  strnstr_has _ (by decide +kernel) (by decide +kernel) b

theorem trusted_has (b : Bytes) : (strnstr trustedMark b).isSome ↔ Has (asc "-----BEGIN TRUSTED CERTIFICATE-----") b :=
  strnstr_has _ (by decide +kernel) (by decide +kernel) b

theorem stop_iff (c : Byte) : stop c = true ↔ c = 32 ∨ c = 9 ∨ c = 13 ∨ c = 10 := by
  simp only [stop, Bool.or_eq_true, beq_iff_eq, or_assoc]

theorem stop_no (c : Byte) : (!stop c) = true ↔ c ≠ 32 ∧ c ≠ 9 ∧ c ≠ 13 ∧ c ≠ 10 := by
  rw [Bool.not_eq_true', ← Bool.not_eq_true, stop_iff]
  simp only [not_or]

theorem takeWhile_at (p : Byte → Bool) (w r : Bytes) (hw : ∀ c ∈ w, p c = true) (hr : r = [] ∨ ∃ c t, r = c :: t ∧ p c = false) :
    (w ++ r).takeWhile p = w := by
  rw [List.takeWhile_append_of_pos hw]
  rcases hr with rfl | ⟨c, t, rfl, h⟩
  · simp
  · rw [List.takeWhile_cons, h]; simp

theorem first_fwd {inp w : Bytes} (h : First inp w) : (inp.take 48).takeWhile (!stop ·) = w := by
  obtain ⟨r, rfl, _, hl, hw, hr⟩ := h
  rw [List.take_append, List.take_of_length_le (by omega)]
  refine takeWhile_at _ _ _ (fun c hc => (stop_no c).2 (hw c hc)) ?_
  rcases hr with rfl | ⟨c, t, rfl, h⟩
  · exact .inl (by simp)
  · obtain ⟨k, hk⟩ : ∃ k, 48 - w.length = k + 1 := ⟨47 - w.length, by omega⟩
    rw [hk]
    exact .inr ⟨c, t.take k, rfl, by rw [(stop_iff c).2 h]; rfl⟩

theorem first_inv {inp : Bytes} (h1 : 0 < ((inp.take 48).takeWhile (!stop ·)).length)
    (h2 : ((inp.take 48).takeWhile (!stop ·)).length < 48) : First inp ((inp.take 48).takeWhile (!stop ·)) := by
  have e : inp.take 48 = (inp.take 48).takeWhile (!stop ·) ++ (inp.take 48).dropWhile (!stop ·) :=
    (List.takeWhile_append_dropWhile ..).symm
  have e2 : inp = inp.take 48 ++ inp.drop 48 := (List.take_append_drop ..).symm
  refine ⟨(inp.take 48).dropWhile (!stop ·) ++ inp.drop 48, ?_, List.length_pos_iff.1 h1, h2, ?_, ?_⟩
  · rw [← List.append_assoc, ← e, ← e2]
  · intro c hc
    exact (stop_no c).1 (List.all_eq_true.1 (List.all_takeWhile (l := inp.take 48) (p := (!stop ·))) c hc)
  · cases hd : (inp.take 48).dropWhile (!stop ·) with
    | nil =>
      left
      rw [hd, List.append_nil] at e
      have : inp.length < 48 := by
        have := congrArg List.length e
        rw [List.length_take] at this
        omega
      rw [List.nil_append, List.drop_of_length_le (by omega)]
    | cons c t =>
      right
      refine ⟨c, t ++ inp.drop 48, rfl, (stop_iff c).1 ?_⟩
      have := List.head?_dropWhile_not (!stop ·) (inp.take 48)
      rw [hd] at this
      simpa using this

/-- What the form is taken for. -/
theorem sniff_inv {L : Lib} {inp : Bytes} {f : Form} {fl : Flavor} (h : sniff L inp = some (f, fl)) :
    (f = .asn1 ∧ fl = .x509 ∧ L.certs = true ∧ inp.head? = some 0x30) ∨
    (f = .pem ∧ fl = .x509 ∧ L.certs = true ∧ inp.head? ≠ some 0x30 ∧ Pem L inp) ∨
    (fl = .ossh ∧ L.ossh = true ∧ ¬ (L.certs = true ∧ (inp.head? = some 0x30 ∨ Pem L inp)) ∧
      ∃ w i, f = .ssh i ∧ First inp w ∧ NumberOf L.K w i ∧ i ∈ L.certIds) := by
  unfold sniff at h
  by_cases h1 : L.certs = true ∧ inp.head? = some 0x30
  · rw [if_pos h1] at h; injection h with h; injection h with h h'
    exact .inl ⟨h.symm, h'.symm, h1⟩
  rw [if_neg h1] at h
  by_cases h2 : L.certs = true ∧ (strnstr certMark inp).isSome
  · rw [if_pos h2] at h; injection h with h; injection h with h h'
    exact .inr (.inl ⟨h.symm, h'.symm, h2.1, fun x => h1 ⟨h2.1, x⟩, .inl ((cert_has _).1 h2.2)⟩)
  rw [if_neg h2] at h
  by_cases h3 : L.certs = true ∧ L.trusted = true ∧ (strnstr trustedMark inp).isSome
  · rw [if_pos h3] at h; injection h with h; injection h with h h'
    exact .inr (.inl ⟨h.symm, h'.symm, h3.1, fun x => h1 ⟨h3.1, x⟩, .inr ⟨h3.2.1, (trusted_has _).1 h3.2.2⟩⟩)
  rw [if_neg h3] at h
  by_cases h4 : L.ossh = true
  · rw [if_pos h4] at h
    simp only at h
    by_cases h5 : 0 < ((inp.take 48).takeWhile (!stop ·)).length ∧ ((inp.take 48).takeWhile (!stop ·)).length < 48
    · rw [if_pos h5] at h
      by_cases h6 : nameToId L.K ((inp.take 48).takeWhile (!stop ·)) ∈ L.certIds
      · rw [if_pos h6] at h; injection h with h; injection h with h h'
        refine .inr (.inr ⟨h'.symm, h4, ?_, _, _, h.symm, first_inv h5.1 h5.2, (numberOf_iff ..).2 rfl, h6⟩)
        rintro ⟨hc, hx | hx | hx⟩
        · exact h1 ⟨hc, hx⟩
        · exact h2 ⟨hc, (cert_has _).2 hx⟩
        · exact h3 ⟨hc, hx.1, (trusted_has _).2 hx.2⟩
      · rw [if_neg h6] at h; cases h
    · rw [if_neg h5] at h; cases h
  · rw [if_neg h4] at h; cases h

theorem sniff_der {L : Lib} {inp : Bytes} (h1 : L.certs = true) (h2 : inp.head? = some 0x30) : sniff L inp = some (.asn1, .x509) := by
  unfold sniff
  rw [if_pos ⟨h1, h2⟩]

theorem sniff_pem {L : Lib} {inp : Bytes} (h1 : L.certs = true) (h2 : inp.head? ≠ some 0x30) (h3 : Pem L inp) :
    sniff L inp = some (.pem, .x509) := by
  unfold sniff
  rw [if_neg (fun h => h2 h.2)]
  by_cases h4 : L.certs = true ∧ (strnstr certMark inp).isSome
  · rw [if_pos h4]
  · rw [if_neg h4]
    rcases h3 with h3 | h3
    · exact absurd ⟨h1, (cert_has _).2 h3⟩ h4
    · rw [if_pos ⟨h1, h3.1, (trusted_has _).2 h3.2⟩]

theorem sniff_line {L : Lib} {inp w : Bytes} {i : Nat} (h1 : L.ossh = true)
    (h2 : ¬ (L.certs = true ∧ (inp.head? = some 0x30 ∨ Pem L inp))) (h3 : First inp w) (h4 : NumberOf L.K w i) (h5 : i ∈ L.certIds) :
    sniff L inp = some (.ssh i, .ossh) := by
  unfold sniff
  rw [if_neg (fun h => h2 ⟨h.1, .inl h.2⟩), if_neg (fun h => h2 ⟨h.1, .inr (.inl ((cert_has _).1 h.2))⟩),
    if_neg (fun h => h2 ⟨h.1, .inr (.inr ⟨h.2.1, (trusted_has _).1 h.2.2⟩)⟩), if_pos h1]
  simp only
  rw [first_fwd h3, (numberOf_iff ..).1 h4]
  obtain ⟨r, _, hw, hl, _⟩ := h3
  rw [if_pos ⟨List.length_pos_iff.2 hw, hl⟩, if_pos h5]

/-- `DoSshPubKey` into a buffer of the caller: what it allocates it frees, and a success is a line that decodes. -/
theorem pub_cases {L : Wolf.ReadKey.Lib} {al : Nat → Bool} {inp b : Bytes} {o : Wolf.ReadKey.Out} (h : sshPub L al inp (some b) = some o) :
    o.allocs = o.frees ∧ (o.ret = .success → o.data.length ≤ b.length ∧
      ∃ type key, Line inp type key ∧ L.base64 key = .good o.data ∧ o.typ = idToName L (nameToId L type)) := by
  unfold sshPub at h
  by_cases h0 : al 0 = false
  · rw [if_pos h0] at h; injection h with h; rw [← h]; exact ⟨rfl, fun e => by cases e⟩
  rw [if_neg h0] at h
  by_cases h1 : add32 inp.length 1 ≤ inp.length
  · rw [if_pos h1] at h; cases h
  rw [if_neg h1] at h
  cases h2 : token (inp.takeWhile (· ≠ 0)) with
  | none => rw [h2] at h; injection h with h; rw [← h]; exact ⟨rfl, fun e => by cases e⟩
  | some r =>
    obtain ⟨type, last⟩ := r
    rw [h2] at h
    simp only at h
    cases h3 : token last with
    | none => rw [h3] at h; injection h with h; rw [← h]; exact ⟨rfl, fun e => by cases e⟩
    | some r =>
      obtain ⟨key, x⟩ := r
      rw [h3] at h
      simp only at h
      cases h4 : place false (al 1) (some b) (pubSz key.length) with
      | error e =>
        rw [h4] at h; injection h with h; rw [← h]
        exact ⟨rfl, fun e' => absurd e' (Proofs.ReadKey.place_err h4)⟩
      | ok cap =>
        rw [h4] at h
        simp only at h
        cases h5 : decode (L.base64 key) cap with
        | mk r w =>
          rw [h5] at h
          cases r with
          | none => injection h with h; rw [← h]; exact ⟨rfl, fun e => by cases e⟩
          | some d =>
            injection h with h
            rw [← h]
            have hd := decode_some h5
            have hp := place_ok h4 b rfl
            exact ⟨rfl, fun _ => ⟨show d.length ≤ b.length by omega, type, key, line_inv h2 h3, hd.1, rfl⟩⟩

theorem line_len {inp type key : Bytes} (h : Line inp type key) : key.length ≤ inp.length := by
  obtain ⟨p, q, rest, rfl, _⟩ := h
  simp only [List.length_append]
  omega

theorem pub_fwd {L : Wolf.ReadKey.Lib} {al : Nat → Bool} {inp b type key d : Bytes} (ha : ∀ n, al n = true) (hb : b.length = inp.length)
    (hs : Short L) (hn : 3 * inp.length + 3 < 4294967296) (hl : Line inp type key) (hd : L.base64 key = .good d) :
    sshPub L al inp (some b) = some (give (some b) d (idToName L (nameToId L type)) 1) := by
  have hk := line_len hl
  have hk0 : 0 < key.length := by
    obtain ⟨_, _, _, _, _, _, _, _, hw, _⟩ := hl
    exact List.length_pos_iff.2 hw.1
  have hps : pubSz key.length = (key.length * 3 + 3) / 4 := by unfold pubSz; rw [Nat.mod_eq_of_lt (by omega)]
  obtain ⟨last, x, h2, h3⟩ := line_fwd hl
  obtain ⟨cap, hc, hc'⟩ := place_room false (some b) (pubSz key.length) (by rintro _ ⟨⟩; omega)
  have hdl := hs.1 key d hd
  unfold sshPub
  rw [if_neg (by rw [ha]; decide), if_neg (by unfold add32; rw [Nat.mod_eq_of_lt (by omega)]; omega), h2]
  simp only
  rw [h3]
  simp only
  rw [ha 1, hc]
  simp only
  rw [hd, decode_good d cap (by omega)]

theorem pub_defined {L : Wolf.ReadKey.Lib} {al : Nat → Bool} {inp : Bytes} {b : Option Bytes} (hn : inp.length + 1 < 4294967296) :
    sshPub L al inp b ≠ none := by
  unfold sshPub
  rw [if_neg (c := add32 inp.length 1 ≤ inp.length) (by unfold add32; rw [Nat.mod_eq_of_lt hn]; omega)]
  repeat' split
  all_goals exact (fun e => by cases e)

end Proofs.ReadCert
