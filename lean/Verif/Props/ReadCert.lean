import Verif.Proofs.ReadCert
import Verif.Proofs.PemBundle
/-!
# C151, C152: reading certificates from a buffer
-/

namespace Props.ReadCert
open Wolf (Byte Bytes)
open Wolf.ReadKey (nameToId idToName sshPub)
open Wolf.ReadCert Spec.ReadCert Proofs.ReadCert
open Spec.ReadKey (asc Line NumberOf NameOf Short)
open Proofs.ReadKey (nameOf_iff numberOf_iff)

private theorem pem_inv {L : Lib} {al : Nat → Bool} {inp : Bytes} {fl : Flavor} (h : (pemCert L al inp fl).ret = .success) :
    ¬ (L.trusted = true ∧ L.isTrusted inp = true) ∧ ∃ d i, L.pem inp = some d ∧ d ≠ [] ∧ L.identify d = some i ∧
      pemCert L al inp fl = ⟨.success, some d, idToName L.K i, fl, 1, 0⟩ := by
  unfold pemCert at h ⊢
  by_cases h1 : L.trusted = true ∧ L.isTrusted inp = true
  · rw [if_pos h1] at h; cases h
  rw [if_neg h1] at h ⊢
  by_cases h2 : al 0 = false
  · rw [if_pos h2] at h; cases h
  rw [if_neg h2] at h ⊢
  refine ⟨h1, ?_⟩
  cases h3 : L.pem inp with
  | none => rw [h3] at h; cases h
  | some d =>
    cases d with
    | nil => rw [h3] at h; cases h
    | cons c d =>
      rw [h3] at h
      simp only at h ⊢
      cases h4 : L.identify (c :: d) with
      | none => rw [h4] at h; cases h
      | some i => exact ⟨_, i, rfl, by simp, h4, rfl⟩

private theorem der_inv {L : Lib} {al : Nat → Bool} {inp : Bytes} {fl : Flavor} (h : (derCert L al inp fl).ret = .success) :
    ∃ i, L.identify inp = some i ∧ derCert L al inp fl = ⟨.success, some inp, idToName L.K i, fl, 1, 0⟩ := by
  unfold derCert at h ⊢
  cases h4 : L.identify inp with
  | none => rw [h4] at h; cases h
  | some i =>
    rw [h4] at h
    simp only at h ⊢
    by_cases h2 : al 0 = false
    · rw [if_pos h2] at h; cases h
    · exact ⟨i, rfl, by rw [if_neg h2]⟩

private theorem clear_ret (o : Out) : (clear o).ret = o.ret := by
  unfold clear; split <;> rfl

private theorem clear_ok {o : Out} (h : o.ret = .success) : clear o = o := by unfold clear; rw [if_pos h]

private theorem ossh_inv {L : Lib} {al : Nat → Bool} {junk : Nat → Bytes} {id : Nat} {inp : Bytes} {fl : Flavor} {o : Out}
    (h : osshCert L al junk id inp fl = some o) :
    (o.ret ≠ .success → o.allocs = o.frees) ∧ (o.ret = .success → ∃ type key d, o.out = some d ∧ d.length ≤ (junk inp.length).length ∧
      Line inp type key ∧ L.K.base64 key = .good d ∧ o.typ = idToName L.K (nameToId L.K type) ∧ L.parses id d = true ∧ o.flavor = fl ∧
      o.allocs = o.frees + 1) := by
  unfold osshCert at h
  by_cases h2 : al 0 = false
  · rw [if_pos h2] at h; injection h with h; rw [← h]; exact ⟨fun _ => rfl, fun e => by cases e⟩
  rw [if_neg h2] at h
  cases h3 : sshPub L.K (fun n => al (n + 1)) inp (some (junk inp.length)) with
  | none => rw [h3] at h; cases h
  | some r =>
    rw [h3] at h
    simp only at h
    obtain ⟨h4, h5⟩ := pub_cases h3
    by_cases h6 : r.ret = .success
    · rw [if_pos h6] at h
      obtain ⟨hl, type, key, ha, hb, hc⟩ := h5 h6
      by_cases h7 : L.parses id r.data = true
      · rw [if_pos h7] at h; injection h with h; rw [← h]
        exact ⟨fun e => absurd rfl e, fun _ => ⟨type, key, r.data, rfl, hl, ha, hb, hc, h7, rfl, show r.allocs + 1 = r.frees + 1 by rw [h4]⟩⟩
      · rw [if_neg h7] at h; injection h with h; rw [← h]
        exact ⟨fun _ => show r.allocs + 1 = r.frees + 1 by rw [h4], fun e => by cases e⟩
    · rw [if_neg h6] at h; injection h with h; rw [← h]
      exact ⟨fun _ => show r.allocs + 1 = r.frees + 1 by rw [h4], fun e => by cases e⟩

private theorem pem_mem (L : Lib) (al : Nat → Bool) (inp : Bytes) (fl : Flavor) (h : (pemCert L al inp fl).ret ≠ .success) :
    (pemCert L al inp fl).allocs = (pemCert L al inp fl).frees := by
  unfold pemCert at h ⊢
  by_cases h1 : L.trusted = true ∧ L.isTrusted inp = true
  · rw [if_pos h1]
  rw [if_neg h1] at h ⊢
  by_cases h2 : al 0 = false
  · rw [if_pos h2]
  rw [if_neg h2] at h ⊢
  cases h3 : L.pem inp with
  | none => rfl
  | some d =>
    cases d with
    | nil => rfl
    | cons c d =>
      rw [h3] at h
      simp only at h ⊢
      cases h4 : L.identify (c :: d) with
      | none => rfl
      | some i => rw [h4] at h; exact absurd rfl h

private theorem der_mem (L : Lib) (al : Nat → Bool) (inp : Bytes) (fl : Flavor) (h : (derCert L al inp fl).ret ≠ .success) :
    (derCert L al inp fl).allocs = (derCert L al inp fl).frees := by
  unfold derCert at h ⊢
  cases h4 : L.identify inp with
  | none => rfl
  | some i =>
    rw [h4] at h
    simp only at h ⊢
    by_cases h2 : al 0 = false
    · rw [if_pos h2]
    · rw [if_neg h2] at h; exact absurd rfl h

/-- C151: what is given back by a success is the certificate in the input, with the name of its type and its flavor. -/
theorem C151 (L : Lib) (al : Nat → Bool) (junk : Nat → Bytes) (inp : Bytes) (o : Out) (h : readCert L al junk inp = some o)
    (hs : o.ret = .success) : ∃ d, o.out = some d ∧ CertIn L inp d o.typ o.flavor := by
  unfold readCert at h
  by_cases h0 : inp = []
  · rw [if_pos h0] at h; injection h with h; rw [← h] at hs; cases hs
  rw [if_neg h0] at h
  cases h1 : sniff L inp with
  | none => rw [h1] at h; injection h with h; rw [← h] at hs; cases hs
  | some r =>
    obtain ⟨f, fl⟩ := r
    rw [h1] at h
    rcases sniff_inv h1 with ⟨rfl, rfl, hc, hh⟩ | ⟨rfl, rfl, hc, hh, hp⟩ | ⟨rfl, ho, hn, w, i, rfl, hw, hi, hm⟩
    · injection h with h
      subst h
      rw [clear_ret] at hs
      obtain ⟨i, hi, e⟩ := der_inv hs
      rw [clear_ok hs, e]
      exact ⟨inp, rfl, .der i _ hc hh hi ((nameOf_iff ..).2 rfl)⟩
    · injection h with h
      subst h
      rw [clear_ret] at hs
      obtain ⟨ht, d, i, hd, hd0, hi, e⟩ := pem_inv hs
      rw [clear_ok hs, e]
      exact ⟨d, rfl, .pem d i _ hc hh hp ht hd hd0 hi ((nameOf_iff ..).2 rfl)⟩
    · simp only [Option.map_eq_some_iff] at h
      obtain ⟨o', h, rfl⟩ := h
      rw [clear_ret] at hs
      obtain ⟨type, key, d, ho', _, hl, hb, ht, hpa, hf, _⟩ := (ossh_inv h).2 hs
      rw [clear_ok hs, ho', ht, hf]
      exact ⟨d, rfl, .line w i type key d _ _ ho hn hw hi hm hl hb hpa ((numberOf_iff ..).2 rfl) ((nameOf_iff ..).2 rfl)⟩

/-- C151: and every certificate is read, with memory, for inputs of less than 1.4 GB. -/
theorem C151_read (L : Lib) (al : Nat → Bool) (junk : Nat → Bytes) (inp d t : Bytes) (f : Flavor) (h : CertIn L inp d t f)
    (hal : ∀ n, al n = true) (hj : (junk inp.length).length = inp.length) (hs : Short L.K) (hn : 3 * inp.length + 3 < 4294967296) :
    ∃ a, readCert L al junk inp = some ⟨.success, some d, t, f, a + 1, a⟩ := by
  unfold readCert
  cases h with
  | der i t hc hh hi ht =>
    rw [if_neg (by rintro rfl; cases hh), sniff_der hc hh]
    simp only
    unfold derCert
    rw [hi]
    simp only
    rw [if_neg (by rw [hal]; decide), (nameOf_iff ..).1 ht]
    exact ⟨0, rfl⟩
  | pem _ i t hc hh hp hnt hd hd0 hi ht =>
    rw [if_neg (by
      rintro rfl
      rcases hp with ⟨a, b, e, _⟩ | ⟨_, a, b, e, _⟩
      · exact absurd (List.append_eq_nil_iff.1 (List.append_eq_nil_iff.1 e.symm).2).1 (by decide +kernel)
      · exact absurd (List.append_eq_nil_iff.1 (List.append_eq_nil_iff.1 e.symm).2).1 (by decide +kernel)), sniff_pem hc hh hp]
    simp only
    unfold pemCert
    rw [if_neg hnt, if_neg (by rw [hal]; decide), hd]
    cases d with
    | nil => exact absurd rfl hd0
    | cons c d =>
      simp only
      rw [hi]
      simp only
      rw [(nameOf_iff ..).1 ht]
      exact ⟨0, rfl⟩
  | line w i type key _ j t ho hnx hw hi hm hl hb hpa hj' ht =>
    rw [if_neg (by
      rintro rfl
      obtain ⟨r, e, hw0, _⟩ := hw
      exact hw0 (List.append_eq_nil_iff.1 e.symm).1), sniff_line ho hnx hw hi hm]
    simp only
    unfold osshCert
    rw [if_neg (by rw [hal]; decide), pub_fwd (fun n => hal (n + 1)) hj hs hn hl hb]
    simp only
    rw [if_pos (show (Wolf.ReadKey.give (some (junk inp.length)) d _ 1).ret = .success from rfl),
      if_pos (show L.parses i (Wolf.ReadKey.give (some (junk inp.length)) d _ 1).data = true from hpa)]
    refine ⟨1, ?_⟩
    rw [show idToName L.K (nameToId L.K type) = t by rw [(numberOf_iff ..).1 hj', (nameOf_iff ..).1 ht]]
    rfl

/-- C151: a failure gives nothing at all, and frees what it has allocated; a success leaves one buffer to the caller. -/
theorem C151_failed (L : Lib) (al : Nat → Bool) (junk : Nat → Bytes) (inp : Bytes) (o : Out) (h : readCert L al junk inp = some o) :
    (o.ret ≠ .success → o.out = none ∧ o.typ = [] ∧ o.flavor = .unknown ∧ o.allocs = o.frees) ∧
    (o.ret = .success → o.allocs = o.frees + 1) := by
  unfold readCert at h
  by_cases h0 : inp = []
  · rw [if_pos h0] at h; injection h with h; rw [← h]; exact ⟨fun _ => ⟨rfl, rfl, rfl, rfl⟩, fun e => by cases e⟩
  rw [if_neg h0] at h
  have key : ∀ x : Out, (x.ret ≠ .success → x.allocs = x.frees) → (x.ret = .success → x.allocs = x.frees + 1) →
      ((clear x).ret ≠ .success → (clear x).out = none ∧ (clear x).typ = [] ∧ (clear x).flavor = .unknown ∧
        (clear x).allocs = (clear x).frees) ∧ ((clear x).ret = .success → (clear x).allocs = (clear x).frees + 1) := by
    intro x h1 h2
    unfold clear
    by_cases hx : x.ret = .success
    · rw [if_pos hx]; exact ⟨fun e => absurd hx e, h2⟩
    · rw [if_neg hx]; exact ⟨fun _ => ⟨rfl, rfl, rfl, h1 hx⟩, fun e => absurd e hx⟩
  cases h1 : sniff L inp with
  | none => rw [h1] at h; injection h with h; rw [← h]; exact ⟨fun _ => ⟨rfl, rfl, rfl, rfl⟩, fun e => by cases e⟩
  | some r =>
    obtain ⟨f, fl⟩ := r
    rw [h1] at h
    cases f with
    | asn1 =>
      injection h with h
      rw [← h]
      exact key _ (der_mem L al inp fl) (fun e => by obtain ⟨i, _, e⟩ := der_inv e; rw [e])
    | pem =>
      injection h with h
      rw [← h]
      exact key _ (pem_mem L al inp fl) (fun e => by obtain ⟨_, d, i, _, _, _, e⟩ := pem_inv e; rw [e])
    | ssh id =>
      simp only [Option.map_eq_some_iff] at h
      obtain ⟨o', h, rfl⟩ := h
      exact key _ (ossh_inv h).1 (fun e => by obtain ⟨_, _, _, _, _, _, _, _, _, _, h⟩ := (ossh_inv h).2 e; exact h)

/-- C151: nothing is written outside of a buffer, for inputs shorter than 4 GB. -/
theorem C151_safe (L : Lib) (al : Nat → Bool) (junk : Nat → Bytes) (inp : Bytes) (hn : inp.length + 1 < 4294967296) :
    readCert L al junk inp ≠ none := by
  unfold readCert
  by_cases h0 : inp = []
  · rw [if_pos h0]; exact (fun e => by cases e)
  rw [if_neg h0]
  cases sniff L inp with
  | none => exact (fun e => by cases e)
  | some r =>
    obtain ⟨f, fl⟩ := r
    cases f with
    | asn1 => exact (fun e => by cases e)
    | pem => exact (fun e => by cases e)
    | ssh id =>
      simp only [ne_eq, Option.map_eq_none_iff]
      unfold osshCert
      by_cases h2 : al 0 = false
      · rw [if_pos h2]; exact (fun e => by cases e)
      rw [if_neg h2]
      cases h3 : sshPub L.K (fun n => al (n + 1)) inp (some (junk inp.length)) with
      | none => exact absurd h3 (pub_defined hn)
      | some r =>
        simp only
        repeat' split
        all_goals exact (fun e => by cases e)

private theorem find_infix (m : Bytes) (hm : m ≠ []) (b : Bytes) : (Wolf.PemBundle.find m b).isSome = true ↔ m <:+: b := by
  constructor
  · intro h
    obtain ⟨k, hk⟩ := Option.isSome_iff_exists.1 h
    exact (Proofs.PemBundle.find_some hk).isInfix.trans (List.drop_suffix _ _).isInfix
  · rintro ⟨a, r, rfl⟩
    induction a with
    | nil => rw [List.nil_append, Proofs.PemBundle.find_here _ _ hm]; rfl
    | cons x a ih =>
      rw [List.cons_append, List.cons_append, Wolf.PemBundle.find]
      by_cases h : m.isPrefixOf (x :: (a ++ m ++ r)) = true
      · rw [if_pos h]; rfl
      · rw [if_neg h, Option.isSome_map]; exact ih

/-- C151: which texts are refused for their trust data: those with a header of a trusted certificate and none of a plain one. -/
theorem C151_trusted (L : Lib) (hL : L.isTrusted = isTrustedPem) (inp : Bytes) :
    (L.isTrusted inp = true ↔ asc "-----BEGIN TRUSTED CERTIFICATE-----" <:+: inp ∧ ¬ asc "-----BEGIN CERTIFICATE-----" <:+: inp) ∧
    (L.certs = true → L.trusted = true → inp.head? ≠ some 0x30 → Pem L inp → asc "-----BEGIN TRUSTED CERTIFICATE-----" <:+: inp →
      ¬ asc "-----BEGIN CERTIFICATE-----" <:+: inp → ∀ al junk,
      readCert L al junk inp = some ⟨.badFileType, none, [], .unknown, 0, 0⟩) := by
  have h : L.isTrusted inp = true ↔ asc "-----BEGIN TRUSTED CERTIFICATE-----" <:+: inp ∧ ¬ asc "-----BEGIN CERTIFICATE-----" <:+: inp := by
    have h1 := find_infix certMark (by decide +kernel) inp
    have h2 := find_infix trustedMark (by decide +kernel) inp
    rw [hL]
    unfold isTrustedPem
    rw [Bool.and_eq_true, h2, ← Option.not_isSome, Bool.not_eq_true', ← Bool.not_eq_true, h1]
    exact And.comm
  refine ⟨h, fun hc ht h0 hp h1 h2 al junk => ?_⟩
  have hne : inp ≠ [] := by
    rintro rfl
    obtain ⟨a, b, e⟩ := h1
    exact absurd (List.append_eq_nil_iff.1 (List.append_eq_nil_iff.1 e).1).2 (by decide +kernel)
  unfold readCert
  rw [if_neg hne, sniff_pem hc h0 hp]
  simp only
  unfold pemCert
  rw [if_pos ⟨ht, h.2 ⟨h1, h2⟩⟩]
  rfl

private theorem first_eq {inp w type key : Bytes} (hw : First inp w) (hl : Line inp type key) (ht : 9 ∉ type ∧ 13 ∉ type) : w = type := by
  obtain ⟨r, e, hw0, _, hwc, hr⟩ := hw
  obtain ⟨p, q, rest, e', hp, htw, hq0, hq, _⟩ := hl
  cases p with
  | cons c p =>
    cases w with
    | nil => exact absurd rfl hw0
    | cons x w =>
      rw [e] at e'
      injection e' with e1 _
      subst e1
      have h1 := hwc x (List.mem_cons_self ..)
      rcases hp x (List.mem_cons_self ..) with h | h
      · exact absurd h h1.1
      · exact absurd h h1.2.2.2
  | nil =>
    have a1 : inp.takeWhile (!stop ·) = w := by
      rw [e]
      refine takeWhile_at _ _ _ (fun c hc => (stop_no c).2 (hwc c hc)) ?_
      rcases hr with h | ⟨c, t, h, hc⟩
      · exact .inl h
      · exact .inr ⟨c, t, h, by rw [(stop_iff c).2 hc]; rfl⟩
    have a2 : inp.takeWhile (!stop ·) = type := by
      rw [e', List.nil_append]
      refine takeWhile_at _ _ _ (fun c hc => (stop_no c).2 ⟨(htw.2 c hc).1, fun h => ht.1 (h ▸ hc), fun h => ht.2 (h ▸ hc),
        (htw.2 c hc).2.1⟩) ?_
      cases q with
      | nil => exact absurd rfl hq0
      | cons c q =>
        refine .inr ⟨c, _, rfl, ?_⟩
        rw [(stop_iff c).2 (by rcases hq c (List.mem_cons_self ..) with h | h <;> simp [h])]
        rfl
    rw [← a1, a2]

/-- C152, in part: the name that is given with a certificate of OpenSSH is that of the type that it was parsed as, if the first word
up to a blank or a line feed has no tab and no carriage return. -/
theorem C152_partial (L : Lib) (al : Nat → Bool) (junk : Nat → Bytes) (inp : Bytes) (o : Out) (h : readCert L al junk inp = some o)
    (hs : o.ret = .success) (hf : o.flavor = .ossh) (ht : ∀ type key, Line inp type key → 9 ∉ type ∧ 13 ∉ type) :
    ∃ d w i, o.out = some d ∧ First inp w ∧ NumberOf L.K w i ∧ i ∈ L.certIds ∧ L.parses i d = true ∧ NameOf L.K i o.typ := by
  obtain ⟨d, hd, hc⟩ := C151 L al junk inp o h hs
  rw [hf] at hc
  generalize ho : o.typ = typ at hc
  cases hc with
  | line w i type key _ j t _ _ hw hi hm hl _ hpa hj hn =>
    have := first_eq hw hl (ht _ _ hl)
    subst this
    have : i = j := by rw [← (numberOf_iff ..).1 hi, ← (numberOf_iff ..).1 hj]
    subst this
    exact ⟨d, w, i, hd, hw, hi, hm, hpa, hn⟩

/-- The name of a type. -/
def ed : Bytes := asc "ssh-ed25519-cert-v01@openssh.com"

/-- A build with all, one type, and decoders that know one text each. -/
def lib : Lib where
  K := { names := [(7, ed), (9, asc "x509v3-ecdsa-sha2-nistp256")], unknown := 255,
         base64 := fun x => if x = asc "AAAA" then .good [1, 2, 3] else .bad [], pem := fun _ => .bad [], asn1 := fun _ => none,
         asn1Pub := fun _ => none, exportPub := fun _ => none, ossh := fun _ => none }
  certs := true
  ossh := true
  trusted := true
  isTrusted := fun x => (Wolf.ReadKey.strnstr (asc "TRUSTED") x).isSome
  pem := fun x => if (Wolf.ReadKey.strnstr (asc "MIIB") x).isSome then some [0x30, 1, 5] else none
  identify := fun x => if x = [0x30, 1, 5] then some 9 else none
  certIds := [7]
  parses := fun i d => i == 7 && d == [1, 2, 3]

def junk (n : Nat) : Bytes := List.replicate n 0xAA

/-- C152: with a tab in the first word, a certificate is accepted and its type is said to be unknown. -/
theorem C152_tab : ∃ (L : Lib) (inp : Bytes) (o : Out), readCert L (fun _ => true) junk inp = some o ∧ o.ret = .success ∧
    o.flavor = .ossh ∧ o.typ = asc "unknown" ∧ ∃ w i t, First inp w ∧ NumberOf L.K w i ∧ i ∈ L.certIds ∧ NameOf L.K i t ∧ t ≠ o.typ := by
  refine ⟨lib, ed ++ asc "\tx AAAA", ⟨.success, some [1, 2, 3], asc "unknown", .ossh, 2, 1⟩, by decide +kernel, rfl, rfl, rfl,
    ed, 7, ed, ?_, (numberOf_iff ..).2 (by decide +kernel), by decide, (nameOf_iff ..).2 (by decide +kernel), by decide +kernel⟩
  exact ⟨asc "\tx AAAA", rfl, by decide +kernel, by decide +kernel, by decide +kernel,
    .inr ⟨9, asc "x AAAA", by decide +kernel, by decide⟩⟩

/-- Certificates in the three forms are read. -/
example : readCert lib (fun _ => true) junk (ed ++ asc " AAAA me@here\n") = some ⟨.success, some [1, 2, 3], ed, .ossh, 2, 1⟩ ∧
    readCert lib (fun _ => true) junk [0x30, 1, 5] =
      some ⟨.success, some [0x30, 1, 5], asc "x509v3-ecdsa-sha2-nistp256", .x509, 1, 0⟩ ∧
    readCert lib (fun _ => true) junk (asc "Issuer: me\n-----BEGIN CERTIFICATE-----\nMIIB\n") =
      some ⟨.success, some [0x30, 1, 5], asc "x509v3-ecdsa-sha2-nistp256", .x509, 1, 0⟩ := by decide +kernel

/-- Failures: a trusted certificate, another line, a body that does not decode, no memory. -/
example : readCert lib (fun _ => true) junk (asc "-----BEGIN TRUSTED CERTIFICATE-----\nMIIB\n") =
      some ⟨.badFileType, none, [], .unknown, 0, 0⟩ ∧
    readCert lib (fun _ => true) junk (asc "ssh-ed25519 AAAA") = some ⟨.badFileType, none, [], .unknown, 0, 0⟩ ∧
    readCert lib (fun _ => true) junk (ed ++ asc " BBBB") = some ⟨.other, none, [], .unknown, 2, 2⟩ ∧
    readCert lib (fun n => n == 0) junk (ed ++ asc " AAAA") = some ⟨.other, none, [], .unknown, 1, 1⟩ := by decide +kernel

/-- The hypotheses of `C151_trusted`. -/
example : Pem lib (asc "-----BEGIN TRUSTED CERTIFICATE-----\nMIIB\n") ∧
    isTrustedPem (asc "-----BEGIN TRUSTED CERTIFICATE-----\nMIIB\n") = true ∧
    isTrustedPem (asc "-----BEGIN TRUSTED CERTIFICATE-----\n-----BEGIN CERTIFICATE-----\n") = false :=
  ⟨.inr ⟨rfl, [], asc "\nMIIB\n", by decide +kernel, by simp⟩, by decide +kernel, by decide +kernel⟩

/-- The hypotheses of `C151_read`. -/
example : CertIn lib [0x30, 1, 5] [0x30, 1, 5] (asc "x509v3-ecdsa-sha2-nistp256") .x509 ∧ Short lib.K ∧
    (junk 3).length = 3 := by
  refine ⟨.der 9 _ rfl rfl (by decide) ((nameOf_iff ..).2 (by decide +kernel)), ⟨?_, ?_⟩, rfl⟩
  · intro x d h
    simp only [lib] at h
    by_cases hx : x = asc "AAAA"
    · rw [if_pos hx] at h; injection h with h; rw [hx, ← h]; decide +kernel
    · rw [if_neg hx] at h; cases h
  · intro x d h; cases h

/-- The hypotheses of `C152_partial`. -/
example : readCert lib (fun _ => true) junk (ed ++ asc " AAAA me@here\n") = some ⟨.success, some [1, 2, 3], ed, .ossh, 2, 1⟩ ∧
    ∀ type key, Line (ed ++ asc " AAAA me@here\n") type key → 9 ∉ type ∧ 13 ∉ type := by
  refine ⟨by decide +kernel, fun type key h => ?_⟩
  obtain ⟨last, x, h1, _⟩ := Proofs.ReadKey.line_fwd h
  have : Wolf.ReadKey.token ((ed ++ asc " AAAA me@here\n").takeWhile (· ≠ 0)) = some (ed, asc "AAAA me@here\n") := by decide +kernel
  rw [this] at h1
  injection h1 with h1
  injection h1 with h1 _
  rw [← h1]
  decide +kernel

end Props.ReadCert
