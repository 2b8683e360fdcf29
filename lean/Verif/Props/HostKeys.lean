import Verif.Proofs.HostKeys
/-!
# C131 and C132: loading host keys and certificates
-/

namespace Props.HostKeys
open Wolf (Byte Bytes)
open Wolf.HostKeys Spec.HostKeys Proofs.HostKeys

/-- All of it built, and libraries that read the type from the second byte. -/
def cfg : Cfg := { x509 := fun k => k != .p521, sha512 := true, sha256 := true, sha1 := true }

def typ : Bytes → Option Key
  | _ :: 1 :: _ => some .rsa
  | _ :: 2 :: _ => some .p256
  | _ :: 3 :: _ => some .ed25519
  | _ :: 4 :: _ => some .p521
  | _ :: n :: _ => some (.composite n.toNat)
  | _ => none

def lib : Lib := ⟨some, some, some, typ, typ, typ⟩

def key (b : Bytes) : Call := ⟨true, .asn1, 0x30 :: b, true⟩
def crt (b : Bytes) : Call := ⟨false, .asn1, 0x30 :: b, true⟩

/-- **C131 (partial).** Whatever private keys and certificates were loaded, in whatever order and however often, the
server signs for a type of key with the private key of that type loaded last, and for a certificate of that type it has
the certificate loaded last together with that same private key, even if the key was loaded, or replaced, after the
certificate. Missing: that holds as long as memory can be allocated (`C131_memory`). -/
theorem C131_partial (c : Cfg) (l : Lib) (as : List Call) (ha : ∀ a ∈ as, a.alloc = true) (k : Key) :
    chosen (run c l as {}) (.plain k) =
      ((store c l as ({}, [])).1.key k).map (fun d => { fmt := some (.plain k), key := some d }) ∧
    chosen (run c l as {}) (.cert k) =
      ((store c l as ({}, [])).1.cert k).map (fun d =>
        { fmt := some (.cert k), key := (store c l as ({}, [])).1.key k, cert := some d }) := by
  obtain ⟨h1, h2⟩ := reach c l as ha
  rw [h1]
  generalize store c l as ({}, []) = r at h2 ⊢
  refine ⟨?_, ?_⟩
  · rw [show (Fmt.plain k) = fmtOf (true, k) from rfl, chosen_mk c h2]
    cases hk : r.1.key k with
    | none =>
      rw [if_neg (fun h => by have := (h2.key k).1 h; rw [hk] at this; cases this)]; rfl
    | some d =>
      rw [if_pos ((h2.key k).2 (by rw [hk]; rfl))]
      simp only [slotOf, hk, Option.map_some, fmtOf]
  · rw [show (Fmt.cert k) = fmtOf (false, k) from rfl, chosen_mk c h2]
    cases hk : r.1.cert k with
    | none =>
      rw [if_neg (fun h => by have := (h2.cert k).1 h; rw [hk] at this; cases this)]; rfl
    | some d =>
      rw [if_pos ((h2.cert k).2 (by rw [hk]; rfl))]
      simp only [slotOf, hk, Option.map_some, fmtOf]

-- A certificate, its key, another key of another type, and the first key replaced.
example : chosen (run cfg lib [crt [1, 7], key [1, 8], key [2, 9], key [1, 10]] {}) (.cert .rsa) =
    some { fmt := some (.cert .rsa), key := some [0x30, 1, 10], cert := some [0x30, 1, 7] } ∧
    chosen (run cfg lib [crt [1, 7], key [1, 8], key [2, 9], key [1, 10]] {}) (.plain .rsa) =
    some { fmt := some (.plain .rsa), key := some [0x30, 1, 10] } ∧
    chosen (run cfg lib [crt [1, 7], key [1, 8], key [2, 9], key [1, 10]] {}) (.plain .p256) =
    some { fmt := some (.plain .p256), key := some [0x30, 2, 9] } ∧
    chosen (run cfg lib [crt [1, 7], key [1, 8], key [2, 9], key [1, 10]] {}) (.cert .p256) = none := by decide +kernel
example : ∀ a ∈ [crt [1, 7], key [1, 8], key [2, 9], key [1, 10]], a.alloc = true := by decide

/-- C131: a call succeeds exactly if what it gives can be read and is of a type already there or one of the first sixteen;
one that fails changes nothing. -/
theorem C131_taken (c : Cfg) (l : Lib) (as : List Call) (ha : ∀ a ∈ as, a.alloc = true) (a : Call) (h : a.alloc = true) :
    ((process c l (run c l as {}) a).1 = true ↔
      ∃ k der, given c l a = some (k, der) ∧ ((a.isKey, k) ∈ (store c l as ({}, [])).2 ∨ (store c l as ({}, [])).2.length < 16)) ∧
    ((process c l (run c l as {}) a).1 = false → (process c l (run c l as {}) a).2 = run c l as {}) := by
  obtain ⟨h1, h2⟩ := reach c l as ha
  rw [h1, process_eq c l h2 a h]
  cases hg : given c l a with
  | none => exact ⟨⟨fun h => by simp at h, fun ⟨k, d, h, _⟩ => by cases h⟩, fun _ => rfl⟩
  | some x =>
    obtain ⟨k, der⟩ := x
    generalize store c l as ({}, []) = r
    simp only [next]
    by_cases hm : (a.isKey, k) ∈ r.2
    · simp only [if_pos hm]
      exact ⟨⟨fun _ => ⟨k, der, rfl, Or.inl hm⟩, fun _ => trivial⟩, fun h => by simp at h⟩
    · simp only [if_neg hm]
      by_cases hl : r.2.length < 16
      · simp only [if_pos hl]
        exact ⟨⟨fun _ => ⟨k, der, rfl, Or.inr hl⟩, fun _ => trivial⟩, fun h => by simp at h⟩
      · simp only [if_neg hl]
        refine ⟨⟨fun h => by simp at h, ?_⟩, fun _ => trivial⟩
        rintro ⟨k', d', e, h'⟩
        have : k' = k := (Prod.mk.inj (Option.some.inj e)).1.symm
        subst this
        rcases h' with h' | h'
        · exact absurd h' hm
        · exact absurd h' hl

/-- C131: what is taken. ASN.1 begins with a sequence; of OpenSSH's format only private keys with composite algorithms are
taken, since a server cannot use others in that form. -/
theorem C131_formats (c : Cfg) (l : Lib) (s : St) (a : Call) (h : (process c l s a).1 = true) :
    a.inp ≠ [] ∧ (a.fmt = .asn1 ∨ a.fmt = .raw → a.inp.head? = some 0x30) ∧
    (a.fmt = .openssh → a.isKey = true ∧ ∃ der n, l.ossh der = some (.composite n)) := by
  unfold process at h
  cases hd : derOf l a.isKey a.fmt a.inp with
  | none => rw [hd] at h; cases h
  | some der =>
    rw [hd] at h
    have hne : a.inp ≠ [] := by
      intro he
      unfold derOf at hd
      rw [if_pos he] at hd
      cases hd
    refine ⟨hne, ?_, ?_⟩
    · intro hf
      unfold derOf at hd
      rw [if_neg hne] at hd
      by_cases hh : a.inp.head? = some 0x30
      · exact hh
      · rcases hf with hf | hf <;> (rw [hf] at hd; simp only [if_neg hh] at hd; cases hd)
    · intro hf
      have hk : a.isKey = true := by
        cases hk : a.isKey with
        | true => rfl
        | false =>
          unfold derOf at hd
          rw [if_neg hne, hf, hk] at hd
          cases hd
      refine ⟨hk, der, ?_⟩
      simp only [hk, if_true] at h
      unfold keyTypeOf at h
      rw [if_pos hf] at h
      cases ho : l.ossh der with
      | none => rw [ho] at h; cases h
      | some k =>
        cases k with
        | composite n => exact ⟨n, rfl⟩
        | _ => rw [ho] at h; cases h

-- An empty input, one that is no sequence, and an OpenSSH key that is not composite.
example : (process cfg lib {} ⟨true, .asn1, [], true⟩).1 = false ∧ (process cfg lib {} ⟨true, .asn1, [0x31, 1], true⟩).1 = false ∧
    (process cfg lib {} ⟨true, .openssh, [0, 3], true⟩).1 = false ∧ (process cfg lib {} ⟨true, .openssh, [0, 9], true⟩).1 = true := by
  decide +kernel

-- Seventeen types of keys: the last is refused, but one already there can still be replaced.
def many : List Call := (List.range 16).map fun i => key [UInt8.ofNat (i + 10)]
example : (process cfg lib (run cfg lib many {}) (key [99])).1 = false ∧
    (process cfg lib (run cfg lib many {}) (key [12, 1])).1 = true ∧
    (process cfg lib (run cfg lib (many.take 15) {}) (key [99])).1 = true ∧
    (process cfg lib (run cfg lib [] {}) ⟨true, .openssh, [0x30, 1], true⟩).1 = false := by decide +kernel
example : ∀ a ∈ many, a.alloc = true := by decide

/-- C131: whatever is loaded and whatever memory there is, nothing is written outside the table of sixteen. -/
theorem C131_bounds (c : Cfg) (l : Lib) (as : List Call) :
    (run c l as {}).outside = false ∧ (run c l as {}).count ≤ 16 := by
  have := run_In c l as {} ⟨Nat.zero_le _, rfl⟩
  exact ⟨this.2, this.1⟩

/-- What the code does not do (finding): if there is no memory for the copy of a private key that goes with its
certificate, the call reports failure, and yet the private key is replaced; the certificate keeps the old one. -/
theorem C131_memory :
    (process cfg lib (run cfg lib [crt [1, 7], key [1, 8]] {}) { key [1, 10] with alloc := false }).1 = false ∧
    chosen (process cfg lib (run cfg lib [crt [1, 7], key [1, 8]] {}) { key [1, 10] with alloc := false }).2 (.plain .rsa) =
      some { fmt := some (.plain .rsa), key := some [0x30, 1, 10] } ∧
    chosen (process cfg lib (run cfg lib [crt [1, 7], key [1, 8]] {}) { key [1, 10] with alloc := false }).2 (.cert .rsa) =
      some { fmt := some (.cert .rsa), key := some [0x30, 1, 8], cert := some [0x30, 1, 7] } := by decide +kernel

/-- **C132 (partial).** The host key algorithms a server offers are exactly the names of the keys and certificates
loaded, in the order in which they were loaded first, none left out; of each the server finds what it needs, and a
private key with it if for each certificate the private key was loaded too. Missing: that without the private key a
certificate is not offered (`C132_cert_alone`). -/
theorem C132_partial (c : Cfg) (l : Lib) (as : List Call) (ha : ∀ a ∈ as, a.alloc = true) :
    (run c l as {}).algos = (store c l as ({}, [])).2.flatMap (names c) ∧
    (store c l as ({}, [])).2.Nodup ∧
    (∀ k, (true, k) ∈ (store c l as ({}, [])).2 ↔ ((store c l as ({}, [])).1.key k).isSome) ∧
    (∀ k, (false, k) ∈ (store c l as ({}, [])).2 ↔ ((store c l as ({}, [])).1.cert k).isSome) ∧
    ((∀ k, ((store c l as ({}, [])).1.cert k).isSome → ((store c l as ({}, [])).1.key k).isSome) →
      ∀ n ∈ (run c l as {}).algos, ∃ f s, (n = .fmt f ∨ (f = .plain .rsa ∧ (n = .rsaSha512 ∨ n = .rsaSha256))) ∧
        chosen (run c l as {}) f = some s ∧ s.key.isSome) := by
  obtain ⟨h1, h2⟩ := reach c l as ha
  rw [h1]
  generalize store c l as ({}, []) = r at h2 ⊢
  refine ⟨rfl, h2.nodup, h2.key, h2.cert, fun hall n hn => ?_⟩
  obtain ⟨x, hx, hn⟩ := List.mem_flatMap.1 hn
  obtain ⟨b, k⟩ := x
  refine ⟨fmtOf (b, k), slotOf r.1 (b, k), ?_, by rw [chosen_mk c h2, if_pos hx], ?_⟩
  · cases b
    · exact Or.inl (List.mem_singleton.1 hn)
    · by_cases hk : k = .rsa
      · subst hk
        simp only [names, List.mem_append] at hn
        rcases hn with (hn | hn) | hn
        · cases h : c.sha512 <;> simp [h] at hn
          exact Or.inr ⟨rfl, Or.inl hn⟩
        · cases h : c.sha256 <;> simp [h] at hn
          exact Or.inr ⟨rfl, Or.inr hn⟩
        · cases h : c.sha1 <;> simp [h] at hn
          exact Or.inl hn
      · have : names c (true, k) = [.fmt (.plain k)] := by
          cases k <;> first | exact absurd rfl hk | rfl
        rw [this] at hn
        exact Or.inl (List.mem_singleton.1 hn)
  · cases b
    · exact hall k ((h2.cert k).1 hx)
    · exact (h2.key k).1 hx

-- Sixteen keys of which one is RSA: eighteen names, all of them offered.
example : (run cfg lib (key [1] :: many.take 15) {}).algos.length = 18 ∧
    (run cfg lib [crt [1, 7], key [2, 9], key [1, 8]] {}).algos =
      [.fmt (.cert .rsa), .fmt (.plain .p256), .rsaSha512, .rsaSha256, .fmt (.plain .rsa)] := by decide +kernel
example : ∀ k, ((store cfg lib [crt [1, 7], key [2, 9], key [1, 8]] ({}, [])).1.cert k).isSome →
    ((store cfg lib [crt [1, 7], key [2, 9], key [1, 8]] ({}, [])).1.key k).isSome := by
  intro k h
  have e : (store cfg lib [crt [1, 7], key [2, 9], key [1, 8]] ({}, [])).1.cert k =
    if k = .rsa then some [0x30, 1, 7] else none := rfl
  rw [e] at h
  by_cases hk : k = .rsa
  · subst hk; decide
  · rw [if_neg hk] at h; cases h

/-- What the code does not do (finding): a certificate loaded without its private key is offered, though the server
has nothing to sign with. -/
theorem C132_cert_alone :
    (run cfg lib [crt [1, 7]] {}).algos = [.fmt (.cert .rsa)] ∧
    chosen (run cfg lib [crt [1, 7]] {}) (.cert .rsa) =
      some { fmt := some (.cert .rsa), key := none, cert := some [0x30, 1, 7] } := by decide +kernel

end Props.HostKeys
