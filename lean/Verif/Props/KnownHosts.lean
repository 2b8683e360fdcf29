import Verif.Proofs.KnownHosts
import Verif.Proofs.ChannelInv
import Verif.Props.Exchange
/-!
# C105 to C108: the example client's known hosts and destinations
-/

namespace Props.KnownHosts
open Wolf Wolf.KnownHosts Spec.KnownHosts

/-- The bytes of a text. -/
def txt (s : String) : List UInt8 := s.toUTF8.toList

/-- The file can be used: it has 4 to 2^31 - 1 bytes. -/
def Usable (file : List UInt8) : Prop := 4 ≤ file.length ∧ file.length < 2 ^ 31

/-! ## C105: keys of known hosts are accepted, other keys of known hosts refused, and the user is asked about the rest -/

theorem check_cases (E : Env) (target pubKey file type key : List UInt8) (hh : E.home = true) (hf : E.file = some file) (hu : Usable file)
    (ht : typeOf pubKey = some type) (hk : E.enc pubKey = some key) (hfp : E.fingerprint = true) :
    (knownKey file target type = some key ∧ check E target pubKey = ⟨true, false, some file⟩) ∨
    ((∃ k, knownKey file target type = some k ∧ k ≠ key) ∧ check E target pubKey = ⟨false, false, some file⟩) ∨
    (knownKey file target type = none ∧ check E target pubKey = ask E file target type key) := by
  have hs := Proofs.KnownHosts.scan_eq target type key (cstr file) false
  have h1 := Proofs.KnownHosts.verdict_known target type key file true
  have h2 := Proofs.KnownHosts.verdict_known target type key file false
  have hc : check E target pubKey = decideKey E file target type key (scan target type key (cstr file) false) := by
    unfold check
    rw [hh, hf, Proofs.KnownHosts.keyType_eq, ht, hk, hfp]
    simp only
    rw [if_neg (by unfold Usable at hu; omega)]
  have he : (parts 10 (cstr file)).filterMap entryOf = entries file := rfl
  rw [he] at hs
  rw [hc]
  unfold decideKey
  generalize scan target type key (cstr file) false = f at hs
  simp only at hs
  cases hkn : knownKey file target type with
  | none =>
    rw [hkn] at h1 h2
    have hf1 : f.found = false := by
      rw [Bool.eq_false_iff]; intro h; obtain ⟨k, h, _⟩ := h1.1 (hs.1.1 h); cases h
    have hf2 : f.bad = false := by
      rw [Bool.eq_false_iff]; intro h; obtain ⟨k, h, _⟩ := h2.1 (hs.2.1 h); cases h
    rw [hf1, hf2]
    refine .inr (.inr ⟨rfl, ?_⟩)
    cases f.other <;> rfl
  | some k =>
    rw [hkn] at h1 h2
    by_cases hkk : k = key
    · subst hkk
      have hf1 : f.found = true := hs.1.2 (h1.2 ⟨k, rfl, by simp⟩)
      have hf2 : f.bad = false := by
        rw [Bool.eq_false_iff]; intro h
        obtain ⟨k', h, h'⟩ := h2.1 (hs.2.1 h)
        cases h
        simp at h'
      rw [hf1, hf2]
      refine .inl ⟨rfl, ?_⟩
      cases f.other <;> rfl
    · have hf2 : f.bad = true := hs.2.2 (h2.2 ⟨k, rfl, by simp [hkk]⟩)
      rw [hf2]
      exact .inr (.inl ⟨⟨k, rfl, hkk⟩, rfl⟩)

/-- C105, known servers. A key is accepted without a question if it is the key the file has for this server and this type of key; if
the file has another one it is refused without a question. The file stays as it is. -/
theorem C105_known (E : Env) (target pubKey file type key k : List UInt8) (hh : E.home = true) (hf : E.file = some file) (hu : Usable file)
    (ht : typeOf pubKey = some type) (hk : E.enc pubKey = some key) (hfp : E.fingerprint = true) (hkn : knownKey file target type = some k) :
    check E target pubKey = ⟨decide (k = key), false, some file⟩ := by
  rcases check_cases E target pubKey file type key hh hf hu ht hk hfp with ⟨h1, h2⟩ | ⟨⟨k', h1, h3⟩, h2⟩ | ⟨h1, _⟩
  · rw [hkn] at h1; cases h1; rw [h2]; simp
  · rw [hkn] at h1; cases h1; rw [h2]; simp [h3]
  · rw [hkn] at h1; cases h1

/-- C105, unknown servers. The user is asked; the key is accepted if and only if they type `Y` and the key could be stored. -/
theorem C105_unknown (E : Env) (target pubKey file type key : List UInt8) (hh : E.home = true) (hf : E.file = some file) (hu : Usable file)
    (ht : typeOf pubKey = some type) (hk : E.enc pubKey = some key) (hfp : E.fingerprint = true) (hkn : knownKey file target type = none) :
    (check E target pubKey).asked = true ∧
    ((check E target pubKey).ok = true ↔ E.answer = some 89 ∧ Plain target ∧ Plain type ∧ Plain key ∧ E.opens = true ∧ E.fails = none) := by
  rcases check_cases E target pubKey file type key hh hf hu ht hk hfp with ⟨h1, _⟩ | ⟨⟨k', h1, _⟩, _⟩ | ⟨_, h2⟩
  · rw [hkn] at h1; cases h1
  · rw [hkn] at h1; cases h1
  · rw [h2]
    unfold ask append
    have hst : (storable target = true ∧ storable type = true ∧ storable key = true) ↔ (Plain target ∧ Plain type ∧ Plain key) := by
      rw [Proofs.KnownHosts.storable_iff, Proofs.KnownHosts.storable_iff, Proofs.KnownHosts.storable_iff]
    by_cases ha : E.answer = some 89
    · rw [if_pos ha]
      by_cases hp : Plain target ∧ Plain type ∧ Plain key
      · rw [if_pos (hst.2 hp)]
        cases ho : E.opens
        · simp
        · cases hfl : E.fails with
          | none => simp [ha, hp]
          | some n => simp
      · rw [if_neg (fun h => hp (hst.1 h))]
        refine ⟨rfl, ?_⟩
        constructor
        · intro h; cases h
        · rintro ⟨_, h1, h2, h3, _⟩; exact absurd ⟨h1, h2, h3⟩ hp
    · rw [if_neg ha]; simp [ha]

/-- C105, in every case: a key is accepted only if it is the one the file has for this server and type, or the user has typed `Y`. -/
theorem C105_only (E : Env) (target pubKey : List UInt8) (hok : (check E target pubKey).ok = true) :
    ∃ file type key, E.file = some file ∧ typeOf pubKey = some type ∧ E.enc pubKey = some key ∧
      ((knownKey file target type = some key ∧ (check E target pubKey).asked = false) ∨
       (knownKey file target type = none ∧ (check E target pubKey).asked = true ∧ E.answer = some 89)) := by
  have hh : E.home = true := by
    cases h : E.home
    · unfold check at hok; rw [h] at hok; cases hok
    · rfl
  cases hf : E.file with
  | none => unfold check at hok; rw [hh, hf] at hok; cases hok
  | some file =>
    have hu : Usable file := by
      by_cases hb : file.length < 4 ∨ 2 ^ 31 ≤ file.length
      · unfold check at hok; rw [hh, hf] at hok; simp only at hok; rw [if_pos hb] at hok; cases hok
      · unfold Usable; omega
    have hnb : ¬ (file.length < 4 ∨ 2 ^ 31 ≤ file.length) := by unfold Usable at hu; omega
    cases ht : typeOf pubKey with
    | none =>
      unfold check at hok
      rw [hh, hf, Proofs.KnownHosts.keyType_eq, ht] at hok
      simp only at hok
      rw [if_neg hnb] at hok; cases hok
    | some type =>
      cases hk : E.enc pubKey with
      | none =>
        unfold check at hok
        rw [hh, hf, Proofs.KnownHosts.keyType_eq, ht, hk] at hok
        simp only at hok
        rw [if_neg hnb] at hok; cases hok
      | some key =>
        cases hfp : E.fingerprint with
        | false =>
          unfold check at hok
          rw [hh, hf, Proofs.KnownHosts.keyType_eq, ht, hk, hfp] at hok
          simp only at hok
          rw [if_neg hnb] at hok; cases hok
        | true =>
          refine ⟨file, type, key, rfl, rfl, rfl, ?_⟩
          rcases check_cases E target pubKey file type key hh hf hu ht hk hfp with ⟨h1, h2⟩ | ⟨⟨k', h1, h3⟩, h2⟩ | ⟨h1, h2⟩
          · exact .inl ⟨h1, by rw [h2]⟩
          · rw [h2] at hok; cases hok
          · have := C105_unknown E target pubKey file type key hh hf hu ht hk hfp h1
            exact .inr ⟨h1, this.1, (this.2.1 hok).1⟩

/-- C105: and if base64 tells keys apart, the accepted key is, byte for byte, the one whose text is in the file. -/
theorem C105_same (E : Env) (target pubKey other : List UInt8) (file type key : List UInt8) (hf : E.file = some file)
    (hinj : ∀ a b t, E.enc a = some t → E.enc b = some t → a = b) (ho : E.enc other = some key) (ht : typeOf pubKey = some type)
    (hkn : knownKey file target type = some key) (hok : (check E target pubKey).ok = true) : pubKey = other := by
  obtain ⟨file', type', key', h1, h2, h3, h4⟩ := C105_only E target pubKey hok
  rw [hf] at h1; cases h1
  rw [ht] at h2; cases h2
  rcases h4 with ⟨h5, _⟩ | ⟨h5, _⟩
  · rw [hkn] at h5; cases h5
    exact hinj _ _ _ h3 ho
  · rw [hkn] at h5; cases h5

/-- A file with two servers, and a stand-in for base64. -/
def hosts : List UInt8 := txt "a.example ssh-rsa KEYA\nb.example ssh-rsa KEYB\r\n\n# end"
def keyA : List UInt8 := [0, 0, 0, 7] ++ txt "ssh-rsa" ++ [1]
def keyB : List UInt8 := [0, 0, 0, 7] ++ txt "ssh-rsa" ++ [2]
def keyE : List UInt8 := [0, 0, 0, 11] ++ txt "ssh-ed25519" ++ [3]
def enc (k : List UInt8) : Option (List UInt8) :=
  if k = keyA then some (txt "KEYA") else if k = keyB then some (txt "KEYB") else if k = keyE then some (txt "KEYE") else none
def here : Env := { file := some hosts, enc := enc, answer := some 89 }

example : entries hosts = [⟨txt "a.example", txt "ssh-rsa", txt "KEYA"⟩, ⟨txt "b.example", txt "ssh-rsa", txt "KEYB"⟩] := by decide +kernel

example : Usable hosts ∧ typeOf keyA = some (txt "ssh-rsa") ∧ check here (txt "a.example") keyA = ⟨true, false, some hosts⟩ ∧
    check here (txt "b.example") keyB = ⟨true, false, some hosts⟩ ∧ check here (txt "a.example") keyB = ⟨false, false, some hosts⟩ := by
  refine ⟨by unfold Usable; decide +kernel, by decide +kernel, by decide +kernel, by decide +kernel, by decide +kernel⟩

example : knownKey hosts (txt "c.example") (txt "ssh-rsa") = none ∧
    check here (txt "c.example") keyA = ⟨true, true, some (hosts ++ txt "\nc.example ssh-rsa KEYA\n")⟩ ∧
    check { here with answer := some 121 } (txt "c.example") keyA = ⟨false, true, some hosts⟩ := by decide +kernel

example : ∀ a b t, enc a = some t → enc b = some t → a = b := by
  intro a b t h1 h2
  unfold enc at h1 h2
  have hAB : txt "KEYA" ≠ txt "KEYB" := by decide +kernel
  have hAE : txt "KEYA" ≠ txt "KEYE" := by decide +kernel
  have hBE : txt "KEYB" ≠ txt "KEYE" := by decide +kernel
  grind

/-- C105: with an empty or a missing file no server is accepted and the user is never asked. -/
theorem C105_empty (E : Env) (target pubKey : List UInt8) (h : E.file = none ∨ E.file = some []) :
    check E target pubKey = ⟨false, false, E.file⟩ := by
  unfold check
  rcases h with h | h
  · rw [h]; cases E.home <;> rfl
  · rw [h]; cases E.home <;> rfl

/-! ## C106: a key that was confirmed is remembered, and nothing else is changed -/

/-- C106, the part that holds. If the user was asked and the key accepted, the file has one entry more: this server, its type, its key;
it begins with what was there. Missing: files with a NUL byte, see below. -/
theorem C106_partial (E : Env) (target pubKey file type key : List UInt8) (hf : E.file = some file) (ht : typeOf pubKey = some type)
    (hk : E.enc pubKey = some key) (h0 : 0 ∉ file) (hr : E.reread = true) (hok : (check E target pubKey).ok = true)
    (hask : (check E target pubKey).asked = true) :
    ∃ file', (check E target pubKey).file = some file' ∧ file <+: file' ∧ entries file' = entries file ++ [⟨target, type, key⟩] := by
  obtain ⟨file1, type1, key1, h1, h2, h3, h4⟩ := C105_only E target pubKey hok
  rw [hf] at h1; cases h1
  rw [ht] at h2; cases h2
  rw [hk] at h3; cases h3
  rcases h4 with ⟨_, h5⟩ | ⟨hn, _, _⟩
  · rw [hask] at h5; cases h5
  · have hh : E.home = true := by
      cases h : E.home
      · unfold check at hok; rw [h] at hok; cases hok
      · rfl
    have hu : Usable file := by
      by_cases hb : file.length < 4 ∨ 2 ^ 31 ≤ file.length
      · unfold check at hok; rw [hh, hf] at hok; simp only at hok; rw [if_pos hb] at hok; cases hok
      · unfold Usable; omega
    have hfp : E.fingerprint = true := by
      cases hfp : E.fingerprint
      · unfold check at hok
        rw [hh, hf, Proofs.KnownHosts.keyType_eq, ht, hk, hfp] at hok
        simp only at hok
        rw [if_neg (by unfold Usable at hu; omega)] at hok; cases hok
      · rfl
    obtain ⟨ha, p1, p2, p3, ho, hfl⟩ := (C105_unknown E target pubKey file type key hh hf hu ht hk hfp hn).2.1 hok
    rcases check_cases E target pubKey file type key hh hf hu ht hk hfp with ⟨h1, _⟩ | ⟨⟨k', h1, _⟩, _⟩ | ⟨_, h2⟩
    · rw [hn] at h1; cases h1
    · rw [hn] at h1; cases h1
    · rw [h2]
      unfold ask append
      rw [if_pos ha, if_pos ⟨(Proofs.KnownHosts.storable_iff _).2 p1, (Proofs.KnownHosts.storable_iff _).2 p2, (Proofs.KnownHosts.storable_iff _).2 p3⟩]
      simp only [ho, hfl, hr, if_true, Bool.true_and]
      refine ⟨_, rfl, List.prefix_append _ _, Proofs.KnownHosts.entries_append h0 p1 p2 p3 _ ?_⟩
      cases hl : file.getLast? with
      | none => rw [List.getLast?_eq_none_iff] at hl; exact .inr (.inr hl)
      | some b =>
        by_cases hb : b = 10
        · subst hb; exact .inr (.inl rfl)
        · exact .inl (by simp [hb])

/-- C106: from then on the file has this key for this server and type, and for all others what it had. -/
theorem C106_lookup (file file' target type key : List UInt8) (hn : knownKey file target type = none)
    (he : entries file' = entries file ++ [⟨target, type, key⟩]) (host ty : List UInt8) :
    knownKey file' host ty = if host = target ∧ ty = type then some key else knownKey file host ty := by
  unfold knownKey at hn ⊢
  rw [he, List.find?_append]
  by_cases h : host = target ∧ ty = type
  · obtain ⟨rfl, rfl⟩ := h
    rw [Option.map_eq_none_iff] at hn
    rw [hn]
    simp
  · rw [if_neg h]
    have : List.find? (fun e => decide (e.host = host ∧ e.type = ty)) [(⟨target, type, key⟩ : Entry)] = none := by
      rw [List.find?_cons_of_neg]
      · rfl
      · simp only [decide_eq_true_eq]; intro hh; exact h ⟨hh.1.symm, hh.2.symm⟩
    rw [this, Option.or_none]

/-- C106: so the same server with the same key is accepted the next time without a question, with another key of the type refused. -/
theorem C106_next_partial (E E' : Env) (target pubKey pubKey' file file' type key key' : List UInt8) (hf : E.file = some file)
    (ht : typeOf pubKey = some type) (hk : E.enc pubKey = some key) (h0 : 0 ∉ file) (hr : E.reread = true)
    (hok : (check E target pubKey).ok = true) (hask : (check E target pubKey).asked = true) (hnew : (check E target pubKey).file = some file')
    (hh' : E'.home = true) (hf' : E'.file = some file') (hsz : file'.length < 2 ^ 31) (ht' : typeOf pubKey' = some type)
    (hk' : E'.enc pubKey' = some key') (hfp' : E'.fingerprint = true) :
    check E' target pubKey' = ⟨decide (key = key'), false, some file'⟩ := by
  obtain ⟨f, h1, h2, h3⟩ := C106_partial E target pubKey file type key hf ht hk h0 hr hok hask
  rw [hnew] at h1; cases h1
  obtain ⟨file1, type1, key1, g1, g2, g3, g4⟩ := C105_only E target pubKey hok
  rw [hf] at g1; cases g1
  rw [ht] at g2; cases g2
  rw [hk] at g3; cases g3
  have hn : knownKey file target type = none := by
    rcases g4 with ⟨_, g⟩ | ⟨g, _⟩
    · rw [hask] at g; cases g
    · exact g
  have hu : 4 ≤ file.length := by
    by_cases hb : file.length < 4 ∨ 2 ^ 31 ≤ file.length
    · unfold check at hok
      cases hh : E.home <;> rw [hh, hf] at hok
      · cases hok
      · simp only at hok; rw [if_pos hb] at hok; cases hok
    · omega
  refine C105_known E' target pubKey' file' type key' key hh' hf' ⟨Nat.le_trans hu h2.length_le, hsz⟩ ht' hk' hfp' ?_
  rw [C106_lookup file file' target type key hn h3, if_pos ⟨rfl, rfl⟩]

example : (check here (txt "c.example") keyA).ok = true ∧
    check { here with file := some (hosts ++ txt "\nc.example ssh-rsa KEYA\n"), answer := none } (txt "c.example") keyA =
      ⟨true, false, some (hosts ++ txt "\nc.example ssh-rsa KEYA\n")⟩ ∧ 0 ∉ hosts := by decide +kernel

/-- C106, what is missing: nothing behind a NUL byte is read, so an entry added there is never found and the user is asked again. -/
theorem C106_nul : ∃ file file', check { here with file := some file } (txt "c.example") keyA = ⟨true, true, some file'⟩ ∧
    check { here with file := some file', answer := none } (txt "c.example") keyA = ⟨false, true, some file'⟩ :=
  ⟨hosts ++ [0, 10], hosts ++ [0, 10] ++ txt "c.example ssh-rsa KEYA\n", by decide +kernel, by decide +kernel⟩

/-! ## C105, hosts with X.509 certificates -/

theorem leaf_cases (b : List UInt8) (hw : b.length < 2 ^ 32) :
    (∃ e i, leaf b = .err e i ∧ firstCert b = none) ∨ (∃ der i, leaf b = .ok der i ∧ firstCert b = some der) := by
  have hm : ∀ k, Props.Wire.msgFrom b b.length k = b.drop k := by intro k; unfold Props.Wire.msgFrom; rw [List.take_length]
  unfold leaf firstCert Wolf.OsshCert.andThen Spec.Wire.string
  rcases Wolf.Channel.getUint32_cases (mem := b) 0 (Nat.le_refl _) hw with ⟨e, i, h1, h2⟩ | ⟨l, h1, _, h4, h2⟩
  · rw [hm, List.drop_zero] at h2
    rw [h1, h2]
    exact .inl ⟨e, i, rfl, rfl⟩
  rw [hm, hm, List.drop_zero] at h2
  rw [h1, h2]
  simp only [Nat.zero_add, List.length_drop]
  by_cases hl : l > b.length - 4
  · rw [if_pos hl, if_neg (by omega)]
    exact .inl ⟨_, _, rfl, rfl⟩
  rw [if_neg hl, if_pos (by omega)]
  simp only [List.drop_drop]
  rcases Wolf.Channel.getUint32_cases (mem := b) (4 + l) (Nat.le_refl _) hw with ⟨e, i, h1, h2⟩ | ⟨c, h1, _, h5, h2⟩
  · rw [hm] at h2
    rw [h1, h2]
    exact .inl ⟨e, i, rfl, rfl⟩
  rw [hm, hm] at h2
  rw [h1, h2]
  simp only
  by_cases hc : c = 0
  · rw [if_pos hc, if_pos hc]
    exact .inl ⟨_, _, rfl, rfl⟩
  rw [if_neg hc, if_neg hc]
  rcases Wolf.Channel.getUint32_cases (mem := b) (4 + l + 4) (Nat.le_refl _) hw with ⟨e, i, h1, h2⟩ | ⟨n, h1, _, h6, h2⟩
  · rw [hm] at h2
    rw [h1, h2]
    exact .inl ⟨e, i, rfl, rfl⟩
  rw [hm, hm] at h2
  rw [h1, h2]
  simp only [List.length_drop]
  by_cases hn : b.length - (4 + l + 4 + 4) < n
  · rw [if_pos hn, if_neg (by omega)]
    exact .inl ⟨_, _, rfl, rfl⟩
  rw [if_neg hn, if_pos (by omega)]
  unfold Buffer.read
  rw [if_pos (by omega)]
  exact .inr ⟨_, _, rfl, rfl⟩

/-- C105, certificates, the part that holds: the first certificate is found without reading outside the host key. Without the override
option a key is accepted only if the check against the file accepted it, and if it has a certificate that parses, only if this names the
address of the server. Missing: with the option; see below. -/
theorem C105_cert_partial (addrs : List UInt8 → Option (List (List UInt8))) (target pubKey : List UInt8) (r : Result)
    (hw : pubKey.length < 2 ^ 32) :
    leaf pubKey ≠ .ub ∧
    ((certCheck addrs false target pubKey r).ok = true ↔
      r.ok = true ∧ ∀ der l, firstCert pubKey = some der → addrs der = some l → target ∈ l) ∧
    (certCheck addrs false target pubKey r).asked = r.asked ∧ (certCheck addrs false target pubKey r).file = r.file := by
  rcases leaf_cases pubKey hw with ⟨e, i, h1, h2⟩ | ⟨der, i, h1, h2⟩
  · rw [h1]
    refine ⟨by simp, ?_⟩
    unfold certCheck
    rw [h1, h2]
    simp
  · rw [h1]
    refine ⟨by simp, ?_⟩
    unfold certCheck
    rw [h1, h2]
    simp only
    cases ha : addrs der with
    | none => simp only; exact ⟨⟨fun h => ⟨h, by intro d l h3 h4; cases h3; rw [ha] at h4; cases h4⟩, fun h => h.1⟩, by simp⟩
    | some l =>
      have hany : l.any (· = target) = true ↔ target ∈ l := by simp
      by_cases hc : r.ok = true ∧ l.any (· = target) = true
      · simp only
        rw [if_pos hc]
        refine ⟨?_, rfl, rfl⟩
        constructor
        · intro _
          refine ⟨hc.1, ?_⟩
          intro d l' h3 h4
          cases h3
          rw [ha] at h4; cases h4
          exact hany.1 hc.2
        · intro h; exact h.1
      · simp only
        rw [if_neg hc]
        refine ⟨?_, rfl, rfl⟩
        constructor
        · intro h; cases h
        · rintro ⟨h3, h4⟩
          exact absurd ⟨h3, hany.2 (h4 der l rfl ha)⟩ hc

/-- C105, what is missing: the option with which the client ignores the addresses in a certificate makes it accept any host key with a
certificate, also one that is not the key of a known server, and one the user has refused. -/
theorem C105_override : ∃ (E : Env) (addrs : List UInt8 → Option (List (List UInt8))) (target pubKey : List UInt8) (r : Result),
    r = check E target pubKey ∧ r.ok = false ∧ (∃ file k, E.file = some file ∧ knownKey file target (txt "x509v3-ssh-rsa") = some k ∧
      E.enc pubKey ≠ some k) ∧ (certCheck addrs true target pubKey r).ok = true :=
  ⟨{ file := some (txt "10.0.0.1 x509v3-ssh-rsa GOOD\n"), enc := fun _ => some (txt "EVIL"), answer := none }, fun _ => some [],
    txt "10.0.0.1", [0, 0, 0, 14] ++ txt "x509v3-ssh-rsa" ++ [0, 0, 0, 1] ++ [0, 0, 0, 2, 9, 9],
    ⟨false, false, some (txt "10.0.0.1 x509v3-ssh-rsa GOOD\n")⟩, by decide +kernel, rfl,
    ⟨_, txt "GOOD", rfl, by decide +kernel, by decide +kernel⟩, by decide +kernel⟩

example : firstCert ([0, 0, 0, 1, 7] ++ [0, 0, 0, 2] ++ [0, 0, 0, 2, 9, 9] ++ [0, 0, 0, 1, 5]) = some [9, 9] ∧
    (certCheck (fun _ => some [[1], [2]]) false [2] ([0, 0, 0, 1, 7] ++ [0, 0, 0, 2] ++ [0, 0, 0, 2, 9, 9]) ⟨true, false, none⟩).ok = true ∧
    (certCheck (fun _ => some [[1], [2]]) false [3] ([0, 0, 0, 1, 7] ++ [0, 0, 0, 2] ++ [0, 0, 0, 2, 9, 9]) ⟨true, false, none⟩).ok = false := by
  decide +kernel

/-! ## C107: the connection to a server goes on only with its known key, or one the user has confirmed -/

open Wolf.KexDh Props.Exchange Props.Wire Props.Kdf in
/-- C107. With this check as the callback of the library: if keys are derived from a key exchange reply, the host key in that reply, under
which its signature verifies, is the one in the file of known hosts for this server and type, or the server has no key of that type there
and the user has typed `Y`. -/
theorem C107 (K : Env) (target : List UInt8) (E : ClientEnv) (hcheck : E.check = some fun k => (check K target k).ok)
    (st : St) (buf : List UInt8) (len idx : Nat) (hl : len ≤ buf.length) (hw : len < 2 ^ 32) (hi : idx + 8 < 2 ^ 32)
    (hk : Fits st.keys) (hp : Fits st.peerKeys) (hsz : ∀ f k, E.agree f = some k → k.length + 1 < 2 ^ 32) :
    ∃ out, doKexDhReply E st buf len idx = some out ∧
      (out.newKeys = true →
        ∃ blob pk s rest file type key, Spec.Wire.string (msgFrom buf len idx) = some (blob, rest) ∧ out.shown = some blob ∧
          Spec.Exchange.KeyBlob E.host blob pk ∧ E.verify pk out.st.h s = true ∧
          K.file = some file ∧ typeOf blob = some type ∧ K.enc blob = some key ∧
          (knownKey file target type = some key ∨ (knownKey file target type = none ∧ K.answer = some 89))) := by
  obtain ⟨out, h1, h2⟩ := C48_authenticated E st buf len idx hl hw hi hk hp hsz
  refine ⟨out, h1, fun hn => ?_⟩
  rcases h2 with h2 | ⟨prev, blob, f, sig, rest, secret, content, pk, s, accept, a1, a2, a3, a4, a5, a6, a7, a8, a9, a10, a11, a12, a13⟩
  · rw [h2.1] at hn; cases hn
  · rw [hcheck] at a3
    simp only [Option.some.injEq] at a3
    subst a3
    obtain ⟨file, type, key, b1, b2, b3, b4⟩ := C105_only K target blob a4
    have hbl : blob.length < 2 ^ 32 := by
      have := congrArg List.length a2
      simp only [msgFrom, List.length_drop, List.length_take, Spec.Wire.encString, List.length_append] at this
      omega
    refine ⟨blob, pk, s, Spec.Wire.encString f ++ (Spec.Wire.encString sig ++ rest), file, type, key, ?_, a5, a6, a12, b1, b2, b3, ?_⟩
    · rw [a2, List.append_assoc, List.append_assoc]
      exact Proofs.Ossh.string_enc blob _ hbl
    · rcases b4 with ⟨b5, _⟩ | ⟨b5, _, b6⟩
      · exact .inl b5
      · exact .inr ⟨b5, b6⟩

section Example
open Wolf.KexDh Props.Exchange

/-- The client of the example of C48 with a file that has the server's key, `KEY`, or another one. -/
def known (text : String) : Env := { file := some (txt text), enc := fun b => if b.length = 25 then some (txt "KEY") else none, answer := none }

def withHosts (K : Env) : ClientEnv := { exClient with check := some fun k => (check K (txt "srv") k).ok }

example :
    (doKexDhReply (withHosts (known "srv rsa-sha2-256 KEY\nsrv ssh-rsa KEY")) (sendKexDhInit exClientSt [3]).1 (exReply.drop 1) (exReply.length - 1) 0).map
      (fun o => (o.ret, o.newKeys)) = some (none, true) ∧
    (doKexDhReply (withHosts (known "srv rsa-sha2-256 OLD\nsrv ssh-rsa OLD")) (sendKexDhInit exClientSt [3]).1 (exReply.drop 1) (exReply.length - 1) 0).map
      (fun o => (o.ret, o.newKeys)) = some (some .pubkeyRejected, false) := by decide +kernel

end Example

/-! ## C108: what a destination on the command line means -/

theorem userPart_of (c : List UInt8) :
    UserPart (match strchr 64 c with | some (u, _) => some u | none => none) (match strchr 64 c with | some (_, r) => r | none => c) c := by
  cases h : strchr 64 c with
  | none => exact .none (Proofs.KnownHosts.strchr_none.1 h)
  | some p =>
    obtain ⟨u, r⟩ := p
    obtain ⟨h1, h2⟩ := Proofs.KnownHosts.strchr_some.1 h
    simp only
    rw [h1]
    exact .some h2

theorem userPart_split {u : Option (List UInt8)} {r c : List UInt8} (h : UserPart u r c) :
    splitUser c = (u, r) := by
  unfold splitUser
  cases h with
  | none h => rw [Proofs.KnownHosts.strchr_none.2 h]
  | some h => rw [Proofs.KnownHosts.strchr_some.2 ⟨rfl, h⟩]

/-- What is left of a host and a port. -/
theorem hostPart_iff (c h : List UInt8) (old n : Nat) :
    (∃ o, HostPart h o c ∧ o.getD old = n) ↔
      (match strchr 58 c with
        | some (h', p) => h' = h ∧ parsePort p old = some n
        | none => c = h ∧ old = n) := by
  cases hs : strchr 58 c with
  | none =>
    have := Proofs.KnownHosts.strchr_none.1 hs
    simp only
    constructor
    · rintro ⟨o, h1, h2⟩
      cases h1 with
      | bare => exact ⟨rfl, h2⟩
      | empty => simp at this
      | port => simp at this
    · rintro ⟨rfl, rfl⟩
      exact ⟨none, .bare this, rfl⟩
  | some p =>
    obtain ⟨h', p⟩ := p
    obtain ⟨h1, h2⟩ := Proofs.KnownHosts.strchr_some.1 hs
    simp only
    constructor
    · rintro ⟨o, h3, h4⟩
      cases h3 with
      | bare hc => exact absurd (by rw [h1]; simp) hc
      | empty hc =>
        have := Proofs.KnownHosts.strchr_some.2 (⟨rfl, hc⟩ : h ++ [58] = h ++ 58 :: [] ∧ 58 ∉ h)
        rw [hs] at this; cases this
        refine ⟨rfl, ?_⟩
        unfold parsePort; rw [if_pos rfl, ← h4]; rfl
      | port hc hp =>
        rename_i t m
        have := Proofs.KnownHosts.strchr_some.2 (⟨rfl, hc⟩ : h ++ 58 :: t = h ++ 58 :: t ∧ 58 ∉ h)
        rw [hs] at this; cases this
        refine ⟨rfl, ?_⟩
        simp only [Option.getD_some] at h4
        subst h4
        refine (Proofs.KnownHosts.parsePort_some p old m ?_).2 hp
        rintro rfl
        obtain ⟨ws, sg, ds, e1, _, _, e2, _⟩ := hp
        simp at e1
        exact e2 e1.2.2
    · rintro ⟨rfl, h4⟩
      rw [h1]
      by_cases hp : p = []
      · subst hp
        unfold parsePort at h4
        rw [if_pos rfl, Option.some.injEq] at h4
        exact ⟨none, .empty h2, h4⟩
      · exact ⟨some n, .port h2 ((Proofs.KnownHosts.parsePort_some p old n hp).1 h4), rfl⟩

/-- C108. A destination is `[user@]host` or `ssh://[user@]host[:port]`, with a port from 1 to 65535. The user before the first `@`, the
host and the port replace the caller's; what is left out leaves theirs. -/
theorem C108 (s : List UInt8) (d d' : Dest) :
    parseDest s d = (none, d') ↔
      ∃ user host port, Destination s user host port ∧
        d' = ⟨user.or d.user, if host = [] then d.host else some host, port.getD d.port⟩ := by
  have hh : ∀ h : List UInt8, (if h = [] then none else some h).or d.host = if h = [] then d.host else some h := by
    intro h; split <;> simp
  by_cases hu : scheme <+: s
  · obtain ⟨t, rfl⟩ := hu
    have hp : uriPrefix.isPrefixOf (scheme ++ t) = true := by rw [List.isPrefixOf_iff_prefix]; exact List.prefix_append _ _
    have hd : (scheme ++ t).drop 6 = t := rfl
    unfold parseDest
    simp only [hp, if_true, hd]
    have hsp : ∃ u r, UserPart u r t := ⟨_, _, userPart_of t⟩
    obtain ⟨u, r, hur⟩ := hsp
    rw [userPart_split hur]
    simp only [hh]
    have hdest : ∀ user host port, Destination (scheme ++ t) user host port ↔ user = u ∧ HostPart host port r := by
      intro user host port
      constructor
      · intro h
        generalize hs : scheme ++ t = s at h
        cases h with
        | plain hn => exact absurd ⟨t, hs⟩ hn
        | uri h1 h2 =>
          have := List.append_cancel_left hs
          subst this
          have e1 := userPart_split hur
          rw [userPart_split h1] at e1
          cases e1
          exact ⟨rfl, h2⟩
      · rintro ⟨rfl, h⟩; exact .uri hur h
    simp only [hdest]
    cases hs : strchr 58 r with
    | none =>
      simp only
      constructor
      · intro h; cases h
        obtain ⟨o, h1, h2⟩ := (hostPart_iff r r d.port d.port).2 (by rw [hs]; exact ⟨rfl, rfl⟩)
        exact ⟨u, r, o, ⟨rfl, h1⟩, by rw [h2]⟩
      · rintro ⟨user, host, port, ⟨rfl, h1⟩, h2⟩
        have := (hostPart_iff r host d.port (port.getD d.port)).1 ⟨port, h1, rfl⟩
        rw [hs] at this
        simp only at this
        obtain ⟨rfl, h3⟩ := this
        rw [h2, ← h3]
    | some p =>
      obtain ⟨h', p⟩ := p
      simp only
      constructor
      · intro h
        cases hpp : parsePort p d.port with
        | none => rw [hpp] at h; cases h
        | some n =>
          rw [hpp] at h; cases h
          obtain ⟨o, h1, h2⟩ := (hostPart_iff r h' d.port n).2 (by rw [hs]; exact ⟨rfl, hpp⟩)
          exact ⟨u, h', o, ⟨rfl, h1⟩, by rw [h2]⟩
      · rintro ⟨user, host, port, ⟨rfl, h1⟩, h2⟩
        have := (hostPart_iff r host d.port (port.getD d.port)).1 ⟨port, h1, rfl⟩
        rw [hs] at this
        simp only at this
        obtain ⟨rfl, h3⟩ := this
        rw [h3, h2]
  · have hp : uriPrefix.isPrefixOf s = false := by
      rw [Bool.eq_false_iff]; intro h; exact hu (List.isPrefixOf_iff_prefix.1 h)
    unfold parseDest
    simp only [hp, Bool.false_eq_true, if_false]
    obtain ⟨u, r, hur⟩ : ∃ u r, UserPart u r s := ⟨_, _, userPart_of s⟩
    rw [userPart_split hur]
    simp only [hh]
    constructor
    · intro h; cases h
      exact ⟨u, r, none, .plain hu hur, rfl⟩
    · rintro ⟨user, host, port, h1, h2⟩
      cases h1 with
      | plain _ h3 =>
        have e1 := userPart_split hur
        rw [userPart_split h3] at e1
        cases e1
        rw [h2]; rfl
      | uri => exact absurd (List.prefix_append _ _) hu

/-- C108: anything else is an error, and the caller's values are as they were. -/
theorem C108_error (s : List UInt8) (d : Dest) (h : ¬ ∃ user host port, Destination s user host port) :
    parseDest s d = (some .badArgument, d) := by
  have key : (parseDest s d).1 = none ∨ parseDest s d = (some .badArgument, d) := by
    unfold parseDest
    simp only
    split
    · exact .inr rfl
    · exact .inl rfl
  rcases key with key | key
  · obtain ⟨u, hh, n, h1, _⟩ := (C108 s d (parseDest s d).2).1 (by rw [← key])
    exact absurd ⟨u, hh, n, h1⟩ h
  · exact key

example : parseDest (txt "ssh://me@example.com:2222") ⟨none, none, 22⟩ = (none, ⟨some (txt "me"), some (txt "example.com"), 2222⟩) ∧
    parseDest (txt "me@example.com:2222") ⟨none, none, 22⟩ = (none, ⟨some (txt "me"), some (txt "example.com:2222"), 22⟩) ∧
    parseDest (txt "ssh://example.com:") ⟨some (txt "you"), none, 22⟩ = (none, ⟨some (txt "you"), some (txt "example.com"), 22⟩) ∧
    parseDest (txt "ssh://example.com:65536") ⟨none, none, 22⟩ = (some .badArgument, ⟨none, none, 22⟩) ∧
    parseDest (txt "ssh://example.com:22x") ⟨none, none, 22⟩ = (some .badArgument, ⟨none, none, 22⟩) := by decide +kernel

end Props.KnownHosts
