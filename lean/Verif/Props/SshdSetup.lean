import Verif.Proofs.SshdSetup
/-!
# C148, C149: the daemon's context
-/

namespace Props.SshdSetup
open Wolf Wolf.SshdSetup Spec.SshdSetup Proofs.SshdSetup

/-- All steps together. -/
theorem setup_cases (B : Build) (L : Lib) (C : Conf) :
    (((setup B L C).ret = .success ∧ L.newCtx = true ∧ HostKey L C (setup B L C).key ∧ HostCert B L C (setup B L C).cert ∧
      Roots B L C (setup B L C).roots ∧ (setup B L C).types = true) ∨
     ((setup B L C).ret ≠ .success ∧ (setup B L C).types = false ∧
      ¬ (L.newCtx = true ∧ (∃ k, HostKey L C k) ∧ (∃ c, HostCert B L C c) ∧ ∃ r, Roots B L C r))) ∧
    ∃ ev, (setup B L C).ev = (start L C).ev ++ ev ∧ (setup B L C).banner = (start L C).banner ∧
      ∀ s, (∀ data d, L.pem data = some d → d.length ≤ data.length) →
        (s = true → ∀ f, C.hostKey = some f → f.size ≤ f.data.length ∧ f.size < 2 ^ 32) → Neat s ev := by
  have skipCert : ∀ o : Out, o.ret ≠ .success → hostCert B L C o = o := fun o h => by unfold hostCert; rw [if_pos (.inl h)]
  have skipCa : ∀ o : Out, o.ret ≠ .success → caKeys B L C o = o := fun o h => by unfold caKeys; rw [if_pos (.inl h)]
  have skipKey : ∀ o : Out, o.ret ≠ .success → hostKey L C o = o := fun o h => by unfold hostKey; rw [if_pos h]
  have beq : ∀ r : Ret, r ≠ .success → (r == .success) = false := by intro r h; cases r <;> first | rfl | exact absurd rfl h
  unfold setup
  by_cases hn : L.newCtx = false
  · have h0 : (start L C).ret ≠ .success := by unfold start; rw [if_pos hn]; decide
    have ht : (start L C).types = false := by unfold start; rw [if_pos hn]
    rw [skipKey _ h0, skipCert _ h0, skipCa _ h0]
    refine ⟨.inr ⟨h0, by simp only [ht, beq _ h0]; rfl, ?_⟩, [], by simp, rfl, fun s _ _ => Neat.nil s⟩
    rintro ⟨h, _⟩
    rw [hn] at h; cases h
  have hn' : L.newCtx = true := by simpa using hn
  have hs : (start L C).ret = .success ∧ (start L C).cert = none ∧ (start L C).roots = [] ∧ (start L C).types = false := by
    unfold start; rw [if_neg hn]; exact ⟨rfl, rfl, rfl, rfl⟩
  obtain ⟨k1, kc, kr, kb, kt, ke, ke1, ke2⟩ := hostKey_cases L C (start L C) hs.1
  rcases k1 with ⟨k1, k2⟩ | ⟨k1, k2⟩
  rotate_left
  · rw [skipCert _ k1, skipCa _ k1]
    refine ⟨.inr ⟨k1, by simp only [kt, hs.2.2.2, beq _ k1]; rfl, ?_⟩, ke, ke1, kb, ke2⟩
    rintro ⟨_, ⟨k, h⟩, _⟩
    exact k2 k h
  obtain ⟨c1, ck, cr, cb, ct, ce, ce1, ce2⟩ := hostCert_cases B L C (hostKey L C (start L C)) k1 (kc.trans hs.2.1)
  rcases c1 with ⟨c1, c2⟩ | ⟨c1, c2⟩
  rotate_left
  · rw [skipCa _ c1]
    refine ⟨.inr ⟨c1, by simp only [ct, kt, hs.2.2.2, beq _ c1]; rfl, ?_⟩, ke ++ ce, by rw [ce1, ke1, List.append_assoc], cb.trans kb,
      fun s a b => (ke2 s a b).append (ce2 s)⟩
    rintro ⟨_, _, ⟨k, h⟩, _⟩
    exact c2 k h
  obtain ⟨r1, rk, rc, rb, rt, re, re1, re2⟩ := caKeys_cases B L C (hostCert B L C (hostKey L C (start L C))) c1 (cr.trans (kr.trans hs.2.2.1))
  have hev : (caKeys B L C (hostCert B L C (hostKey L C (start L C)))).ev = (start L C).ev ++ (ke ++ (ce ++ re)) := by
    rw [re1, ce1, ke1]; simp
  refine ⟨?_, ke ++ (ce ++ re), hev, rb.trans (cb.trans kb), fun s a b => (ke2 s a b).append ((ce2 s).append (re2 s))⟩
  rcases r1 with ⟨r1, r2⟩ | ⟨r1, r2⟩
  · refine .inl ⟨r1, hn', ?_, ?_, r2, by simp [r1]⟩
    · simp only [rk, ck]; exact k2
    · simp only [rc]; exact c2
  · refine .inr ⟨r1, by simp only [rt, ct, kt, hs.2.2.2, beq _ r1]; rfl, ?_⟩
    rintro ⟨_, _, _, ⟨k, h⟩⟩
    exact r2 k h

/-- C148: the daemon's context is ready exactly if there is a host key in a file that passes the checks for secrets and the library
takes it, the host certificate, if set, is one of X.509 in a file that passes the checks for trusted ones, and so are the
authorities (or, where supported, they are left to OpenSSH). -/
theorem C148 (B : Build) (L : Lib) (C : Conf) :
    (setup B L C).ret = .success ↔
      L.newCtx = true ∧ (∃ k, HostKey L C k) ∧ (∃ c, HostCert B L C c) ∧ ∃ r, Roots B L C r := by
  rcases (setup_cases B L C).1 with ⟨h, h1, h2, h3, h4, _⟩ | ⟨h, _, hn⟩
  · exact ⟨fun _ => ⟨h1, ⟨_, h2⟩, ⟨_, h3⟩, ⟨_, h4⟩⟩, fun _ => h⟩
  · exact ⟨fun h' => absurd h' h, fun h' => absurd h' hn⟩

/-- C148: it then has that key, that certificate and those authorities. -/
theorem C148_holds (B : Build) (L : Lib) (C : Conf) (h : (setup B L C).ret = .success) :
    HostKey L C (setup B L C).key ∧ HostCert B L C (setup B L C).cert ∧ Roots B L C (setup B L C).roots := by
  rcases (setup_cases B L C).1 with ⟨_, _, h2, h3, h4, _⟩ | ⟨h', _⟩
  · exact ⟨h2, h3, h4⟩
  · exact absurd h h'

/-- C148: methods of authentication are offered only then. -/
theorem C148_types (B : Build) (L : Lib) (C : Conf) : (setup B L C).types = true ↔ (setup B L C).ret = .success := by
  rcases (setup_cases B L C).1 with ⟨h, _, _, _, _, ht⟩ | ⟨h, ht, _⟩
  · simp [h, ht]
  · simp [h, ht]

/-- C148: a file holds one key at most, in one format; and it is found exactly if it is there. -/
theorem C148_detect (pem : Bytes → Option Bytes) (data : Bytes) (hd : data ≠ []) (f : Fmt) (k : Bytes) :
    ((detect pem true data).ret = .ok f ∧ (detect pem true data).priv = some k) ↔ KeyIn pem data f k := by
  rcases detect_cases pem true data with ⟨f', k', h1, h2, _, _, h3⟩ | ⟨e, h1, h2, _, h3⟩
  · rw [h1, h2]
    constructor
    · rintro ⟨hr, hk⟩
      cases hr; cases hk; exact h3
    · intro h
      obtain ⟨rfl, rfl⟩ := keyIn_unique h3 h
      exact ⟨rfl, rfl⟩
  · rw [h1, h2]
    constructor
    · rintro ⟨_, h⟩; cases h
    · intro h
      rcases h3 with ⟨h', _⟩ | ⟨_, h', _⟩ | ⟨_, _, _, h'⟩
      · exact absurd h' hd
      · cases h'
      · exact absurd h (h' f k)

/-- C148: nothing is handed out by a failure. -/
theorem C148_nothing (pem : Bytes → Option Bytes) (mem : Bool) (data : Bytes) (e : Ret) (h : (detect pem mem data).ret = .error e) :
    (detect pem mem data).priv = none ∧ (detect pem mem data).keyDer = false := by
  rcases detect_cases pem mem data with ⟨f', k', h1, _⟩ | ⟨e, _, h2, h3, _⟩
  · rw [h1] at h; cases h
  · exact ⟨h2, h3⟩

theorem start_ev (L : Lib) (C : Conf) (b : Blk) :
    (b ≠ .banner → ∀ s, life s b (start L C).ev none = some none) ∧
    (b = .banner → ∃ m, life false b (start L C).ev none = some m ∧ m.isSome = (start L C).banner.isSome) ∧
    files (start L C).ev false = some false := by
  unfold start
  by_cases hn : L.newCtx = false
  · rw [if_pos hn]; exact ⟨fun _ _ => rfl, fun _ => ⟨none, rfl, rfl⟩, rfl⟩
  rw [if_neg hn]
  cases hb : C.banner with
  | none => exact ⟨fun _ _ => rfl, fun _ => ⟨none, rfl, rfl⟩, rfl⟩
  | some f =>
    rcases load_cases .normal .banner f with ⟨data, h, _⟩ | ⟨ev, h, _, hc⟩ <;> rw [h]
    · refine ⟨fun hb s => by simp [life, Ne.symm hb], ?_, rfl⟩
      rintro rfl
      exact ⟨some (data.length + 1, data.length), by simp [life], rfl⟩
    · rcases hc with rfl | rfl | ⟨n, m, hm, _, rfl⟩
      · exact ⟨fun _ _ => rfl, fun _ => ⟨none, rfl, rfl⟩, rfl⟩
      · exact ⟨fun _ _ => rfl, fun _ => ⟨none, rfl, rfl⟩, rfl⟩
      · refine ⟨fun hb s => by simp [life, Ne.symm hb], ?_, rfl⟩
        rintro rfl
        exact ⟨none, by simp [life, show ¬ n + 1 < m by omega], rfl⟩

/-- C149: whatever fails, each buffer is made, used within its size and freed once up to the end of the daemon, and each file is
closed; `wc_KeyPemToDer` keeps to its buffer. -/
theorem C149_memory (B : Build) (L : Lib) (C : Conf) (hp : ∀ data d, L.pem data = some d → d.length ≤ data.length) :
    (∀ b, Tidy b (cleanup (setup B L C))) ∧ files (cleanup (setup B L C)) false = some false := by
  obtain ⟨_, ev, h1, h2, h3⟩ := setup_cases B L C
  have hn := h3 false hp (fun e => by cases e)
  unfold cleanup Tidy
  rw [h1, h2]
  constructor
  · intro b
    obtain ⟨s1, s2, _⟩ := start_ev L C b
    rw [List.append_assoc, life_append]
    by_cases hb : b = .banner
    · obtain ⟨m, hm, hm'⟩ := s2 hb
      subst hb
      rw [hm]
      simp only [Option.bind_some]
      rw [life_append, hn.2.2]
      simp only [Option.bind_some]
      rw [← hm']
      cases m <;> simp [life]
    · rw [s1 hb]
      simp only [Option.bind_some]
      rw [life_append, hn.1 b (fun e => by cases e)]
      simp only [Option.bind_some]
      cases (start L C).banner <;> simp [life, Ne.symm hb]
  · rw [List.append_assoc, files_append, (start_ev L C .banner).2.2]
    simp only [Option.bind_some]
    rw [files_append, hn.2.1]
    cases (start L C).banner <;> rfl

/-- C149: the bytes of the host key's file and of the key decoded from it are zeroed before they are freed, whatever fails. Missing:
a file that has become shorter since its size was taken, or is not smaller than 2^32 bytes; see `C149_short`. -/
theorem C149_partial (B : Build) (L : Lib) (C : Conf) (hp : ∀ data d, L.pem data = some d → d.length ≤ data.length)
    (hs : ∀ f, C.hostKey = some f → f.size ≤ f.data.length ∧ f.size < 2 ^ 32) (b : Blk) (hb : b = .key ∨ b = .der) :
    Wiped b (cleanup (setup B L C)) := by
  obtain ⟨_, ev, h1, h2, h3⟩ := setup_cases B L C
  have hn := h3 true hp (fun _ => hs)
  have hbn : b ≠ .banner := by rcases hb with rfl | rfl <;> decide
  unfold cleanup Wiped
  rw [h1, h2, List.append_assoc, life_append, (start_ev L C b).1 hbn]
  simp only [Option.bind_some]
  rw [life_append, hn.1 b (fun _ => hb)]
  simp only [Option.bind_some]
  cases (start L C).banner <;> simp [life, Ne.symm hbn]

/-- A file with these bytes, of this size. -/
def mFile (n : Int) (data : Bytes) : File := ⟨fun _ => true, true, n, true, data⟩

/-- A library that takes all, decodes no PEM, and finds certificates of X.509. -/
def mLib : Lib := ⟨true, true, fun _ => none, fun _ _ => true, fun d => (.success, some d, true), fun _ => .success, fun f _ => if f = .asn1 then .success else .other⟩

/-- C149: the missing part is false. If the file of the host key is shorter when it is read, what was read of it is freed as it is. -/
theorem C149_short : ∃ B L C, (∀ data d, L.pem data = some d → d.length ≤ data.length) ∧ ¬ Wiped .key (cleanup (setup B L C)) :=
  ⟨⟨true, true⟩, mLib, ⟨some (mFile 4 [0x30, 1, 2]), none, none, none⟩, (fun _ _ h => by cases h), by unfold Wiped; decide +kernel⟩

/-- The hypotheses of `C148_holds`, `C149_memory` and `C149_partial` are met. -/
example : (setup ⟨true, false⟩ mLib ⟨some (mFile 2 [0x30, 1]), some (mFile 1 [7]), some (mFile 1 [8]), some (mFile 1 [9])⟩).ret = .success := by
  decide +kernel

example : (setup ⟨true, false⟩ mLib ⟨some (mFile 2 [0x30, 1]), some (mFile 1 [7]), some (mFile 1 [8]), some (mFile 1 [9])⟩).roots = [(.asn1, [8])] := by
  decide +kernel

example : cleanup (setup ⟨true, false⟩ { mLib with pem := fun _ => some [0x30] } ⟨some (mFile 2 [5, 6]), none, none, none⟩) =
    [.opened, .alloc .key 3, .fill .key 2, .closed, .alloc .der 2, .fill .der 1, .wipe .der 2, .free .der, .wipe .key 2, .free .key] := by
  decide +kernel

/-- Those of `C148_nothing`, and a key of OpenSSH. -/
example : (setup ⟨true, false⟩ mLib ⟨some (mFile 2 [5, 6]), none, none, none⟩).ret = .badFile := by decide +kernel

example : (detect (fun _ => none) true (Spec.SshdSetup.asc "openssh-key-v1" ++ [0, 1])).priv = some (Spec.SshdSetup.asc "openssh-key-v1" ++ [0, 1]) := by
  decide +kernel

/-- Any file that is not empty is taken for one with authorities of OpenSSH, if these are supported. -/
example : (setup ⟨true, true⟩ { mLib with addRoot := fun _ _ => .other } ⟨some (mFile 2 [0x30, 1]), none, some (mFile 1 [8]), none⟩).ret = .success := by
  decide +kernel

end Props.SshdSetup
