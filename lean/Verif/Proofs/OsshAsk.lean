import Verif.Proofs.PkAuth
/-!
# Which questions about public keys a request leads to
-/

namespace Wolf.UserAuth
open Wolf Wolf.Wire Wolf.NameList
open Props.Wire (msgFrom)

/-- A question about a public key. -/
def IsPk (e : Ev) : Prop := ∃ u al k hs sg c x, e = .asked u (.publicKey al k hs sg c) x

theorem note_pk {a : Auth} {e e' : Ev} (h : e ∈ (a.note e').log) (hn : e ≠ e') : e ∈ a.log := by
  simp only [Auth.note, List.mem_append, List.mem_singleton] at h
  exact h.resolve_right hn

theorem note_pk' {a : Auth} {e e' : Ev} (h : e ∈ (a.note e').log) (hp : IsPk e) (hn : ¬ IsPk e') : e ∈ a.log :=
  note_pk h (fun he => hn (he ▸ hp))

theorem failCount_pk (E : Env) (a : Auth) (p c : Bool) {e : Ev} (hp : IsPk e)
    (h : e ∈ (sendUserAuthFailureCount E a p c).2.log) : e ∈ a.log := by
  obtain ⟨u, al, k, hs, sg, ct, x, rfl⟩ := hp
  revert h
  unfold sendUserAuthFailureCount sendUserAuthFailure countUserAuthFailure
  simp only [Auth.note]
  cases queued E.sendFailure <;> cases c <;> simp only [if_true, Bool.false_eq_true, if_false]
  · exact id
  · by_cases h : add32 a.authFailures 1 ≥ a.maxAuthAttempts
    · simp [if_pos h]
    · simp [if_neg h]
  · simp
  · by_cases h : add32 a.authFailures 1 ≥ a.maxAuthAttempts
    · simp [if_pos h]
    · simp [if_neg h]

theorem pkFail_pk (E : Env) (a : Auth) (b : Bool) {e : Ev} (hp : IsPk e)
    (h : e ∈ (pkFail E a b).2.log) : e ∈ a.log := by
  unfold pkFail at h
  exact failCount_pk E a false true hp h

theorem notPk_setup (u : Bytes) (x : Answer) : ¬ IsPk (.asked u .keyboardSetup x) := by
  rintro ⟨_, _, _, _, _, _, _, h⟩; cases h
theorem notPk_password (u p : Bytes) (x : Answer) : ¬ IsPk (.asked u (.password p) x) := by
  rintro ⟨_, _, _, _, _, _, _, h⟩; cases h
theorem notPk_info (n : Nat) : ¬ IsPk (.sentInfoRequest n) := by
  rintro ⟨_, _, _, _, _, _, _, h⟩; cases h
theorem notPk_ok (a b : Bytes) : ¬ IsPk (.sentPkOk a b) := by
  rintro ⟨_, _, _, _, _, _, _, h⟩; cases h
theorem notPk_sig (u al k sg d : Bytes) (b : Bool) : ¬ IsPk (.sigChecked u al k sg d b) := by
  rintro ⟨_, _, _, _, _, _, _, h⟩; cases h
theorem notPk_result : ¬ IsPk .resultAccepted := by
  rintro ⟨_, _, _, _, _, _, _, h⟩; cases h
theorem notPk_disc : ¬ IsPk .sentDisconnect := by
  rintro ⟨_, _, _, _, _, _, _, h⟩; cases h

theorem keyboardRequest_pk (E : Env) (a : Auth) (user : Bytes) {e : Ev} (hp : IsPk e)
    (h : e ∈ (sendUserAuthKeyboardRequest E a user).2.log) : e ∈ a.log := by
  unfold sendUserAuthKeyboardRequest at h
  split at h
  · exact h
  · simp only at h
    split at h
    · split at h
      · exact note_pk' h hp (notPk_setup _ _)
      · split at h
        · simp only [Auth.note, List.mem_append, List.mem_singleton] at h
          obtain ⟨u, al, k, hs, sg, ct, x, rfl⟩ := hp
          simpa using h
        · exact note_pk' (a := a) h hp (notPk_setup _ _)
    · exact note_pk' (a := a) h hp (notPk_setup _ _)
    · have := failCount_pk E _ false true hp h
      exact note_pk' (a := a) this hp (notPk_setup _ _)

theorem conclude_pk (E : Env) (a : Auth) (user : Bytes) (v : Verdict) {e : Ev} (hp : IsPk e)
    (h : e ∈ (conclude E a user v).2.log) : e ∈ a.log := by
  unfold conclude at h
  split at h
  · exact failCount_pk E _ _ _ hp h
  · split at h
    · exact keyboardRequest_pk E a user hp h
    · split at h
      · exact h
      · exact h

theorem password_pk {E : Env} {a a' : Auth} {user mem : Bytes} {len idx j : Nat} {r : Ret} {e : Ev} (hp : IsPk e)
    (h : doUserAuthRequestPassword E a user mem len idx = .ret r j a') (he : e ∈ a'.log) : e ∈ a.log := by
  unfold doUserAuthRequestPassword at h
  split at h
  · cases h
  · cases h; exact he
  · split at h
    · cases h
    · cases h; exact he
    · split at h
      · split at h
        · cases h
        · cases h; exact he
        · cases h; exact conclude_pk E a user { ret := none, failure := true } hp he
      · split at h
        · cases h; exact conclude_pk E a user { ret := none, failure := true } hp he
        · split at h
          · cases h
          · cases h
            exact note_pk' (a := a) (conclude_pk E _ user _ hp he) hp (notPk_password _ _ _)

theorem pkVerify_pk {E : Env} {a a' : Auth} {user mem sig : Bytes} {len : Nat} {s : Subject}
    {b : PkBody} {p : Bool} {r : Ret} {e : Ev} (hp : IsPk e)
    (h : pkVerify E a user mem len s b sig p = some (r, a')) (he : e ∈ a'.log) : e ∈ a.log := by
  unfold pkVerify at h
  simp only at h
  split at h
  · cases h
  · split at h
    · simp only [Option.some.injEq] at h
      have := congrArg Prod.snd h
      simp only at this
      rw [← this] at he
      exact note_pk' (pkFail_pk E _ _ hp he) hp (notPk_sig _ _ _ _ _ _)
    · split at h
      · simp only [Option.some.injEq] at h
        have := congrArg Prod.snd h
        simp only at this
        rw [← this] at he
        exact note_pk' (pkFail_pk E _ _ hp he) hp (notPk_sig _ _ _ _ _ _)
      · split at h
        · simp only [Option.some.injEq] at h
          have := congrArg Prod.snd h
          simp only at this
          rw [← this] at he
          exact note_pk' (note_pk' (failCount_pk E _ _ _ hp he) hp notPk_result) hp (notPk_sig _ _ _ _ _ _)
        · simp only [Option.some.injEq, Prod.mk.injEq] at h
          rw [← h.2] at he
          exact note_pk' (a := a) (note_pk' (a := a.note _) he hp notPk_result) hp (notPk_sig _ _ _ _ _ _)

theorem pkAnswer_pk {E : Env} {a a' : Auth} {user mem : Bytes} {len idx j : Nat} {r : Ret} {s : Subject}
    {b : PkBody} {algo key sig : Bytes} {e : Ev} (hp : IsPk e)
    (h : pkAnswer E a user mem len idx s b algo key sig = .ret r j a') (he : e ∈ a'.log) :
    e ∈ a.log ∨ ∃ x, e = .asked user (.publicKey s.algo s.key b.hasSig sig s.cert) x := by
  unfold pkAnswer at h
  split at h
  · cases h; exact .inl (pkFail_pk E a false hp he)
  · rename_i cb hcb
    simp only at h
    generalize hans : cb user (.publicKey s.algo s.key b.hasSig sig s.cert) = ans at h
    generalize ha1 : a.note (.asked user (.publicKey s.algo s.key b.hasSig sig s.cert) ans) = a1 at h
    have key' : e ∈ a1.log → e ∈ a.log ∨ ∃ x, e = .asked user (.publicKey s.algo s.key b.hasSig sig s.cert) x := by
      intro h1
      rw [← ha1] at h1
      by_cases hx : e = .asked user (.publicKey s.algo s.key b.hasSig sig s.cert) ans
      · exact .inr ⟨_, hx⟩
      · exact .inl (note_pk h1 hx)
    apply key'
    have ok' : e ∈ (if queued E.sendPkOk = true then a1.note (.sentPkOk algo key) else a1).log → e ∈ a1.log := by
      split
      · exact fun h => note_pk' h hp (notPk_ok _ _)
      · exact id
    split at h
    · cases h; exact he
    · cases h; exact pkFail_pk E a1 true hp he
    · split at h
      · split at h
        · cases h
        · rename_i hv
          cases h
          exact pkVerify_pk hp hv he
      · cases h; exact ok' he
    · split at h
      · split at h
        · cases h
        · rename_i hv
          cases h
          exact pkVerify_pk hp hv he
      · cases h; exact ok' he
    · cases h; exact pkFail_pk E a1 false hp he

theorem publicKey_pk {E : Env} {a a' : Auth} {user mem : Bytes} {len idx j : Nat} {r : Ret} {e : Ev}
    (hl : len ≤ mem.length) (hw : len < 2^32) (hp : IsPk e)
    (h : doUserAuthRequestPublicKey E a user mem len idx = .ret r j a') (he : e ∈ a'.log) :
    e ∈ a.log ∨ ∃ flag algo key rest algo' key' hs sig cert x,
      e = .asked user (.publicKey algo' key' hs sig cert) x ∧
      msgFrom mem len idx = flag :: (Spec.Wire.encString algo ++ (Spec.Wire.encString key ++ rest)) ∧
      Spec.Auth.asks (E.ossh.map Spec.OsshCert.judge) algo key algo' key' cert := by
  unfold doUserAuthRequestPublicKey at h
  split at h
  · cases h
  · cases h; exact .inl he
  · rename_i b _ hpk
    obtain ⟨algo, key, sig, P⟩ := parsePk_at hl hw hpk
    have hok := parsePk_ok hl hw hpk
    split at h
    · cases h
    · cases h; exact .inl he
    · rename_i hi
      rw [P.da, P.dk, P.ds] at h
      simp only at h
      split at h
      · cases h; exact .inl (pkFail_pk E a false hp he)
      · split at h
        · cases h
        · cases h; exact .inl (pkFail_pk E a false hp he)
        · rename_i s hs
          obtain ⟨_, hask, _, _⟩ := subject_asks hok hi P.vk hs
          rcases pkAnswer_pk hp h he with h | ⟨x, hx⟩
          · exact .inl h
          · refine .inr ?_
            rcases P.shape with ⟨_, flag, t, _, hmsg⟩ | ⟨_, _, t, hmsg⟩
            · exact ⟨flag, algo, key, _, _, _, _, _, _, x, hx, hmsg, hask⟩
            · exact ⟨0, algo, key, _, _, _, _, _, _, x, hx, hmsg, hask⟩

theorem request_pk {E : Env} {a a' : Auth} {mem : Bytes} {len j : Nat} {r : Ret} {e : Ev}
    (hl : len ≤ mem.length) (hw : len < 2^32) (hp : IsPk e)
    (h : doUserAuthRequest E a mem len = .ret r j a') (he : e ∈ a'.log) :
    e ∈ a.log ∨ ∃ user service method flag algo key rest algo' key' hs sig cert x,
      e = .asked user (.publicKey algo' key' hs sig cert) x ∧
      msgFrom mem len 0 = Spec.Wire.encString user ++ (Spec.Wire.encString service ++
        (Spec.Wire.encString method ++
          (flag :: (Spec.Wire.encString algo ++ (Spec.Wire.encString key ++ rest))))) ∧
      Spec.Auth.asks (E.ossh.map Spec.OsshCert.judge) algo key algo' key' cert := by
  unfold doUserAuthRequest at h
  split at h
  · cases h; exact .inl he
  · split at h
    · cases h
    · cases h; exact .inl he
    · rename_i h1
      obtain ⟨user, d1, _, _, n1, l1, e1⟩ := read_string hl hw h1
      split at h
      · cases h
      · cases h; exact .inl he
      · rename_i h2
        obtain ⟨service, d2, _, _, n2, l2, e2⟩ := read_string hl hw h2
        rw [d1, d2] at h
        simp only at h
        split at h
        · cases h
          exact .inl (failCount_pk E _ _ _ hp he)
        · split at h
          · cases h
          · cases h; exact .inl he
          · rename_i i3 h3
            obtain ⟨method, d3, _, _, n3, l3, e3⟩ := read_string hl hw h3
            rw [d3] at h
            simp only at h
            have disp : ∀ a2 : Auth, dispatchMethod E a2 user mem len i3 (nameToId E.table method) = .ret r j a' →
                a2.log = a.log →
                e ∈ a.log ∨ ∃ user service method flag algo key rest algo' key' hs sig cert x,
                  e = .asked user (.publicKey algo' key' hs sig cert) x ∧
                  msgFrom mem len 0 = Spec.Wire.encString user ++ (Spec.Wire.encString service ++
                    (Spec.Wire.encString method ++
                      (flag :: (Spec.Wire.encString algo ++ (Spec.Wire.encString key ++ rest))))) ∧
                  Spec.Auth.asks (E.ossh.map Spec.OsshCert.judge) algo key algo' key' cert := by
              intro a2 hd ha2
              rw [← ha2]
              unfold dispatchMethod at hd
              split at hd
              · exact .inl (password_pk hp hd he)
              · split at hd
                · cases hd; exact .inl (keyboardRequest_pk E _ _ hp he)
                · split at hd
                  · rcases publicKey_pk hl hw hp hd he with h | ⟨flag, algo, key, rest, al, k, hs, sg, ct, x, h1, h2, h3⟩
                    · exact .inl h
                    · exact .inr ⟨user, service, method, flag, algo, key, rest, al, k, hs, sg, ct, x, h1,
                        by rw [e1, e2, e3, h2], h3⟩
                  · cases hd; exact .inl (failCount_pk E _ _ _ hp he)
            split at h
            · rename_i hb
              cases h
              rcases bindUser_some hb with rfl | ⟨rfl, rfl⟩
              · exact .inl he
              · exact .inl (note_pk' he hp notPk_disc)
            · rename_i hb
              obtain ⟨hu, rfl⟩ := bindUser_none hb
              split at h
              · unfold countUserAuthFailure at h
                simp only at h
                by_cases hm : add32 a.authFailures 1 ≥ a.maxAuthAttempts
                · simp only [if_pos hm] at h
                  cases h
                  exact .inl (note_pk' (a := a) he hp notPk_disc)
                · simp only [if_neg hm] at h
                  exact disp _ h rfl
              · exact disp _ h rfl

end Wolf.UserAuth
