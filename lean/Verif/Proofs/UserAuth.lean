import Verif.Model.UserAuth
import Verif.Spec.Auth
import Verif.Proofs.Wire

namespace Wolf.UserAuth
open Wolf Wolf.Wire Wolf.NameList Spec.Auth

/-- Events a handler may add on behalf of `user`. -/
def Quiet (user : Bytes) (l : List Ev) : Prop :=
  ∀ e ∈ l, (∀ m, e ≠ .acted m) ∧ e ≠ .sentUserAuthSuccess ∧ (∀ u q x, e = .asked u q x → u = user)

theorem Quiet.nil (user : Bytes) : Quiet user [] := by intro e h; cases h

theorem Quiet.append {user : Bytes} {l l' : List Ev} (h : Quiet user l) (h' : Quiet user l') :
    Quiet user (l ++ l') := by
  intro e he
  rcases List.mem_append.1 he with he | he
  · exact h e he
  · exact h' e he

theorem failures_append (l l' : List Ev) : failures (l ++ l') = failures l + failures l' := by
  simp [failures]

theorem requests_append (l l' : List Ev) : requests (l ++ l') = requests l + requests l' := by
  simp [requests]

theorem Quiet.requests {user : Bytes} {l : List Ev} (h : Quiet user l) : requests l = 0 := by
  unfold Spec.Auth.requests
  rw [List.length_eq_zero_iff, List.filter_eq_nil_iff]
  intro e he
  have := (h e he).1 50
  simpa using this

theorem accepted_mono {sid user : Bytes} {l l' : List Ev} (h : accepted sid user l)
    (hs : ∀ e ∈ l, e ∈ l') : accepted sid user l' := by
  rcases h with ⟨pw, h⟩ | ⟨rs, h⟩ | ⟨algo, key, sig, cert, rest, h1, h2⟩
  · exact .inl ⟨pw, hs _ h⟩
  · exact .inr (.inl ⟨rs, hs _ h⟩)
  · exact .inr (.inr ⟨algo, key, sig, cert, rest, hs _ h1, hs _ h2⟩)

/-- What a method handler does to the session. `x` allows one uncharged failure reply. -/
structure Eff (x : Bool) (user : Bytes) (a : Auth) (r : Ret) (a' : Auth) : Prop where
  seen : a'.userAuthSeen = a.userAuthSeen
  name : a'.userName = a.userName
  authId : a'.authId = a.authId
  sid : a'.sessionId = a.sessionId
  max : a'.maxAuthAttempts = a.maxAuthAttempts
  reqs : a'.authRequests = a.authRequests
  client : a'.clientState = a.clientState ∨
    (a'.clientState = CLIENT_USERAUTH_DONE ∧ r = none ∧ accepted a.sessionId user a'.log)
  log : ∃ l, a'.log = a.log ++ l ∧ Quiet user l ∧
    ((a'.authFailures = a.authFailures ∧ failures l = 0) ∨
     (x = true ∧ a'.authFailures = a.authFailures ∧ failures l ≤ 1) ∨
     (a'.authFailures = add32 a.authFailures 1 ∧ failures l ≤ 1 ∧
       (a'.authFailures ≥ a.maxAuthAttempts → r = some .userAuthE ∧ Ev.sentDisconnect ∈ l)))

theorem Eff.refl (x : Bool) (user : Bytes) (a : Auth) (r : Ret) : Eff x user a r a :=
  ⟨rfl, rfl, rfl, rfl, rfl, rfl, .inl rfl, [], by simp, Quiet.nil _, .inl ⟨rfl, rfl⟩⟩

/-- A neutral event first. -/
theorem Eff.pre {x : Bool} {user : Bytes} {a a' : Auth} {r : Ret} {e : Ev} (hq : Quiet user [e])
    (hf : failures [e] = 0) (h : Eff x user (a.note e) r a') : Eff x user a r a' := by
  obtain ⟨h1, h2, h3, h4, h5, h6, h7, l, h8, h9, h10⟩ := h
  refine ⟨h1, h2, h3, h4, h5, h6, h7, e :: l, ?_, ?_, ?_⟩
  · rw [h8]; simp [Auth.note]
  · exact Quiet.append (l := [e]) hq h9
  · have : failures (e :: l) = failures l := by
      have := failures_append [e] l
      simp only [List.cons_append, List.nil_append] at this
      omega
    rw [this]
    rcases h10 with h | h | ⟨h, h', h''⟩
    · exact .inl h
    · exact .inr (.inl h)
    · refine .inr (.inr ⟨h, h', fun hm => ⟨(h'' hm).1, ?_⟩⟩)
      exact List.mem_cons_of_mem _ (h'' hm).2

theorem Eff.fields {x : Bool} {user : Bytes} {a a' : Auth} {r : Ret} (b : Bool) (n : Nat)
    (h : Eff x user { a with kbSetupPending := b, promptCount := n } r a') : Eff x user a r a' := by
  obtain ⟨h1, h2, h3, h4, h5, h6, h7, h8⟩ := h
  exact ⟨h1, h2, h3, h4, h5, h6, h7, h8⟩

theorem Eff.weaken {x : Bool} {user : Bytes} {a a' : Auth} {r : Ret}
    (h : Eff false user a r a') : Eff x user a r a' := by
  obtain ⟨h1, h2, h3, h4, h5, h6, h7, l, h8, h9, h10⟩ := h
  refine ⟨h1, h2, h3, h4, h5, h6, h7, l, h8, h9, ?_⟩
  rcases h10 with h | ⟨h, _⟩ | h
  · exact .inl h
  · cases h
  · exact .inr (.inr h)

theorem quiet_of (user : Bytes) (e : Ev) (h1 : ∀ m, e ≠ .acted m) (h2 : e ≠ .sentUserAuthSuccess)
    (h3 : ∀ u q x, e = .asked u q x → u = user) : Quiet user [e] := by
  intro e' he
  rw [List.mem_singleton] at he
  subst he
  exact ⟨h1, h2, h3⟩

theorem quiet_asked (user : Bytes) (q : Ask) (x : Answer) : Quiet user [.asked user q x] := by
  apply quiet_of
  · intro m h; cases h
  · intro h; cases h
  · intro u q' x' h; cases h; rfl

/-- A charged failure reply. -/
theorem failCount_eff (E : Env) (user : Bytes) (a : Auth) (isPartial : Bool) {r : Ret} {a' : Auth}
    (h : sendUserAuthFailureCount E a isPartial true = (r, a')) : Eff false user a r a' := by
  unfold sendUserAuthFailureCount sendUserAuthFailure at h
  simp only [if_true] at h
  unfold countUserAuthFailure at h
  have hq : Quiet user [Ev.sentFailure isPartial] :=
    quiet_of _ _ (by intro m h; cases h) (by intro h; cases h) (by intro u q x h; cases h)
  have hd : Quiet user [Ev.sentDisconnect] :=
    quiet_of _ _ (by intro m h; cases h) (by intro h; cases h) (by intro u q x h; cases h)
  have f1 : failures [Ev.sentFailure isPartial] = 1 := rfl
  have f2 : failures [Ev.sentDisconnect] = 0 := rfl
  have f3 : failures [Ev.sentFailure isPartial, Ev.sentDisconnect] = 1 := rfl
  by_cases hqd : queued E.sendFailure = true <;>
    by_cases hlt : add32 a.authFailures 1 ≥ a.maxAuthAttempts
  · simp only [hqd, if_true, Auth.note, if_pos hlt] at h
    obtain ⟨rfl, rfl⟩ : some Err.userAuthE = r ∧ _ = a' := by simpa using h
    exact ⟨rfl, rfl, rfl, rfl, rfl, rfl, .inl rfl, [.sentFailure isPartial, .sentDisconnect],
      by simp, Quiet.append (l := [_]) hq hd,
      .inr (.inr ⟨rfl, by omega, fun _ => ⟨rfl, by simp⟩⟩)⟩
  · simp only [hqd, if_true, Auth.note, if_neg hlt] at h
    obtain ⟨rfl, rfl⟩ : E.sendFailure = r ∧ _ = a' := by simpa using h
    exact ⟨rfl, rfl, rfl, rfl, rfl, rfl, .inl rfl, [.sentFailure isPartial], rfl, hq,
      .inr (.inr ⟨rfl, by omega, fun hm => absurd hm hlt⟩)⟩
  · simp only [hqd, Bool.false_eq_true, if_false, Auth.note, if_pos hlt] at h
    obtain ⟨rfl, rfl⟩ : some Err.userAuthE = r ∧ _ = a' := by simpa using h
    exact ⟨rfl, rfl, rfl, rfl, rfl, rfl, .inl rfl, [.sentDisconnect],
      by simp, hd, .inr (.inr ⟨rfl, by omega, fun _ => ⟨rfl, by simp⟩⟩)⟩
  · simp only [hqd, Bool.false_eq_true, if_false, Auth.note, if_neg hlt] at h
    obtain ⟨rfl, rfl⟩ : E.sendFailure = r ∧ _ = a' := by simpa using h
    exact ⟨rfl, rfl, rfl, rfl, rfl, rfl, .inl rfl, [], by simp, Quiet.nil _,
      .inr (.inr ⟨rfl, by decide, fun hm => absurd hm hlt⟩)⟩

/-- Replacing the result by `WS_USER_AUTH_E` keeps the effect when nobody was authenticated. -/
theorem Eff.toErr {x : Bool} {user : Bytes} {a a' : Auth} {r : Ret} (h : Eff x user a r a')
    (hc : a'.clientState = a.clientState) (b : Bool) :
    Eff x user a (if b then some .userAuthE else r) a' := by
  obtain ⟨h1, h2, h3, h4, h5, h6, h7, l, h8, h9, h10⟩ := h
  refine ⟨h1, h2, h3, h4, h5, h6, .inl hc, l, h8, h9, ?_⟩
  rcases h10 with h | h | ⟨h, h', h''⟩
  · exact .inl h
  · exact .inr (.inl h)
  · refine .inr (.inr ⟨h, h', fun hm => ⟨?_, (h'' hm).2⟩⟩)
    rw [(h'' hm).1]; cases b <;> rfl

theorem failCount_client (E : Env) (a : Auth) (p c : Bool) :
    (sendUserAuthFailureCount E a p c).2.clientState = a.clientState := by
  unfold sendUserAuthFailureCount sendUserAuthFailure countUserAuthFailure
  simp only [Auth.note]
  cases queued E.sendFailure <;> cases c <;> simp <;> split <;> rename_i h <;> split at h <;>
    simp only [Prod.mk.injEq] at h <;> first | (obtain ⟨_, rfl⟩ := h; rfl) | (simp at h)

theorem kbRequest_eff (E : Env) (user : Bytes) (a : Auth) {r : Ret} {a' : Auth}
    (h : sendUserAuthKeyboardRequest E a user = (r, a')) : Eff false user a r a' := by
  unfold sendUserAuthKeyboardRequest at h
  split at h
  · obtain ⟨rfl, rfl⟩ : _ ∧ _ := by simpa using h
    exact Eff.refl _ _ _ _
  · rename_i cb _
    apply Eff.pre (quiet_asked user .keyboardSetup (cb user .keyboardSetup)) rfl
    simp only at h
    split at h
    · split at h
      · obtain ⟨rfl, rfl⟩ : _ ∧ _ := by simpa using h
        exact Eff.refl _ _ _ _
      · split at h
        · obtain ⟨rfl, rfl⟩ : _ ∧ _ := by simpa using h
          apply Eff.fields true E.prompts
          apply Eff.pre (e := .sentInfoRequest E.prompts) ?_ rfl (Eff.refl _ _ _ _)
          exact quiet_of _ _ (by intro m h; cases h) (by intro h; cases h) (by intro u q x h; cases h)
        · obtain ⟨rfl, rfl⟩ : _ ∧ _ := by simpa using h
          exact Eff.fields _ E.prompts (Eff.refl _ _ _ _)
    · obtain ⟨rfl, rfl⟩ : _ ∧ _ := by simpa using h
      exact Eff.fields false _ (Eff.refl _ _ _ _)
    · exact Eff.fields false _ (failCount_eff E user _ _ h)

/-- The common tail, for a verdict that authenticates only when `hacc`. -/
theorem conclude_eff (E : Env) (user : Bytes) (a : Auth) (v : Verdict) {r : Ret} {a' : Auth}
    (hacc : v.failure = false → v.isPartial = false → v.another = false → v.ret = none →
      accepted a.sessionId user a.log)
    (h : conclude E a user v = (r, a')) : Eff false user a r a' := by
  unfold conclude at h
  split at h
  · cases hs : sendUserAuthFailureCount E a v.isPartial true with
    | mk r1 a1 =>
      simp only [hs] at h
      have hc := failCount_client E a v.isPartial true
      rw [hs] at hc
      obtain ⟨rfl, rfl⟩ : _ ∧ _ := by simpa using h
      exact (failCount_eff E user a _ hs).toErr hc _
  · rename_i hf
    split at h
    · exact kbRequest_eff E user a h
    · split at h
      · obtain ⟨rfl, rfl⟩ : _ ∧ _ := by simpa using h
        rename_i hn hr
        simp only [Bool.or_eq_true, not_or, Bool.not_eq_true] at hf hn
        refine ⟨rfl, rfl, rfl, rfl, rfl, rfl, .inr ⟨rfl, rfl, hacc hf.1 hf.2 hn hr⟩, [], by simp,
          Quiet.nil _, .inl ⟨rfl, rfl⟩⟩
      · obtain ⟨rfl, rfl⟩ : _ ∧ _ := by simpa using h
        exact Eff.refl _ _ _ _

theorem mem_note (a : Auth) (e : Ev) : e ∈ (a.note e).log := by simp [Auth.note]

theorem password_eff (E : Env) (user mem : Bytes) (a : Auth) (len idx : Nat) {r : Ret} {j : Nat}
    {a' : Auth} (h : doUserAuthRequestPassword E a user mem len idx = .ret r j a') :
    Eff false user a r a' := by
  unfold doUserAuthRequestPassword at h
  have hno : ∀ {r : Ret} {a' : Auth},
      conclude E a user { ret := none, failure := true } = (r, a') → Eff false user a r a' := by
    intro r a' h
    exact conclude_eff E user a _ (by intro h; simp at h) h
  split at h
  · cases h
  · cases h; exact Eff.refl _ _ _ _
  · split at h
    · cases h
    · cases h; exact Eff.refl _ _ _ _
    · split at h
      · split at h
        · cases h
        · cases h; exact Eff.refl _ _ _ _
        · cases hc : conclude E a user { ret := none, failure := true } with
          | mk r1 a1 =>
            simp only [hc] at h; cases h
            exact hno hc
      · split at h
        · cases hc : conclude E a user { ret := none, failure := true } with
          | mk r1 a1 =>
            simp only [hc] at h; cases h
            exact hno hc
        · split at h
          · cases h
          · rename_i cb _ _ pwBytes _
            simp only at h
            generalize hans : cb user (.password pwBytes) = ans at h
            cases hc : conclude E (a.note (.asked user (.password pwBytes) ans)) user
                (passwordVerdict ans) with
            | mk r1 a1 =>
              simp only [hc] at h; cases h
              apply Eff.pre (quiet_asked user (.password pwBytes) ans) rfl
              refine conclude_eff E user _ _ ?_ hc
              intro h1 h2 h3 h4
              cases ans <;> simp [passwordVerdict] at h1 h2 h3 h4
              exact .inl ⟨pwBytes, mem_note _ _⟩

theorem infoResponse_eff (E : Env) (mem : Bytes) (a : Auth) (len idx : Nat) {r : Ret} {j : Nat}
    {a' : Auth} (h : doUserAuthInfoResponse E a mem len idx = .ret r j a') :
    (a' = a) ∨ (a.authId = ID_USERAUTH_KEYBOARD ∧ Eff false a.userName a r a') := by
  unfold doUserAuthInfoResponse at h
  split at h
  · cases h; exact .inl rfl
  · split at h
    · cases h; exact .inl rfl
    · rename_i hk
      right
      refine ⟨Classical.not_not.1 hk, ?_⟩
      apply Eff.fields false a.promptCount
      change Eff false a.userName { a with kbSetupPending := false } r a'
      have hnm : ({ a with kbSetupPending := false } : Auth).userName = a.userName := rfl
      rw [← hnm]
      clear hnm hk
      revert h
      generalize ({ a with kbSetupPending := false } : Auth) = a1
      intro h
      simp only at h
      split at h
      · cases h
      · cases h; exact Eff.refl _ _ _ _
      · split at h
        · cases hc : sendUserAuthFailureCount E a1 false true with
          | mk r1 a2 =>
            simp only [hc] at h; cases h
            exact failCount_eff E _ _ _ hc
        · split at h
          · cases h
          · cases h; exact Eff.refl _ _ _ _
          · rename_i responses begin_ _
            split at h
            · cases hc : conclude E a1 a1.userName { ret := none, failure := true } with
              | mk r1 a2 =>
                simp only [hc] at h; cases h
                exact conclude_eff E _ a1 _ (by intro h; simp at h) hc
            · rename_i cb _

              generalize hans : cb a1.userName (.keyboard responses) = ans at h
              cases hc : conclude E (a1.note (.asked a1.userName (.keyboard responses) ans))
                  (a1.note (.asked a1.userName (.keyboard responses) ans)).userName
                  (keyboardVerdict ans) with
              | mk r1 a2 =>
                simp only [hc] at h; cases h
                apply Eff.pre (quiet_asked a1.userName (.keyboard responses) ans) rfl
                refine conclude_eff E a1.userName _ _ ?_ hc
                intro h1 h2 h3 h4
                cases ans <;> simp [keyboardVerdict] at h1 h2 h3 h4
                exact .inr (.inl ⟨responses, mem_note _ _⟩)

theorem pkFail_eff (E : Env) (user : Bytes) (a : Auth) (b : Bool) {r : Ret} {a' : Auth}
    (h : pkFail E a b = (r, a')) : Eff false user a r a' := by
  unfold pkFail at h
  cases hs : sendUserAuthFailureCount E a false true with
  | mk r1 a1 =>
    simp only [hs] at h
    have hc := failCount_client E a false true
    rw [hs] at hc
    obtain ⟨rfl, rfl⟩ : _ ∧ _ := by simpa using h
    exact (failCount_eff E user a _ hs).toErr hc _

theorem pkVerify_eff (E : Env) (user mem : Bytes) (a : Auth) (len : Nat) (s : Subject) (b : PkBody)
    (sig : Bytes) (p : Bool) {r : Ret} {a' : Auth}
    (hasked : p = false → Ev.asked user (.publicKey s.algo s.key true sig s.cert) .success ∈ a.log)
    (h : pkVerify E a user mem len s b sig p = some (r, a')) : Eff false user a r a' := by
  unfold pkVerify at h
  simp only at h
  split at h
  · cases h
  · rename_i ok _
    have hq : Quiet user [Ev.sigChecked user s.algo s.key sig
        (signedData a mem (sub32 (sub32 len b.sig.sz) 4)) ok] :=
      quiet_of _ _ (by intro m h; cases h) (by intro h; cases h) (by intro u q x h; cases h)
    apply Eff.pre hq rfl
    split at h
    · exact pkFail_eff E user _ _ (by simpa using h)
    · split at h
      · exact pkFail_eff E user _ _ (by simpa using h)
      · rename_i hok _
        have hok : ok = true := by simpa using hok
        subst hok
        have hr : Quiet user [Ev.resultAccepted] :=
          quiet_of _ _ (by intro m h; cases h) (by intro h; cases h) (by intro u q x h; cases h)
        apply Eff.pre hr rfl
        split at h
        · exact failCount_eff E user _ _ (by simpa using h)
        · rename_i hp
          have hp : p = false := by simpa using hp
          obtain ⟨rfl, rfl⟩ : _ ∧ _ := by simpa using h
          refine ⟨rfl, rfl, rfl, rfl, rfl, rfl, .inr ⟨rfl, rfl, ?_⟩, [], by simp, Quiet.nil _,
            .inl ⟨rfl, rfl⟩⟩
          refine .inr (.inr ⟨s.algo, s.key, sig, s.cert, mem.take (sub32 (sub32 len b.sig.sz) 4), ?_, ?_⟩)
          · simp [Auth.note, hasked hp]
          · simp [Auth.note, signedData, c32toa_eq, Spec.Wire.encString]

theorem pkAnswer_eff (E : Env) (user mem : Bytes) (a : Auth) (len idx : Nat) (s : Subject) (b : PkBody)
    (algo key sig : Bytes) {r : Ret} {j : Nat} {a' : Auth}
    (h : pkAnswer E a user mem len idx s b algo key sig = .ret r j a') : Eff false user a r a' := by
  unfold pkAnswer at h
  split at h
  · cases hc : pkFail E a false with
    | mk r1 a1 => simp only [hc] at h; cases h; exact pkFail_eff E user a _ hc
  · rename_i cb _
    simp only at h
    generalize hans : cb user (.publicKey s.algo s.key b.hasSig sig s.cert) = ans at h
    apply Eff.pre (quiet_asked user (.publicKey s.algo s.key b.hasSig sig s.cert) ans) rfl
    generalize ha1 : a.note (.asked user (.publicKey s.algo s.key b.hasSig sig s.cert) ans) = a1 at h ⊢
    have hok : Eff false user a1 E.sendPkOk
        (if queued E.sendPkOk = true then a1.note (.sentPkOk algo key) else a1) := by
      split
      · refine Eff.pre (e := .sentPkOk algo key) ?_ rfl (Eff.refl _ _ _ _)
        exact quiet_of _ _ (by intro m h; cases h) (by intro h; cases h)
          (by intro u q x h; cases h)
      · exact Eff.refl _ _ _ _
    split at h
    · cases h; exact Eff.refl _ _ _ _
    · cases hc : pkFail E a1 true with
      | mk r1 a2 => simp only [hc] at h; cases h; exact pkFail_eff E user _ _ hc
    · split at h
      · rename_i hs
        split at h
        · cases h
        · rename_i hv
          cases h
          refine pkVerify_eff E user mem a1 len s b sig false ?_ hv
          intro _
          rw [← ha1, hs]; exact mem_note _ _
      · cases h; exact hok
    · split at h
      · split at h
        · cases h
        · rename_i hv
          cases h
          exact pkVerify_eff E user mem a1 len s b sig true (by simp) hv
      · cases h; exact hok
    · cases hc : pkFail E a1 false with
      | mk r1 a2 => simp only [hc] at h; cases h; exact pkFail_eff E user _ _ hc

theorem publicKey_eff (E : Env) (user mem : Bytes) (a : Auth) (len idx : Nat) {r : Ret} {j : Nat}
    {a' : Auth} (h : doUserAuthRequestPublicKey E a user mem len idx = .ret r j a') :
    Eff false user a r a' := by
  unfold doUserAuthRequestPublicKey at h
  split at h
  · cases h
  · cases h; exact Eff.refl _ _ _ _
  · rename_i b _ _
    split at h
    · cases h
    · cases h; exact Eff.refl _ _ _ _
    · split at h
      · rename_i algo key sig _ _ _
        simp only at h
        split at h
        · cases hc : pkFail E a false with
          | mk r1 a1 => simp only [hc] at h; cases h; exact pkFail_eff E user a _ hc
        · split at h
          · cases h
          · cases hc : pkFail E a false with
            | mk r1 a1 => simp only [hc] at h; cases h; exact pkFail_eff E user a _ hc
          · exact pkAnswer_eff E user mem a len _ _ b algo key sig h
      · cases h

theorem failNoCount_eff (E : Env) (user : Bytes) (a : Auth) (p c : Bool) {r : Ret} {a' : Auth}
    (h : sendUserAuthFailureCount E a p c = (r, a')) : Eff (!c) user a r a' := by
  cases c
  · unfold sendUserAuthFailureCount sendUserAuthFailure at h
    simp only [Bool.false_eq_true, if_false] at h
    obtain ⟨rfl, rfl⟩ : _ ∧ _ := by simpa using h
    split
    · refine ⟨rfl, rfl, rfl, rfl, rfl, rfl, .inl rfl, [.sentFailure p], rfl, ?_,
        .inr (.inl ⟨rfl, rfl, by simp [failures]⟩)⟩
      exact quiet_of _ _ (by intro m h; cases h) (by intro h; cases h) (by intro u q x h; cases h)
    · exact Eff.refl _ _ _ _
  · exact failCount_eff E user a p h

theorem dispatchMethod_eff (E : Env) (user mem : Bytes) (a : Auth) (len i id : Nat) {r : Ret}
    {j : Nat} {a' : Auth} (h : dispatchMethod E a user mem len i id = .ret r j a') :
    Eff (id == ID_NONE && a.authRequests == 1) user a r a' := by
  unfold dispatchMethod at h
  split at h
  · exact (password_eff E user mem a len i h).weaken
  · split at h
    · cases hc : sendUserAuthKeyboardRequest E a user with
      | mk r1 a1 => simp only [hc] at h; cases h; exact (kbRequest_eff E user a hc).weaken
    · split at h
      · exact (publicKey_eff E user mem a len i h).weaken
      · simp only at h
        cases hc : sendUserAuthFailureCount E a false (!(id == ID_NONE && a.authRequests == 1)) with
        | mk r1 a1 =>
          simp only [hc] at h; cases h
          have := failNoCount_eff E user a _ _ hc
          rwa [Bool.not_not] at this

/-- What `DoUserAuthRequest` can do. -/
inductive ReqCase (a : Auth) (r : Ret) (a' : Auth) : Prop where
  | same : a' = a → ReqCase a r a'
  | charged : (∀ user, Eff false user a r a') → ReqCase a r a'
  | mismatch : a' = a.note .sentDisconnect → r = some .invalidState → ReqCase a r a'
  | abandoned (user : Bytes) (id f : Nat) :
      (a.userAuthSeen = true → user = a.userName) →
      f = add32 a.authFailures 1 → f ≥ a.maxAuthAttempts → r = some .userAuthE →
      a' = Auth.note { a with userName := user, userAuthSeen := true, authId := id, authRequests := add32 a.authRequests 1, kbSetupPending := false, authFailures := f } .sentDisconnect →
      ReqCase a r a'
  | method (user : Bytes) (id f : Nat) (b : Bool) :
      (a.userAuthSeen = true → user = a.userName) →
      (f = a.authFailures ∨ (f = add32 a.authFailures 1 ∧ f < a.maxAuthAttempts)) →
      Eff (id == ID_NONE && add32 a.authRequests 1 == 1) user
        { a with userName := user, userAuthSeen := true, authId := id, authRequests := add32 a.authRequests 1, kbSetupPending := b, authFailures := f }
        r a' →
      ReqCase a r a'

theorem bindUser_some {a a1 : Auth} {user : Bytes} {e : Err} (h : bindUser a user = (some e, a1)) :
    a1 = a ∨ (a1 = a.note .sentDisconnect ∧ e = .invalidState) := by
  unfold bindUser at h
  split at h
  · split at h
    · obtain ⟨_, rfl⟩ : _ ∧ _ := by simpa using h
      exact .inl rfl
    · simp at h
  · split at h
    · obtain ⟨rfl, rfl⟩ : _ ∧ _ := by simpa using h
      exact .inr ⟨rfl, rfl⟩
    · simp at h

theorem bindUser_none {a a1 : Auth} {user : Bytes} (h : bindUser a user = (none, a1)) :
    (a.userAuthSeen = true → user = a.userName) ∧
    a1 = { a with userName := user, userAuthSeen := true } := by
  unfold bindUser at h
  split at h
  · rename_i hs
    split at h
    · simp at h
    · obtain rfl : _ = a1 := by simpa using h
      exact ⟨fun h => by simp [hs] at h, rfl⟩
  · rename_i hs
    have hs : a.userAuthSeen = true := by simpa using hs
    split at h
    · simp at h
    · rename_i hne
      have hu : user = a.userName := Classical.not_not.1 (fun hx => hne (.inr hx))
      obtain rfl : _ = a1 := by simpa using h
      refine ⟨fun _ => hu, ?_⟩
      subst hu
      cases a
      simp only at hs
      subst hs
      rfl

theorem request_cases (E : Env) (mem : Bytes) (a : Auth) (len : Nat) {r : Ret} {j : Nat} {a' : Auth}
    (h : doUserAuthRequest E a mem len = .ret r j a') : ReqCase a r a' := by
  unfold doUserAuthRequest at h
  split at h
  · cases h; exact .same rfl
  · split at h
    · cases h
    · cases h; exact .same rfl
    · split at h
      · cases h
      · cases h; exact .same rfl
      · split at h
        · split at h
          · cases hc : sendUserAuthFailureCount E a false true with
            | mk r1 a1 =>
              simp only [hc] at h; cases h
              exact .charged (fun user => failCount_eff E user a _ hc)
          · split at h
            · cases h
            · cases h; exact .same rfl
            · split at h
              · cases h
              · rename_i method _
                split at h
                · rename_i hb
                  cases h
                  rcases bindUser_some hb with rfl | ⟨rfl, rfl⟩
                  · exact .same rfl
                  · exact .mismatch rfl rfl
                · rename_i hb
                  obtain ⟨hu, rfl⟩ := bindUser_none hb
                  clear hb
                  simp only at h
                  split at h
                  · unfold countUserAuthFailure at h
                    simp only at h
                    by_cases hm : add32 a.authFailures 1 ≥ a.maxAuthAttempts
                    · simp only [if_pos hm] at h
                      cases h
                      exact .abandoned _ (nameToId E.table method) _ hu rfl hm rfl rfl
                    · simp only [if_neg hm] at h
                      exact .method _ (nameToId E.table method) _ false hu
                        (.inr ⟨rfl, by omega⟩) (dispatchMethod_eff E _ mem _ len _ _ h)
                  · exact .method _ (nameToId E.table method) _ a.kbSetupPending hu (.inl rfl)
                      (dispatchMethod_eff E _ mem _ len _ _ h)
        · cases h

end Wolf.UserAuth
