import Verif.Proofs.SessionUser
import Verif.Spec.Auth
/-! A rejection by the application is the last thing that happens in a session. -/

namespace Proofs.Reject
open Wolf Wolf.Wire Wolf.UserAuth Wolf.MsgFilter Wolf.Session

/-- The application rejected a password, a key or keyboard answers. -/
def Hard (e : Ev) : Prop := ∃ u q, e = .asked u q .rejected ∧ q ≠ .keyboardSetup

/-- What may still be sent. -/
def Farewell (e : Ev) : Prop := e = .sentDisconnect ∨ ∃ p, e = .sentFailure p

def Clean (l : List Ev) : Prop := ∀ e ∈ l, ¬Hard e

def Ended (l : List Ev) : Prop := ∃ l₁ e l₂, l = l₁ ++ e :: l₂ ∧ Hard e ∧ Clean l₁ ∧ ∀ x ∈ l₂, Farewell x

def After (r : Ret) (l : List Ev) : Prop := Clean l ∨ (r = some .userAuthE ∧ Ended l)

theorem Clean.note {a : Auth} (h : Clean a.log) {e : Ev} (he : ¬Hard e) : Clean (a.note e).log := by
  intro x hx
  rcases List.mem_append.1 hx with hx | hx
  · exact h x hx
  · rw [List.mem_singleton.1 hx]; exact he

theorem Clean.ended {a : Auth} (h : Clean a.log) {e : Ev} (he : Hard e) : Ended (a.note e).log :=
  ⟨a.log, e, [], rfl, he, h, fun _ hx => by cases hx⟩

theorem Ended.note {a : Auth} (h : Ended a.log) {e : Ev} (he : Farewell e) : Ended (a.note e).log := by
  obtain ⟨l₁, x, l₂, h1, h2, h3, h4⟩ := h
  refine ⟨l₁, x, l₂ ++ [e], by rw [Auth.note, h1]; simp, h2, h3, ?_⟩
  intro y hy
  rcases List.mem_append.1 hy with hy | hy
  · exact h4 y hy
  · rw [List.mem_singleton.1 hy]; exact he

theorem soft {e : Ev} (h : ∀ u q, e ≠ .asked u q .rejected) : ¬Hard e := fun ⟨u, q, he, _⟩ => h u q he

theorem Farewell.soft {e : Ev} (h : Farewell e) : ¬Hard e := by
  rintro ⟨u, q, rfl, _⟩
  rcases h with h | ⟨p, h⟩ <;> cases h

/-- A property of logs that farewells keep. -/
theorem failCount_keeps (P : List Ev → Prop) (hP : ∀ (a : Auth) e, P a.log → Farewell e → P (a.note e).log) (E : Env) (a : Auth)
    (p c : Bool) (h : P a.log) : P (sendUserAuthFailureCount E a p c).2.log := by
  have h1 : P (sendUserAuthFailure E a p).2.log := by
    rw [sendUserAuthFailure]
    simp only
    split
    · exact hP a _ h (.inr ⟨_, rfl⟩)
    · exact h
  rw [sendUserAuthFailureCount]
  generalize sendUserAuthFailure E a p = x at *
  obtain ⟨r, a⟩ := x
  simp only at h1 ⊢
  split
  · have h2 : P (countUserAuthFailure a).2.log := by
      rw [countUserAuthFailure]
      simp only
      split
      · exact hP { a with authFailures := add32 a.authFailures 1 } _ h1 (.inl rfl)
      · exact h1
    generalize countUserAuthFailure a = x at *
    obtain ⟨r, a⟩ := x
    cases r <;> exact h2
  · exact h1

theorem failCount_clean (E : Env) (a : Auth) (p c : Bool) (h : Clean a.log) : Clean (sendUserAuthFailureCount E a p c).2.log :=
  failCount_keeps Clean (fun _ _ h he => h.note he.soft) E a p c h

theorem failCount_ended (E : Env) (a : Auth) (p c : Bool) (h : Ended a.log) : Ended (sendUserAuthFailureCount E a p c).2.log :=
  failCount_keeps Ended (fun _ _ h he => h.note he) E a p c h

theorem keyboard_clean (E : Env) (a : Auth) (user : Bytes) (h : Clean a.log) : Clean (sendUserAuthKeyboardRequest E a user).2.log := by
  rw [sendUserAuthKeyboardRequest.eq_def]
  split
  · exact h
  · rename_i cb _
    have h1 : Clean (a.note (.asked user .keyboardSetup (cb user .keyboardSetup))).log :=
      h.note (fun ⟨u, q, he, hq⟩ => hq (by simp only [Ev.asked.injEq] at he; exact he.2.1.symm))
    simp only
    split
    · split
      · exact h1
      · split
        · exact Clean.note (a := { a.note (.asked user .keyboardSetup (cb user .keyboardSetup)) with promptCount := E.prompts, kbSetupPending := true })
            h1 (soft (fun _ _ he => by cases he))
        · exact h1
    · exact h1
    · exact failCount_clean E _ _ _ h1

/-- The tail of the handlers for passwords and keyboard answers. -/
theorem conclude_after (E : Env) (a : Auth) (user : Bytes) (v : Verdict) (hv : v.rejected = true → v.failure = true)
    (h : Clean a.log ∨ (v.rejected = true ∧ Ended a.log)) :
    After (conclude E a user v).1 (conclude E a user v).2.log := by
  rw [conclude]
  rcases h with h | ⟨hr, h⟩
  · left
    split
    · simp only
      exact failCount_clean E a _ _ h
    · split
      · exact keyboard_clean E a user h
      · split
        · exact h
        · exact h
  · right
    rw [if_pos (by simp [hv hr])]
    simp only [hr, if_true, true_and]
    exact failCount_ended E a _ _ h

theorem keyboardVerdict_rejected (x : Answer) : (keyboardVerdict x).rejected = true ↔ x = .rejected := by
  cases x <;> simp [keyboardVerdict]

theorem passwordVerdict_rejected (x : Answer) : (passwordVerdict x).rejected = true ↔ x = .rejected := by
  cases x <;> simp [passwordVerdict]

theorem note_after {a : Auth} (h : Clean a.log) (u : Bytes) (q : Ask) (x : Answer) (hq : q ≠ .keyboardSetup) :
    Clean (a.note (.asked u q x)).log ∨ (x = .rejected ∧ Ended (a.note (.asked u q x)).log) := by
  by_cases hx : x = .rejected
  · right; subst hx; exact ⟨rfl, h.ended ⟨u, q, rfl, hq⟩⟩
  · left; exact h.note (fun ⟨_, _, he, _⟩ => hx (by cases he; rfl))

theorem info_after {E : Env} {a a' : Auth} {mem : Bytes} {len idx j : Nat} {r : Ret} (h : Clean a.log)
    (hd : doUserAuthInfoResponse E a mem len idx = .ret r j a') : After r a'.log := by
  rw [doUserAuthInfoResponse] at hd
  split at hd
  · cases hd; exact .inl h
  · split at hd
    · cases hd; exact .inl h
    · simp only at hd
      split at hd
      · cases hd
      · cases hd; exact .inl h
      · split at hd
        · cases hd
          exact .inl (failCount_clean E _ _ _ h)
        · split at hd
          · cases hd
          · cases hd; exact .inl h
          · split at hd
            · cases hd
              exact conclude_after E { a with kbSetupPending := false } _ _ (fun h => by cases h) (.inl h)
            · rename_i cb _
              cases hd
              refine conclude_after E _ _ _ ?_ ?_
              · intro h; rw [keyboardVerdict_rejected] at h; rw [h]; rfl
              · rw [keyboardVerdict_rejected]
                exact note_after (a := { a with kbSetupPending := false }) h _ _ _ (fun h => by cases h)

theorem password_after {E : Env} {a a' : Auth} {user mem : Bytes} {len idx j : Nat} {r : Ret} (h : Clean a.log)
    (hd : doUserAuthRequestPassword E a user mem len idx = .ret r j a') : After r a'.log := by
  rw [doUserAuthRequestPassword] at hd
  split at hd
  · cases hd
  · cases hd; exact .inl h
  · split at hd
    · cases hd
    · cases hd; exact .inl h
    · split at hd
      · split at hd
        · cases hd
        · cases hd; exact .inl h
        · cases hd
          exact conclude_after E a user { ret := none, failure := true } (fun h => by cases h) (.inl h)
      · split at hd
        · cases hd
          exact conclude_after E a user { ret := none, failure := true } (fun h => by cases h) (.inl h)
        · split at hd
          · cases hd
          · cases hd
            refine conclude_after E _ _ _ ?_ ?_
            · intro h; rw [passwordVerdict_rejected] at h; rw [h]; rfl
            · rw [passwordVerdict_rejected]
              exact note_after h _ _ _ (fun h => by cases h)

theorem pkFail_clean (E : Env) (a : Auth) (b : Bool) (h : Clean a.log) : Clean (pkFail E a b).2.log := by
  rw [pkFail]; exact failCount_clean E a _ _ h

theorem pkVerify_clean {E : Env} {a a' : Auth} {user mem : Bytes} {len : Nat} {s : Subject} {b : PkBody} {sig : Bytes} {p : Bool}
    {r : Ret} (h : Clean a.log) (hd : pkVerify E a user mem len s b sig p = some (r, a')) : Clean a'.log := by
  rw [pkVerify] at hd
  simp only at hd
  split at hd
  · cases hd
  · rename_i ok _
    have h1 : Clean (a.note (.sigChecked user s.algo s.key sig (signedData a mem (sub32 (sub32 len b.sig.sz) 4)) ok)).log :=
      h.note (soft (fun _ _ he => by cases he))
    split at hd
    · have := pkFail_clean E _ false h1
      rw [Option.some.injEq] at hd; rw [hd] at this; exact this
    · split at hd
      · have := pkFail_clean E _ false h1
        rw [Option.some.injEq] at hd; rw [hd] at this; exact this
      · have h2 := h1.note (e := .resultAccepted) (soft (fun _ _ he => by cases he))
        split at hd
        · have := failCount_clean E _ true true h2
          rw [Option.some.injEq] at hd; rw [hd] at this; exact this
        · cases hd; exact h2

theorem pkAnswer_after {E : Env} {a a' : Auth} {user mem : Bytes} {len idx j : Nat} {s : Subject} {b : PkBody} {algo key sig : Bytes}
    {r : Ret} (h : Clean a.log) (hd : pkAnswer E a user mem len idx s b algo key sig = .ret r j a') : After r a'.log := by
  rw [pkAnswer.eq_def] at hd
  split at hd
  · cases hd; exact .inl (pkFail_clean E a false h)
  · rename_i cb _
    have h1 := note_after h user (.publicKey s.algo s.key b.hasSig sig s.cert)
      (cb user (.publicKey s.algo s.key b.hasSig sig s.cert)) (fun h => by cases h)
    simp only at hd
    generalize hx : cb user (.publicKey s.algo s.key b.hasSig sig s.cert) = x at hd h1
    have pk : ∀ {a1 : Auth}, Clean a1.log → After E.sendPkOk (if queued E.sendPkOk then a1.note (.sentPkOk algo key) else a1).log := by
      intro a1 h
      left
      split
      · exact h.note (soft (fun _ _ he => by cases he))
      · exact h
    cases x with
    | rejected =>
      simp only at hd
      cases hd
      right
      rw [pkFail]
      simp only [if_true, true_and]
      rcases h1 with h1 | ⟨_, h1⟩
      · exact absurd ⟨_, _, rfl, fun h => by cases h⟩ (h1 _ (List.mem_append_right _ (List.mem_singleton.2 rfl)))
      · exact failCount_ended E _ _ _ h1
    | success =>
      have h1 : Clean (a.note (.asked user (.publicKey s.algo s.key b.hasSig sig s.cert) .success)).log := by
        rcases h1 with h1 | ⟨h1, _⟩
        · exact h1
        · cases h1
      simp only at hd
      split at hd
      · split at hd
        · cases hd
        · rename_i hv
          cases hd; exact .inl (pkVerify_clean h1 hv)
      · cases hd
        exact pk h1
    | partialSuccess =>
      have h1 : Clean (a.note (.asked user (.publicKey s.algo s.key b.hasSig sig s.cert) .partialSuccess)).log := by
        rcases h1 with h1 | ⟨h1, _⟩
        · exact h1
        · cases h1
      simp only at hd
      split at hd
      · split at hd
        · cases hd
        · rename_i hv
          cases hd; exact .inl (pkVerify_clean h1 hv)
      · cases hd
        exact pk h1
    | wouldBlock =>
      rcases h1 with h1 | ⟨h1, _⟩
      · cases hd; exact .inl h1
      · cases h1
    | successAnother =>
      rcases h1 with h1 | ⟨h1, _⟩
      · cases hd; exact .inl (pkFail_clean E _ _ h1)
      · cases h1
    | other =>
      rcases h1 with h1 | ⟨h1, _⟩
      · cases hd; exact .inl (pkFail_clean E _ _ h1)
      · cases h1

theorem publicKey_after {E : Env} {a a' : Auth} {user mem : Bytes} {len idx j : Nat} {r : Ret} (h : Clean a.log)
    (hd : doUserAuthRequestPublicKey E a user mem len idx = .ret r j a') : After r a'.log := by
  rw [doUserAuthRequestPublicKey] at hd
  split at hd
  · cases hd
  · cases hd; exact .inl h
  · split at hd
    · cases hd
    · cases hd; exact .inl h
    · split at hd
      · simp only at hd
        split at hd
        · cases hd; exact .inl (pkFail_clean E a false h)
        · split at hd
          · cases hd
          · cases hd; exact .inl (pkFail_clean E a false h)
          · exact pkAnswer_after h hd
      · cases hd

theorem method_after {E : Env} {a a' : Auth} {user mem : Bytes} {len b id j : Nat} {r : Ret} (h : Clean a.log)
    (hd : dispatchMethod E a user mem len b id = .ret r j a') : After r a'.log := by
  rw [dispatchMethod] at hd
  split at hd
  · exact password_after h hd
  · split at hd
    · cases hd; exact .inl (keyboard_clean E a user h)
    · split at hd
      · exact publicKey_after h hd
      · cases hd; exact .inl (failCount_clean E a _ _ h)

theorem bind_clean {a : Auth} (user : Bytes) (h : Clean a.log) : Clean (bindUser a user).2.log := by
  rw [bindUser]
  split
  · split <;> exact h
  · split
    · exact h.note (soft (fun _ _ he => by cases he))
    · exact h

theorem request_after {E : Env} {a a' : Auth} {mem : Bytes} {len j : Nat} {r : Ret} (h : Clean a.log)
    (hd : doUserAuthRequest E a mem len = .ret r j a') : After r a'.log := by
  rw [doUserAuthRequest] at hd
  split at hd
  · cases hd; exact .inl h
  · split at hd
    · cases hd
    · cases hd; exact .inl h
    · split at hd
      · cases hd
      · cases hd; exact .inl h
      · split at hd
        · rename_i user service _ _
          split at hd
          · have := failCount_clean E a false true h
            generalize sendUserAuthFailureCount E a false true = x at hd this
            cases hd; exact .inl this
          · split at hd
            · cases hd
            · cases hd; exact .inl h
            · split at hd
              · cases hd
              · have hb := bind_clean user h
                split at hd
                · rename_i hbe
                  cases hd; rw [hbe] at hb; exact .inl hb
                · rename_i a1 hbe
                  rw [hbe] at hb
                  simp only at hd hb
                  split at hd
                  · have hc : ∀ a2 : Auth, Clean a2.log → Clean (countUserAuthFailure a2).2.log := by
                      intro a2 h2
                      rw [countUserAuthFailure]
                      simp only
                      split
                      · exact Clean.note (a := { a2 with authFailures := add32 a2.authFailures 1 }) h2 (soft (fun _ _ he => by cases he))
                      · exact h2
                    split at hd
                    · rename_i hq
                      have := hc _ hb
                      cases hd
                      left
                      refine (congrArg (fun x : Ret × Auth => Clean x.2.log) hq).mp ?_
                      exact hc _ hb
                    · rename_i hq
                      refine method_after ?_ hd
                      refine (congrArg (fun x : Ret × Auth => Clean x.2.log) hq).mp ?_
                      exact hc _ hb
                  · exact method_after (by exact hb) hd
        · cases hd

/-! ## Sessions -/

theorem dispatch_after {s s' : Srv} {e : RecvEnv} {p : Pkt} {r : Ret} (h : Clean s.a.log)
    (hd : dispatch s e p = some (r, s')) : After r s'.a.log ∧ s'.inCall = s.inCall := by
  unfold dispatch at hd
  simp only at hd
  split at hd
  · cases hq : doServiceRequest s.a (p.payload ++ p.pad) p.payload.length with
    | none => rw [hq] at hd; cases hd
    | some ra =>
      rw [hq] at hd
      simp only [Option.map_some, Option.some.injEq, Prod.mk.injEq] at hd
      obtain ⟨_, rfl⟩ := hd
      obtain ⟨r0, a0⟩ := ra
      refine ⟨.inl ?_, rfl⟩
      rcases service_cases hq with rfl | rfl | rfl
      · exact h
      · exact h
      · exact h.note (soft (fun _ _ he => by cases he))
  · split at hd
    · split at hd
      · cases hd
      · rename_i hq
        cases hd
        exact ⟨request_after h hq, rfl⟩
    · split at hd
      · split at hd
        · cases hd
        · rename_i hq
          cases hd
          exact ⟨info_after h hq, rfl⟩
      · split at hd
        · cases hd; exact ⟨.inl h, rfl⟩
        · split at hd <;> cases hd <;> exact ⟨.inl h, rfl⟩

theorem doPacket_after {s s' : Srv} {e : RecvEnv} {p : Pkt} {r : Ret} {c : Bool} (h : Clean s.a.log)
    (hd : doPacket s e p = some (r, c, s')) : After r s'.a.log ∧ s'.inCall = s.inCall := by
  unfold doPacket at hd
  split at hd
  · cases hd; exact ⟨.inl h, rfl⟩
  · simp only at hd
    split at hd
    · cases hd
    · rename_i hq
      have h0 : Clean (s.a.note (.acted p.msg)).log := h.note (soft (fun _ _ he => by cases he))
      obtain ⟨hf, hi⟩ := dispatch_after (by exact h0) hq
      split at hd
      · cases hd; exact ⟨hf, hi⟩
      · split at hd
        · cases hd; exact ⟨hf, hi⟩
        · cases hd
          refine ⟨?_, hi⟩
          rcases hf with hf | ⟨hr, hf⟩
          · exact .inl hf
          · refine .inr ⟨?_, hf⟩
            rw [hr, if_neg (by simp)]

/-- Until a rejection nothing of it is in the log; after it the session is at an error that ends it. -/
def Inv (s : Srv) : Prop := Clean s.a.log ∨ (Ended s.a.log ∧ s.error = some .userAuthE ∧ s.inCall = false)

theorem doReceive_after {s s' : Srv} {e : RecvEnv} {ok : Bool} (h : Clean s.a.log) (hd : doReceive s e = some (ok, s')) :
    s'.inCall = s.inCall ∧ (Clean s'.a.log ∨ (Ended s'.a.log ∧ s'.error = some .userAuthE ∧ ok = false)) := by
  unfold doReceive at hd
  simp only at hd
  split at hd
  · split at hd
    · cases hd
    · rename_i hq
      obtain ⟨hf, hi⟩ := doPacket_after h hq
      cases hd
      refine ⟨hi, ?_⟩
      rcases hf with hf | ⟨hr, hf⟩
      · exact .inl hf
      · exact .inr ⟨hf, hr, by rw [hr]; rfl⟩
  · split at hd
    · cases hd; exact ⟨rfl, .inl h⟩
    · split at hd
      · cases hd
      · rename_i hq
        obtain ⟨hf, hi⟩ := doPacket_after h hq
        cases hd
        refine ⟨hi, ?_⟩
        rcases hf with hf | ⟨hr, hf⟩
        · exact .inl hf
        · exact .inr ⟨hf, hr, by rw [hr]; rfl⟩

theorem recvWhile_inv {s s' : Srv} {l : LoopEnv} {c : Bool} {n : Nat} (h : Clean s.a.log)
    (hd : recvWhile s l c n = some s') : Inv s' := by
  unfold recvWhile at hd
  split at hd
  · split at hd
    · cases hd
    · rename_i hq
      cases hd
      obtain ⟨_, hf | ⟨_, _, hf⟩⟩ := doReceive_after h hq
      · exact .inl hf
      · cases hf
    · rename_i hq
      cases hd
      obtain ⟨_, hf | ⟨hf, he, _⟩⟩ := doReceive_after h hq
      · exact .inl hf
      · exact .inr ⟨hf, he, rfl⟩
  · cases hd; exact .inl h

theorem sendThen_clean (s : Srv) (l : LoopEnv) (next : Nat) (ev : Option Ev) (hev : ∀ x, ev = some x → ¬Hard x) (h : Clean s.a.log) :
    Clean (sendThen s l next ev).a.log := by
  have h1 : Clean (noteSent s.a l.send ev).log := by
    unfold noteSent
    split
    · split
      · exact h.note (hev _ rfl)
      · exact h
    · exact h
  unfold sendThen
  simp only
  split <;> exact h1

/-- In a clean session any step keeps the invariant. -/
theorem step_clean {s s' : Srv} {i : In} {polite : Bool} (he : enabled polite s i) (h : Clean s.a.log) (hd : step s i = some s') :
    Inv s' := by
  cases i with
  | accept f =>
    simp only [step, Option.some.injEq] at hd
    subst hd
    left
    unfold acceptEnter
    split
    · exact h
    · simp only
      split
      · split <;> exact h
      · exact h
  | loop l =>
    simp only [step] at hd
    unfold loopStep at hd
    have n0 : ∀ x, (none : Option Ev) = some x → ¬Hard x := fun _ h => by cases h
    split at hd
    · cases hd; exact .inl (sendThen_clean _ _ _ _ n0 h)
    · split at hd
      · split at hd <;> cases hd <;> exact .inl h
      · cases hd; exact .inl h
    · cases hd; exact .inl (sendThen_clean _ _ _ _ n0 h)
    · exact recvWhile_inv h hd
    · exact recvWhile_inv h hd
    · cases hd; exact .inl (sendThen_clean _ _ _ _ (fun x hx => by cases hx; exact soft (fun _ _ he => by cases he)) h)
    · exact recvWhile_inv h hd
    · cases hd; exact .inl (sendThen_clean _ _ _ _ (fun x hx => by cases hx; exact soft (fun _ _ he => by cases he)) h)
    · exact recvWhile_inv h hd
    · exact recvWhile_inv h hd
    · cases hd; exact .inl h
  | other e =>
    simp only [step] at hd
    cases hq : doReceive s e with
    | none => rw [hq] at hd; cases hd
    | some x =>
      obtain ⟨ok, s1⟩ := x
      rw [hq] at hd
      cases hd
      obtain ⟨hi, hf | ⟨hf, herr, _⟩⟩ := doReceive_after h hq
      · exact .inl hf
      · exact .inr ⟨hf, herr, hi.trans he.1⟩

/-- A rejected session stays as it is. -/
theorem step_ended {s s' : Srv} {i : In} (he : enabled true s i) (h1 : s.error = some .userAuthE) (h2 : s.inCall = false)
    (hd : step s i = some s') : s' = s := by
  cases i with
  | accept f =>
    simp only [step, Option.some.injEq] at hd
    subst hd
    unfold acceptEnter
    rw [if_pos (by rw [h1]; rfl)]
  | loop l => exact absurd (h2.symm.trans he.1) (by simp)
  | other e =>
    have := he.2 rfl
    rw [h1] at this
    exact absurd this (by decide)

theorem reach_inv {mx : Nat} {sid : Bytes} {s : Srv} (h : Reach true mx sid s) : Inv s := by
  induction h with
  | init => exact .inl (fun _ he => by cases he)
  | step _ he hd ih =>
    rcases ih with ih | ⟨h1, h2, h3⟩
    · exact step_clean he ih hd
    · rw [step_ended he h2 h3 hd]; exact .inr ⟨h1, h2, h3⟩

/-- Where a rejection stands, only farewells follow. -/
theorem ended_tail {l l₁ l₂ : List Ev} {e : Ev} (h : Ended l) (hl : l = l₁ ++ e :: l₂) (he : Hard e) : ∀ x ∈ l₂, Farewell x := by
  obtain ⟨k₁, f, k₂, h1, h2, h3, h4⟩ := h
  rw [h1] at hl
  rcases List.append_eq_append_iff.1 hl with ⟨t, ht1, ht2⟩ | ⟨t, ht1, ht2⟩
  · cases t with
    | nil =>
      simp only [List.nil_append, List.cons.injEq] at ht2
      rw [← ht2.2]; exact h4
    | cons y t =>
      simp only [List.cons_append, List.cons.injEq] at ht2
      exact absurd he (h4 e (by rw [ht2.2]; simp)).soft
  · cases t with
    | nil =>
      simp only [List.nil_append, List.cons.injEq] at ht2
      rw [ht2.2]; exact h4
    | cons y t =>
      simp only [List.cons_append, List.cons.injEq] at ht2
      exact absurd (ht2.1 ▸ he) (h3 y (by rw [ht1]; simp))

end Proofs.Reject
