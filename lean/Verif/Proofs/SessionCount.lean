import Verif.Proofs.Session
/-! Counters of a server session, in runs that stop after a fatal error. -/

namespace Wolf.Session
open Wolf Wolf.Wire Wolf.UserAuth Wolf.MsgFilter Spec.Auth

/-- Counters and their effect on the session. -/
structure KInv (mx : Nat) (s : Srv) : Prop where
  cinv : CInv mx s.a
  lim : usable s.error = true → s.a.authFailures < mx
  stop : s.a.authFailures = mx → Ev.sentDisconnect ∈ s.a.log

theorem cinv_log {mx : Nat} {a a' : Auth} (I : CInv mx a) (h1 : a'.maxAuthAttempts = a.maxAuthAttempts)
    (h2 : a'.authFailures = a.authFailures) (h3 : a'.authRequests = a.authRequests)
    (h4 : requests a.log ≤ requests a'.log) (h5 : failures a'.log = failures a.log) :
    CInv mx a' := by
  obtain ⟨n, hn, hn1, hn2⟩ := I.ct
  exact ⟨h1.trans I.max, h2 ▸ I.fl, n, by omega, h3 ▸ hn1, by rw [h2, h5]; exact hn2⟩

/-- Any handler, entered below the limit. -/
theorem dispatch_cinv {mx : Nat} {s s' : Srv} {e : RecvEnv} {p : Pkt} {r : Ret}
    (hmx : mx < 4294967296) (I : CInv mx s.a) (hlt : s.a.authFailures < mx)
    (hroom : p.msg = 50 → ∃ k, k < requests s.a.log ∧ Counted k s.a)
    (h : dispatch s e p = some (r, s')) :
    CInv mx s'.a ∧ (s'.a.authFailures = mx → r = some .userAuthE ∧ Ev.sentDisconnect ∈ s'.a.log) := by
  unfold dispatch at h
  simp only at h
  split at h
  · cases hd : doServiceRequest s.a (p.payload ++ p.pad) p.payload.length with
    | none => rw [hd] at h; cases h
    | some ra =>
      rw [hd] at h
      simp only [Option.map_some, Option.some.injEq, Prod.mk.injEq] at h
      obtain ⟨_, rfl⟩ := h
      obtain ⟨r0, a0⟩ := ra
      rcases service_cases hd with rfl | rfl | rfl
      · exact ⟨I, fun h => by simp only at h; omega⟩
      · exact ⟨cinv_log I rfl rfl rfl (Nat.le_refl _) rfl, fun h => by simp only at h; omega⟩
      · refine ⟨cinv_log I rfl rfl rfl ?_ ?_, fun h => by simp only [Auth.note] at h; omega⟩
        · simp [Auth.note, requests]
        · simp [Auth.note, failures]
  · split at h
    · rename_i h50
      split at h
      · cases h
      · rename_i hd
        simp only [Option.some.injEq, Prod.mk.injEq] at h
        obtain ⟨rfl, rfl⟩ := h
        exact req_cinv hmx (request_cases _ _ _ _ hd) I hlt (hroom h50)
    · split at h
      · split at h
        · cases h
        · rename_i hd
          simp only [Option.some.injEq, Prod.mk.injEq] at h
          obtain ⟨rfl, rfl⟩ := h
          rcases infoResponse_eff _ _ _ _ _ hd with rfl | ⟨hk, he⟩
          · exact ⟨I, fun h => by simp only at h; omega⟩
          · exact eff_cinv hmx he I hlt
      · split at h
        · simp only [Option.some.injEq, Prod.mk.injEq] at h
          obtain ⟨_, rfl⟩ := h
          exact ⟨cinv_log I rfl rfl rfl (Nat.le_refl _) rfl, fun h => by simp only at h; omega⟩
        · split at h
          · simp only [Option.some.injEq, Prod.mk.injEq] at h
            obtain ⟨_, rfl⟩ := h
            exact ⟨cinv_log I rfl rfl rfl (Nat.le_refl _) rfl, fun h => by simp only at h; omega⟩
          · simp only [Option.some.injEq, Prod.mk.injEq] at h
            obtain ⟨_, rfl⟩ := h
            exact ⟨I, fun h => by omega⟩

theorem doPacket_cinv {mx : Nat} {s s' : Srv} {e : RecvEnv} {p : Pkt} {r : Ret} {c : Bool}
    (hmx : mx < 4294967296) (I : CInv mx s.a) (hlt : s.a.authFailures < mx)
    (h : doPacket s e p = some (r, c, s')) :
    CInv mx s'.a ∧ (s'.a.authFailures = mx → r = some .userAuthE ∧ Ev.sentDisconnect ∈ s'.a.log) := by
  unfold doPacket at h
  split at h
  · simp only [Option.some.injEq, Prod.mk.injEq] at h
    obtain ⟨_, _, rfl⟩ := h
    exact ⟨I, fun h => by simp only at h; omega⟩
  · rename_i x hal
    simp only at h
    have hrq : requests (s.a.note (.acted p.msg)).log =
        requests s.a.log + requests [Ev.acted p.msg] := by simp only [Auth.note, requests_append]
    have I1 : CInv mx (s.a.note (.acted p.msg)) := by
      refine cinv_log I rfl rfl rfl (by omega) ?_
      simp [Auth.note, failures]
    split at h
    · cases h
    · rename_i r1 s1 hd
      have hroom : p.msg = 50 → ∃ k, k < requests (s.a.note (.acted p.msg)).log ∧
          Counted k (s.a.note (.acted p.msg)) := by
        intro h50
        have : requests [Ev.acted p.msg] = 1 := by rw [h50]; rfl
        obtain ⟨n, hn, hn1, hn2⟩ := I.ct
        refine ⟨requests s.a.log, by omega, n, hn, hn1, ?_⟩
        have : failures (s.a.note (.acted p.msg)).log = failures s.a.log := by
          simp [Auth.note, failures]
        rw [this]; exact hn2
      obtain ⟨hC, hr⟩ := dispatch_cinv (s := { s with expect := x, a := s.a.note (.acted p.msg) })
        hmx I1 hlt hroom hd
      split at h
      · simp only [Option.some.injEq, Prod.mk.injEq] at h
        obtain ⟨rfl, _, rfl⟩ := h
        exact ⟨hC, hr⟩
      · split at h
        · simp only [Option.some.injEq, Prod.mk.injEq] at h
          obtain ⟨rfl, _, rfl⟩ := h
          exact ⟨hC, hr⟩
        · simp only [Option.some.injEq, Prod.mk.injEq] at h
          obtain ⟨rfl, _, rfl⟩ := h
          refine ⟨hC, fun h => ?_⟩
          have := hr h
          rw [this.1]
          exact ⟨rfl, this.2⟩

theorem doReceive_kinv {mx : Nat} {s s' : Srv} {e : RecvEnv} {ok : Bool} (hmx : mx < 4294967296)
    (I : KInv mx s) (hu : usable s.error = true) (h : doReceive s e = some (ok, s')) : KInv mx s' := by
  unfold doReceive at h
  simp only at h
  have hlt := I.lim hu
  have key : ∀ p, (match doPacket s e p with
      | none => none
      | some (r, consumed, s) =>
        some (r == none, { s with error := r, cur := if consumed = true then none else some p,
                                  outPending := e.out })) = some (ok, s') → KInv mx s' := by
    intro p hp
    split at hp
    · cases hp
    · rename_i hd
      simp only [Option.some.injEq, Prod.mk.injEq] at hp
      obtain ⟨rfl, rfl⟩ := hp
      obtain ⟨h1, h2⟩ := doPacket_cinv hmx I.cinv hlt hd
      refine ⟨h1, fun hu => ?_, fun he => (h2 he).2⟩
      have := h1.fl
      refine Nat.lt_of_le_of_ne this (fun he => ?_)
      have := (h2 he).1
      simp only at hu
      rw [this] at hu
      cases hu
  split at h
  · exact key _ h
  · split at h
    · simp only [Option.some.injEq, Prod.mk.injEq] at h
      obtain ⟨rfl, rfl⟩ := h
      exact ⟨I.cinv, fun _ => hlt, I.stop⟩
    · exact key _ h

theorem kinv_of {mx : Nat} {s s' : Srv} (I : KInv mx s) (hlt : s.a.authFailures < mx)
    (h1 : s'.a.maxAuthAttempts = s.a.maxAuthAttempts) (h2 : s'.a.authFailures = s.a.authFailures)
    (h3 : s'.a.authRequests = s.a.authRequests) (h4 : requests s'.a.log = requests s.a.log)
    (h5 : failures s'.a.log = failures s.a.log) : KInv mx s' :=
  ⟨cinv_log I.cinv h1 h2 h3 (Nat.le_of_eq h4.symm) h5, fun _ => h2 ▸ hlt,
    fun h => by omega⟩

theorem sendThen_kinv {mx : Nat} {s : Srv} {l : LoopEnv} {next : Nat} {ev : Option Ev}
    (I : KInv mx s) (hlt : s.a.authFailures < mx)
    (hev : ∀ e, ev = some e → requests [e] = 0 ∧ failures [e] = 0) :
    KInv mx (sendThen s l next ev) := by
  have hn : KInv mx { s with a := noteSent s.a l.send ev } := by
    unfold noteSent
    split
    · rename_i x
      have := hev x rfl
      split
      · refine kinv_of I hlt rfl rfl rfl ?_ ?_
        · simp only [Auth.note, requests_append]; omega
        · simp only [Auth.note, failures_append]; omega
      · exact I
    · exact I
  have hf : (noteSent s.a l.send ev).authFailures = s.a.authFailures := by
    unfold noteSent; split
    · split <;> rfl
    · rfl
  unfold sendThen
  simp only
  split
  · exact ⟨hn.cinv, fun _ => hf ▸ hlt, hn.stop⟩
  · exact ⟨hn.cinv, fun _ => hf ▸ hlt, hn.stop⟩

theorem recvWhile_kinv {mx : Nat} {s s' : Srv} {l : LoopEnv} {cond : Bool} {next : Nat}
    (hmx : mx < 4294967296) (I : KInv mx s) (hu : usable s.error = true)
    (h : recvWhile s l cond next = some s') : KInv mx s' := by
  unfold recvWhile at h
  split at h
  · split at h
    · cases h
    · rename_i hd
      simp only [Option.some.injEq] at h
      subst h
      exact doReceive_kinv hmx I hu hd
    · rename_i hd
      simp only [Option.some.injEq] at h
      subst h
      have := doReceive_kinv hmx I hu hd
      exact ⟨this.cinv, this.lim, this.stop⟩
  · simp only [Option.some.injEq] at h
    subst h
    exact ⟨I.cinv, I.lim, I.stop⟩

theorem step_kinv {mx : Nat} {sid : Bytes} {s s' : Srv} {i : In} (hmx : mx < 4294967296)
    (S : SInv true sid s) (I : KInv mx s) (he : enabled true s i) (h : step s i = some s') :
    KInv mx s' := by
  cases i with
  | accept f =>
    simp only [step, Option.some.injEq] at h
    subst h
    unfold acceptEnter
    split
    · exact I
    · rename_i hret
      have hret : retryable s.error = true := by simpa using hret
      have hlt := I.lim (by simp [usable, hret])
      simp only
      split
      · split
        · exact ⟨I.cinv, fun _ => hlt, I.stop⟩
        · exact ⟨I.cinv, fun _ => hlt, I.stop⟩
      · exact ⟨I.cinv, fun _ => hlt, I.stop⟩
  | loop l =>
    have herr := S.call he.1
    have hu : usable s.error = true := by rw [herr]; rfl
    have hlt := I.lim hu
    simp only [step] at h
    unfold loopStep at h
    split at h
    · simp only [Option.some.injEq] at h
      subst h
      exact sendThen_kinv I hlt (by intro e h; cases h)
    · split at h
      · split at h <;> simp only [Option.some.injEq] at h <;> subst h <;>
          exact ⟨⟨I.cinv.max, I.cinv.fl, I.cinv.ct⟩, fun _ => hlt, I.stop⟩
      · simp only [Option.some.injEq] at h
        subst h
        exact ⟨I.cinv, fun _ => hlt, I.stop⟩
    · simp only [Option.some.injEq] at h
      subst h
      have := sendThen_kinv (next := 3) (ev := none) (l := l) I hlt (by intro e h; cases h)
      exact ⟨this.cinv, this.lim, this.stop⟩
    · exact recvWhile_kinv hmx I hu h
    · exact recvWhile_kinv hmx I hu h
    · simp only [Option.some.injEq] at h
      subst h
      exact sendThen_kinv I hlt (by intro e h; cases h; exact ⟨rfl, rfl⟩)
    · exact recvWhile_kinv hmx I hu h
    · simp only [Option.some.injEq] at h
      subst h
      exact sendThen_kinv I hlt (by intro e h; cases h; exact ⟨rfl, rfl⟩)
    · exact recvWhile_kinv hmx I hu h
    · exact recvWhile_kinv hmx I hu h
    · simp only [Option.some.injEq] at h
      subst h
      exact ⟨I.cinv, I.lim, I.stop⟩
  | other e =>
    simp only [step, Option.map_eq_some_iff] at h
    obtain ⟨⟨ok, s1⟩, hd, rfl⟩ := h
    exact doReceive_kinv hmx I (he.2 rfl) hd

theorem reach_kinv {mx : Nat} {sid : Bytes} {s : Srv} (h1 : 1 ≤ mx) (hmx : mx < 4294967296)
    (h : Reach true mx sid s) : KInv mx s := by
  induction h with
  | init =>
    refine ⟨⟨rfl, Nat.zero_le _, 0, Nat.zero_le _, rfl, Nat.zero_le _⟩, fun _ => h1, fun h => ?_⟩
    simp only [Srv.init] at h; omega
  | step hr he hs ih => exact step_kinv hmx (reach_inv hr) ih he hs

end Wolf.Session
