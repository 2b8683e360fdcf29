import Verif.Model.Session
import Verif.Proofs.UserAuth
/-! Invariants of server sessions. -/

namespace Wolf.Session
open Wolf Wolf.Wire Wolf.UserAuth Wolf.MsgFilter Spec.Auth

/-- Facts about the authentication state that hold in every run. -/
structure AInv (sid : Bytes) (a : Auth) : Prop where
  hsid : a.sessionId = sid
  cl : 5 ≤ a.clientState → accepted sid a.userName a.log
  asked : ∀ u q x, Ev.asked u q x ∈ a.log → u = a.userName ∧ a.userAuthSeen = true
  kb : a.authId = ID_USERAUTH_KEYBOARD → a.userAuthSeen = true

theorem accepted_asked {sid u : Bytes} {l : List Ev} (h : accepted sid u l) :
    ∃ q x, Ev.asked u q x ∈ l := by
  rcases h with ⟨_, h⟩ | ⟨_, h⟩ | ⟨_, _, _, _, _, h, _⟩ <;> exact ⟨_, _, h⟩

theorem eff_ainv {sid user : Bytes} {x : Bool} {a a' : Auth} {r : Ret} (h : Eff x user a r a')
    (I : AInv sid a) (hu : user = a.userName) (hs : a.userAuthSeen = true) : AInv sid a' := by
  obtain ⟨l, hl, hq, _⟩ := h.log
  refine ⟨h.sid.trans I.hsid, ?_, ?_, ?_⟩
  · intro hc
    rcases h.client with he | ⟨_, _, hacc⟩
    · rw [h.name]
      exact accepted_mono (I.cl (he ▸ hc)) (fun e he => by rw [hl]; exact List.mem_append_left _ he)
    · rw [h.name, ← hu, ← I.hsid]; exact hacc
  · intro u q y hm
    rw [h.name, h.seen]
    refine ⟨?_, hs⟩
    rw [hl, List.mem_append] at hm
    rcases hm with hm | hm
    · exact (I.asked u q y hm).1
    · exact ((hq _ hm).2.2 u q y rfl).trans hu
  · intro _; rw [h.seen]; exact hs

theorem charged_ainv {sid : Bytes} {a a' : Auth} {r : Ret} (h : ∀ user, Eff false user a r a')
    (I : AInv sid a) : AInv sid a' := by
  have h0 := h a.userName
  obtain ⟨l, hl, _, _⟩ := h0.log
  refine ⟨h0.sid.trans I.hsid, ?_, ?_, ?_⟩
  · intro hc
    rcases h0.client with he | ⟨_, _, hacc⟩
    · rw [h0.name]
      exact accepted_mono (I.cl (he ▸ hc)) (fun e he => by rw [hl]; exact List.mem_append_left _ he)
    · rw [h0.name, ← I.hsid]; exact hacc
  · intro u q y hm
    rw [h0.name, h0.seen]
    rw [hl, List.mem_append] at hm
    rcases hm with hm | hm
    · exact I.asked u q y hm
    · exfalso
      obtain ⟨l1, hl1, hq1, _⟩ := (h []).log
      obtain ⟨l2, hl2, hq2, _⟩ := (h [0]).log
      have e1 : l1 = l := List.append_cancel_left (hl1.symm.trans hl)
      have e2 : l2 = l := List.append_cancel_left (hl2.symm.trans hl)
      subst e1
      have a1 := (hq1 _ hm).2.2 u q y rfl
      have a2 := (hq2 _ (e2 ▸ hm)).2.2 u q y rfl
      rw [a1] at a2
      cases a2
  · intro hk
    rw [h0.seen]; exact I.kb (h0.authId ▸ hk)

theorem ainv_note {sid : Bytes} {a : Auth} (I : AInv sid a) {e : Ev}
    (he : ∀ u q x, e ≠ .asked u q x) : AInv sid (a.note e) := by
  refine ⟨I.hsid, fun h => accepted_mono (I.cl h) (by intro e h; simp [Auth.note, h]), ?_, I.kb⟩
  intro u q x hm
  simp only [Auth.note, List.mem_append, List.mem_singleton] at hm
  rcases hm with hm | hm
  · exact I.asked u q x hm
  · exact absurd hm.symm (he u q x)

theorem bound_ainv {sid : Bytes} {a : Auth} (I : AInv sid a) (user : Bytes) (id f n : Nat) (b : Bool)
    (hu : a.userAuthSeen = true → user = a.userName) :
    AInv sid { a with userName := user, userAuthSeen := true, authId := id, authRequests := n,
                      kbSetupPending := b, authFailures := f } := by
  refine ⟨I.hsid, ?_, ?_, fun _ => rfl⟩
  · intro hc
    have h := I.cl hc
    obtain ⟨q, x, hm⟩ := accepted_asked h
    have := hu (I.asked _ _ _ hm).2
    subst this
    exact h
  · intro u q x hm
    have := I.asked u q x hm
    exact ⟨this.1.trans (hu this.2).symm, rfl⟩

theorem req_ainv {sid : Bytes} {a a' : Auth} {r : Ret} (h : ReqCase a r a') (I : AInv sid a) :
    AInv sid a' := by
  cases h with
  | same h => subst h; exact I
  | charged h => exact charged_ainv h I
  | mismatch h _ => subst h; exact ainv_note I (by intro u q x h; cases h)
  | abandoned user id f hu _ _ _ h =>
    subst h
    exact ainv_note (bound_ainv I user id f _ false hu) (by intro u q x h; cases h)
  | method user id f b hu _ h => exact eff_ainv h (bound_ainv I user id f _ b hu) rfl rfl

/-- Log growth without connection messages and without a success reply. -/
def Grow (l l' : List Ev) : Prop :=
  ∃ t, l' = l ++ t ∧ ∀ e ∈ t, (∀ m, e = .acted m → m < 80) ∧ e ≠ .sentUserAuthSuccess

theorem Grow.refl (l : List Ev) : Grow l l := ⟨[], by simp, by intro e h; cases h⟩

theorem Grow.trans {l l' l'' : List Ev} (h : Grow l l') (h' : Grow l' l'') : Grow l l'' := by
  obtain ⟨t, rfl, h⟩ := h
  obtain ⟨t', rfl, h'⟩ := h'
  refine ⟨t ++ t', by simp, ?_⟩
  intro e he
  rcases List.mem_append.1 he with he | he
  · exact h e he
  · exact h' e he

theorem Grow.mem {l l' : List Ev} (h : Grow l l') {e : Ev} (he : e ∈ l) : e ∈ l' := by
  obtain ⟨t, rfl, _⟩ := h
  exact List.mem_append_left _ he

theorem eff_grow {user : Bytes} {x : Bool} {a a' : Auth} {r : Ret} (h : Eff x user a r a') :
    Grow a.log a'.log := by
  obtain ⟨l, hl, hq, _⟩ := h.log
  exact ⟨l, hl, fun e he => ⟨fun m hm => absurd hm ((hq e he).1 m), (hq e he).2.1⟩⟩

theorem grow_note (a : Auth) (e : Ev) (h : ∀ m, e = .acted m → m < 80) (h' : e ≠ .sentUserAuthSuccess) :
    Grow a.log (a.note e).log := by
  refine ⟨[e], rfl, ?_⟩
  intro e' he
  rw [List.mem_singleton] at he
  subst he
  exact ⟨h, h'⟩

theorem req_grow {a a' : Auth} {r : Ret} (h : ReqCase a r a') : Grow a.log a'.log := by
  cases h with
  | same h => subst h; exact Grow.refl _
  | charged h => exact eff_grow (h [])
  | mismatch h _ => subst h; exact grow_note _ _ (by intro m h; cases h) (by intro h; cases h)
  | abandoned user id f _ _ _ _ h =>
    subst h
    exact grow_note _ _ (by intro m h; cases h) (by intro h; cases h)
  | method user id f b _ _ h => exact (eff_grow h :)

/-! ## Counting -/

/-- At most `k` requests were counted; every failure reply is charged, but one for each time the
request counter can have been zero. -/
def Counted (k : Nat) (a : Auth) : Prop :=
  ∃ n, n ≤ k ∧ a.authRequests = n % 4294967296 ∧
    failures a.log ≤ a.authFailures + (n + 4294967295) / 4294967296

/-- Facts about the counters, in runs that stop after a fatal error. -/
structure CInv (mx : Nat) (a : Auth) : Prop where
  max : a.maxAuthAttempts = mx
  fl : a.authFailures ≤ mx
  ct : Counted (requests a.log) a

theorem add32_lt {x mx : Nat} (h : x < mx) (hm : mx < 4294967296) : add32 x 1 = x + 1 := by
  unfold add32; omega

theorem eff_cinv {mx : Nat} {user : Bytes} {a a' : Auth} {r : Ret} (hmx : mx < 4294967296)
    (h : Eff false user a r a') (I : CInv mx a) (hlt : a.authFailures < mx) :
    CInv mx a' ∧ (a'.authFailures = mx → r = some .userAuthE ∧ Ev.sentDisconnect ∈ a'.log) := by
  obtain ⟨l, hl, hq, hc⟩ := h.log
  have hr : requests a'.log = requests a.log := by rw [hl, requests_append, hq.requests]; omega
  have hf : failures a'.log = failures a.log + failures l := by rw [hl, failures_append]
  have h32 := add32_lt hlt hmx
  obtain ⟨n, hn, hn1, hn2⟩ := I.ct
  rcases hc with ⟨h1, h2⟩ | ⟨h1, _⟩ | ⟨h1, h2, h3⟩
  · exact ⟨⟨h.max.trans I.max, by omega, n, by omega, by rw [h.reqs, hn1], by omega⟩, fun he => by omega⟩
  · cases h1
  · refine ⟨⟨h.max.trans I.max, by omega, n, by omega, by rw [h.reqs, hn1], by omega⟩, fun he => ?_⟩
    have := h3 (by rw [I.max]; omega)
    exact ⟨this.1, by rw [hl]; exact List.mem_append_right _ this.2⟩

/-- A request, entered with room in the count of requests. -/
theorem req_cinv {mx : Nat} {a a' : Auth} {r : Ret} (hmx : mx < 4294967296) (h : ReqCase a r a')
    (I : CInv mx a) (hlt : a.authFailures < mx)
    (hroom : ∃ k, k < requests a.log ∧ Counted k a) :
    CInv mx a' ∧ (a'.authFailures = mx → r = some .userAuthE ∧ Ev.sentDisconnect ∈ a'.log) := by
  have h32 := add32_lt hlt hmx
  obtain ⟨k, hk, n, hn, hn1, hn2⟩ := hroom
  cases h with
  | same h => subst h; exact ⟨I, fun h => by omega⟩
  | charged h => exact eff_cinv hmx (h []) I hlt
  | mismatch h _ =>
    subst h
    have e1 : requests (a.note .sentDisconnect).log = requests a.log := by
      simp [Auth.note, requests]
    have e2 : failures (a.note .sentDisconnect).log = failures a.log := by
      simp [Auth.note, failures]
    refine ⟨⟨I.max, I.fl, n, by omega, hn1, ?_⟩, fun h => ?_⟩
    · rw [e2]; exact hn2
    · simp only [Auth.note] at h; omega
  | abandoned user id f _ hf hge hr h =>
    subst h
    have := I.max
    have e1 : requests [Ev.sentDisconnect] = 0 := rfl
    have e2 : failures [Ev.sentDisconnect] = 0 := rfl
    refine ⟨⟨I.max, by simp only [Auth.note]; omega, n + 1, ?_, ?_, ?_⟩, fun _ => ⟨hr, mem_note _ _⟩⟩
    · simp only [Auth.note, requests_append]; omega
    · simp only [Auth.note, add32]; omega
    · simp only [Auth.note, failures_append]; omega
  | method user id f b _ hf h =>
    have hmax := I.max
    obtain ⟨l, hl, hq, hc⟩ := h.log
    simp only at hl hc
    have hr : requests a'.log = requests a.log := by rw [hl, requests_append, hq.requests]; omega
    have hfl : failures a'.log = failures a.log + failures l := by rw [hl, failures_append]
    have hf' : f < mx := by omega
    have hf'' : a.authFailures ≤ f := by omega
    have h32' := add32_lt hf' hmx
    have hreq := h.reqs
    simp only [add32] at hreq
    have hreq' : a'.authRequests = (n + 1) % 4294967296 := by omega
    rcases hc with ⟨h1, h2⟩ | ⟨h0, h1, h2⟩ | ⟨h1, h2, h3⟩
    · exact ⟨⟨h.max.trans I.max, by omega, n + 1, by omega, hreq', by omega⟩, fun he => by omega⟩
    · have h0 : add32 a.authRequests 1 = 1 := by
        simp only [Bool.and_eq_true, beq_iff_eq] at h0; exact h0.2
      simp only [add32] at h0
      exact ⟨⟨h.max.trans I.max, by omega, n + 1, by omega, hreq', by omega⟩, fun he => by omega⟩
    · refine ⟨⟨h.max.trans I.max, by omega, n + 1, by omega, hreq', by omega⟩, fun he => ?_⟩
      have := h3 (by show _ ≥ a.maxAuthAttempts; omega)
      exact ⟨this.1, by rw [hl]; exact List.mem_append_right _ this.2⟩

/-! ## The filter -/

theorem allowed_conn {f : FState} {m : Nat} {x : Option Nat}
    (h : isMessageAllowedServer f m = (true, x)) (hm : 80 ≤ m) : 8 ≤ f.progress := by
  unfold isMessageAllowedServer at h
  rw [if_neg (by omega), if_neg (by omega), if_neg (by omega), if_neg (by omega)] at h
  simp only [Prod.mk.injEq] at h
  have h := h.1
  unfold serverPhase ACCEPT_KEYED ACCEPT_SERVER_USERAUTH_SENT at h
  by_cases hp : f.progress < 8
  · exfalso
    by_cases h4 : f.progress < 4 ∧ m > 34
    · rw [if_pos h4] at h; cases h
    · rw [if_neg h4, if_pos hp, if_pos hm] at h; cases h
  · omega

/-- Whenever the log shows a connection message or the success reply, an accepted credential came
before; before a connection message, in `polite` runs, also the success reply. -/
def Ordered (polite : Bool) (sid : Bytes) (log : List Ev) : Prop :=
  ∀ l₁ e l₂, log = l₁ ++ e :: l₂ → (∃ m, e = .acted m ∧ 80 ≤ m) ∨ e = .sentUserAuthSuccess →
    (∃ u, accepted sid u l₁) ∧
    (polite = true → e ≠ .sentUserAuthSuccess → Ev.sentUserAuthSuccess ∈ l₁)

theorem Ordered.append {polite : Bool} {sid : Bytes} {log t : List Ev} (h : Ordered polite sid log)
    (ht : ∀ e ∈ t, (∃ m, e = .acted m ∧ 80 ≤ m) ∨ e = .sentUserAuthSuccess →
      (∃ u, accepted sid u log) ∧
      (polite = true → e ≠ .sentUserAuthSuccess → Ev.sentUserAuthSuccess ∈ log)) :
    Ordered polite sid (log ++ t) := by
  intro l₁ m l₂ he hm
  rcases List.append_eq_append_iff.1 he with ⟨as, h1, h2⟩ | ⟨cs, h1, h2⟩
  · have := ht m (by rw [h2]; simp) hm
    obtain ⟨⟨u, hu⟩, hp⟩ := this
    subst h1
    exact ⟨⟨u, accepted_mono hu (fun e he => List.mem_append_left _ he)⟩,
      fun h h' => List.mem_append_left _ (hp h h')⟩
  · cases cs with
    | nil =>
      simp only [List.append_nil] at h1
      simp only [List.nil_append] at h2
      subst h1
      exact ht m (by rw [← h2]; simp) hm
    | cons c cs =>
      simp only [List.cons_append, List.cons.injEq] at h2
      obtain ⟨rfl, rfl⟩ := h2
      exact h l₁ m cs h1 hm

/-- What holds of progress and authentication state between steps. -/
structure PInv (polite : Bool) (sid : Bytes) (st : Nat) (a : Auth) : Prop where
  ainv : AInv sid a
  acc : 7 ≤ st → accepted sid a.userName a.log
  conn : Ordered polite sid a.log
  succ : polite = true → 8 ≤ st → Ev.sentUserAuthSuccess ∈ a.log

theorem accepted_transfer {sid u : Bytes} {l : List Ev} {a : Auth} (I : AInv sid a)
    (h : accepted sid u l) (hs : ∀ e ∈ l, e ∈ a.log) : accepted sid a.userName a.log := by
  obtain ⟨q, x, hm⟩ := accepted_asked h
  have := (I.asked u q x (hs _ hm)).1
  subst this
  exact accepted_mono h hs

theorem PInv.grow {polite : Bool} {sid : Bytes} {st : Nat} {a a' : Auth} (I : PInv polite sid st a)
    (hA : AInv sid a') (hg : Grow a.log a'.log) : PInv polite sid st a' := by
  refine ⟨hA, fun h => accepted_transfer hA (I.acc h) (fun e he => hg.mem he), ?_,
    fun h h' => hg.mem (I.succ h h')⟩
  obtain ⟨t, ht, hq⟩ := hg
  rw [ht]
  refine I.conn.append (fun e he h80 => ?_)
  rcases h80 with ⟨m, rfl, hm⟩ | rfl
  · have := (hq _ he).1 m rfl
    omega
  · exact absurd rfl (hq _ he).2

theorem ainv_client {sid : Bytes} {a : Auth} (I : AInv sid a) (c : Nat)
    (h : 5 ≤ c → accepted sid a.userName a.log) : AInv sid { a with clientState := c } :=
  ⟨I.hsid, h, I.asked, I.kb⟩

theorem service_cases {a a' : Auth} {mem : Bytes} {len : Nat} {r : Ret}
    (h : doServiceRequest a mem len = some (r, a')) :
    a' = a ∨ a' = { a with clientState := CLIENT_USERAUTH_REQUEST_DONE } ∨
      a' = a.note .sentDisconnect := by
  unfold doServiceRequest at h
  split at h
  · cases h
  · simp only [Option.some.injEq, Prod.mk.injEq] at h; exact .inl h.2.symm
  · split at h
    · simp only [Option.some.injEq, Prod.mk.injEq] at h; exact .inr (.inl h.2.symm)
    · simp only [Option.some.injEq, Prod.mk.injEq] at h; exact .inr (.inr h.2.symm)

/-- The handlers keep the invariant and touch neither progress nor the call flag. -/
theorem dispatch_inv {polite : Bool} {sid : Bytes} {s s' : Srv} {e : RecvEnv} {p : Pkt} {r : Ret}
    (I : PInv polite sid s.acceptState s.a) (h8 : 80 ≤ p.msg → 8 ≤ s.acceptState)
    (h : dispatch s e p = some (r, s')) :
    AInv sid s'.a ∧ Grow s.a.log s'.a.log ∧ s'.acceptState = s.acceptState ∧
      s'.inCall = s.inCall := by
  unfold dispatch at h
  simp only at h
  split at h
  · cases hd : doServiceRequest s.a (p.payload ++ p.pad) p.payload.length with
    | none => rw [hd] at h; cases h
    | some ra =>
      rw [hd] at h
      simp only [Option.map_some, Option.some.injEq, Prod.mk.injEq] at h
      obtain ⟨_, rfl⟩ := h
      obtain ⟨r0, a0⟩ := ra
      rcases service_cases hd with rfl | rfl | rfl
      · exact ⟨I.ainv, Grow.refl _, rfl, rfl⟩
      · exact ⟨ainv_client I.ainv _ (by intro h; simp [CLIENT_USERAUTH_REQUEST_DONE] at h),
          Grow.refl _, rfl, rfl⟩
      · exact ⟨ainv_note I.ainv (by intro u q x h; cases h),
          grow_note _ _ (by intro m h; cases h) (by intro h; cases h), rfl, rfl⟩
  · split at h
    · split at h
      · cases h
      · rename_i hd
        simp only [Option.some.injEq, Prod.mk.injEq] at h
        obtain ⟨_, rfl⟩ := h
        have hc := request_cases _ _ _ _ hd
        exact ⟨req_ainv hc I.ainv, req_grow hc, rfl, rfl⟩
    · split at h
      · split at h
        · cases h
        · rename_i hd
          simp only [Option.some.injEq, Prod.mk.injEq] at h
          obtain ⟨_, rfl⟩ := h
          rcases infoResponse_eff _ _ _ _ _ hd with rfl | ⟨hk, he⟩
          · exact ⟨I.ainv, Grow.refl _, rfl, rfl⟩
          · exact ⟨eff_ainv he I.ainv rfl (I.ainv.kb hk), eff_grow he, rfl, rfl⟩
      · split at h
        · simp only [Option.some.injEq, Prod.mk.injEq] at h
          obtain ⟨_, rfl⟩ := h
          refine ⟨ainv_client I.ainv _ ?_, Grow.refl _, rfl, rfl⟩
          intro h5
          split at h5
          · exact I.ainv.cl h5
          · simp [CLIENT_KEXINIT_DONE] at h5
          · simp [CLIENT_KEXDH_INIT_DONE] at h5
        · split at h
          · rename_i hm
            simp only [Option.some.injEq, Prod.mk.injEq] at h
            obtain ⟨_, rfl⟩ := h
            refine ⟨ainv_client I.ainv _ (fun _ => I.acc ?_), Grow.refl _, rfl, rfl⟩
            have := h8 hm
            omega
          · simp only [Option.some.injEq, Prod.mk.injEq] at h
            obtain ⟨_, rfl⟩ := h
            exact ⟨I.ainv, Grow.refl _, rfl, rfl⟩

theorem doPacket_inv {polite : Bool} {sid : Bytes} {s s' : Srv} {e : RecvEnv} {p : Pkt} {r : Ret}
    {c : Bool} (I : PInv polite sid s.acceptState s.a) (h : doPacket s e p = some (r, c, s')) :
    PInv polite sid s'.acceptState s'.a ∧ s'.acceptState = s.acceptState ∧ s'.inCall = s.inCall ∧
      (∀ e ∈ s.a.log, e ∈ s'.a.log) := by
  unfold doPacket at h
  split at h
  · simp only [Option.some.injEq, Prod.mk.injEq] at h
    obtain ⟨_, _, rfl⟩ := h
    exact ⟨I, rfl, rfl, fun e he => he⟩
  · rename_i x hal
    simp only at h
    have h8 : 80 ≤ p.msg → 8 ≤ s.acceptState := fun hm => allowed_conn hal hm
    have I1 : PInv polite sid s.acceptState (s.a.note (.acted p.msg)) := by
      have hA := ainv_note I.ainv (e := .acted p.msg) (by intro u q x h; cases h)
      refine ⟨hA, fun h => accepted_transfer hA (I.acc h) (by intro e h; simp [Auth.note, h]), ?_,
        fun h h' => by simp [Auth.note, I.succ h h']⟩
      refine I.conn.append (fun e hm h80 => ?_)
      rw [List.mem_singleton] at hm
      subst hm
      rcases h80 with ⟨m, he, h80⟩ | he
      · rw [Ev.acted.injEq] at he
        have := h8 (he ▸ h80)
        exact ⟨⟨_, I.acc (by omega)⟩, fun hp _ => I.succ hp this⟩
      · cases he
    split at h
    · cases h
    · rename_i r1 s1 hd
      obtain ⟨hA, hg, hst, hin⟩ := dispatch_inv (s := { s with expect := x, a := s.a.note (.acted p.msg) })
        I1 h8 hd
      have I2 : PInv polite sid s.acceptState s1.a := I1.grow hA hg
      have hsub : ∀ e ∈ s.a.log, e ∈ s1.a.log := fun e he => hg.mem (by simp [Auth.note, he])
      simp only at hst hin
      split at h
      · simp only [Option.some.injEq, Prod.mk.injEq] at h
        obtain ⟨_, _, rfl⟩ := h
        exact ⟨hst ▸ I2, hst, hin, hsub⟩
      · split at h
        · simp only [Option.some.injEq, Prod.mk.injEq] at h
          obtain ⟨_, _, rfl⟩ := h
          exact ⟨hst ▸ I2, hst, hin, hsub⟩
        · simp only [Option.some.injEq, Prod.mk.injEq] at h
          obtain ⟨_, _, rfl⟩ := h
          exact ⟨hst ▸ I2, hst, hin, hsub⟩

theorem doReceive_inv {polite : Bool} {sid : Bytes} {s s' : Srv} {e : RecvEnv} {ok : Bool}
    (I : PInv polite sid s.acceptState s.a) (h : doReceive s e = some (ok, s')) :
    PInv polite sid s'.acceptState s'.a ∧ s'.acceptState = s.acceptState ∧ s'.inCall = s.inCall ∧
      (∀ e ∈ s.a.log, e ∈ s'.a.log) ∧ (ok = true → s'.error = none) := by
  unfold doReceive at h
  simp only at h
  have key : ∀ p, (match doPacket s e p with
      | none => none
      | some (r, consumed, s) =>
        some (r == none, { s with error := r, cur := if consumed = true then none else some p,
                                  outPending := e.out })) = some (ok, s') →
      PInv polite sid s'.acceptState s'.a ∧ s'.acceptState = s.acceptState ∧ s'.inCall = s.inCall ∧
      (∀ e ∈ s.a.log, e ∈ s'.a.log) ∧ (ok = true → s'.error = none) := by
    intro p hp
    split at hp
    · cases hp
    · rename_i hd
      simp only [Option.some.injEq, Prod.mk.injEq] at hp
      obtain ⟨rfl, rfl⟩ := hp
      obtain ⟨h1, h2, h3, h4⟩ := doPacket_inv I hd
      exact ⟨h1, h2, h3, h4, fun h => by simpa using h⟩
  split at h
  · exact key _ h
  · split at h
    · simp only [Option.some.injEq, Prod.mk.injEq] at h
      obtain ⟨rfl, rfl⟩ := h
      exact ⟨I, rfl, rfl, fun e he => he, fun h => by cases h⟩
    · exact key _ h

/-- The whole-session invariant. -/
structure SInv (polite : Bool) (sid : Bytes) (s : Srv) : Prop where
  pinv : PInv polite sid s.acceptState s.a
  call : s.inCall = true → s.error = none
  succ7 : polite = true → s.acceptState = 7 → s.inCall = false → usable s.error = true →
    Ev.sentUserAuthSuccess ∈ s.a.log

theorem init_inv (polite : Bool) (mx : Nat) (sid : Bytes) : SInv polite sid (Srv.init mx sid) := by
  refine ⟨⟨⟨rfl, ?_, ?_, ?_⟩, ?_, ?_, ?_⟩, ?_, ?_⟩
  · intro h; simp [Srv.init] at h
  · intro u q x h; simp [Srv.init] at h
  · intro h; simp [Srv.init, ID_USERAUTH_PUBLICKEY, ID_USERAUTH_KEYBOARD] at h
  · intro h; simp [Srv.init] at h
  · intro l₁ m l₂ h; simp [Srv.init] at h
  · intro _ h; simp [Srv.init] at h
  · intro h; simp [Srv.init] at h
  · intro _ h; simp [Srv.init] at h

theorem PInv.at {polite : Bool} {sid : Bytes} {st st' : Nat} {a : Auth} (I : PInv polite sid st a)
    (h1 : 7 ≤ st' → accepted sid a.userName a.log)
    (h2 : polite = true → 8 ≤ st' → Ev.sentUserAuthSuccess ∈ a.log) : PInv polite sid st' a :=
  ⟨I.ainv, h1, I.conn, h2⟩

theorem accept_inv {polite : Bool} {sid : Bytes} {s : Srv} {f : Ret} (I : SInv polite sid s)
    (hc : s.inCall = false) : SInv polite sid (acceptEnter s f) := by
  unfold acceptEnter
  split
  · exact I
  · rename_i hret
    have hret : retryable s.error = true := by simpa using hret
    have hus : usable s.error = true := by simp [usable, hret]
    simp only
    split
    · split
      · rename_i e
        refine ⟨I.pinv, fun h => ?_, fun hp h7 _ _ => I.succ7 hp h7 hc hus⟩
        simp [hc] at h
      · refine ⟨?_, fun _ => rfl, fun _ _ h => by simp at h⟩
        simp only
        split
        · rename_i hne
          refine I.pinv.at (fun h => I.pinv.acc (by omega)) (fun hp h => ?_)
          by_cases h7 : s.acceptState = 7
          · exact I.succ7 hp h7 hc hus
          · exact I.pinv.succ hp (by omega)
        · exact I.pinv
    · exact ⟨I.pinv, fun _ => rfl, fun _ _ h => by simp at h⟩

theorem sendThen_inv {polite : Bool} {sid : Bytes} {s : Srv} {l : LoopEnv} {next : Nat}
    {ev : Option Ev} (I : SInv polite sid s) (hc : s.inCall = true) (hn : next = s.acceptState + 1)
    (hne : next ≠ 7) (hev : ∀ e, ev = some e → (∀ m, e ≠ .acted m) ∧ (∀ u q x, e ≠ .asked u q x))
    (hs : s.acceptState = 7 → ev = some .sentUserAuthSuccess ∧ sendResult l.send)
    (hse : ev = some .sentUserAuthSuccess → s.acceptState = 7) :
    SInv polite sid (sendThen s l next ev) := by
  have hmem : ∀ e ∈ s.a.log, e ∈ (noteSent s.a l.send ev).log := by
    intro e he
    unfold noteSent
    split
    · split
      · simp [Auth.note, he]
      · exact he
    · exact he
  have hI : PInv polite sid s.acceptState (noteSent s.a l.send ev) := by
    unfold noteSent
    split
    · rename_i x
      split
      · have := hev x rfl
        have hA := ainv_note I.pinv.ainv (e := x) this.2
        have hsu : x = .sentUserAuthSuccess → s.acceptState = 7 := fun h => hse (by rw [h])
        refine ⟨hA, fun h => accepted_transfer hA (I.pinv.acc h) (by intro e h; simp [Auth.note, h]),
          ?_, fun h h' => by simp [Auth.note, I.pinv.succ h h']⟩
        refine I.pinv.conn.append (fun e hm h80 => ?_)
        rw [List.mem_singleton] at hm
        subst hm
        rcases h80 with ⟨m, he, _⟩ | he
        · exact absurd he (this.1 m)
        · exact ⟨⟨_, I.pinv.acc (by have := hsu he; omega)⟩, fun _ hx => absurd he hx⟩
      · exact I.pinv
    · exact I.pinv
  have hq : s.acceptState = 7 → usable l.send = true → Ev.sentUserAuthSuccess ∈ (noteSent s.a l.send ev).log := by
    intro h7 hu
    obtain ⟨rfl, hr⟩ := hs h7
    have : queued l.send = true := by
      rcases hr with h | h | h
      · rw [h]; rfl
      · rw [h]; rfl
      · rw [h] at hu; cases hu
    simp only [noteSent, this, if_true]
    exact mem_note _ _
  unfold sendThen
  simp only
  revert hmem hI hq
  generalize (noteSent s.a l.send ev) = a1
  intro hmem hI hq
  split
  · rename_i hl
    refine ⟨?_, fun _ => hl, fun _ h7 => by simp only at h7; omega⟩
    refine hI.at (st' := next) (fun h => ?_) (fun hp h => ?_)
    · exact hI.acc (by omega)
    · by_cases h7 : s.acceptState = 7
      · exact hq h7 (by rw [hl]; rfl)
      · exact hI.succ hp (by omega)
  · exact ⟨hI, fun h => by simp at h, fun hp h7 _ hu => hq h7 hu⟩

theorem recvWhile_inv {polite : Bool} {sid : Bytes} {s s' : Srv} {l : LoopEnv} {cond : Bool}
    {next : Nat} (I : SInv polite sid s) (hc : s.inCall = true) (hn : next = s.acceptState + 1)
    (h6 : s.acceptState = 6 → cond = false → 5 ≤ s.a.clientState) (hne : s.acceptState ≠ 7)
    (h : recvWhile s l cond next = some s') : SInv polite sid s' := by
  unfold recvWhile at h
  split at h
  · split at h
    · cases h
    · rename_i s1 hd
      obtain ⟨h1, h2, h3, h4, h5⟩ := doReceive_inv I.pinv hd
      simp only [Option.some.injEq] at h
      subst h
      exact ⟨h1, fun _ => h5 rfl, fun _ h7 _ _ => by omega⟩
    · rename_i s1 hd
      obtain ⟨h1, h2, h3, h4, h5⟩ := doReceive_inv I.pinv hd
      simp only [Option.some.injEq] at h
      subst h
      exact ⟨h1, fun h => by simp at h, fun _ h7 _ _ => by simp only at h7; omega⟩
  · rename_i hcond
    have hcond : cond = false := by simpa using hcond
    simp only [Option.some.injEq] at h
    subst h
    refine ⟨I.pinv.at (st' := next) (fun h => ?_) (fun hp h => ?_), I.call, fun _ _ hf => ?_⟩
    · by_cases h6' : s.acceptState = 6
      · exact I.pinv.ainv.cl (h6 h6' hcond)
      · exact I.pinv.acc (by omega)
    · exact I.pinv.succ hp (by omega)
    · simp only at hf
      rw [hc] at hf; cases hf

theorem loop_inv {polite : Bool} {sid : Bytes} {s s' : Srv} {l : LoopEnv} (I : SInv polite sid s)
    (hc : s.inCall = true) (hs : s.acceptState = 1 ∨ sendResult l.send)
    (h : loopStep s l = some s') : SInv polite sid s' := by
  unfold loopStep at h
  split at h
  · rename_i hst
    simp only [Option.some.injEq] at h
    subst h
    exact sendThen_inv I hc (by omega) (by omega) (by intro e h; cases h) (by omega)
      (by intro h; cases h)
  · rename_i hst
    split at h
    · rename_i hlt
      have hA : ∀ c, c < 5 → AInv sid { s.a with clientState := c } := fun c hc =>
        ainv_client I.pinv.ainv c (by omega)
      split at h
      · simp only [Option.some.injEq] at h
        subst h
        refine ⟨⟨hA _ (by decide), fun h => ?_, I.pinv.conn, fun _ h => ?_⟩, fun _ => rfl,
          fun _ h => ?_⟩ <;> simp only at h <;> omega
      · simp only [Option.some.injEq] at h
        subst h
        exact ⟨I.pinv, fun h => by simp at h, fun _ h7 => by simp only at h7; omega⟩
    · simp only [Option.some.injEq] at h
      subst h
      exact ⟨I.pinv.at (st' := 2) (by omega) (by omega), I.call, fun _ h => by simp at h⟩
  · rename_i hst
    simp only [Option.some.injEq] at h
    subst h
    have := sendThen_inv (next := 3) (ev := none) (l := l) I hc (by omega) (by omega)
      (by intro e h; cases h) (by omega) (by intro h; cases h)
    exact ⟨this.pinv, this.call, this.succ7⟩
  · exact recvWhile_inv I hc (by omega) (by omega) (by omega) h
  · exact recvWhile_inv I hc (by omega) (by omega) (by omega) h
  · rename_i hst
    simp only [Option.some.injEq] at h
    subst h
    exact sendThen_inv I hc (by omega) (by omega)
      (by intro e h; cases h; refine ⟨?_, ?_⟩ <;> intros <;> simp) (by omega)
      (by intro h; cases h)
  · rename_i hst
    refine recvWhile_inv I hc (by omega) ?_ (by omega) h
    intro _ hd
    have := of_decide_eq_false hd
    simp only [CLIENT_USERAUTH_DONE] at this
    omega
  · rename_i hst
    simp only [Option.some.injEq] at h
    subst h
    exact sendThen_inv I hc (by omega) (by omega)
      (by intro e h; cases h; refine ⟨?_, ?_⟩ <;> intros <;> simp)
      (fun _ => ⟨rfl, hs.resolve_left (by omega)⟩) (fun _ => hst)
  · exact recvWhile_inv I hc (by omega) (by omega) (by omega) h
  · exact recvWhile_inv I hc (by omega) (by omega) (by omega) h
  · rename_i n h0 h1 h2 h3 h4 h5 h6 h7 h8 h9
    simp only [Option.some.injEq] at h
    subst h
    exact ⟨I.pinv, fun h => by simp at h, fun _ h => absurd h h7⟩

theorem step_inv {polite : Bool} {sid : Bytes} {s s' : Srv} {i : In} (I : SInv polite sid s)
    (he : enabled polite s i) (h : step s i = some s') : SInv polite sid s' := by
  cases i with
  | accept f =>
    simp only [step, Option.some.injEq] at h
    subst h
    exact accept_inv I he
  | loop l => exact loop_inv I he.1 he.2 h
  | other e =>
    simp only [step, Option.map_eq_some_iff] at h
    obtain ⟨⟨ok, s1⟩, hd, rfl⟩ := h
    obtain ⟨h1, h2, h3, h4, _⟩ := doReceive_inv I.pinv hd
    refine ⟨h1, fun h => ?_, fun hp h7 _ _ => ?_⟩
    · simp only at h; rw [h3, he.1] at h; cases h
    · exact h4 _ (I.succ7 hp (h2 ▸ h7) he.1 (he.2 hp))

theorem reach_inv {polite : Bool} {mx : Nat} {sid : Bytes} {s : Srv} (h : Reach polite mx sid s) :
    SInv polite sid s := by
  induction h with
  | init => exact init_inv polite mx sid
  | step _ he hs ih => exact step_inv ih he hs

end Wolf.Session
