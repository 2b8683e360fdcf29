import Verif.Proofs.Rekey
/-!
# C67 to C70: keys, host key and credentials
-/

namespace Props.Keying
open Wolf Wolf.Keying Spec.Keying Spec.Client
open Wolf.UserAuth (Ret)

/-! ## Concrete sessions -/

/-- A packet that goes out. -/
def okOut : Out := ⟨none, ⟨none, 0⟩⟩
/-- The own `SSH_MSG_KEXINIT` goes out. -/
def okInit : InitEnv := ⟨false, true, okOut⟩
/-- A message of the key exchange that is in order. -/
def okKex (empty : Bool) : KexEnv :=
  ⟨empty, ⟨true, none, false, false, okInit, none, none, okOut⟩, none, true, none, true, none, ⟨none, okOut⟩, ⟨okOut, none, []⟩, none, none, []⟩
/-- Such a message arrives. -/
def okPkt (m : Nat) : PktEnv := ⟨none, m, okKex (m == 21), none, [], ⟨none, 0⟩⟩

theorem okKex_sane (b : Bool) : (okKex b).Sane := ⟨.inl rfl, .inl rfl, .inl rfl, .inl rfl, .inl rfl, .inl rfl, .inl rfl, .inl rfl⟩

theorem okPkt_fine (m : Nat) : Fine false (okPkt m) :=
  ⟨rfl, rfl, rfl, rfl, rfl, rfl, rfl, ⟨rfl, rfl⟩, rfl, rfl, rfl, rfl, rfl, rfl, rfl, rfl, ⟨rfl, rfl⟩, ⟨rfl, rfl⟩, rfl, (fun _ h => nomatch h), rfl,
    (fun _ h => nomatch h), rfl⟩

/-- The steps of a run, as long as the session goes on. -/
def run (k : Ks) : List Keying.In → Option Ks
  | [] => some k
  | i :: l => if k.dead = false then (Keying.step k i).bind fun k' => run k' l else none

/-- The session after a step. -/
def next (k : Ks) (i : Keying.In) : Ks := (Keying.step k i).getD k

/-- What `enabled` asks of a step apart from the session. -/
def fits (s : Side) : Keying.In → Prop
  | .start _ => True
  | .request _ => s = .client
  | .send m _ => m < 20 ∨ 49 < m
  | .receive _ e => e.kex.Sane ∧ e.Quiet ∧ ∀ x ∈ e.more, x.1 < 20 ∨ 49 < x.1

theorem fits_okPkt (s : Side) (p m : Nat) : fits s (.receive p (okPkt m)) := ⟨okKex_sane _, .inl rfl, (fun _ h => nomatch h)⟩

theorem reach_run {s : Side} {l : List Keying.In} {k k' : Ks} (hk : Keying.Reach s k) (hs : ∀ i ∈ l, fits s i ∧ ∀ e, i ≠ .request e)
    (h : run k l = some k') : Keying.Reach s k' := by
  induction l generalizing k with
  | nil => cases h; exact hk
  | cons i l ih =>
    unfold run at h
    by_cases hd : k.dead = false
    · rw [if_pos hd, Option.bind_eq_some_iff] at h
      obtain ⟨k1, h1, h2⟩ := h
      refine ih (.step hk ?_ h1) (fun j hj => hs j (List.mem_cons_of_mem _ hj)) h2
      have hi := hs i List.mem_cons_self
      cases i with
      | start e => exact hd
      | request e => exact absurd rfl (hi.2 e)
      | send m o => exact ⟨hd, hi.1⟩
      | receive p e => exact ⟨hd, hi.1⟩
    · rw [if_neg hd] at h; cases h

/-- A server: first exchange, then a second one begun by the peer. -/
def serverRun : List Keying.In :=
  [.start okInit, .receive 1 (okPkt 20), .receive 2 (okPkt 30), .receive 3 (okPkt 21), .receive 9 (okPkt 20), .receive 9 (okPkt 30), .send 94 okOut,
   .receive 9 (okPkt 21)]

theorem serverRun_fits : ∀ i ∈ serverRun, fits .server i ∧ ∀ e, i ≠ .request e := by
  intro i hi
  simp only [serverRun, List.mem_cons, List.not_mem_nil, or_false] at hi
  rcases hi with rfl | rfl | rfl | rfl | rfl | rfl | rfl | rfl
  all_goals refine ⟨?_, by intro e h; cases h⟩
  all_goals first | exact fits_okPkt _ _ _ | exact trivial | (show (94 : Nat) < 20 ∨ 49 < 94; omega)

/-- The session after the first `n` steps of it. -/
def serverAt (n : Nat) : Ks := (run (Ks.init .server) (serverRun.take n)).getD (Ks.init .server)

theorem serverAt_reach (n : Nat) : Keying.Reach .server (serverAt n) := by
  unfold serverAt
  cases h : run (Ks.init .server) (serverRun.take n) with
  | none => exact .init
  | some k => exact reach_run .init (fun i hi => serverRun_fits i (List.mem_of_mem_take hi)) h

/-! ## C68 -/

/-- **C68.** On either side, whatever is received and whichever functions are called, as long as the application stops at an error that ends the
session: every packet is sent and taken under the keys last put in use; keys are put in use for sending only right after own
`SSH_MSG_NEWKEYS`, were derived in an exchange, are new, and on a client the host key of that exchange was accepted and its signature checked; keys are
put in use for receiving only at the peer's `SSH_MSG_NEWKEYS`, are those already in use for sending, and new. -/
theorem C68_keys_change_in_order {s : Side} {k : Ks} (h : Keying.Reach s k) : Orderly k.side k.log :=
  (Proofs.Keying.reach_inv h).hist

/-- A server that has gone through two exchanges, data in the middle of the second under the new keys. -/
example : Keying.Reach .server (serverAt 8) ∧ (serverAt 8).dead = false ∧ (serverAt 8).tx = some 2 ∧ (serverAt 8).rx = some 2 ∧
    Ev.sent 94 (some 2) ∈ (serverAt 8).log ∧ Ev.acted 21 (some 1) ∈ (serverAt 8).log ∧ Ev.acted 21 none ∈ (serverAt 8).log :=
  ⟨serverAt_reach 8, by decide +kernel, by decide +kernel, by decide +kernel, by decide +kernel, by decide +kernel, by decide +kernel⟩

/-- A `SSH_MSG_KEXINIT` that does not parse. -/
def badInit : PktEnv := { okPkt 20 with kex := { okKex false with init := { (okKex false).init with parse := some .parseE } } }

/-- **C68, the condition is needed.** A server whose application goes on after the error takes the `SSH_MSG_NEWKEYS` of an exchange that was never run,
and puts keys in use that nobody derived. -/
theorem C68_after_an_error : ∃ k k1 k2, Keying.Reach .server k ∧ Keying.enabled k (.receive 9 badInit) ∧ Keying.step k (.receive 9 badInit) = some k1 ∧
    k1.dead = true ∧ Keying.step k1 (.receive 9 (okPkt 21)) = some k2 ∧ k2.rx = none ∧ ¬Orderly .server k2.log := by
  refine ⟨serverAt 4, next (serverAt 4) (.receive 9 badInit), next (next (serverAt 4) (.receive 9 badInit)) (.receive 9 (okPkt 21)), serverAt_reach 4, ?_,
    by decide +kernel, by decide +kernel, by decide +kernel, by decide +kernel, ?_⟩
  · refine ⟨by decide +kernel, ⟨.inl rfl, .inl rfl, .inl rfl, .inl rfl, .inr rfl, .inl rfl, .inl rfl, .inl rfl⟩, .inl rfl, (fun _ h => nomatch h)⟩
  · intro h
    obtain ⟨n, _, _, hn, _⟩ := h [] (.newRx none) _ rfl
    cases hn

/-! ## C69 -/

/-- **C69.** `SSH_MSG_KEXINIT` and `SSH_MSG_NEWKEYS` go out in turns, if the highwater callback does not fire and the application calls
`wolfSSH_TriggerKeyExchange` only while no exchange is under way. Missing: the calls during an exchange, and the highwater callback, see below. -/
theorem C69_one_kexinit_per_exchange_partial {s : Side} {k : Ks} (h : Calm s k) : InTurns k.log := (Proofs.KeyingOnce.tinv_calm h).turns

theorem okOut_calm : CalmOut okOut := rfl
theorem okInit_calm : CalmInit okInit := ⟨rfl, .inl rfl⟩
theorem okKex_calm (b : Bool) : CalmKex (okKex b) :=
  ⟨okKex_sane b, okInit_calm, rfl, rfl, rfl, (fun _ h => nomatch h), (fun _ h => nomatch h), (fun _ h => nomatch h)⟩

theorem calm_run {s : Side} {l : List Keying.In} {k k' : Ks} (hk : Calm s k) (hs : ∀ i ∈ l, fits s i ∧ (∀ e, i ≠ .request e) ∧ ∀ e, i ≠ .start e)
    (hc : ∀ i ∈ l, ∀ k, (∀ e, i ≠ .start e) → (∀ e, i ≠ .request e) → calm k i) (h : run k l = some k') : Calm s k' := by
  induction l generalizing k with
  | nil => cases h; exact hk
  | cons i l ih =>
    unfold run at h
    by_cases hd : k.dead = false
    · rw [if_pos hd, Option.bind_eq_some_iff] at h
      obtain ⟨k1, h1, h2⟩ := h
      have hi := hs i List.mem_cons_self
      refine ih (.step hk ?_ (hc i List.mem_cons_self k hi.2.2 hi.2.1) h1) (fun j hj => hs j (List.mem_cons_of_mem _ hj))
        (fun j hj => hc j (List.mem_cons_of_mem _ hj)) h2
      cases i with
      | start e => exact absurd rfl (hi.2.2 e)
      | request e => exact absurd rfl (hi.2.1 e)
      | send m o => exact ⟨hd, hi.1⟩
      | receive p e => exact ⟨hd, hi.1⟩
    · rw [if_neg hd] at h; cases h

/-- The same server, two exchanges. -/
example : Calm .server (serverAt 8) ∧ (serverAt 8).tx = some 2 := by
  refine ⟨?_, by decide +kernel⟩
  have h1 : Calm .server (serverAt 1) := .step .init (i := .start okInit) rfl ⟨rfl, rfl, okInit_calm⟩ (by decide +kernel)
  refine calm_run (l := serverRun.drop 1) (k := serverAt 1) h1 ?_ ?_ (by decide +kernel)
  · intro i hi
    refine ⟨(serverRun_fits i (List.mem_of_mem_drop hi)).1, (serverRun_fits i (List.mem_of_mem_drop hi)).2, ?_⟩
    intro e he
    simp only [serverRun, List.drop_succ_cons, List.drop_zero, List.mem_cons, List.not_mem_nil, or_false] at hi
    rcases hi with h | h | h | h | h | h | h <;> (rw [h] at he; cases he)
  · intro i hi k _ _
    simp only [serverRun, List.drop_succ_cons, List.drop_zero, List.mem_cons, List.not_mem_nil, or_false] at hi
    rcases hi with h | h | h | h | h | h | h <;> rw [h]
    all_goals first | exact okOut_calm | exact ⟨okKex_calm _, fun _ h => (by cases h), rfl⟩

/-- **C69 in general is false.** `wolfSSH_TriggerKeyExchange` called again before the peer's answer sends a second `SSH_MSG_KEXINIT` for the same
exchange. -/
theorem C69_refuted : ∃ k : Ks, Keying.Reach .server k ∧ k.dead = false ∧ ¬InTurns k.log := by
  refine ⟨next (next (serverAt 4) (.start okInit)) (.start okInit),
    .step (k := next (serverAt 4) (.start okInit)) (i := .start okInit) (.step (serverAt_reach 4) (i := .start okInit) ?_ (by decide +kernel)) ?_
      (by decide +kernel), by decide +kernel, ?_⟩
  · show Ks.dead _ = false; decide +kernel
  · show Ks.dead _ = false; decide +kernel
  · intro h
    have := (h [] 20 (some 1) _ rfl).1 rfl
    revert this
    decide +kernel

/-- The same without the application's doing: the default highwater callback fires on a packet that arrives before the peer's answer. -/
theorem C69_highwater : ∃ k : Ks, Keying.Reach .server k ∧ k.dead = false ∧ ¬InTurns k.log := by
  refine ⟨next (next (serverAt 4) (.start okInit)) (.receive 9 { okPkt 93 with hw := ⟨none, 1⟩ }),
    .step (k := next (serverAt 4) (.start okInit)) (i := .receive 9 { okPkt 93 with hw := ⟨none, 1⟩ })
      (.step (serverAt_reach 4) (i := .start okInit) ?_ (by decide +kernel)) ?_ (by decide +kernel), by decide +kernel, ?_⟩
  · show Ks.dead _ = false; decide +kernel
  · exact ⟨by decide +kernel, okKex_sane _, .inl rfl, fun _ h => nomatch h⟩
  · intro h
    have := (h [] 20 (some 1) _ rfl).1 rfl
    revert this
    decide +kernel

/-- **C69 in general is false, and the session is lost.** The call made between own `SSH_MSG_NEWKEYS` and the peer's makes the peer's
`SSH_MSG_NEWKEYS` an error. -/
theorem C69_trigger_loses_the_session : ∃ k k1 : Ks, Keying.Reach .server k ∧ k.dead = false ∧
    (∃ k', Keying.step k (.receive 9 (okPkt 21)) = some k' ∧ k'.dead = false ∧ k'.rx = some 2) ∧
    Keying.step k (.start okInit) = some k1 ∧ k1.dead = false ∧ Ev.sent 20 (some 2) ∈ k1.log ∧
    ∃ k2, Keying.step k1 (.receive 9 (okPkt 21)) = some k2 ∧ k2.dead = true ∧ k2.rx = some 1 := by
  exact ⟨serverAt 6, next (serverAt 6) (.start okInit), serverAt_reach 6, by decide +kernel,
    ⟨next (serverAt 6) (.receive 9 (okPkt 21)), by decide +kernel, by decide +kernel, by decide +kernel⟩,
    by decide +kernel, by decide +kernel, by decide +kernel,
    ⟨next (next (serverAt 6) (.start okInit)) (.receive 9 (okPkt 21)), by decide +kernel, by decide +kernel, by decide +kernel⟩⟩

/-! ## C70 -/

/-- **C70.** An exchange the peer begins is completed: on a server at any time, on a client once `wolfSSH_connect` has returned success. If
nothing goes wrong with the packets of the exchange, the keys in use afterwards are, in both directions, those of that exchange, and nothing is
left waiting. It may have been begun by the own side as well. Missing: a client still inside `wolfSSH_connect`, see below. -/
theorem C70_exchange_completes_partial {p : Nat} {k : Ks} {gex : Bool} {l : List PktEnv} (hp : k.peer = false) (hd : k.dead = false)
    (hh : ∀ h, k.hs = some h → h.expect = 0) (hpr : k.side = .client → p = 16) (hl : l.map (·.msg) = script k.side gex)
    (hf : ∀ e ∈ l, Fine gex e) :
    ∃ k', after p k l = some k' ∧ k'.tx = some (k.gen + 1) ∧ k'.rx = some (k.gen + 1) ∧ k'.self = false ∧ k'.peer = false ∧ k'.hs = none ∧ k'.dead = false :=
  Proofs.Rekey.completes hp hd hh hpr hl hf

/-- The server between two exchanges, and one that has just begun the next itself. -/
example : ((serverAt 4).peer = false ∧ (serverAt 4).dead = false ∧ (∀ h, (serverAt 4).hs = some h → h.expect = 0) ∧ (serverAt 4).tx = some 1) ∧
    ([okPkt 20, okPkt 30, okPkt 21].map (·.msg) = script (serverAt 4).side false) ∧ ∀ e ∈ [okPkt 20, okPkt 30, okPkt 21], Fine false e := by
  refine ⟨⟨by decide +kernel, by decide +kernel, ?_, by decide +kernel⟩, by decide +kernel, ?_⟩
  · have : (serverAt 4).hs = none := by decide +kernel
    rw [this]; intro h hh; cases hh
  · intro e he
    simp only [List.mem_cons, List.not_mem_nil, or_false] at he
    rcases he with rfl | rfl | rfl <;> exact okPkt_fine _

/-- **C70, the client inside `wolfSSH_connect`.** A server that begins an exchange after the first one and before `wolfSSH_connect` has returned
success gets the client's `SSH_MSG_KEXINIT`, but never a `SSH_MSG_KEXDH_INIT`: whatever is received and whichever functions are called from then
on, the keys stay as they are and the exchange stays open. -/
theorem C70_client_stuck {c c1 c2 : Client.Cl} {e : Client.RxEnv} (hc : c.ks.side = .client) (h6 : 6 ≤ c.cs) (h16 : c.cs < 16)
    (hp : c.ks.peer = false) (hh : ∀ h, c.ks.hs = some h → h.expect = 0) (hio : e.io = none) (hm : e.msg = 20) (hal : e.kex.init.alloc = true)
    (hs : Client.step c (.receive e) = some c1) (hl : Later c1 c2) :
    c2.ks.peer = true ∧ c2.ks.tx = c.ks.tx ∧ c2.ks.rx = c.ks.rx := by
  obtain ⟨h, h0, w⟩ := Proofs.Rekey.stuck_of_init hc h6 h16 hp hh hio hm hal hs
  have w := (w.later h0 hl).ks
  exact ⟨w.peer, w.tx, w.rx⟩

/-! ## A concrete client -/

/-- A packet of the kind `m` that is in order. -/
def okRx (m : Nat) : Client.RxEnv := ⟨none, m, okKex (m == 21), true, none, okOut, [], ⟨none, 0⟩⟩
/-- A step of `wolfSSH_connect`; if it waits, the packet `m` arrives. -/
def okStep (m : Nat) : Client.In := .connect ⟨none, okInit, ⟨none, okOut⟩, okOut, true, okRx m⟩

theorem okRx_sane (m : Nat) : (okRx m).Sane := ⟨okKex_sane _, .inl rfl, (fun _ h => nomatch h)⟩

/-- The steps of a run. -/
def crun (c : Client.Cl) : List Client.In → Option Client.Cl
  | [] => some c
  | i :: l => if c.ks.dead = false then (Client.step c i).bind fun c' => crun c' l else none

theorem creach_run {l : List Nat} {c c' : Client.Cl} (hc : Client.Reach c) (h : crun c (l.map okStep) = some c') : Client.Reach c' := by
  induction l generalizing c with
  | nil => cases h; exact hc
  | cons m l ih =>
    rw [List.map_cons] at h
    unfold crun at h
    by_cases hd : c.ks.dead = false
    · rw [if_pos hd, Option.bind_eq_some_iff] at h
      obtain ⟨c1, h1, h2⟩ := h
      exact ih (.step (i := okStep m) hc ⟨hd, okRx_sane m⟩ h1) h2
    · rw [if_neg hd] at h; cases h

/-- The packets that arrive at the steps of `wolfSSH_connect` (0: none is waited for). -/
def opening : List Nat :=
  [0, 0, 0, 0, 20, 0, 0, 31, 21, 0, 0, 6, 0, 0, 51, 52, 0, 0, 91, 0, 0, 0, 0, 99, 0]

/-- The client after the first `n` steps. -/
def clientAt (n : Nat) : Client.Cl := (crun Client.Cl.init ((opening.take n).map okStep)).getD Client.Cl.init

theorem clientAt_reach (n : Nat) : Client.Reach (clientAt n) := by
  unfold clientAt
  cases h : crun Client.Cl.init ((opening.take n).map okStep) with
  | none => exact .init
  | some c => exact creach_run .init h

/-- **C70 in general is false.** A client that waits for the answer to its authentication request, and then for ever. -/
theorem C70_refuted : ∃ (c c1 : Client.Cl) (e : Client.RxEnv), Client.Reach c ∧ c.cs = 9 ∧ Client.enabled c (.receive e) ∧ e.msg = 20 ∧
    Client.step c (.receive e) = some c1 ∧ c1.ks.dead = false ∧ Ev.sent 20 (some 1) ∈ c1.ks.log ∧
    ∀ c2, Later c1 c2 → c2.ks.peer = true ∧ c2.ks.tx = some 1 ∧ c2.ks.rx = some 1 := by
  refine ⟨clientAt 14, _, okRx 20, clientAt_reach 14, by decide +kernel, ⟨by decide +kernel, okRx_sane _⟩, rfl, (rfl : Client.step _ _ = some _),
    by decide +kernel, by decide +kernel, ?_⟩
  intro c2 hl
  have h := C70_client_stuck (c := clientAt 14) (e := okRx 20) (by decide +kernel) (by decide +kernel) (by decide +kernel) (by decide +kernel)
    (by have : (clientAt 14).ks.hs = none := by decide +kernel
        rw [this]; intro h hh; cases hh) rfl rfl rfl rfl hl
  have h1 : (clientAt 14).ks.tx = some 1 := by decide +kernel
  have h2 : (clientAt 14).ks.rx = some 1 := by decide +kernel
  rw [h1, h2] at h
  exact h

/-! ## C67 -/

/-- **C67.** A client asks for the user to be authenticated, sends an authentication request or answers prompts only under keys of an exchange whose
host key the application accepted and whose signature by that key was checked, and only after the server put the keys of such an exchange in
use. -/
theorem C67_credentials_only_to_a_checked_server {c : Client.Cl} (h : Client.Reach c) : Guarded c.ks.log :=
  Proofs.Client.guarded (Proofs.Client.cinv_reach h)

/-- A client that is through: service request, two authentication requests, a channel. -/
example : Client.Reach (clientAt 25) ∧ (clientAt 25).cs = 16 ∧ (clientAt 25).ks.dead = false ∧ Ev.sent 5 (some 1) ∈ (clientAt 25).ks.log ∧
    ((clientAt 25).ks.log.filter (· == Ev.sent 50 (some 1))).length = 2 ∧ Ev.sent 90 (some 1) ∈ (clientAt 25).ks.log :=
  ⟨clientAt_reach 25, by decide +kernel, by decide +kernel, by decide +kernel, by decide +kernel, by decide +kernel⟩

end Props.Keying
