import Verif.Proofs.Client
import Verif.Proofs.KeyingOnce
/-!
# Completing an exchange, and the client that cannot
-/

namespace Proofs.Rekey
open Wolf Wolf.Keying Spec.Keying Proofs.Keying
open Wolf.UserAuth (Ret)

theorem send_goes {m : Nat} {k : Ks} {o : Out} (h : Goes o) : send m k o = (none, k.note (.sent m k.tx)) := by
  unfold send; rw [h.1, h.2]; rfl

theorem sendExpect_goes {m x : Nat} {k : Ks} {a : Hs} {o : Out} (h : Goes o) :
    sendExpect m x k a o = (none, { k.note (.sent m k.tx) with hs := some { a with expect := x } }) := by
  unfold sendExpect; rw [h.1, h.2]; rfl

theorem adjust_goes {l : List Out} (h : ∀ o ∈ l, Goes o) {k : Ks} :
    (adjust l k).1 = none ∧ (adjust l k).2.tx = k.tx ∧ (adjust l k).2.rx = k.rx ∧ (adjust l k).2.self = k.self ∧ (adjust l k).2.peer = k.peer ∧
    (adjust l k).2.dead = k.dead ∧ (adjust l k).2.hs = k.hs := by
  induction l generalizing k with
  | nil => exact ⟨rfl, rfl, rfl, rfl, rfl, rfl, rfl⟩
  | cons o l ih =>
    unfold adjust
    split
    · exact ⟨rfl, rfl, rfl, rfl, rfl, rfl, rfl⟩
    · rw [send_goes (h o List.mem_cons_self)]
      exact ih (fun o ho => h o (List.mem_cons_of_mem _ ho))

/-- In the middle of exchange `n` (own `SSH_MSG_KEXINIT` and the peer's are exchanged). -/
structure At (s : Side) (n : Nat) (x : Nat) (g : Bool) (k : Ks) : Prop where
  side : k.side = s
  self : k.self = true
  peer : k.peer = true
  hs : ∃ q, k.hs = some ⟨x, g, false, q⟩
  ex : k.gen + 1 = n
  dead : k.dead = false

/-- Own keys are in use, those of the peer not yet. -/
structure Last (s : Side) (n : Nat) (k : Ks) : Prop where
  side : k.side = s
  self : k.self = false
  peer : k.peer = true
  hs : ∃ g, k.hs = some ⟨21, g, false, some n⟩
  tx : k.tx = some n
  dead : k.dead = false

theorem At.of {s : Side} {n x x' : Nat} {g : Bool} {k k' : Ks} (h : At s n x g k) (h1 : k'.side = k.side) (h2 : k'.self = k.self) (h3 : k'.peer = k.peer)
    (h4 : ∃ q, k'.hs = some ⟨x', g, false, q⟩) (h5 : k'.gen = k.gen) (h6 : k'.dead = k.dead) : At s n x' g k' :=
  ⟨h1.trans h.side, h2.trans h.self, h3.trans h.peer, h4, by rw [h5]; exact h.ex, h6.trans h.dead⟩

/-- The awaited message is let through. -/
theorem allowed_awaited {p : Nat} {k : Ks} {m x : Nat} {g w : Bool} {q : Key} (hm : 20 < m ∧ m ≤ 49) (hp : k.peer = true)
    (hh : k.hs = some ⟨x, g, w, q⟩) (hx : x = m ∨ k.side = .server ∧ x = 0 ∧ m ≤ 34) :
    allowed p k m = (true, { k with hs := some ⟨0, g, w, q⟩ }) := by
  unfold allowed
  rw [hh, hp]
  dsimp only [Option.map_some]
  have key : verdict k.side ⟨p, true, some x⟩ m = (true, some 0) := by
    rcases hx with hx | ⟨hs, hx, hm2⟩
    · have t : MsgFilter.transBlock ⟨p, true, some x⟩ m = some (true, some 0) := by
        unfold MsgFilter.transBlock
        simp only [if_true]
        rw [if_neg (by omega), if_pos (by omega), if_neg (by omega)]
      unfold verdict
      cases k.side
      · simp only [MsgFilter.isMessageAllowedClient]
        rw [if_neg (by omega), if_neg (by omega), if_neg (by omega), if_pos (by omega), t]
      · simp only [MsgFilter.isMessageAllowedServer]
        rw [if_neg (by omega), if_neg (by omega), if_neg (by omega), if_pos (by omega), t]
    · subst hx
      have t : MsgFilter.transBlock ⟨p, true, some 0⟩ m = none := by
        unfold MsgFilter.transBlock
        simp only [if_true]
        rw [if_neg (by omega), if_neg (by omega)]
      rw [hs]
      simp only [verdict, MsgFilter.isMessageAllowedServer]
      rw [if_neg (by omega), if_neg (by omega), if_neg (by omega), if_pos (by omega), t]
      have t4 : MsgFilter.ACCEPT_KEYED = 4 := rfl
      have t8 : MsgFilter.ACCEPT_SERVER_USERAUTH_SENT = 8 := rfl
      have : MsgFilter.serverPhase ⟨p, true, some 0⟩ m = true := by
        unfold MsgFilter.serverPhase
        dsimp only
        rw [if_neg (by omega)]
        split
        · rw [if_neg (by omega), if_neg (by omega)]
        · rw [if_neg (by omega)]
      rw [this]
  rw [key]
  rfl

/-- A `SSH_MSG_KEXINIT` is let through unless the peer is keying already. -/
theorem allowed_init {p : Nat} {k : Ks} (hp : k.peer = false) : allowed p k 20 = (true, k) := by
  have key : ∀ x, verdict k.side ⟨p, false, x⟩ 20 = (true, x) := by
    intro x; unfold verdict; cases k.side <;> rfl
  unfold allowed
  rw [hp]
  dsimp only
  rw [key]
  obtain ⟨s, a, b, hs, x, y, g, l, dd⟩ := k
  have hp : b = false := hp
  subst hp
  cases hs <;> rfl

/-- A packet that is let through. -/
theorem receive_taken {p : Nat} {k k1 : Ks} {e : PktEnv} {g : Bool} (f : Fine g e) (hm : 20 ≤ e.msg ∧ e.msg ≤ 49)
    (ha : allowed p k e.msg = (true, k1)) {d : Bool} {k2 : Ks} (hk : kexCase p (k1.note (.acted e.msg k1.rx)) e.msg e.kex = some (none, d, k2)) :
    receive p k e = some (none, d, { k2 with dead := k2.dead || false }) := by
  unfold receive
  rw [f.io]
  dsimp only
  rw [ha]
  dsimp only
  rw [if_pos hm, hk]
  dsimp only
  rw [f.hw]
  rfl

theorem doKexInit_fine {k : Ks} {e : KexInitEnv} {g : Bool} (hp : k.peer = false) (hd : k.dead = false)
    (hh : ∀ h, k.hs = some h → h.expect = 0) (h1 : e.gex = g) (h2 : e.skip = false) (h3 : e.alloc = true) (h4 : e.parse = none)
    (h5 : e.start.noKey = false) (h6 : Goes e.start.out) (h7 : e.hash = none) (h8 : e.stale = none) :
    ∃ k', doKexInit k e = (none, true, k') ∧ At k.side (k.gen + 1) 0 g k' := by
  have hx : ∃ q, (k.taken e.gex e.skip).hs = some ⟨0, g, false, q⟩ := by
    unfold Ks.taken
    rw [h1, h2]
    cases hk : k.hs with
    | none => exact ⟨none, rfl⟩
    | some h =>
      have := hh h hk
      obtain ⟨a, b, c, d⟩ := h
      exact ⟨d, by simp only [Option.getD_some]; rw [show a = 0 from this]⟩
  obtain ⟨q, hx⟩ := hx
  have own : ∃ k', ownInit (k.taken e.gex e.skip) e.start = (none, k') ∧ At k.side (k.gen + 1) 0 g k' := by
    unfold ownInit
    by_cases hs : (k.taken e.gex e.skip).self = true
    · rw [if_pos hs]; exact ⟨_, rfl, rfl, hs, rfl, ⟨q, hx⟩, rfl, hd⟩
    · rw [if_neg hs]
      unfold sendKexInit
      rw [if_neg (by rw [h5]; simp), if_neg (by rw [hx]; simp), send_goes h6]
      exact ⟨_, rfl, rfl, rfl, rfl, ⟨q, by simp only [Ks.note]; rw [hx]; rfl⟩, rfl, hd⟩
  obtain ⟨k', ho, hat⟩ := own
  refine ⟨k', ?_, hat⟩
  unfold doKexInit
  rw [if_neg (by rw [hp]; simp), if_neg (by rw [h3]; simp)]
  dsimp only
  rw [h4]
  dsimp only
  have : kexInitReply (k.taken e.gex e.skip) e = (none, true, k') := by
    unfold kexInitReply
    dsimp only
    rw [ho]
    dsimp only
    rw [if_pos (.inl rfl), h7]
    dsimp only
    rw [h8]
  rw [this]
  rfl

/-- The first packet of an exchange. -/
theorem stage_init {p : Nat} {k : Ks} {e : PktEnv} {g : Bool} (f : Fine g e) (hm : e.msg = 20) (hp : k.peer = false) (hd : k.dead = false)
    (hh : ∀ h, k.hs = some h → h.expect = 0) (hpr : k.side = .client → p = CONNECTED) :
    ∃ k', receive p k e = some (none, true, k') ∧ At k.side (k.gen + 1) (if k.side = .client then 31 else 0) g k' := by
  have ha : allowed p k e.msg = (true, k) := by rw [hm]; exact allowed_init hp
  obtain ⟨k1, h1, a1⟩ := doKexInit_fine (k := k.note (.acted e.msg k.rx)) (e := e.kex.init) hp hd hh f.gex f.skip f.alloc f.initParse f.noKey f.initOut
    f.hash f.stale
  have hc : ∃ k', kexCase p (k.note (.acted e.msg k.rx)) e.msg e.kex = some (none, true, k') ∧
      At k.side (k.gen + 1) (if k.side = .client then 31 else 0) g k' := by
    unfold kexCase
    rw [if_pos hm]
    unfold kexInitCase
    dsimp only
    rw [h1]
    dsimp only
    obtain ⟨q, hq⟩ := a1.hs
    cases hs : k.side with
    | server =>
      have a1 : At .server (k.gen + 1) 0 g k1 := hs ▸ a1
      rw [if_neg (by rw [a1.side]; simp)]
      exact ⟨k1, rfl, by simpa using a1⟩
    | client =>
      have a1 : At .client (k.gen + 1) 0 g k1 := hs ▸ a1
      rw [if_pos ⟨rfl, .inl a1.self, a1.side, hpr hs⟩, hq]
      dsimp only
      refine ⟨_, rfl, ?_⟩
      unfold sendKexDh sendKexDhInit
      rw [f.crypto]
      cases g with
      | true =>
        simp only [if_true]
        rw [sendExpect_goes f.dh]
        exact a1.of rfl rfl rfl ⟨q, rfl⟩ rfl rfl
      | false =>
        simp only [Bool.false_eq_true, if_false]
        rw [sendExpect_goes f.dh]
        exact a1.of rfl rfl rfl ⟨q, rfl⟩ rfl rfl
  obtain ⟨k2, h2, a2⟩ := hc
  refine ⟨_, receive_taken f (by omega) ha h2, ?_⟩
  exact a2.of rfl rfl rfl a2.hs rfl (by simp)

/-- The server's group, for a client. -/
theorem stage_group {p n : Nat} {k : Ks} {e : PktEnv} (f : Fine true e) (hm : e.msg = 31) (a : At .client n 31 true k) :
    ∃ k', receive p k e = some (none, false, k') ∧ At .client n 33 true k' := by
  obtain ⟨q, hq⟩ := a.hs
  have ha := allowed_awaited (p := p) (m := e.msg) (by omega) a.peer hq (.inl hm.symm)
  refine ⟨_, receive_taken f (by omega) ha (k2 := { ({ k with hs := some ⟨0, true, false, q⟩ }.note (.acted e.msg k.rx)).note (.sent 32 k.tx) with
    hs := some ⟨33, true, false, q⟩ }) ?_, ?_⟩
  · unfold kexCase
    rw [if_neg (by omega), if_neg (by omega), if_pos (by omega)]
    simp only [Ks.note]
    rw [if_neg (by omega), if_neg (by omega), if_pos ⟨hm, trivial⟩]
    unfold doGexGroup
    rw [f.empty, if_neg (by simp [hm]), if_neg (by simp), f.parse]
    dsimp only
    unfold sendKexDhInit
    rw [f.crypto]
    dsimp only
    rw [if_pos rfl, sendExpect_goes f.dh]
    rfl
  · exact a.of rfl rfl rfl ⟨q, rfl⟩ rfl (by simp [Ks.note])

/-- The client's group request, for a server. -/
theorem stage_request {p n : Nat} {k : Ks} {e : PktEnv} (f : Fine true e) (hm : e.msg = 34) (a : At .server n 0 true k) :
    ∃ k', receive p k e = some (none, false, k') ∧ At .server n 32 true k' := by
  obtain ⟨q, hq⟩ := a.hs
  have ha := allowed_awaited (p := p) (m := e.msg) (by omega) a.peer hq (.inr ⟨a.side, rfl, by omega⟩)
  refine ⟨_, receive_taken f (by omega) ha (k2 := { ({ k with hs := some ⟨0, true, false, q⟩ }.note (.acted e.msg k.rx)).note (.sent 31 k.tx) with
    hs := some ⟨32, true, false, q⟩ }) ?_, ?_⟩
  · unfold kexCase
    rw [if_neg (by omega), if_neg (by omega), if_pos (by omega)]
    simp only [Ks.note]
    rw [if_neg (by omega), if_pos hm]
    unfold doGexRequest
    rw [f.empty, if_neg (by simp [hm]), if_neg (by simp), f.parse]
    dsimp only
    rw [sendExpect_goes f.dh]
    rfl
  · exact a.of rfl rfl rfl ⟨q, rfl⟩ rfl (by simp [Ks.note])

theorem sendNewKeys_goes {k : Ks} {h : Hs} {e : NkEnv} (ho : Goes e.out) (hc : e.cipher = none) (hp : k.peer = true) :
    sendNewKeys k h e = (none, { (k.note (.sent 21 k.tx)).note (.newTx h.keys) with tx := h.keys, self := false }) := by
  unfold sendNewKeys
  rw [ho.1, hc, ho.2]
  dsimp only [started]
  rw [KeyingOnce.adjust_keying (by exact hp)]
  rfl

/-- The server's answer, for a client. -/
theorem stage_reply {p n m : Nat} {g : Bool} {k : Ks} {e : PktEnv} (f : Fine g e) (hm : e.msg = m) (hmm : m = if g = true then 33 else 31)
    (a : At .client n m g k) : ∃ k', receive p k e = some (none, false, k') ∧ Last .client n k' := by
  have hm' : m = 31 ∨ m = 33 := by cases g <;> simp at hmm <;> omega
  obtain ⟨q, hq⟩ := a.hs
  have ha := allowed_awaited (p := p) (m := e.msg) (by omega) a.peer hq (.inl hm.symm)
  have hc : ∃ k', kexCase p ({ k with hs := some ⟨0, g, false, q⟩ }.note (.acted e.msg k.rx)) e.msg e.kex = some (none, false, k') ∧ Last .client n k' := by
    unfold kexCase
    rw [if_neg (by omega), if_neg (by omega), if_pos (by omega)]
    simp only [Ks.note]
    rw [if_neg (by omega), if_neg (by omega), if_neg (by
      intro h; rw [h.2] at hmm; simp at hmm; omega)]
    unfold doKexDhReply
    rw [f.empty, if_neg (by simp; omega), if_neg (by simp), f.parse]
    dsimp only
    rw [if_neg (by rw [f.check]; simp), f.agree]
    dsimp only
    rw [if_neg (by rw [f.sig]; simp), f.derive]
    dsimp only
    rw [sendNewKeys_goes f.nk f.nkCipher (by exact a.peer)]
    refine ⟨_, rfl, a.side, rfl, a.peer, ⟨g, ?_⟩, ?_, a.dead⟩
    · simp only [Ks.note, Ks.derive, Ks.ex]; rw [a.ex]
    · simp only [Ks.note, Ks.derive, Ks.ex]; rw [a.ex]
  obtain ⟨k2, h2, l⟩ := hc
  exact ⟨_, receive_taken f (by omega) ha h2, l.side, l.self, l.peer, l.hs, l.tx, by simp [l.dead]⟩

/-- The client's public value, for a server. -/
theorem stage_value {p n m x : Nat} {g : Bool} {k : Ks} {e : PktEnv} (f : Fine g e) (hm : e.msg = m) (hmm : m = 30 ∨ m = 32) (hx : x = 0 ∨ x = m)
    (a : At .server n x g k) : ∃ k', receive p k e = some (none, false, k') ∧ Last .server n k' := by
  obtain ⟨q, hq⟩ := a.hs
  have ha := allowed_awaited (p := p) (m := e.msg) (by omega) a.peer hq (by
    rcases hx with hx | hx
    · exact .inr ⟨a.side, hx, by omega⟩
    · exact .inl (by omega))
  have hc : ∃ k', kexCase p ({ k with hs := some ⟨0, g, false, q⟩ }.note (.acted e.msg k.rx)) e.msg e.kex = some (none, false, k') ∧ Last .server n k' := by
    unfold kexCase
    rw [if_neg (by omega), if_neg (by omega), if_pos (by omega)]
    simp only [Ks.note]
    rw [if_pos (by omega)]
    unfold doKexDhInit
    rw [f.empty, if_neg (by simp; omega), if_neg (by simp), f.parse]
    dsimp only
    unfold sendKexDhReply
    rw [f.agree, f.derive]
    dsimp only
    rw [f.dh.1]
    dsimp only
    rw [sendNewKeys_goes f.nk f.nkCipher (by exact a.peer)]
    dsimp only
    cases he : e.kex.ext with
    | none =>
      refine ⟨_, rfl, a.side, rfl, a.peer, ⟨g, ?_⟩, ?_, a.dead⟩
      · simp only [Ks.note, Ks.derive, Ks.ex]; rw [a.ex]
      · simp only [Ks.note, Ks.derive, Ks.ex]; rw [a.ex]
    | some o =>
      dsimp only
      rw [send_goes (f.ext o he)]
      refine ⟨_, rfl, a.side, rfl, a.peer, ⟨g, ?_⟩, ?_, a.dead⟩
      · simp only [Ks.note, Ks.derive, Ks.ex]; rw [a.ex]
      · simp only [Ks.note, Ks.derive, Ks.ex]; rw [a.ex]
  obtain ⟨k2, h2, l⟩ := hc
  exact ⟨_, receive_taken f (by omega) ha h2, l.side, l.self, l.peer, l.hs, l.tx, by simp [l.dead]⟩

/-- The peer's `SSH_MSG_NEWKEYS`. -/
theorem stage_last {p n : Nat} {g : Bool} {s : Side} {k : Ks} {e : PktEnv} (f : Fine g e) (hm : e.msg = 21) (l : Last s n k) :
    ∃ k', receive p k e = some (none, false, k') ∧ k'.tx = some n ∧ k'.rx = some n ∧ k'.self = false ∧ k'.peer = false ∧ k'.hs = none ∧ k'.dead = false := by
  obtain ⟨g', hq⟩ := l.hs
  have ha := allowed_awaited (p := p) (m := e.msg) (by omega) l.peer hq (.inl hm.symm)
  have hc : ∃ k', kexCase p ({ k with hs := some ⟨0, g', false, some n⟩ }.note (.acted e.msg k.rx)) e.msg e.kex = some (none, false, k') ∧
      k'.tx = some n ∧ k'.rx = some n ∧ k'.self = false ∧ k'.peer = false ∧ k'.hs = none ∧ k'.dead = false := by
    unfold kexCase
    rw [if_neg (by omega), if_pos hm]
    unfold doNewKeys
    simp only [Ks.note, f.empty, hm, l.self, f.cipher, decide_true, Bool.true_eq_false, Bool.false_eq_true, if_false]
    have := adjust_goes f.adj (k := { k with
      self := false, hs := none, rx := some n, peer := false, log := .newRx (some n) :: .acted 21 k.rx :: k.log })
    dsimp only at this
    refine ⟨_, ?_, this.2.1.trans l.tx, this.2.2.1, this.2.2.2.1, this.2.2.2.2.1, this.2.2.2.2.2.2, this.2.2.2.2.2.1.trans l.dead⟩
    rw [this.1]
  obtain ⟨k2, h2, h⟩ := hc
  exact ⟨_, receive_taken f (by omega) ha h2, h.1, h.2.1, h.2.2.1, h.2.2.2.1, h.2.2.2.2.1, by simp [h.2.2.2.2.2]⟩

theorem after_cons {p : Nat} {k k1 : Ks} {e : PktEnv} {l : List PktEnv} {r : Ret} {d : Bool} (h : receive p k e = some (r, d, k1)) :
    after p k (e :: l) = after p k1 l := by simp [after, h]

theorem completes {p : Nat} {k : Ks} {g : Bool} {l : List PktEnv} (hp : k.peer = false) (hd : k.dead = false)
    (hh : ∀ h, k.hs = some h → h.expect = 0) (hpr : k.side = .client → p = CONNECTED)
    (hl : l.map (·.msg) = script k.side g) (hf : ∀ e ∈ l, Fine g e) :
    ∃ k', after p k l = some k' ∧ k'.tx = some (k.gen + 1) ∧ k'.rx = some (k.gen + 1) ∧ k'.self = false ∧ k'.peer = false ∧ k'.hs = none ∧ k'.dead = false := by
  cases l with
  | nil => cases hs : k.side <;> cases g <;> simp [hs, script] at hl
  | cons e1 l =>
  have f1 := hf e1 List.mem_cons_self
  have h1 : e1.msg = 20 := by cases hs : k.side <;> cases g <;> simp [hs, script] at hl <;> exact hl.1
  obtain ⟨k1, r1, a1⟩ := stage_init (p := p) f1 h1 hp hd hh hpr
  rw [after_cons r1]
  rw [List.map_cons, h1] at hl
  cases hs : k.side <;> cases g <;> rw [hs] at a1 hl <;>
    simp only [script, List.cons.injEq, true_and, List.map_eq_cons_iff, List.map_eq_nil_iff] at hl
  · obtain ⟨e2, _, rfl, m2, e3, _, rfl, m3, rfl⟩ := hl
    obtain ⟨k2, r2, a2⟩ := stage_reply (p := p) (hf e2 (by simp)) m2 (by simp) a1
    obtain ⟨k3, r3, h3⟩ := stage_last (p := p) (hf e3 (by simp)) m3 a2
    exact ⟨k3, by rw [after_cons r2, after_cons r3]; rfl, h3⟩
  · obtain ⟨e2, _, rfl, m2, e3, _, rfl, m3, e4, _, rfl, m4, rfl⟩ := hl
    obtain ⟨k2, r2, a2⟩ := stage_group (p := p) (hf e2 (by simp)) m2 a1
    obtain ⟨k3, r3, a3⟩ := stage_reply (p := p) (hf e3 (by simp)) m3 (by simp) a2
    obtain ⟨k4, r4, h4⟩ := stage_last (p := p) (hf e4 (by simp)) m4 a3
    exact ⟨k4, by rw [after_cons r2, after_cons r3, after_cons r4]; rfl, h4⟩
  · obtain ⟨e2, _, rfl, m2, e3, _, rfl, m3, rfl⟩ := hl
    obtain ⟨k2, r2, a2⟩ := stage_value (p := p) (hf e2 (by simp)) m2 (by simp) (.inl rfl) a1
    obtain ⟨k3, r3, h3⟩ := stage_last (p := p) (hf e3 (by simp)) m3 a2
    exact ⟨k3, by rw [after_cons r2, after_cons r3]; rfl, h3⟩
  · obtain ⟨e2, _, rfl, m2, e3, _, rfl, m3, e4, _, rfl, m4, rfl⟩ := hl
    obtain ⟨k2, r2, a2⟩ := stage_request (p := p) (hf e2 (by simp)) m2 a1
    obtain ⟨k3, r3, a3⟩ := stage_value (p := p) (hf e3 (by simp)) m3 (by simp) (.inr rfl) a2
    obtain ⟨k4, r4, h4⟩ := stage_last (p := p) (hf e4 (by simp)) m4 a3
    exact ⟨k4, by rw [after_cons r2, after_cons r3, after_cons r4]; rfl, h4⟩

/-! ## The client before `connectState` is `CONNECT_SERVER_CHANNEL_REQUEST_DONE` -/

/-- The peer is keying, nothing is awaited, and these are the keys. -/
structure Waits (h : Hs) (t r : Key) (k : Ks) : Prop where
  side : k.side = .client
  peer : k.peer = true
  hs : k.hs = some h
  tx : k.tx = t
  rx : k.rx = r

theorem Waits.of {h : Hs} {t r : Key} {k k' : Ks} (w : Waits h t r k) (h1 : k'.side = k.side) (h2 : k'.peer = k.peer) (h3 : k'.hs = k.hs)
    (h4 : k'.tx = k.tx) (h5 : k'.rx = k.rx) : Waits h t r k' :=
  ⟨h1.trans w.side, h2.trans w.peer, h3.trans w.hs, h4.trans w.tx, h5.trans w.rx⟩

theorem Waits.started {h : Hs} {t r : Key} {k : Ks} (w : Waits h t r k) (n : Nat) : Waits h t r (started n k) :=
  w.of (started_side _ _) (started_peer _ _) ((started_hs _ w.hs).trans w.hs.symm) (started_tx _ _) (started_rx _ _)

theorem Waits.note {h : Hs} {t r : Key} {k : Ks} (w : Waits h t r k) (e : Ev) : Waits h t r (k.note e) := w.of rfl rfl rfl rfl rfl

theorem Waits.ended {h : Hs} {t r : Key} {k : Ks} (w : Waits h t r k) (x : Ret) : Waits h t r (ended x k) := w.of rfl rfl rfl rfl rfl

theorem Waits.send {h : Hs} {t r : Key} {k : Ks} (w : Waits h t r k) (m : Nat) (o : Out) : Waits h t r (send m k o).2 := by
  unfold Wolf.Keying.send
  cases o.bundle with
  | some x => exact w
  | none => exact (w.note _).started _

theorem Waits.sends {h : Hs} {t r : Key} {k : Ks} (w : Waits h t r k) (l : List (Nat × Out)) : Waits h t r (sends l k) := by
  induction l generalizing k with
  | nil => exact w
  | cons x l ih => exact ih (w.send _ _)

theorem Waits.sendKexInit {h : Hs} {t r : Key} {k : Ks} (w : Waits h t r k) (e : InitEnv) : Waits h t r (sendKexInit k e).2 := by
  unfold Wolf.Keying.sendKexInit
  split
  · exact w
  · split
    · exact w.of rfl rfl rfl rfl rfl
    · refine Waits.send (k := { k with self := true, hs := some (k.hs.getD .fresh) }) ⟨w.side, w.peer, ?_, w.tx, w.rx⟩ _ _
      rw [w.hs]; rfl

theorem Waits.packetEnd {h : Hs} {t r : Key} {k : Ks} (w : Waits h t r k) (x : Ret) (hw : Fl) : Waits h t r (packetEnd x k hw).2 :=
  (w.started hw.hw).of rfl rfl rfl rfl rfl

/-- Such a client takes no message of the key exchange, whatever it is. -/
theorem Waits.allowed {h : Hs} {t r : Key} {k : Ks} (w : Waits h t r k) (h0 : h.expect = 0) (p m : Nat) :
    Waits h t r (allowed p k m).2 ∧ (20 ≤ m ∧ m ≤ 49 → (Wolf.Keying.allowed p k m).1 = false) := by
  have hx : ∀ x, (verdict k.side ⟨p, k.peer, k.hs.map (·.expect)⟩ m).2 = x → x = some 0 := by
    intro x hx
    have := filter_expect ⟨p, k.peer, k.hs.map (·.expect)⟩ m
    rw [← hx, w.side]
    rw [w.hs] at this ⊢
    have h1 := this.1
    simp only [Option.map_some, h0] at h1 ⊢
    simp only [verdict]
    rcases h1 with h1 | h1 <;> exact h1
  constructor
  · refine ⟨w.side, w.peer, ?_, w.tx, w.rx⟩
    unfold Wolf.Keying.allowed
    dsimp only
    rw [hx _ rfl, w.hs]
    obtain ⟨a, b, c, d⟩ := h
    have : a = 0 := h0
    subst this
    rfl
  · intro hm
    unfold Wolf.Keying.allowed
    dsimp only
    rw [w.side, w.peer, w.hs]
    simp only [Option.map_some, h0, verdict, MsgFilter.isMessageAllowedClient]
    rw [if_neg (by omega), if_neg (by omega), if_neg (by omega), if_pos (by omega)]
    have t7 : MsgFilter.CONNECT_CLIENT_USERAUTH_REQUEST_SENT = 7 := rfl
    have t10 : MsgFilter.CONNECT_SERVER_USERAUTH_ACCEPT_DONE = 10 := rfl
    by_cases h20 : m = 20
    · subst h20; rfl
    · have : MsgFilter.transBlock ⟨p, true, some 0⟩ m = none := by
        unfold MsgFilter.transBlock
        simp only [if_true]
        rw [if_neg h20, if_neg (by omega)]
      rw [this]
      dsimp only
      unfold MsgFilter.clientPhase
      split
      · rw [if_neg (by omega), if_neg (by omega)]
      · rw [if_neg (by omega)]

theorem Waits.receive {h : Hs} {t r : Key} {k : Ks} (w : Waits h t r k) (h0 : h.expect = 0) {p : Nat} {e : PktEnv} {x : Ret × Bool × Ks}
    (hr : receive p k e = some x) : Waits h t r x.2.2 := by
  unfold Wolf.Keying.receive at hr
  cases hio : e.io with
  | some y => rw [hio] at hr; cases hr; exact w.of rfl rfl rfl rfl rfl
  | none =>
    rw [hio] at hr
    dsimp only at hr
    obtain ⟨wa, hn⟩ := w.allowed h0 p e.msg
    generalize Wolf.Keying.allowed p k e.msg = a at hr wa hn
    obtain ⟨b, k1⟩ := a
    cases b with
    | false => cases hr; exact wa.of rfl rfl rfl rfl rfl
    | true =>
      dsimp only at hr
      rw [if_neg (by intro hm; cases hn hm)] at hr
      cases hr
      exact ((wa.note _).sends _).packetEnd _ _

/-- Past the first exchange. -/
structure Stuck (h : Hs) (t r : Key) (c : Client.Cl) : Prop where
  ks : Waits h t r c.ks
  cs : 6 ≤ c.cs

theorem client_receive_ks {c : Client.Cl} {e : Client.RxEnv} {x : Ret × Client.Cl} (h : Client.receive c e = some x) :
    ∃ y, Wolf.Keying.receive c.cs c.ks ⟨e.io, e.msg, e.kex, (Client.answer e).1, (Client.answer e).2.2, e.hw⟩ = some y ∧
      x.2.ks = y.2.2 ∧ x.2.cs = c.cs := by
  unfold Client.receive at h
  dsimp only at h
  cases hk : Wolf.Keying.receive c.cs c.ks ⟨e.io, e.msg, e.kex, (Client.answer e).1, (Client.answer e).2.2, e.hw⟩ with
  | none => rw [hk] at h; cases h
  | some y =>
    rw [hk] at h
    obtain ⟨a, b, k⟩ := y
    cases h
    exact ⟨_, rfl, rfl, rfl⟩

theorem Stuck.receive {h : Hs} {t r : Key} {c c' : Client.Cl} (w : Stuck h t r c) (h0 : h.expect = 0) {e : Client.RxEnv}
    (hr : (Client.receive c e).map (·.2) = some c') : Stuck h t r c' := by
  rw [Option.map_eq_some_iff] at hr
  obtain ⟨x, hx, rfl⟩ := hr
  obtain ⟨y, hy, h1, h2⟩ := client_receive_ks hx
  exact ⟨h1 ▸ w.ks.receive h0 hy, h2 ▸ w.cs⟩

theorem Stuck.waiting {h : Hs} {t r : Key} {c c' : Client.Cl} (w : Stuck h t r c) (h0 : h.expect = 0) {d : Bool} {n : Nat} (hn : 6 ≤ n)
    {e : Client.RxEnv} (hr : Client.waiting c d n e = some c') : Stuck h t r c' := by
  unfold Client.waiting at hr
  split at hr
  · cases hr; exact ⟨w.ks, hn⟩
  · exact w.receive h0 hr

theorem Stuck.sending {h : Hs} {t r : Key} {c : Client.Cl} (w : Stuck h t r c) {n : Nat} (hn : 6 ≤ n) {x : Ret × Ks} (hx : Waits h t r x.2) :
    Stuck h t r (Client.sending c n x) := by
  refine ⟨hx.ended _, ?_⟩
  show 6 ≤ if x.1 = none then n else c.cs
  split
  · exact hn
  · exact w.cs

theorem Stuck.connect {h : Hs} {t r : Key} {c c' : Client.Cl} (w : Stuck h t r c) (h0 : h.expect = 0) {e : Client.CEnv}
    (hr : Client.connect c e = some c') : Stuck h t r c' := by
  have hc := w.cs
  unfold Client.connect at hr
  split at hr
  all_goals first
    | (exfalso; omega)
    | exact w.waiting h0 (by omega) hr
    | (cases hr; exact w.sending (by omega) (w.ks.send _ _))
    | (cases hr; exact w)
    | (cases hr
       split
       · exact w.sending (by omega) (w.ks.send _ _)
       · exact ⟨w.ks, by dsimp only; omega⟩)

theorem Stuck.step {h : Hs} {t r : Key} {c c' : Client.Cl} (w : Stuck h t r c) (h0 : h.expect = 0) {i : Client.In}
    (hs : Client.step c i = some c') : Stuck h t r c' := by
  cases i with
  | connect e => exact w.connect h0 hs
  | flush f =>
    cases hs
    unfold Client.flush
    dsimp only
    split
    · refine ⟨(w.ks.started _).ended _, ?_⟩
      have := w.cs
      dsimp only
      split <;> omega
    · exact w
  | receive e => exact w.receive h0 hs
  | start e => cases hs; exact ⟨(w.ks.sendKexInit e).ended _, w.cs⟩
  | send m o => cases hs; exact ⟨w.ks.send m o, w.cs⟩

theorem Stuck.later {h : Hs} {t r : Key} {c c' : Client.Cl} (w : Stuck h t r c) (h0 : h.expect = 0) (hl : Spec.Client.Later c c') : Stuck h t r c' := by
  induction hl with
  | now => exact w
  | step _ hs ih => exact ih.step h0 hs

theorem Waits.ownInit {h : Hs} {t r : Key} {k : Ks} (w : Waits h t r k) (e : InitEnv) : Waits h t r (ownInit k e).2 := by
  unfold Wolf.Keying.ownInit
  split
  · exact w
  · exact w.sendKexInit e

theorem Waits.kexInitEnd {h : Hs} {t r : Key} {k : Ks} (w : Waits h t r k) (e : KexInitEnv) (x : Ret) : Waits h t r (kexInitEnd e x k).2 := by
  unfold Wolf.Keying.kexInitEnd
  split
  · exact w.send _ _
  · exact w

/-- A `SSH_MSG_KEXINIT` in the middle of the opening gets the client stuck. -/
theorem stuck_of_init {c c' : Client.Cl} {e : Client.RxEnv} (hc : c.ks.side = .client) (h6 : 6 ≤ c.cs) (h16 : c.cs < 16) (hp : c.ks.peer = false)
    (hh : ∀ h, c.ks.hs = some h → h.expect = 0) (hio : e.io = none) (hm : e.msg = 20) (hal : e.kex.init.alloc = true)
    (hs : Client.step c (.receive e) = some c') : ∃ h, h.expect = 0 ∧ Stuck h c.ks.tx c.ks.rx c' := by
  have hs : (Client.receive c e).map (·.2) = some c' := hs
  rw [Option.map_eq_some_iff] at hs
  obtain ⟨x, hx, rfl⟩ := hs
  obtain ⟨y, hy, h1, h2⟩ := client_receive_ks hx
  unfold Wolf.Keying.receive at hy
  rw [hio, hm] at hy
  dsimp only at hy
  rw [allowed_init hp] at hy
  dsimp only at hy
  rw [if_pos (by omega)] at hy
  unfold kexCase at hy
  rw [if_pos rfl] at hy
  unfold kexInitCase at hy
  dsimp only at hy
  have key : ∃ h, h.expect = 0 ∧ Waits h c.ks.tx c.ks.rx (doKexInit (c.ks.note (.acted 20 c.ks.rx)) e.kex.init).2.2 := by
    unfold doKexInit
    rw [if_neg (by show ¬c.ks.peer = true; rw [hp]; simp), if_neg (by rw [hal]; simp)]
    dsimp only
    have w : ∃ h, h.expect = 0 ∧ Waits h c.ks.tx c.ks.rx ((c.ks.note (.acted 20 c.ks.rx)).taken e.kex.init.gex e.kex.init.skip) := by
      refine ⟨{ c.ks.hs.getD .fresh with gex := e.kex.init.gex, skip := e.kex.init.skip }, ?_, hc, rfl, rfl, rfl, rfl⟩
      show (c.ks.hs.getD .fresh).expect = 0
      cases hk : c.ks.hs with
      | none => rfl
      | some h => exact hh h hk
    obtain ⟨h, h0, w⟩ := w
    refine ⟨h, h0, ?_⟩
    cases e.kex.init.parse with
    | some x => exact w.kexInitEnd _ _
    | none =>
      dsimp only
      refine Waits.kexInitEnd ?_ _ _
      have wo := w.ownInit e.kex.init.start
      unfold kexInitReply
      dsimp only
      split
      · cases e.kex.init.hash <;> exact wo
      · exact wo
  obtain ⟨h, h0, w⟩ := key
  refine ⟨h, h0, ?_, by rw [h2]; exact h6⟩
  rw [if_neg (by
    intro hh
    have := hh.2.2.2
    have t : CONNECTED = 16 := rfl
    omega)] at hy
  rw [h1]
  cases hy
  exact w.packetEnd _ _

end Proofs.Rekey
