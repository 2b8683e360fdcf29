import Verif.Spec.Keying
/-!
# Keying: invariants
-/

namespace Proofs.Keying
open Wolf Wolf.Keying Spec.Keying
open Wolf.UserAuth (Ret)

theorem orderly_nil (s : Side) : Orderly s [] := by
  intro l e b h; simp at h

theorem orderly_cons {s : Side} {e : Ev} {l : List Ev} (hl : Orderly s l) (he : Proper s e l) : Orderly s (e :: l) := by
  intro later x b h
  cases later with
  | nil => simp at h; obtain ⟨rfl, rfl⟩ := h; exact he
  | cons y ys => simp at h; exact hl ys x b h.2

/-- What a client waits for. -/
def Awaited (x : Nat) : Prop := x = 0 ∨ x = 21 ∨ x = 31 ∨ x = 33

/-- What holds of a session that has not ended, between any two actions. -/
structure Live (k : Ks) : Prop where
  hist : Orderly k.side k.log
  tx : k.tx = lastTx k.log
  rx : k.rx = lastRx k.log
  txMax : ∀ m, Ev.newTx (some m) ∈ k.log → m ≤ k.gen
  rxMax : ∀ m, Ev.newRx (some m) ∈ k.log → m ≤ k.gen
  rxOld : ∀ h n, k.hs = some h → h.keys = some n → ∀ m, Ev.newRx (some m) ∈ k.log → m < n
  keys : ∀ h n, k.hs = some h → h.keys = some n → n = k.gen ∧ Ev.newTx (some n) ∈ k.log
  turn : k.peer = true → k.self = false → ∃ h n, k.hs = some h ∧ h.keys = some n
  want : k.side = .client → ∀ h, k.hs = some h → Awaited h.expect

theorem live_init (s : Side) : Live (Ks.init s) := by
  constructor <;> simp [Ks.init, lastTx, lastRx, orderly_nil, Hs.fresh]
  · intro h n; rintro rfl; simp
  · intro _; exact .inl rfl

/-- Recording something that is neither a change of keys nor improper. -/
theorem Live.note {k : Ks} (h : Live k) {e : Ev} (hp : Proper k.side e k.log)
    (h1 : ∀ x, e ≠ .newTx x) (h2 : ∀ x, e ≠ .newRx x) : Live (k.note e) := by
  have t1 : ∀ m, Ev.newTx (some m) ∈ e :: k.log → Ev.newTx (some m) ∈ k.log := by
    intro m hm
    rcases List.mem_cons.1 hm with h | h
    · exact absurd h.symm (h1 _)
    · exact h
  have t2 : ∀ m, Ev.newRx (some m) ∈ e :: k.log → Ev.newRx (some m) ∈ k.log := by
    intro m hm
    rcases List.mem_cons.1 hm with h | h
    · exact absurd h.symm (h2 _)
    · exact h
  refine ⟨orderly_cons h.hist hp, ?_, ?_, ?_, ?_, ?_, ?_, h.turn, h.want⟩
  · show k.tx = lastTx (e :: k.log)
    rw [h.tx]
    cases e <;> first | rfl | exact absurd rfl (h1 _)
  · show k.rx = lastRx (e :: k.log)
    rw [h.rx]
    cases e <;> first | rfl | exact absurd rfl (h2 _)
  · exact fun m hm => h.txMax m (t1 m hm)
  · exact fun m hm => h.rxMax m (t2 m hm)
  · exact fun a n ha hn m hm => h.rxOld a n ha hn m (t2 m hm)
  · exact fun a n ha hn => ⟨(h.keys a n ha hn).1, List.mem_cons_of_mem _ (h.keys a n ha hn).2⟩

theorem Live.sent {k : Ks} (h : Live k) (m : Nat) : Live (k.note (.sent m k.tx)) :=
  h.note h.tx (by simp) (by simp)

theorem Live.acted {k : Ks} (h : Live k) (m : Nat) : Live (k.note (.acted m k.rx)) :=
  h.note h.rx (by simp) (by simp)

/-- Starting an exchange: a handshake without keys, if there is none. -/
theorem Live.begin {k : Ks} (h : Live k) :
    Live { k with self := true, hs := some (k.hs.getD .fresh) } := by
  refine ⟨h.hist, h.tx, h.rx, h.txMax, h.rxMax, ?_, ?_, by simp, ?_⟩
  · intro a n ha hn
    cases hk : k.hs with
    | none => simp [hk, Hs.fresh] at ha; subst ha; cases hn
    | some b => simp [hk] at ha; subst ha; exact h.rxOld b n hk hn
  · intro a n ha hn
    cases hk : k.hs with
    | none => simp [hk, Hs.fresh] at ha; subst ha; cases hn
    | some b => simp [hk] at ha; subst ha; exact h.keys b n hk hn
  · intro hc a ha
    cases hk : k.hs with
    | none => simp [hk, Hs.fresh] at ha; subst ha; exact .inl rfl
    | some b => simp [hk] at ha; subst ha; exact h.want hc b hk

theorem Live.self {k : Ks} (h : Live k) : Live { k with self := true } :=
  ⟨h.hist, h.tx, h.rx, h.txMax, h.rxMax, h.rxOld, h.keys, by simp, h.want⟩

/-- A change of the handshake that keeps its keys. -/
theorem Live.setHs {k : Ks} {h : Hs} (l : Live k) (hk : k.hs = some h) (h' : Hs) (he : h'.keys = h.keys)
    (hw : k.side = .client → Awaited h'.expect) :
    Live { k with hs := some h' } := by
  refine ⟨l.hist, l.tx, l.rx, l.txMax, l.rxMax, ?_, ?_, ?_, ?_⟩
  · intro a n ha hn; simp at ha; subst ha; exact l.rxOld h n hk (he ▸ hn)
  · intro a n ha hn; simp at ha; subst ha; exact l.keys h n hk (he ▸ hn)
  · intro hp hs
    obtain ⟨a, n, ha, hn⟩ := l.turn hp hs
    rw [hk] at ha; cases ha
    exact ⟨h', n, rfl, he.trans hn⟩
  · intro hc a ha; simp at ha; subst ha; exact hw hc

theorem Live.setDead {k : Ks} (h : Live k) (b : Bool) : Live { k with dead := b } :=
  ⟨h.hist, h.tx, h.rx, h.txMax, h.rxMax, h.rxOld, h.keys, h.turn, h.want⟩

theorem Live.started {k : Ks} (h : Live k) (n : Nat) : Live (started n k) := by
  induction n generalizing k with
  | zero => exact h
  | succ n ih =>
    refine ih ?_
    exact (h.sent 20).begin

theorem started_side (n : Nat) (k : Ks) : (started n k).side = k.side := by
  induction n generalizing k with
  | zero => rfl
  | succ n ih => rw [started, ih]; rfl
theorem started_gen (n : Nat) (k : Ks) : (started n k).gen = k.gen := by
  induction n generalizing k with
  | zero => rfl
  | succ n ih => rw [started, ih]; rfl
theorem started_peer (n : Nat) (k : Ks) : (started n k).peer = k.peer := by
  induction n generalizing k with
  | zero => rfl
  | succ n ih => rw [started, ih]; rfl
theorem started_tx (n : Nat) (k : Ks) : (started n k).tx = k.tx := by
  induction n generalizing k with
  | zero => rfl
  | succ n ih => rw [started, ih]; rfl
theorem started_rx (n : Nat) (k : Ks) : (started n k).rx = k.rx := by
  induction n generalizing k with
  | zero => rfl
  | succ n ih => rw [started, ih]; rfl
theorem started_dead (n : Nat) (k : Ks) : (started n k).dead = k.dead := by
  induction n generalizing k with
  | zero => rfl
  | succ n ih => rw [started, ih]; rfl
theorem started_hs (n : Nat) {k : Ks} {h : Hs} (hk : k.hs = some h) : (started n k).hs = some h := by
  induction n generalizing k with
  | zero => exact hk
  | succ n ih => rw [started]; exact ih (by simp [hk])
theorem started_self (n : Nat) {k : Ks} (hk : k.self = true) : (started n k).self = true := by
  induction n generalizing k with
  | zero => exact hk
  | succ n ih => rw [started]; exact ih rfl

theorem started_setSelf (n : Nat) (k : Ks) (a b : Bool) :
    { started n { k with self := a } with self := b } = { started n k with self := b } := by
  cases n with
  | zero => rfl
  | succ n => rfl

theorem Live.send {k : Ks} (h : Live k) (m : Nat) (o : Out) : Live (send m k o).2 := by
  unfold Wolf.Keying.send
  cases o.bundle with
  | some e => exact h
  | none => exact (h.sent m).started _

theorem send_side (m : Nat) (k : Ks) (o : Out) : (send m k o).2.side = k.side := by
  unfold Wolf.Keying.send
  cases o.bundle with
  | some e => rfl
  | none => exact started_side _ _
theorem send_dead (m : Nat) (k : Ks) (o : Out) : (send m k o).2.dead = k.dead := by
  unfold Wolf.Keying.send
  cases o.bundle with
  | some e => rfl
  | none => exact started_dead _ _
theorem send_peer (m : Nat) (k : Ks) (o : Out) : (send m k o).2.peer = k.peer := by
  unfold Wolf.Keying.send
  cases o.bundle with
  | some e => rfl
  | none => exact started_peer _ _

theorem Live.sendExpect {k : Ks} {hs : Hs} (h : Live k) (hk : k.hs = some hs) (m x : Nat) (o : Out)
    (hw : k.side = .client → Awaited x) : Live (sendExpect m x k hs o).2 := by
  unfold Wolf.Keying.sendExpect
  cases o.bundle with
  | some e => exact h
  | none => exact ((h.sent m).setHs (h' := { hs with expect := x }) hk rfl hw).started _

theorem Live.sendKexInit {k : Ks} (h : Live k) (e : InitEnv) : Live (sendKexInit k e).2 := by
  unfold Wolf.Keying.sendKexInit
  split
  · exact h
  · split
    · exact h.self
    · exact h.begin.send 20 e.out

theorem Live.sendKexDhInit {k : Ks} {hs : Hs} (h : Live k) (hk : k.hs = some hs) (e : DhEnv) :
    Live (sendKexDhInit k hs e).2 := by
  unfold Wolf.Keying.sendKexDhInit
  cases e.crypto with
  | some e => exact h
  | none =>
    dsimp only
    split
    · exact h.sendExpect hk _ _ _ (fun _ => by simp [Awaited])
    · exact h.sendExpect hk _ _ _ (fun _ => by simp [Awaited])

theorem Live.sendKexDh {k : Ks} {hs : Hs} (h : Live k) (hk : k.hs = some hs) (e : DhEnv) :
    Live (sendKexDh k hs e).2 := by
  unfold Wolf.Keying.sendKexDh
  split
  · exact h.sendExpect hk _ _ _ (fun _ => by simp [Awaited])
  · exact h.sendKexDhInit hk e

theorem Live.adjust {k : Ks} (h : Live k) (os : List Out) : Live (adjust os k).2 := by
  induction os generalizing k with
  | nil => exact h
  | cons o os ih =>
    unfold Wolf.Keying.adjust
    split
    · exact h
    · exact ih (h.send 93 o)

theorem Live.sends {k : Ks} (h : Live k) (l : List (Nat × Out)) : Live (sends l k) := by
  induction l generalizing k with
  | nil => exact h
  | cons x l ih => exact ih (h.send x.1 x.2)

/-- What holds of every session, ended or not. -/
structure Base (k : Ks) : Prop where
  hist : Orderly k.side k.log
  tx : k.tx = lastTx k.log

theorem Live.base {k : Ks} (h : Live k) : Base k := ⟨h.hist, h.tx⟩

theorem Base.sent {k : Ks} (h : Base k) (m : Nat) : Base (k.note (.sent m k.tx)) :=
  ⟨orderly_cons h.hist h.tx, h.tx⟩

theorem Base.started {k : Ks} (h : Base k) (n : Nat) : Base (started n k) := by
  induction n generalizing k with
  | zero => exact h
  | succ n ih => exact ih ⟨(h.sent 20).hist, (h.sent 20).tx⟩

theorem Base.send {k : Ks} (h : Base k) (m : Nat) (o : Out) : Base (send m k o).2 := by
  unfold Wolf.Keying.send
  cases o.bundle with
  | some e => exact h
  | none => exact (h.sent m).started _

theorem Base.sendExpect {k : Ks} (h : Base k) (hs : Hs) (m x : Nat) (o : Out) : Base (sendExpect m x k hs o).2 := by
  unfold Wolf.Keying.sendExpect
  cases o.bundle with
  | some e => exact h
  | none => exact Base.started (k := { k.note (.sent m k.tx) with hs := some { hs with expect := x } }) ⟨(h.sent m).hist, (h.sent m).tx⟩ _

theorem Base.sendKexDh {k : Ks} (h : Base k) (hs : Hs) (e : DhEnv) : Base (sendKexDh k hs e).2 := by
  unfold Wolf.Keying.sendKexDh
  split
  · exact h.sendExpect _ _ _ _
  · unfold Wolf.Keying.sendKexDhInit
    cases e.crypto with
    | some e => exact h
    | none =>
      dsimp only
      split
      · exact h.sendExpect _ _ _ _
      · exact h.sendExpect _ _ _ _

/-- What a call leaves: an orderly history, and a live session unless its code ends the session. -/
structure Leaves (c : Prop) (r : Ret) (k : Ks) : Prop where
  hist : Orderly k.side k.log
  tx : c → k.tx = lastTx k.log
  live : Session.usable r = true → Live k

theorem Live.leaves {k : Ks} (h : Live k) {c : Prop} (r : Ret) : Leaves c r k := ⟨h.hist, fun _ => h.tx, fun _ => h⟩

/-- The code of a failure that ends the session. -/
theorem firm_some {x : Err} (h : Firm (some x)) : Session.usable (some x) = false := by
  rcases h with h | h
  · cases h
  · exact h

/-- A session in which keys have just been derived. -/
structure Derived (k : Ks) (h : Hs) : Prop where
  hist : Orderly k.side k.log
  tx : k.tx = lastTx k.log
  rx : k.rx = lastRx k.log
  hs : k.hs = some h
  keys : h.keys = some k.gen
  peer : k.peer = true
  txMax : ∀ m, Ev.newTx (some m) ∈ k.log → m < k.gen
  rxMax : ∀ m, Ev.newRx (some m) ∈ k.log → m < k.gen
  derived : Ev.derived k.gen ∈ k.log
  want : k.side = .client → Awaited h.expect
  proof : k.side = .client → Ev.accepted k.gen ∈ k.log ∧ Ev.verified k.gen ∈ k.log

theorem Derived.leaves {k : Ks} {h : Hs} (d : Derived k h) {c : Prop} {r : Ret} (hr : Session.usable r = false) : Leaves c r k :=
  ⟨d.hist, fun _ => d.tx, fun hu => by rw [hr] at hu; cases hu⟩

/-- Sending keeps that. -/
theorem Derived.sent {k : Ks} {h : Hs} (d : Derived k h) (m : Nat) : Derived (k.note (.sent m k.tx)) h := by
  refine ⟨orderly_cons d.hist d.tx, d.tx, d.rx, d.hs, d.keys, d.peer, ?_, ?_, ?_, d.want, ?_⟩
  · intro x hx; rcases List.mem_cons.1 hx with h | h
    · cases h
    · exact d.txMax x h
  · intro x hx; rcases List.mem_cons.1 hx with h | h
    · cases h
    · exact d.rxMax x h
  · exact List.mem_cons_of_mem _ d.derived
  · exact fun hc => ⟨List.mem_cons_of_mem _ (d.proof hc).1, List.mem_cons_of_mem _ (d.proof hc).2⟩

theorem Derived.sendNewKeys {k : Ks} {h : Hs} (d : Derived k h) (e : NkEnv) (h1 : Firm e.out.bundle) (h2 : Firm e.cipher) :
    Leaves (e.cipher = none) (sendNewKeys k h e).1 (sendNewKeys k h e).2 := by
  unfold Wolf.Keying.sendNewKeys
  cases hb : e.out.bundle with
  | some x => exact d.leaves (firm_some (hb ▸ h1))
  | none =>
    dsimp only
    cases hc : e.cipher with
    | some x =>
      refine ⟨(d.sent 21).hist, fun h => (by cases h), fun hu => ?_⟩
      rw [firm_some (hc ▸ h2)] at hu; cases hu
    | none =>
      dsimp only
      have d1 := d.sent 21
      -- the state after the keys are put in use, as if own keying went on
      have l1 : Live { { (k.note (.sent 21 k.tx)).note (.newTx h.keys) with tx := h.keys } with self := true } := by
        refine ⟨?_, ?_, ?_, ?_, ?_, ?_, ?_, by simp, ?_⟩
        · refine orderly_cons d1.hist ?_
          exact ⟨k.gen, k.tx, k.log, d.keys, rfl, d1.derived, d1.txMax, d1.proof⟩
        · rfl
        · exact d1.rx
        · intro m hm
          rcases List.mem_cons.1 hm with hm | hm
          · rw [d.keys] at hm; cases hm; exact Nat.le_refl _
          · exact Nat.le_of_lt (d1.txMax m hm)
        · intro m hm
          rcases List.mem_cons.1 hm with hm | hm
          · cases hm
          · exact Nat.le_of_lt (d1.rxMax m hm)
        · intro a n ha hn m hm
          have : a = h := by have := d.hs; simp [Ks.note] at ha; rw [this] at ha; cases ha; rfl
          subst this
          rw [d.keys] at hn; cases hn
          rcases List.mem_cons.1 hm with hm | hm
          · cases hm
          · exact d1.rxMax m hm
        · intro a n ha hn
          have : a = h := by have := d.hs; simp [Ks.note] at ha; rw [this] at ha; cases ha; rfl
          subst this
          rw [d.keys] at hn; cases hn
          refine ⟨rfl, ?_⟩
          rw [d.keys]; exact List.mem_cons_self
        · intro hc a ha
          have : a = h := by have := d.hs; simp [Ks.note] at ha; rw [this] at ha; cases ha; rfl
          subst this
          exact d.want hc
      have l2 := l1.started e.out.fl.hw
      have l3 : Live { started e.out.fl.hw { (k.note (.sent 21 k.tx)).note (.newTx h.keys) with tx := h.keys } with self := false } := by
        rw [← started_setSelf _ _ true]
        refine ⟨l2.hist, l2.tx, l2.rx, l2.txMax, l2.rxMax, l2.rxOld, l2.keys, fun _ _ => ?_, l2.want⟩
        exact ⟨h, k.gen, started_hs _ (by exact d.hs), d.keys⟩
      exact (l3.adjust e.adj).leaves _

theorem Live.doNewKeys {k : Ks} (h : Live k) (hp : k.peer = true) (hl : ∃ rest, k.log = .acted 21 k.rx :: rest) (e : KexEnv)
    (hc : Firm e.cipher) : Leaves (e.nk.cipher = none) (doNewKeys k e).1 (doNewKeys k e).2 := by
  unfold Wolf.Keying.doNewKeys
  cases hh : k.hs with
  | none => exact h.leaves _
  | some a =>
    dsimp only
    by_cases he : e.empty = false
    · rw [if_pos he]; exact h.leaves _
    rw [if_neg he]
    by_cases hs : k.self = true
    · rw [if_pos hs]; exact h.leaves _
    rw [if_neg hs]
    cases hci : e.cipher with
    | some x =>
      refine ⟨h.hist, fun _ => h.tx, fun hu => ?_⟩
      rw [firm_some (hci ▸ hc)] at hu; cases hu
    | none =>
      dsimp only
      obtain ⟨b, n, hb, hn⟩ := h.turn hp (by simpa using hs)
      rw [hh] at hb; cases hb
      obtain ⟨hg, ht⟩ := h.keys a n hh hn
      obtain ⟨rest, hrest⟩ := hl
      refine Live.leaves (Live.adjust ?_ _) _
      refine ⟨?_, h.tx, rfl, ?_, ?_, ?_, ?_, by simp, by simp⟩
      · exact orderly_cons h.hist ⟨n, k.rx, rest, hn, hrest, ht, h.rxOld a n hh hn⟩
      · intro m hm
        rcases List.mem_cons.1 hm with hm | hm
        · cases hm
        · exact h.txMax m hm
      · intro m hm
        rcases List.mem_cons.1 hm with hm | hm
        · rw [hn] at hm; cases hm; exact Nat.le_of_eq hg
        · exact h.rxMax m hm
      · intro a n ha; cases ha
      · intro a n ha; cases ha

theorem Live.doKexDhReply {k : Ks} (l : Live k) (hp : k.peer = true) {h : Hs} (hh : k.hs = some h) (e : KexEnv) (hs : e.Sane) :
    Leaves (e.nk.cipher = none) (doKexDhReply k h e).1 (doKexDhReply k h e).2 := by
  unfold Wolf.Keying.doKexDhReply
  by_cases h1 : e.empty = true
  · rw [if_pos h1]; exact l.leaves _
  rw [if_neg h1]
  by_cases h2 : h.skip = true
  · rw [if_pos h2]; exact (l.setHs hh { h with skip := false } rfl (fun hc => l.want hc h hh)).leaves _
  rw [if_neg h2]
  cases e.parse with
  | some x => exact l.leaves _
  | none =>
  dsimp only
  by_cases h3 : e.check = false
  · rw [if_pos h3]; exact l.leaves _
  rw [if_neg h3]
  have l1 : Live (k.note (.accepted k.ex)) := l.note trivial (by simp) (by simp)
  cases e.agree with
  | some x => exact l1.leaves _
  | none =>
  dsimp only
  by_cases h4 : e.sig = false
  · rw [if_pos h4]; exact l1.leaves _
  rw [if_neg h4]
  have l2 : Live ((k.note (.accepted k.ex)).note (.verified k.ex)) := l1.note trivial (by simp) (by simp)
  cases e.derive with
  | some x => exact l2.leaves _
  | none =>
  refine Derived.sendNewKeys ?_ e.nk hs.nkBundle hs.nkCipher
  have l3 : Live (((k.note (.accepted k.ex)).note (.verified k.ex)).note (.derived k.ex)) := l2.note trivial (by simp) (by simp)
  refine ⟨l3.hist, l3.tx, l3.rx, rfl, rfl, hp, ?_, ?_, List.mem_cons_self, fun _ => by simp [Awaited], fun _ => ⟨?_, ?_⟩⟩
  · exact fun m hm => Nat.lt_succ_of_le (l3.txMax m hm)
  · exact fun m hm => Nat.lt_succ_of_le (l3.rxMax m hm)
  · exact List.mem_cons_of_mem _ (List.mem_cons_of_mem _ List.mem_cons_self)
  · exact List.mem_cons_of_mem _ List.mem_cons_self

theorem Live.doGexGroup {k : Ks} (l : Live k) {h : Hs} (hh : k.hs = some h) (e : KexEnv) :
    Live (doGexGroup k h e).2 := by
  unfold Wolf.Keying.doGexGroup
  by_cases h1 : e.empty = true
  · rw [if_pos h1]; exact l
  rw [if_neg h1]
  by_cases h2 : h.skip = true
  · rw [if_pos h2]; exact (l.setHs hh { h with skip := false } rfl (fun hc => l.want hc h hh))
  rw [if_neg h2]
  cases e.parse with
  | some x => exact l
  | none => exact l.sendKexDhInit hh e.dh

theorem Live.doGexRequest {k : Ks} (l : Live k) (hc : k.side = .server) {h : Hs} (hh : k.hs = some h) (e : KexEnv) :
    Live (doGexRequest k h e).2 := by
  unfold Wolf.Keying.doGexRequest
  by_cases h1 : e.empty = true
  · rw [if_pos h1]; exact l
  rw [if_neg h1]
  by_cases h2 : h.skip = true
  · rw [if_pos h2]; exact (l.setHs hh { h with skip := false } rfl (fun hc => l.want hc h hh))
  rw [if_neg h2]
  cases e.parse with
  | some x => exact l
  | none => exact l.sendExpect hh _ _ _ (fun h => by rw [hc] at h; cases h)

theorem Live.sendKexDhReply {k : Ks} (l : Live k) (hc : k.side = .server) (hp : k.peer = true) {h : Hs} (e : KexEnv) (hs : e.Sane) :
    Leaves (e.nk.cipher = none) (sendKexDhReply k h e).1 (sendKexDhReply k h e).2 := by
  unfold Wolf.Keying.sendKexDhReply
  cases e.agree with
  | some x => exact l.leaves _
  | none =>
  cases e.derive with
  | some x => exact l.leaves _
  | none =>
  dsimp only
  have l3 : Live (k.note (.derived k.ex)) := l.note trivial (by simp) (by simp)
  have d : ∀ x, Derived (k.derive { h with keys := some k.ex, expect := x })
      { h with keys := some k.ex, expect := x } := by
    intro x
    refine ⟨l3.hist, l3.tx, l3.rx, rfl, rfl, hp, ?_, ?_, List.mem_cons_self, ?_, ?_⟩
    · exact fun m hm => Nat.lt_succ_of_le (l3.txMax m hm)
    · exact fun m hm => Nat.lt_succ_of_le (l3.rxMax m hm)
    · intro hc'; rw [show k.side = Side.client from hc'] at hc; cases hc
    · intro hc'; rw [show k.side = Side.client from hc'] at hc; cases hc
  cases hb : e.dh.out.bundle with
  | some x => exact (d h.expect).leaves (firm_some (hb ▸ hs.bundle))
  | none =>
  dsimp only
  have f := ((d 21).sent (if h.gex = true then 33 else 31)).sendNewKeys e.nk hs.nkBundle hs.nkCipher
  generalize hr : Wolf.Keying.sendNewKeys _ _ e.nk = r
  have f' : Leaves (e.nk.cipher = none) r.1 r.2 := by rw [← hr]; exact f
  obtain ⟨r1, r2⟩ := r
  cases r1 with
  | some x => cases e.ext <;> exact f'
  | none =>
    cases e.ext with
    | none => exact f'
    | some o => exact ((f'.live rfl).send 7 o).leaves _

theorem Live.doKexDhInit {k : Ks} (l : Live k) (hc : k.side = .server) (hp : k.peer = true) {h : Hs} (hh : k.hs = some h) (e : KexEnv) (hs : e.Sane) :
    Leaves (e.nk.cipher = none) (doKexDhInit k h e).1 (doKexDhInit k h e).2 := by
  unfold Wolf.Keying.doKexDhInit
  by_cases h1 : e.empty = true
  · rw [if_pos h1]; exact l.leaves _
  rw [if_neg h1]
  by_cases h2 : h.skip = true
  · rw [if_pos h2]; exact (l.setHs hh { h with skip := false } rfl (fun hc => l.want hc h hh)).leaves _
  rw [if_neg h2]
  cases e.parse with
  | some x => exact l.leaves _
  | none => exact l.sendKexDhReply hc hp e hs
theorem kexInitEnd_leaves {k : Ks} (r : Ret) (e : KexInitEnv) (hb : Base k) (hl : Session.usable r = true → Live k) :
    Base (kexInitEnd e r k).2 ∧ (Session.usable (kexInitEnd e r k).1 = true → Live (kexInitEnd e r k).2) := by
  unfold kexInitEnd
  split
  · exact ⟨hb.send _ _, fun h => (hl h).send _ _⟩
  · exact ⟨hb, hl⟩

theorem sendKexInit_self {k : Ks} (e : InitEnv) : (sendKexInit k e).1 = some .badArgument ∧ (sendKexInit k e).2 = k ∨ (sendKexInit k e).2.self = true := by
  unfold sendKexInit
  split
  · exact .inl ⟨rfl, rfl⟩
  · split
    · exact .inr rfl
    · refine .inr ?_
      unfold Wolf.Keying.send
      cases e.out.bundle with
      | some x => rfl
      | none => exact started_self _ rfl

/-- A session in which the peer's `SSH_MSG_KEXINIT` has just been taken. -/
theorem Live.taken {k : Ks} (l : Live k) (g s : Bool) :
    Live { k.taken g s with self := true } := by
  have l1 := l.begin
  have l2 := l1.setHs (h := k.hs.getD .fresh) rfl { k.hs.getD .fresh with gex := g, skip := s } rfl (fun hc => l1.want hc (k.hs.getD .fresh) rfl)
  exact ⟨l2.hist, l2.tx, l2.rx, l2.txMax, l2.rxMax, l2.rxOld, l2.keys, by simp, l2.want⟩

theorem ownInit_leaves {k : Ks} (l : Live { k with self := true }) (hh : k.hs.isSome = true) (e : InitEnv) :
    Base (ownInit k e).2 ∧ (Session.usable (ownInit k e).1 = true → Live (ownInit k e).2) := by
  by_cases hs : k.self = true
  · have h1 : ownInit k e = (none, k) := if_pos hs
    have h2 : Live k := by
      have : ({ k with self := true } : Ks) = k := by rw [← hs]
      rw [this] at l; exact l
    rw [h1]
    exact ⟨h2.base, fun _ => h2⟩
  · have h1 : ownInit k e = sendKexInit k e := if_neg hs
    rw [h1]
    unfold sendKexInit
    split
    · exact ⟨⟨l.hist, l.tx⟩, fun h => by cases h⟩
    · have hn : k.hs.isNone = false := by cases h : k.hs with
        | none => rw [h] at hh; cases hh
        | some a => rfl
      rw [if_neg (by rw [hn]; simp)]
      have := l.begin.send 20 e.out
      exact ⟨this.base, fun _ => this⟩

theorem kexInitReply_leaves {k : Ks} (l : Live { k with self := true }) (hh : k.hs.isSome = true) (e : KexInitEnv) :
    Base (kexInitReply k e).2.2 ∧ (Session.usable (kexInitReply k e).1 = true → Live (kexInitReply k e).2.2) := by
  have s1 := ownInit_leaves l hh e.start
  unfold kexInitReply
  generalize ownInit k e.start = rk at s1 ⊢
  dsimp only at s1 ⊢
  by_cases h : rk.1 = none ∨ rk.1 = some .wantWrite
  · rw [if_pos h]
    have hu : Session.usable rk.1 = true := by
      rcases h with h | h <;> rw [h] <;> rfl
    cases e.hash with
    | some x => exact ⟨s1.1, fun _ => s1.2 hu⟩
    | none => exact ⟨s1.1, fun _ => s1.2 hu⟩
  · rw [if_neg h]; exact s1

theorem Live.doKexInit {k : Ks} (l : Live k) (e : KexInitEnv) (hf : Firm e.parse) :
    Base (doKexInit k e).2.2 ∧ (Session.usable (doKexInit k e).1 = true → Live (doKexInit k e).2.2) := by
  unfold Wolf.Keying.doKexInit
  by_cases h1 : k.peer = true
  · rw [if_pos h1]; exact ⟨l.base, fun _ => l⟩
  rw [if_neg h1]
  by_cases h2 : k.hs.isNone = true ∧ e.alloc = false
  · rw [if_pos h2]; exact ⟨⟨l.hist, l.tx⟩, fun h => by cases h⟩
  rw [if_neg h2]
  dsimp only
  have l1 := l.taken e.gex e.skip
  cases hp : e.parse with
  | some x =>
    refine kexInitEnd_leaves _ _ ⟨l.hist, l.tx⟩ (fun h => ?_)
    rw [firm_some (hp ▸ hf)] at h; cases h
  | none =>
    have key := kexInitReply_leaves (k := k.taken e.gex e.skip) l1 rfl e
    exact kexInitEnd_leaves _ _ key.1 key.2

theorem kexInitCase_leaves {k : Ks} (l : Live k) (p : Nat) (e : KexEnv) (hf : Firm e.init.parse) {r : Ret} {d : Bool} {k' : Ks}
    (hr : kexInitCase p k e = some (r, d, k')) : Base k' ∧ (Session.usable r = true → Live k') := by
  have h := l.doKexInit e.init hf
  unfold kexInitCase at hr
  generalize Wolf.Keying.doKexInit k e.init = x at h hr
  obtain ⟨r0, d0, k0⟩ := x
  dsimp only at h hr
  split at hr
  · cases hh : k0.hs with
    | none => rw [hh] at hr; cases hr
    | some a =>
      rw [hh] at hr
      simp only [Option.some.injEq, Prod.mk.injEq] at hr
      obtain ⟨rfl, rfl, rfl⟩ := hr
      exact ⟨h.1.sendKexDh _ _, fun hu => (h.2 hu).sendKexDh hh _⟩
  · cases hr; exact h

theorem kexCase_leaves {k : Ks} (l : Live k) (p m : Nat) (e : KexEnv) (hs : e.Sane) {r : Ret} {d : Bool} {k' : Ks}
    (hp : m ≠ 20 → k.peer = true) (hl : m = 21 → ∃ rest, k.log = .acted 21 k.rx :: rest)
    (hc : k.side = .client → m = 20 ∨ m = 21 ∨ m = 31 ∨ m = 33)
    (hr : kexCase p k m e = some (r, d, k')) : Leaves (e.nk.cipher = none) r k' := by
  unfold kexCase at hr
  by_cases h20 : m = 20
  · rw [if_pos h20] at hr
    have := kexInitCase_leaves l p e hs.initParse hr
    exact ⟨this.1.hist, fun _ => this.1.tx, this.2⟩
  rw [if_neg h20] at hr
  have hp := hp h20
  by_cases h21 : m = 21
  · rw [if_pos h21] at hr
    simp only [Option.some.injEq, Prod.mk.injEq] at hr
    obtain ⟨rfl, _, rfl⟩ := hr
    exact l.doNewKeys hp (hl h21) e hs.cipher
  rw [if_neg h21] at hr
  by_cases h5 : m = 30 ∨ m = 31 ∨ m = 32 ∨ m = 33 ∨ m = 34
  · rw [if_pos h5] at hr
    cases hh : k.hs with
    | none =>
      rw [hh] at hr
      simp only [Option.some.injEq, Prod.mk.injEq] at hr
      obtain ⟨_, _, rfl⟩ := hr
      exact l.leaves _
    | some h =>
      rw [hh] at hr
      simp only [Option.some.injEq, Prod.mk.injEq] at hr
      obtain ⟨rfl, _, rfl⟩ := hr
      have hsv : m = 30 ∨ m = 32 ∨ m = 34 → k.side = .server := by
        intro h
        cases hk : k.side with
        | server => rfl
        | client => have := hc hk; omega
      by_cases ha : m = 30 ∨ m = 32
      · rw [if_pos ha]; exact l.doKexDhInit (hsv (by omega)) hp hh e hs
      rw [if_neg ha]
      by_cases hb : m = 34
      · rw [if_pos hb]; exact (l.doGexRequest (hsv (by omega)) hh e).leaves _
      rw [if_neg hb]
      by_cases hg : m = 31 ∧ h.gex = true
      · rw [if_pos hg]; exact (l.doGexGroup hh e).leaves _
      rw [if_neg hg]; exact l.doKexDhReply hp hh e hs
  rw [if_neg h5] at hr
  simp only [Option.some.injEq, Prod.mk.injEq] at hr
  obtain ⟨rfl, _, rfl⟩ := hr
  exact (l.send 3 _).leaves _

/-- The filter: key exchange messages other than `SSH_MSG_KEXINIT` only while the peer is keying; a client takes only the one it waits for. -/
theorem transBlock_cases (s : MsgFilter.FState) (m : Nat) :
    (m = 20 ∧ s.peerKeying = false ∧ MsgFilter.transBlock s m = some (true, s.expect)) ∨
    (∃ x, MsgFilter.transBlock s m = some (false, x)) ∨
    (m ≠ 20 ∧ s.peerKeying = true ∧ s.expect = some m ∧ MsgFilter.transBlock s m = some (true, some 0)) ∨
    (m ≠ 20 ∧ s.peerKeying = true ∧ MsgFilter.transBlock s m = none) := by
  obtain ⟨p, b, x⟩ := s
  unfold MsgFilter.transBlock
  by_cases hb : b = true
  · simp only [hb, if_true]
    by_cases h20 : m = 20
    · simp [h20]
    · cases x with
      | none => simp [h20]
      | some x =>
        by_cases hx : x = 0
        · simp [h20, hx]
        · by_cases hm : m = x
          · subst hm; simp [h20, hx]
          · simp [h20, hx, hm]
  · have hb' : b = false := by simpa using hb
    subst hb'
    by_cases h20 : m = 20 <;> simp [h20]

theorem allowed_kex {p : Nat} {k k' : Ks} {m : Nat} (hm : 20 ≤ m ∧ m ≤ 49) (ha : allowed p k m = (true, k')) (l : Live k) :
    (m ≠ 20 → k.peer = true) ∧ (k.side = .client → m = 20 ∨ m = 21 ∨ m = 31 ∨ m = 33) := by
  unfold allowed at ha
  dsimp only at ha
  rw [Prod.mk.injEq] at ha
  have ha := ha.1
  have t := transBlock_cases ⟨p, k.peer, k.hs.map (·.expect)⟩ m
  dsimp only at t
  cases hs : k.side with
  | server =>
    rw [hs] at ha
    simp only [verdict] at ha
    refine ⟨fun h20 => ?_, by simp⟩
    rcases t with t | ⟨x, t⟩ | t | t
    · exact absurd t.1 h20
    · simp only [MsgFilter.isMessageAllowedServer] at ha
      rw [if_neg (by omega), if_neg (by omega), if_neg (by omega), if_pos (by omega), t] at ha
      cases ha
    · exact t.2.1
    · exact t.2.1
  | client =>
    rw [hs] at ha
    simp only [verdict, MsgFilter.isMessageAllowedClient] at ha
    rw [if_neg (by omega), if_neg (by omega), if_neg (by omega), if_pos (by omega)] at ha
    rcases t with t | ⟨x, t⟩ | t | t
    · exact ⟨fun h => absurd t.1 h, fun _ => .inl t.1⟩
    · rw [t] at ha; cases ha
    · refine ⟨fun _ => t.2.1, fun _ => ?_⟩
      cases hk : k.hs with
      | none => rw [hk] at t; cases t.2.2.1
      | some h =>
        rw [hk] at t
        have h1 : h.expect = m := by have := t.2.2.1; simpa using this
        have := l.want hs h hk
        unfold Awaited at this
        omega
    · rw [t.2.2] at ha
      simp only [MsgFilter.clientPhase] at ha
      split at ha
      · rw [if_neg (by omega), if_neg (by omega)] at ha; cases ha
      · rw [if_neg (by omega)] at ha; cases ha

/-- The new `expectMsgId` is zero or the old one. -/
theorem filter_expect (f : MsgFilter.FState) (m : Nat) :
    ((MsgFilter.isMessageAllowedClient f m).2 = f.expect ∨ (MsgFilter.isMessageAllowedClient f m).2 = some 0) ∧
    ((MsgFilter.isMessageAllowedServer f m).2 = f.expect ∨ (MsgFilter.isMessageAllowedServer f m).2 = some 0) := by
  have t : ∀ r, MsgFilter.transBlock f m = some r → r.2 = f.expect ∨ r.2 = some 0 := by
    intro r hr
    unfold MsgFilter.transBlock at hr
    split at hr
    · split at hr
      · cases hr; exact .inl rfl
      · split at hr
        · split at hr
          · split at hr
            · cases hr; exact .inl rfl
            · cases hr; exact .inr rfl
          · cases hr
        · cases hr
    · split at hr <;> (cases hr; exact .inl rfl)
  constructor
  · unfold MsgFilter.isMessageAllowedClient
    repeat' split
    all_goals first | exact .inl rfl | exact t _ (by assumption)
  · unfold MsgFilter.isMessageAllowedServer
    repeat' split
    all_goals first | exact .inl rfl | exact t _ (by assumption)

theorem Live.allowed {k : Ks} (l : Live k) (p m : Nat) : Live (allowed p k m).2 := by
  unfold Wolf.Keying.allowed
  dsimp only
  have h2 : ∀ f : MsgFilter.FState, (verdict k.side f m).2 = f.expect ∨ (verdict k.side f m).2 = some 0 := by
    intro f
    have := filter_expect f m
    unfold verdict
    cases k.side
    · exact this.1
    · exact this.2
  cases hh : k.hs with
  | none =>
    have : ({ k with hs := none } : Ks) = k := by rw [← hh]
    rw [Option.map_none, this]; exact l
  | some h =>
    refine l.setHs hh _ rfl (fun hc => ?_)
    dsimp only
    rcases h2 ⟨p, k.peer, Option.map (·.expect) (some h)⟩ with h2 | h2
    · rw [h2]; exact l.want hc h hh
    · rw [h2]; exact .inl rfl

theorem allowed_same (p : Nat) (k : Ks) (m : Nat) :
    (allowed p k m).2.peer = k.peer ∧ (allowed p k m).2.side = k.side ∧ (allowed p k m).2.rx = k.rx ∧ (allowed p k m).2.log = k.log ∧
    (allowed p k m).2.dead = k.dead := ⟨rfl, rfl, rfl, rfl, rfl⟩

/-- Between steps: an orderly history, and a live session unless it has ended. -/
structure Inv (k : Ks) : Prop where
  hist : Orderly k.side k.log
  live : k.dead = false → Live k

theorem packetEnd_inv {k : Ks} {c : Prop} {r : Ret} (h : Leaves c r k) (hw : Fl) (hq : c ∨ hw.hw = 0) : Inv (packetEnd r k hw).2 := by
  have lv : Session.usable r = true → Live (started hw.hw k) := fun hu => (h.live hu).started _
  constructor
  · show Orderly (started hw.hw k).side (started hw.hw k).log
    rcases hq with hq | hq
    · exact (Base.started ⟨h.hist, h.tx hq⟩ _).hist
    · rw [hq]; exact h.hist
  · intro hd
    have hd' : ((started hw.hw k).dead || !Session.usable (if r = none then hw.ret else r)) = false := hd
    refine (lv ?_).setDead _
    rw [Bool.or_eq_false_iff] at hd'
    by_cases hr : r = none
    · rw [hr]; rfl
    · rw [if_neg hr] at hd'; simpa using hd'.2

theorem receive_inv {k k' : Ks} {p : Nat} {e : PktEnv} {r : Ret} {d : Bool} (l : Live k) (hs : e.kex.Sane) (hq : e.Quiet)
    (h : receive p k e = some (r, d, k')) : Inv k' := by
  unfold receive at h
  cases hio : e.io with
  | some x =>
    rw [hio] at h
    cases h
    exact ⟨l.hist, fun _ => l.setDead _⟩
  | none =>
    rw [hio] at h
    dsimp only at h
    have la := l.allowed p e.msg
    have hk := fun hm => allowed_kex (p := p) (k := k) (k' := (allowed p k e.msg).2) (m := e.msg) hm
    generalize ha : Wolf.Keying.allowed p k e.msg = a at h la hk
    have same := allowed_same p k e.msg
    rw [ha] at same
    obtain ⟨b, k1⟩ := a
    cases b with
    | false => cases h; exact ⟨la.hist, fun hd => by cases hd⟩
    | true =>
      dsimp only at h la hk same
      have l2 := la.acted e.msg
      by_cases hm : 20 ≤ e.msg ∧ e.msg ≤ 49
      · rw [if_pos hm] at h
        have hk := hk hm rfl l
        cases hkc : kexCase p (k1.note (.acted e.msg k1.rx)) e.msg e.kex with
        | none => rw [hkc] at h; cases h
        | some x =>
          obtain ⟨r0, d, k2⟩ := x
          rw [hkc] at h
          have := kexCase_leaves l2 p e.msg e.kex hs (fun h => by have := hk.1 h; rw [← same.1] at this; exact this)
            (fun h => ⟨k1.log, by rw [h]; rfl⟩) (fun h => hk.2 (by rw [← same.2.1]; exact h)) hkc
          simp only [Option.some.injEq, Prod.mk.injEq] at h
          have h2 := packetEnd_inv this e.hw hq
          rw [h.2.2] at h2; exact h2
      · rw [if_neg hm] at h
        simp only [Option.some.injEq, Prod.mk.injEq] at h
        have h2 := packetEnd_inv (c := True) (r := e.gen) ((l2.sends e.more).leaves _) e.hw (.inl trivial)
        rw [h.2.2] at h2; exact h2

theorem step_inv {k k' : Ks} {i : In} (h : Inv k) (he : enabled k i) (hs : step k i = some k') : Inv k' := by
  cases i with
  | start e =>
    have l := (h.live he).sendKexInit e
    simp only [step, Option.some.injEq] at hs
    subst hs
    exact ⟨l.hist, fun _ => l.setDead _⟩
  | request e =>
    have l := h.live he.1
    cases hh : k.hs with
    | none => simp only [step, hh, Option.some.injEq] at hs; subst hs; exact h
    | some a =>
      have l := l.sendKexDh hh e
      simp only [step, hh, Option.some.injEq] at hs
      subst hs
      exact ⟨l.hist, fun _ => l.setDead _⟩
  | send m o =>
    have l := (h.live he.1).send m o
    simp only [step, Option.some.injEq] at hs
    subst hs
    exact ⟨l.hist, fun _ => l⟩
  | receive p e =>
    have l := h.live he.1
    simp only [step, Option.map_eq_some_iff] at hs
    obtain ⟨⟨r, d, k2⟩, hr, rfl⟩ := hs
    exact receive_inv l he.2.1 he.2.2.1 hr

theorem reach_inv {s : Side} {k : Ks} (h : Reach s k) : Inv k := by
  induction h with
  | init => exact ⟨(live_init s).hist, fun _ => live_init s⟩
  | step _ he hs ih => exact step_inv ih he hs

end Proofs.Keying
