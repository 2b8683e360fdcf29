import Verif.Spec.Client
import Verif.Proofs.Keying
/-!
# The client: invariants
-/

namespace Proofs.Client
open Wolf Wolf.Keying Wolf.Client Spec.Keying Spec.Client Proofs.Keying
open Wolf.UserAuth (Ret)
open Wolf.Keying (Out In)

/-- No credential among these events. -/
def Mute (l : List Ev) : Prop := ∀ m x, Ev.sent m x ∈ l → ¬Credential m

theorem Mute.nil : Mute [] := by intro m x h; cases h
theorem Mute.app {a b : List Ev} (ha : Mute a) (hb : Mute b) : Mute (a ++ b) := by
  intro m x h; rcases List.mem_append.1 h with h | h
  · exact ha m x h
  · exact hb m x h

/-- What happened in between held no credential. -/
def Grow (k k' : Ks) : Prop := (∃ l, k'.log = l ++ k.log ∧ Mute l) ∧ k'.side = k.side

theorem Grow.refl (k : Ks) : Grow k k := ⟨⟨[], rfl, Mute.nil⟩, rfl⟩
theorem Grow.of_log {k k' : Ks} (h : k'.log = k.log) (h' : k'.side = k.side) : Grow k k' := ⟨⟨[], h, Mute.nil⟩, h'⟩
theorem Grow.trans {a b c : Ks} (h1 : Grow a b) (h2 : Grow b c) : Grow a c := by
  obtain ⟨⟨l, hl, ml⟩, s1⟩ := h1
  obtain ⟨⟨l', hl', ml'⟩, s2⟩ := h2
  exact ⟨⟨l' ++ l, by rw [hl', hl, List.append_assoc], ml'.app ml⟩, s2.trans s1⟩
theorem Grow.note (k : Ks) (e : Ev) (he : ∀ m x, e = .sent m x → ¬Credential m) : Grow k (k.note e) := by
  refine ⟨⟨[e], rfl, ?_⟩, rfl⟩
  intro m x h
  simp only [List.mem_singleton] at h
  exact he m x h.symm

/-- Keys in use stay in use; a side that stops keying has keys. -/
structure Ext (k k' : Ks) : Prop where
  tx : k.tx ≠ none → k'.tx ≠ none
  rx : k.rx ≠ none → k'.rx ≠ none
  self : k.self = true → k'.self = true ∨ k'.tx ≠ none
  peer : k.peer = true → k'.peer = true ∨ k'.rx ≠ none

theorem Ext.refl (k : Ks) : Ext k k := ⟨id, id, .inl, .inl⟩
theorem Ext.trans {a b c : Ks} (h1 : Ext a b) (h2 : Ext b c) : Ext a c := by
  refine ⟨fun h => h2.tx (h1.tx h), fun h => h2.rx (h1.rx h), fun h => ?_, fun h => ?_⟩
  · rcases h1.self h with h | h
    · exact h2.self h
    · exact .inr (h2.tx h)
  · rcases h1.peer h with h | h
    · exact h2.peer h
    · exact .inr (h2.rx h)

/-- Both. -/
def Go (k k' : Ks) : Prop := Grow k k' ∧ Ext k k'
theorem Go.refl (k : Ks) : Go k k := ⟨.refl k, .refl k⟩
theorem Go.trans {a b c : Ks} (h1 : Go a b) (h2 : Go b c) : Go a c := ⟨h1.1.trans h2.1, h1.2.trans h2.2⟩
/-- A change that leaves keys, keying and the log as they are. -/
theorem Go.same {k k' : Ks} (h0 : k'.side = k.side) (h1 : k'.log = k.log) (h2 : k'.tx = k.tx) (h3 : k'.rx = k.rx) (h4 : k.self = true → k'.self = true)
    (h5 : k.peer = true → k'.peer = true) : Go k k' :=
  ⟨.of_log h1 h0, fun h => h2 ▸ h, fun h => h3 ▸ h, fun h => .inl (h4 h), fun h => .inl (h5 h)⟩
theorem Go.note (k : Ks) (e : Ev) (he : ∀ m x, e = .sent m x → ¬Credential m) : Go k (k.note e) :=
  ⟨.note k e he, fun h => h, fun h => h, .inl, .inl⟩

theorem not_cred {m : Nat} (h1 : m ≠ 5) (h2 : m ≠ 50) (h3 : m ≠ 61) : ¬Credential m := by
  unfold Credential; omega

theorem go_started (n : Nat) (k : Ks) : Go k (started n k) := by
  induction n generalizing k with
  | zero => exact .refl k
  | succ n ih =>
    rw [started]
    refine Go.trans (Go.note k (.sent 20 k.tx) ?_) (Go.trans (Go.same ?_ ?_ ?_ ?_ ?_ ?_) (ih _))
    · intro m x h; cases h; exact not_cred (by omega) (by omega) (by omega)
    all_goals first | rfl | (intro h; first | rfl | exact h)

theorem go_send {m : Nat} (hm : ¬Credential m) (k : Ks) (o : Out) : Go k (send m k o).2 := by
  unfold Wolf.Keying.send
  cases o.bundle with
  | some e => exact .refl k
  | none =>
    refine Go.trans (Go.note k (.sent m k.tx) ?_) (go_started _ _)
    intro m' x h; cases h; exact hm

theorem go_sendExpect {m : Nat} (hm : ¬Credential m) (x : Nat) (k : Ks) (h : Hs) (o : Out) : Go k (sendExpect m x k h o).2 := by
  unfold Wolf.Keying.sendExpect
  cases o.bundle with
  | some e => exact .refl k
  | none =>
    refine Go.trans (Go.note k (.sent m k.tx) ?_) (Go.trans (Go.same ?_ ?_ ?_ ?_ ?_ ?_) (go_started _ _))
    · intro m' x h; cases h; exact hm
    all_goals first | rfl | (intro h; exact h)

theorem go_sendKexInit (k : Ks) (e : InitEnv) : Go k (sendKexInit k e).2 := by
  unfold Wolf.Keying.sendKexInit
  split
  · exact .refl k
  · split
    · exact Go.same rfl rfl rfl rfl (fun _ => rfl) id
    · refine Go.trans (Go.same (k' := { k with self := true, hs := some (k.hs.getD .fresh) }) rfl rfl rfl rfl (fun _ => rfl) id) ?_
      exact go_send (not_cred (by omega) (by omega) (by omega)) _ _

theorem go_sendKexDhInit (k : Ks) (h : Hs) (e : DhEnv) : Go k (sendKexDhInit k h e).2 := by
  unfold Wolf.Keying.sendKexDhInit
  cases e.crypto with
  | some e => exact .refl k
  | none =>
    dsimp only
    split
    · exact go_sendExpect (not_cred (by omega) (by omega) (by omega)) _ _ _ _
    · exact go_sendExpect (not_cred (by omega) (by omega) (by omega)) _ _ _ _

theorem go_sendKexDh (k : Ks) (h : Hs) (e : DhEnv) : Go k (sendKexDh k h e).2 := by
  unfold Wolf.Keying.sendKexDh
  split
  · exact go_sendExpect (not_cred (by omega) (by omega) (by omega)) _ _ _ _
  · exact go_sendKexDhInit k h e

theorem go_adjust (os : List Out) (k : Ks) : Go k (adjust os k).2 := by
  induction os generalizing k with
  | nil => exact .refl k
  | cons o os ih =>
    unfold Wolf.Keying.adjust
    split
    · exact .refl k
    · exact (go_send (not_cred (by omega) (by omega) (by omega)) _ _).trans (ih _)

theorem go_sends {l : List (Nat × Out)} (h : ∀ x ∈ l, ¬Credential x.1) (k : Ks) : Go k (sends l k) := by
  induction l generalizing k with
  | nil => exact .refl k
  | cons x l ih =>
    exact (go_send (h x List.mem_cons_self) _ _).trans (ih (fun y hy => h y (List.mem_cons_of_mem _ hy)) _)

/-- The log grows without credentials; unless the code ends the session keys are kept. -/
def GoR (r : Ret) (k k' : Ks) : Prop := Grow k k' ∧ (Session.usable r = true → Ext k k')
theorem Go.r {k k' : Ks} (h : Go k k') (r : Ret) : GoR r k k' := ⟨h.1, fun _ => h.2⟩
theorem Go.transR {a b c : Ks} {r : Ret} (h1 : Go a b) (h2 : GoR r b c) : GoR r a c :=
  ⟨h1.1.trans h2.1, fun h => h1.2.trans (h2.2 h)⟩

theorem go_sendNewKeys {k : Ks} {h : Hs} (hk : h.keys ≠ none) (e : NkEnv) (h2 : Firm e.cipher) :
    GoR (sendNewKeys k h e).1 k (sendNewKeys k h e).2 := by
  unfold Wolf.Keying.sendNewKeys
  have g1 : Go k (k.note (.sent 21 k.tx)) := Go.note k _ (by intro m x h; cases h; exact not_cred (by omega) (by omega) (by omega))
  cases e.out.bundle with
  | some x => exact (Go.refl k).r _
  | none =>
    dsimp only
    cases hc : e.cipher with
    | some x =>
      refine ⟨g1.1.trans (.of_log rfl rfl), fun hu => ?_⟩
      rw [firm_some (hc ▸ h2)] at hu; cases hu
    | none =>
      dsimp only
      refine g1.transR (Go.r ?_ _)
      refine Go.trans (Go.note _ (.newTx h.keys) (by intro m x h; cases h)) ?_
      have g2 := go_started e.out.fl.hw { (k.note (.sent 21 k.tx)).note (.newTx h.keys) with tx := h.keys }
      refine Go.trans (b := { started e.out.fl.hw { (k.note (.sent 21 k.tx)).note (.newTx h.keys) with tx := h.keys } with self := false }) ?_ (go_adjust _ _)
      refine ⟨?_, ?_, ?_, ?_, ?_⟩
      · exact g2.1
      · exact fun _ => g2.2.tx hk
      · exact fun h => g2.2.rx h
      · exact fun _ => .inr (g2.2.tx hk)
      · exact fun h => g2.2.peer h

theorem go_doNewKeys {k : Ks} (l : Live k) (hp : k.peer = true) (e : KexEnv) (hc : Firm e.cipher) :
    GoR (doNewKeys k e).1 k (doNewKeys k e).2 := by
  unfold Wolf.Keying.doNewKeys
  cases hh : k.hs with
  | none => exact (Go.refl k).r _
  | some a =>
    dsimp only
    by_cases he : e.empty = false
    · rw [if_pos he]; exact (Go.refl k).r _
    rw [if_neg he]
    by_cases hs : k.self = true
    · rw [if_pos hs]; exact (Go.refl k).r _
    rw [if_neg hs]
    cases hci : e.cipher with
    | some x =>
      refine ⟨(.of_log rfl rfl), fun hu => ?_⟩
      rw [firm_some (hci ▸ hc)] at hu; cases hu
    | none =>
      dsimp only
      obtain ⟨b, n, hb, hn⟩ := l.turn hp (by simpa using hs)
      rw [hh] at hb; cases hb
      refine Go.r (Go.trans (b := { k.note (.newRx a.keys) with rx := a.keys, peer := false, hs := none }) ?_ (go_adjust _ _)) _
      refine ⟨⟨⟨[.newRx a.keys], rfl, by intro m x h; simp at h⟩, rfl⟩, id, ?_, .inl, ?_⟩
      · exact fun _ => by simp [hn]
      · exact fun _ => .inr (by simp [hn])

theorem go_derive (k : Ks) (h : Hs) (hk : h.keys ≠ none) (e : NkEnv) (hc : Firm e.cipher) :
    GoR (sendNewKeys (k.derive h) h e).1 k (sendNewKeys (k.derive h) h e).2 := by
  have g3 : Go k (k.derive h) :=
    (Go.note k (.derived k.ex) (by intro m x h; cases h)).trans (Go.same rfl rfl rfl rfl id id)
  exact g3.transR (go_sendNewKeys hk e hc)

theorem go_doKexDhReply {k : Ks} {h : Hs} (e : KexEnv) (hs : e.Sane) :
    GoR (doKexDhReply k h e).1 k (doKexDhReply k h e).2 := by
  unfold Wolf.Keying.doKexDhReply
  by_cases h1 : e.empty = true
  · rw [if_pos h1]; exact (Go.refl k).r _
  rw [if_neg h1]
  by_cases h2 : h.skip = true
  · rw [if_pos h2]; exact (Go.same (k := k) (k' := { k with hs := some { h with skip := false } }) rfl rfl rfl rfl id id).r none
  rw [if_neg h2]
  cases e.parse with
  | some x => exact (Go.refl k).r _
  | none =>
  dsimp only
  by_cases h3 : e.check = false
  · rw [if_pos h3]; exact (Go.refl k).r _
  rw [if_neg h3]
  have g1 : Go k (k.note (.accepted k.ex)) := Go.note _ _ (by intro m x h; cases h)
  cases e.agree with
  | some x => exact g1.r _
  | none =>
  dsimp only
  by_cases h4 : e.sig = false
  · rw [if_pos h4]; exact g1.r _
  rw [if_neg h4]
  have g2 : Go k ((k.note (.accepted k.ex)).note (.verified k.ex)) := g1.trans (Go.note _ _ (by intro m x h; cases h))
  cases e.derive with
  | some x => exact g2.r _
  | none =>
  refine g2.transR ?_
  exact go_derive _ _ (by simp) e.nk hs.nkCipher

theorem go_doGexGroup (k : Ks) (h : Hs) (e : KexEnv) : Go k (doGexGroup k h e).2 := by
  unfold Wolf.Keying.doGexGroup
  by_cases h1 : e.empty = true
  · rw [if_pos h1]; exact .refl k
  rw [if_neg h1]
  by_cases h2 : h.skip = true
  · rw [if_pos h2]; exact Go.same rfl rfl rfl rfl id id
  rw [if_neg h2]
  cases e.parse with
  | some x => exact .refl k
  | none => exact go_sendKexDhInit _ _ _

theorem go_kexInitEnd (e : KexInitEnv) (r : Ret) (k : Ks) : Go k (kexInitEnd e r k).2 := by
  unfold kexInitEnd
  split
  · exact go_send (not_cred (by omega) (by omega) (by omega)) _ _
  · exact .refl k

theorem kexInitEnd_keying (e : KexInitEnv) (r : Ret) (k : Ks) (hs : k.self = true) :
    (kexInitEnd e r k).2.self = true := by
  unfold kexInitEnd
  split
  · unfold Wolf.Keying.send
    cases e.disc.bundle with
    | some x => exact hs
    | none => exact started_self _ hs
  · exact hs
theorem kexInitEnd_peer (e : KexInitEnv) (r : Ret) (k : Ks) : (kexInitEnd e r k).2.peer = k.peer := by
  unfold kexInitEnd
  split
  · exact send_peer _ _ _
  · rfl

theorem sendKexInit_peer (k : Ks) (e : InitEnv) : (sendKexInit k e).2.peer = k.peer := by
  unfold Wolf.Keying.sendKexInit
  split
  · rfl
  · split
    · rfl
    · exact send_peer _ _ _

theorem go_ownInit (k : Ks) (e : InitEnv) : Go k (ownInit k e).2 := by
  unfold ownInit
  split
  · exact .refl k
  · exact go_sendKexInit k e

theorem ownInit_self (k : Ks) (e : InitEnv) (h : (ownInit k e).1 = none ∨ (ownInit k e).1 = some .wantWrite) :
    (ownInit k e).2.self = true ∧ (ownInit k e).2.peer = k.peer := by
  unfold ownInit at h ⊢
  split
  · exact ⟨by assumption, rfl⟩
  · rename_i hs
    rw [if_neg hs] at h
    refine ⟨?_, sendKexInit_peer _ _⟩
    rcases sendKexInit_self (k := k) e with h' | h'
    · rw [h'.1] at h; rcases h with h | h <;> cases h
    · exact h'

theorem go_kexInitReply (k : Ks) (e : KexInitEnv) : Go k (kexInitReply k e).2.2 := by
  unfold kexInitReply
  dsimp only
  split
  · cases e.hash <;> exact go_ownInit k e.start
  · exact go_ownInit k e.start

theorem go_taken (k : Ks) (g s : Bool) : Go k (k.taken g s) := Go.same rfl rfl rfl rfl id (fun _ => rfl)

theorem go_doKexInit (k : Ks) (e : KexInitEnv) : Go k (doKexInit k e).2.2 := by
  unfold Wolf.Keying.doKexInit
  split
  · exact .refl k
  split
  · exact Go.same rfl rfl rfl rfl id (fun _ => rfl)
  dsimp only
  refine Go.trans (go_taken k e.gex e.skip) ?_
  cases e.parse with
  | some x => exact go_kexInitEnd _ _ _
  | none => exact (go_kexInitReply _ _).trans (go_kexInitEnd _ _ _)

/-- Once `DoKexInit` is through, both sides are keying. -/
theorem doKexInit_done (k : Ks) (e : KexInitEnv) (h : (doKexInit k e).2.1 = true) :
    (doKexInit k e).2.2.self = true ∧ (doKexInit k e).2.2.peer = true := by
  unfold Wolf.Keying.doKexInit at h ⊢
  by_cases h1 : k.peer = true
  · rw [if_pos h1] at h; cases h
  rw [if_neg h1] at h ⊢
  by_cases h2 : k.hs.isNone = true ∧ e.alloc = false
  · rw [if_pos h2] at h; cases h
  rw [if_neg h2] at h ⊢
  dsimp only at h ⊢
  cases hp : e.parse with
  | some x => rw [hp] at h; cases h
  | none =>
    rw [hp] at h
    dsimp only at h ⊢
    have key : (kexInitReply (k.taken e.gex e.skip) e).2.2.self = true ∧ (kexInitReply (k.taken e.gex e.skip) e).2.2.peer = true := by
      unfold kexInitReply at h ⊢
      dsimp only at h ⊢
      by_cases h3 : (ownInit (k.taken e.gex e.skip) e.start).1 = none ∨ (ownInit (k.taken e.gex e.skip) e.start).1 = some .wantWrite
      · rw [if_pos h3] at h ⊢
        have := ownInit_self _ _ h3
        cases hh : e.hash with
        | some x => rw [hh] at h; cases h
        | none => exact this
      · rw [if_neg h3] at h; cases h
    exact ⟨kexInitEnd_keying _ _ _ key.1, (kexInitEnd_peer _ _ _).trans key.2⟩

theorem keep_sendExpect (m x : Nat) (k : Ks) (h : Hs) (o : Out) (hs : k.self = true) :
    (sendExpect m x k h o).2.self = true ∧ (sendExpect m x k h o).2.peer = k.peer := by
  unfold Wolf.Keying.sendExpect
  cases o.bundle with
  | some e => exact ⟨hs, rfl⟩
  | none => exact ⟨started_self _ hs, started_peer _ _⟩

theorem keep_sendKexDh (k : Ks) (h : Hs) (e : DhEnv) (hs : k.self = true) :
    (sendKexDh k h e).2.self = true ∧ (sendKexDh k h e).2.peer = k.peer := by
  unfold Wolf.Keying.sendKexDh
  split
  · exact keep_sendExpect _ _ _ _ _ hs
  · unfold Wolf.Keying.sendKexDhInit
    cases e.crypto with
    | some x => exact ⟨hs, rfl⟩
    | none =>
      dsimp only
      split
      · exact keep_sendExpect _ _ _ _ _ hs
      · exact keep_sendExpect _ _ _ _ _ hs

/-- The key exchange messages a client acts on. -/
theorem go_kexCase {k : Ks} (l : Live k) (p m : Nat) (e : KexEnv) (hs : e.Sane) {r : Ret} {d : Bool} {k' : Ks}
    (hp : m ≠ 20 → k.peer = true) (hc : m = 20 ∨ m = 21 ∨ m = 31 ∨ m = 33)
    (hr : kexCase p k m e = some (r, d, k')) : GoR r k k' ∧ (d = true → k'.self = true ∧ k'.peer = true) := by
  unfold kexCase at hr
  by_cases h20 : m = 20
  · rw [if_pos h20] at hr
    unfold kexInitCase at hr
    have g := go_doKexInit k e.init
    have dn := doKexInit_done k e.init
    generalize Wolf.Keying.doKexInit k e.init = x at g hr dn
    obtain ⟨r0, d0, k0⟩ := x
    dsimp only at g hr dn
    split at hr
    · cases hh : k0.hs with
      | none => rw [hh] at hr; cases hr
      | some a =>
        rw [hh] at hr
        simp only [Option.some.injEq, Prod.mk.injEq] at hr
        obtain ⟨rfl, rfl, rfl⟩ := hr
        refine ⟨(g.trans (go_sendKexDh _ _ _)).r _, fun hd => ?_⟩
        have := keep_sendKexDh k0 a e.dh (dn hd).1
        exact ⟨this.1, this.2.trans (dn hd).2⟩
    · cases hr; exact ⟨g.r _, dn⟩
  rw [if_neg h20] at hr
  have hp := hp h20
  by_cases h21 : m = 21
  · rw [if_pos h21] at hr
    simp only [Option.some.injEq, Prod.mk.injEq] at hr
    obtain ⟨rfl, rfl, rfl⟩ := hr
    exact ⟨go_doNewKeys l hp e hs.cipher, by simp⟩
  rw [if_neg h21, if_pos (by omega)] at hr
  cases hh : k.hs with
  | none =>
    rw [hh] at hr
    simp only [Option.some.injEq, Prod.mk.injEq] at hr
    obtain ⟨_, rfl, rfl⟩ := hr
    exact ⟨(Go.refl _).r _, by simp⟩
  | some h =>
    rw [hh] at hr
    simp only [Option.some.injEq, Prod.mk.injEq] at hr
    obtain ⟨rfl, rfl, rfl⟩ := hr
    rw [if_neg (by omega), if_neg (by omega)]
    refine ⟨?_, by simp⟩
    by_cases hg : m = 31 ∧ h.gex = true
    · rw [if_pos hg]; exact (go_doGexGroup k h e).r _
    · rw [if_neg hg]; exact go_doKexDhReply e hs

/-- Credentials only under keys, and after keys were put in use for receiving. -/
def Guard (log : List Ev) : Prop :=
  ∀ later m k before, log = later ++ .sent m k :: before → Credential m → k ≠ none ∧ lastRx before ≠ none

theorem Guard.cons {e : Ev} {l : List Ev} (h : Guard l) (he : ∀ m k, e = .sent m k → Credential m → k ≠ none ∧ lastRx l ≠ none) :
    Guard (e :: l) := by
  intro later m k before hl hc
  cases later with
  | nil => simp at hl; obtain ⟨rfl, rfl⟩ := hl; exact he m k rfl hc
  | cons y ys => simp at hl; exact h ys m k before hl.2 hc

theorem Guard.app {a l : List Ev} (h : Guard l) (ha : Mute a) : Guard (a ++ l) := by
  induction a with
  | nil => exact h
  | cons e a ih =>
    refine Guard.cons (ih (fun m x hm => ha m x (List.mem_cons_of_mem _ hm))) ?_
    intro m k he hc
    exact absurd hc (ha m k (he ▸ List.mem_cons_self))

theorem Guard.grow {k k' : Ks} (h : Guard k.log) (g : Grow k k') : Guard k'.log := by
  obtain ⟨⟨l, hl, hm⟩, _⟩ := g
  rw [hl]; exact h.app hm

/-- Sending a credential with keys in both directions. -/
theorem guard_send {k : Ks} (h : Guard k.log) (l : Live k) (ht : k.tx ≠ none) (hr : k.rx ≠ none) (m : Nat) (o : Out) :
    Guard (send m k o).2.log ∧ (send m k o).2.side = k.side ∧ Ext k (send m k o).2 := by
  unfold Wolf.Keying.send
  cases o.bundle with
  | some e => exact ⟨h, rfl, .refl k⟩
  | none =>
    have g := go_started o.fl.hw (k.note (.sent m k.tx))
    refine ⟨Guard.grow (k := k.note (.sent m k.tx)) ?_ g.1, g.1.2, ?_⟩
    · refine h.cons ?_
      intro m' k' he _
      cases he
      exact ⟨ht, l.rx ▸ hr⟩
    · exact Ext.trans (b := k.note (.sent m k.tx)) ⟨id, id, .inl, .inl⟩ g.2

/-- Progress of the opening and keys. -/
structure CLive (c : Cl) : Prop where
  keyed : 2 ≤ c.sv → (c.ks.self = true ∨ c.ks.tx ≠ none) ∧ (c.ks.peer = true ∨ c.ks.rx ≠ none)
  heard : 4 ≤ c.cs → 2 ≤ c.sv
  done : 6 ≤ c.cs → c.ks.tx ≠ none ∧ c.ks.rx ≠ none

structure CInv (c : Cl) : Prop where
  inv : Inv c.ks
  side : c.ks.side = .client
  guard : Guard c.ks.log
  live : c.ks.dead = false → CLive c

theorem cinv_init : CInv Cl.init := by
  refine ⟨⟨(live_init .client).hist, fun _ => live_init .client⟩, rfl, ?_, fun _ => ?_⟩
  · intro later m k before h; simp [Cl.init, Ks.init] at h
  · constructor <;> simp [Cl.init]

theorem CLive.ext {c : Cl} {k' : Ks} (h : CLive c) (e : Ext c.ks k') : CLive { c with ks := k' } := by
  refine ⟨fun hs => ?_, h.heard, fun hs => ⟨e.tx (h.done hs).1, e.rx (h.done hs).2⟩⟩
  have := h.keyed hs
  constructor
  · rcases this.1 with h | h
    · exact e.self h
    · exact .inr (e.tx h)
  · rcases this.2 with h | h
    · exact e.peer h
    · exact .inr (e.rx h)

/-- What the filter lets through outside the key exchange. -/
theorem allowed_user {p : Nat} {k : Ks} {m : Nat} (hs : k.side = .client) (_ : ¬(20 ≤ m ∧ m ≤ 49))
    (ha : (allowed p k m).1 = true) : (m = 6 → p = 7) ∧ (49 < m → 7 ≤ p) ∧ m ≠ 5 := by
  unfold allowed verdict at ha
  rw [hs] at ha
  simp only [MsgFilter.isMessageAllowedClient] at ha
  by_cases h5 : m = 5 ∨ m = 50
  · rw [if_pos h5] at ha; cases ha
  rw [if_neg h5] at ha
  refine ⟨fun h6 => ?_, fun h50 => ?_, by omega⟩
  · rw [if_pos h6] at ha
    simpa [MsgFilter.CONNECT_CLIENT_USERAUTH_REQUEST_SENT] using ha
  · rw [if_neg (by omega), if_neg (by omega), if_neg (by omega)] at ha
    have t10 : MsgFilter.CONNECT_SERVER_USERAUTH_ACCEPT_DONE = 10 := rfl
    have t7 : MsgFilter.CONNECT_CLIENT_USERAUTH_REQUEST_SENT = 7 := rfl
    simp only [MsgFilter.clientPhase] at ha
    split at ha
    · split at ha
      · cases ha
      · split at ha
        · split at ha
          · cases ha
          · omega
        · cases ha
    · omega

theorem go_packetEnd {k0 k : Ks} {r : Ret} (h : GoR r k0 k) (hw : Fl) :
    Grow k0 (packetEnd r k hw).2 ∧ ((packetEnd r k hw).2.dead = false → Ext k0 (packetEnd r k hw).2) := by
  have g := go_started hw.hw k
  refine ⟨h.1.trans ⟨g.1.1, g.1.2⟩, fun hd => ?_⟩
  have hd' : ((started hw.hw k).dead || !Session.usable (if r = none then hw.ret else r)) = false := hd
  rw [Bool.or_eq_false_iff] at hd'
  have hu : Session.usable r = true := by
    by_cases hr : r = none
    · rw [hr]; rfl
    · rw [if_neg hr] at hd'; simpa using hd'.2
  have := (h.2 hu).trans g.2
  exact ⟨this.tx, this.rx, this.self, this.peer⟩

theorem keep_packetEnd {k : Ks} (r : Ret) (hw : Fl) (h : k.self = true ∧ k.peer = true) :
    (packetEnd r k hw).2.self = true ∧ (packetEnd r k hw).2.peer = true :=
  ⟨started_self _ h.1, (started_peer _ _).trans h.2⟩

theorem cinv_receive {c c' : Cl} {e : RxEnv} {r : Ret} (h : CInv c) (hd : c.ks.dead = false) (hs : e.Sane)
    (hr : Client.receive c e = some (r, c')) : CInv c' := by
  have l := h.inv.live hd
  have cl := h.live hd
  unfold Client.receive at hr
  cases hk : Keying.receive c.cs c.ks ⟨e.io, e.msg, e.kex, (answer e).1, (answer e).2.2, e.hw⟩ with
  | none => simp only [hk] at hr; cases hr
  | some x =>
  obtain ⟨r1, d, k⟩ := x
  simp only [hk, Option.some.injEq, Prod.mk.injEq] at hr
  obtain ⟨rfl, rfl⟩ := hr
  have inv := receive_inv l (e := ⟨e.io, e.msg, e.kex, (answer e).1, (answer e).2.2, e.hw⟩) hs.kex hs.quiet hk
  unfold Keying.receive at hk
  cases hio : e.io with
  | some x =>
    simp only [hio, Option.some.injEq, Prod.mk.injEq] at hk
    obtain ⟨rfl, rfl, rfl⟩ := hk
    refine ⟨inv, h.side, h.guard, fun _ => ?_⟩
    simpa [hio] using (⟨cl.keyed, cl.heard, cl.done⟩ : CLive { c with ks := { c.ks with dead := c.ks.dead || !Session.usable (some x) } })
  | none =>
    simp only [hio] at hk
    have hse : (allowed c.cs c.ks e.msg).2.side = c.ks.side := rfl
    have la := l.allowed c.cs e.msg
    have gA : Go c.ks (allowed c.cs c.ks e.msg).2 := Go.same rfl rfl rfl rfl id id
    have hkx := fun hm ha => allowed_kex (p := c.cs) (k := c.ks) (k' := (allowed c.cs c.ks e.msg).2) (m := e.msg) hm ha l
    have hus := fun hm ha => allowed_user (p := c.cs) (k := c.ks) (m := e.msg) h.side hm ha
    cases hal : (allowed c.cs c.ks e.msg).1 with
    | false =>
      rw [show allowed c.cs c.ks e.msg = (false, (allowed c.cs c.ks e.msg).2) by rw [← hal]] at hk
      simp only [Option.some.injEq, Prod.mk.injEq] at hk
      obtain ⟨rfl, rfl, rfl⟩ := hk
      exact ⟨inv, h.side, h.guard, fun hd => by cases hd⟩
    | true =>
      have hpair : allowed c.cs c.ks e.msg = (true, (allowed c.cs c.ks e.msg).2) := by rw [← hal]
      rw [hpair] at hk
      simp only at hk
      have gB : Go c.ks ((allowed c.cs c.ks e.msg).2.note (.acted e.msg (allowed c.cs c.ks e.msg).2.rx)) :=
        gA.trans (Go.note _ _ (by intro m x h; cases h))
      have lB := la.acted e.msg
      by_cases hm : 20 ≤ e.msg ∧ e.msg ≤ 49
      · rw [if_pos hm] at hk
        have hk2 := hkx hm hpair
        cases hkc : kexCase c.cs ((allowed c.cs c.ks e.msg).2.note (.acted e.msg (allowed c.cs c.ks e.msg).2.rx)) e.msg e.kex with
        | none => rw [hkc] at hk; cases hk
        | some x =>
          obtain ⟨r2, d2, k2⟩ := x
          rw [hkc] at hk
          simp only [Option.some.injEq, Prod.mk.injEq] at hk
          obtain ⟨rfl, rfl, rfl⟩ := hk
          have g := go_kexCase lB c.cs e.msg e.kex hs.kex (fun h => hk2.1 h) (hk2.2 h.side) hkc
          have g2 := go_packetEnd (gB.transR g.1) e.hw
          refine ⟨inv, g2.1.2.trans h.side, h.guard.grow g2.1, fun hd2 => ?_⟩
          have cl2 := cl.ext (g2.2 hd2)
          simp only [hm, and_self, not_true_eq_false, and_false, if_false]
          refine ⟨fun hsv => ?_, fun hcs => ?_, cl2.done⟩
          · cases d2 with
            | true =>
              have := keep_packetEnd r2 e.hw (g.2 rfl)
              exact ⟨.inl this.1, .inl this.2⟩
            | false => exact cl2.keyed hsv
          · cases d2 with
            | true => exact Nat.le_refl 2
            | false => exact cl.heard hcs
      · rw [if_neg hm] at hk
        have hu := hus hm hal
        simp only [Option.some.injEq, Prod.mk.injEq] at hk
        obtain ⟨rfl, rfl, rfl⟩ := hk
        generalize hkB : (allowed c.cs c.ks e.msg).2.note (.acted e.msg (allowed c.cs c.ks e.msg).2.rx) = kB at *
        -- the answer
        have ans : Guard (sends (answer e).2.2 kB).log ∧ (sends (answer e).2.2 kB).side = .client ∧ Ext c.ks (sends (answer e).2.2 kB) ∧
            ∀ v, (answer e).2.1 = some v → 7 ≤ c.cs ∧ 2 ≤ v := by
          have keys : 7 ≤ c.cs → kB.tx ≠ none ∧ kB.rx ≠ none := fun h7 =>
            ⟨gB.2.tx (cl.done (by omega)).1, gB.2.rx (cl.done (by omega)).2⟩
          have quiet : ∀ ls, (∀ x ∈ ls, ¬Credential x.1) → Guard (sends ls kB).log ∧ (sends ls kB).side = .client ∧ Ext c.ks (sends ls kB) := by
            intro ls hl
            have g := gB.trans (go_sends hl kB)
            exact ⟨h.guard.grow g.1, g.1.2.trans h.side, g.2⟩
          have none' := quiet [] (by simp)
          have cred : ∀ m, 7 ≤ c.cs → Guard (sends [(m, e.out)] kB).log ∧ (sends [(m, e.out)] kB).side = .client ∧
              Ext c.ks (sends [(m, e.out)] kB) := by
            intro m h7
            have g := guard_send (h.guard.grow gB.1) lB (keys h7).1 (keys h7).2 m e.out
            exact ⟨g.1, g.2.1.trans (gB.1.2.trans h.side), gB.2.trans g.2.2⟩
          unfold answer
          by_cases h6 : e.msg = 6
          · rw [if_pos h6]
            by_cases ok : e.ok = true
            · rw [if_pos ok]
              exact ⟨none'.1, none'.2.1, none'.2.2, fun v hv => by cases hv; exact ⟨by have := hu.1 h6; omega, by omega⟩⟩
            · rw [if_neg ok]
              have := quiet [(1, e.out)] (by intro x hx; simp at hx; subst hx; exact not_cred (by simp) (by simp) (by simp))
              exact ⟨this.1, this.2.1, this.2.2, fun v hv => by cases hv⟩
          rw [if_neg h6]
          by_cases h51 : e.msg = 51
          · rw [if_pos h51]
            split
            · have := cred 50 (hu.2.1 (by omega))
              exact ⟨this.1, this.2.1, this.2.2, fun v hv => by cases hv⟩
            · exact ⟨none'.1, none'.2.1, none'.2.2, fun v hv => by cases hv⟩
          rw [if_neg h51]
          by_cases h60 : e.msg = 60
          · rw [if_pos h60]
            split
            · have := cred 61 (hu.2.1 (by omega))
              exact ⟨this.1, this.2.1, this.2.2, fun v hv => by cases hv⟩
            · exact ⟨none'.1, none'.2.1, none'.2.2, fun v hv => by cases hv⟩
          rw [if_neg h60]
          by_cases h52 : e.msg = 52
          · rw [if_pos h52]
            split
            · exact ⟨none'.1, none'.2.1, none'.2.2, fun v hv => by cases hv; exact ⟨hu.2.1 (by omega), by omega⟩⟩
            · exact ⟨none'.1, none'.2.1, none'.2.2, fun v hv => by cases hv⟩
          rw [if_neg h52]
          by_cases h91 : e.msg = 91
          · rw [if_pos h91]
            split
            · exact ⟨none'.1, none'.2.1, none'.2.2, fun v hv => by cases hv; exact ⟨hu.2.1 (by omega), by omega⟩⟩
            · exact ⟨none'.1, none'.2.1, none'.2.2, fun v hv => by cases hv⟩
          rw [if_neg h91]
          by_cases h99 : e.msg = 99
          · rw [if_pos h99]
            split
            · exact ⟨none'.1, none'.2.1, none'.2.2, fun v hv => by cases hv; exact ⟨hu.2.1 (by omega), by omega⟩⟩
            · exact ⟨none'.1, none'.2.1, none'.2.2, fun v hv => by cases hv⟩
          rw [if_neg h99]
          have := quiet e.others (fun x hx => not_cred (hs.others x hx).2.1 (hs.others x hx).2.2.1 (hs.others x hx).2.2.2)
          exact ⟨this.1, this.2.1, this.2.2, fun v hv => by cases hv⟩
        obtain ⟨a1, a2, a3, a4⟩ := ans
        have g := go_started e.hw.hw (sends (answer e).2.2 kB)
        refine ⟨inv, g.1.2.trans a2, a1.grow g.1, fun hd2 => ?_⟩
        have e2 : Ext c.ks (packetEnd (answer e).1 (sends (answer e).2.2 kB) e.hw).2 := by
          have := a3.trans g.2
          exact ⟨this.tx, this.rx, this.self, this.peer⟩
        have cl2 := cl.ext e2
        simp only [hm, not_false_eq_true, and_self, decide_true, if_true, Bool.false_eq_true, if_false]
        cases ha : (answer e).2.1 with
        | none => exact ⟨cl2.keyed, cl2.heard, cl2.done⟩
        | some v =>
          have := a4 v ha
          refine ⟨fun _ => ?_, fun _ => this.2, cl2.done⟩
          exact cl2.keyed (cl.heard (by omega))

theorem cinv_ended {c : Cl} {k : Ks} (h : CInv c) (hd : c.ks.dead = false) (l : Live k) (g : Go c.ks k) (r : Ret) :
    CInv { c with ks := ended r k } := by
  refine ⟨⟨l.hist, fun _ => l.setDead _⟩, g.1.2.trans h.side, h.guard.grow g.1, fun _ => ?_⟩
  have := (h.live hd).ext g.2
  exact ⟨this.keyed, this.heard, this.done⟩

/-- The next state of the opening, other than from the two that wait for the key exchange. -/
theorem CLive.next {c : Cl} (h : CLive c) (h3 : c.cs ≠ 3) (h5 : c.cs ≠ 5) {n : Nat} (hn : n = c.cs ∨ n = c.cs + 1) : CLive { c with cs := n } := by
  refine ⟨h.keyed, fun h4 => h.heard ?_, fun h6 => h.done ?_⟩
  · have : 4 ≤ n := h4
    omega
  · have : 6 ≤ n := h6
    omega

theorem CInv.next {c : Cl} (h : CInv c) (h3 : c.cs ≠ 3) (h5 : c.cs ≠ 5) {n : Nat} (hn : n = c.cs ∨ n = c.cs + 1) : CInv { c with cs := n } :=
  ⟨h.inv, h.side, h.guard, fun hd => (h.live hd).next h3 h5 hn⟩

theorem CInv.sv {c : Cl} (h : CInv c) (hv : c.sv < 1) {n : Nat} (hn : n = c.sv ∨ n = 1) : CInv { c with sv := n } := by
  refine ⟨h.inv, h.side, h.guard, fun hd => ⟨fun h2 => ?_, fun h4 => ?_, (h.live hd).done⟩⟩
  · have : 2 ≤ n := h2
    omega
  · have := (h.live hd).heard h4
    omega

theorem cinv_sending {c : Cl} (h : CInv c) (hd : c.ks.dead = false) (h3 : c.cs ≠ 3) (h5 : c.cs ≠ 5) {r : Ret × Ks}
    (l : Live r.2) (g : Go c.ks r.2) : CInv (sending c (c.cs + 1) r) := by
  have := (cinv_ended h hd l g r.1).next (n := if r.1 = none then c.cs + 1 else c.cs) h3 h5 (by
    dsimp only; split
    · exact .inr rfl
    · exact .inl rfl)
  exact this

/-- A state that sends a credential. -/
theorem cinv_credential {c : Cl} (h : CInv c) (hd : c.ks.dead = false) (h6 : 6 ≤ c.cs) (m : Nat) (o : Out) :
    CInv (sending c (c.cs + 1) (send m c.ks o)) := by
  have l := h.inv.live hd
  have cl := h.live hd
  have g := guard_send h.guard l (cl.done h6).1 (cl.done h6).2 m o
  have l2 := l.send m o
  have h1 : CInv { c with ks := ended (send m c.ks o).1 (send m c.ks o).2 } := by
    refine ⟨⟨l2.hist, fun _ => l2.setDead _⟩, g.2.1.trans h.side, g.1, fun _ => ?_⟩
    have := cl.ext g.2.2
    exact ⟨this.keyed, this.heard, this.done⟩
  exact h1.next (n := if (send m c.ks o).1 = none then c.cs + 1 else c.cs) (by dsimp only; omega) (by dsimp only; omega) (by
    dsimp only; split
    · exact .inr rfl
    · exact .inl rfl)

theorem cinv_waiting {c c' : Cl} {done : Bool} {e : RxEnv} (h : CInv c) (hd : c.ks.dead = false) (hs : e.Sane)
    (hn : done = true → CInv { c with cs := c.cs + 1 }) (hr : waiting c done (c.cs + 1) e = some c') : CInv c' := by
  unfold waiting at hr
  split at hr
  · rename_i hdn; cases hr; exact hn hdn
  · simp only [Option.map_eq_some_iff] at hr
    obtain ⟨⟨r, c2⟩, hr, rfl⟩ := hr
    exact cinv_receive h hd hs hr

theorem cinv_connect {c c' : Cl} {e : CEnv} (h : CInv c) (hd : c.ks.dead = false) (hs : e.rx.Sane) (hr : connect c e = some c') :
    CInv c' := by
  have l := h.inv.live hd
  have cl := h.live hd
  have plain : ∀ (h3 : c.cs ≠ 3) (h5 : c.cs ≠ 5) (m : Nat) (o : Out), ¬Credential m → CInv (sending c (c.cs + 1) (send m c.ks o)) :=
    fun h3 h5 m o hm => cinv_sending h hd h3 h5 (l.send m o) (go_send hm _ _)
  unfold connect at hr
  split at hr
  case h_1 hcs =>
    cases hr
    have := (cinv_ended h hd l (.refl _) e.proto).next (n := if e.proto = none then 1 else 0) (by dsimp only; omega) (by dsimp only; omega) (by
      dsimp only; rw [hcs]; split
      · exact .inr rfl
      · exact .inl rfl)
    exact this
  case h_2 hcs =>
    split at hr
    · rename_i hv
      cases hr
      refine (cinv_ended h hd l (.refl _) e.proto).sv (n := if e.proto = none then 1 else c.sv) hv ?_
      dsimp only; split
      · exact .inr rfl
      · exact .inl rfl
    · cases hr
      exact h.next (by omega) (by omega) (.inr (by rw [hcs]))
  case h_3 hcs =>
    cases hr
    have := cinv_sending h hd (by omega) (by omega) (l.sendKexInit e.init) (go_sendKexInit _ _)
    rw [hcs] at this; exact this
  case h_4 hcs =>
    have := cinv_waiting (done := decide (2 ≤ c.sv)) (c' := c') h hd hs ?_ (by rw [hcs]; exact hr)
    · exact this
    · intro hv
      refine ⟨h.inv, h.side, h.guard, fun hd => ⟨cl.keyed, fun _ => by simpa using hv, fun h6 => ?_⟩⟩
      have : 6 ≤ c.cs + 1 := h6
      omega
  case h_5 hcs =>
    cases hh : c.ks.hs with
    | none => rw [hh] at hr; cases hr; exact cinv_ended h hd l (.refl _) _
    | some a =>
      rw [hh] at hr; cases hr
      have := cinv_sending h hd (by omega) (by omega) (l.sendKexDh hh e.dh) (go_sendKexDh _ _ _)
      rw [hcs] at this; exact this
  case h_6 hcs =>
    have := cinv_waiting (done := !c.ks.self && !c.ks.peer) (c' := c') h hd hs ?_ (by rw [hcs]; exact hr)
    · exact this
    · intro hv
      simp only [Bool.and_eq_true, Bool.not_eq_true'] at hv
      refine ⟨h.inv, h.side, h.guard, fun hd => ⟨cl.keyed, fun _ => cl.heard (by omega), fun h6 => ?_⟩⟩
      have hk := cl.keyed (cl.heard (by omega))
      rw [hv.1, hv.2] at hk
      simpa using hk
  case h_7 hcs =>
    cases hr
    have := cinv_credential h hd (by omega) 5 e.out
    rw [hcs] at this; exact this
  case h_8 hcs =>
    exact cinv_waiting h hd hs (fun _ => h.next (by omega) (by omega) (.inr rfl)) (by rw [hcs]; exact hr)
  case h_9 hcs =>
    cases hr
    have := cinv_credential h hd (by omega) 50 e.out
    rw [hcs] at this; exact this
  case h_10 hcs =>
    exact cinv_waiting h hd hs (fun _ => h.next (by omega) (by omega) (.inr rfl)) (by rw [hcs]; exact hr)
  case h_11 hcs =>
    cases hr
    have := plain (by omega) (by omega) 90 e.out (not_cred (by omega) (by omega) (by omega))
    rw [hcs] at this; exact this
  case h_12 hcs =>
    exact cinv_waiting h hd hs (fun _ => h.next (by omega) (by omega) (.inr rfl)) (by rw [hcs]; exact hr)
  case h_13 hcs =>
    cases hr
    split
    · have := plain (by omega) (by omega) 98 e.out (not_cred (by omega) (by omega) (by omega))
      rw [hcs] at this; exact this
    · exact h.next (by omega) (by omega) (.inr (by rw [hcs]))
  case h_14 hcs =>
    cases hr
    split
    · have := plain (by omega) (by omega) 98 e.out (not_cred (by omega) (by omega) (by omega))
      rw [hcs] at this; exact this
    · exact h.next (by omega) (by omega) (.inr (by rw [hcs]))
  case h_15 hcs =>
    cases hr
    have := plain (by omega) (by omega) 98 e.out (not_cred (by omega) (by omega) (by omega))
    rw [hcs] at this; exact this
  case h_16 hcs =>
    exact cinv_waiting h hd hs (fun _ => h.next (by omega) (by omega) (.inr rfl)) (by rw [hcs]; exact hr)
  case h_17 => cases hr; exact h

theorem cinv_step {c c' : Cl} {i : Client.In} (h : CInv c) (he : Client.enabled c i) (hs : Client.step c i = some c') : CInv c' := by
  cases i with
  | connect e => exact cinv_connect h he.1 he.2 hs
  | flush r =>
    have hd : c.ks.dead = false := he
    simp only [Client.step, Option.some.injEq] at hs
    subst hs
    unfold flush
    dsimp only
    split
    · have h1 := cinv_ended h hd ((h.inv.live hd).started r.hw) (go_started _ _) r.ret
      by_cases hc : r.ret = none ∧ c.cs ∉ [1, 3, 5, 7, 9, 11, 15]
      · rw [if_pos hc]
        have h2 := hc.2
        simp only [List.mem_cons, List.not_mem_nil, not_or, or_false] at h2
        exact h1.next h2.2.1 h2.2.2.1 (.inr rfl)
      · rw [if_neg hc]; exact h1
    · exact h
  | receive e =>
    simp only [Client.step, Option.map_eq_some_iff] at hs
    obtain ⟨⟨r, c2⟩, hr, rfl⟩ := hs
    exact cinv_receive h he.1 he.2 hr
  | start e =>
    have hd : c.ks.dead = false := he
    simp only [Client.step, Option.some.injEq] at hs
    subst hs
    exact cinv_ended h hd ((h.inv.live hd).sendKexInit e) (go_sendKexInit _ _) _
  | send m o =>
    have hd : c.ks.dead = false := he.1
    simp only [Client.step, Option.some.injEq] at hs
    subst hs
    have l := (h.inv.live hd).send m o
    have g := go_send (not_cred he.2.2.1 he.2.2.2.1 he.2.2.2.2) c.ks o
    refine ⟨⟨l.hist, fun _ => l⟩, g.1.2.trans h.side, h.guard.grow g.1, fun _ => (h.live hd).ext g.2⟩

theorem cinv_reach {c : Cl} (h : Client.Reach c) : CInv c := by
  induction h with
  | init => exact cinv_init
  | step _ he hs ih => exact cinv_step ih he hs

/-- The keys in use for sending on a client are those of an accepted and checked exchange. -/
theorem lastTx_proved {log : List Ev} (h : Orderly .client log) {n : Nat} (ht : lastTx log = some n) :
    .newTx (some n) ∈ log ∧ .accepted n ∈ log ∧ .verified n ∈ log := by
  induction log with
  | nil => cases ht
  | cons e l ih =>
    have hl : Orderly .client l := fun a b c hh => h (e :: a) b c (by rw [hh]; rfl)
    have up : .newTx (some n) ∈ l ∧ .accepted n ∈ l ∧ .verified n ∈ l → .newTx (some n) ∈ e :: l ∧ .accepted n ∈ e :: l ∧ .verified n ∈ e :: l :=
      fun x => ⟨List.mem_cons_of_mem _ x.1, List.mem_cons_of_mem _ x.2.1, List.mem_cons_of_mem _ x.2.2⟩
    cases e with
    | newTx k =>
      have ht : k = some n := ht
      subst ht
      obtain ⟨n', k0, rest, hn, hb, _, _, hc⟩ := h [] _ _ rfl
      cases hn
      have := hc rfl
      exact ⟨List.mem_cons_self, List.mem_cons_of_mem _ this.1, List.mem_cons_of_mem _ this.2⟩
    | sent m k => exact up (ih hl ht)
    | acted m k => exact up (ih hl ht)
    | accepted m => exact up (ih hl ht)
    | verified m => exact up (ih hl ht)
    | derived m => exact up (ih hl ht)
    | newRx k => exact up (ih hl ht)

theorem newTx_proved {log : List Ev} (h : Orderly .client log) {n : Nat} (ht : .newTx (some n) ∈ log) :
    .accepted n ∈ log ∧ .verified n ∈ log := by
  obtain ⟨a, b, rfl⟩ := List.append_of_mem ht
  obtain ⟨n', k0, rest, hn, hb, _, _, hc⟩ := h a _ b rfl
  cases hn
  have := hc rfl
  exact ⟨List.mem_append_right _ (List.mem_cons_of_mem _ this.1), List.mem_append_right _ (List.mem_cons_of_mem _ this.2)⟩

theorem lastRx_proved {log : List Ev} (h : Orderly .client log) {n : Nat} (ht : lastRx log = some n) :
    .accepted n ∈ log ∧ .verified n ∈ log := by
  induction log with
  | nil => cases ht
  | cons e l ih =>
    have hl : Orderly .client l := fun a b c hh => h (e :: a) b c (by rw [hh]; rfl)
    have up : .accepted n ∈ l ∧ .verified n ∈ l → .accepted n ∈ e :: l ∧ .verified n ∈ e :: l :=
      fun x => ⟨List.mem_cons_of_mem _ x.1, List.mem_cons_of_mem _ x.2⟩
    cases e with
    | newRx k =>
      have ht : k = some n := ht
      subst ht
      obtain ⟨n', k0, rest, hn, hb, hx, _⟩ := h [] _ _ rfl
      cases hn
      exact up (newTx_proved hl hx)
    | sent m k => exact up (ih hl ht)
    | acted m k => exact up (ih hl ht)
    | accepted m => exact up (ih hl ht)
    | verified m => exact up (ih hl ht)
    | derived m => exact up (ih hl ht)
    | newTx k => exact up (ih hl ht)

theorem guarded {c : Cl} (h : CInv c) : Guarded c.ks.log := by
  intro later m k before hl hc
  have ho : Orderly .client c.ks.log := h.side ▸ h.inv.hist
  have g := h.guard later m k before hl hc
  have hb : Orderly .client before := fun a x b hh => ho (later ++ .sent m k :: a) x b (by rw [hl, hh]; simp)
  have hk : k = lastTx before := ho later _ before hl
  obtain ⟨n, hn⟩ := Option.ne_none_iff_exists'.1 g.1
  obtain ⟨n', hn'⟩ := Option.ne_none_iff_exists'.1 g.2
  have := lastTx_proved hb (hk ▸ hn)
  exact ⟨⟨n, hn, this.2⟩, n', hn', lastRx_proved hb hn'⟩

end Proofs.Client
