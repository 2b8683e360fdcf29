import Verif.Proofs.Keying
/-!
# One exchange at a time, if nothing starts a second one
-/

namespace Proofs.KeyingOnce
open Wolf Wolf.Keying Spec.Keying Proofs.Keying
open Wolf.UserAuth (Ret)

theorem turns_nil : InTurns [] := by intro l m k b h; simp at h

theorem turns_cons {e : Ev} {l : List Ev} (h : InTurns l)
    (he : ∀ m k, e = .sent m k → (m = 20 → opened l = false) ∧ (m = 21 → opened l = true)) : InTurns (e :: l) := by
  intro later m k before hl
  cases later with
  | nil => simp at hl; obtain ⟨rfl, rfl⟩ := hl; exact he m k rfl
  | cons y ys => simp at hl; exact h ys m k before hl.2

/-- `self` says whether an own exchange is open. -/
structure Turn (k : Ks) : Prop where
  turns : InTurns k.log
  self : k.self = opened k.log

theorem Turn.other {k : Ks} (h : Turn k) {e : Ev} (he : ∀ m x, e = .sent m x → m ≠ 20 ∧ m ≠ 21) : Turn (k.note e) := by
  refine ⟨turns_cons h.turns (fun m x hm => ⟨fun h1 => absurd h1 (he m x hm).1, fun h1 => absurd h1 (he m x hm).2⟩), ?_⟩
  show k.self = opened (e :: k.log)
  rw [h.self]
  cases e with
  | sent m x => have := he m x rfl; simp [opened, this.1, this.2]
  | _ => rfl

theorem Turn.send {k : Ks} (h : Turn k) {m : Nat} (h1 : m ≠ 20) (h2 : m ≠ 21) {o : Out} (ho : CalmOut o) : Turn (send m k o).2 := by
  unfold Wolf.Keying.send
  cases o.bundle with
  | some e => exact h
  | none =>
    rw [show o.fl.hw = 0 from ho]
    exact h.other (by intro m' x he; cases he; exact ⟨h1, h2⟩)

theorem Turn.sendExpect {k : Ks} (h : Turn k) {m : Nat} (h1 : m ≠ 20) (h2 : m ≠ 21) (x : Nat) (a : Hs) {o : Out} (ho : CalmOut o) :
    Turn (sendExpect m x k a o).2 := by
  unfold Wolf.Keying.sendExpect
  cases o.bundle with
  | some e => exact h
  | none =>
    rw [show o.fl.hw = 0 from ho]
    have := h.other (e := .sent m k.tx) (by intro m' x he; cases he; exact ⟨h1, h2⟩)
    exact ⟨this.turns, this.self⟩

theorem Turn.sends {k : Ks} (h : Turn k) {l : List (Nat × Out)} (hl : ∀ x ∈ l, (x.1 < 20 ∨ 49 < x.1) ∧ CalmOut x.2) : Turn (sends l k) := by
  induction l generalizing k with
  | nil => exact h
  | cons x l ih =>
    have := hl x List.mem_cons_self
    exact ih (h.send (by omega) (by omega) this.2) (fun y hy => hl y (List.mem_cons_of_mem _ hy))

theorem Turn.adjust {k : Ks} (h : Turn k) {l : List Out} (hl : ∀ o ∈ l, CalmOut o) : Turn (adjust l k).2 := by
  induction l generalizing k with
  | nil => exact h
  | cons x l ih =>
    unfold Wolf.Keying.adjust
    split
    · exact h
    · exact ih (h.send (by omega) (by omega) (hl x List.mem_cons_self)) (fun y hy => hl y (List.mem_cons_of_mem _ hy))

/-- While keying nothing is credited. -/
theorem adjust_keying {k : Ks} (h : k.peer = true) (l : List Out) : adjust l k = (none, k) := by
  cases l with
  | nil => rfl
  | cons o l => unfold adjust; rw [if_pos (.inr h)]

/-- Own keying is over, the peer's `SSH_MSG_NEWKEYS` is all that is awaited. -/
def Half (k : Ks) : Prop := k.peer = true → k.self = false → ∃ h, k.hs = some h ∧ h.expect = 21

/-- A call leaves the turns in order, and unless it ends the session, `self` and what is awaited too. -/
structure Left (r : Ret) (k : Ks) : Prop where
  turns : InTurns k.log
  live : Session.usable r = true → Turn k ∧ Half k

theorem left_sendKexInit {k : Ks} (h : Turn k) (hs : k.self = false) {e : InitEnv} (he : CalmInit e) :
    Left (sendKexInit k e).1 (sendKexInit k e).2 ∧ ((sendKexInit k e).1 = none ∨ (sendKexInit k e).1 = some .wantWrite → (sendKexInit k e).2.self = true) := by
  unfold Wolf.Keying.sendKexInit
  split
  · exact ⟨⟨h.turns, fun hu => by cases hu⟩, fun hu => by rcases hu with hu | hu <;> cases hu⟩
  · split
    · exact ⟨⟨h.turns, fun hu => by cases hu⟩, fun hu => by rcases hu with hu | hu <;> cases hu⟩
    · unfold Wolf.Keying.send
      cases hb : e.out.bundle with
      | some x =>
        have := firm_some (hb ▸ he.bundle)
        refine ⟨⟨h.turns, fun hu => ?_⟩, fun _ => rfl⟩
        rw [this] at hu; cases hu
      | none =>
        dsimp only
        rw [show e.out.fl.hw = 0 from he.out]
        have ht : InTurns (.sent 20 k.tx :: k.log) := turns_cons h.turns (by
          intro m x hm; cases hm
          exact ⟨fun _ => h.self ▸ hs, fun h => (by cases h)⟩)
        exact ⟨⟨ht, fun _ => ⟨⟨ht, by simp [started, Ks.note, opened]⟩, by intro _ hs; cases hs⟩⟩, fun _ => rfl⟩

theorem left_sendNewKeys {k : Ks} {h : Hs} (t : Turn k) (hs : k.self = true) (hp : k.peer = true) (hh : k.hs = some h) (hx : h.expect = 21)
    {e : NkEnv} (ho : CalmOut e.out) (hb : Firm e.out.bundle) (hc : Firm e.cipher) :
    Left (sendNewKeys k h e).1 (sendNewKeys k h e).2 := by
  unfold Wolf.Keying.sendNewKeys
  cases hbb : e.out.bundle with
  | some x =>
    refine ⟨t.turns, fun hu => ?_⟩
    rw [firm_some (hbb ▸ hb)] at hu; cases hu
  | none =>
    dsimp only
    have ht : InTurns (.sent 21 k.tx :: k.log) := turns_cons t.turns (by
      intro m x hm; cases hm
      exact ⟨fun h => (by cases h), fun _ => t.self ▸ hs⟩)
    cases hcc : e.cipher with
    | some x =>
      refine ⟨ht, fun hu => ?_⟩
      rw [firm_some (hcc ▸ hc)] at hu; cases hu
    | none =>
      dsimp only
      rw [show e.out.fl.hw = 0 from ho]
      simp only [started]
      rw [adjust_keying (by exact hp)]
      have ht2 : InTurns (.newTx h.keys :: .sent 21 k.tx :: k.log) := turns_cons ht (by intro m x hm; cases hm)
      exact ⟨ht2, fun _ => ⟨⟨ht2, rfl⟩, fun _ _ => ⟨h, hh, hx⟩⟩⟩

theorem Left.of {k : Ks} (t : Turn k) (h : Half k) (r : Ret) : Left r k := ⟨t.turns, fun _ => ⟨t, h⟩⟩

/-- A call while own keying goes on. -/
theorem Left.own {k : Ks} (t : Turn k) (h : k.self = true) (r : Ret) : Left r k :=
  ⟨t.turns, fun _ => ⟨t, fun _ hs => by rw [h] at hs; cases hs⟩⟩

theorem Left.fail {k : Ks} (t : Turn k) {r : Ret} (h : Session.usable r = false) : Left r k :=
  ⟨t.turns, fun hu => by rw [h] at hu; cases hu⟩

theorem sendExpect_self {m x : Nat} {k : Ks} {h : Hs} {o : Out} (hs : k.self = true) : (sendExpect m x k h o).2.self = true := by
  unfold Wolf.Keying.sendExpect
  cases o.bundle with
  | some e => exact hs
  | none => exact started_self _ hs

theorem turn_sendKexDhInit {k : Ks} (t : Turn k) (hs : k.self = true) (h : Hs) {e : DhEnv} (he : CalmOut e.out) :
    Turn (sendKexDhInit k h e).2 ∧ (sendKexDhInit k h e).2.self = true := by
  unfold Wolf.Keying.sendKexDhInit
  cases e.crypto with
  | some x => exact ⟨t, hs⟩
  | none =>
    dsimp only
    split
    · exact ⟨t.sendExpect (by omega) (by omega) _ _ he, sendExpect_self hs⟩
    · exact ⟨t.sendExpect (by omega) (by omega) _ _ he, sendExpect_self hs⟩

theorem turn_sendKexDh {k : Ks} (t : Turn k) (hs : k.self = true) (h : Hs) {e : DhEnv} (he : CalmOut e.out) :
    Turn (sendKexDh k h e).2 ∧ (sendKexDh k h e).2.self = true := by
  unfold Wolf.Keying.sendKexDh
  split
  · exact ⟨t.sendExpect (by omega) (by omega) _ _ he, sendExpect_self hs⟩
  · exact turn_sendKexDhInit t hs h he

theorem turns_sendKexDh {k : Ks} (t : InTurns k.log) (h : Hs) {e : DhEnv} (he : CalmOut e.out) :
    InTurns (sendKexDh k h e).2.log := by
  have key : ∀ m x, m ≠ 20 → m ≠ 21 → InTurns (sendExpect m x k h e.out).2.log := by
    intro m x h1 h2
    unfold Wolf.Keying.sendExpect
    cases e.out.bundle with
    | some e => exact t
    | none =>
      rw [show e.out.fl.hw = 0 from he]
      exact turns_cons t (by intro m' x he; cases he; exact ⟨fun h => absurd h h1, fun h => absurd h h2⟩)
  unfold Wolf.Keying.sendKexDh
  split
  · exact key _ _ (by omega) (by omega)
  · unfold Wolf.Keying.sendKexDhInit
    cases e.crypto with
    | some x => exact t
    | none =>
      dsimp only
      split
      · exact key _ _ (by omega) (by omega)
      · exact key _ _ (by omega) (by omega)

theorem left_doKexDhReply {k : Ks} (t : Turn k) (hs : k.self = true) (hp : k.peer = true) (h : Hs) {e : KexEnv} (he : CalmKex e) :
    Left (doKexDhReply k h e).1 (doKexDhReply k h e).2 := by
  unfold Wolf.Keying.doKexDhReply
  by_cases h1 : e.empty = true
  · rw [if_pos h1]; exact .own t hs _
  rw [if_neg h1]
  by_cases h2 : h.skip = true
  · rw [if_pos h2]; exact .own (k := { k with hs := some { h with skip := false } }) ⟨t.turns, t.self⟩ hs none
  rw [if_neg h2]
  cases e.parse with
  | some x => exact .own t hs _
  | none =>
  dsimp only
  by_cases h3 : e.check = false
  · rw [if_pos h3]; exact .own t hs _
  rw [if_neg h3]
  have t1 : Turn (k.note (.accepted k.ex)) := t.other (by intro m x h; cases h)
  cases e.agree with
  | some x => exact .own t1 hs _
  | none =>
  dsimp only
  by_cases h4 : e.sig = false
  · rw [if_pos h4]; exact .own t1 hs _
  rw [if_neg h4]
  have t2 : Turn ((k.note (.accepted k.ex)).note (.verified k.ex)) := t1.other (by intro m x h; cases h)
  cases e.derive with
  | some x => exact .own t2 hs _
  | none =>
    refine left_sendNewKeys ?_ ?_ ?_ ?_ rfl he.nk he.sane.nkBundle he.sane.nkCipher
    · have t3 := t2.other (e := .derived k.ex) (by intro m x h; cases h)
      exact ⟨t3.turns, t3.self⟩
    · exact hs
    · exact hp
    · rfl

theorem left_doKexDhInit {k : Ks} (t : Turn k) (hs : k.self = true) (hp : k.peer = true) (h : Hs) {e : KexEnv} (he : CalmKex e) :
    Left (doKexDhInit k h e).1 (doKexDhInit k h e).2 := by
  unfold Wolf.Keying.doKexDhInit
  by_cases h1 : e.empty = true
  · rw [if_pos h1]; exact .own t hs _
  rw [if_neg h1]
  by_cases h2 : h.skip = true
  · rw [if_pos h2]; exact .own (k := { k with hs := some { h with skip := false } }) ⟨t.turns, t.self⟩ hs none
  rw [if_neg h2]
  cases e.parse with
  | some x => exact .own t hs _
  | none =>
  dsimp only
  unfold Wolf.Keying.sendKexDhReply
  cases e.agree with
  | some x => exact .own t hs _
  | none =>
  cases e.derive with
  | some x => exact .own t hs _
  | none =>
  dsimp only
  have t1 : ∀ a, Turn (k.derive a) := fun a => by
    have := t.other (e := .derived k.ex) (by intro m x h; cases h)
    exact ⟨this.turns, this.self⟩
  cases hb : e.dh.out.bundle with
  | some x => exact .own (t1 _) hs _
  | none =>
  dsimp only
  generalize hm : (if h.gex = true then 33 else 31) = m
  have hm' : m ≠ 20 ∧ m ≠ 21 := by
    rw [← hm]; split
    · omega
    · omega
  have t2 := (t1 { h with keys := some k.ex }).other (e := .sent m k.tx) (by intro m' x h; cases h; exact hm')
  have f := left_sendNewKeys (k := { (k.derive { h with keys := some k.ex }).note (.sent m (k.derive { h with keys := some k.ex }).tx) with
      hs := some { h with keys := some k.ex, expect := 21 } }) (h := { h with keys := some k.ex, expect := 21 })
      ⟨t2.turns, t2.self⟩ hs hp rfl rfl he.nk he.sane.nkBundle he.sane.nkCipher
  generalize Wolf.Keying.sendNewKeys _ _ e.nk = r at f ⊢
  obtain ⟨r1, r2⟩ := r
  cases r1 with
  | some x => cases e.ext <;> exact f
  | none =>
    cases hx : e.ext with
    | none => exact f
    | some o =>
      have l := f.live rfl
      have ho := he.ext o hx
      have t3 := l.1.send (m := 7) (by omega) (by omega) ho
      refine .of t3 ?_ _
      intro hp' hs'
      have key : (send 7 r2 o).2.hs = r2.hs ∧ (send 7 r2 o).2.self = r2.self ∧ (send 7 r2 o).2.peer = r2.peer := by
        unfold Wolf.Keying.send
        cases o.bundle with
        | some e => exact ⟨rfl, rfl, rfl⟩
        | none => rw [show o.fl.hw = 0 from ho]; exact ⟨rfl, rfl, rfl⟩
      have hp' : (send 7 r2 o).2.peer = true := hp'
      have hs' : (send 7 r2 o).2.self = false := hs'
      rw [key.2.2] at hp'
      rw [key.2.1] at hs'
      obtain ⟨a, ha, hx⟩ := l.2 hp' hs'
      exact ⟨a, key.1.trans ha, hx⟩

theorem left_doGexGroup {k : Ks} (t : Turn k) (hs : k.self = true) (h : Hs) {e : KexEnv} (he : CalmKex e) :
    Left (doGexGroup k h e).1 (doGexGroup k h e).2 := by
  unfold Wolf.Keying.doGexGroup
  by_cases h1 : e.empty = true
  · rw [if_pos h1]; exact .own t hs _
  rw [if_neg h1]
  by_cases h2 : h.skip = true
  · rw [if_pos h2]; exact .own (k := { k with hs := some { h with skip := false } }) ⟨t.turns, t.self⟩ hs none
  rw [if_neg h2]
  cases e.parse with
  | some x => exact .own t hs _
  | none =>
    have := turn_sendKexDhInit t hs h he.dh
    exact .own this.1 this.2 _

theorem left_doGexRequest {k : Ks} (t : Turn k) (hs : k.self = true) (h : Hs) {e : KexEnv} (he : CalmKex e) :
    Left (doGexRequest k h e).1 (doGexRequest k h e).2 := by
  unfold Wolf.Keying.doGexRequest
  by_cases h1 : e.empty = true
  · rw [if_pos h1]; exact .own t hs _
  rw [if_neg h1]
  by_cases h2 : h.skip = true
  · rw [if_pos h2]; exact .own (k := { k with hs := some { h with skip := false } }) ⟨t.turns, t.self⟩ hs none
  rw [if_neg h2]
  cases e.parse with
  | some x => exact .own t hs _
  | none => exact .own (t.sendExpect (by omega) (by omega) _ _ he.dh) (sendExpect_self hs) _

theorem left_doNewKeys {k : Ks} (t : Turn k) {e : KexEnv} (he : CalmKex e) : Left (doNewKeys k e).1 (doNewKeys k e).2 := by
  unfold Wolf.Keying.doNewKeys
  cases hh : k.hs with
  | none => exact .fail t rfl
  | some a =>
    dsimp only
    by_cases h1 : e.empty = false
    · rw [if_pos h1]; exact .fail t rfl
    rw [if_neg h1]
    by_cases hs : k.self = true
    · rw [if_pos hs]; exact .fail t rfl
    rw [if_neg hs]
    cases hc : e.cipher with
    | some x => exact .fail (k := { k with rx := none, hs := some a }) ⟨t.turns, t.self⟩ (firm_some (hc ▸ he.sane.cipher))
    | none =>
      have t1 := t.other (e := .newRx a.keys) (by intro m x h; cases h)
      have t2 : Turn { k.note (.newRx a.keys) with rx := a.keys, peer := false, hs := none } := ⟨t1.turns, t1.self⟩
      refine .of (t2.adjust he.adj) ?_ _
      intro hp
      exfalso
      have key : ∀ (l : List Out) (k : Ks), k.peer = false → (adjust l k).2.peer = false := by
        intro l
        induction l with
        | nil => exact fun k h => h
        | cons o l ih =>
          intro k h
          unfold adjust
          split
          · exact h
          · exact ih _ ((send_peer _ _ _).trans h)
      have hp : (adjust e.adj { k.note (.newRx a.keys) with rx := a.keys, peer := false, hs := none }).2.peer = true := hp
      rw [key _ _ rfl] at hp
      cases hp

theorem left_ownInit {k : Ks} (t : Turn k) {e : InitEnv} (he : CalmInit e) :
    Left (ownInit k e).1 (ownInit k e).2 := by
  unfold ownInit
  by_cases hs : k.self = true
  · rw [if_pos hs]; exact .own t hs _
  · rw [if_neg hs]; exact (left_sendKexInit t (by simpa using hs) he).1

theorem ownInit_self {k : Ks} (t : Turn k) {e : InitEnv} (he : CalmInit e) (h : (ownInit k e).1 = none ∨ (ownInit k e).1 = some .wantWrite) :
    Turn (ownInit k e).2 ∧ (ownInit k e).2.self = true := by
  have hl := left_ownInit t he
  have hu : Session.usable (ownInit k e).1 = true := by rcases h with h | h <;> rw [h] <;> rfl
  refine ⟨(hl.live hu).1, ?_⟩
  unfold ownInit at h ⊢
  by_cases hs : k.self = true
  · rw [if_pos hs]; exact hs
  · rw [if_neg hs] at h ⊢; exact (left_sendKexInit t (by simpa using hs) he).2 h

theorem matchError_usable {r : Ret} (h : isMatchError r = true) : Session.usable r = false := by
  cases r with
  | none => cases h
  | some e => cases e <;> first | rfl | cases h

theorem turns_send {k : Ks} (t : InTurns k.log) {m : Nat} (h1 : m ≠ 20) (h2 : m ≠ 21) {o : Out} (ho : CalmOut o) : InTurns (send m k o).2.log := by
  unfold Wolf.Keying.send
  cases o.bundle with
  | some e => exact t
  | none =>
    rw [show o.fl.hw = 0 from ho]
    exact turns_cons t (by intro m' x he; cases he; exact ⟨fun h => absurd h h1, fun h => absurd h h2⟩)

theorem left_kexInitEnd {k : Ks} {r : Ret} (l : Left r k) {e : KexInitEnv} (he : CalmOut e.disc) :
    Left (kexInitEnd e r k).1 (kexInitEnd e r k).2 := by
  unfold kexInitEnd
  by_cases h : isMatchError r = true
  · rw [if_pos h]
    exact ⟨turns_send l.turns (by omega) (by omega) he, fun hu => by rw [matchError_usable h] at hu; cases hu⟩
  · rw [if_neg h]; exact l

/-- What `DoKexInit` leaves: as `Left`, and if the session goes on, the own `SSH_MSG_KEXINIT` is sent. -/
theorem left_doKexInit {k : Ks} (t : Turn k) {e : KexInitEnv} (hs : CalmInit e.start) (hd : CalmOut e.disc) (hp : Firm e.parse) :
    Left (doKexInit k e).1 (doKexInit k e).2.2 := by
  unfold doKexInit
  by_cases h1 : k.peer = true
  · rw [if_pos h1]; exact .fail t rfl
  rw [if_neg h1]
  by_cases h2 : k.hs.isNone = true ∧ e.alloc = false
  · rw [if_pos h2]; exact .fail (k := { k with peer := true }) ⟨t.turns, t.self⟩ rfl
  rw [if_neg h2]
  have tt : Turn (k.taken e.gex e.skip) := ⟨t.turns, t.self⟩
  cases hpp : e.parse with
  | some x => exact left_kexInitEnd (.fail tt (firm_some (hpp ▸ hp))) hd
  | none =>
    refine left_kexInitEnd ?_ hd
    unfold kexInitReply
    have hl := left_ownInit tt hs
    by_cases hr : (ownInit (k.taken e.gex e.skip) e.start).1 = none ∨ (ownInit (k.taken e.gex e.skip) e.start).1 = some .wantWrite
    · have ho := ownInit_self tt hs hr
      dsimp only
      rw [if_pos hr]
      cases e.hash with
      | some x => exact .own ho.1 ho.2 _
      | none => exact .own ho.1 ho.2 _
    · dsimp only
      rw [if_neg hr]; exact hl

/-- If the peer was keying already `DoKexInit` ends the session; else, if the session goes on, own keying goes on. -/
theorem doKexInit_self {k : Ks} (t : Turn k) {e : KexInitEnv} (hs : CalmInit e.start) (hp : Firm e.parse)
    (hu : Session.usable (doKexInit k e).1 = true) : (doKexInit k e).2.2.self = true := by
  unfold doKexInit at hu ⊢
  by_cases h1 : k.peer = true
  · rw [if_pos h1] at hu; cases hu
  rw [if_neg h1] at hu ⊢
  by_cases h2 : k.hs.isNone = true ∧ e.alloc = false
  · rw [if_pos h2] at hu; cases hu
  rw [if_neg h2] at hu ⊢
  have tt : Turn (k.taken e.gex e.skip) := ⟨t.turns, t.self⟩
  have ends : ∀ (r : Ret) (k1 : Ks), (kexInitEnd e r k1).1 = r := by intro r k1; unfold kexInitEnd; split <;> rfl
  have endk : ∀ (r : Ret) (k1 : Ks), Session.usable r = true → (kexInitEnd e r k1).2 = k1 := by
    intro r k1 hu; unfold kexInitEnd
    by_cases h : isMatchError r = true
    · rw [matchError_usable h] at hu; cases hu
    · rw [if_neg h]
  cases hpp : e.parse with
  | some x =>
    rw [hpp] at hu
    dsimp only at hu
    rw [ends, firm_some (hpp ▸ hp)] at hu; cases hu
  | none =>
    rw [hpp] at hu
    dsimp only at hu ⊢
    rw [ends] at hu
    rw [endk _ _ hu]
    unfold kexInitReply at hu ⊢
    by_cases hr : (ownInit (k.taken e.gex e.skip) e.start).1 = none ∨ (ownInit (k.taken e.gex e.skip) e.start).1 = some .wantWrite
    · have ho := ownInit_self tt hs hr
      dsimp only at hu ⊢
      rw [if_pos hr] at hu ⊢
      cases hh : e.hash with
      | some x => exact ho.2
      | none => exact ho.2
    · dsimp only at hu ⊢
      rw [if_neg hr] at hu ⊢
      unfold ownInit at hu ⊢
      by_cases hsf : (k.taken e.gex e.skip).self = true
      · rw [if_pos hsf]; exact hsf
      · rw [if_neg hsf] at hu ⊢
        rcases sendKexInit_self (k := k.taken e.gex e.skip) e.start with h | h
        · rw [h.1] at hu; cases hu
        · exact h

theorem left_kexInitCase {k : Ks} (t : Turn k) (p : Nat) {e : KexEnv} (he : CalmKex e) {r : Ret} {d : Bool} {k' : Ks}
    (hr : kexInitCase p k e = some (r, d, k')) : Left r k' := by
  have l := left_doKexInit t he.start he.disc he.sane.initParse
  have hs := doKexInit_self t he.start he.sane.initParse
  unfold kexInitCase at hr
  dsimp only at hr
  generalize doKexInit k e.init = x at l hs hr
  obtain ⟨r1, d1, k1⟩ := x
  dsimp only at l hs hr
  split at hr
  · cases hh : k1.hs with
    | none => rw [hh] at hr; cases hr
    | some a =>
      rw [hh] at hr
      simp only [Option.some.injEq, Prod.mk.injEq] at hr
      obtain ⟨rfl, _, rfl⟩ := hr
      refine ⟨turns_sendKexDh l.turns a he.dh, fun hu => ?_⟩
      have := turn_sendKexDh (l.live hu).1 (hs hu) a he.dh
      exact ⟨this.1, fun _ h => by rw [this.2] at h; cases h⟩
  · simp only [Option.some.injEq, Prod.mk.injEq] at hr
    obtain ⟨rfl, _, rfl⟩ := hr
    exact l

theorem left_kexCase {k : Ks} (t : Turn k) (p m : Nat) {e : KexEnv} (he : CalmKex e) {r : Ret} {d : Bool} {k' : Ks}
    (hp : m ≠ 20 → k.peer = true) (hs : m ≠ 20 → m ≠ 21 → k.self = true)
    (hr : kexCase p k m e = some (r, d, k')) : Left r k' := by
  unfold kexCase at hr
  by_cases h1 : m = 20
  · rw [if_pos h1] at hr; exact left_kexInitCase t p he hr
  rw [if_neg h1] at hr
  by_cases h2 : m = 21
  · rw [if_pos h2] at hr
    simp only [Option.some.injEq, Prod.mk.injEq] at hr
    obtain ⟨rfl, _, rfl⟩ := hr
    exact left_doNewKeys t he
  rw [if_neg h2] at hr
  have hp := hp h1
  have hs := hs h1 h2
  by_cases h5 : m = 30 ∨ m = 31 ∨ m = 32 ∨ m = 33 ∨ m = 34
  · rw [if_pos h5] at hr
    cases hh : k.hs with
    | none =>
      rw [hh] at hr
      simp only [Option.some.injEq, Prod.mk.injEq] at hr
      obtain ⟨rfl, _, rfl⟩ := hr
      exact .own t hs _
    | some h =>
      rw [hh] at hr
      simp only [Option.some.injEq, Prod.mk.injEq] at hr
      obtain ⟨rfl, _, rfl⟩ := hr
      by_cases h6 : m = 30 ∨ m = 32
      · rw [if_pos h6]; exact left_doKexDhInit t hs hp h he
      rw [if_neg h6]
      by_cases h7 : m = 34
      · rw [if_pos h7]; exact left_doGexRequest t hs h he
      rw [if_neg h7]
      by_cases h8 : m = 31 ∧ h.gex = true
      · rw [if_pos h8]; exact left_doGexGroup t hs h he
      rw [if_neg h8]; exact left_doKexDhReply t hs hp h he
  rw [if_neg h5] at hr
  simp only [Option.some.injEq, Prod.mk.injEq] at hr
  obtain ⟨rfl, _, rfl⟩ := hr
  refine .own (t.send (by omega) (by omega) he.dh) ?_ _
  unfold Wolf.Keying.send
  cases e.dh.out.bundle with
  | some x => exact hs
  | none => exact started_self _ hs

/-- With only `SSH_MSG_NEWKEYS` awaited, nothing else of the key exchange is taken. -/
theorem allowed_half {p : Nat} {k k' : Ks} {m : Nat} (hm : 20 ≤ m ∧ m ≤ 49) (ha : allowed p k m = (true, k')) {h : Hs}
    (hp : k.peer = true) (hh : k.hs = some h) (hx : h.expect = 21) : m = 21 := by
  unfold allowed at ha
  dsimp only at ha
  rw [Prod.mk.injEq] at ha
  have ha := ha.1
  have t := transBlock_cases ⟨p, k.peer, k.hs.map (·.expect)⟩ m
  have t2 : MsgFilter.transBlock ⟨p, k.peer, k.hs.map (·.expect)⟩ m ≠ none := by
    rw [hp, hh]
    unfold MsgFilter.transBlock
    simp only [if_true, Option.map_some, hx]
    split
    · simp
    · simp
      split <;> simp
  dsimp only at t
  rw [hp, hh, Option.map_some, hx] at t
  rcases t with t | ⟨x, t⟩ | t | t
  · cases t.2.1
  · exfalso
    rw [hp, hh, Option.map_some, hx] at ha
    cases hs : k.side <;> rw [hs] at ha
    · simp only [verdict, MsgFilter.isMessageAllowedClient] at ha
      rw [if_neg (by omega), if_neg (by omega), if_neg (by omega), if_pos (by omega), t] at ha
      cases ha
    · simp only [verdict, MsgFilter.isMessageAllowedServer] at ha
      rw [if_neg (by omega), if_neg (by omega), if_neg (by omega), if_pos (by omega), t] at ha
      cases ha
  · have := t.2.2.1; simp at this; exact this.symm
  · exfalso; rw [hp, hh, Option.map_some, hx] at t2; exact t2 t.2.2

/-- Messages outside of the key exchange leave what is awaited as it is. -/
theorem allowed_hs {p : Nat} {k : Ks} {m : Nat} (hm : ¬(20 ≤ m ∧ m ≤ 49)) : (allowed p k m).2 = k := by
  have key : ∀ f : MsgFilter.FState, (verdict k.side f m).2 = f.expect := by
    intro f
    unfold verdict
    cases k.side
    · simp only [MsgFilter.isMessageAllowedClient]
      repeat' split
      all_goals first | rfl | (exfalso; omega)
    · simp only [MsgFilter.isMessageAllowedServer]
      repeat' split
      all_goals first | rfl | (exfalso; omega)
  unfold allowed
  dsimp only
  rw [key]
  obtain ⟨s, a, b, hs, x, y, g, l, dd⟩ := k
  cases hs <;> rfl

/-- Between steps. -/
structure TInv (k : Ks) : Prop where
  turns : InTurns k.log
  live : k.dead = false → Turn k ∧ Half k

theorem Left.ended {r : Ret} {k : Ks} (l : Left r k) : TInv (ended r k) := by
  refine ⟨l.turns, fun hd => ?_⟩
  have : (k.dead || !Session.usable r) = false := hd
  rw [Bool.or_eq_false_iff] at this
  have l := l.live (by simpa using this.2)
  exact ⟨⟨l.1.turns, l.1.self⟩, l.2⟩

theorem Left.packetEnd {r : Ret} {k : Ks} (l : Left r k) {hw : Fl} (h : hw.hw = 0) : TInv (packetEnd r k hw).2 := by
  unfold Wolf.Keying.packetEnd
  rw [h]
  refine ⟨l.turns, fun hd => ?_⟩
  have : (k.dead || !Session.usable (if r = none then hw.ret else r)) = false := hd
  rw [Bool.or_eq_false_iff] at this
  have l := l.live (by
    by_cases hr : r = none
    · rw [hr]; rfl
    · rw [if_neg hr] at this; simpa using this.2)
  exact ⟨⟨l.1.turns, l.1.self⟩, l.2⟩

theorem calm_send_same {m : Nat} {k : Ks} {o : Out} (ho : CalmOut o) :
    (send m k o).2.hs = k.hs ∧ (send m k o).2.self = k.self ∧ (send m k o).2.peer = k.peer := by
  unfold Wolf.Keying.send
  cases o.bundle with
  | some e => exact ⟨rfl, rfl, rfl⟩
  | none => rw [show o.fl.hw = 0 from ho]; exact ⟨rfl, rfl, rfl⟩

theorem Half.of_same {k k' : Ks} (h : Half k) (hh : k'.hs = k.hs ∧ k'.self = k.self ∧ k'.peer = k.peer) : Half k' := by
  intro hp hs
  obtain ⟨a, ha, hx⟩ := h (hh.2.2 ▸ hp) (hh.2.1 ▸ hs)
  exact ⟨a, hh.1.trans ha, hx⟩

theorem Half.sends {k : Ks} (h : Half k) {l : List (Nat × Out)} (hl : ∀ x ∈ l, CalmOut x.2) : Half (sends l k) := by
  induction l generalizing k with
  | nil => exact h
  | cons x l ih =>
    exact ih (h.of_same (calm_send_same (hl x List.mem_cons_self))) (fun y hy => hl y (List.mem_cons_of_mem _ hy))

theorem tinv_receive {k k' : Ks} {p : Nat} {e : PktEnv} {r : Ret} {d : Bool} (lv : Live k) (t : Turn k) (hf : Half k)
    (hk : CalmKex e.kex) (hm : ∀ x ∈ e.more, (x.1 < 20 ∨ 49 < x.1) ∧ CalmOut x.2) (hw : e.hw.hw = 0)
    (h : receive p k e = some (r, d, k')) : TInv k' := by
  unfold receive at h
  cases hio : e.io with
  | some x =>
    rw [hio] at h
    cases h
    exact ⟨t.turns, fun _ => ⟨⟨t.turns, t.self⟩, hf⟩⟩
  | none =>
    rw [hio] at h
    dsimp only at h
    have hkx := fun hm => allowed_kex (p := p) (k := k) (k' := (allowed p k e.msg).2) (m := e.msg) hm
    have hhf := fun hm => @allowed_half p k (allowed p k e.msg).2 e.msg hm
    have hns := fun hm => allowed_hs (p := p) (k := k) (m := e.msg) hm
    have same := allowed_same p k e.msg
    have sself : (allowed p k e.msg).2.self = k.self := rfl
    generalize ha : Wolf.Keying.allowed p k e.msg = a at h hkx hhf hns same sself
    obtain ⟨b, k1⟩ := a
    cases b with
    | false =>
      cases h
      exact ⟨by show InTurns k1.log; have hl : k1.log = k.log := same.2.2.2.1; rw [hl]; exact t.turns, fun hd => by cases hd⟩
    | true =>
      dsimp only at h hkx hhf hns same sself
      have t1 : Turn (k1.note (.acted e.msg k1.rx)) :=
        Turn.other ⟨by rw [same.2.2.2.1]; exact t.turns, by rw [sself, same.2.2.2.1]; exact t.self⟩ (by intro m x h; cases h)
      by_cases hr : 20 ≤ e.msg ∧ e.msg ≤ 49
      · rw [if_pos hr] at h
        have hkx := hkx hr rfl lv
        cases hkc : kexCase p (k1.note (.acted e.msg k1.rx)) e.msg e.kex with
        | none => rw [hkc] at h; cases h
        | some x =>
          obtain ⟨r0, d, k2⟩ := x
          rw [hkc] at h
          have := left_kexCase t1 p e.msg hk (fun h => same.1.trans (hkx.1 h)) (fun h20 h21 => by
            show k1.self = true
            rw [sself]
            by_cases hs : k.self = true
            · exact hs
            · exfalso
              have hp := hkx.1 h20
              obtain ⟨a, ha, hx⟩ := hf hp (by simpa using hs)
              exact h21 (hhf hr rfl hp ha hx)) hkc
          simp only [Option.some.injEq, Prod.mk.injEq] at h
          have h2 := this.packetEnd hw
          rw [h.2.2] at h2; exact h2
      · rw [if_neg hr] at h
        have hns : k1 = k := hns hr
        subst hns
        simp only [Option.some.injEq, Prod.mk.injEq] at h
        have l : Left e.gen (sends e.more (k1.note (.acted e.msg k1.rx))) :=
          .of (t1.sends hm) (Half.sends (k := k1.note (.acted e.msg k1.rx)) hf (fun x hx => (hm x hx).2)) _
        have h2 := l.packetEnd hw
        rw [h.2.2] at h2; exact h2

theorem tinv_step {k k' : Ks} {i : In} (lv : k.dead = false → Live k) (h : TInv k) (he : enabled k i) (hc : calm k i) (hs : step k i = some k') : TInv k' := by
  cases i with
  | start e =>
    obtain ⟨t, hf⟩ := h.live he
    simp only [step, Option.some.injEq] at hs
    subst hs
    exact (left_sendKexInit t hc.1 hc.2.2).1.ended
  | request e =>
    obtain ⟨t, hf⟩ := h.live he.1
    cases hh : k.hs with
    | none => simp only [step, hh, Option.some.injEq] at hs; subst hs; exact h
    | some a =>
      simp only [step, hh, Option.some.injEq] at hs
      subst hs
      have := turn_sendKexDh t hc.1 a hc.2
      exact (Left.own this.1 this.2 _).ended
  | send m o =>
    obtain ⟨t, hf⟩ := h.live he.1
    simp only [step, Option.some.injEq] at hs
    subst hs
    have := t.send (m := m) (o := o) (by have := he.2; omega) (by have := he.2; omega) hc
    exact ⟨this.turns, fun _ => ⟨this, hf.of_same (calm_send_same hc)⟩⟩
  | receive p e =>
    obtain ⟨t, hf⟩ := h.live he.1
    simp only [step, Option.map_eq_some_iff] at hs
    obtain ⟨⟨r, d, k2⟩, hr, rfl⟩ := hs
    exact tinv_receive (lv he.1) t hf hc.1 (fun x hx => ⟨he.2.2.2 x hx, hc.2.1 x hx⟩) hc.2.2 hr

theorem calm_reach {s : Side} {k : Ks} (h : Calm s k) : Reach s k := by
  induction h with
  | init => exact .init
  | step _ he _ hs ih => exact .step ih he hs

theorem tinv_calm {s : Side} {k : Ks} (h : Calm s k) : TInv k := by
  induction h with
  | init => exact ⟨turns_nil, fun _ => ⟨⟨turns_nil, rfl⟩, by intro h; cases h⟩⟩
  | step hr he hc hs ih => exact tinv_step (reach_inv (calm_reach hr)).live ih he hc hs

end Proofs.KeyingOnce
