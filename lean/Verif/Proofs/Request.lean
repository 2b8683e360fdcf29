import Verif.Spec.Request
import Verif.Proofs.Reader
/-! Requests against their grammar. -/

namespace Proofs.Request
open Wolf Wolf.Wire Wolf.NameList Wolf.Channel Wolf.Request Props.Wire Spec.Wire Spec.Request

/-- Calls first, packets last. -/
def Ordered (evs : List Ev) : Prop := evs = calls evs ++ (packets evs).map .packet

/-- The code a reply returns. -/
def sentRet (e : SendEnv) : Ret := if e.prep ≠ none then e.prep else e.sent

theorem sendPayload_eq (e : SendEnv) (p : Bytes) :
    sendPayload e p = (sentRet e, if e.prep = none then [.packet p] else []) := by
  unfold sendPayload sentRet
  by_cases h : e.prep = none <;> simp [h]

theorem answerFwd_eq (E : GEnv) (want : Byte) (cancel : Bool) (ret : Ret) (port : Nat) :
    answerFwd E want cancel ret port =
      (if want ≠ 0 then sentRet E.send else if ret = some .unimplemented ∨ ret = some .resourceE then none else ret,
       if Replies E.send want then
         [.packet (if ret = none then (if cancel then [81] else 81 :: encUint32 port) else [82])] else []) := by
  unfold answerFwd sendRequestSuccess sendFwdSuccess
  simp only [sendPayload_eq, c32toa_eq, MSGID_REQUEST_SUCCESS, MSGID_REQUEST_FAILURE, Replies]
  by_cases hw : want = 0
  · simp only [hw, ne_eq, not_true_eq_false, if_false, false_and]
    split <;> rfl
  · by_cases hr : ret = none <;> cases cancel <;> by_cases hp : E.send.prep = none <;> simp [hw, hr, hp]

/-- What a setup does to the application. -/
def setupCalls (E : GEnv) (body : Bytes) : List Ev :=
  match E.fwdCb, fwdBody body with
  | some cb, some b =>
    .fwd false b.1 b.2 :: (if SetUp cb.1 ∧ granted b.2 cb.1 = none then [.fwd true b.1 b.2] else [])
  | _, _ => []

def cancelCalls (E : GEnv) (body : Bytes) : List Ev :=
  match E.fwdCb, fwdBody body with
  | some _, some b => [.fwd true b.1 b.2]
  | _, _ => []

theorem packet_tail (l : List Ev) (h : ∀ e ∈ l, payload e = none) (p : List Bytes) :
    calls (l ++ p.map .packet) = l ∧ packets (l ++ p.map .packet) = p := by
  constructor
  · unfold calls
    rw [List.filter_append]
    have h1 : (p.map Ev.packet).filter (fun e => (payload e).isNone) = [] := by
      rw [List.filter_eq_nil_iff]; intro a ha
      obtain ⟨q, _, rfl⟩ := List.mem_map.1 ha; simp [payload]
    rw [h1, List.append_nil, List.filter_eq_self]
    intro a ha
    rw [h a ha]; rfl
  · unfold packets
    rw [List.filterMap_append]
    have h1 : l.filterMap payload = [] := List.filterMap_eq_nil_iff.2 h
    rw [h1, List.nil_append, List.filterMap_map]
    have : payload ∘ Ev.packet = (some : Bytes → Option Bytes) := rfl
    rw [this, List.filterMap_some]

theorem ex_ret {a : Ret} {b c : List Ev} {P : Ret → Prop} (h1 : b = c) (h2 : P a) :
    ∃ ret, some (a, b) = some (ret, c) ∧ P ret := ⟨a, by rw [h1], h2⟩

/-- The callback and the port check together: granted or not. -/
theorem setup_eq (E : GEnv) (addr : Bytes) (port : Nat) :
    ∃ r, checkPort E false addr port (callFwd E false addr port) = r ∧
    match E.fwdCb with
    | none => r = (some .unimplemented, [], port)
    | some cb =>
      r.2.1 = .fwd false addr port :: (if SetUp cb.1 ∧ granted port cb.1 = none then [.fwd true addr port] else []) ∧
      (match granted port cb.1 with
       | some p => r.1 = none ∧ r.2.2 = p
       | none => r.1 = some .resourceE) := by
  refine ⟨_, rfl, ?_⟩
  unfold checkPort callFwd granted SetUp WS_FWD_PORT_CHECK
  cases h : E.fwdCb with
  | none => simp
  | some cb =>
    obtain ⟨r, q⟩ := cb
    simp only [true_and]
    by_cases hp : port = 0
    · subst hp
      by_cases h1 : (1024 : Int) ≤ r
      · by_cases h2 : r ≤ 65535
        · have h3 : ¬ (max r 0 < 1024) := by omega
          simp [h1, h2, h3]
        · simp [h1, h2]
      · by_cases h2 : r = 0
        · subst h2; simp
        · simp [h1, h2]
    · by_cases h1 : (1024 : Int) ≤ r
      · simp [h1, hp]
      · by_cases h2 : r = 0
        · subst h2; simp [hp]
        · simp [h1, h2, hp]

theorem cancel_eq (E : GEnv) (addr : Bytes) (port : Nat) :
    checkPort E true addr port (callFwd E true addr port) =
    match E.fwdCb with
    | none => (some .unimplemented, [], port)
    | some cb => (if cb.1 = 0 then none else some .resourceE, [.fwd true addr port], port) := by
  unfold checkPort callFwd
  cases h : E.fwdCb with
  | none => simp
  | some cb => by_cases h2 : cb.1 = 0 <;> simp [h2]

/-- The body of a forwarding request, as the code reads it. -/
theorem fwdBody_cases {mem : Bytes} {len : Nat} (idx : Nat) (hl : len ≤ mem.length) (hw : len < 2^32) (E : GEnv)
    (want : Byte) (cancel : Bool) :
    (∃ e, doGlobalRequestFwd E mem len idx want cancel = some (answerFwd E want cancel (some e) 0) ∧
      e = .bufferE ∧ fwdBody (msgFrom mem len idx) = none) ∨
    (∃ addr port, fwdBody (msgFrom mem len idx) = some (addr, port) ∧
      doGlobalRequestFwd E mem len idx want cancel =
        some (let r := checkPort E cancel addr port (callFwd E cancel addr port)
              let a := answerFwd E want cancel r.1 r.2.2
              (a.1, r.2.1 ++ a.2))) := by
  unfold doGlobalRequestFwd fwdBody
  have hse : ∀ e i, getStringAlloc mem len idx = .err e i → e = .bufferE := by
    intro e i h
    unfold getStringAlloc getStringRef getUint32 at h
    grind
  have hue : ∀ j e i, getUint32 mem len j = .err e i → e = .bufferE := by
    intro j e i h
    unfold getUint32 at h
    grind
  rcases Proofs.Reader.strAlloc idx hl hw with ⟨e, i, h1, h2⟩ | ⟨s, i, h1, _, h2⟩
  · rw [h1, h2]; exact .inl ⟨e, rfl, hse _ _ h1, rfl⟩
  rw [h1, h2]
  rcases Proofs.Reader.u32 i hl hw with ⟨e, j, h3, h4⟩ | ⟨v, j, h3, _, _, h4⟩
  · simp only [h3, Option.bind_some, h4]; exact .inl ⟨e, rfl, hue _ _ _ h3, rfl⟩
  · simp only [h3, Option.bind_some, h4]; exact .inr ⟨s, v, rfl, rfl⟩

/-- A setup request. -/
theorem doFwd_setup {mem : Bytes} {len : Nat} (idx : Nat) (hl : len ≤ mem.length) (hw : len < 2^32) (E : GEnv)
    (want : Byte) :
    ∃ ret, doGlobalRequestFwd E mem len idx want false = some (ret,
      setupCalls E (msgFrom mem len idx) ++
      (if Replies E.send want then
        [match grantedPort E (msgFrom mem len idx) with | some p => 81 :: encUint32 p | none => [82]] else []).map .packet) ∧
      (want ≠ 0 → ret = sentRet E.send) ∧ (want = 0 → (ret = none ↔ fwdBody (msgFrom mem len idx) ≠ none)) := by
  rcases fwdBody_cases idx hl hw E want false with ⟨e, h, he, hb⟩ | ⟨addr, port, hb, h⟩
  · rw [h, answerFwd_eq]
    refine ex_ret ?_ ⟨?_, ?_⟩
    rotate_left
    · intro hw; rw [if_pos hw]
    · intro h0; simp [h0, he, hb]
    · unfold setupCalls grantedPort
      rw [hb]
      by_cases hr : Replies E.send want <;> cases E.fwdCb <;> simp [hr]
  · rw [h]
    obtain ⟨r, hr, hr2⟩ := setup_eq E addr port
    simp only [hr, answerFwd_eq]
    unfold setupCalls grantedPort
    rw [hb]
    cases hcb : E.fwdCb with
    | none =>
      rw [hcb] at hr2
      simp only at hr2
      subst hr2
      refine ex_ret ?_ ⟨?_, ?_⟩
      rotate_left
      · intro hw; rw [if_pos hw]
      · intro h0; simp [h0]
      · by_cases hp : Replies E.send want <;> simp [hp]
    | some cb =>
      rw [hcb] at hr2
      simp only at hr2
      obtain ⟨hc, hg⟩ := hr2
      simp only [hc]
      refine ex_ret ?_ ⟨?_, ?_⟩
      rotate_left
      · intro hw; rw [if_pos hw]
      · intro h0
        cases hgr : granted port cb.1 with
        | none => rw [hgr] at hg; simp only at hg; simp [h0, hg]
        | some p => rw [hgr] at hg; simp only at hg; simp [h0, hg.1]
      · congr 2
        congr 1
        cases hgr : granted port cb.1 with
        | none =>
          rw [hgr] at hg; simp only at hg
          by_cases hp : Replies E.send want <;> simp [hp, hg, hgr]
        | some p =>
          rw [hgr] at hg; simp only at hg
          by_cases hp : Replies E.send want <;> simp [hp, hg.1, hg.2, hgr]

/-- A cancellation. -/
theorem doFwd_cancel {mem : Bytes} {len : Nat} (idx : Nat) (hl : len ≤ mem.length) (hw : len < 2^32) (E : GEnv)
    (want : Byte) :
    ∃ ret, doGlobalRequestFwd E mem len idx want true = some (ret,
      cancelCalls E (msgFrom mem len idx) ++
      (if Replies E.send want then [[if cancelled E (msgFrom mem len idx) then 81 else 82]] else []).map .packet) ∧
      (want ≠ 0 → ret = sentRet E.send) ∧ (want = 0 → (ret = none ↔ fwdBody (msgFrom mem len idx) ≠ none)) := by
  rcases fwdBody_cases idx hl hw E want true with ⟨e, h, he, hb⟩ | ⟨addr, port, hb, h⟩
  · rw [h, answerFwd_eq]
    refine ex_ret ?_ ⟨?_, ?_⟩
    rotate_left
    · intro hw; rw [if_pos hw]
    · intro h0; simp [h0, he, hb]
    · unfold cancelCalls cancelled
      rw [hb]
      by_cases hr : Replies E.send want <;> cases E.fwdCb <;> simp [hr]
  · rw [h]
    simp only [cancel_eq, answerFwd_eq]
    unfold cancelCalls cancelled
    rw [hb]
    cases hcb : E.fwdCb with
    | none =>
      refine ex_ret ?_ ⟨?_, ?_⟩
      rotate_left
      · intro hw; rw [if_pos hw]
      · intro h0; simp [h0]
      · by_cases hp : Replies E.send want <;> simp [hp]
    | some cb =>
      refine ex_ret ?_ ⟨?_, ?_⟩
      rotate_left
      · intro hw; rw [if_pos hw]
      · intro h0; by_cases h2 : cb.1 = 0 <;> simp [h0, h2]
      · by_cases hp : Replies E.send want <;> by_cases h2 : cb.1 = 0 <;> simp [hp, h2]

theorem otherGlobal_eq (E : GEnv) (name : Bytes) (want : Byte) :
    otherGlobal E name want =
      (if want ≠ 0 then sentRet E.send else (match E.globalReqCb with | some r => r | none => none),
       (if E.globalReqCb = none then [] else [.global name want]) ++
       (if Replies E.send want then [[if otherAccepted E then (81 : Byte) else 82]] else []).map .packet) := by
  unfold otherGlobal sendRequestSuccess otherAccepted Replies
  simp only [sendPayload_eq, MSGID_REQUEST_SUCCESS, MSGID_REQUEST_FAILURE]
  cases h : E.globalReqCb with
  | none => by_cases hw : want = 0 <;> by_cases hp : E.send.prep = none <;> simp [hw, hp]
  | some r => by_cases hw : want = 0 <;> by_cases hp : E.send.prep = none <;> simp [hw, hp]

/-- A name cut to 79 bytes is a known one only if it was not cut. -/
theorem take_name' {s n : Bytes} {k : Nat} (hn : n.length < k) : s.take k = n ↔ s = n := by
  constructor
  · intro h
    have h1 : s.length < k := by
      have := congrArg List.length h
      rw [List.length_take] at this; omega
    rwa [List.take_of_length_le (by omega)] at h
  · rintro rfl; exact List.take_of_length_le (by omega)

theorem asc_fwd : (asc "tcpip-forward").length = 13 ∧ (asc "cancel-tcpip-forward").length = 20 ∧
    asc "tcpip-forward" ≠ asc "cancel-tcpip-forward" := by decide

theorem nameToId_glob (n : Bytes) : nameToId globTable n =
    if n = asc "tcpip-forward" then ID_GLOBREQ_TCPIP_FWD
    else if n = asc "cancel-tcpip-forward" then ID_GLOBREQ_TCPIP_FWD_CANCEL else ID_UNKNOWN := by
  simp only [nameToId, globTable, nameToIdType]
  by_cases h1 : n = asc "tcpip-forward"
  · simp [h1]
  · by_cases h2 : n = asc "cancel-tcpip-forward"
    · subst h2; simp [Ne.symm asc_fwd.2.2]
    · simp [h1, h2]

/-- The header of a global request, as the code reads it. -/
theorem global_cases {mem : Bytes} {len : Nat} (hl : len ≤ mem.length) (hw : len < 2^32) (E : GEnv) :
    (∃ e, doGlobalRequest E mem len 0 = some (some e, []) ∧ globalMsg (mem.take len) = none) ∨
    (∃ name want i, globalMsg (mem.take len) = some (name, want, msgFrom mem len i) ∧
      doGlobalRequest E mem len 0 =
        if name = asc "tcpip-forward" then doGlobalRequestFwd E mem len i want false
        else if name = asc "cancel-tcpip-forward" then doGlobalRequestFwd E mem len i want true
        else some (otherGlobal E (name.take 79) want)) := by
  have hm : mem.take len = msgFrom mem len 0 := by simp [msgFrom]
  unfold doGlobalRequest globalMsg
  by_cases h0 : len = 0
  · subst h0; exact .inl ⟨.badArgument, by simp, by simp [string, uint32]⟩
  rw [if_neg h0, hm]
  rcases Proofs.Reader.str 80 0 (by omega) (by omega) hl hw with ⟨e, i, h1, h2⟩ | ⟨s, i, h1, _, h2⟩
  · rw [h1, h2]; exact .inl ⟨e, rfl, rfl⟩
  rw [h1, h2]
  rcases Proofs.Reader.bool i hl hw with ⟨e, j, h3, h4⟩ | ⟨v, j, h3, _, h4⟩
  · simp only [h3, Option.bind_some, h4]; exact .inl ⟨e, rfl, rfl⟩
  simp only [h3, Option.bind_some, h4]
  refine .inr ⟨s, v, j, rfl, ?_⟩
  simp only [List.dropLast_concat, nameToId_glob]
  have t1 : (s.take (80 - 1) = asc "tcpip-forward") = (s = asc "tcpip-forward") :=
    propext (take_name' (by rw [asc_fwd.1]; omega))
  have t2 : (s.take (80 - 1) = asc "cancel-tcpip-forward") = (s = asc "cancel-tcpip-forward") :=
    propext (take_name' (by rw [asc_fwd.2.1]; omega))
  simp only [t1, t2]
  by_cases h5 : s = asc "tcpip-forward"
  · simp [h5]
  · by_cases h6 : s = asc "cancel-tcpip-forward"
    · subst h6
      simp [Ne.symm asc_fwd.2.2, ID_GLOBREQ_TCPIP_FWD, ID_GLOBREQ_TCPIP_FWD_CANCEL]
    · simp [h5, h6, ID_UNKNOWN, ID_GLOBREQ_TCPIP_FWD, ID_GLOBREQ_TCPIP_FWD_CANCEL]

/-! ## Channel requests -/

theorem strncmp_same (a b : Bytes) (hab : a.length = b.length) (hb : (0 : UInt8) ∉ b) :
    strncmpEq (a ++ [0]) (b ++ [0]) b.length = some true ↔ a = b := by
  induction a generalizing b with
  | nil => cases b with
    | nil => simp [strncmpEq]
    | cons => simp at hab
  | cons x a ih => cases b with
    | nil => simp at hab
    | cons y b =>
      simp only [List.length_cons, Nat.add_right_cancel_iff] at hab
      simp only [List.mem_cons, not_or] at hb
      have := ih b hab hb.2
      simp only [List.cons_append, List.length_cons, strncmpEq]
      by_cases hxy : x = y
      · subst hxy
        simp [Ne.symm hb.1, this]
      · simp [hxy]

/-- Exact match of a type cut to 31 bytes, for a name shorter than that. -/
theorem requestIs_eq (s n : Bytes) (h31 : n.length < 31) (h0 : (0 : UInt8) ∉ n) :
    requestIs (s.take (32 - 1) ++ [0]) ((s.take (32 - 1) ++ [0]).length - 1) n = decide (s = n) := by
  unfold requestIs
  have hlen : (s.take (32 - 1) ++ [0]).length - 1 = (s.take 31).length := by
    rw [List.length_append]; rfl
  rw [hlen]
  by_cases hl : (s.take 31).length = n.length
  · rw [decide_eq_decide]
    have hiff : s.take 31 = n ↔ s = n := take_name' h31
    constructor
    · rintro ⟨_, h⟩
      exact hiff.1 ((strncmp_same _ _ hl h0).1 h)
    · intro h
      exact ⟨hl, (strncmp_same _ _ hl h0).2 (hiff.2 h)⟩
  · rw [decide_eq_decide]
    constructor
    · rintro ⟨h, _⟩; exact absurd h hl
    · rintro rfl; exact absurd (by rw [List.take_of_length_le (by omega)]) hl

variable {mem : Bytes} {len : Nat}

/-- The outcome `o` of a request body is what the specification says about `b`; `q` says that a malformed request of this
type has no effect. -/
def Fits (E : CEnv) (s : Sess) (id : Nat) (q : Prop) (want : Byte) (b : Option Body) (o : Out) : Prop :=
  match b with
  | some b => (o.ret = none ∧ o.rej = false ↔ allowed E b = true) ∧ o.evs = bodyCalls E id b ∧ o.s = effect E id s b ∧
      o.want = want ∧ (o.ret ≠ none → allowed E b = false)
  | none => o.ret ≠ none ∧ o.want = want ∧ o.s.conn = s.conn ∧ (∀ n, n ≠ id → o.s.info n = s.info n) ∧
      o.s.exitStatus = s.exitStatus ∧ o.s.modes = s.modes ∧ o.s.useAgent = s.useAgent ∧ (∀ e ∈ o.evs, payload e = none) ∧
      (q → o.s = s ∧ o.evs = [])

theorem reqEnv_fits (q : Prop) (E : CEnv) (s : Sess) (id idx : Nat) (want : Byte) (hl : len ≤ mem.length) (hw : len < 2^32) :
    ∃ o, reqEnv s mem len idx want = some o ∧
      Fits E s id q want ((string (msgFrom mem len idx)).bind fun p => (string p.2).map fun _ => .env) o := by
  unfold reqEnv
  rcases Proofs.Reader.str MAX_NAMESZ idx (by decide) (by decide) hl hw with ⟨e, i, h1, h2⟩ | ⟨t, i, h1, _, h2⟩
  · rw [h1, h2]; exact ⟨_, rfl, by simp [Fits]⟩
  rw [h1, h2]
  rcases Proofs.Reader.str 32 i (by decide) (by decide) hl hw with ⟨e, j, h3, h4⟩ | ⟨u, j, h3, _, h4⟩
  · simp only [h3, Option.bind_some, h4]; exact ⟨_, rfl, by simp [Fits]⟩
  · simp only [h3, Option.bind_some, h4]
    exact ⟨_, rfl, by simp [Fits, allowed, bodyCalls, effect]⟩

theorem ask_eq (cb : Option Int) (ev : Ev) : ask cb ev = (!agrees cb, if cb = none then [] else [ev]) := by
  unfold ask agrees
  cases cb with
  | none => simp
  | some r => by_cases h : r = 0 <;> simp [h]

theorem reqShell_fits (q : Prop) (E : CEnv) (s : Sess) (id : Nat) (want : Byte) :
    Fits E s id q want (some .shell) (reqShell E s id want) := by
  unfold reqShell
  simp only [ask_eq]
  simp [Fits, allowed, bodyCalls, effect, setInfo]

theorem reqExec_fits {q : Prop} (hq : ¬ q) (E : CEnv) (s : Sess) (id idx : Nat) (want : Byte) (hl : len ≤ mem.length) (hw : len < 2^32) :
    ∃ o, reqExec E s id mem len idx want = some o ∧
      Fits E s id q want ((string (msgFrom mem len idx)).map fun p => .exec p.1) o := by
  unfold reqExec readCommand
  simp only [ask_eq]
  rcases Proofs.Reader.strAlloc idx hl hw with ⟨e, i, h1, h2⟩ | ⟨t, i, h1, _, h2⟩
  · rw [h1, h2]
    refine ⟨_, rfl, ?_⟩
    simp only [Fits, Option.map_none]
    refine ⟨nofun, by trivial, by trivial, fun n hn => by simp [setInfo, hn], by trivial, by trivial, by trivial, ?_, fun h => absurd h hq⟩
    cases E.execCb <;> simp [payload]
  · rw [h1, h2]
    exact ⟨_, rfl, by simp [Fits, allowed, bodyCalls, effect, setInfo]⟩

theorem reqSubsys_fits {q : Prop} (hq : ¬ q) (E : CEnv) (s : Sess) (id idx : Nat) (want : Byte) (hl : len ≤ mem.length) (hw : len < 2^32) :
    ∃ o, reqSubsys E s id mem len idx want = some o ∧
      Fits E s id q want ((string (msgFrom mem len idx)).map fun p => .subsystem p.1) o := by
  unfold reqSubsys readCommand
  simp only [ask_eq]
  rcases Proofs.Reader.strAlloc idx hl hw with ⟨e, i, h1, h2⟩ | ⟨t, i, h1, _, h2⟩
  · rw [h1, h2]
    refine ⟨_, rfl, ?_⟩
    simp only [Fits, Option.map_none]
    refine ⟨nofun, by trivial, by trivial, fun n hn => by simp [setInfo, hn], by trivial, by trivial, by trivial, ?_, fun h => absurd h hq⟩
    cases E.subsysCb <;> simp [payload]
  · rw [h1, h2]
    exact ⟨_, rfl, by simp [Fits, allowed, bodyCalls, effect, setInfo]⟩

/-- The four numbers. -/
theorem readSizes_cases (s : Sess) (idx : Nat) (hl : len ≤ mem.length) (hw : len < 2^32) :
    (∃ e s', readSizes s mem len idx = some (.error e, s') ∧ sizes (msgFrom mem len idx) = none ∧
      ∃ w h wp, s' = { s with width := w, height := h, widthPx := wp }) ∨
    (∃ w h wp hp i, readSizes s mem len idx =
        some (.ok i, { s with width := w, height := h, widthPx := wp, heightPx := hp }) ∧
      sizes (msgFrom mem len idx) = some (w, h, wp, hp, msgFrom mem len i)) := by
  unfold readSizes sizes
  rcases Proofs.Reader.u32 idx hl hw with ⟨e, j, h1, h2⟩ | ⟨w, j, h1, _, _, h2⟩
  · rw [h1, h2]; exact .inl ⟨e, s, rfl, rfl, s.width, s.height, s.widthPx, rfl⟩
  rw [h1, h2]
  rcases Proofs.Reader.u32 j hl hw with ⟨e, k, h3, h4⟩ | ⟨h, k, h3, _, _, h4⟩
  · simp only [h3, Option.bind_some, h4]; exact .inl ⟨e, _, rfl, rfl, w, s.height, s.widthPx, rfl⟩
  rcases Proofs.Reader.u32 k hl hw with ⟨e, l, h5, h6⟩ | ⟨wp, l, h5, _, _, h6⟩
  · simp only [h3, Option.bind_some, h4, h5, h6]; exact .inl ⟨e, _, rfl, rfl, w, h, s.widthPx, rfl⟩
  rcases Proofs.Reader.u32 l hl hw with ⟨e, m, h7, h8⟩ | ⟨hp, m, h7, _, _, h8⟩
  · simp only [h3, Option.bind_some, h4, h5, h6, h7, h8]; exact .inl ⟨e, _, rfl, rfl, w, h, wp, rfl⟩
  · simp only [h3, Option.bind_some, h4, h5, h6, h7, h8]
    exact .inr ⟨w, h, wp, hp, m, rfl, rfl⟩

theorem resized_eq (E : CEnv) (s : Sess) (want : Byte) :
    resized E s want = ⟨if E.termResizeCb = none ∨ E.termResizeCb = some none then none else some .fatal, false, want,
      if E.termResizeCb = none then [] else [.resize s.width s.height s.widthPx s.heightPx], s⟩ := by
  unfold resized
  cases h : E.termResizeCb with
  | none => simp
  | some r => cases r <;> simp

theorem reqPty_fits {q : Prop} (hq : ¬ q) (E : CEnv) (s : Sess) (id idx : Nat) (want : Byte) (hl : len ≤ mem.length) (hw : len < 2^32) :
    ∃ o, reqPty E s id mem len idx want = some o ∧
      Fits E s id q want ((string (msgFrom mem len idx)).bind fun p => (sizes p.2).bind fun z =>
        (string z.2.2.2.2).map fun q => .pty z.1 z.2.1 z.2.2.1 z.2.2.2.1 q.1) o := by
  unfold reqPty
  simp only [resized_eq]
  rcases Proofs.Reader.str 32 idx (by decide) (by decide) hl hw with ⟨e, i, h1, h2⟩ | ⟨t, i, h1, _, h2⟩
  · rw [h1, h2]; refine ⟨_, rfl, ?_⟩; simp +contextual [Fits, setInfo, hq]
  rw [h1, h2]
  rcases readSizes_cases (setInfo s id { s.info id with pty := true }) i hl hw with
    ⟨e, s', h3, h4, w, h, wp, rfl⟩ | ⟨w, h, wp, hp, j, h3, h4⟩
  · simp only [h3, Option.bind_some, h4]; refine ⟨_, rfl, ?_⟩; simp +contextual [Fits, setInfo, hq]
  rcases Proofs.Reader.strAlloc j hl hw with ⟨e, k, h5, h6⟩ | ⟨u, k, h5, _, h6⟩
  · simp only [h3, Option.bind_some, h4, h5, h6]; refine ⟨_, rfl, ?_⟩; simp +contextual [Fits, setInfo, hq]
  · simp only [h3, Option.bind_some, h4, h5, h6]
    refine ⟨_, rfl, ?_⟩
    simp only [Fits, Option.map_some, allowed, bodyCalls, effect, setInfo]
    by_cases hr : E.termResizeCb = none ∨ E.termResizeCb = some none <;> simp [hr]

theorem reqWindow_fits (q : Prop) (E : CEnv) (s : Sess) (id idx : Nat) (hl : len ≤ mem.length) (hw : len < 2^32) :
    ∃ o, reqWindow E s mem len idx = some o ∧
      Fits E s id q 0 ((sizes (msgFrom mem len idx)).map fun z => .window z.1 z.2.1 z.2.2.1 z.2.2.2.1) o := by
  unfold reqWindow
  simp only [resized_eq]
  rcases readSizes_cases s idx hl hw with ⟨e, s', h3, h4, w, h, wp, rfl⟩ | ⟨w, h, wp, hp, j, h3, h4⟩
  · simp only [h3, h4]; refine ⟨_, rfl, ?_⟩; simp [Fits]
  · simp only [h3, h4]
    refine ⟨_, rfl, ?_⟩
    simp only [Fits, Option.map_some, allowed, bodyCalls, effect]
    by_cases hr : E.termResizeCb = none ∨ E.termResizeCb = some none <;> simp [hr]

theorem reqExitStatus_fits (q : Prop) (E : CEnv) (s : Sess) (id idx : Nat) (hl : len ≤ mem.length) (hw : len < 2^32) :
    ∃ o, reqExitStatus s mem len idx = some o ∧
      Fits E s id q 0 ((uint32 (msgFrom mem len idx)).map fun p => .exitStatus p.1) o := by
  unfold reqExitStatus
  rcases Proofs.Reader.u32 idx hl hw with ⟨e, j, h1, h2⟩ | ⟨w, j, h1, _, _, h2⟩
  · rw [h1, h2]; exact ⟨_, rfl, by simp [Fits]⟩
  · rw [h1, h2]; exact ⟨_, rfl, by simp [Fits, allowed, bodyCalls, effect]⟩

theorem reqExitSignal_fits (q : Prop) (E : CEnv) (s : Sess) (id idx : Nat) (hl : len ≤ mem.length) (hw : len < 2^32) :
    ∃ o, reqExitSignal s mem len idx = some o ∧
      Fits E s id q 0 ((string (msgFrom mem len idx)).bind fun p => (byte p.2).bind fun q => (string q.2).bind fun r =>
        (string r.2).map fun _ => .exitSignal) o := by
  unfold reqExitSignal parseSignal
  rcases Proofs.Reader.str MAX_NAMESZ idx (by decide) (by decide) hl hw with ⟨e, i, h1, h2⟩ | ⟨t, i, h1, _, h2⟩
  · simp only [h1, h2, Wolf.Kex.Res.bind]; exact ⟨_, rfl, by simp [Fits]⟩
  rcases Proofs.Reader.bool i hl hw with ⟨e, j, h3, h4⟩ | ⟨c, j, h3, _, h4⟩
  · simp only [h1, h2, h3, h4, Wolf.Kex.Res.bind, Option.bind_some]; exact ⟨_, rfl, by simp [Fits]⟩
  rcases Proofs.Reader.str MAX_NAMESZ j (by decide) (by decide) hl hw with ⟨e, k, h5, h6⟩ | ⟨u, k, h5, _, h6⟩
  · simp only [h1, h2, h3, h4, h5, h6, Wolf.Kex.Res.bind, Option.bind_some]; exact ⟨_, rfl, by simp [Fits]⟩
  rcases Proofs.Reader.str MAX_NAMESZ k (by decide) (by decide) hl hw with ⟨e, l, h7, h8⟩ | ⟨v, l, h7, _, h8⟩
  · simp only [h1, h2, h3, h4, h5, h6, h7, h8, Wolf.Kex.Res.bind, Option.bind_some]; exact ⟨_, rfl, by simp [Fits]⟩
  · simp only [h1, h2, h3, h4, h5, h6, h7, h8, Wolf.Kex.Res.bind, Option.bind_some]
    exact ⟨_, rfl, by simp [Fits, allowed, bodyCalls, effect]⟩

/-- The request types of the chain, shorter than the buffer and without NUL. -/
theorem names_ok : ∀ n ∈ [asc "env", asc "shell", asc "exec", asc "subsystem", asc "pty-req", asc "window-change",
    asc "exit-status", asc "exit-signal", asc "auth-agent-req@openssh.com"], n.length < 31 ∧ (0 : UInt8) ∉ n := by
  decide

theorem names_distinct : ([asc "env", asc "shell", asc "exec", asc "subsystem", asc "pty-req", asc "window-change",
    asc "exit-status", asc "exit-signal", asc "auth-agent-req@openssh.com"] : List Bytes).Nodup := by
  decide

/-- The chain of types. -/
theorem reqBody_fits (E : CEnv) (s : Sess) (id idx : Nat) (type : Bytes) (want : Byte) (hl : len ≤ mem.length)
    (hw : len < 2^32) :
    ∃ o, reqBody E s id (type.take (32 - 1) ++ [0]) ((type.take (32 - 1) ++ [0]).length - 1) mem len idx want = some o ∧
      Fits E s id (type ≠ asc "exec" ∧ type ≠ asc "subsystem" ∧ type ≠ asc "pty-req") (if silent E type then 0 else want) (body E type (msgFrom mem len idx)) o := by
  have hn := names_ok
  have hd := names_distinct
  simp only [List.mem_cons, List.not_mem_nil, or_false, forall_eq_or_imp, forall_eq] at hn
  obtain ⟨n1, n2, n3, n4, n5, n6, n7, n8, n9⟩ := hn
  simp only [List.nodup_cons, List.mem_cons, List.not_mem_nil, or_false, not_or] at hd
  unfold reqBody body
  rw [requestIs_eq _ _ n1.1 n1.2, requestIs_eq _ _ n2.1 n2.2, requestIs_eq _ _ n3.1 n3.2, requestIs_eq _ _ n4.1 n4.2,
    requestIs_eq _ _ n5.1 n5.2, requestIs_eq _ _ n6.1 n6.2, requestIs_eq _ _ n7.1 n7.2, requestIs_eq _ _ n8.1 n8.2,
    requestIs_eq _ _ n9.1 n9.2]
  by_cases h1 : type = asc "env"
  · have hs : silent E type = false := by
      subst h1; simp [silent, hd]
    rw [if_pos (by simpa using h1), if_pos h1, hs]
    exact reqEnv_fits _ E s id idx want hl hw
  rw [if_neg (by simpa using h1), if_neg h1]
  by_cases h2 : type = asc "shell"
  · have hs : silent E type = false := by
      subst h2; simp [silent, hd]
    rw [if_pos (by simpa using h2), if_pos h2, hs]
    exact ⟨_, rfl, reqShell_fits _ E s id want⟩
  rw [if_neg (by simpa using h2), if_neg h2]
  by_cases h3 : type = asc "exec"
  · have hs : silent E type = false := by
      subst h3; simp [silent, hd]
    rw [if_pos (by simpa using h3), if_pos h3, hs]
    exact reqExec_fits (by simp [h3]) E s id idx want hl hw
  rw [if_neg (by simpa using h3), if_neg h3]
  by_cases h4 : type = asc "subsystem"
  · have hs : silent E type = false := by
      subst h4; simp [silent, hd]
    rw [if_pos (by simpa using h4), if_pos h4, hs]
    exact reqSubsys_fits (by simp [h4]) E s id idx want hl hw
  rw [if_neg (by simpa using h4), if_neg h4]
  by_cases h5 : type = asc "pty-req" ∧ E.term = true
  · have hs : silent E type = false := by
      rw [h5.1]; simp [silent, hd]
    rw [if_pos (by simpa using ⟨h5.2, h5.1⟩), if_pos h5, hs]
    exact reqPty_fits (by simp [h5.1]) E s id idx want hl hw
  rw [if_neg (by simpa [and_comm] using h5), if_neg h5]
  by_cases h6 : type = asc "window-change" ∧ E.term = true ∧ E.shell = true
  · have hs : silent E type = true := by
      simp [silent, h6]
    rw [if_pos (by simpa using ⟨h6.2.1, h6.2.2, h6.1⟩), if_pos h6, hs]
    exact reqWindow_fits _ E s id idx hl hw
  rw [if_neg (by intro h; simp only [decide_eq_true_eq] at h; exact h6 ⟨h.2.2, h.1, h.2.1⟩), if_neg h6]
  by_cases h7 : type = asc "exit-status" ∧ (E.term = true ∨ E.shell = true)
  · have hs : silent E type = true := by
      simp [silent, h7]
    rw [if_pos (by simpa using ⟨h7.2, h7.1⟩), if_pos h7, hs]
    exact reqExitStatus_fits _ E s id idx hl hw
  rw [if_neg (by intro h; simp only [decide_eq_true_eq] at h; exact h7 ⟨h.2, h.1⟩), if_neg h7]
  by_cases h8 : type = asc "exit-signal" ∧ (E.term = true ∨ E.shell = true)
  · have hs : silent E type = true := by
      simp [silent, h8]
    rw [if_pos (by simpa using ⟨h8.2, h8.1⟩), if_pos h8, hs]
    exact reqExitSignal_fits _ E s id idx hl hw
  rw [if_neg (by intro h; simp only [decide_eq_true_eq] at h; exact h8 ⟨h.2, h.1⟩), if_neg h8]
  have hs : silent E type = false := by
    simp only [silent, decide_eq_false_iff_not]
    rintro (⟨a, b, c⟩ | ⟨a, b | b⟩)
    · exact h6 ⟨c, a, b⟩
    · exact h7 ⟨b, a⟩
    · exact h8 ⟨b, a⟩
  rw [hs]
  by_cases h9 : type = asc "auth-agent-req@openssh.com" ∧ E.agent = true
  · rw [if_pos (by simpa using ⟨h9.2, h9.1⟩), if_pos h9]
    exact ⟨_, rfl, by simp [Fits, reqAgent, allowed, bodyCalls, effect]⟩
  rw [if_neg (by intro h; simp only [decide_eq_true_eq] at h; exact h9 ⟨h.2, h.1⟩), if_neg h9]
  exact ⟨_, rfl, by simp [Fits, allowed, bodyCalls, effect]⟩

/-- The header of a channel request, as the code reads it. -/
theorem chan_cases (hl : len ≤ mem.length) (hw : len < 2^32) (E : CEnv) (s : Sess) :
    (∃ e, doChannelRequest E s mem len 0 = some (some e, [], s) ∧ chanMsg (mem.take len) = none) ∨
    (∃ id type want i, chanMsg (mem.take len) = some (id, type, want, msgFrom mem len i) ∧
      doChannelRequest E s mem len 0 =
        match findSelf s.conn id with
        | none => some (reply E id ⟨some .invalidChanId, false, want, [], s⟩)
        | some _ => (reqBody E s id (type.take (32 - 1) ++ [0]) ((type.take (32 - 1) ++ [0]).length - 1) mem len i want).map
            (reply E id)) := by
  have hm : mem.take len = msgFrom mem len 0 := by simp [msgFrom]
  unfold doChannelRequest chanMsg
  rw [hm]
  rcases Proofs.Reader.u32 0 hl hw with ⟨e, i, h1, h2⟩ | ⟨id, i, h1, _, _, h2⟩
  · rw [h1, h2]; exact .inl ⟨e, rfl, rfl⟩
  rw [h1, h2]
  rcases Proofs.Reader.str 32 i (by decide) (by decide) hl hw with ⟨e, j, h3, h4⟩ | ⟨t, j, h3, _, h4⟩
  · simp only [h3, Option.bind_some, h4]; exact .inl ⟨e, rfl, rfl⟩
  rcases Proofs.Reader.bool j hl hw with ⟨e, k, h5, h6⟩ | ⟨w, k, h5, _, h6⟩
  · simp only [h3, Option.bind_some, h4, h5, h6]; exact .inl ⟨e, rfl, rfl⟩
  simp only [h3, Option.bind_some, h4, h5, h6]
  exact .inr ⟨id, t, w, k, rfl, rfl⟩

end Proofs.Request
