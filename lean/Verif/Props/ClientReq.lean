import Verif.Proofs.ClientReq
/-!
# C120-C122: the requests a client sends, and where they arrive
-/

namespace Props.ClientReq
open Wolf Wolf.Wire Wolf.NameList Wolf.Channel Wolf.Request Wolf.ClientReq
open Spec.Wire Spec.Request Spec.ClientReq Proofs.ClientReq

variable {c : Conn} {e : SendEnv}

/-! ## C120: the session asked for is the one chosen -/

/-- The request of a client that wants a session of the given type and name. -/
theorem request_of (hp : HasPeer c c.defaultPeer) (he : e.prep = none) (w : Want) (type : String)
    (ht : typeName w.type = some (asc type)) :
    sendChannelRequest c w e = (e.sent, [.packet (request c.defaultPeer type 1
      (match w.name with | some (a :: n) => encString (a :: n) | _ => []))]) := by
  obtain ⟨i, ch, hf, hid⟩ := findPeer_mem hp
  unfold sendChannelRequest
  rw [hf]
  simp only [ht]
  rw [sent_eq he, header_eq, hid]
  cases hn : w.name with
  | none => rfl
  | some n =>
    cases n with
    | nil => rfl
    | cons a n => simp [encString, c32toa_eq]

theorem name_cases {n : Bytes} (hn : 0 < n.length) :
    (match some n with | some (a :: n) => encString (a :: n) | _ => []) = encString n := by
  cases n with
  | nil => simp at hn
  | cons a n => rfl

/-- **C120, partial.** Whatever was chosen before, the request `wolfSSH_connect` ends with is the one
`wolfSSH_SetChannelType` was given last: that command, that subsystem, or a shell with nothing following; choosing a
terminal makes it ask for one too, and choosing a command or a subsystem does not. Missing: what an application can
rely on for a command or name that is empty or has 4096 bytes or more (see `C120_ignored`). -/
theorem C120_partial (hp : HasPeer c c.defaultPeer) (he : e.prep = none) (w : Want) :
    (∀ n, Usable n → w.server = false →
      (setChannelType w 2 (some n) true).1 = none ∧ (setChannelType w 2 (some n) true).2.pty = w.pty ∧
      sendChannelRequest c (setChannelType w 2 (some n) true).2 e =
        (e.sent, [.packet (request c.defaultPeer "exec" 1 (encString n))])) ∧
    (∀ n, Usable n →
      (setChannelType w 3 (some n) true).1 = none ∧ (setChannelType w 3 (some n) true).2.pty = w.pty ∧
      sendChannelRequest c (setChannelType w 3 (some n) true).2 e =
        (e.sent, [.packet (request c.defaultPeer "subsystem" 1 (encString n))])) ∧
    (∀ name mem,
      (setChannelType w 1 name mem).1 = none ∧ (setChannelType w 1 name mem).2.pty = w.pty ∧
      sendChannelRequest c (setChannelType w 1 name mem).2 e =
        (e.sent, [.packet (request c.defaultPeer "shell" 1 [])])) ∧
    (∀ name mem,
      (setChannelType w 4 name mem).1 = none ∧ (setChannelType w 4 name mem).2.pty = true ∧
      sendChannelRequest c (setChannelType w 4 name mem).2 e =
        (e.sent, [.packet (request c.defaultPeer "shell" 1 [])])) := by
  refine ⟨?_, ?_, ?_, ?_⟩
  · intro n hn hs
    have h : setChannelType w 2 (some n) true = (none, { w with type := .exec, name := some n }) := by
      have h2 : 0 < n.length ∧ n.length < MAX_CHN_NAMESZ := hn
      simp only [setChannelType, hs, h2, and_self, if_true]
      by_cases hw : w.name = some n
      · simp [hw]
      · simp [hw]
    rw [h]
    refine ⟨rfl, rfl, ?_⟩
    rw [request_of hp he _ "exec" rfl, name_cases hn.1]
  · intro n hn
    have h : setChannelType w 3 (some n) true = (none, { w with type := .subsystem, name := some n }) := by
      have h2 : 0 < n.length ∧ n.length < MAX_CHN_NAMESZ := hn
      simp only [setChannelType, h2, and_self, if_true]
      by_cases hw : w.name = some n
      · simp [hw]
      · simp [hw]
    rw [h]
    refine ⟨rfl, rfl, ?_⟩
    rw [request_of hp he _ "subsystem" rfl, name_cases hn.1]
  · intro name mem
    refine ⟨rfl, rfl, ?_⟩
    rw [request_of hp he _ "shell" rfl]; rfl
  · intro name mem
    refine ⟨rfl, rfl, ?_⟩
    rw [request_of hp he _ "shell" rfl]; rfl

/-- C120: a client that chose nothing asks for a shell. -/
theorem C120_default (hp : HasPeer c c.defaultPeer) (he : e.prep = none) :
    sendChannelRequest c {} e = (e.sent, [.packet (request c.defaultPeer "shell" 1 [])]) := by
  rw [request_of hp he _ "shell" rfl]

/-- C120: a choice that is refused changes nothing; refused are unknown types, a command on a server, and a name
there is no memory for. -/
theorem C120_refused (w : Want) (type : Nat) (name : Option Bytes) (mem : Bool)
    (h : (setChannelType w type name mem).1 ≠ none) :
    (setChannelType w type name mem).2 = w ∧
      ((type = 0 ∨ 4 < type) ∨ (type = 2 ∧ w.server = true) ∨ ((type = 2 ∨ type = 3) ∧ mem = false)) := by
  revert h
  unfold setChannelType
  by_cases h1 : type = 1
  · simp [h1]
  by_cases h2 : type = 2
  · subst h2
    cases hs : w.server
    · cases name with
      | none => simp
      | some n =>
        by_cases hn : 0 < n.length ∧ n.length < MAX_CHN_NAMESZ <;> by_cases hw : w.name = some n <;> cases mem <;>
          simp [hn, hw]
    · simp
  by_cases h3 : type = 3
  · subst h3
    cases name with
    | none => simp
    | some n =>
      by_cases hn : 0 < n.length ∧ n.length < MAX_CHN_NAMESZ <;> by_cases hw : w.name = some n <;> cases mem <;>
        simp [hn, hw]
  by_cases h4 : type = 4
  · simp [h4]
  · simp only [h1, h2, h3, h4, if_false]
    intro _
    exact ⟨by simp, Or.inl (by omega)⟩

/-- What the code does not do (finding): a command that is too long (or missing) is ignored, success is reported, and
the client runs the command, or the subsystem name, that was chosen before. -/
theorem C120_ignored (hp : HasPeer c c.defaultPeer) (he : e.prep = none) (w : Want) (hs : w.server = false)
    {old new : Bytes} (ho : Usable old) (hn : ¬ Usable new) (t : Nat) (ht : t = 2 ∨ t = 3) (mem : Bool) :
    (setChannelType (setChannelType w t (some old) true).2 2 (some new) mem).1 = none ∧
    sendChannelRequest c (setChannelType (setChannelType w t (some old) true).2 2 (some new) mem).2 e =
      (e.sent, [.packet (request c.defaultPeer "exec" 1 (encString old))]) := by
  have h2 : 0 < old.length ∧ old.length < MAX_CHN_NAMESZ := ho
  have h3 : ¬ (0 < new.length ∧ new.length < MAX_CHN_NAMESZ) := hn
  have key : ∀ w' : Want, w'.server = false →
      setChannelType w' 2 (some new) mem = (none, { w' with type := .exec }) := by
    intro w' hs'
    simp [setChannelType, hs', h3]
  have hold : (setChannelType w t (some old) true).2.name = some old ∧
      (setChannelType w t (some old) true).2.server = false := by
    rcases ht with rfl | rfl <;> simp only [setChannelType, hs, h2, and_self, if_true] <;>
      by_cases hw : w.name = some old <;> simp [hw]
  rw [key _ hold.2]
  refine ⟨rfl, ?_⟩
  rw [request_of hp he _ "exec" rfl]
  simp only [hold.1]
  rw [name_cases ho.1]

/-- Without a name at all a command or subsystem keeps the name chosen before, and that is what is asked for. -/
theorem C120_unnamed (w : Want) (hs : w.server = false) (t : Nat) (ht : t = 2 ∨ t = 3) (mem : Bool) :
    (setChannelType w t none mem).1 = none ∧ (setChannelType w t none mem).2.name = w.name ∧
    (setChannelType w t none mem).2.type = if t = 2 then .exec else .subsystem := by
  rcases ht with rfl | rfl <;> simp [setChannelType, hs]

example : (setChannelType (setChannelType {} 2 (some [108, 115]) true).2 2 none true).2.name = some [108, 115] := by decide

/-- What the code does not do (finding): when there was no name before, the request for a command goes out without
one, which is malformed; the server's application is still called (`C54_exec_called_anyway`). -/
theorem C120_no_command (hp : HasPeer c c.defaultPeer) (he : e.prep = none) {n : Bytes} (hn : ¬ Usable n) (mem : Bool) :
    (setChannelType {} 2 (some n) mem).1 = none ∧
    sendChannelRequest c (setChannelType {} 2 (some n) mem).2 e =
      (e.sent, [.packet (request c.defaultPeer "exec" 1 [])]) ∧
    ∀ E, body E (asc "exec") [] = none := by
  have h3 : ¬ (0 < n.length ∧ n.length < MAX_CHN_NAMESZ) := hn
  have h : setChannelType {} 2 (some n) mem = (none, { type := .exec }) := by
    simp [setChannelType, h3]
  rw [h]
  exact ⟨rfl, by rw [request_of hp he _ "exec" rfl], body_empty_exec⟩

/-- What the code does not do (finding): once a terminal was chosen it is asked for whatever is chosen later. -/
theorem C120_terminal_stays (w : Want) (name : Option Bytes) (mem : Bool) (more : List (Nat × Option Bytes × Bool)) :
    (more.foldl (fun w k => (setChannelType w k.1 k.2.1 k.2.2).2) (setChannelType w 4 name mem).2).pty = true := by
  have key : ∀ (w : Want) (t : Nat) (n : Option Bytes) (m : Bool), w.pty = true → (setChannelType w t n m).2.pty = true := by
    intro w t n m h
    unfold setChannelType
    simp only
    repeat' split
    all_goals first | exact h | rfl
  have : ∀ (more : List (Nat × Option Bytes × Bool)) (w : Want), w.pty = true →
      (more.foldl (fun w k => (setChannelType w k.1 k.2.1 k.2.2).2) w).pty = true := by
    intro more
    induction more with
    | nil => intro w h; exact h
    | cons k more ih => intro w h; exact ih _ (key w _ _ _ h)
  exact this more _ rfl

/-! ## C121: channel requests arrive -/

/-- **C121.** A command: what the application gave to `wolfSSH_SetChannelType` is, byte for byte, what the server's
application is asked about and finds at the channel; the reply tells whether it agreed. -/
theorem C121_exec (hp : HasPeer c c.defaultPeer) (he : e.prep = none) (w : Want) (hs : w.server = false) {n : Bytes}
    (hn : Usable n) :
    ∃ m, sendChannelRequest c (setChannelType w 2 (some n) true).2 e = (e.sent, [.packet m]) ∧
      ∀ E, Arrives m E c.defaultPeer true (.exec n) := by
  refine ⟨_, ((C120_partial hp he w).1 n hn hs).2.2, fun E => ?_⟩
  have hl : n.length < 4096 := hn.2
  exact arrives hp.2.2 "exec" (by decide) true _ (by simp [encString, enc32_length]; omega) E _ (body_exec E (by omega))
    (fun h => by rw [not_silent E (by decide) (by decide) (by decide)] at h; cases h)

/-- C121: a subsystem. -/
theorem C121_subsystem (hp : HasPeer c c.defaultPeer) (he : e.prep = none) (w : Want) {n : Bytes} (hn : Usable n) :
    ∃ m, sendChannelRequest c (setChannelType w 3 (some n) true).2 e = (e.sent, [.packet m]) ∧
      ∀ E, Arrives m E c.defaultPeer true (.subsystem n) := by
  refine ⟨_, ((C120_partial hp he w).2.1 n hn).2.2, fun E => ?_⟩
  have hl : n.length < 4096 := hn.2
  exact arrives hp.2.2 "subsystem" (by decide) true _ (by simp [encString, enc32_length]; omega) E _
    (body_subsystem E (by omega))
    (fun h => by rw [not_silent E (by decide) (by decide) (by decide)] at h; cases h)

/-- C121: a shell. -/
theorem C121_shell (hp : HasPeer c c.defaultPeer) (he : e.prep = none) (w : Want) (name : Option Bytes) (mem : Bool) :
    ∃ m, sendChannelRequest c (setChannelType w 1 name mem).2 e = (e.sent, [.packet m]) ∧
      ∀ E, Arrives m E c.defaultPeer true .shell := by
  refine ⟨_, ((C120_partial hp he w).2.2.1 name mem).2.2, fun E => ?_⟩
  exact arrives hp.2.2 "shell" (by decide) true _ (by decide) E _ (body_shell E _)
    (fun h => by rw [not_silent E (by decide) (by decide) (by decide)] at h; cases h)

/-- C121: a pseudo-terminal. The server's application sees the size of the client's terminal, or 80 by 24 if the client
has none, and the modes the client wrote, whatever name the terminal has. -/
theorem C121_pty (hp : HasPeer c c.defaultPeer) (he : e.prep = none) (ioctl : Option (Nat × Nat × Nat × Nat))
    (hio : ∀ z, ioctl = some z → z.1 < 2 ^ 16 ∧ z.2.1 < 2 ^ 16 ∧ z.2.2.1 < 2 ^ 16 ∧ z.2.2.2 < 2 ^ 16) (env : Option Bytes)
    (henv : ∀ t, env = some t → t.length < 2 ^ 20) {modes : Bytes} (h0 : 0 < modes.length) (hm : modes.length ≤ 4096) :
    ∃ m w h wp hp, sendTerminalRequest c ioctl env (some modes) e = (e.sent, [.packet m]) ∧
      (∀ E, E.term = true → Arrives m E c.defaultPeer true (.pty w h wp hp modes)) ∧
      (∀ z, ioctl = some z → z.1 ≠ 0 → z.2.1 ≠ 0 → (w, h, wp, hp) = z) ∧
      (ioctl = none ∨ (∃ z, ioctl = some z ∧ (z.1 = 0 ∨ z.2.1 = 0)) → (w, h, wp, hp) = (80, 24, 0, 0)) := by
  obtain ⟨i, ch, hf, hid⟩ := findPeer_mem hp
  have hz : (terminalSize ioctl).1 < 2 ^ 16 ∧ (terminalSize ioctl).2.1 < 2 ^ 16 ∧ (terminalSize ioctl).2.2.1 < 2 ^ 16 ∧
      (terminalSize ioctl).2.2.2 < 2 ^ 16 := by
    cases ioctl with
    | none => simp [terminalSize]
    | some z =>
      obtain ⟨a, b, x, y⟩ := z
      unfold terminalSize
      by_cases h : a ≠ 0 ∧ b ≠ 0
      · simp only [if_pos h]; exact hio _ rfl
      · simp only [if_neg h]; decide
  have ht : (env.getD (asc "xterm")).length < 2 ^ 20 := by
    cases env with
    | none => decide
    | some t => exact henv t rfl
  have hs : sendTerminalRequest c ioctl env (some modes) e = (e.sent, [.packet (request c.defaultPeer "pty-req" 1
      (encString (env.getD (asc "xterm")) ++ (encUint32 (terminalSize ioctl).1 ++ (encUint32 (terminalSize ioctl).2.1 ++
        (encUint32 (terminalSize ioctl).2.2.1 ++ (encUint32 (terminalSize ioctl).2.2.2 ++ encString modes))))))]) := by
    unfold sendTerminalRequest
    simp only [hf]
    rw [sent_eq he, header_eq, hid, if_pos h0]
    simp only [c32toa_eq, encString, List.append_assoc]
  refine ⟨_, (terminalSize ioctl).1, (terminalSize ioctl).2.1, (terminalSize ioctl).2.2.1, (terminalSize ioctl).2.2.2, hs,
    ?_, ?_, ?_⟩
  · intro E hE
    refine arrives hp.2.2 "pty-req" (by decide) true _ ?_ E _ ?_ ?_
    · simp only [encString, List.length_append, enc32_length]; omega
    · exact body_pty E hE (by omega) (by omega) (by omega) (by omega) (by omega) (by omega)
    · intro h; rw [not_silent E (by decide) (by decide) (by decide)] at h; cases h
  · intro z hz h1 h2
    subst hz
    obtain ⟨a, b, x, y⟩ := z
    have : terminalSize (some (a, b, x, y)) = (a, b, x, y) := by
      unfold terminalSize; exact if_pos ⟨h1, h2⟩
    rw [this]
  · rintro (h | ⟨⟨a, b, x, y⟩, h, h3⟩)
    · subst h; rfl
    · subst h
      have : terminalSize (some (a, b, x, y)) = (80, 24, 0, 0) := by
        unfold terminalSize
        exact if_neg (fun h => h3.elim (fun h' => h.1 h') (fun h' => h.2 h'))
      rw [this]

/-- C121: a new size of the terminal. -/
theorem C121_resize (hp : HasPeer c c.defaultPeer) (he : e.prep = none) {w h wp hp' : Nat} (h1 : w < 2 ^ 32)
    (h2 : h < 2 ^ 32) (h3 : wp < 2 ^ 32) (h4 : hp' < 2 ^ 32) :
    ∃ m, sendTerminalResize c w h wp hp' e = (e.sent, [.packet m]) ∧
      ∀ E, E.term = true → E.shell = true → Arrives m E c.defaultPeer false (.window w h wp hp') := by
  obtain ⟨i, ch, hf, hid⟩ := findPeer_mem hp
  refine ⟨request c.defaultPeer "window-change" 0 (encUint32 w ++ (encUint32 h ++ (encUint32 wp ++ encUint32 hp'))), ?_, ?_⟩
  · unfold sendTerminalResize
    simp only [hf]
    rw [sent_eq he, header_eq, hid]
    simp only [c32toa_eq]
  · intro E ht hs
    exact arrives hp.2.2 "window-change" (by decide) false _ (by simp [enc32_length]) E _
      (body_window E ht hs h1 h2 h3 h4) (fun _ => rfl)

/-- C121: agent forwarding. -/
theorem C121_agent (hp : HasPeer c c.defaultPeer) (he : e.prep = none) :
    ∃ m, sendAgentRequest c e = (e.sent, [.packet m]) ∧
      ∀ E, E.agent = true → Arrives m E c.defaultPeer false .agent := by
  obtain ⟨i, ch, hf, hid⟩ := findPeer_mem hp
  refine ⟨request c.defaultPeer "auth-agent-req@openssh.com" 0 [], ?_, ?_⟩
  · unfold sendAgentRequest
    simp only [hf]
    have := header_eq ch "auth-agent-req@openssh.com" 0 []
    rw [List.append_nil] at this
    rw [sent_eq he, this, hid]
  · intro E ha
    exact arrives hp.2.2 "auth-agent-req@openssh.com" (by decide) false _ (by decide) E _ (body_agent E ha []) (fun _ => rfl)

/-- C121: an exit status. What `wolfSSH_stream_exit` is given on one side, negative numbers included, is what
`wolfSSH_GetExitStatus` returns on the other. -/
theorem C121_exit {p : Nat} (hp : HasPeer c p) (he : e.prep = none) {status : Int} (h1 : -2147483648 ≤ status)
    (h2 : status < 2147483648) :
    ∃ m v, sendChannelExit c p status e = (e.sent, [.packet m]) ∧ toInt v = status ∧
      ∀ E, E.term = true ∨ E.shell = true → Arrives m E p false (.exitStatus v) := by
  obtain ⟨i, ch, hf, hid⟩ := findPeer_mem hp
  refine ⟨request p "exit-status" 0 (encUint32 (toWord status)), toWord status, ?_, toInt_toWord h1 h2, ?_⟩
  · unfold sendChannelExit
    simp only [hf]
    rw [sent_eq he, header_eq, hid, c32toa_eq]
  · intro E hE
    exact arrives hp.2.2 "exit-status" (by decide) false _ (by rw [enc32_length]; decide) E _
      (body_exit E hE (toWord_lt _)) (fun _ => rfl)

/-! ## C122: forwarding requests arrive -/

theorem globalMsg_request {name : Bytes} (hn : name.length < 2 ^ 32) (want : UInt8) (rest : Bytes) :
    globalMsg (encString name ++ [want] ++ rest) = some (name, want, rest) := by
  unfold globalMsg
  simp only [List.append_assoc]
  rw [Proofs.Ossh.string_enc _ _ hn]
  simp [byte]

theorem fwdBody_enc {a : Bytes} {port : Nat} (ha : a.length < 2 ^ 32) (hp : port < 2 ^ 32) :
    fwdBody (encString a ++ encUint32 port) = some (a, port) := by
  unfold fwdBody
  rw [Proofs.Ossh.string_enc _ _ ha]
  simp only [Option.bind_some]
  have := Proofs.Ossh.uint32_enc port hp []
  rw [List.append_nil] at this
  rw [this]; rfl

/-- The message of a forwarding request. -/
theorem fwdRemote_eq (cancel : Bool) {a : Bytes} {port : Nat} {want : Int} (hport : port ≤ 65535)
    (hc : cancel = true → port ≠ 0) (hw : want = 0 ∨ want = 1) (hs : c.server = false) (hk : c.keying = false)
    (he : e.prep = none) :
    fwdRemote c cancel (some a) port want e = (e.sent, [.packet (global
      (if cancel then asc "cancel-tcpip-forward" else asc "tcpip-forward") (if want = 1 then 1 else 0)
      (encString a ++ encUint32 port))]) := by
  unfold fwdRemote
  simp only
  rw [if_neg (fun h => h.elim (fun h => by omega) (fun h => hc h.1 h.2)), if_neg (by omega), if_neg (by simp [hs]),
    if_neg (by simp [hk])]
  unfold sendGlobalRequestFwd
  simp only
  rw [sent_eq he]
  rcases hw with rfl | rfl <;> simp [global, c32toa_eq, encString, MSGID_GLOBAL_REQUEST]

/-- **C122.** Asking for a remote forwarding: the server's application is asked about exactly the address and port the
client's application gave; a reply is sent if and only if one is wanted, and it is a success only with the port granted.
If the application had set up a listener that cannot be granted it is told to take it down. -/
theorem C122_setup {a : Bytes} {port : Nat} {want : Int} (ha : a.length < 2 ^ 31) (hport : port ≤ 65535)
    (hw : want = 0 ∨ want = 1) (hs : c.server = false) (hk : c.keying = false) (he : e.prep = none) :
    ∃ msg, fwdRemote c false (some a) port want e = (e.sent, [.packet (80 :: msg)]) ∧
      ∀ (E : GEnv) (after : Bytes), ∃ ret evs, doGlobalRequest E (msg ++ after) msg.length 0 = some (ret, evs) ∧
        calls evs = (match E.fwdCb with
          | some cb => .fwd false a port :: (if SetUp cb.1 ∧ granted port cb.1 = none then [.fwd true a port] else [])
          | none => []) ∧
        packets evs = (if want = 1 ∧ E.send.prep = none then
          [match E.fwdCb.bind fun cb => granted port cb.1 with | some p => 81 :: encUint32 p | none => [82]] else []) := by
  refine ⟨_, fwdRemote_eq false hport (by simp) hw hs hk he, ?_⟩
  intro E after
  have hm := globalMsg_request (name := asc "tcpip-forward") (by decide) (if want = 1 then (1 : UInt8) else 0)
    (encString a ++ encUint32 port)
  obtain ⟨ret, evs, h1, _, h3, h4⟩ := Props.Request.C37_setup (E := E) (mem := (encString (asc "tcpip-forward") ++
    [if want = 1 then (1 : UInt8) else 0] ++ (encString a ++ encUint32 port)) ++ after)
    (len := (encString (asc "tcpip-forward") ++ [if want = 1 then (1 : UInt8) else 0] ++ (encString a ++ encUint32 port)).length)
    (len_le _ _)
    (by have h0 : (asc "tcpip-forward").length = 13 := by decide
        simp only [encString, List.length_append, enc32_length, List.length_cons, List.length_nil, h0]; omega)
    (by rw [take_msg]; exact hm)
  refine ⟨ret, evs, h1, ?_, ?_⟩
  · rw [h4, fwdBody_enc (by omega) (by omega)]
    cases E.fwdCb <;> rfl
  · rw [h3]
    unfold grantedPort
    rw [fwdBody_enc (by omega) (by omega)]
    simp only [Option.bind_some]
    rcases hw with rfl | rfl
    · simp [Replies]
    · simp [Replies]
      split <;> rfl

/-- C122: cancelling one. -/
theorem C122_cancel {a : Bytes} {port : Nat} {want : Int} (ha : a.length < 2 ^ 31) (hport : port ≤ 65535) (h0 : port ≠ 0)
    (hw : want = 0 ∨ want = 1) (hs : c.server = false) (hk : c.keying = false) (he : e.prep = none) :
    ∃ msg, fwdRemote c true (some a) port want e = (e.sent, [.packet (80 :: msg)]) ∧
      ∀ (E : GEnv) (after : Bytes), ∃ ret evs, doGlobalRequest E (msg ++ after) msg.length 0 = some (ret, evs) ∧
        calls evs = (if E.fwdCb = none then [] else [.fwd true a port]) ∧
        packets evs = (if want = 1 ∧ E.send.prep = none then
          [[if (E.fwdCb.map fun cb => cb.1) = some 0 then 81 else 82]] else []) := by
  refine ⟨_, fwdRemote_eq true hport (fun _ => h0) hw hs hk he, ?_⟩
  intro E after
  have hm := globalMsg_request (name := asc "cancel-tcpip-forward") (by decide) (if want = 1 then (1 : UInt8) else 0)
    (encString a ++ encUint32 port)
  obtain ⟨ret, evs, h1, _, h3, h4⟩ := Props.Request.C37_cancel (E := E) (mem := (encString (asc "cancel-tcpip-forward") ++
    [if want = 1 then (1 : UInt8) else 0] ++ (encString a ++ encUint32 port)) ++ after)
    (len := (encString (asc "cancel-tcpip-forward") ++ [if want = 1 then (1 : UInt8) else 0] ++ (encString a ++ encUint32 port)).length)
    (len_le _ _)
    (by have h0 : (asc "cancel-tcpip-forward").length = 20 := by decide
        simp only [encString, List.length_append, enc32_length, List.length_cons, List.length_nil, h0]; omega)
    (by rw [take_msg]; exact hm)
  refine ⟨ret, evs, h1, ?_, ?_⟩
  · rw [h4, fwdBody_enc (by omega) (by omega)]
    cases E.fwdCb <;> rfl
  · rw [h3]
    unfold cancelled
    rw [fwdBody_enc (by omega) (by omega)]
    rcases hw with rfl | rfl
    · simp [Replies]
    · cases hcb : E.fwdCb with
      | none => simp [Replies]
      | some cb => simp [Replies]

/-- C122: what is refused sends nothing: a missing address, a port of more than 16 bits, cancelling port 0, a strange wish
for a reply, a server, and a key exchange in progress. -/
theorem C122_refused (cancel : Bool) (addr : Option Bytes) (port : Nat) (want : Int)
    (h : addr = none ∨ 65535 < port ∨ (cancel = true ∧ port = 0) ∨ (want ≠ 0 ∧ want ≠ 1) ∨ c.server = true ∨
      c.keying = true) :
    ∃ er, fwdRemote c cancel addr port want e = (some er, []) := by
  unfold fwdRemote
  cases addr with
  | none => exact ⟨_, rfl⟩
  | some a =>
    simp only
    by_cases h1 : port > 65535 ∨ (cancel = true ∧ port = 0)
    · rw [if_pos h1]; exact ⟨_, rfl⟩
    rw [if_neg h1]
    by_cases h2 : want ≠ 0 ∧ want ≠ 1
    · rw [if_pos h2]; exact ⟨_, rfl⟩
    rw [if_neg h2]
    by_cases h3 : c.server = true
    · rw [if_pos h3]; exact ⟨_, rfl⟩
    rw [if_neg h3]
    by_cases h4 : c.keying = true
    · rw [if_pos h4]; exact ⟨_, rfl⟩
    rcases h with h | h | h | h | h | h
    · cases h
    · exact absurd (Or.inl h) h1
    · exact absurd (Or.inr h) h1
    · exact absurd h h2
    · exact absurd h h3
    · exact absurd h h4

/-- C122: the port the server granted reaches the client's application, in the four bytes its callback gets. -/
theorem C122_reply (answer : Ret) {port : Nat} (after : Bytes) :
    doRequestReply true answer (encUint32 port ++ after) (encUint32 port).length 0 =
      some (answer, some (encUint32 port), 4) := by
  unfold doRequestReply
  rw [if_pos rfl, if_pos (by rw [List.length_append]; omega)]
  simp [encUint32]

/-- C122: any other global request: its name, as far as the server keeps it, and the wish for a reply arrive, and the
reply is the application's answer. -/
theorem C122_global {d : Bytes} {want : Int} (hd : d.length < 2 ^ 31) (hw : want = 0 ∨ want = 1) (he : e.prep = none)
    (h1 : d ≠ asc "tcpip-forward") (h2 : d ≠ asc "cancel-tcpip-forward") :
    ∃ msg, globalRequest (some d) want e = (e.sent, [.packet (80 :: msg)]) ∧
      ∀ (E : GEnv) (after : Bytes), ∃ ret evs, doGlobalRequest E (msg ++ after) msg.length 0 = some (ret, evs) ∧
        calls evs = (if E.globalReqCb = none then [] else [.global (d.take 79) (if want = 1 then 1 else 0)]) ∧
        packets evs = (if want = 1 ∧ E.send.prep = none then [[if E.globalReqCb = some none then 81 else 82]] else []) := by
  have hq : globalRequest (some d) want e = (e.sent, [.packet (80 :: (encString d ++
      [if want = 1 then (1 : UInt8) else 0] ++ []))]) := by
    unfold globalRequest
    simp only
    rw [if_neg (by omega), sent_eq he]
    have hd0 : (if 0 < d.length then d else []) = d := by
      cases d <;> simp
    rw [hd0]
    rcases hw with rfl | rfl <;> simp [c32toa_eq, encString, MSGID_GLOBAL_REQUEST]
  refine ⟨_, hq, ?_⟩
  intro E after
  have hm := globalMsg_request (name := d) (by omega) (if want = 1 then (1 : UInt8) else 0) []
  obtain ⟨ret, evs, h3, _, h4, h5⟩ := Props.Request.C37_other (E := E) (mem := (encString d ++
    [if want = 1 then (1 : UInt8) else 0] ++ []) ++ after)
    (len := (encString d ++ [if want = 1 then (1 : UInt8) else 0] ++ []).length) (len_le _ _)
    (by simp only [encString, List.length_append, enc32_length, List.length_cons, List.length_nil]; omega)
    (by rw [take_msg]; exact hm) h1 h2
  refine ⟨ret, evs, h3, h5, ?_⟩
  rw [h4]
  rcases hw with rfl | rfl <;> simp [Replies]

/-! ## The hypotheses are met -/

/-- A client whose session channel 0 is the server's channel 5. -/
def client : Conn :=
  { server := false, ctxWindow := 1024, ctxMaxPacket := 512, listSz := 1, defaultPeer := 5,
    chans := [{ id := 0, ctype := 1, windowSz := 1024, maxPacketSz := 512, peerId := 5, inBuf := ⟨[], 0, 0, 0, false⟩,
                ext := ⟨[], 0, 0, 0, false⟩ }] }

example : HasPeer client client.defaultPeer := ⟨by decide, ⟨_, List.mem_cons_self, rfl⟩, by decide⟩

example : Usable (asc "ls -l") := by unfold Usable; decide

/-- The command on the wire. -/
example : sendChannelRequest client (setChannelType {} 2 (some (asc "ls")) true).2 {} =
    (none, [.packet ([98, 0, 0, 0, 5, 0, 0, 0, 4] ++ asc "exec" ++ [1, 0, 0, 0, 2] ++ asc "ls")]) := by decide +kernel

/-- A negative exit status. -/
example : toInt (toWord (-1)) = -1 ∧ toWord (-1) = 4294967295 := by decide

/-- A command of 4096 bytes is not usable. -/
example (n : Nat) (h : n = 4096) : ¬ Usable (List.replicate n 97) := by
  intro hu; have := hu.2; rw [List.length_replicate] at this; omega

example : fwdRemote client false (some (asc "::")) 0 1 {} =
    (none, [.packet ([80, 0, 0, 0, 13] ++ asc "tcpip-forward" ++ [1, 0, 0, 0, 2] ++ asc "::" ++ [0, 0, 0, 0])]) := by
  decide +kernel

end Props.ClientReq
