import Verif.Spec.ClientReq
import Verif.Props.Request
import Verif.Proofs.OsshWire
/-! Building requests and reading them. -/

namespace Proofs.ClientReq
open Wolf Wolf.Wire Wolf.NameList Wolf.Channel Wolf.Request Wolf.ClientReq
open Spec.Wire Spec.Request Spec.ClientReq

theorem enc32_length (n : Nat) : (encUint32 n).length = 4 := rfl

theorem findPeer_mem {c : Conn} {p : Nat} (h : HasPeer c p) : ∃ i ch, findPeer c p = some (i, ch) ∧ ch.peerId = p := by
  obtain ⟨hc, ⟨ch, hm, hp⟩, _⟩ := h
  have key : ∀ (l : List Chan) (n i : Nat), l.length ≤ n → ch ∈ l →
      ∃ j d, findLoop (fun ch => p == ch.peerId) l n i = some (j, d) ∧ d.peerId = p := by
    intro l
    induction l with
    | nil => intro n i _ hm; cases hm
    | cons d l ih =>
      intro n i hn hm
      unfold findLoop
      have hn0 : n ≠ 0 := by intro h; rw [h] at hn; simp at hn
      rw [if_neg hn0]
      by_cases hd : d.peerId = p
      · rw [if_pos (by simp [hd])]
        exact ⟨i, d, rfl, hd⟩
      · rw [if_neg (by simp; exact fun h => hd h.symm)]
        rcases List.mem_cons.1 hm with h | h
        · exact absurd (h ▸ hp) hd
        · exact ih (n - 1) (i + 1) (by simp at hn; omega) h
  exact key c.chans c.listSz 0 (by omega) hm

theorem header_eq (ch : Chan) (type : String) (want : UInt8) (rest : Bytes) :
    header ch (asc type) want ++ rest = request ch.peerId type want rest := by
  simp [header, request, c32toa_eq, encString, MSGID_CHANNEL_REQUEST, List.append_assoc]

theorem chanMsg_request {p : Nat} (hp : p < 2 ^ 32) (type : String) (ht : (asc type).length < 2 ^ 32) (want : UInt8)
    (rest : Bytes) :
    chanMsg (encUint32 p ++ encString (asc type) ++ [want] ++ rest) = some (p, asc type, want, rest) := by
  unfold chanMsg
  simp only [List.append_assoc]
  rw [Proofs.Ossh.uint32_enc _ hp]
  simp only [Option.bind_some]
  rw [Proofs.Ossh.string_enc _ _ ht]
  simp [byte]

theorem len_le (m after : Bytes) : m.length ≤ (m ++ after).length := by rw [List.length_append]; omega

theorem take_msg (m after : Bytes) : (m ++ after).take m.length = m := by simp

/-- A request the other side understands as `b` arrives. -/
theorem arrives {p : Nat} (hp : p < 2 ^ 32) (type : String) (ht : (asc type).length < 100) (want : Bool) (rest : Bytes)
    (hr : rest.length < 2 ^ 31) (E : CEnv) (b : Body) (hb : body E (asc type) rest = some b)
    (hs : silent E (asc type) = true → want = false) :
    Arrives (request p type (if want then 1 else 0) rest) E p want b := by
  refine ⟨_, rfl, ?_⟩
  intro s ch after hsh hch hid
  have hm : chanMsg (((encUint32 p ++ encString (asc type) ++ [if want then 1 else 0] ++ rest) ++ after).take
      (encUint32 p ++ encString (asc type) ++ [if want then 1 else 0] ++ rest).length) =
      some (ch.id, asc type, if want then 1 else 0, rest) := by
    rw [take_msg, chanMsg_request hp type (by omega), hid]
  have hlen : (encUint32 p ++ encString (asc type) ++ [if want then (1 : UInt8) else 0] ++ rest).length < 2 ^ 32 := by
    simp [encString, enc32_length]; omega
  obtain ⟨r1, e1, s1, h1, _, h3⟩ := Props.Request.C54_reply (E := E) (s := s) (by simp) hlen hsh hch hm
  obtain ⟨r2, e2, h4, h5⟩ := Props.Request.C54_effect (E := E) (s := s) (by simp) hlen hsh hch hm hb
  rw [h1] at h4
  simp only [Option.some.injEq, Prod.mk.injEq] at h4
  obtain ⟨rfl, rfl, rfl⟩ := h4
  rw [hid] at h5 h1
  refine ⟨r1, e1, h1, h5, ?_⟩
  rw [h3]
  have ha : accepted E (asc type) rest = allowed E b := by unfold accepted; rw [hb]
  rw [ha]
  cases want with
  | false => simp [Replies]
  | true =>
    have hsil : silent E (asc type) = false := by
      cases h : silent E (asc type) with
      | false => rfl
      | true => exact absurd (hs h) (by simp)
    by_cases hpr : E.send.prep = none <;> simp [Replies, hsil, hpr]

/-! ### What each body is read as -/

theorem body_shell (E : CEnv) (m : Bytes) : body E (asc "shell") m = some .shell := by
  unfold body; rw [if_neg (by decide), if_pos rfl]

theorem body_exec (E : CEnv) {c : Bytes} (h : c.length < 2 ^ 32) : body E (asc "exec") (encString c) = some (.exec c) := by
  unfold body
  rw [if_neg (by decide), if_neg (by decide), if_pos rfl]
  have := Proofs.Ossh.string_enc c [] h
  rw [List.append_nil] at this
  rw [this]; rfl

theorem body_subsystem (E : CEnv) {c : Bytes} (h : c.length < 2 ^ 32) :
    body E (asc "subsystem") (encString c) = some (.subsystem c) := by
  unfold body
  rw [if_neg (by decide), if_neg (by decide), if_neg (by decide), if_pos rfl]
  have := Proofs.Ossh.string_enc c [] h
  rw [List.append_nil] at this
  rw [this]; rfl

theorem sizes_enc {w h wp hp : Nat} (h1 : w < 2 ^ 32) (h2 : h < 2 ^ 32) (h3 : wp < 2 ^ 32) (h4 : hp < 2 ^ 32) (r : Bytes) :
    sizes (encUint32 w ++ (encUint32 h ++ (encUint32 wp ++ (encUint32 hp ++ r)))) = some (w, h, wp, hp, r) := by
  unfold sizes
  rw [Proofs.Ossh.uint32_enc _ h1]
  simp only [Option.bind_some]
  rw [Proofs.Ossh.uint32_enc _ h2]
  simp only [Option.bind_some]
  rw [Proofs.Ossh.uint32_enc _ h3]
  simp only [Option.bind_some]
  rw [Proofs.Ossh.uint32_enc _ h4]
  rfl

theorem body_pty (E : CEnv) (ht : E.term = true) {term m : Bytes} {w h wp hp : Nat} (h0 : term.length < 2 ^ 32)
    (h1 : w < 2 ^ 32) (h2 : h < 2 ^ 32) (h3 : wp < 2 ^ 32) (h4 : hp < 2 ^ 32) (hm : m.length < 2 ^ 32) :
    body E (asc "pty-req") (encString term ++ (encUint32 w ++ (encUint32 h ++ (encUint32 wp ++ (encUint32 hp ++
      encString m))))) = some (.pty w h wp hp m) := by
  unfold body
  rw [if_neg (by decide), if_neg (by decide), if_neg (by decide), if_neg (by decide), if_pos ⟨rfl, ht⟩]
  rw [Proofs.Ossh.string_enc _ _ h0]
  simp only [Option.bind_some]
  rw [sizes_enc h1 h2 h3 h4]
  simp only [Option.bind_some]
  have := Proofs.Ossh.string_enc m [] hm
  rw [List.append_nil] at this
  rw [this]; rfl

theorem body_window (E : CEnv) (ht : E.term = true) (hs : E.shell = true) {w h wp hp : Nat}
    (h1 : w < 2 ^ 32) (h2 : h < 2 ^ 32) (h3 : wp < 2 ^ 32) (h4 : hp < 2 ^ 32) :
    body E (asc "window-change") (encUint32 w ++ (encUint32 h ++ (encUint32 wp ++ encUint32 hp))) =
      some (.window w h wp hp) := by
  unfold body
  rw [if_neg (by decide), if_neg (by decide), if_neg (by decide), if_neg (by decide),
    if_neg (fun h => absurd h.1 (by decide)), if_pos ⟨rfl, ht, hs⟩]
  have := sizes_enc h1 h2 h3 h4 []
  rw [List.append_nil] at this
  rw [this]; rfl

theorem body_exit (E : CEnv) (ht : E.term = true ∨ E.shell = true) {v : Nat} (h1 : v < 2 ^ 32) :
    body E (asc "exit-status") (encUint32 v) = some (.exitStatus v) := by
  unfold body
  rw [if_neg (by decide), if_neg (by decide), if_neg (by decide), if_neg (by decide),
    if_neg (fun h => absurd h.1 (by decide)), if_neg (fun h => absurd h.1 (by decide)), if_pos ⟨rfl, ht⟩]
  have := Proofs.Ossh.uint32_enc v h1 []
  rw [List.append_nil] at this
  rw [this]; rfl

theorem body_agent (E : CEnv) (ha : E.agent = true) (m : Bytes) :
    body E (asc "auth-agent-req@openssh.com") m = some .agent := by
  unfold body
  rw [if_neg (by decide), if_neg (by decide), if_neg (by decide), if_neg (by decide),
    if_neg (fun h => absurd h.1 (by decide)), if_neg (fun h => absurd h.1 (by decide)),
    if_neg (fun h => absurd h.1 (by decide)), if_neg (fun h => absurd h.1 (by decide)), if_pos ⟨rfl, ha⟩]

theorem body_empty_exec (E : CEnv) : body E (asc "exec") [] = none := by
  unfold body
  rw [if_neg (by decide), if_neg (by decide), if_pos rfl]
  rfl

theorem not_silent (E : CEnv) {t : Bytes} (h1 : t ≠ asc "window-change") (h2 : t ≠ asc "exit-status")
    (h3 : t ≠ asc "exit-signal") : silent E t = false := by
  simp [silent, h1, h2, h3]

theorem toWord_lt (i : Int) : toWord i < 2 ^ 32 := by unfold toWord; omega

theorem toInt_toWord {i : Int} (h1 : -2147483648 ≤ i) (h2 : i < 2147483648) : toInt (toWord i) = i := by
  unfold toInt toWord
  split <;> omega

theorem sent_eq {e : SendEnv} (h : e.prep = none) (p : Bytes) : sendPayload e p = (e.sent, [.packet p]) := by
  simp [sendPayload, h]

end Proofs.ClientReq
