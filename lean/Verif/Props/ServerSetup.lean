import Verif.Proofs.ServerSetup
/-!
# C130: how a server sets up a session
-/

namespace Props.ServerSetup
open Wolf.ServerSetup Spec.ServerSetup Proofs.ServerSetup

/-- A call whose transport takes everything and whose client goes on to the end. -/
def good (agent : Bool) : Env := { rx := List.replicate 6 (.got 5 false agent false false false) }

/-- A call whose transport takes nothing. -/
def stalled (rx : List Rx) : Env := { flush := .blocked, out := fun _ => .blocked, rx := rx }

private theorem upto_prefix (j : Nat) : upto j <+: expected := by
  unfold upto expected
  split <;> decide

/-- **C130 (partial).** However often `wolfSSH_accept` is called, wherever writing stalls and whatever arrives, what it
puts into the output buffer is a beginning of version, KEXINIT, service and success, and after all of these only requests
for an agent channel: one at most if no such request met a transport that took only a part of it. Missing: the one
request at most without that (`C130_agent_twice`). -/
theorem C130_partial (es : List Env) : ∃ k, (run es {}).log <+: expected ++ List.replicate k .agent ∧
    (AgentWritten es → k ≤ 1) := by
  obtain ⟨⟨j, k, h, _⟩, _⟩ := reach es
  refine ⟨k, ?_, fun he => ?_⟩
  · rw [h.log]
    by_cases hj : j < 9
    · rw [h.none hj]
      simpa using upto_prefix j
    · have : upto j = expected := by
        have := h.hi
        have : j = 9 ∨ j = 10 ∨ j = 11 := by omega
        rcases this with rfl | rfl | rfl <;> rfl
      rw [this]; exact List.prefix_refl _
  · have h1 := h.up
    rw [run_leaked es he] at h1
    exact h1

/-- The server says nothing before its turn: KEXINIT goes out only after the client's version, the service only after it
was asked for, the success only after the client's state had been "authenticated", an agent request only after the client
had asked for its session. -/
theorem C130_turn (es : List Env) :
    (Msg.kexinit ∈ (run es {}).log → 1 ≤ (run es {}).best) ∧ (Msg.service ∈ (run es {}).log → 2 ≤ (run es {}).best) ∧
    (Msg.success ∈ (run es {}).log → 3 ≤ (run es {}).best) ∧ (Msg.agent ∈ (run es {}).log → 5 ≤ (run es {}).best) := by
  obtain ⟨⟨j, k, h, _⟩, _⟩ := reach es
  have hn := h.need
  rw [h.log]
  have h1 := h.hi
  have key : ∀ m : Msg, m ≠ .agent → m ∈ upto j ++ List.replicate k .agent → m ∈ upto j := by
    intro m hm hmem
    rcases List.mem_append.1 hmem with h | h
    · exact h
    · exact absurd (List.eq_of_mem_replicate h) hm
  have : j = 0 ∨ j = 1 ∨ j = 2 ∨ j = 3 ∨ j = 4 ∨ j = 5 ∨ j = 6 ∨ j = 7 ∨ j = 8 ∨ j = 9 ∨ j = 10 ∨ j = 11 := by omega
  refine ⟨fun hm => ?_, fun hm => ?_, fun hm => ?_, fun hm => ?_⟩
  rotate_left 3
  · refine h.ag (Nat.pos_of_ne_zero fun hk => ?_)
    rw [hk] at hm
    have hm : Msg.agent ∈ upto j := by simpa using hm
    exact absurd ((upto_prefix j).subset hm) (by decide)
  all_goals
    have hm := key _ (by decide) hm
    rcases this with rfl | rfl | rfl | rfl | rfl | rfl | rfl | rfl | rfl | rfl | rfl | rfl <;>
      first
      | exact absurd hm (by decide)
      | (simp only [need] at hn; omega)

/-- When a call succeeds all of them have been sent, and the client had asked for its session. -/
theorem C130_all (es : List Env) (e : Env) (hd : (run es {}).dead = false) (h : (accept e (run es {})).1 = true) :
    expected <+: (accept e (run es {})).2.log ∧ 5 ≤ (accept e (run es {})).2.best := by
  obtain ⟨hi, hb⟩ := reach es
  obtain ⟨⟨⟨j, k, hs, hj⟩, hf⟩, _⟩ := accept_Inv hi hb hd e
  obtain ⟨h10, hd'⟩ := hf h
  have hj' : j = (accept e (run es {})).2.stage := by
    rcases hj hd' with h | h
    · exact h.1
    · omega
  have := hs.hi
  have h2 : j = 10 ∨ j = 11 := by omega
  have hn := hs.need
  rw [hs.log]
  rcases h2 with rfl | rfl
  · exact ⟨⟨_, rfl⟩, hn⟩
  · exact ⟨⟨_, rfl⟩, hn⟩

/-- As long as the first key exchange has not ended, the server has sent of its own accord nothing but its version and its
KEXINIT, however far the client claims to be. -/
theorem C130_keys (es : List Env) (hk : StillKeying es) : ∀ m ∈ (run es {}).log, m = .version ∨ m = .kexinit :=
  (run_K es hk {} ⟨by decide, fun h => absurd h (by decide), fun m h => by cases h⟩).log

example : StillKeying [{ rx := [.got 5 true false false false false, .got 5 true false false false false] }] ∧
    (run [{ rx := [.got 5 true false false false false, .got 5 true false false false false] }] {}).log = [.version, .kexinit] := by
  refine ⟨?_, by decide +kernel⟩
  intro e he rx hrx c a x p st h
  rw [List.mem_singleton.1 he] at hrx
  simp only [List.mem_cons, List.not_mem_nil, or_false] at hrx
  rcases hrx with rfl | rfl <;> cases h

/-- And nothing has to be done again: after any calls, one with a willing transport and client succeeds. -/
theorem C130_progress (es : List Env) (agent : Bool) : (accept (good agent) (run es {})).1 = true :=
  accept_live _ agent false

/-- Four calls, three of which meet a transport that takes nothing: everything is sent once. -/
example : (run [stalled [], { out := fun n => if n = 2 then .blocked else .written, rx := [.got 1 false false false false false] },
    { rx := [.got 1 false false false true true] }, good false] {}).log = expected ∧
    (run [stalled []] {}).log = [.version] := by decide +kernel

example : AgentWritten [good true] ∧ (run [good true] {}).log = expected ++ [.agent] ∧ (run [good true] {}).leaked = 0 :=
  ⟨fun e he => by rw [List.mem_singleton.1 he]; decide, by decide +kernel, by decide +kernel⟩

/-- Why `C130_partial` asks for it: a request for the agent's channel of which the transport takes only a part is made
again by the next call, so the client is asked for two channels, and the agent context of the first is lost. -/
theorem C130_agent_twice : ∃ es : List Env, (run es {}).dead = false ∧ (run es {}).stage = 10 ∧
    (run es {}).log = expected ++ [.agent, .agent] ∧ (run es {}).leaked = 1 :=
  ⟨[{ out := fun n => if n = 9 then .blocked else .written, rx := List.replicate 6 (.got 5 false true false false false) }, {}],
    by decide +kernel⟩

end Props.ServerSetup
