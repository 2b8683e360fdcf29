import Verif.Proofs.Session
/-! The user name of a session is written once. -/

namespace Wolf.Session
open Wolf Wolf.Wire Wolf.UserAuth Wolf.MsgFilter

/-- Once a user was named, the name stays. -/
def Fixed (a a' : Auth) : Prop :=
  a.userAuthSeen = true → a'.userAuthSeen = true ∧ a'.userName = a.userName

theorem Fixed.trans {a b c : Auth} (h : Fixed a b) (h' : Fixed b c) : Fixed a c := by
  intro hs
  obtain ⟨h1, h2⟩ := h hs
  obtain ⟨h3, h4⟩ := h' h1
  exact ⟨h3, h4.trans h2⟩

theorem Fixed.of {a a' : Auth} (h : a'.userAuthSeen = a.userAuthSeen) (h' : a'.userName = a.userName) :
    Fixed a a' := fun hs => ⟨h.trans hs, h'⟩

theorem req_fixed {a a' : Auth} {r : Ret} (h : ReqCase a r a') : Fixed a a' := by
  cases h with
  | same h => subst h; exact .of rfl rfl
  | charged h => exact .of (h []).seen (h []).name
  | mismatch h _ => subst h; exact .of rfl rfl
  | abandoned user id f hu _ _ _ h => subst h; exact fun hs => ⟨rfl, hu hs⟩
  | method user id f b hu _ h => exact fun hs => ⟨h.seen, h.name.trans (hu hs)⟩

theorem dispatch_fixed {s s' : Srv} {e : RecvEnv} {p : Pkt} {r : Ret}
    (h : dispatch s e p = some (r, s')) : Fixed s.a s'.a := by
  unfold dispatch at h
  simp only at h
  split at h
  · cases hd : doServiceRequest s.a (p.payload ++ p.pad) p.payload.length with
    | none => rw [hd] at h; cases h
    | some ra =>
      rw [hd] at h
      simp only [Option.map_some, Option.some.injEq, Prod.mk.injEq] at h
      obtain ⟨_, rfl⟩ := h
      obtain ⟨r0, a0⟩ := ra
      rcases service_cases hd with rfl | rfl | rfl <;> exact .of rfl rfl
  · split at h
    · split at h
      · cases h
      · rename_i hd
        simp only [Option.some.injEq, Prod.mk.injEq] at h
        obtain ⟨_, rfl⟩ := h
        exact req_fixed (request_cases _ _ _ _ hd)
    · split at h
      · split at h
        · cases h
        · rename_i hd
          simp only [Option.some.injEq, Prod.mk.injEq] at h
          obtain ⟨_, rfl⟩ := h
          rcases infoResponse_eff _ _ _ _ _ hd with rfl | ⟨_, he⟩
          · exact .of rfl rfl
          · exact .of he.seen he.name
      · split at h
        · simp only [Option.some.injEq, Prod.mk.injEq] at h
          obtain ⟨_, rfl⟩ := h
          exact .of rfl rfl
        · split at h <;> simp only [Option.some.injEq, Prod.mk.injEq] at h <;>
            obtain ⟨_, rfl⟩ := h <;> exact .of rfl rfl

theorem doPacket_fixed {s s' : Srv} {e : RecvEnv} {p : Pkt} {r : Ret} {c : Bool}
    (h : doPacket s e p = some (r, c, s')) : Fixed s.a s'.a := by
  unfold doPacket at h
  split at h
  · simp only [Option.some.injEq, Prod.mk.injEq] at h
    obtain ⟨_, _, rfl⟩ := h
    exact .of rfl rfl
  · simp only at h
    split at h
    · cases h
    · rename_i hd
      have hf := dispatch_fixed hd
      have hf : Fixed s.a _ := hf
      split at h
      · simp only [Option.some.injEq, Prod.mk.injEq] at h
        obtain ⟨_, _, rfl⟩ := h
        exact hf
      · split at h <;> simp only [Option.some.injEq, Prod.mk.injEq] at h <;>
          obtain ⟨_, _, rfl⟩ := h <;> exact hf

theorem doReceive_fixed {s s' : Srv} {e : RecvEnv} {ok : Bool}
    (h : doReceive s e = some (ok, s')) : Fixed s.a s'.a := by
  unfold doReceive at h
  simp only at h
  split at h
  · split at h
    · cases h
    · rename_i hd
      simp only [Option.some.injEq, Prod.mk.injEq] at h
      obtain ⟨rfl, rfl⟩ := h
      exact (doPacket_fixed hd :)
  · split at h
    · simp only [Option.some.injEq, Prod.mk.injEq] at h
      obtain ⟨rfl, rfl⟩ := h
      exact .of rfl rfl
    · split at h
      · cases h
      · rename_i hd
        simp only [Option.some.injEq, Prod.mk.injEq] at h
        obtain ⟨rfl, rfl⟩ := h
        exact (doPacket_fixed hd :)

theorem sendThen_fixed (s : Srv) (l : LoopEnv) (next : Nat) (ev : Option Ev) :
    Fixed s.a (sendThen s l next ev).a := by
  have : Fixed s.a (noteSent s.a l.send ev) := by
    unfold noteSent
    split
    · split <;> exact .of rfl rfl
    · exact .of rfl rfl
  unfold sendThen
  simp only
  split <;> exact this

theorem recvWhile_fixed {s s' : Srv} {l : LoopEnv} {c : Bool} {n : Nat}
    (h : recvWhile s l c n = some s') : Fixed s.a s'.a := by
  unfold recvWhile at h
  split at h
  · split at h
    · cases h
    · rename_i hd
      simp only [Option.some.injEq] at h
      subst h
      exact doReceive_fixed hd
    · rename_i hd
      simp only [Option.some.injEq] at h
      subst h
      exact (doReceive_fixed hd :)
  · simp only [Option.some.injEq] at h
    subst h
    exact .of rfl rfl

theorem step_fixed {s s' : Srv} {i : In} (h : step s i = some s') : Fixed s.a s'.a := by
  cases i with
  | accept f =>
    simp only [step, Option.some.injEq] at h
    subst h
    unfold acceptEnter
    split
    · exact .of rfl rfl
    · simp only
      split
      · split <;> exact .of rfl rfl
      · exact .of rfl rfl
  | loop l =>
    simp only [step] at h
    unfold loopStep at h
    split at h
    · cases h; exact sendThen_fixed _ _ _ _
    · split at h
      · split at h <;> cases h <;> exact .of rfl rfl
      · cases h; exact .of rfl rfl
    · cases h; exact sendThen_fixed _ _ _ _
    · exact recvWhile_fixed h
    · exact recvWhile_fixed h
    · cases h; exact sendThen_fixed _ _ _ _
    · exact recvWhile_fixed h
    · cases h; exact sendThen_fixed _ _ _ _
    · exact recvWhile_fixed h
    · exact recvWhile_fixed h
    · cases h; exact .of rfl rfl
  | other e =>
    simp only [step, Option.map_eq_some_iff] at h
    obtain ⟨⟨ok, s1⟩, hd, rfl⟩ := h
    exact doReceive_fixed hd

end Wolf.Session
