import Verif.Spec.SshdSession
/-!
# Lemmas about the services of wolfsshd
-/

namespace Proofs.SshdSession
open Wolf Wolf.Sshd Spec.SshdSession

/-! ## Calls -/

theorem call_true {O : Oracle} {c : Call} {s s' : St} (h : call O c s = (true, s')) : s'.proc = effect c s.proc := by
  unfold call at h
  by_cases hc : O s.n c = true
  · rw [if_pos hc] at h; cases h; rfl
  · rw [if_neg hc] at h; cases h

theorem reduceUser_true {O : Oracle} {u g : Nat} {s s' : St} (h : reducePermissionsUser O u g s = (true, s')) :
    s'.proc = { s.proc with ruid := u, euid := u, suid := u, rgid := g, egid := g, sgid := g } := by
  unfold reducePermissionsUser at h
  cases h1 : call O (.setregid g g) s with
  | mk ok s1 =>
    rw [h1] at h
    cases ok with
    | false => cases h
    | true =>
      have e1 := call_true h1
      have e2 := call_true h
      rw [e2, e1]; rfl

theorem groupListLoop_some {all l : List Nat} : ∀ (fuel n : Nat), groupListLoop all fuel n = some l → l = all
  | 0, _, h => by cases h
  | fuel + 1, n, h => by
    unfold groupListLoop at h
    by_cases h1 : all.length ≤ n
    · rw [if_pos h1] at h; cases h; rfl
    · rw [if_neg h1] at h
      by_cases h2 : n ≥ GROUP_LIST_MAX
      · rw [if_pos h2] at h; cases h
      · rw [if_neg h2] at h; exact groupListLoop_some fuel _ h

theorem groupListLoop_total {all : List Nat} (ha : all.length ≤ 65536) :
    ∀ (fuel n : Nat), 0 < n → 65536 < n + fuel → 0 < fuel → groupListLoop all fuel n = some all
  | 0, _, _, _, hf => by omega
  | fuel + 1, n, hn, hs, _ => by
    unfold groupListLoop
    by_cases h1 : all.length ≤ n
    · rw [if_pos h1]
    · rw [if_neg h1]
      by_cases h2 : n ≥ GROUP_LIST_MAX
      · unfold GROUP_LIST_MAX at h2; omega
      · rw [if_neg h2]
        unfold GROUP_LIST_MAX at h2
        unfold GROUP_LIST_MAX
        refine groupListLoop_total ha fuel _ ?_ ?_ ?_
        · by_cases h3 : n * 2 > 65536
          · rw [if_pos h3]; omega
          · rw [if_neg h3]; omega
        · by_cases h3 : n * 2 > 65536
          · rw [if_pos h3]; omega
          · rw [if_neg h3]; omega
        · omega

theorem groupListLoop_none {all : List Nat} (ha : 65536 < all.length) :
    ∀ (fuel n : Nat), n ≤ 65536 → groupListLoop all fuel n = none
  | 0, _, _ => rfl
  | fuel + 1, n, hn => by
    unfold groupListLoop
    rw [if_neg (by omega)]
    by_cases h2 : n ≥ GROUP_LIST_MAX
    · rw [if_pos h2]
    · rw [if_neg h2]
      refine groupListLoop_none ha fuel _ ?_
      unfold GROUP_LIST_MAX
      by_cases h3 : n * 2 > 65536
      · rw [if_pos h3]; omega
      · rw [if_neg h3]; omega

theorem setGroups_true {O : Oracle} {all : List Nat} {s s' : St} (h : authSetGroups O all s = (true, s')) :
    s'.proc = { s.proc with groups := all } := by
  unfold authSetGroups at h
  cases hg : getUserGroupList all with
  | none => rw [hg] at h; cases h
  | some l =>
    rw [hg] at h
    rw [call_true h, groupListLoop_some _ _ hg]; rfl

theorem setupChroot_some {O : Oracle} {dir : Option Bytes} {s s' : St} {b : Bool} (h : setupChroot O dir s = (some b, s')) :
    (dir = none → s'.proc = s.proc) ∧ (∀ d, dir = some d → s'.proc = { s.proc with root := some d, inside := true }) ∧
    b = dir.isSome := by
  unfold setupChroot at h
  cases dir with
  | none => cases h; exact ⟨fun _ => rfl, (fun d hd => by cases hd), rfl⟩
  | some d =>
    simp only at h
    cases h1 : call O (.chdir d) s with
    | mk ok s1 =>
      rw [h1] at h
      cases ok with
      | false => cases h
      | true =>
        simp only at h
        cases h2 : call O (.chroot d) s1 with
        | mk ok s2 =>
          rw [h2] at h
          cases ok with
          | false => cases h
          | true =>
            simp only at h
            cases h3 : call O (.chdir [47]) s2 with
            | mk ok s3 =>
              rw [h3] at h
              cases ok with
              | false => cases h
              | true =>
                cases h
                refine ⟨(fun hd => by cases hd), fun d' hd => ?_, rfl⟩
                cases hd
                rw [call_true h3, call_true h2, call_true h1]
                rfl

/-- The root and the groups of a process that has been confined. -/
def Held (U : User) (p : Proc) : Prop := p.groups = U.groups ∧ Confined p U.conf.chrootDir

theorem confine_some {O : Oracle} {U : User} {s s' : St} {b : Bool} (h : confine O U s = (some b, s')) : Held U s'.proc := by
  unfold confine at h
  cases h1 : authSetGroups O U.groups s with
  | mk ok s1 =>
    rw [h1] at h
    cases ok with
    | false => cases h
    | true =>
      have e1 := setGroups_true h1
      obtain ⟨e2, e3, _⟩ := setupChroot_some h
      cases hd : U.conf.chrootDir with
      | none =>
        refine ⟨by rw [e2 hd, e1], fun d h => ?_⟩
        rw [hd] at h; cases h
      | some d =>
        refine ⟨by rw [e3 d hd, e1], fun d' h => ?_⟩
        rw [e3 d' h]
        exact ⟨rfl, rfl⟩

theorem held_user {U : User} {O : Oracle} {u g : Nat} {s s' : St} (h : Held U s.proc)
    (hr : reducePermissionsUser O u g s = (true, s')) : Held U s'.proc ∧ AsUser s'.proc u g U.groups := by
  have e := reduceUser_true hr
  refine ⟨⟨by rw [e]; exact h.1, ?_⟩, ⟨by rw [e]; exact ⟨rfl, rfl, rfl⟩, by rw [e]; exact ⟨rfl, rfl, rfl⟩, by rw [e]; exact h.1⟩⟩
  intro d hd
  rw [e]
  exact h.2 d hd

/-- Changing directory does not lead out of the root. -/
theorem held_chdir {U : User} {O : Oracle} {d : Bytes} {s : St} (h : Held U s.proc) : Held U (call O (.chdir d) s).2.proc := by
  unfold call
  by_cases hc : O s.n (.chdir d) = true
  · rw [if_pos hc]
    refine ⟨h.1, fun x hx => ⟨(h.2 x hx).1, ?_⟩⟩
    show (s.proc.inside || decide (d.head? = some 47)) = true
    rw [(h.2 x hx).2]
    rfl
  · rw [if_neg hc]; exact h

theorem user_chdir {O : Oracle} {d : Bytes} {s : St} {u g : Nat} {l : List Nat} (h : AsUser s.proc u g l) :
    AsUser (call O (.chdir d) s).2.proc u g l := by
  unfold call
  by_cases hc : O s.n (.chdir d) = true
  · rw [if_pos hc]; exact h
  · rw [if_neg hc]; exact h

theorem startDir_held {O : Oracle} {U : User} {home : Bytes} {b ok : Bool} {s s' : St} (h : Held U s.proc)
    (hs : startDir O home b s = (ok, s')) : Held U s'.proc := by
  have hcall : ∀ (c : Call) (s : St), Held U s.proc → (∃ p, c = .setDefaultPath p ∨ c = .opendir p) →
      Held U (call O c s).2.proc := by
    intro c s h ⟨p, hp⟩
    unfold call
    by_cases hc : O s.n c = true
    · rw [if_pos hc]
      rcases hp with rfl | rfl
      · exact h
      · exact h
    · rw [if_neg hc]; exact h
  unfold startDir at hs
  have h1 : Held U (if b = true then call O (.setDefaultPath [47]) s else (true, s)).2.proc := by
    cases b with
    | false => exact h
    | true => exact hcall _ _ h ⟨_, .inl rfl⟩
  cases hq : (if b = true then call O (.setDefaultPath [47]) s else (true, s)) with
  | mk ok1 s1 =>
    rw [hq] at hs h1
    cases ok1 with
    | false => cases hs; exact h1
    | true =>
      simp only at hs
      have h2 := hcall (.opendir home) s1 h1 ⟨_, .inr rfl⟩
      cases hq2 : call O (.opendir home) s1 with
      | mk ok2 s2 =>
        rw [hq2] at hs h2
        cases ok2 with
        | false => cases hs; exact h2
        | true =>
          have h3 := hcall (.setDefaultPath home) s2 h2 ⟨_, .inl rfl⟩
          simp only at hs
          rw [hs] at h3
          exact h3

/-! ## The services -/

theorem scp_acts {O : Oracle} {D : Daemon} {U : User} {s : St} {r : Done} (h : scpSubsystem O D U s = r) :
    (∃ p, r = .error p) ∨ r = .exit ∨ ∃ p, r = .scp p ∧ AsUser p U.pw.uid U.pw.gid U.groups ∧ Confined p U.conf.chrootDir := by
  unfold scpSubsystem at h
  cases h1 : raisePermissions O D s with
  | mk ok s1 =>
    rw [h1] at h
    cases ok with
    | false => exact .inl ⟨_, h.symm⟩
    | true =>
      simp only at h
      cases h2 : confine O U s1 with
      | mk ret s2 =>
        rw [h2] at h
        simp only at h
        cases h3 : reducePermissionsUser O U.pw.uid U.pw.gid s2 with
        | mk ok s3 =>
          rw [h3] at h
          cases ok with
          | false => exact .inr (.inl h.symm)
          | true =>
            simp only at h
            cases ret with
            | none => exact .inl ⟨_, h.symm⟩
            | some b =>
              have := held_user (confine_some h2) h3
              exact .inr (.inr ⟨s3.proc, h.symm, this.2, this.1.2⟩)

theorem sftp_acts {O : Oracle} {D : Daemon} {U : User} {s : St} {r : Done} (h : sftpSubsystem O D U s = r) :
    (∃ p, r = .error p) ∨ r = .exit ∨ ∃ p, r = .sftp p ∧ AsUser p U.pw.uid U.pw.gid U.groups ∧ Confined p U.conf.chrootDir := by
  unfold sftpSubsystem at h
  cases h1 : raisePermissions O D s with
  | mk ok s1 =>
    rw [h1] at h
    cases ok with
    | false => exact .inl ⟨_, h.symm⟩
    | true =>
      simp only at h
      cases h2 : prepareSftp O U s1 with
      | mk ret s2 =>
        rw [h2] at h
        simp only at h
        cases h3 : reducePermissionsUser O U.pw.uid U.pw.gid s2 with
        | mk ok s3 =>
          rw [h3] at h
          cases ok with
          | false => exact .inr (.inl h.symm)
          | true =>
            simp only at h
            cases ret with
            | false => exact .inl ⟨_, h.symm⟩
            | true =>
              have hh : Held U s2.proc := by
                unfold prepareSftp at h2
                cases h4 : confine O U s1 with
                | mk c s4 =>
                  rw [h4] at h2
                  cases c with
                  | none => cases h2
                  | some b => exact startDir_held (confine_some h4) h2
              have := held_user hh h3
              exact .inr (.inr ⟨s3.proc, h.symm, this.2, this.1.2⟩)

theorem child_acts {O : Oracle} {U : User} {piped : Bool} {cmd : Option Bytes} {s : St} {x : Exec}
    (h : shellChild O U piped cmd s = some x) :
    (AsUser x.proc U.pw.uid U.pw.gid U.groups ∧ Confined x.proc U.conf.chrootDir) ∧ x.file = shellFile U.shell ∧
    x.argv = argv0 U.shell :: runs cmd := by
  unfold shellChild at h
  cases h1 : ios O (if piped = true then 3 else 0) s with
  | mk ok s1 =>
    rw [h1] at h
    cases ok with
    | false => cases h
    | true =>
      simp only at h
      cases h2 : confine O U s1 with
      | mk c s2 =>
        rw [h2] at h
        cases c with
        | none => cases h
        | some b =>
          simp only at h
          have hh := confine_some h2
          have h3' : Held U (if b = true then call O (.chdir [47]) s2 else (true, s2)).2.proc := by
            cases b with
            | false => exact hh
            | true => exact held_chdir hh
          cases h3 : (if b = true then call O (.chdir [47]) s2 else (true, s2)) with
          | mk ok s3 =>
            rw [h3] at h h3'
            cases ok with
            | false => cases h
            | true =>
              simp only at h
              cases h4 : reducePermissionsUser O U.pw.uid U.pw.gid s3 with
              | mk ok s4 =>
                rw [h4] at h
                cases ok with
                | false => cases h
                | true =>
                  obtain ⟨h5, h6⟩ := held_user h3' h4
                  cases h
                  exact ⟨⟨user_chdir h6, (held_chdir h5).2⟩, rfl, by cases cmd <;> rfl⟩

theorem parent_acts {O : Oracle} {U : User} {s : St} {p : Proc} (h : shellParent O U s = some p) :
    AsUser p U.pw.uid U.pw.gid p.groups := by
  unfold shellParent at h
  cases h1 : reducePermissionsUser O U.pw.uid U.pw.gid s with
  | mk ok s1 =>
    rw [h1] at h
    cases ok with
    | false => cases h
    | true =>
      cases h
      have e := reduceUser_true h1
      exact ⟨by rw [e]; exact ⟨rfl, rfl, rfl⟩, by rw [e]; exact ⟨rfl, rfl, rfl⟩, rfl⟩

theorem fail_acts {O : Oracle} {D : Daemon} {s : St} {r : Done} (h : shellFail O D s = r) : (∃ p, r = .error p) ∨ r = .exit := by
  unfold shellFail at h
  cases h1 : reducePermissions O D s with
  | mk ok s1 =>
    rw [h1] at h
    cases ok with
    | false => exact .inr h.symm
    | true => exact .inl ⟨_, h.symm⟩

/-- The command a shell session runs. -/
def command (U : User) (subCmd : Option Bytes) : Option Bytes :=
  match mergeForcedCmd U.conf.forceCmd U.cert with
  | some c => some c
  | none => subCmd

theorem shell_acts {O O' : Oracle} {D : Daemon} {U : User} {pty : Option Bool} {subCmd : Option Bytes} {s : St} {r : Done}
    (h : shellSubsystem O O' D U pty subCmd s = r) :
    (∃ p, r = .error p) ∨ r = .exit ∨
    (command U subCmd ≠ some internalSftp ∧ ∃ c p, r = .shell c p ∧
      (∀ x, c = some x → (AsUser x.proc U.pw.uid U.pw.gid U.groups ∧ Confined x.proc U.conf.chrootDir) ∧
        x.file = shellFile U.shell ∧ x.argv = argv0 U.shell :: runs (command U subCmd)) ∧
      ∀ q, p = some q → AsUser q U.pw.uid U.pw.gid q.groups) := by
  unfold shellSubsystem at h
  cases pty with
  | none => exact .inl ⟨_, h.symm⟩
  | some pty =>
    simp only at h
    change (if command U subCmd = some internalSftp then _ else _) = r at h
    by_cases hs : command U subCmd = some internalSftp
    · rw [if_pos hs] at h; exact .inl ⟨_, h.symm⟩
    · rw [if_neg hs] at h
      cases h1 : raisePermissions O D s with
      | mk ok s1 =>
        rw [h1] at h
        cases ok with
        | false => exact .inl ⟨_, h.symm⟩
        | true =>
          simp only at h
          change (match ios O (if (!pty || (command U subCmd).isSome) = true then 3 else 0) s1 with
            | (false, s) => shellFail O D s
            | (true, s) =>
              match call O .io s with
              | (false, s) => shellFail O D s
              | (true, s) => .shell (shellChild O' U (!pty || (command U subCmd).isSome) (command U subCmd) ⟨s.proc, 0⟩)
                  (shellParent O U s)) = r at h
          cases h2 : ios O (if (!pty || (command U subCmd).isSome) = true then 3 else 0) s1 with
          | mk ok s2 =>
            rw [h2] at h
            cases ok with
            | false =>
              rcases fail_acts h with h | h
              · exact .inl h
              · exact .inr (.inl h)
            | true =>
              simp only at h
              cases h3 : call O .io s2 with
              | mk ok s3 =>
                rw [h3] at h
                cases ok with
                | false =>
                  rcases fail_acts h with h | h
                  · exact .inl h
                  · exact .inr (.inl h)
                | true =>
                  exact .inr (.inr ⟨hs, _, _, h.symm, fun x hx => child_acts hx, fun q hq => parent_acts hq⟩)

/-- What `HandleConnection` does, by the service it ends in. -/
theorem session_acts {O O' : Oracle} {D : Daemon} {U : User} {pty : Option Bool} {ret : Accepted} {ty : SessionType}
    {cmd : Option Bytes} {s : St} {r : Done} (h : handleSession O O' D U pty ret ty cmd s = r) :
    (∃ p, r = .error p) ∨ r = .exit ∨
    (∃ p, r = .scp p ∧ AsUser p U.pw.uid U.pw.gid U.groups ∧ Confined p U.conf.chrootDir ∧ ret = .scpInit ∧ U.cert = none ∧
      isRootTransferBlocked U.pw.uid U.conf = false) ∨
    (∃ p, r = .sftp p ∧ AsUser p U.pw.uid U.pw.gid U.groups ∧ Confined p U.conf.chrootDir ∧ ret = .sftpComplete ∧ ty = .subsystem ∧
      (U.cert = none ∨ U.cert = some internalSftp) ∧ isRootTransferBlocked U.pw.uid U.conf = false) ∨
    (∃ c p, r = .shell c p ∧ ret = .success ∧ (ty = .shell ∨ ty = .unknown ∨ ty = .exec) ∧
      command U (if ty = .shell then none else cmd) ≠ some internalSftp ∧
      (∀ x, c = some x → (AsUser x.proc U.pw.uid U.pw.gid U.groups ∧ Confined x.proc U.conf.chrootDir) ∧
        x.file = shellFile U.shell ∧ x.argv = argv0 U.shell :: runs (command U (if ty = .shell then none else cmd))) ∧
      ∀ q, p = some q → AsUser q U.pw.uid U.pw.gid q.groups) := by
  have hscp : ∀ {r}, handleScp O D U s = r → ret = .scpInit → (∃ p, r = .error p) ∨ r = .exit ∨
      (∃ p, r = .scp p ∧ AsUser p U.pw.uid U.pw.gid U.groups ∧ Confined p U.conf.chrootDir ∧ ret = .scpInit ∧ U.cert = none ∧
        isRootTransferBlocked U.pw.uid U.conf = false) := by
    intro r h hr
    unfold handleScp at h
    by_cases h1 : U.cert ≠ none
    · rw [if_pos h1] at h; exact .inl ⟨_, h.symm⟩
    · rw [if_neg h1] at h
      by_cases h2 : isRootTransferBlocked U.pw.uid U.conf = true
      · rw [if_pos h2] at h; exact .inl ⟨_, h.symm⟩
      · rw [if_neg h2] at h
        rcases scp_acts h with h | h | ⟨p, h, h3, h4⟩
        · exact .inl h
        · exact .inr (.inl h)
        · exact .inr (.inr ⟨p, h, h3, h4, hr, by simpa using h1, by simpa using h2⟩)
  unfold handleSession at h
  cases ty with
  | terminal => exact .inl ⟨_, h.symm⟩
  | shell =>
    cases ret with
    | sftpComplete => exact .inl ⟨_, h.symm⟩
    | scpInit => exact .inl ⟨_, h.symm⟩
    | success =>
      rcases shell_acts h with h | h | ⟨h1, c, p, h2, h3, h4⟩
      · exact .inl h
      · exact .inr (.inl h)
      · exact .inr (.inr (.inr (.inr ⟨c, p, h2, rfl, .inl rfl, h1, h3, h4⟩)))
  | unknown =>
    cases ret with
    | sftpComplete => exact .inl ⟨_, h.symm⟩
    | scpInit =>
      rcases hscp h rfl with h | h | h
      · exact .inl h
      · exact .inr (.inl h)
      · exact .inr (.inr (.inl h))
    | success =>
      rcases shell_acts h with h | h | ⟨h1, c, p, h2, h3, h4⟩
      · exact .inl h
      · exact .inr (.inl h)
      · exact .inr (.inr (.inr (.inr ⟨c, p, h2, rfl, .inr (.inl rfl), h1, h3, h4⟩)))
  | exec =>
    cases ret with
    | sftpComplete => exact .inl ⟨_, h.symm⟩
    | scpInit =>
      rcases hscp h rfl with h | h | h
      · exact .inl h
      · exact .inr (.inl h)
      · exact .inr (.inr (.inl h))
    | success =>
      rcases shell_acts h with h | h | ⟨h1, c, p, h2, h3, h4⟩
      · exact .inl h
      · exact .inr (.inl h)
      · exact .inr (.inr (.inr (.inr ⟨c, p, h2, rfl, .inr (.inr rfl), h1, h3, h4⟩)))
  | subsystem =>
    simp only at h
    by_cases hc : U.cert ≠ none ∧ U.cert ≠ some internalSftp
    · rw [if_pos hc] at h; exact .inl ⟨_, h.symm⟩
    · rw [if_neg hc] at h
      have hc' : U.cert = none ∨ U.cert = some internalSftp := by
        by_cases h1 : U.cert = none
        · exact .inl h1
        · exact .inr (Classical.byContradiction fun h2 => hc ⟨h1, h2⟩)
      cases ret with
      | success => exact .inl ⟨_, h.symm⟩
      | scpInit =>
        rcases hscp h rfl with h | h | h
        · exact .inl h
        · exact .inr (.inl h)
        · exact .inr (.inr (.inl h))
      | sftpComplete =>
        simp only at h
        by_cases h2 : isRootTransferBlocked U.pw.uid U.conf = true
        · rw [if_pos h2] at h; exact .inl ⟨_, h.symm⟩
        · rw [if_neg h2] at h
          rcases sftp_acts h with h | h | ⟨p, h, h3, h4⟩
          · exact .inl h
          · exact .inr (.inl h)
          · exact .inr (.inr (.inr (.inl ⟨p, h, h3, h4, rfl, rfl, hc', by simpa using h2⟩)))

end Proofs.SshdSession

namespace Proofs.SshdSession
open Wolf Wolf.Sshd Spec.SshdSession

/-! ## When every call succeeds -/

theorem call_ok {O : Oracle} (hO : ∀ n c, O n c = true) (c : Call) (s : St) : call O c s = (true, ⟨effect c s.proc, s.n + 1⟩) := by
  unfold call
  rw [if_pos (hO _ _)]

theorem raise_ok {O : Oracle} (hO : ∀ n c, O n c = true) (D : Daemon) (s : St) : ∃ s', raisePermissions O D s = (true, s') := by
  unfold raisePermissions
  by_cases h : D.privSep = 0 ∨ D.privSep = 1
  · rw [if_pos h, call_ok hO]
    exact ⟨_, call_ok hO _ _⟩
  · rw [if_neg h]; exact ⟨s, rfl⟩

theorem reduceUser_ok {O : Oracle} (hO : ∀ n c, O n c = true) (u g : Nat) (s : St) :
    ∃ s', reducePermissionsUser O u g s = (true, s') := by
  unfold reducePermissionsUser
  rw [call_ok hO]
  exact ⟨_, call_ok hO _ _⟩

theorem confine_ok {O : Oracle} (hO : ∀ n c, O n c = true) (U : User) (hg : U.groups.length ≤ 65536) (s : St) :
    ∃ s', confine O U s = (some U.conf.chrootDir.isSome, s') := by
  unfold confine authSetGroups getUserGroupList
  rw [groupListLoop_total hg _ _ (by decide) (by decide) (by decide)]
  simp only [call_ok hO]
  unfold setupChroot
  cases U.conf.chrootDir with
  | none => exact ⟨_, rfl⟩
  | some d =>
    simp only [call_ok hO]
    exact ⟨_, rfl⟩

theorem ios_ok {O : Oracle} (hO : ∀ n c, O n c = true) : ∀ (k : Nat) (s : St), ∃ s', ios O k s = (true, s')
  | 0, s => ⟨s, rfl⟩
  | k + 1, s => by
    unfold ios
    rw [call_ok hO]
    exact ios_ok hO k _

theorem startDir_ok {O : Oracle} (hO : ∀ n c, O n c = true) (home : Bytes) (b : Bool) (s : St) :
    ∃ s', startDir O home b s = (true, s') := by
  unfold startDir
  cases b with
  | false =>
    simp only [Bool.false_eq_true, if_false, call_ok hO]
    exact ⟨_, rfl⟩
  | true =>
    simp only [if_true, call_ok hO]
    exact ⟨_, rfl⟩

theorem scp_ok {O : Oracle} (hO : ∀ n c, O n c = true) (D : Daemon) (U : User) (hg : U.groups.length ≤ 65536) (s : St) :
    ∃ p, scpSubsystem O D U s = .scp p := by
  unfold scpSubsystem
  obtain ⟨s1, h1⟩ := raise_ok hO D s
  obtain ⟨s2, h2⟩ := confine_ok hO U hg s1
  obtain ⟨s3, h3⟩ := reduceUser_ok hO U.pw.uid U.pw.gid s2
  rw [h1]; simp only; rw [h2]; simp only; rw [h3]
  exact ⟨_, rfl⟩

theorem sftp_ok {O : Oracle} (hO : ∀ n c, O n c = true) (D : Daemon) (U : User) (hg : U.groups.length ≤ 65536) (s : St) :
    ∃ p, sftpSubsystem O D U s = .sftp p := by
  unfold sftpSubsystem
  obtain ⟨s1, h1⟩ := raise_ok hO D s
  have h3 : ∃ s3, prepareSftp O U s1 = (true, s3) := by
    unfold prepareSftp
    obtain ⟨s2, h2⟩ := confine_ok hO U hg s1
    rw [h2]
    exact startDir_ok hO U.pw.dir U.conf.chrootDir.isSome s2
  obtain ⟨s3, h3⟩ := h3
  obtain ⟨s4, h4⟩ := reduceUser_ok hO U.pw.uid U.pw.gid s3
  rw [h1]; simp only; rw [h3]; simp only; rw [h4]
  exact ⟨_, rfl⟩

theorem child_ok {O : Oracle} (hO : ∀ n c, O n c = true) (U : User) (hg : U.groups.length ≤ 65536) (b : Bool) (cmd : Option Bytes)
    (s : St) : ∃ x, shellChild O U b cmd s = some x := by
  unfold shellChild
  obtain ⟨s1, h1⟩ := ios_ok hO (if b = true then 3 else 0) s
  obtain ⟨s2, h2⟩ := confine_ok hO U hg s1
  have h3 : ∃ s3, (if U.conf.chrootDir.isSome = true then call O (.chdir [47]) s2 else (true, s2)) = (true, s3) := by
    cases U.conf.chrootDir with
    | none => exact ⟨_, rfl⟩
    | some d => exact ⟨_, call_ok hO _ _⟩
  obtain ⟨s3, h3⟩ := h3
  obtain ⟨s4, h4⟩ := reduceUser_ok hO U.pw.uid U.pw.gid s3
  rw [h1]; simp only; rw [h2]; simp only; rw [h3]; simp only; rw [h4]
  exact ⟨_, rfl⟩

theorem shell_ok {O O' : Oracle} (hO : ∀ n c, O n c = true) (hO' : ∀ n c, O' n c = true) (D : Daemon) (U : User)
    (hg : U.groups.length ≤ 65536) (pty : Bool) (cmd : Option Bytes) (hc : command U cmd ≠ some internalSftp) (s : St) :
    ∃ x p, shellSubsystem O O' D U (some pty) cmd s = .shell (some x) (some p) := by
  unfold shellSubsystem
  simp only
  change ∃ x p, (if command U cmd = some internalSftp then _ else _) = _
  rw [if_neg hc]
  obtain ⟨s1, h1⟩ := raise_ok hO D s
  rw [h1]
  simp only
  change ∃ x p, (match ios O (if (!pty || (command U cmd).isSome) = true then 3 else 0) s1 with
            | (false, s) => shellFail O D s
            | (true, s) =>
              match call O .io s with
              | (false, s) => shellFail O D s
              | (true, s) => .shell (shellChild O' U (!pty || (command U cmd).isSome) (command U cmd) ⟨s.proc, 0⟩)
                  (shellParent O U s)) = _
  obtain ⟨s2, h2⟩ := ios_ok hO (if (!pty || (command U cmd).isSome) = true then 3 else 0) s1
  rw [h2]
  simp only [call_ok hO]
  obtain ⟨x, hx⟩ := child_ok hO' U hg (!pty || (command U cmd).isSome) (command U cmd) ⟨effect .io s2.proc, 0⟩
  rw [hx]
  unfold shellParent
  obtain ⟨s3, h3⟩ := reduceUser_ok hO U.pw.uid U.pw.gid ⟨effect .io s2.proc, s2.n + 1⟩
  rw [h3]
  exact ⟨_, _, rfl⟩

/-! ## The name of the shell -/

theorem argv0Loop_eq (base : Bytes) (hb : (47 : UInt8) ∉ base) :
    ∀ (fuel : Nat) (pre : Bytes), pre.length < fuel → argv0Loop fuel (pre ++ 47 :: base) = 45 :: base
  | 0, _, h => by omega
  | fuel + 1, [], _ => by
    have : (45 :: base).contains 47 = false := by
      simp only [List.contains_eq_mem, List.mem_cons, decide_eq_false_iff_not, not_or]
      exact ⟨by decide, hb⟩
    unfold argv0Loop
    simp only [List.nil_append, List.drop_succ_cons, List.drop_zero, this, Bool.false_eq_true, if_false]
  | fuel + 1, c :: pre, h => by
    have h1 : (45 :: (pre ++ 47 :: base)).contains 47 = true := by
      simp [List.contains_eq_mem]
    unfold argv0Loop
    simp only [List.cons_append, List.drop_succ_cons, List.drop_zero, h1, if_true]
    have h2 : ∃ pre', (45 :: (pre ++ 47 :: base)).dropWhile (fun c => decide (c ≠ 47)) = pre' ++ 47 :: base ∧
        pre'.length ≤ pre.length := by
      rw [List.dropWhile_cons_of_pos (by decide)]
      clear h h1
      induction pre with
      | nil => exact ⟨[], by simp, by simp⟩
      | cons d pre ih =>
        by_cases hd : d = 47
        · refine ⟨d :: pre, ?_, by simp⟩
          subst hd
          simp
        · obtain ⟨p, h1, h2⟩ := ih
          refine ⟨p, ?_, by simp; omega⟩
          rw [List.cons_append, List.dropWhile_cons_of_pos (by simpa using hd)]
          exact h1
    obtain ⟨pre', h3, h4⟩ := h2
    rw [h3]
    exact argv0Loop_eq base hb fuel pre' (by simp at h; omega)

end Proofs.SshdSession
