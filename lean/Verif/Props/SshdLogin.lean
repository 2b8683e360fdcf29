import Verif.Props.SshdAuth
import Verif.Proofs.Reject
/-!
# C96, C97: rejection ends a session; a session of wolfsshd belongs to a user who may log in

`Reach` is as in Props/Auth.lean.
-/

namespace Props.Login
open Wolf Wolf.UserAuth Wolf.Session Spec.SshdAuth
open Wolf.Sshd (Sys Conf requestAuthentication Cred PubKey)

/-! ## C96 -/

/-- C96: after the application has rejected a password, a key or keyboard answers, it is not asked again, no message is acted
upon and no success is sent: only the failure reply and a disconnect message go out. Missing: a rejection while the questions
of keyboard-interactive are being set up (`C96_setup_witness`). -/
theorem C96_rejected_partial {mx : Nat} {sid : Bytes} {s : Srv} (h : Reach true mx sid s) {l₁ l₂ : List Ev} {u : Bytes} {q : Ask}
    (hl : s.a.log = l₁ ++ .asked u q .rejected :: l₂) (hq : q ≠ .keyboardSetup) :
    ∀ x ∈ l₂, x = .sentDisconnect ∨ ∃ p, x = .sentFailure p := by
  have hard : Proofs.Reject.Hard (.asked u q .rejected) := ⟨u, q, rfl, hq⟩
  rcases Proofs.Reject.reach_inv h with hc | ⟨he, _⟩
  · exact absurd hard (hc _ (by rw [hl]; simp))
  · exact Proofs.Reject.ended_tail he hl hard

/-- C96: and `wolfSSH_accept` does nothing any more: it reports the error again, whatever the transport has. -/
theorem C96_stays {mx : Nat} {sid : Bytes} {s : Srv} (h : Reach true mx sid s) {u : Bytes} {q : Ask}
    (hm : Ev.asked u q .rejected ∈ s.a.log) (hq : q ≠ .keyboardSetup) (flush : Ret) :
    s.error = some .userAuthE ∧ s.inCall = false ∧ acceptEnter s flush = s := by
  rcases Proofs.Reject.reach_inv h with hc | ⟨_, h1, h2⟩
  · exact absurd ⟨u, q, rfl, hq⟩ (hc _ hm)
  · refine ⟨h1, h2, ?_⟩
    unfold acceptEnter
    rw [if_pos (by rw [h1]; rfl)]

/-- Runs of the accept loop in which all sends succeed. -/
theorem run_reach {mx : Nat} {sid : Bytes} {s : Srv} (is : List In) (hl : ∀ i ∈ is, ∃ l, i = .loop l ∧ l.send = none)
    (hc : ∀ k, k < is.length → (Auth.runAll (acceptEnter (Srv.init mx sid) none) (is.take k)).map (·.inCall) = some true)
    (h : Auth.runAll (acceptEnter (Srv.init mx sid) none) is = some s) : Reach true mx sid s := by
  have h0 : Reach true mx sid (acceptEnter (Srv.init mx sid) none) := Reach.init.step (i := .accept none) rfl rfl
  refine Auth.runAll_reach h0 is hl ?_ h
  intro k hk
  have := hc k hk
  cases hq : Auth.runAll (acceptEnter (Srv.init mx sid) none) (is.take k) with
  | none => rw [hq] at this; cases this
  | some s1 => rw [hq] at this; exact ⟨s1, rfl, by simpa using this⟩

/-- Packets of one run, under one application. -/
def loops (E : Env) (l : List (Nat × Bytes)) : List In :=
  l.map (fun p => .loop ⟨none, false, ⟨none, ⟨p.1, p.2, [0, 0, 0, 0]⟩, E, ⟨false, false, none, none, none⟩, ⟨none, none⟩, none, none, false⟩⟩)

theorem loops_ok (E : Env) (l : List (Nat × Bytes)) : ∀ i ∈ loops E l, ∃ x, i = .loop x ∧ x.send = none := by
  intro i hi
  obtain ⟨p, _, rfl⟩ := List.mem_map.1 hi
  exact ⟨_, rfl, rfl⟩

/-- Version, key exchange and service request. -/
def opening : List (Nat × Bytes) :=
  [(0, []), (0, []), (0, []), (0, []), (20, []), (0, []), (5, Spec.Wire.encString (NameList.asc "ssh-userauth")), (0, []), (0, [])]

/-- A request of `user` for `method`. -/
def request (user method rest : Bytes) : Nat × Bytes :=
  (50, Spec.Wire.encString user ++ (Spec.Wire.encString (NameList.asc "ssh-connection") ++ (Spec.Wire.encString method ++ rest)))

/-- An application that rejects: passwords other than "x", and all keyboard logins. -/
def rejecting : Env := { Auth.demoEnv with cb := some (fun _ q => match q with | .password [120] => .success | _ => .rejected) }

def rejectedRun : List In :=
  loops rejecting (opening ++ [request [117] (NameList.asc "password") (0 :: Spec.Wire.encString [121])])

set_option maxRecDepth 20000 in
/-- The hypotheses of `C96_rejected_partial` and `C96_stays` are met. -/
example : ∃ s, Reach true 5 [7] s ∧ s.a.log = [.acted 20, .acted 5, .sentServiceAccept, .acted 50] ++
    .asked [117] (.password [121]) .rejected :: [.sentFailure false] := by
  have h : (Auth.runAll (acceptEnter (Srv.init 5 [7]) none) rejectedRun).map (fun s => s.a.log) =
      some [.acted 20, .acted 5, .sentServiceAccept, .acted 50, .asked [117] (.password [121]) .rejected, .sentFailure false] := by
    decide +kernel
  cases hr : Auth.runAll (acceptEnter (Srv.init 5 [7]) none) rejectedRun with
  | none => rw [hr] at h; cases h
  | some s =>
    rw [hr] at h
    simp only [Option.map_some, Option.some.injEq] at h
    exact ⟨s, run_reach rejectedRun (loops_ok _ _) (by decide +kernel) hr, h⟩

def setupRun : List In :=
  loops rejecting (opening ++
    [request [117] (NameList.asc "keyboard-interactive") (Spec.Wire.encString [] ++ Spec.Wire.encString []),
     request [117] (NameList.asc "password") (0 :: Spec.Wire.encString [120]), (0, []), (0, [])])

set_option maxRecDepth 20000 in
/-- Disagreement: `WOLFSSH_USERAUTH_REJECTED` is documented as "a hard rejection that ends the session" (wolfssh/ssh.h:464-465),
but the answer to `WOLFSSH_USERAUTH_KEYBOARD_SETUP` is treated as an ordinary failure: the session goes on and the next password
succeeds. -/
theorem C96_setup_witness : ∃ s, Reach true 5 [7] s ∧ s.acceptState = 8 ∧ s.a.log = [.acted 20, .acted 5, .sentServiceAccept, .acted 50,
    .asked [117] .keyboardSetup .rejected, .sentFailure false, .acted 50, .asked [117] (.password [120]) .success,
    .sentUserAuthSuccess] := by
  have h : (Auth.runAll (acceptEnter (Srv.init 5 [7]) none) setupRun).map (fun s => (s.acceptState, s.a.log)) =
      some (8, [.acted 20, .acted 5, .sentServiceAccept, .acted 50,
        .asked [117] .keyboardSetup .rejected, .sentFailure false, .acted 50, .asked [117] (.password [120]) .success,
        .sentUserAuthSuccess]) := by
    decide +kernel
  cases hr : Auth.runAll (acceptEnter (Srv.init 5 [7]) none) setupRun with
  | none => rw [hr] at h; cases h
  | some s =>
    rw [hr] at h
    simp only [Option.map_some, Option.some.injEq, Prod.mk.injEq] at h
    exact ⟨s, run_reach setupRun (loops_ok _ _) (by decide +kernel) hr, h⟩

/-! ## C97 -/

/-- What wolfsshd makes of a question of the library (`RequestAuthentication` looks at `authData->type`); `x509` says which
algorithms are those of X.509 certificates. -/
def credOf (x509 : Bytes → Bool) : Ask → Cred
  | .password pw => .password pw
  | .keyboardSetup => .none
  | .keyboard _ => .none
  | .publicKey algo key _ _ cert => .publicKey ⟨key, x509 algo, cert⟩

/-- Its answer, as the library reads it. -/
def reading : Wolf.Sshd.Answer → Wolf.UserAuth.Answer
  | .success => .success
  | .rejected => .rejected
  | _ => .other

/-- Everything the library asked was answered by wolfsshd with configuration `conf`, in states of the system, and for a peer,
with property `P`. -/
def AnsweredBy (conf : List Conf) (x509 : Bytes → Bool) (P : Sys → Option Bytes → Prop) (log : List Ev) : Prop :=
  ∀ u q ans, Ev.asked u q ans ∈ log → ∃ S peer n m a, P S peer ∧
    requestAuthentication S conf (upToNul u) (credOf x509 q) peer n = some (a, m) ∧ ans = reading a

/-- The key is one the user may log in with: a plain key of the user's own keys file, or one certified for the user by an
authority of the trusted file. -/
def KeyOf (S : Sys) (conf : List Conf) (user key : List UInt8) (cert : Option Wolf.OsshCert.Shown) : Prop :=
  ∃ e c c0, Settings S conf user e c ∧ conf.head? = some c0 ∧ MayKeys user e c ∧
    match cert with
    | none => ∃ path file, Spec.Sshd.KeysPath e.dir user c.authKeysFile path ∧ Reads S c0.strictModes e.uid path file ∧
        (TameFile S file → Listed S file key)
    | some sh => Spec.SshdCert.Principal sh.principals user ∧ Spec.SshdCert.Valid sh.validAfter sh.validBefore S.now ∧
        ∃ path file, c.userCAKeysFile = some path ∧ Spec.SshdFile.Trusted S.world path S.euid false file ∧
          (TameFile S file → Listed S file sh.caKey)

theorem reading_success {a : Wolf.Sshd.Answer} (h : reading a = .success) : a = .success := by
  cases a <;> first | rfl | cases h

/-- C97: a session that wolfsshd lets past authentication belongs to a user who showed a password that lets them in, or signed
the session with a key that does. -/
theorem C97_login {polite : Bool} {mx : Nat} {sid : Bytes} {s : Srv} (h : Reach polite mx sid s) (hp : 7 ≤ s.acceptState)
    {conf : List Conf} {x509 : Bytes → Bool} {P : Sys → Option Bytes → Prop} (ha : AnsweredBy conf x509 P s.a.log)
    (hP : ∀ S peer, P S peer → Spec.SshdFile.Absolute S.world ∧ Spec.Sshd.Decoder S.keys.base64 ∧
      ∀ u e, S.getpwnam u = some e → e.dir.length < 2 ^ 31)
    (hlen : (upToNul s.a.userName).length < 2 ^ 31) :
    (∃ S peer pw, P S peer ∧ MayPassword S conf (upToNul s.a.userName) pw (upToNul pw)) ∨
    (∃ S peer algo key sig cert rest, P S peer ∧
      Ev.sigChecked s.a.userName algo key sig (Spec.Wire.encString sid ++ [50] ++ rest) true ∈ s.a.log ∧
      (x509 algo = false → KeyOf S conf (upToNul s.a.userName) key cert)) := by
  rcases Auth.C11_accept_needs_credential h hp with ⟨pw, hm⟩ | ⟨rs, hm⟩ | ⟨algo, key, sig, cert, rest, hm, hsig⟩
  · obtain ⟨S, peer, n, m, a, hPS, hq, he⟩ := ha _ _ _ hm
    have := reading_success he.symm
    subst this
    obtain ⟨hr, hd⟩ := Props.Sshd.C92_rights hq
    exact .inl ⟨S, peer, pw, hPS, (Props.Sshd.C92_password_exact hr hd).1 ⟨m, hq⟩⟩
  · obtain ⟨S, peer, n, m, a, hPS, hq, he⟩ := ha _ _ _ hm
    have := reading_success he.symm
    subst this
    cases hq
  · obtain ⟨S, peer, n, m, a, hPS, hq, he⟩ := ha _ _ _ hm
    have := reading_success he.symm
    subst this
    refine .inr ⟨S, peer, algo, key, sig, cert, rest, hPS, hsig, fun hx => ?_⟩
    obtain ⟨hW, hD, hdir⟩ := hP S peer hPS
    cases cert with
    | none =>
      obtain ⟨e, c, c0, h1, h2, h3, path, file, h4, _, h5, h6, _⟩ :=
        Props.Sshd.C93_key_only hW hD hlen (hdir _) hx rfl hq
      exact ⟨e, c, c0, h1, h2, h3, path, file, h4, h5, h6⟩
    | some sh =>
      obtain ⟨e, c, h1, h3, h4, h5, _, path, file, h6, h7, _, h8⟩ := Props.Sshd.C94_ossh_listed hW hD (by omega) hx rfl hq
      obtain ⟨g, hg, hc⟩ := h1.2
      obtain ⟨c0, h0⟩ := Proofs.SshdAuth.getUserConf_head hc
      exact ⟨e, c, c0, h1, h0, h3, h4, h5, path, file, h6, h7, h8⟩

/-- An application that is wolfsshd on the system of the examples. -/
def sshd : Env := { Auth.demoEnv with cb := some (fun u q =>
  match requestAuthentication (Props.Sshd.demoSys 6) Props.Sshd.demoNodes (upToNul u) (credOf (fun _ => false) q) none 3 with
  | some (a, _) => reading a
  | none => .other) }

def sshdRun : List In :=
  loops sshd (opening ++
    [request (NameList.asc "bob") (NameList.asc "password") (0 :: Spec.Wire.encString (NameList.asc "secreT")),
     request (NameList.asc "bob") (NameList.asc "password") (0 :: Spec.Wire.encString (NameList.asc "secret")), (0, [])])

set_option maxRecDepth 20000 in
/-- The hypotheses of `C97_login` are met by a login of bob with the second password. -/
example : ∃ s, Reach true 5 [7] s ∧ 7 ≤ s.acceptState ∧ s.a.userName = NameList.asc "bob" ∧
    AnsweredBy Props.Sshd.demoNodes (fun _ => false) (fun S peer => S = Props.Sshd.demoSys 6 ∧ peer = none) s.a.log := by
  have h : (Auth.runAll (acceptEnter (Srv.init 5 [7]) none) sshdRun).map (fun s => (s.acceptState, s.a.userName, s.a.log)) =
      some (7, NameList.asc "bob", [.acted 20, .acted 5, .sentServiceAccept, .acted 50,
        .asked (NameList.asc "bob") (.password (NameList.asc "secreT")) .other, .sentFailure false, .acted 50,
        .asked (NameList.asc "bob") (.password (NameList.asc "secret")) .success]) := by
    decide +kernel
  cases hr : Auth.runAll (acceptEnter (Srv.init 5 [7]) none) sshdRun with
  | none => rw [hr] at h; cases h
  | some s =>
    rw [hr] at h
    simp only [Option.map_some, Option.some.injEq, Prod.mk.injEq] at h
    refine ⟨s, run_reach sshdRun (loops_ok _ _) (by decide +kernel) hr, by omega, h.2.1, ?_⟩
    intro u q ans hm
    rw [h.2.2] at hm
    simp only [List.mem_cons, reduceCtorEq, Ev.asked.injEq, List.not_mem_nil, or_false, false_or] at hm
    rcases hm with ⟨rfl, rfl, rfl⟩ | ⟨rfl, rfl, rfl⟩
    · exact ⟨_, _, 3, 2, .invalidPassword, ⟨rfl, rfl⟩, by decide +kernel, rfl⟩
    · exact ⟨_, _, 3, 3, .success, ⟨rfl, rfl⟩, by decide +kernel, rfl⟩

end Props.Login
