import Verif.Model.ClientAuth
import Verif.Spec.ClientAuth
import Verif.Proofs.NameList
import Verif.Proofs.OsshWire
/-! What the client's side of user authentication sends, and why. -/

namespace Proofs.ClientAuth
open Wolf Wolf.Wire Wolf.NameList Wolf.OsshCert Wolf.ClientAuth Spec.Wire Spec.ClientAuth
open Wolf.UserAuth (Ret queued ID_SERVICE_CONNECTION ID_USERAUTH_PASSWORD ID_USERAUTH_KEYBOARD ID_USERAUTH_PUBLICKEY)

theorem str_eq (b : Bytes) : ClientAuth.str b = encString b := by
  rw [ClientAuth.str, c32toa_eq, encString]

/-! ## Names and numbers -/

theorem nameToId_mem {t : Table} {n : Bytes} (h : nameToId t n ≠ ID_UNKNOWN) : ∃ e ∈ t, e.id = nameToId t n ∧ e.name = n := by
  induction t with
  | nil => exact absurd rfl h
  | cons e t ih =>
    unfold nameToId nameToIdType at h ⊢
    by_cases hn : n.length = e.name.length ∧ n = e.name
    · rw [if_pos hn]
      exact ⟨e, List.mem_cons_self, rfl, hn.2.symm⟩
    · rw [if_neg hn] at h ⊢
      obtain ⟨e', h1, h2, h3⟩ := ih h
      exact ⟨e', List.mem_cons_of_mem _ h1, h2, h3⟩

/-- An identifier with one name. -/
theorem nameToId_one {id : Nat} {name : Bytes} (hid : id ≠ ID_UNKNOWN) (hr : ∀ e ∈ table, e.id = id → e.name = name)
    (hf : nameToId table name = id) (n : Bytes) : nameToId table n = id ↔ n = name := by
  constructor
  · intro h
    obtain ⟨e, h1, h2, h3⟩ := nameToId_mem (t := table) (n := n) (by rw [h]; exact hid)
    rw [← h3]
    exact hr e h1 (by rw [h2, h])
  · rintro rfl; exact hf

theorem id_rsa (n : Bytes) : nameToId table n = ID_SSH_RSA ↔ n = text "ssh-rsa" :=
  nameToId_one (by decide) (by decide +kernel) (by decide +kernel) n
theorem id_512 (n : Bytes) : nameToId table n = ID_RSA_SHA2_512 ↔ n = text "rsa-sha2-512" :=
  nameToId_one (by decide) (by decide +kernel) (by decide +kernel) n
theorem id_256 (n : Bytes) : nameToId table n = ID_RSA_SHA2_256 ↔ n = text "rsa-sha2-256" :=
  nameToId_one (by decide) (by decide +kernel) (by decide +kernel) n
theorem id_p256 (n : Bytes) : nameToId table n = ID_ECDSA_SHA2_NISTP256 ↔ n = text "ecdsa-sha2-nistp256" :=
  nameToId_one (by decide) (by decide +kernel) (by decide +kernel) n
theorem id_p384 (n : Bytes) : nameToId table n = ID_ECDSA_SHA2_NISTP384 ↔ n = text "ecdsa-sha2-nistp384" :=
  nameToId_one (by decide) (by decide +kernel) (by decide +kernel) n
theorem id_p521 (n : Bytes) : nameToId table n = ID_ECDSA_SHA2_NISTP521 ↔ n = text "ecdsa-sha2-nistp521" :=
  nameToId_one (by decide) (by decide +kernel) (by decide +kernel) n
theorem id_ed (n : Bytes) : nameToId table n = ID_ED25519 ↔ n = text "ssh-ed25519" :=
  nameToId_one (by decide) (by decide +kernel) (by decide +kernel) n
theorem id_c256 (n : Bytes) : nameToId table n = ID_OSSH_CERT_ECDSA_SHA2_NISTP256 ↔ n = certOf (text "ecdsa-sha2-nistp256") :=
  nameToId_one (by decide) (by decide +kernel) (by decide +kernel) n
theorem id_c384 (n : Bytes) : nameToId table n = ID_OSSH_CERT_ECDSA_SHA2_NISTP384 ↔ n = certOf (text "ecdsa-sha2-nistp384") :=
  nameToId_one (by decide) (by decide +kernel) (by decide +kernel) n
theorem id_c521 (n : Bytes) : nameToId table n = ID_OSSH_CERT_ECDSA_SHA2_NISTP521 ↔ n = certOf (text "ecdsa-sha2-nistp521") :=
  nameToId_one (by decide) (by decide +kernel) (by decide +kernel) n
theorem id_ced (n : Bytes) : nameToId table n = ID_OSSH_CERT_ED25519 ↔ n = certOf (text "ssh-ed25519") :=
  nameToId_one (by decide) (by decide +kernel) (by decide +kernel) n

theorem id_crsa (n : Bytes) : nameToId table n = ID_OSSH_CERT_RSA ↔ n ∈ rsaCerts := by
  constructor
  · intro h
    obtain ⟨e, h1, h2, h3⟩ := nameToId_mem (t := table) (n := n) (by rw [h]; decide)
    rw [← h3]
    have : ∀ e ∈ table, e.id = ID_OSSH_CERT_RSA → e.name ∈ rsaCerts := by decide +kernel
    exact this e h1 (by rw [h2, h])
  · intro h
    have : ∀ n ∈ rsaCerts, nameToId table n = ID_OSSH_CERT_RSA := by decide +kernel
    exact this n h

theorem id_password (n : Bytes) : nameToId table n = ID_USERAUTH_PASSWORD ↔ n = text "password" :=
  nameToId_one (by decide) (by decide +kernel) (by decide +kernel) n
theorem id_keyboard (n : Bytes) : nameToId table n = ID_USERAUTH_KEYBOARD ↔ n = text "keyboard-interactive" :=
  nameToId_one (by decide) (by decide +kernel) (by decide +kernel) n
theorem id_publickey (n : Bytes) : nameToId table n = ID_USERAUTH_PUBLICKEY ↔ n = text "publickey" :=
  nameToId_one (by decide) (by decide +kernel) (by decide +kernel) n
theorem id_sigalgs : nameToId table (text "server-sig-algs") = ID_EXTINFO_SERVER_SIG_ALGS := by decide +kernel

theorem matchOuter_eq (left right : List Nat) : matchOuter left right = (left.find? fun x => right.contains x).getD ID_UNKNOWN := by
  have hi : ∀ x (r : List Nat), matchInner x r = r.contains x := by
    intro x r
    induction r with
    | nil => rfl
    | cons y ys ih =>
      rw [matchInner, ih]
      by_cases h : x = y
      · simp [h]
      · simp [h]
  induction left with
  | nil => rfl
  | cons x xs ih =>
    rw [matchOuter, hi, ih, List.find?_cons]
    cases right.contains x <;> simp

theorem match_client (a p : List Nat) (ha : a ≠ []) :
    matchIdLists .client a p = (p.find? fun x => a.contains x).getD ID_UNKNOWN := by
  unfold matchIdLists
  simp only [if_true]
  cases p with
  | nil => rfl
  | cons x p =>
    rw [if_pos ⟨by simp, by cases a <;> simp_all⟩, matchOuter_eq]

theorem keep_find (ids : List Nat) (p : Nat → Bool) (hp : p ID_UNKNOWN = false) : (keep ids).find? p = ids.find? p := by
  have hf : ∀ l : List Nat, (l.filter (fun i => i ≠ ID_UNKNOWN)).find? p = l.find? p := by
    intro l
    induction l with
    | nil => rfl
    | cons x l ih =>
      by_cases h : x = ID_UNKNOWN
      · subst h
        rw [List.filter_cons_of_neg (by simp), ih, List.find?_cons, hp]
      · rw [List.filter_cons_of_pos (by simpa using h), List.find?_cons, List.find?_cons, ih]
  cases ids with
  | nil => rfl
  | cons x l => rw [keep, List.find?_cons, List.find?_cons, hf]

/-! ## The choice of the method, and the request -/

theorem n_conn : Kex.idToName table ID_SERVICE_CONNECTION = text "ssh-connection" := by decide +kernel
theorem n_none : Kex.idToName table ID_NONE = text "none" := by decide +kernel
theorem n_pw : Kex.idToName table ID_USERAUTH_PASSWORD = text "password" := by decide +kernel
theorem n_kb : Kex.idToName table ID_USERAUTH_KEYBOARD = text "keyboard-interactive" := by decide +kernel
theorem n_pk : Kex.idToName table ID_USERAUTH_PUBLICKEY = text "publickey" := by decide +kernel

def nameOf : Method → String
  | .none => "none"
  | .password _ => "password"
  | .keyboard => "keyboard-interactive"
  | .publicKey _ => "publickey"

theorem n_id (m : Method) : Kex.idToName table m.id = text (nameOf m) := by
  cases m
  · exact n_none
  · exact n_pw
  · exact n_kb
  · exact n_pk

theorem head_eq (s : Cl) (m : Method) (b : Bytes) : requestHead s m ++ b = request s.userName (nameOf m) b := by
  rw [requestHead, n_id, n_conn, request, str_eq, str_eq, str_eq]

/-- How a method comes to be chosen. -/
inductive Chosen (E : Env) (t : Types) : Method → Prop
  | none : t.keyboard = false → t.password = false → t.publicKey = false → Chosen E t .none
  | keyboard : t.keyboard = true → Chosen E t .keyboard
  | password {pw} : t.keyboard = false → t.password = true → E.set = true → E.password = some pw → Chosen E t (.password pw)
  | key {o} : t.keyboard = false → t.publicKey = true → E.set = true → E.key = some o →
      (t.password = true → E.password = none) → Chosen E t (.publicKey o)

/-- What was asked. -/
def Asked (E : Env) (t : Types) (l : List Ev) : Prop := ∀ e ∈ l, E.set = true ∧ t.keyboard = false ∧
  ((e = .askedPassword ∧ t.password = true) ∨ (e = .askedKey ∧ t.publicKey = true ∧ (t.password = true → E.password = none)))

theorem chooseKey_spec (E : Env) (s : Cl) : (chooseKey E s).2 = { s with log := s.log ++ [.askedKey] } ∧
    ∀ m, (chooseKey E s).1 = .ok m → ∃ o, m = .publicKey o ∧ E.key = some o := by
  unfold chooseKey
  cases hk : E.key with
  | none => exact ⟨rfl, by intro m h; cases h⟩
  | some o => exact ⟨rfl, by intro m h; cases h; exact ⟨o, rfl, rfl⟩⟩

theorem choose_spec (E : Env) (s : Cl) (t : Types) : ∃ asked, (choose E s t).2 = { s with log := s.log ++ asked } ∧ Asked E t asked ∧
    ∀ m, (choose E s t).1 = .ok m → Chosen E t m := by
  unfold choose
  by_cases hk : t.keyboard = true
  · rw [if_pos hk]
    exact ⟨[], by simp, by intro e; simp, by intro m h; cases h; exact .keyboard hk⟩
  rw [if_neg hk]
  simp only [Bool.not_eq_true] at hk
  by_cases he : E.set = false
  · rw [if_pos he]; exact ⟨[], by simp, by intro e; simp, by intro m h; cases h⟩
  rw [if_neg he]
  simp only [Bool.not_eq_false] at he
  by_cases hp : t.password = true
  · rw [if_pos hp]
    cases hpw : E.password with
    | some pw =>
      exact ⟨[.askedPassword], rfl, by intro e h; simp at h; simp [h, he, hk, hp], by intro m h; cases h; exact .password hk hp he hpw⟩
    | none =>
      by_cases hq : t.publicKey = true
      · simp only [hq, if_true]
        obtain ⟨h1, h3⟩ := chooseKey_spec E (s.note .askedPassword)
        refine ⟨[.askedPassword, .askedKey], by rw [h1]; simp [Cl.note], ?_, ?_⟩
        · intro e h
          simp only [List.mem_cons, List.not_mem_nil, or_false] at h
          exact ⟨he, hk, h.imp (fun h => ⟨h, hp⟩) fun h => ⟨h, hq, fun _ => hpw⟩⟩
        · intro m h
          obtain ⟨o, rfl, ho⟩ := h3 m h
          exact .key hk hq he ho (fun _ => hpw)
      · simp only [hq]
        exact ⟨[.askedPassword], rfl, by intro e h; simp at h; simp [h, he, hk, hp], by intro m h; cases h⟩
  rw [if_neg hp]
  by_cases hq : t.publicKey = true
  · rw [if_pos hq]
    obtain ⟨h1, h3⟩ := chooseKey_spec E s
    exact ⟨_, h1, by intro e h; simp at h; simp [h, he, hk, hp, hq], fun m h => by obtain ⟨o, rfl, ho⟩ := h3 m h; exact .key hk hq he ho (fun h => absurd h hp)⟩
  · rw [if_neg hq]
    exact ⟨[], by simp, by intro e; simp, by intro m h; cases h; exact .none hk (by simpa using hp) (by simpa using hq)⟩

/-- The size of the part common to all requests. -/
def headSz (s : Cl) (m : Method) : Nat :=
  (1 + 4 * 3 + s.userName.length + (text "ssh-connection").length + (text (nameOf m)).length) % 2^32

/-- The request sent: why, of which size it was said to be, and its bytes. -/
inductive Sends (E : Env) (s : Cl) (t : Types) : Method → Nat → Bytes → Prop
  | none : Chosen E t .none → Sends E s t .none (headSz s .none) (noneRequest s.userName)
  | keyboard : Chosen E t .keyboard → Sends E s t .keyboard (headSz s .keyboard) (keyboardRequest s.userName)
  | password {pw est} : Chosen E t (.password pw) → preparePassword (headSz s (.password pw)) pw = .ok est →
      Sends E s t (.password pw) est (passwordRequest s.userName pw)
  | key {o est k b} : Chosen E t (.publicKey o) → s.pkDone = false → preparePublicKey s (headSz s (.publicKey o)) o = .ok (est, k) →
      buildPublicKey s o k (requestHead s (.publicKey o)) = .ok b →
      Sends E s t (.publicKey o) est (request s.userName "publickey" b)

/-- What a request does to the client. -/
structure After (s s' : Cl) : Prop where
  user : s'.userName = s.userName
  sid : s'.sessionId = s.sessionId
  peer : s'.peerSigId = s.peerSigId

theorem send_spec (E : Env) (s : Cl) (t : Types) :
    ∃ asked, Asked E t asked ∧ After s (sendUserAuthRequest E s t).2 ∧
      (s.pkDone = true → (sendUserAuthRequest E s t).2.pkDone = true) ∧
      ((sendUserAuthRequest E s t).2.log = s.log ++ asked ∧
        ((sendUserAuthRequest E s t).2.kbAttempts = s.kbAttempts ∨
          (t.keyboard = true ∧ (sendUserAuthRequest E s t).2.kbAttempts = (s.kbAttempts + 1) % 256)) ∨
       ∃ m est p, (sendUserAuthRequest E s t).2.log = s.log ++ asked ++ [.sent est p] ∧ Sends E s t m est p ∧
        (match m with
          | .keyboard => (sendUserAuthRequest E s t).2.kbAttempts = (s.kbAttempts + 1) % 256
          | _ => (sendUserAuthRequest E s t).2.kbAttempts = s.kbAttempts) ∧
        (match m with
          | .publicKey _ => s.pkDone = false ∧ (sendUserAuthRequest E s t).2.pkDone = true
          | _ => True)) := by
  obtain ⟨asked, hc1, hc2, hc3⟩ := choose_spec E s t
  unfold sendUserAuthRequest
  generalize hx : choose E s t = x at hc1 hc3 ⊢
  obtain ⟨m, s1⟩ := x
  simp only at hc1 hc3
  subst hc1
  cases m with
  | error e => exact ⟨asked, hc2, ⟨rfl, rfl, rfl⟩, fun h => h, .inl ⟨rfl, .inl rfl⟩⟩
  | ok m =>
    have hm := hc3 m rfl
    simp only
    have hsz : ∀ s' : Cl, s'.userName = s.userName → (1 + 4 * 3 + s'.userName.length + (Kex.idToName table ID_SERVICE_CONNECTION).length +
      (Kex.idToName table m.id).length) % 2^32 = headSz s m := by
      intro s' h; rw [h, n_conn, n_id, headSz]
    unfold prepare
    simp only [hsz { s with log := s.log ++ asked } rfl]
    cases m with
    | none =>
      simp only
      cases hr : E.room with
      | some e => exact ⟨asked, hc2, ⟨rfl, rfl, rfl⟩, fun h => h, .inl ⟨rfl, .inl rfl⟩⟩
      | none =>
        simp only [build, emit]
        by_cases hq : queued E.send = true
        · rw [if_pos hq]
          refine ⟨asked, hc2, ⟨rfl, rfl, rfl⟩, fun h => h, .inr ⟨.none, _, _, rfl, ?_, rfl, trivial⟩⟩
          have := head_eq { s with log := s.log ++ asked } .none []
          rw [List.append_nil] at this
          rw [this]
          exact .none hm
        · rw [if_neg hq]; exact ⟨asked, hc2, ⟨rfl, rfl, rfl⟩, fun h => h, .inl ⟨rfl, .inl rfl⟩⟩
    | keyboard =>
      have ht : t.keyboard = true := by cases hm; assumption
      simp only
      cases hr : E.room with
      | some e => exact ⟨asked, hc2, ⟨rfl, rfl, rfl⟩, fun h => h, .inl ⟨rfl, .inl rfl⟩⟩
      | none =>
        simp only [build, emit]
        by_cases hq : queued E.send = true
        · rw [if_pos hq]
          refine ⟨asked, hc2, ⟨rfl, rfl, rfl⟩, fun h => h, .inr ⟨.keyboard, _, _, rfl, ?_, rfl, trivial⟩⟩
          rw [List.append_assoc, head_eq]
          exact .keyboard hm
        · rw [if_neg hq]; exact ⟨asked, hc2, ⟨rfl, rfl, rfl⟩, fun h => h, .inl ⟨rfl, .inr ⟨ht, rfl⟩⟩⟩
    | password pw =>
      simp only
      cases hp : preparePassword (headSz s (.password pw)) pw with
      | error e => exact ⟨asked, hc2, ⟨rfl, rfl, rfl⟩, fun h => h, .inl ⟨rfl, .inl rfl⟩⟩
      | ok est =>
        simp only
        cases hr : E.room with
        | some e => exact ⟨asked, hc2, ⟨rfl, rfl, rfl⟩, fun h => h, .inl ⟨rfl, .inl rfl⟩⟩
        | none =>
          simp only [build, emit]
          by_cases hq : queued E.send = true
          · rw [if_pos hq]
            refine ⟨asked, hc2, ⟨rfl, rfl, rfl⟩, fun h => h, .inr ⟨.password pw, _, _, rfl, ?_, rfl, trivial⟩⟩
            rw [List.append_assoc, head_eq, str_eq]
            exact .password hm hp
          · rw [if_neg hq]; exact ⟨asked, hc2, ⟨rfl, rfl, rfl⟩, fun h => h, .inl ⟨rfl, .inl rfl⟩⟩
    | publicKey o =>
      simp only
      by_cases hd : s.pkDone = false
      · rw [if_pos hd]
        have hpk : preparePublicKey { s with log := s.log ++ asked } (headSz s (.publicKey o)) o =
            preparePublicKey s (headSz s (.publicKey o)) o := rfl
        rw [hpk]
        cases hp : preparePublicKey s (headSz s (.publicKey o)) o with
        | error e => exact ⟨asked, hc2, ⟨rfl, rfl, rfl⟩, fun h => rfl, .inl ⟨rfl, .inl rfl⟩⟩
        | ok ek =>
          obtain ⟨est, k⟩ := ek
          simp only
          cases hr : E.room with
          | some e => exact ⟨asked, hc2, ⟨rfl, rfl, rfl⟩, fun h => rfl, .inl ⟨rfl, .inl rfl⟩⟩
          | none =>
            simp only [build]
            have hbk : ∀ s' : Cl, s'.userName = s.userName → s'.sessionId = s.sessionId → s'.peerSigId = s.peerSigId →
                buildPublicKey s' o k (requestHead s' (.publicKey o)) = buildPublicKey s o k (requestHead s (.publicKey o)) := by
              intro s' h1 h2 h3
              simp only [buildPublicKey, buildRsa, buildEcc, buildEd25519, checkData, requestHead, h1, h2, h3]
            rw [hbk { s with pkDone := true, log := s.log ++ asked } rfl rfl rfl]
            cases hb : buildPublicKey s o k (requestHead s (.publicKey o)) with
            | error e => exact ⟨asked, hc2, ⟨rfl, rfl, rfl⟩, fun h => rfl, .inl ⟨rfl, .inl rfl⟩⟩
            | ok b =>
              simp only [emit]
              by_cases hq : queued E.send = true
              · rw [if_pos hq]
                refine ⟨asked, hc2, ⟨rfl, rfl, rfl⟩, fun h => rfl, .inr ⟨.publicKey o, _, _, rfl, ?_, rfl, hd, rfl⟩⟩
                rw [head_eq]
                exact .key hm hd hp hb
              · rw [if_neg hq]; exact ⟨asked, hc2, ⟨rfl, rfl, rfl⟩, fun h => rfl, .inl ⟨rfl, .inl rfl⟩⟩
      · rw [if_neg hd]
        simp only
        cases hr : E.room with
        | some e => exact ⟨asked, hc2, ⟨rfl, rfl, rfl⟩, fun h => h, .inl ⟨rfl, .inl rfl⟩⟩
        | none =>
          simp only [build, buildPublicKey]
          exact ⟨asked, hc2, ⟨rfl, rfl, rfl⟩, fun h => h, .inl ⟨rfl, .inl rfl⟩⟩

end Proofs.ClientAuth
