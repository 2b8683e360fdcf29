import Verif.Proofs.SftpOpsServer
import Verif.Props.Path
/-!
# C114 to C116: the SFTP client, changing the files of a server
-/

namespace Props.SftpOps
open Wolf Wolf.NameList Wolf.SftpClient Wolf.SftpOps Spec.Wire Spec.Sftp Spec.SftpOps

/-! ## Examples -/

/-- A connection on which the server sends `inp`. -/
def chan (inp : List UInt8) : Chan := ⟨none, inp, [], 5, false, none, none⟩

def sent : Ev := .send (.ok 1000) none false
def got : Ev := .read (2 ^ 31) none
def later : Ev := .read 0 (some .wantRead)

theorem sent_fine : Fine sent := True.intro
theorem got_fine : Fine got := .inr (Nat.le_refl _)
theorem later_fine : Fine later := .inl rfl

/-- Whether the call succeeded, what was not read and what was sent. -/
def ended : Call → Option (Bool × List UInt8 × List UInt8)
  | .done c b => some (b, c.inp, c.out)
  | _ => none

/-- The attributes of an ordinary file. -/
def file : Attrs := { size := some 7, perm := some 0o100644 }

def ok : Reply := .status 0 [79, 75] []
def refused : Reply := .status 3 [78, 79] [101]

/-! ## C114: what is sent -/

/-- C114, the part that holds: at every point of a call other than `wolfSSH_SFTP_CHMOD`, whatever the server says and however its
packets and the client's are cut, nothing went wrong with the memory, and the client has sent whole questions about the file
followed by the beginning of one more or of the request for the change, which never goes out before a question if the call asks
at all. If the call succeeds it has sent all of that request and nothing after it. Missing: `wolfSSH_SFTP_CHMOD`
(`C114_chmod_mixed`). -/
theorem C114_partial (o : Op) (c : Chan) (evs : List Ev) (hs : Sane o) (hc : chmods o = false) (hp : c.pkt = none) :
    run o c evs ≠ .ub ∧
    (∃ ids r id n, (first o = some r ∨ r = change {} 0 o ∧ ((first o).isSome → ids ≠ [])) ∧
      outOf (run o c evs) = c.out ++ ids.flatMap (question o) ++ (r.packet id).take n) ∧
    ∀ c', run o c evs = .done c' true → ∃ ids id, ((first o).isSome → ids ≠ []) ∧
      c'.out = c.out ++ ids.flatMap (question o) ++ (change {} 0 o).packet id := by
  have hu := Proofs.SftpOps.run_ne_ub o c evs
  have h := Proofs.SftpOps.run_inv_sent o c evs hs hc hp
  have hl : ∀ ids, Proofs.SftpOps.looks o ids = ids.flatMap (question o) := by
    intro ids
    unfold Proofs.SftpOps.looks question
    cases first o <;> rfl
  refine ⟨hu, ?_, ?_⟩
  · generalize run o c evs = s at h hu
    match s with
    | .at c' (.look s left) =>
      obtain ⟨_, t, p, ids, id, h1, h2⟩ := h
      obtain ⟨r, h3, h4⟩ := Proofs.SftpOps.look_first h1
      obtain ⟨n, hn⟩ := Proofs.SftpOps.lookS_cut h2
      exact ⟨ids, r, id, n, .inl h3, by rw [← hl, ← h4]; exact hn⟩
    | .at c' (.ex a e) =>
      obtain ⟨ids, id, h1, h2⟩ := h
      obtain ⟨n, hn⟩ := Proofs.SftpOps.exS_cut h2
      exact ⟨ids, _, id, n, .inr ⟨rfl, h1⟩, by rw [← hl]; exact hn⟩
    | .done c' b =>
      rcases h with ⟨_, r, ids, id, n, h1, h2⟩ | ⟨ids, id, n, h1, h2, _⟩
      · exact ⟨ids, r, id, n, .inl h1, by rw [← hl]; exact h2⟩
      · exact ⟨ids, _, id, n, .inr ⟨rfl, h1⟩, by rw [← hl]; exact h2⟩
    | .ub => exact absurd rfl hu
  · intro c' hd
    rw [hd] at h
    rcases h with ⟨h, _⟩ | ⟨ids, id, n, h1, h2, h3⟩
    · cases h
    · refine ⟨ids, id, h1, ?_⟩
      rw [← hl, h2, h3 rfl, List.take_length]

-- a rename with the packets cut and the answers late
example : (Sane (.rename [97] [98]) ∧ chmods (.rename [97] [98]) = false) ∧
    outOf (run (.rename [97] [98]) (chan ((Reply.attrs file).packet 5 ++ ok.packet 6))
      [.send (.ok 3) none true, sent, later, got, got, .send (.ok 2) none true, sent, got, .read 4 (some .wantRead), got]) =
      (Request.stat [97]).packet 5 ++ (Request.rename [97] [98]).packet 6 := by
  refine ⟨⟨True.intro, rfl⟩, ?_⟩
  decide +kernel

/-- C114 does not hold of `wolfSSH_SFTP_CHMOD`: called again after the window was full in the middle of its SETSTAT, it asks about
the file once more, in the middle of that packet. -/
theorem C114_chmod_mixed :
    outOf (run (.chmod [97] [55, 48, 48]) (chan ((Reply.attrs file).packet 5 ++ (Reply.attrs file).packet 6))
      [sent, got, got, .send (.ok 4) none true, .send (.error .windowFull) (some .windowFull) true, sent]) =
    (Request.stat [97]).packet 5 ++ ((change file 0o700 (.chmod [97] [55, 48, 48])).packet 6).take 5 ++ (Request.stat [97]).packet 6 := by
  decide +kernel

/-! ## C115: with a server that answers -/

/-- C115: with a server that answers — with the attributes of the file, if question, and then with a status — and a connection that
works, a call that ends has made one question, if it asks at all, and one request for the change, has read just the answers, and
says whether the status was SSH_FX_OK. -/
theorem C115 (o : Op) (c : Chan) (evs : List Ev) (hs : Sane o) (hc : chmods o = false) (hp : c.pkt = none) (hid : c.reqId < 2 ^ 32)
    (a : Attrs) (ha : a.Fits) (code : Nat) (m l rest : List UInt8) (hcode : code ≤ 8) (hlen : m.length + l.length < 2 ^ 30)
    (hi : c.inp = told o a c.reqId ++ (Reply.status code m l).packet (changeId o c.reqId) ++ rest) (hF : ∀ ev ∈ evs, Fine ev)
    (c' : Chan) (res : Bool) (hd : run o c evs = .done c' res) :
    (res = true ↔ code = 0) ∧ c'.inp = rest ∧
      c'.out = c.out ++ question o c.reqId ++ (change {} 0 o).packet (changeId o c.reqId) := by
  have h := Proofs.SftpOps.run_conv (T := ⟨a, 0, ⟨code, m, l, rest⟩, c.reqId⟩) hs hp ha
    ⟨hcode, by simp [Reply.body, encString, encUint32]; omega⟩ hid (fun p oct h => by subst h; cases hc) rfl
    (by rw [hi]; simp only [Proofs.SftpOps.Talk.inp, Proofs.SftpOps.Talk.id1, told, changeId]; cases first o <;> rfl) hF
    (fun h => by rw [hc] at h; cases h)
  rw [hd] at h
  obtain ⟨h1, h2, h3⟩ := h
  refine ⟨h1, h3, ?_⟩
  rw [h2, Proofs.SftpOps.change_any hc {} a 0 0]
  simp only [Proofs.SftpOps.Talk.base, Proofs.SftpOps.Talk.id1, Spec.SftpOps.question, changeId]
  cases first o <;> rfl

-- a directory is made; the removal of a file is refused
example : ended (run (.mkdir [97]) (chan (ok.packet 5 ++ [1, 2])) [sent, later, got, later, got]) =
      some (true, [1, 2], (Request.mkdir [97] { perm := some 0o777 }).packet 5) ∧
    ended (run (.remove [97]) (chan ((Reply.attrs file).packet 5 ++ refused.packet 6)) [sent, got, got, sent, later, got, got]) =
      some (false, [], (Request.lstat [97]).packet 5 ++ (Request.remove [97]).packet 6) ∧ (∀ ev ∈ [sent, later, got, later, got], Fine ev) := by
  refine ⟨by decide +kernel, by decide +kernel, ?_⟩
  intro ev h
  simp only [List.mem_cons, List.not_mem_nil, or_false] at h
  rcases h with rfl | rfl | rfl | rfl | rfl <;> first | exact sent_fine | exact later_fine | exact got_fine

/-- C115 for `wolfSSH_SFTP_CHMOD`, the part that holds: the request carries the attributes the server gave with the new mode in them
— so no mode at all if the server gave none. Missing: connections on which a refusal is read while an old notice is pending. -/
theorem C115_chmod_partial (p oct : List UInt8) (c : Chan) (evs : List Ev) (hp : c.pkt = none) (hid : c.reqId < 2 ^ 32)
    (hoct : oct.length ≤ 6 ∧ ∀ b ∈ oct, 48 ≤ b.toNat ∧ b.toNat ≤ 55)
    (a : Attrs) (ha : a.Fits) (code : Nat) (m l rest : List UInt8) (hcode : code ≤ 8) (hlen : m.length + l.length < 2 ^ 30)
    (hi : c.inp = (Reply.attrs a).packet c.reqId ++ (Reply.status code m l).packet ((c.reqId + 1) % 2 ^ 32) ++ rest) (hF : ∀ ev ∈ evs, Fine ev)
    (hst : code ≠ 0 → ∀ k err, .read k err ∈ evs → want err = true → k = 0)
    (c' : Chan) (res : Bool) (hd : run (.chmod p oct) c evs = .done c' res) :
    (res = true ↔ code = 0) ∧ c'.inp = rest ∧
      c'.out = c.out ++ (Request.stat p).packet c.reqId ++
        (Request.setstat p { a with perm := a.perm.map fun _ => Props.Path.octal oct }).packet ((c.reqId + 1) % 2 ^ 32) := by
  have h := Proofs.SftpOps.run_conv (o := .chmod p oct) (T := ⟨a, Props.Path.octal oct, ⟨code, m, l, rest⟩, c.reqId⟩) True.intro hp ha
    ⟨hcode, by simp [Reply.body, encString, encUint32]; omega⟩ hid (fun p oct h => by cases h; exact (Props.Path.C40_mode _).1 hoct) rfl hi hF
    (fun _ => hst)
  rw [hd] at h
  exact ⟨h.1, h.2.2, h.2.1⟩

-- 755 for a file of mode 644
example : ended (run (.chmod [97] [55, 53, 53]) (chan ((Reply.attrs file).packet 5 ++ ok.packet 6)) [sent, got, got, sent, got, later, got]) =
    some (true, [], (Request.stat [97]).packet 5 ++ (Request.setstat [97] { file with perm := some 0o755 }).packet 6) := by decide +kernel

/-- Nothing is question of a server that does not tell modes, but the call succeeds. -/
theorem C115_chmod_nothing :
    ended (run (.chmod [97] [55, 53, 53]) (chan ((Reply.attrs { size := some 7 }).packet 5 ++ ok.packet 6)) [sent, got, got, sent, got, got]) =
    some (true, [], (Request.stat [97]).packet 5 ++ (Request.setstat [97] { size := some 7 }).packet 6) := by decide +kernel

/-- A rename succeeds if the answer is a packet with nothing after its id, of whatever type and with whatever id. -/
theorem C115_rename_empty :
    ended (run (.rename [97] [98]) (chan ((Reply.attrs file).packet 5 ++ encString (104 :: encUint32 99))) [sent, got, got, sent, got]) =
    some (true, [], (Request.stat [97]).packet 5 ++ (Request.rename [97] [98]).packet 6) := by decide +kernel

/-! ## C116: client and server -/

/-- C116: when the other end is a wolfSSH server in a session that began in `d` with the jail `j` and any history of requests, the
request of a call makes it perform the system call the application question for on the files the paths name there, or none if the jail
refuses them; and the call reports that system call's result. -/
theorem C116 {d j : Option (List (List UInt8))} {t : List Event} {s : Sftp.Sess} (hR : Reached d j t s) {E : Sftp.Env} (hE : Good E)
    (o : Op) (c : Chan) (evs : List Ev) (hs : Sane o) (hc : chmods o = false) (hp : c.pkt = none) (hid : c.reqId < 2 ^ 32)
    (hr : (change {} 0 o).Changes) (hf : (change {} 0 o).Fits) (a : Attrs) (ha : a.Fits) :
    ∃ out, Sftp.handle E s (change {} 0 o).type.toNat (changeId o c.reqId) (change {} 0 o).body = some out ∧
      ∀ reply rest, out.reply = some reply → reply.length < 2 ^ 30 → c.inp = told o a c.reqId ++ reply ++ rest → (∀ ev ∈ evs, Fine ev) →
      ∀ c' res, run o c evs = .done c' res →
        Told (wanted d j E.isLink (change {} 0 o)) out.calls res ∧
        c'.out = c.out ++ question o c.reqId ++ (change {} 0 o).packet (changeId o c.reqId) := by
  obtain ⟨out, h1, h2⟩ := Proofs.SftpOps.served hR hE (changeId o c.reqId) _ hr hf
  refine ⟨out, h1, fun reply rest h3 h4 h5 hF c' res hd => ?_⟩
  rcases h2 with h2 | ⟨code, m, l, h2, h6, h7⟩
  · rw [h2] at h3; cases h3
  · rw [h2] at h3
    injection h3 with h3
    subst h3
    have hl : m.length + l.length < 2 ^ 30 := by simp [Reply.packet, Reply.body, encString, encUint32] at h4; omega
    obtain ⟨g1, _, g3⟩ := C115 o c evs hs hc hp hid a ha code m l rest h6 hl h5 hF c' res hd
    refine ⟨?_, g3⟩
    have : res = (code == 0) := by
      cases res <;> cases hb : (code == 0) <;> simp_all
    rw [this]; exact h7

/-- C116 for `wolfSSH_SFTP_CHMOD`, the part that holds (as of C115), when the server gave the mode of the file. -/
theorem C116_chmod_partial {d j : Option (List (List UInt8))} {t : List Event} {s : Sftp.Sess} (hR : Reached d j t s) {E : Sftp.Env}
    (hE : Good E) (p oct : List UInt8) (c : Chan) (evs : List Ev) (hp : c.pkt = none) (hid : c.reqId < 2 ^ 32) (hpl : p.length + 36 < 2 ^ 31)
    (hoct : oct.length ≤ 6 ∧ ∀ b ∈ oct, 48 ≤ b.toNat ∧ b.toNat ≤ 55) (a : Attrs) (ha : a.Fits) (hm : a.perm.isSome) :
    ∃ out, Sftp.handle E s 9 ((c.reqId + 1) % 2 ^ 32) (encString p ++ encAttrs { a with perm := some (Props.Path.octal oct) }) = some out ∧
      ∀ reply rest, out.reply = some reply → reply.length < 2 ^ 30 → c.inp = (Reply.attrs a).packet c.reqId ++ reply ++ rest →
      (∀ ev ∈ evs, Fine ev) → (∀ k err, .read k err ∈ evs → want err = true → k = 0) →
      ∀ c' res, run (.chmod p oct) c evs = .done c' res →
        Told (match verdict d j E.isLink p with
          | .admit cs => some (.chmod (Spec.Path.render cs) (Props.Path.octal oct &&& 0o777))
          | _ => none) out.calls res := by
  obtain ⟨v, hv⟩ := Option.isSome_iff_exists.1 hm
  have hmode : Props.Path.octal oct < 2 ^ 32 := by
    have key : ∀ (s : List UInt8) (v n : Nat), (∀ b ∈ s, 48 ≤ b.toNat ∧ b.toNat ≤ 55) → v < 8 ^ n →
        s.foldl (fun v b => 8 * v + (b.toNat - 48)) v < 8 ^ (n + s.length) := by
      intro s
      induction s with
      | nil => intro v n _ h; exact h
      | cons b s ih =>
        intro v n hb h
        have h0 := hb b (List.mem_cons_self ..)
        have := ih (8 * v + (b.toNat - 48)) (n + 1) (fun x hx => hb x (List.mem_cons_of_mem _ hx)) (by rw [Nat.pow_succ]; omega)
        rw [List.length_cons, show n + (s.length + 1) = n + 1 + s.length by omega]
        exact this
    have h1 := key oct 0 0 hoct.2 (by decide)
    have h2 : 8 ^ (0 + oct.length) ≤ 8 ^ 6 := Nat.pow_le_pow_right (by decide) (by omega)
    exact Nat.lt_of_lt_of_le h1 (Nat.le_trans h2 (by decide))
  obtain ⟨out, h1, h2⟩ := Proofs.SftpOps.served hR hE ((c.reqId + 1) % 2 ^ 32) (.setstat p { a with perm := some (Props.Path.octal oct) })
    rfl ⟨hpl, ha.1, ha.2.1, (fun n h => by cases h; exact hmode), ha.2.2.2⟩
  refine ⟨out, h1, fun reply rest h3 h4 h5 hF hst c' res hd => ?_⟩
  rcases h2 with h2 | ⟨code, m, l, h2, h6, h7⟩
  · rw [h2] at h3; cases h3
  · rw [h2] at h3
    injection h3 with h3
    subst h3
    have hl : m.length + l.length < 2 ^ 30 := by simp [Reply.packet, Reply.body, encString, encUint32] at h4; omega
    obtain ⟨g1, _, _⟩ := C115_chmod_partial p oct c evs hp hid hoct a ha code m l rest h6 hl h5 hF (fun _ => hst) c' res hd
    have : res = (code == 0) := by
      cases res <;> cases hb : (code == 0) <;> simp_all
    rw [this]
    simp only [wanted] at h7
    cases hv : verdict d j E.isLink p <;> rw [hv] at h7 <;> exact h7

-- a session in a jail: a directory is removed, one outside is not
example : Reached (some Props.Sftp.jail) (some Props.Sftp.jail) [] Props.Sftp.start0 ∧ Good Props.Sftp.demo ∧
    (Sftp.handle Props.Sftp.demo Props.Sftp.start0 15 5 (change {} 0 (.rmdir (asc "x/../y"))).body).map (·.calls) = some [.rmdir (asc "/jail/y") true] ∧
    (Sftp.handle Props.Sftp.demo Props.Sftp.start0 15 5 (change {} 0 (.rmdir (asc "../etc"))).body).map (·.calls) = some [] := by
  refine ⟨?_, Props.Sftp.demo_good, by decide +kernel, by decide +kernel⟩
  exact ⟨⟨_, _, Props.Sftp.start0_fresh, .nil⟩, by decide, Props.Sftp.start0_fresh.dirs⟩

end Props.SftpOps
