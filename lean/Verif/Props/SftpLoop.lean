import Verif.Proofs.SftpLoop
import Verif.Props.SftpIo
/-! # C63: the server works on the packets it is sent, each once, in order; what it sends are the replies to them, in order -/

namespace Props.Sftp
open Wolf Wolf.Sftp Wolf.NameList Spec.Wire Spec.Sftp Proofs.SftpLoop

/-- C63, the part that holds. Any number of calls of `wolfSSH_SFTP_read`, interrupted anywhere - by too little data or room, a full
window, a key exchange - however the packets are cut: the requests that were handled are the first packets of the stream, the handlers
ran one after the other on the session; what was sent is a beginning of the replies, complete but for that to the last request, complete
if no call is pending. Missing: calls that are not `Calm`, see below. -/
theorem C63_partial {s0 s : St} {t : List Event} (h0 : AtStart s0) (h : Served s0 t s) :
    Trace s0.sess t s.sess ∧ asked t = packets t.length s0.inp ∧ s.out <+: replies t ∧ replies t.dropLast <+: s.out ∧
    (s.phase = none → s.out = replies t) := by
  have hi := served_inStep h0 h
  refine ⟨hi.trace, ?_, hi.writes, hi.last, fun hp => ?_⟩
  · rw [hi.inp, packets_stream t hi.takes]
  · rw [hi.out, hp]; exact (List.append_nil _).symm

/-- C63: and so it is after one more call, whatever it comes back with: where the history ends, too, no request has been made up,
skipped or repeated. -/
theorem C63_end_partial {s0 s s' : St} {t : List Event} {c : Visit} {ret : Ret} {ev : Option Handled} (h0 : AtStart s0) (h : Served s0 t s)
    (hc : Calm c) (hr : sftpRead c s = .back ret s' ev) (t' : List Event) (ht : t' = t ++ (ev.map event).toList) :
    Trace s0.sess t' s'.sess ∧ asked t' = packets t'.length s0.inp ∧ s'.out <+: replies t' ∧ replies t'.dropLast <+: s'.out := by
  subst ht
  have hl := sftpRead_leads hc (served_inStep h0 h)
  rw [hr] at hl
  have hi := hl.1
  refine ⟨hi.trace, ?_, hi.writes, hi.last⟩
  obtain ⟨more, hm⟩ := hi.reads
  rw [← hm, packets_stream _ hi.takes]

/-- C63: two servers that get the same bytes, in whatever pieces and with whatever interruptions, handle the same requests: one may
only be ahead of the other. -/
theorem C63_same_partial {s0 s s1 s' : St} {t t' : List Event} (h0 : AtStart s0) (h1 : AtStart s1) (hin : s0.inp = s1.inp) (h : Served s0 t s)
    (h' : Served s1 t' s') : asked t <+: asked t' ∨ asked t' <+: asked t := by
  rw [(C63_partial h0 h).2.1, (C63_partial h1 h').2.1, hin]
  rcases Nat.le_total t.length t'.length with hl | hl
  · exact .inl (by rw [← Nat.add_sub_cancel' hl]; exact packets_mono _ _ _)
  · exact .inr (by rw [← Nat.add_sub_cancel' hl]; exact packets_mono _ _ _)

theorem fields_enc (len type id : Nat) (hl : len < 2 ^ 32) (ht : type < 256) (hi : id < 2 ^ 32) :
    fields (encUint32 len ++ (UInt8.ofNat type :: encUint32 id)) = some (len, type, id) := by
  have h9 : (encUint32 len ++ (UInt8.ofNat type :: encUint32 id)).length = 9 := by simp [encUint32]
  obtain ⟨l, ty, i, hf, h1, h2, h3, h4⟩ := fields_eq h9
  have hlen4 : ∀ n, (encUint32 n).length = 4 := fun n => rfl
  have hinj : ∀ a b : Nat, a < 2 ^ 32 → b < 2 ^ 32 → encUint32 a = encUint32 b → a = b := by
    intro a b ha hb h
    have := Proofs.Sftp.uint32_enc a ha []
    rw [h, Proofs.Sftp.uint32_enc b hb []] at this
    cases this; rfl
  obtain ⟨ha, hb⟩ := List.append_inj h4 (by rw [hlen4, hlen4])
  obtain ⟨hc, hd⟩ := List.cons.inj hb
  have hty : type = ty := by
    have := congrArg UInt8.toNat hc
    rwa [show (UInt8.ofNat type).toNat = type from Nat.mod_eq_of_lt ht, show (UInt8.ofNat ty).toNat = ty from Nat.mod_eq_of_lt h2] at this
  rw [hf, hinj _ _ hl h1 ha, hinj _ _ hi h3 hd, hty]

/-- C63: a call that meets no obstacle handles the next packet of the stream and sends the whole reply, if there is one. -/
theorem C63_progress {s : St} {type id : Nat} {body more : Bytes} {c : Visit} {o : Out} (hp : s.phase = none)
    (hin : s.inp = packet type id body ++ more) (ht : Takes type id body) (ho : handle c.E s.sess type id body = some o)
    (hc : Smooth c body.length (o.reply.getD []).length) :
    ∃ ret, sftpRead c s = .back ret ⟨none, none, o.st, more, s.out ++ o.reply.getD []⟩ (some ⟨c.E, type, id, body, o⟩) ∧
      (ret = none ∨ (o.reply = none ∧ ret = o.ret)) := by
  obtain ⟨hm1, hm2, hm3⟩ := hc.memory
  obtain ⟨k, hk, hsend⟩ := hc.sends
  have hmax := ht.max
  have hsome := ht.some
  unfold sftpRead
  simp only
  generalize (if s.err = some Err.wantRead ∨ s.err = some Err.wantWrite then none else s.err) = err
  rw [hp]
  simp only [hm1, if_true]
  unfold recvHead
  simp only
  rw [if_neg (by rw [hm2]; simp)]
  have e1 : s.inp = (encUint32 (body.length + 5) ++ (UInt8.ofNat type :: encUint32 id)) ++ (body ++ more) := by
    rw [hin, packet_eq]; simp
  have h9 : (encUint32 (body.length + 5) ++ (UInt8.ofNat type :: encUint32 id)).length = 9 := by simp [encUint32]
  rw [e1, bufferRead_smooth HEADER c.head _ (body ++ more) err [] (by omega) (by rw [h9]; rfl) (by rw [h9]; exact hc.turns.1)
    fun a ha => hc.data a (List.mem_append_left _ ha)]
  simp only
  rw [List.nil_append]
  have hf := fields_enc (body.length + 5) type id (by omega) ht.type ht.id
  rw [hf]
  simp only
  have hs : sub32 (sub32 (body.length + 5) 4) 1 = body.length := by unfold sub32; omega
  rw [hs, if_neg (by unfold MAX_PACKET; omega), if_neg (by rw [hm3]; simp)]
  unfold recvBody
  simp only
  rw [bufferRead_smooth body.length c.rest body more none [] hsome (by simp) hc.turns.2 fun a ha => hc.data a (List.mem_append_right _ ha)]
  simp only [List.nil_append, ho, hc.handler, if_true]
  cases hre : o.reply with
  | some p =>
    rw [hre] at hk
    have hk' : p.length ≤ k := hk
    simp only [Option.getD_some]
    unfold recvSend
    rw [hsend]
    simp only [Nat.sub_zero, cmin_eq, Nat.min_eq_right hk', Nat.zero_add, Nat.lt_irrefl, Bool.false_eq_true, or_self, if_false, List.drop_zero, List.take_length]
    exact ⟨none, rfl, .inl rfl⟩
  | none =>
    simp only [Option.getD_none, List.append_nil]
    cases hret : o.ret with
    | none => exact ⟨none, rfl, .inl rfl⟩
    | some e =>
      simp only
      rw [if_neg (by simp [notice])]
      exact ⟨some e, rfl, .inr ⟨trivial, rfl⟩⟩

/-! ## C66: the opening exchange -/

/-- C66, the part that holds. `wolfSSH_SFTP_accept` reports success, after any number of interrupted calls, only if the client began
with INIT for version 3 or higher; INIT with all its extensions, and nothing else, has been read then, and VERSION 3, and nothing else,
sent. Missing: calls that are not `OpenCalm`, see below. -/
theorem C66_partial {s0 s s' : OpenSt} {c : OpenVisit} (h0 : OpenStart s0) (h : Opened s0 s) (hc : OpenCalm c)
    (hr : sftpAccept c s = .back .complete s') :
    s'.out = version3 ∧ ∃ v ext, Takes3 v ext ∧ s0.inp = initPacket v ext ++ s'.inp := by
  have := sftpAccept_leads hc (opened_inv h0 h)
  rw [hr] at this
  exact this

/-- C66: as long as it does not report success, nothing is sent. -/
theorem C66_quiet_partial {s0 s s' : OpenSt} {c : OpenVisit} {ret : OpenRet} (h0 : OpenStart s0) (h : Opened s0 s) (hc : OpenCalm c)
    (hr : sftpAccept c s = .back ret s') (hne : ret ≠ .complete) : s'.out = [] := by
  have := sftpAccept_leads hc (opened_inv h0 h)
  rw [hr] at this
  cases ret with
  | complete => exact absurd rfl hne
  | code e => exact this.1
  | count n => exact this.1

/-- C66: with such an INIT, a call that meets no obstacle succeeds. -/
theorem C66_progress {s : OpenSt} {v : Nat} {ext more : Bytes} {c : OpenVisit} (hp : OpenStart s) (hin : s.inp = initPacket v ext ++ more)
    (ht : Takes3 v ext) (hc : OpenSmooth c ext.length) :
    ∃ s', sftpAccept c s = .back .complete s' ∧ s'.inp = more ∧ s'.out = version3 := by
  obtain ⟨hm1, hm2, hm3⟩ := hc.memory
  obtain ⟨k, hk, hsend⟩ := hc.sends
  have hx := ht.ext
  have h3 := ht.min
  have hs : ∀ s : OpenSt, s.inp = more → s.out = [] → ∃ s', openSend c s = .back .complete s' ∧ s'.inp = more ∧ s'.out = version3 := by
    intro s hi ho
    unfold openSend
    have hv : versionBuf.length = 9 := rfl
    rw [hsend]
    simp only [cmin_eq, hv, Nat.min_eq_right hk, ne_eq, not_true_eq_false, false_and, if_false, Bool.false_eq_true]
    exact ⟨_, rfl, hi, by rw [ho]; rfl⟩
  unfold sftpAccept
  simp only
  generalize (if s.err = some Err.wantRead ∨ s.err = some Err.wantWrite then none else s.err) = err
  rw [hp.phase]
  simp only
  unfold openStart
  rw [if_neg (by rw [hm1]; simp), if_neg (by rw [hm2]; simp)]
  have e1 : s.inp = (encUint32 (ext.length + 5) ++ (UInt8.ofNat 1 :: encUint32 v)) ++ (ext ++ more) := by
    rw [hin, initPacket_eq]; simp
  have h9 : (encUint32 (ext.length + 5) ++ (UInt8.ofNat 1 :: encUint32 v)).length = 9 := by simp [encUint32]
  simp only
  rw [e1, bufferRead_smooth HEADER c.head _ (ext ++ more) err [] (by omega) (by rw [h9]; rfl) (by rw [h9]; exact hc.turns.1)
    fun a ha => hc.data a (List.mem_append_left _ ha)]
  simp only
  rw [List.nil_append, fields_enc (ext.length + 5) 1 v (by omega) (by decide) ht.max]
  simp only
  have hz : sub32 (sub32 (ext.length + 5) 1) 4 = ext.length := by unfold sub32; omega
  rw [hz, if_neg (by omega), if_neg (by simp), if_neg (by omega)]
  unfold openExt
  simp only
  by_cases h0 : ext.length = 0
  · rw [if_pos h0]
    have : ext = [] := List.length_eq_zero_iff.1 h0
    subst this
    exact hs _ rfl hp.out
  · rw [if_neg h0, if_neg (by rw [hm3]; simp)]
    rw [bufferRead_smooth ext.length c.rest ext more none [] (by omega) (by simp) hc.turns.2 fun a ha => hc.data a (List.mem_append_right _ ha)]
    exact hs _ rfl hp.out

/-! ## Cases -/

/-- What a call came back with: the code, the state of the server, the request handled. -/
structure View where
  ret : Ret
  st : St
  req : Option (Nat × Nat × Bytes)
  deriving DecidableEq

def view : Back → Option View
  | .back ret s ev => some ⟨ret, s, ev.map fun e => (e.type, e.id, e.body)⟩
  | _ => none

/-- A turn in which `n` bytes come. -/
def turn (n : Nat) : Turn := { peek := true, read := (.ok n, none) }

/-- A turn in which nothing comes: the read says WANT_READ. -/
def dry : Turn := { peek := false, work := (some .fatal, some .wantRead), read := (.ok 0, none) }

/-- REALPATH ".". -/
def ask : Bytes := packet 16 3 (encString (asc "."))

def reply : Bytes := ((handle demo start0 16 3 (encString (asc "."))).bind (·.reply)).getD []

def begin : St := ⟨none, none, start0, ask ++ ask, []⟩

theorem begin_start : AtStart begin := ⟨rfl, rfl⟩

/-- The first call gets 7 bytes. -/
def call1 : Visit := { head := [turn 7, dry], rest := [], E := demo, send := { res := .ok 0 } }

/-- The second gets the rest; of the reply, 5 bytes fit. -/
def call2 : Visit := { head := [turn 1, turn 1], rest := [turn 2, turn 100], E := demo, send := { res := .ok 5 } }

/-- The third sends the rest. -/
def call3 : Visit := { head := [], rest := [], E := demo, send := { res := .ok 1000 } }

theorem calm_of (c : Visit) (h : ∀ t ∈ c.head ++ c.rest, t.read.2 = none) (h1 : c.handErr = none) (h2 : ∃ k, c.send = { res := .ok k })
    (h3 : c.E = demo) : Calm c :=
  ⟨fun t ht _ _ => h t ht, by rw [h1]; rfl, (by obtain ⟨k, hk⟩ := h2; rw [hk]; intro e h; cases h), by obtain ⟨k, hk⟩ := h2; rw [hk],
    h3 ▸ demo_good⟩

def back (b : Back) : Ret := match b with | .back r _ _ => r | _ => none
def after (b : Back) : St := match b with | .back _ s _ => s | _ => begin
def did (b : Back) : List Event := match b with | .back _ _ ev => (ev.map event).toList | _ => []

theorem Served.next {s0 s : St} {t : List Event} (h : Served s0 t s) (c : Visit) (hc : Calm c) (hb : (view (sftpRead c s)).isSome = true)
    (hg : GoesOn (back (sftpRead c s)) (after (sftpRead c s)).err) : Served s0 (t ++ did (sftpRead c s)) (after (sftpRead c s)) := by
  cases hr : sftpRead c s with
  | back ret s' ev => rw [hr] at hg; exact .call h hc hr hg
  | ub => rw [hr] at hb; cases hb
  | waiting => rw [hr] at hb; cases hb

def after1 : St := after (sftpRead call1 begin)
def after2 : St := after (sftpRead call2 after1)
def after3 : St := after (sftpRead call3 after2)

theorem served3 : Served begin (([] ++ did (sftpRead call1 begin)) ++ did (sftpRead call2 after1) ++ did (sftpRead call3 after2)) after3 := by
  refine Served.next (Served.next (Served.next .nil call1 ?_ ?_ ?_) call2 ?_ ?_ ?_) call3 ?_ ?_ ?_
  · exact calm_of _ (by decide) rfl ⟨_, rfl⟩ rfl
  · decide +kernel
  · exact .inr (.inr (.inl (by decide +kernel)))
  · exact calm_of _ (by decide) rfl ⟨_, rfl⟩ rfl
  · decide +kernel
  · exact .inr (.inr (.inl (by decide +kernel)))
  · exact calm_of _ (by decide) rfl ⟨_, rfl⟩ rfl
  · decide +kernel
  · exact .inl (by decide +kernel)

-- C63: three calls, one request, one reply; the second packet is still to come
example : asked (([] ++ did (sftpRead call1 begin)) ++ did (sftpRead call2 after1) ++ did (sftpRead call3 after2)) = [(16, 3, encString (asc "."))] ∧
    after1.phase = some (.head (ask.take 7)) ∧ after2.out = reply.take 5 ∧ after2.phase = some (.send reply 5) ∧ after3.out = reply ∧ after3.inp = ask ∧
    reply.length = 35 := by decide +kernel

-- C63_progress
def callAll : Visit := { head := List.replicate 9 (turn 100), rest := List.replicate 5 (turn 100), E := demo, send := { res := .ok 100 } }
example : Smooth callAll (encString (asc ".")).length 35 :=
  ⟨⟨rfl, rfl, rfl⟩, by decide, by
    intro t h
    have : t = turn 100 := by
      rcases List.mem_append.1 h with h | h <;> exact List.eq_of_mem_replicate h
    subst this; exact ⟨rfl, rfl, 99, rfl⟩, rfl, 100, by decide, rfl⟩
example : Takes 16 3 (encString (asc ".")) := ⟨by decide, by decide, by decide, by decide⟩

def hidden : Bytes := encUint32 65542 ++ [6, 0, 0, 0, 9] ++ ask
def stale1 : Visit := { call2 with head := [{ peek := true, read := (.ok 9, some .chanRxd) }] }
def stale2 : Visit := { call2 with head := [turn 9], rest := [turn 100], send := { res := .ok 100 } }

/-- What `Calm` leaves out. A read that succeeds may leave the code for "data arrived" in `ssh->error` (data for another channel came in
with it). If the length of the packet is wrong then, the application is told to go on, and the server reads the body of the packet as
packets: here a request hidden in a packet that is longer than allowed is carried out. No packet of the stream is a request the server
takes. -/
theorem C63_stale :
    first hidden = none ∧
    view (sftpRead stale1 { begin with inp := hidden }) = some ⟨some .fatal, ⟨some .chanRxd, some (.head []), start0, ask, []⟩, none⟩ ∧
    (view (sftpRead stale2 ⟨some .chanRxd, some (.head []), start0, ask, []⟩)).map (·.req) = some (some (16, 3, encString (asc "."))) := by
  decide +kernel

/-- What `Calm` leaves out: a reply that the channel reports as sent without sending it (C62) is lost; the server goes on. -/
theorem C63_lost :
    (view (sftpRead { head := [turn 9], rest := [turn 100], E := demo, send := { res := .ok 100, lost := true } } begin)).map
      (fun v => (v.ret, v.st.phase, v.st.out)) = some (none, none, []) ∧ reply ≠ [] := by
  decide +kernel

/-! ### The opening exchange -/

/-- INIT for version 6, with an extension, and a request. -/
def hello : OpenSt := ⟨none, .start [], 0, initPacket 6 (asc "x@y") ++ ask, []⟩
def hello1 : OpenVisit := { head := [turn 8, dry], rest := [], send := { res := .ok 9 } }
def hello2 : OpenVisit := { head := [turn 2], rest := [turn 1, dry], send := { res := .ok 9 } }
def hello3 : OpenVisit := { head := [], rest := [turn 5], send := { res := .ok 9 } }
def heard1 : OpenSt := ⟨some .wantRead, .start ((initPacket 6 (asc "x@y")).take 8), 0, (initPacket 6 (asc "x@y")).drop 8 ++ ask, []⟩
def heard2 : OpenSt := ⟨some .wantRead, .ext 3 (asc "x"), 0, asc "@y" ++ ask, []⟩

theorem opencalm_of (c : OpenVisit) (h : ∀ t ∈ c.head ++ c.rest, t.read.2 = none) (hs : c.send = { res := .ok 9 }) : OpenCalm c :=
  ⟨fun t ht _ _ => h t ht, by rw [hs]; intro k h; cases h; exact Nat.le_refl _, by rw [hs]⟩

theorem opened2 : Opened hello heard2 :=
  .call (c := hello2) (ret := .code .fatal)
    (.call (c := hello1) (s'' := heard1) (ret := .code .fatal) .nil (opencalm_of _ (by decide) rfl) (by decide +kernel) (by decide) (by decide))
    (opencalm_of _ (by decide) rfl) (by decide +kernel) (by decide) (by decide)

-- C66: the third call completes it
example : OpenStart hello ∧ sftpAccept hello3 heard2 = .back .complete ⟨none, .done, 1, ask, version3⟩ := ⟨⟨rfl, rfl⟩, by decide +kernel⟩

example : Takes3 6 (asc "x@y") ∧ OpenSmooth { head := List.replicate 9 (turn 100), rest := List.replicate 3 (turn 100), send := { res := .ok 9 } } 3 :=
  ⟨⟨by decide, by decide, by decide⟩, ⟨rfl, rfl, rfl⟩, by decide, by
    intro t h
    have : t = turn 100 := by
      rcases List.mem_append.1 h with h | h <;> exact List.eq_of_mem_replicate h
    subst this; exact ⟨rfl, rfl, 99, rfl⟩, 9, by decide, rfl⟩

/-- What `OpenCalm` leaves out: a window of 5 bytes takes part of VERSION; the call reports 5, and the next one sends all of VERSION
again: the client gets garbage. -/
theorem C66_garbage :
    let c : OpenVisit := { head := [turn 9], rest := [turn 3], send := { res := .ok 5 } }
    sftpAccept c hello = .back (.count 5) ⟨none, .recv, 1, ask, version3.take 5⟩ ∧
    sftpAccept hello3 ⟨none, .recv, 1, ask, version3.take 5⟩ = .back .complete ⟨none, .done, 1, ask, version3.take 5 ++ version3⟩ := by
  intro c
  exact ⟨by unfold c; decide +kernel, by decide +kernel⟩

/-- And: VERSION, reported as sent without being sent (C62), never reaches the client. -/
theorem C66_lost :
    sftpAccept { head := [turn 9], rest := [turn 3], send := { res := .ok 9, lost := true } } hello = .back .complete ⟨none, .done, 1, ask, []⟩ := by
  decide +kernel

end Props.Sftp
