import Verif.Spec.SftpLoop
import Verif.Proofs.SftpLeak
/-! What a history of calls of `wolfSSH_SFTP_read` comes to. -/

namespace Proofs.SftpLoop
open Wolf Wolf.Sftp Wolf.Wire Spec.Wire Spec.Sftp

theorem cmin_eq (a b : Nat) : cmin a b = min a b := by unfold cmin; split <;> omega

/-! ## Reading -/

theorem turnRead_ok {sz : Nat} {t : Turn} {io : Io} {got : Bytes} {n : Nat} {err : Ret}
    (h : turnRead sz t io got = (.ok n, err)) (hg : got.length ≤ sz) :
    got.length + n ≤ sz ∧ n ≤ io.inp.length ∧ (0 < n → ∃ k, t.read = (.ok (k + 1), err)) := by
  unfold turnRead at h
  generalize hw : (if t.peek = true then (some Err.chanRxd, io.err) else t.work) = w at h
  obtain ⟨w1, w2⟩ := w
  simp only at h
  split at h
  · split at h
    · cases h
    · split at h
      · rename_i k hk
        simp only [Prod.mk.injEq, Except.ok.injEq, cmin_eq] at h
        obtain ⟨h1, h2⟩ := h
        refine ⟨by omega, by omega, fun h0 => ?_⟩
        have hk0 : 0 < k := by omega
        refine ⟨k - 1, ?_⟩
        rw [Nat.sub_add_cancel hk0, ← hk, ← h2]
      · cases h
  · cases h
  · cases h
    exact ⟨by omega, by omega, fun h => absurd h (Nat.lt_irrefl 0)⟩

/-- How reading comes back: some bytes of the stream have moved into the buffer. -/
structure Moved (io : Io) (got : Bytes) (io' : Io) (got' : Bytes) : Prop where
  eq : got ++ io.inp = got' ++ io'.inp
  pre : got <+: got'

theorem Moved.refl (io : Io) (got : Bytes) (e : Ret) : Moved io got { io with err := e } got := ⟨rfl, List.prefix_rfl⟩

theorem bufferRead_eff (sz : Nat) (ts : List Turn) (io : Io) (got : Bytes) (hg : got.length < sz)
    (hc : ∀ t ∈ ts, ∀ n, t.read.1 = .ok (n + 1) → t.read.2 = none) :
    match bufferRead sz ts io got with
    | .waiting => True
    | .fail e io' got' => Moved io got io' got' ∧ got'.length < sz ∧ (e = .fatal ∨ (e = .wantWrite ∧ io'.err = some .wantWrite))
    | .done io' got' => Moved io got io' got' ∧ got'.length = sz ∧ io'.err = none := by
  induction ts generalizing io got with
  | nil => exact True.intro
  | cons t ts ih =>
    have hc' : ∀ t ∈ ts, ∀ n, t.read.1 = .ok (n + 1) → t.read.2 = none := fun a ha => hc a (List.mem_cons_of_mem _ ha)
    unfold bufferRead
    cases hfl : t.flush.1 with
    | some e =>
      cases e <;> first
        | exact ⟨.refl io got _, hg, .inr ⟨rfl, rfl⟩⟩
        | exact ⟨.refl io got _, hg, .inl rfl⟩
    | none =>
      cases htr : turnRead sz t io got with
      | mk r err =>
      cases r with
      | error e =>
        simp only
        by_cases h1 : err = some .rekeying
        · rw [if_pos h1]
          by_cases h2 : t.peek = true ∧ t.work2.1 ≠ none ∧ t.work2.1 ≠ some .chanRxd ∧ t.work2.2 ≠ some .rekeying
          · rw [if_pos h2]
            exact ⟨.refl io got _, hg, .inl rfl⟩
          · rw [if_neg h2, if_pos hg]
            have := ih { io with err := if t.peek = true then t.work2.2 else err } got hg hc'
            generalize bufferRead sz ts { io with err := if t.peek = true then t.work2.2 else err } got = b at this ⊢
            cases b with
            | waiting => exact True.intro
            | fail e io' got' => exact ⟨⟨this.1.eq, this.1.pre⟩, this.2⟩
            | done io' got' => exact ⟨⟨this.1.eq, this.1.pre⟩, this.2⟩
        · rw [if_neg h1]
          exact ⟨.refl io got _, hg, .inl rfl⟩
      | ok n =>
        obtain ⟨hn1, hn2, hn3⟩ := turnRead_ok htr (Nat.le_of_lt hg)
        simp only
        have hl : (got ++ io.inp.take n).length = got.length + n := by simp; omega
        have hm : Moved io got ⟨io.inp.drop n, err⟩ (got ++ io.inp.take n) :=
          ⟨by simp, List.prefix_append _ _⟩
        by_cases hlt : (got ++ io.inp.take n).length < sz
        · rw [if_pos hlt]
          have := ih ⟨io.inp.drop n, err⟩ (got ++ io.inp.take n) hlt hc'
          generalize bufferRead sz ts ⟨io.inp.drop n, err⟩ (got ++ io.inp.take n) = b at this ⊢
          cases b with
          | waiting => exact True.intro
          | fail e io' got' => exact ⟨⟨hm.eq.trans this.1.eq, hm.pre.trans this.1.pre⟩, this.2⟩
          | done io' got' => exact ⟨⟨hm.eq.trans this.1.eq, hm.pre.trans this.1.pre⟩, this.2⟩
        · rw [if_neg hlt]
          refine ⟨hm, by omega, ?_⟩
          obtain ⟨k, hk⟩ := hn3 (by omega)
          have := hc t List.mem_cons_self k (by rw [hk])
          rw [hk] at this
          exact this

/-! ## Packets -/

theorem enc_ato32 (a b c d : Byte) : encUint32 (ato32 a b c d) = [a, b, c, d] := by
  have ha := a.toNat_lt; have hb := b.toNat_lt; have hc := c.toNat_lt; have hd := d.toNat_lt
  rw [ato32_eq]
  unfold encUint32
  have e : ∀ (x : Byte) (n : Nat), n = x.toNat → UInt8.ofNat n = x := by
    intro x n h; rw [h]; exact UInt8.ofNat_toNat
  rw [e a _ (by omega), e b _ (by omega), e c _ (by omega), e d _ (by omega)]

theorem fields_eq {got : Bytes} (h : got.length = 9) :
    ∃ len type id, fields got = some (len, type, id) ∧ len < 2 ^ 32 ∧ type < 256 ∧ id < 2 ^ 32 ∧
      got = encUint32 len ++ (UInt8.ofNat type :: encUint32 id) := by
  match got, h with
  | [a, b, c, d, t, e, f, g, i], _ =>
    exact ⟨ato32 a b c d, t.toNat, ato32 e f g i, rfl, ato32_lt _ _ _ _, t.toNat_lt, ato32_lt _ _ _ _, by
      rw [enc_ato32, enc_ato32, UInt8.ofNat_toNat]; rfl⟩

theorem packet_eq (type id : Nat) (body : Bytes) :
    packet type id body = encUint32 (body.length + 5) ++ (UInt8.ofNat type :: encUint32 id) ++ body := by
  have : (UInt8.ofNat type :: (encUint32 id ++ body)).length = body.length + 5 := by
    simp [encUint32]
  unfold packet encString
  rw [this]
  simp

theorem first_packet {type id : Nat} {body : Bytes} (h : Takes type id body) (rest : Bytes) :
    first (packet type id body ++ rest) = some ((type, id, body), rest) := by
  have hmax := h.max
  unfold first packet
  rw [Proofs.Exchange.string_enc _ _ (by simp [encUint32]; omega)]
  simp only [Option.bind_some, byte]
  rw [Proofs.Sftp.uint32_enc _ h.id]
  simp only [Option.bind_some]
  rw [if_pos ⟨h.some, h.max⟩, show (UInt8.ofNat type).toNat = type from Nat.mod_eq_of_lt h.type]

theorem packets_stream (t : List Event) (ht : ∀ e ∈ t, Takes e.1.type e.1.id e.1.body) (rest : Bytes) :
    packets t.length (stream t ++ rest) = asked t := by
  induction t with
  | nil => rfl
  | cons e t ih =>
    have h1 := ht e List.mem_cons_self
    have e1 : stream (e :: t) ++ rest = packet e.1.type e.1.id e.1.body ++ (stream t ++ rest) := by
      simp [stream]
    rw [e1]
    show packets (t.length + 1) _ = _
    unfold packets
    rw [first_packet h1]
    simp only
    rw [ih fun e he => ht e (List.mem_cons_of_mem _ he)]
    rfl

/-! ## Calls -/

/-- What has been read of a request that is not handled yet. -/
def part : Option Phase → Bytes
  | some (.head got) => got
  | some (.body type id sz got) => encUint32 (sz + 5) ++ (UInt8.ofNat type :: encUint32 id) ++ got
  | _ => []

/-- What has not been sent of a reply. -/
def due : Option Phase → Bytes
  | some (.send p idx) => p.drop idx
  | _ => []

def PhaseOk : Option Phase → Prop
  | none => True
  | some (.head got) => got.length < 9
  | some (.body type id sz got) => type < 256 ∧ id < 2 ^ 32 ∧ 0 < sz ∧ sz ≤ 65536 ∧ got.length < sz
  | some (.send p idx) => idx ≤ p.length

/-- The requests handled come first in the stream; what was sent comes first in the replies. -/
structure Tracks (s0 : St) (t : List Event) (s : St) : Prop where
  trace : Trace s0.sess t s.sess
  takes : ∀ e ∈ t, Takes e.1.type e.1.id e.1.body
  reads : stream t <+: s0.inp
  writes : s.out <+: replies t
  last : replies t.dropLast <+: s.out

/-- The same, to the byte. -/
structure InStep (s0 : St) (t : List Event) (s : St) : Prop extends Tracks s0 t s where
  inp : s0.inp = stream t ++ (part s.phase ++ s.inp)
  out : replies t = s.out ++ due s.phase
  phase : PhaseOk s.phase

/-- What a call comes to. -/
def Leads (s0 : St) (t : List Event) : Back → Prop
  | .back ret s ev => Tracks s0 (t ++ (ev.map event).toList) s ∧
      (GoesOn ret s.err → InStep s0 (t ++ (ev.map event).toList) s)
  | _ => True

theorem stream_append (a b : List Event) : stream (a ++ b) = stream a ++ stream b := by simp [stream]
theorem replies_append (a b : List Event) : replies (a ++ b) = replies a ++ replies b := by simp [replies]

theorem recvSend_leads {s0 s : St} {t : List Event} {c : Visit} (hc : Calm c) {p : Bytes} {idx : Nat} {ev : Option Handled}
    (h : InStep s0 (t ++ (ev.map event).toList) { s with phase := some (.send p idx) }) :
    Leads s0 t (recvSend c s p idx ev) := by
  generalize ht : t ++ (ev.map event).toList = t' at h
  have hin : s0.inp = stream t' ++ s.inp := h.inp
  have hout : replies t' = s.out ++ p.drop idx := h.out
  have hidx : idx ≤ p.length := h.phase
  unfold recvSend
  cases hr : c.send.res with
  | error e =>
    have hne := hc.sends e hr
    have keep : ∀ ret err, Leads s0 t (.back ret { s with err := err, phase := some (.send p idx) } ev) := by
      intro ret err
      refine ⟨?_, fun _ => ?_⟩ <;> rw [ht]
      · exact ⟨h.trace, h.takes, h.reads, h.writes, h.last⟩
      · exact ⟨⟨h.trace, h.takes, h.reads, h.writes, h.last⟩, h.inp, h.out, h.phase⟩
    simp only
    split
    · exact keep _ _
    · rename_i hrk
      split
      · rename_i hw
        refine ⟨?_, fun hg => ?_⟩
        · rw [ht]; exact ⟨h.trace, h.takes, h.reads, h.writes, h.last⟩
        · exfalso
          rcases hg with hg | hg | hg | ⟨e', hg, hg1, _⟩
          · cases hg
          · cases hg
          · simp only [notice, decide_eq_true_eq] at hg
            rcases hg with hg | hg | hg | hg | hg
            · exact hw.1 hg
            · exact hw.2.1 hg
            · exact hne hg
            · exact hw.2.2 hg
            · exact hrk (.inr hg)
          · cases hg; exact hg1 rfl
      · exact keep _ _
  | ok k =>
    simp only [hc.kept, Bool.false_eq_true, if_false, cmin_eq]
    have hsplit : s.out ++ p.drop idx = (s.out ++ (p.drop idx).take (min k (p.length - idx))) ++ p.drop (idx + min k (p.length - idx)) := by
      rw [List.append_assoc, ← List.drop_drop, List.take_append_drop]
    have hpre : s.out ++ (p.drop idx).take (min k (p.length - idx)) <+: replies t' := by
      rw [hout, hsplit]; exact List.prefix_append _ _
    split
    · refine ⟨?_, fun _ => ?_⟩ <;> rw [ht]
      · exact ⟨h.trace, h.takes, h.reads, hpre, h.last.trans (List.prefix_append _ _)⟩
      · refine ⟨⟨h.trace, h.takes, h.reads, hpre, h.last.trans (List.prefix_append _ _)⟩, h.inp, by rw [hout, hsplit]; rfl, ?_⟩
        show idx + min k (p.length - idx) ≤ p.length
        omega
    · rename_i hnot
      have hfull : idx + min k (p.length - idx) = p.length := by
        have : ¬ (idx + min k (p.length - idx) < p.length) := fun h => hnot (.inl h)
        omega
      rw [hfull, List.drop_length] at hsplit
      refine ⟨?_, fun _ => ?_⟩ <;> rw [ht]
      · exact ⟨h.trace, h.takes, h.reads, hpre, h.last.trans (List.prefix_append _ _)⟩
      · exact ⟨⟨h.trace, h.takes, h.reads, hpre, h.last.trans (List.prefix_append _ _)⟩, h.inp, by rw [hout, hsplit]; rfl, True.intro⟩

theorem recvBody_leads {s0 s : St} {t : List Event} {c : Visit} (hc : Calm c) {type id sz : Nat} {got : Bytes}
    (h : InStep s0 t { s with phase := some (.body type id sz got) }) : Leads s0 t (recvBody c s type id sz got) := by
  obtain ⟨h1, h2, h3, h4, h5⟩ : type < 256 ∧ id < 2 ^ 32 ∧ 0 < sz ∧ sz ≤ 65536 ∧ got.length < sz := h.phase
  have hin : s0.inp = stream t ++ ((encUint32 (sz + 5) ++ (UInt8.ofNat type :: encUint32 id) ++ got) ++ s.inp) := h.inp
  have hout : replies t = s.out ++ [] := h.out
  rw [List.append_nil] at hout
  have hrd := bufferRead_eff sz c.rest ⟨s.inp, s.err⟩ got h5 fun a ha => hc.reads a (List.mem_append_right _ ha)
  unfold recvBody
  cases hb : bufferRead sz c.rest ⟨s.inp, s.err⟩ got with
  | waiting => exact True.intro
  | fail e io' got' =>
    rw [hb] at hrd
    obtain ⟨hm, hlt, hcode⟩ := hrd
    have heq : got ++ s.inp = got' ++ io'.inp := hm.eq
    have htrk : ∀ err ph inp, Tracks s0 (t ++ ((none : Option Handled).map event).toList) ⟨err, ph, s.sess, inp, s.out⟩ := by
      intro err ph inp
      show Tracks s0 (t ++ []) _
      rw [List.append_nil]
      exact ⟨h.trace, h.takes, h.reads, h.writes, h.last⟩
    simp only
    split
    · refine ⟨?_, fun _ => ?_⟩
      · exact htrk _ _ _
      · have : InStep s0 t { s with err := io'.err, inp := io'.inp, phase := some (.body type id sz got') } :=
          ⟨⟨h.trace, h.takes, h.reads, h.writes, h.last⟩, by
            show s0.inp = stream t ++ ((encUint32 (sz + 5) ++ (UInt8.ofNat type :: encUint32 id) ++ got') ++ io'.inp)
            rw [hin, List.append_assoc (encUint32 (sz + 5) ++ (UInt8.ofNat type :: encUint32 id)), heq,
              List.append_assoc (encUint32 (sz + 5) ++ (UInt8.ofNat type :: encUint32 id))], h.out,
            ⟨h1, h2, h3, h4, hlt⟩⟩
        simpa using this
    · rename_i hn
      refine ⟨?_, fun hg => ?_⟩
      · exact htrk _ _ _
      · exfalso
        rcases hcode with rfl | ⟨rfl, he⟩
        · rcases hg with hg | hg | hg | ⟨e', hg, hg1, _⟩
          · cases hg
          · cases hg
          · exact hn hg
          · cases hg; exact hg1 rfl
        · exact hn (by rw [he]; rfl)
  | done io' got' =>
    rw [hb] at hrd
    obtain ⟨hm, hlen, herr⟩ := hrd
    have heq : got ++ s.inp = got' ++ io'.inp := hm.eq
    have htk : Takes type id got' := ⟨h1, h2, by omega, by omega⟩
    simp only
    cases ho : handle c.E s.sess type id got' with
    | none => exact True.intro
    | some o =>
      simp only
      let e0 : Event := (⟨c.E, type, id, got'⟩, o)
      have htr : Trace s0.sess (t ++ [e0]) o.st := .snoc h.trace hc.good h2 (by show got'.length < _; omega) ho
      have htakes : ∀ e ∈ t ++ [e0], Takes e.1.type e.1.id e.1.body := by
        intro e he
        rcases List.mem_append.1 he with he | he
        · exact h.takes e he
        · rw [List.mem_singleton.1 he]; exact htk
      have hst : stream (t ++ [e0]) = stream t ++ packet type id got' := by simp [stream, e0]
      have hinp : s0.inp = stream (t ++ [e0]) ++ io'.inp := by
        rw [hst, packet_eq, hlen, hin, List.append_assoc (encUint32 (sz + 5) ++ (UInt8.ofNat type :: encUint32 id)), heq]
        simp
      have hreads : stream (t ++ [e0]) <+: s0.inp := by rw [hinp]; exact List.prefix_append _ _
      have hrep : replies (t ++ [e0]) = s.out ++ o.reply.getD [] := by
        rw [replies_append, hout]; simp [replies, e0]
      have hwr : s.out <+: replies (t ++ [e0]) := by rw [hrep]; exact List.prefix_append _ _
      have hlast : replies (t ++ [e0]).dropLast <+: s.out := by
        rw [List.dropLast_concat, hout]; exact List.prefix_rfl
      cases hre : o.reply with
      | some p =>
        refine recvSend_leads hc ?_
        exact { trace := htr, takes := htakes, reads := hreads, writes := hwr, last := hlast, inp := hinp,
                out := (by rw [hre] at hrep; exact hrep), phase := Nat.zero_le _ }
      | none =>
        rw [hre] at hrep
        have hdone : ∀ ret err, Leads s0 t (.back ret ⟨err, none, o.st, io'.inp, s.out⟩ (some ⟨c.E, type, id, got', o⟩)) :=
          fun ret err => ⟨⟨htr, htakes, hreads, hwr, hlast⟩, fun _ => ⟨⟨htr, htakes, hreads, hwr, hlast⟩, hinp, hrep, True.intro⟩⟩
        simp only
        cases hret : o.ret with
        | none => exact hdone _ _
        | some e =>
          have hnn : notice (if c.handErr = none then io'.err else c.handErr) = false := by
            split
            · rw [herr]; rfl
            · exact hc.handler
          simp only
          rw [if_neg (by rw [hnn]; rintro ⟨h, -⟩; cases h)]
          exact hdone _ _

theorem recvHead_leads {s0 s : St} {t : List Event} {c : Visit} (hc : Calm c) {got : Bytes}
    (h : InStep s0 t { s with phase := some (.head got) }) : Leads s0 t (recvHead c s got) := by
  have h5 : got.length < 9 := h.phase
  have hin : s0.inp = stream t ++ (got ++ s.inp) := h.inp
  have hrd := bufferRead_eff 9 c.head ⟨s.inp, s.err⟩ got h5 fun a ha => hc.reads a (List.mem_append_left _ ha)
  have keep : ∀ ret err inp got', got ++ s.inp = got' ++ inp → got'.length < 9 →
      Leads s0 t (.back ret ⟨err, some (.head got'), s.sess, inp, s.out⟩ none) := by
    intro ret err inp got' he hl
    have : InStep s0 t ⟨err, some (.head got'), s.sess, inp, s.out⟩ :=
      ⟨⟨h.trace, h.takes, h.reads, h.writes, h.last⟩, by rw [hin, he]; rfl, h.out, hl⟩
    exact ⟨by simpa using this.toTracks, fun _ => by simpa using this⟩
  unfold recvHead
  simp only
  split
  · rename_i h0
    exact keep _ _ _ _ (by rw [h0.1]) (by decide)
  · cases hb : bufferRead HEADER c.head ⟨s.inp, s.err⟩ got with
    | waiting => exact True.intro
    | fail e io' got' =>
      rw [show (9 : Nat) = HEADER from rfl, hb] at hrd
      exact keep _ _ _ _ hrd.1.eq hrd.2.1
    | done io' got' =>
      rw [show (9 : Nat) = HEADER from rfl, hb] at hrd
      obtain ⟨hm, hlen, herr⟩ := hrd
      obtain ⟨len, type, id, hf, hl1, hl2, hl3, hgot⟩ := fields_eq hlen
      have heq : got ++ s.inp = got' ++ io'.inp := hm.eq
      have htrk : ∀ err ph, Tracks s0 t ⟨err, ph, s.sess, io'.inp, s.out⟩ := fun err ph => ⟨h.trace, h.takes, h.reads, h.writes, h.last⟩
      simp only [hf]
      split
      · refine ⟨by simpa using htrk _ _, fun hg => ?_⟩
        exfalso
        rcases hg with hg | hg | hg | ⟨e', hg, hg1, _⟩
        · cases hg
        · cases hg
        · cases hg
        · cases hg; exact hg1 rfl
      · rename_i hsz
        split
        · refine ⟨by simpa using htrk _ _, fun hg => ?_⟩
          exfalso
          rcases hg with hg | hg | hg | ⟨e', hg, _, hg1⟩
          · cases hg
          · cases hg
          · simp only [herr] at hg; cases hg
          · cases hg; exact hg1 rfl
        · have hs : sub32 (sub32 len 4) 1 + 5 = len := by
            unfold sub32 MAX_PACKET at *; omega
          have hmx : sub32 (sub32 len 4) 1 ≤ 65536 := by unfold MAX_PACKET at hsz; omega
          refine recvBody_leads hc ⟨⟨h.trace, h.takes, h.reads, h.writes, h.last⟩, ?_, h.out, hl2, hl3, by omega, hmx, by simp; omega⟩
          show s0.inp = stream t ++ ((encUint32 (sub32 (sub32 len 4) 1 + 5) ++ (UInt8.ofNat type :: encUint32 id) ++ []) ++ io'.inp)
          rw [hs, List.append_nil, ← hgot, hin, heq]

theorem sftpRead_leads {s0 s : St} {t : List Event} {c : Visit} (hc : Calm c) (h : InStep s0 t s) : Leads s0 t (sftpRead c s) := by
  have hx : ∀ err, InStep s0 t { s with err := err } :=
    fun err => ⟨⟨h.trace, h.takes, h.reads, h.writes, h.last⟩, h.inp, h.out, h.phase⟩
  unfold sftpRead
  simp only
  generalize (if s.err = some Err.wantRead ∨ s.err = some Err.wantWrite then none else s.err) = err
  have h := hx err
  cases hp : s.phase with
  | none =>
    rw [hp] at h
    simp only
    split
    · exact recvHead_leads hc ⟨⟨h.trace, h.takes, h.reads, h.writes, h.last⟩, h.inp, h.out, by show (0 : Nat) < 9; decide⟩
    · have : InStep s0 t { s with err := some .memory, phase := none } :=
        ⟨⟨h.trace, h.takes, h.reads, h.writes, h.last⟩, h.inp, h.out, True.intro⟩
      exact ⟨by simpa using this.toTracks, fun _ => by simpa using this⟩
  | some ph =>
    rw [hp] at h
    cases ph with
    | head got => exact recvHead_leads hc h
    | body type id sz got => exact recvBody_leads hc h
    | send p idx => exact recvSend_leads hc (ev := none) (by simpa using h)

theorem served_inStep {s0 s : St} {t : List Event} (h0 : AtStart s0) (h : Served s0 t s) : InStep s0 t s := by
  induction h with
  | nil =>
    exact ⟨⟨.nil, by simp, List.nil_prefix, by rw [h0.out]; exact List.nil_prefix, List.nil_prefix⟩,
      by rw [h0.phase]; rfl, by rw [h0.out, h0.phase]; rfl, by rw [h0.phase]; exact True.intro⟩
  | call _ hc hr hg ih =>
    have := sftpRead_leads hc ih
    rw [hr] at this
    exact this.2 hg

theorem packets_mono (n k : Nat) (s : Bytes) : packets n s <+: packets (n + k) s := by
  induction n generalizing s with
  | zero => exact List.nil_prefix
  | succ n ih =>
    rw [Nat.add_right_comm]
    unfold packets
    cases first s with
    | none => exact List.prefix_rfl
    | some p => exact List.cons_prefix_cons.2 ⟨rfl, ih _⟩

/-! ## A call that meets no obstacle -/

theorem bufferRead_smooth (sz : Nat) (ts : List Turn) (d rest : Bytes) (err : Ret) (got : Bytes) (hd : 0 < d.length)
    (hsz : got.length + d.length = sz) (hlen : d.length ≤ ts.length)
    (hs : ∀ t ∈ ts, t.flush.1 = none ∧ t.peek = true ∧ ∃ k, t.read = (.ok (k + 1), none)) :
    bufferRead sz ts ⟨d ++ rest, err⟩ got = .done ⟨rest, none⟩ (got ++ d) := by
  induction ts generalizing d err got with
  | nil => simp at hlen; subst hlen; simp at hd
  | cons t ts ih =>
    obtain ⟨h1, h2, k, h3⟩ := hs t List.mem_cons_self
    have hread : turnRead sz t ⟨d ++ rest, err⟩ got = (.ok (min (k + 1) d.length), none) := by
      unfold turnRead
      simp only [h2, h3, if_true, cmin_eq]
      rw [if_neg (by omega)]
      have : min (k + 1) (min (sz - got.length) (d ++ rest).length) = min (k + 1) d.length := by
        rw [List.length_append]; omega
      rw [this]
    unfold bufferRead
    rw [h1]
    simp only [hread]
    have hm : min (k + 1) d.length ≤ d.length := Nat.min_le_right _ _
    rw [List.take_append_of_le_length hm, List.drop_append_of_le_length hm]
    by_cases hk : d.length ≤ k + 1
    · rw [Nat.min_eq_right hk, List.take_length, List.drop_length, if_neg (by simp; omega)]
      rfl
    · rw [if_pos (by simp; omega), ih (d.drop (min (k + 1) d.length)) none _ (by simp; omega) (by simp; omega) (by simp at hlen ⊢; omega)
        fun t ht => hs t (List.mem_cons_of_mem _ ht), List.append_assoc, List.take_append_drop]

/-! ## The opening exchange -/

theorem initPacket_eq (v : Nat) (ext : Bytes) : initPacket v ext = encUint32 (ext.length + 5) ++ (UInt8.ofNat 1 :: encUint32 v) ++ ext :=
  packet_eq 1 v ext

def OpenInv (s0 s : OpenSt) : Prop := s.out = [] ∧
  match s.phase with
  | .start got => got.length < 9 ∧ s0.inp = got ++ s.inp
  | .ext sz got => got.length < sz ∧ sz ≤ 32763 ∧ ∃ v, 3 ≤ v ∧ v < 2 ^ 32 ∧
      s0.inp = encUint32 (sz + 5) ++ (UInt8.ofNat 1 :: encUint32 v) ++ got ++ s.inp
  | .recv => ∃ v ext, Takes3 v ext ∧ s0.inp = initPacket v ext ++ s.inp
  | .done => False

/-- What a call comes to. -/
def OpenLeads (s0 : OpenSt) : OpenBack → Prop
  | .back .complete s => s.out = version3 ∧ ∃ v ext, Takes3 v ext ∧ s0.inp = initPacket v ext ++ s.inp
  | .back _ s => s.out = [] ∧ (notice s.err = true → OpenInv s0 s)
  | _ => True

theorem openSend_leads {s0 s : OpenSt} {c : OpenVisit} (hc : OpenCalm c) (ho : s.out = [])
    (hi : ∃ v ext, Takes3 v ext ∧ s0.inp = initPacket v ext ++ s.inp) : OpenLeads s0 (openSend c s) := by
  unfold openSend
  cases hr : c.send.res with
  | error e => exact ⟨ho, fun _ => ⟨ho, hi⟩⟩
  | ok k =>
    have h9 := hc.sends k hr
    have hv : versionBuf.length = 9 := rfl
    simp only [cmin_eq, hv, hc.kept, Nat.min_eq_right h9, ne_eq, not_true_eq_false, false_and, if_false, Bool.false_eq_true]
    exact ⟨by rw [ho]; rfl, hi⟩

theorem openExt_leads {s0 s : OpenSt} {c : OpenVisit} (hc : OpenCalm c) {sz v : Nat} {got : Bytes} (ho : s.out = [])
    (hsz : sz = 0 ∧ got = [] ∨ got.length < sz) (hm : sz ≤ 32763) (h3 : 3 ≤ v) (hv : v < 2 ^ 32)
    (hi : s0.inp = encUint32 (sz + 5) ++ (UInt8.ofNat 1 :: encUint32 v) ++ got ++ s.inp) : OpenLeads s0 (openExt c s sz got) := by
  unfold openExt
  simp only
  by_cases h0 : sz = 0
  · rw [if_pos h0]
    subst h0
    have hg : got = [] := by
      rcases hsz with h | h
      · exact h.2
      · exact absurd h (Nat.not_lt_zero _)
    subst hg
    exact openSend_leads hc ho ⟨v, [], ⟨h3, hv, by simp⟩, by rw [initPacket_eq]; simpa using hi⟩
  · rw [if_neg h0]
    have hlt : got.length < sz := by omega
    have hrd := bufferRead_eff sz c.rest ⟨s.inp, s.err⟩ got hlt fun a ha => hc.reads a (List.mem_append_right _ ha)
    split
    · refine ⟨ho, fun hn => ⟨ho, ?_⟩⟩
      have hn : notice s.err = true := hn
      simp only [hn, if_true]
      exact ⟨hlt, hm, v, h3, hv, hi⟩
    · cases hb : bufferRead sz c.rest ⟨s.inp, s.err⟩ got with
      | waiting => exact True.intro
      | fail e io' got' =>
        rw [hb] at hrd
        have heq : got ++ s.inp = got' ++ io'.inp := hrd.1.eq
        refine ⟨ho, fun hn => ⟨ho, ?_⟩⟩
        have hn : notice io'.err = true := hn
        simp only [hn, if_true]
        refine ⟨hrd.2.1, hm, v, h3, hv, ?_⟩
        rw [hi, List.append_assoc _ got, heq, ← List.append_assoc]
      | done io' got' =>
        rw [hb] at hrd
        have heq : got ++ s.inp = got' ++ io'.inp := hrd.1.eq
        refine openSend_leads hc ho ⟨v, got', ⟨h3, hv, by have := hrd.2.1; omega⟩, ?_⟩
        rw [initPacket_eq, hrd.2.1, hi, List.append_assoc _ got, heq, ← List.append_assoc]

theorem openStart_leads {s0 s : OpenSt} {c : OpenVisit} (hc : OpenCalm c) {got : Bytes} (ho : s.out = []) (hg : got.length < 9)
    (hi : s0.inp = got ++ s.inp) : OpenLeads s0 (openStart c s got) := by
  have hrd := bufferRead_eff 9 c.head ⟨s.inp, s.err⟩ got hg fun a ha => hc.reads a (List.mem_append_left _ ha)
  unfold openStart
  split
  · rename_i h; exact ⟨ho, fun _ => ⟨ho, by simp, by rw [hi, h.1]⟩⟩
  · split
    · rename_i h; exact ⟨ho, fun _ => ⟨ho, by simp, by rw [hi, h.1]⟩⟩
    · cases hb : bufferRead HEADER c.head ⟨s.inp, s.err⟩ got with
      | waiting => exact True.intro
      | fail e io' got' =>
        rw [show (9 : Nat) = HEADER from rfl, hb] at hrd
        refine ⟨ho, fun hn => ⟨ho, ?_⟩⟩
        have hn : notice io'.err = true := hn
        simp only [hn, if_true]
        exact ⟨hrd.2.1, by rw [hi]; exact hrd.1.eq⟩
      | done io' got' =>
        rw [show (9 : Nat) = HEADER from rfl, hb] at hrd
        obtain ⟨hm, hlen, herr⟩ := hrd
        obtain ⟨len, type, v, hf, hl1, hl2, hl3, hgot⟩ := fields_eq hlen
        have heq : got ++ s.inp = got' ++ io'.inp := hm.eq
        have hno : notice io'.err ≠ true := by rw [herr]; exact fun h => nomatch h
        simp only [hf]
        split
        · exact ⟨ho, fun hn => absurd hn hno⟩
        · split
          · exact ⟨ho, fun hn => absurd hn hno⟩
          · split
            · exact ⟨ho, fun hn => absurd hn hno⟩
            · rename_i ha hb hc'
              have hty : type = 1 := Decidable.not_not.1 hb
              subst hty
              have hs : sub32 (sub32 len 1) 4 + 5 = len := by unfold sub32; omega
              refine openExt_leads (v := v) hc ho (by simp; omega) (by omega) (by omega) hl3 ?_
              show s0.inp = encUint32 (sub32 (sub32 len 1) 4 + 5) ++ (UInt8.ofNat 1 :: encUint32 v) ++ [] ++ io'.inp
              rw [hs, List.append_nil, ← hgot, hi, heq]

theorem sftpAccept_leads {s0 s : OpenSt} {c : OpenVisit} (hc : OpenCalm c) (h : OpenInv s0 s) : OpenLeads s0 (sftpAccept c s) := by
  obtain ⟨ho, h⟩ := h
  unfold sftpAccept
  simp only
  generalize (if s.err = some Err.wantRead ∨ s.err = some Err.wantWrite then none else s.err) = err
  cases hp : s.phase with
  | start got => rw [hp] at h; exact openStart_leads hc ho h.1 h.2
  | ext sz got =>
    rw [hp] at h
    obtain ⟨h1, h2, v, h3, h4, h5⟩ := h
    exact openExt_leads hc ho (.inr h1) h2 h3 h4 h5
  | recv => rw [hp] at h; exact openSend_leads hc ho h
  | done => rw [hp] at h; exact h.elim

theorem opened_inv {s0 s : OpenSt} (h0 : OpenStart s0) (h : Opened s0 s) : OpenInv s0 s := by
  induction h with
  | nil => exact ⟨h0.out, by rw [h0.phase]; exact ⟨by decide, rfl⟩⟩
  | @call s' s'' c ret _ hc hr hne hn ih =>
    have := sftpAccept_leads hc ih
    rw [hr] at this
    cases ret with
    | complete => exact absurd rfl hne
    | code e => exact this.2 hn
    | count n => exact this.2 hn

end Proofs.SftpLoop
