import Verif.Proofs.TransMsg
/-!
# C144, C145: disconnect, ignore, unimplemented, debug

`mem` is the memory from the payload on, of which `len` bytes are the payload behind the message number.
-/

namespace Props.TransMsg
open Wolf Wolf.Wire Wolf.NameList Wolf.Channel Wolf.Request Wolf.TransMsg Spec.Wire Spec.TransMsg Proofs.Ossh Proofs.TransMsg

variable {mem : Bytes} {len : Nat}

/-! ## C144: what is accepted -/

/-- C144: the message "disconnect" ends the session exactly if the payload begins with a reason and two strings; then the cursor is
behind them and `ssh->error` is set. Otherwise the result is another error, the cursor stays, and so does `ssh->error`. Nothing is
read outside. -/
theorem C144 (error : Ret) (hl : len ≤ mem.length) (hw : len < 2 ^ 32) :
    ∃ o, doDisconnect mem len 0 error = some o ∧
      ((∃ reason text lang rest, reason < 2 ^ 32 ∧ mem.take len = disconnectMsg reason text lang ++ rest ∧
          o = ⟨some .disconnect, (disconnectMsg reason text lang).length, some .disconnect⟩) ∨
       ((∀ reason text lang rest, reason < 2 ^ 32 → mem.take len ≠ disconnectMsg reason text lang ++ rest) ∧
          o = ⟨some .bufferE, 0, error⟩)) := by
  have hb : ∀ i e k, getSkip mem len i = .err e k → e = .bufferE := by
    intro i e k h
    unfold getSkip getSize at h
    rw [getUint32_eq mem len i hl hw] at h
    cases hu : uint32 ((mem.take len).drop i) with
    | none => rw [hu] at h; simp only [Res.err.injEq] at h; exact h.1.symm
    | some v =>
      rw [hu] at h
      simp only at h
      split at h
      · rename_i heq; split at heq
        · cases heq
        · simp only [Res.ok.injEq] at heq; obtain ⟨rfl, rfl⟩ := heq
          split at h
          · cases h
          · simp only [Res.err.injEq] at h; exact h.1.symm
      · rename_i heq; split at heq
        · simp only [Res.err.injEq] at heq h; rw [← h.1, ← heq.1]
        · cases heq
      · cases h
  unfold doDisconnect
  cases h1 : getUint32 mem len 0 with
  | ub => exact absurd h1 (u32_ne_ub 0 hl hw)
  | err e i =>
    have he : e = .bufferE := by
      rw [getUint32_eq mem len 0 hl hw] at h1
      split at h1
      · cases h1
      · simp only [Res.err.injEq] at h1; exact h1.1.symm
    subst he
    refine ⟨_, rfl, Or.inr ⟨?_, rfl⟩⟩
    intro reason text lang rest hr h
    have := (u32_fwd (idx := 0) (rest := encString text ++ (encString lang ++ rest)) hl hw hr
      (by rw [from_zero, h]; simp [disconnectMsg])).1
    rw [h1] at this; cases this
  | ok reason i =>
    obtain ⟨rfl, hi, hr, hm⟩ := u32_inv hl hw h1
    simp only
    -- any reading begins with this reason
    have hu : ∀ reason' text lang rest, reason' < 2 ^ 32 → mem.take len = disconnectMsg reason' text lang ++ rest →
        Props.Wire.msgFrom mem len (0 + 4) = encString text ++ (encString lang ++ rest) := by
      intro reason' text lang rest hr' h
      exact (u32_fwd (idx := 0) hl hw hr' (by rw [from_zero, h]; simp [disconnectMsg])).2
    cases h2 : getSkip mem len (0 + 4) with
    | ub => exact absurd h2 (skip_ne_ub _ hl hw)
    | err e j =>
      rw [hb _ _ _ h2]
      refine ⟨_, rfl, Or.inr ⟨?_, rfl⟩⟩
      intro reason' text lang rest hr' h
      have := (skip_fwd hl hw (hu _ _ _ _ hr' h)).1
      rw [h2] at this; cases this
    | ok u j =>
      obtain ⟨text, rfl, hj, ht, hm2⟩ := skip_inv hl hw h2
      simp only
      cases h3 : getSkip mem len (0 + 4 + 4 + text.length) with
      | ub => exact absurd h3 (skip_ne_ub _ hl hw)
      | err e k =>
        rw [hb _ _ _ h3]
        refine ⟨_, rfl, Or.inr ⟨?_, rfl⟩⟩
        intro reason' text' lang rest hr' h
        have h4 := hu _ _ _ _ hr' h
        have h5 := h4
        have h6 := congrArg List.length h4
        rw [msgFrom_length _ _ _ hl, List.length_append, enc_length] at h6
        rw [hm2] at h5
        have h7 := (encString_inj ht (by omega) h5).2
        have := (skip_fwd hl hw h7).1
        rw [h3] at this; cases this
      | ok u' k =>
        obtain ⟨lang, rfl, hk, htl, hm3⟩ := skip_inv hl hw h3
        refine ⟨_, rfl, Or.inl ⟨reason, text, lang, Props.Wire.msgFrom mem len (0 + 4 + 4 + text.length + 4 + lang.length), hr, ?_, ?_⟩⟩
        · rw [← from_zero (mem := mem) (len := len), hm, hm2, hm3]
          simp [disconnectMsg, List.append_assoc]
        · have : 0 + 4 + 4 + text.length + 4 + lang.length = (disconnectMsg reason text lang).length := by
            simp [disconnectMsg, enc_length, encUint32]; omega
          simp only [this]

/-- C144, "ignore": accepted exactly if the payload begins with a string, and the cursor is behind it. -/
theorem C144_ignore (hl : len ≤ mem.length) (hw : len < 2 ^ 32) :
    (∃ data rest, mem.take len = ignoreMsg data ++ rest ∧ doIgnore mem len 0 = .ok () (ignoreMsg data).length) ∨
    ((∀ data rest, mem.take len ≠ ignoreMsg data ++ rest) ∧ ∃ e i, doIgnore mem len 0 = .err e i) := by
  unfold doIgnore
  cases h : getSkip mem len 0 with
  | ub => exact absurd h (skip_ne_ub _ hl hw)
  | err e i =>
    right
    refine ⟨?_, e, i, rfl⟩
    intro data rest hm
    have := (skip_fwd (idx := 0) hl hw (by rw [from_zero, hm]; rfl)).1
    rw [h] at this; cases this
  | ok u i =>
    left
    obtain ⟨s, rfl, _, _, hm⟩ := skip_inv hl hw h
    refine ⟨s, _, hm, ?_⟩
    have : 0 + 4 + s.length = (ignoreMsg s).length := by simp [ignoreMsg, enc_length]; omega
    simp only [this]

/-- C144, "unimplemented": accepted exactly if the payload begins with a number, and the cursor is behind it. -/
theorem C144_unimplemented (hl : len ≤ mem.length) (hw : len < 2 ^ 32) :
    (∃ seq rest, seq < 2 ^ 32 ∧ mem.take len = unimplementedMsg seq ++ rest ∧
      doUnimplemented mem len 0 = .ok () (unimplementedMsg seq).length) ∨
    ((∀ seq rest, seq < 2 ^ 32 → mem.take len ≠ unimplementedMsg seq ++ rest) ∧ ∃ e, doUnimplemented mem len 0 = .err e 0) := by
  unfold doUnimplemented
  cases h : getUint32 mem len 0 with
  | ub => exact absurd h (u32_ne_ub _ hl hw)
  | err e i =>
    right
    refine ⟨?_, e, rfl⟩
    intro seq rest hs hm
    have := (u32_fwd (idx := 0) hl hw hs (by rw [from_zero, hm]; rfl)).1
    rw [h] at this; cases this
  | ok v i =>
    left
    obtain ⟨rfl, _, hv, hm⟩ := u32_inv hl hw h
    exact ⟨v, _, hv, hm, rfl⟩

/-- C144, "debug": a payload that begins with a flag and two strings is accepted if there is memory for those that are not empty.
The cursor is behind them, the two strings are logged if and only if the flag is set, and all memory is given back once. -/
theorem C144_debug (a1 a2 : Bool) (hl : len ≤ mem.length) (hw : len < 2 ^ 32) (flag : UInt8) (m l rest : Bytes)
    (h : mem.take len = debugMsg flag m l ++ rest) (h1 : m = [] ∨ a1 = true) (h2 : l = [] ∨ a2 = true) :
    ∃ ev, doDebug mem len 0 a1 a2 = some ⟨none, (debugMsg flag m l).length, ev,
      if flag ≠ 0 then some (if l = [] then none else some (l.takeWhile (· ≠ 0)), if m = [] then none else some (m.takeWhile (· ≠ 0)))
      else none⟩ ∧ Balanced ev := by
  rcases debug_cases a1 a2 hl hw with ⟨hno, _⟩ | ⟨f, m', l', r', hm, hc⟩
  · exact absurd h (hno _ _ _ _)
  · have htl : (mem.take len).length = len := by rw [List.length_take]; omega
    rw [h] at hm
    obtain ⟨rfl, rfl, rfl, rfl⟩ := debugMsg_inj (by rw [← h, htl]; exact hw) hm
    rcases hc with ⟨hbad, _⟩ | ⟨_, ev, he, hb⟩
    · rcases hbad with ⟨b1, b2⟩ | ⟨b1, b2⟩
      · rcases h1 with h1 | h1
        · exact absurd h1 b1
        · rw [b2] at h1; cases h1
      · rcases h2 with h2 | h2
        · exact absurd h2 b1
        · rw [b2] at h2; cases h2
    · refine ⟨ev, ?_, hb⟩
      rw [he]
      have e : ∀ s : Bytes, (textOf s).map cstr = if s = [] then none else some (s.takeWhile (· ≠ 0)) := by
        intro s; unfold textOf; split <;> rfl
      rw [e, e]

/-- C144, "debug": any other payload is refused, and so is one for which memory is missing. The cursor stays, nothing is logged,
and what memory was given is given back once. -/
theorem C144_debug_refused (a1 a2 : Bool) (hl : len ≤ mem.length) (hw : len < 2 ^ 32)
    (h : ∀ flag m l rest, mem.take len = debugMsg flag m l ++ rest → (m ≠ [] ∧ a1 = false) ∨ (l ≠ [] ∧ a2 = false)) :
    ∃ e ev, doDebug mem len 0 a1 a2 = some ⟨some e, 0, ev, none⟩ ∧ Balanced ev ∧
      (e = .badArgument ∨ e = .bufferE ∨ (e = .memory ∧ (a1 = false ∨ a2 = false))) := by
  rcases debug_cases a1 a2 hl hw with ⟨_, e, ev, he, hb, hc⟩ | ⟨f, m', l', r', hm, hc⟩
  · refine ⟨e, ev, he, hb, ?_⟩
    rcases hc with hc | hc | hc
    · exact Or.inl hc
    · exact Or.inr (Or.inl hc)
    · exact Or.inr (Or.inr ⟨hc.1, Or.inl hc.2⟩)
  · have hx := h _ _ _ _ hm
    rcases hc with ⟨_, ev, he, hb⟩ | ⟨⟨g1, g2⟩, _⟩
    · refine ⟨.memory, ev, he, hb, Or.inr (Or.inr ⟨rfl, ?_⟩)⟩
      rcases hx with hx | hx
      · exact Or.inl hx.2
      · exact Or.inr hx.2
    · exfalso
      rcases hx with ⟨x1, x2⟩ | ⟨x1, x2⟩
      · rcases g1 with g1 | g1
        · exact x1 g1
        · rw [x2] at g1; cases g1
      · rcases g2 with g2 | g2
        · exact x1 g2
        · rw [x2] at g2; cases g2

/-- A debug message "hi" in "en": logged, two allocations, two releases. With no memory for the language the text is released. -/
example : doDebug [1, 0,0,0,2, 0x68,0x69, 0,0,0,2, 0x65,0x6e, 9] 14 0 true true =
    some ⟨none, 13, [.alloc .msg 3, .alloc .lang 3, .free .msg, .free .lang], some (some [0x65,0x6e], some [0x68,0x69])⟩ := by
  decide +kernel
example : doDebug [1, 0,0,0,2, 0x68,0x69, 0,0,0,2, 0x65,0x6e, 9] 14 0 true false =
    some ⟨some .memory, 0, [.alloc .msg 3, .free .msg], none⟩ := by decide +kernel
example : [1, 0,0,0,2, 0x68,0x69, 0,0,0,2, 0x65,0x6e, 9] = debugMsg 1 [0x68,0x69] [0x65,0x6e] ++ [9] := by decide +kernel
example : doDebug [1, 0,0,0,2, 0x68,0x69, 0,0,0,3, 0x65,0x6e] 13 0 true true =
    some ⟨some .bufferE, 0, [.alloc .msg 3, .free .msg], none⟩ := by decide +kernel
example : doDisconnect [0,0,0,11, 0,0,0,1,0x78, 0,0,0,0] 13 0 none = some ⟨some .disconnect, 13, some .disconnect⟩ := by decide +kernel
example : doDisconnect [0,0,0,11, 0,0,0,9,0x78, 0,0,0,0] 13 0 none = some ⟨some .bufferE, 0, none⟩ := by decide +kernel

/-! ## C145: what is sent -/

/-- C145, except that `wolfSSH_SendIgnore` drops the bytes of its caller (`C145_ignore_data`): the four messages are sent in the form of RFC 4253, and room was made for just what is written: sizes add up unless they
exceed 32 bits. -/
theorem C145_partial (reason seq : Nat) (data : Bytes) (always : Byte) (msg : Option Bytes) :
    (disconnect reason).2 = 1 :: disconnectMsg reason [] [] ∧ (disconnect reason).1 = (disconnect reason).2.length ∧
    (unimplemented seq).2 = 3 :: unimplementedMsg seq ∧ (unimplemented seq).1 = (unimplemented seq).2.length ∧
    (ignore data).2 = 2 :: ignoreMsg data ∧ (data.length + 5 < 2 ^ 32 → (ignore data).1 = (ignore data).2.length) ∧
    (debug always msg).2 = 4 :: debugMsg (if always ≠ 0 then 1 else 0) (msg.getD []) [0x65, 0x6e, 0x2d, 0x75, 0x73] ∧
    ((msg.getD []).length + 15 < 2 ^ 32 → (debug always msg).1 = (debug always msg).2.length) := by
  have ha : asc "en-us" = [0x65, 0x6e, 0x2d, 0x75, 0x73] := by decide +kernel
  have hif : ∀ d : Bytes, (if 0 < d.length then d else []) = d := by intro d; cases d <;> simp
  refine ⟨?_, ?_, ?_, ?_, ?_, ?_, ?_, ?_⟩
  · simp [disconnect, disconnectMsg, c32toa_enc, encString, MSGID_DISCONNECT]
  · simp [disconnect, c32toa]
  · simp [unimplemented, unimplementedMsg, c32toa_enc, MSGID_UNIMPLEMENTED]
  · simp [unimplemented, c32toa]
  · simp [ignore, ignoreMsg, c32toa_enc, encString, MSGID_IGNORE, hif]
  · intro h; simp only [ignore, hif, add32, c32toa, List.length_cons, List.length_append, List.length_nil]; omega
  · simp [debug, debugMsg, c32toa_enc, encString, MSGID_DEBUG, ha, hif]
  · intro h
    simp only [debug, hif, add32, c32toa, ha, List.length_cons, List.length_append, List.length_nil]
    omega

/-- C145, the other side: what one end sends, the other takes in whole. A disconnect ends the session there, the data ignored and
the numbers are skipped, and the text of a debug message without NUL is shown as it was given, if and only if it was to be. -/
theorem C145_received (reason seq : Nat) (data : Bytes) (always : Byte) (m : Bytes) (error : Ret) (hr : reason < 2 ^ 32)
    (hs : seq < 2 ^ 32) (hd : data.length + 5 < 2 ^ 32) (hm : m.length + 15 < 2 ^ 32) (h0 : 0 ∉ m) (hne : m ≠ []) :
    (let p := (disconnect reason).2.tail
     doDisconnect p p.length 0 error = some ⟨some .disconnect, p.length, some .disconnect⟩) ∧
    (let p := (unimplemented seq).2.tail
     doUnimplemented p p.length 0 = .ok () p.length) ∧
    (let p := (ignore data).2.tail
     doIgnore p p.length 0 = .ok () p.length) ∧
    (let p := (debug always (some m)).2.tail
     ∃ ev, doDebug p p.length 0 true true =
       some ⟨none, p.length, ev, if always ≠ 0 then some (some [0x65, 0x6e, 0x2d, 0x75, 0x73], some m) else none⟩ ∧ Balanced ev) := by
  obtain ⟨e1, _, e2, _, e3, _, e4, _⟩ := C145_partial reason seq data always (some m)
  rw [e1, e2, e3, e4]
  simp only [List.tail_cons, Option.getD_some]
  refine ⟨?_, ?_, ?_, ?_⟩
  · have hlen : (disconnectMsg reason [] []).length = 12 := rfl
    obtain ⟨o, ho, hc⟩ := C144 (mem := disconnectMsg reason [] []) (len := (disconnectMsg reason [] []).length) error
      (Nat.le_refl _) (by rw [hlen]; omega)
    rw [ho]
    rw [List.take_length] at hc
    rcases hc with ⟨reason', text, lang, rest, hr', he, rfl⟩ | ⟨hno, _⟩
    · have h2 := congrArg List.length he
      rw [hlen] at h2
      have h3 : (disconnectMsg reason' text lang).length = 12 := by
        rw [List.length_append] at h2
        simp only [disconnectMsg, List.length_append, enc_length] at h2 ⊢
        have : (encUint32 reason').length = 4 := rfl
        omega
      simp only [hlen, h3]
    · exact absurd (by simp) (hno reason [] [] [] hr)
  · have h : doUnimplemented (unimplementedMsg seq) (unimplementedMsg seq).length 0 = .ok () (unimplementedMsg seq).length := by
      rcases C144_unimplemented (mem := unimplementedMsg seq) (len := (unimplementedMsg seq).length) (Nat.le_refl _)
        (by have : (unimplementedMsg seq).length = 4 := rfl
            omega) with ⟨s', r, _, _, h⟩ | ⟨hno, _⟩
      · rw [h]; rfl
      · exact absurd (by simp) (hno seq [] hs)
    exact h
  · have hl : (ignoreMsg data).length = data.length + 4 := enc_length data
    rcases C144_ignore (mem := ignoreMsg data) (len := (ignoreMsg data).length) (Nat.le_refl _) (by omega)
      with ⟨d', r, he, h⟩ | ⟨hno, _⟩
    · rw [h]
      rw [List.take_length] at he
      have h2 := congrArg List.length he
      rw [List.length_append, hl] at h2
      have hl' : (ignoreMsg d').length = d'.length + 4 := enc_length d'
      have := encString_inj (s := data) (s' := d') (r := []) (r' := r) (by omega) (by omega) (by simpa [ignoreMsg] using he)
      rw [this.1]
    · exact absurd (by simp) (hno data [])
  · have hl : ∀ f : Byte, (debugMsg f m [0x65, 0x6e, 0x2d, 0x75, 0x73]).length = m.length + 14 := by
      intro f; simp [debugMsg, enc_length]
    obtain ⟨ev, he, hb⟩ := C144_debug (mem := debugMsg (if always ≠ 0 then 1 else 0) m [0x65, 0x6e, 0x2d, 0x75, 0x73])
      (len := (debugMsg (if always ≠ 0 then 1 else 0) m [0x65, 0x6e, 0x2d, 0x75, 0x73]).length) true true (Nat.le_refl _)
      (by rw [hl]; omega) (if always ≠ 0 then 1 else 0) m [0x65, 0x6e, 0x2d, 0x75, 0x73] [] (by simp) (Or.inr rfl) (Or.inr rfl)
    refine ⟨ev, ?_, hb⟩
    rw [he]
    have ht : m.takeWhile (· ≠ 0) = m := takeWhile_self m h0
    have hlt : ([0x65, 0x6e, 0x2d, 0x75, 0x73] : Bytes).takeWhile (· ≠ 0) = [0x65, 0x6e, 0x2d, 0x75, 0x73] := by decide +kernel
    rw [ht, hlt, if_neg hne]
    by_cases ha : always ≠ 0
    · simp [ha]
    · simp [ha]

/-- C145, a finding: `wolfSSH_SendIgnore` sends 128 zero bytes, whatever bytes it was given. -/
theorem C145_ignore_data (buf : Bytes) (e : SendEnv) (he : e.prep = none) :
    (sendIgnore buf e).2 = [.packet (2 :: ignoreMsg (List.replicate 128 0))] := by
  unfold sendIgnore sendPayload
  rw [if_neg (by simp [he]), (C145_partial 0 0 (List.replicate 128 0) 0 none).2.2.2.2.1]

/-- And `wolfSSH_SendDisconnect` sends the reason it was given, with no text. -/
theorem C145_disconnect (reason : Nat) (e : SendEnv) :
    sendDisconnect reason e = if e.prep = none then (e.sent, [.packet (1 :: disconnectMsg reason [] [])]) else (e.prep, []) := by
  unfold sendDisconnect sendPayload
  rw [(C145_partial reason 0 [] 0 none).1]
  by_cases h : e.prep = none <;> simp [h]

example : (debug 1 (some [0x68, 0x69])).2 = [4, 1, 0,0,0,2, 0x68,0x69, 0,0,0,5, 0x65,0x6e,0x2d,0x75,0x73] := by decide +kernel
example : ¬ (0 : UInt8) ∈ [0x68, 0x69] := by decide
example : (ignore [7, 8]) = (7, [2, 0,0,0,2, 7, 8]) := by decide +kernel

end Props.TransMsg
