import Verif.Proofs.SftpPaths
/-! READ, WRITE, REALPATH. -/

namespace Proofs.Sftp
open Wolf Wolf.Wire Wolf.Buffer Wolf.Sftp Wolf.NameList Spec.Wire Spec.Sftp Spec.Path Proofs.Exchange Props.Wire Proofs.Path

variable {E : Env} {s : Sess} {d j : Option (List Bytes)}

theorem shift_or (hi lo : Nat) (h : lo < 2 ^ 32) : (hi <<< 32) ||| lo = hi * 2 ^ 32 + lo := by
  rw [Nat.shiftLeft_eq, Nat.mul_comm, Nat.two_pow_add_eq_or_of_lt h]

theorem resolveOffset_eq (hi lo : Nat) (h : lo < 2 ^ 32) :
    resolveOffset (lo, hi) = if hi * 2 ^ 32 + lo ≤ maxOff then some (hi * 2 ^ 32 + lo) else none := by
  unfold resolveOffset maxOff
  simp only [shift_or hi lo h]
  by_cases h' : hi * 2 ^ 32 + lo > 0x7FFFFFFFFFFFFFFF
  · rw [if_pos h', if_neg (by omega)]
  · rw [if_neg h', if_pos (by omega)]

/-- A reply in the memory for the data, or in new memory. -/
def readAns (E : Env) (s : Sess) (calls : List Posix.Call) (id n : Nat) (r : Reply) (ret : Option Err) : Out :=
  if mem E r || decide (r.body.length ≤ n + 4) then ⟨ret, s, calls, some (r.packet id)⟩ else ⟨some .memory, s, calls, none⟩

theorem readStatus_some (hE : Good E) (calls : List Posix.Call) (st id : Nat) (msg : Bytes) (ret : Option Err)
    (out : Bytes) (n : Nat) (hm : msg.length < 1000) (ho : out.length = n + HEADER + 4) :
    readStatus E s calls st id msg ret (some out) (n + HEADER + 4) = some (readAns E s calls id n (said st msg) ret) := by
  rw [readStatus_eq hE s calls st id msg ret (some out) _ hm (fun o h => by cases h; exact ho)]
  unfold readAns said
  have : decide (statusSz msg english ≤ n + HEADER + 4) = decide ((Reply.status st msg english).body.length ≤ n + 4) := by
    rw [decide_eq_decide, statusSz_eq st]; unfold HEADER; omega
  rw [this]
  rfl

/-- The data of READ. -/
theorem dataPacket (id : Nat) (hid : s.reqId = id) (out dat : Bytes) (n : Nat) (hd : dat.length ≤ n) (hn : n ≤ 32768)
    (ho : out.length = n + HEADER + 4) :
    ∃ out1, write out 13 dat = some out1 ∧ out1.length = n + HEADER + 4 ∧
      ∃ out2, createPacket s FTP_DATA out1 (dat.length + HEADER + 4) none = some (.ok out2) ∧
      Buffer.read out2 0 (dat.length + HEADER + 4) = some ((Reply.data dat).packet id) := by
  subst hid
  unfold HEADER at *
  refine ⟨out.take 13 ++ dat ++ out.drop (13 + dat.length), by unfold write; rw [if_pos (by omega)], by simp; omega, ?_⟩
  obtain ⟨rest, h1, h2⟩ := createPacket_eq s FTP_DATA (out.take 13 ++ dat ++ out.drop (13 + dat.length)) (dat.length + 9 + 4) (by omega)
    (by simp; omega) (by omega)
  refine ⟨_, h2, ?_⟩
  have hrest : rest = dat ++ out.drop (13 + dat.length) := by
    rw [h1, List.append_assoc, List.drop_append, List.drop_eq_nil_of_le (by simp; omega)]
    simp only [List.length_take, List.nil_append, show min 13 out.length = 13 by omega]
    rfl
  have hb : (Reply.data dat).body.length = dat.length + 4 := by simp [Reply.body, encString, enc32_length]; omega
  have hp : (Reply.data dat).packet s.reqId = hdr s.reqId FTP_DATA (dat.length + 9 + 4 - 9) ++ encUint32 (dat.length + 9 + 4 - 13) ++ dat := by
    rw [packet_eq, hb, show dat.length + 9 + 4 - 9 = dat.length + 4 by omega, show dat.length + 9 + 4 - 13 = dat.length by omega]
    simp [Reply.body, Reply.type, encString, FTP_DATA]
  have hl : ((Reply.data dat).packet s.reqId).length = dat.length + 9 + 4 := by rw [packet_length, hb]; omega
  rw [hrest, ← List.append_assoc, ← hp]
  unfold Buffer.read
  rw [if_pos (by simp [hl])]
  simp only [List.drop_zero]
  rw [List.take_append_of_le_length (by omega), List.take_of_length_le (by omega)]

theorem read_eq (hE : Good E) (hi : Ids s) (id : Nat) (hid : s.reqId = id) (data : Bytes) (hw : data.length < 2 ^ 32) :
    recvRead E s id data data.length = some (match string data with
      | none => stop s .bufferE
      | some (h, rest) => match fileOf s h with
        | none => ans E s [] id (said 4 (asc "Read File Error")) (some .badFile)
        | some f => match uint64 rest with
          | none => stop s .bufferE
          | some (off, rest) => match uint32 rest with
            | none => stop s .bufferE
            | some (n, _) => if n > 32768 then stop s .bufferE
              else if E.alloc (n + 13) = none then stop s .memory
              else if off ≤ maxOff then match E.pread n with
                  | none => readAns E s [.pread f.fd n off none] id n (said 4 (asc "Read File Error")) (some .badFile)
                  | some [] => readAns E s [.pread f.fd n off (some [])] id n (said 1 (asc "Read EOF")) none
                  | some (b :: l) => ⟨none, s, [.pread f.fd n off (some (b :: l))], some ((Reply.data (b :: l)).packet id)⟩
                else readAns E s [] id n (said 4 (asc "Read File Error")) (some .badFile)) := by
  unfold recvRead
  rcases str0 data hw with ⟨e, i, h1, h2⟩ | ⟨h, i, h1, h2, h3⟩
  · simp only [h1, h2]
  simp only [h1, h3]
  have hst := readStatus_eq hE s [] FTP_FAILURE id (asc "Read File Error") (some .badFile) none 0 (by decide) (fun o h => by cases h)
  have hst' : readStatus E s [] FTP_FAILURE id (asc "Read File Error") (some .badFile) none 0 =
      some (ans E s [] id (said 4 (asc "Read File Error")) (some .badFile)) := by
    rw [hst]; simp only [Option.isSome_none, Bool.false_and, Bool.or_false]; rfl
  by_cases hl : h.length = 8
  · rw [if_neg (by rw [hl]; decide)]
    obtain ⟨k, e1, e2, e3⟩ := decodeId_some hl
    simp only [e1, findFile_eq hi e2 e3]
    cases fileOf s h with
    | none => exact hst'
    | some f =>
      simp only [readFile]
      rcases optPair_cases (mem' := data) true i h2 (Nat.le_refl _) hw with ⟨e, k, g1, _, _, g4⟩ | ⟨v, k, g1, g2, g5, g6, g3, _⟩
      · simp only [g1, g4]
      · simp only [g1, (g3 rfl).2]
        rcases Proofs.Reader.u32 (mem := data) k (Nat.le_refl _) hw with ⟨e, l, f1, f2⟩ | ⟨n, l, f1, f2, f3, f4⟩
        · simp only [f1, f2]
        · simp only [f1, f4, show MAX_RW = 32768 from rfl]
          by_cases hn : n > 32768
          · rw [if_pos hn, if_pos hn]
          rw [if_neg hn, if_neg hn]
          rw [show n + HEADER + 4 = n + 13 from rfl]
          cases ha : E.alloc (n + 13) with
          | none => simp
          | some out =>
            have hol : out.length = n + HEADER + 4 := hE.alloc _ _ ha
            simp only [wPread, resolveOffset_eq _ _ g6]
            by_cases ho : v.1 * 2 ^ 32 + v.2 ≤ maxOff
            · simp only [if_pos ho]
              cases hp : E.pread n with
              | none => exact readStatus_some hE _ _ _ _ _ _ _ (by decide) hol
              | some dat =>
                have hdl := hE.pread _ _ hp
                obtain ⟨o1, k1, k2, o2, k3, k4⟩ := dataPacket id hid out dat n hdl (by omega) hol
                simp only [k1]
                rw [if_neg (by omega)]
                cases dat with
                | nil => exact readStatus_some hE _ _ _ _ _ _ _ (by decide) k2
                | cons b l =>
                  rw [if_neg (by simp)]
                  simp only [k3, k4]
                  rfl
            · simp only [if_neg ho]
              exact readStatus_some hE _ _ _ _ _ _ _ (by decide) hol
  · rw [if_pos (show h.length ≠ HANDLE_ID_SZ from hl), fileOf_short hl]
    exact hst'

/-- The result of WRITE. -/
def writeAns (E : Env) (s : Sess) (id fd : Nat) (dat : Bytes) (off : Nat) : Out :=
  let w := writeLoop E fd dat (dat.length + 1) 0 0 (off % 2 ^ 32, off / 2 ^ 32) []
  if w.2.1 < 0 ∨ w.2.2 ≠ dat.length then ans E s w.1 id (said 4 (asc "Write File Error")) (some .invalidState)
  else ans E s w.1 id (said 0 (asc "Write File Success")) none

theorem write_eq (hE : Good E) (hi : Ids s) (id : Nat) (data : Bytes) (hw : data.length < 2 ^ 32) :
    recvWrite E s id data data.length = some (match string data with
      | none => ans E s [] id (said 4 (asc "Write File Error")) (some .bufferE)
      | some (h, rest) => match fileOf s h with
        | none => ans E s [] id (said 4 (asc "Write File Error")) (some .badFile)
        | some f => match uint64 rest with
          | none => stop s .bufferE
          | some (off, rest) => match string rest with
            | none => stop s .bufferE
            | some (dat, _) => writeAns E s id f.fd dat off) := by
  unfold recvWrite
  rcases str0 data hw with ⟨e, i, h1, h2⟩ | ⟨h, i, h1, h2, h3⟩
  · simp only [h1, h2]; exact finish' hE _ _ _ _ _ _ (by decide)
  simp only [h1, h3]
  by_cases hl : h.length = 8
  · rw [if_neg (by rw [hl]; decide)]
    obtain ⟨k, e1, e2, e3⟩ := decodeId_some hl
    simp only [e1, findFile_eq hi e2 e3]
    cases fileOf s h with
    | none => exact finish' hE _ _ _ _ _ _ (by decide)
    | some f =>
      simp only [writeFile]
      rcases optPair_cases (mem' := data) true i h2 (Nat.le_refl _) hw with ⟨e, k, g1, _, _, g4⟩ | ⟨v, k, g1, g2, g5, g6, g3, _⟩
      · simp only [g1, g4]
      · simp only [g1, (g3 rfl).2]
        rcases getStr_cases (mem' := data) k (Nat.le_refl _) hw with ⟨e, l, f1, f2⟩ | ⟨dat, l, f1, f2, f3⟩
        · simp only [f1, f2]
        · simp only [f1, f3, writeAns]
          rw [show (v.1 * 2 ^ 32 + v.2) % 2 ^ 32 = v.2 by omega, show (v.1 * 2 ^ 32 + v.2) / 2 ^ 32 = v.1 by omega]
          generalize writeLoop E f.fd dat (dat.length + 1) 0 0 (v.2, v.1) [] = w
          obtain ⟨calls, r, written⟩ := w
          simp only
          rw [finish' hE _ _ _ _ _ _ (by decide), finish' hE _ _ _ _ _ _ (by decide)]
          by_cases hc : r < 0 ∨ written ≠ dat.length
          · rw [if_pos hc, if_pos hc]; rfl
          · rw [if_neg hc, if_neg hc]; rfl
  · rw [if_pos (show h.length ≠ HANDLE_ID_SZ from hl), fileOf_short hl]
    exact finish' hE _ _ _ _ _ _ (by decide)

/-! ## The contents of a file -/

theorem applyCall_pwrite (fd : Nat) (f : Nat → Option UInt8) (d : Bytes) (off : Nat) (res : Int) :
    applyCall fd f (.pwrite fd d off res) = store f off (d.take res.toNat) := if_pos rfl

theorem store_store (f : Nat → Option UInt8) (off a b : Nat) (d : Bytes) (ha : a ≤ d.length) (hb : a + b ≤ d.length) :
    store (store f off (d.take a)) (off + a) ((d.drop a).take b) = store f off (d.take (a + b)) := by
  funext i
  unfold store
  simp only [List.length_take, List.length_drop, show min a d.length = a by omega, show min b (d.length - a) = b by omega,
    show min (a + b) d.length = a + b by omega]
  by_cases h1 : off + a ≤ i ∧ i < off + a + b
  · rw [if_pos h1, if_pos (by omega), List.getElem?_take, List.getElem?_take, if_pos (by omega), if_pos (by omega), List.getElem?_drop]
    congr 1
    omega
  · rw [if_neg h1]
    by_cases h2 : off ≤ i ∧ i < off + a
    · rw [if_pos h2, if_pos (by omega), List.getElem?_take, List.getElem?_take, if_pos (by omega), if_pos (by omega)]
    · rw [if_neg h2, if_neg (by omega)]

theorem carry_ok (lo hi n off : Nat) (h1 : lo < 2 ^ 32) (h2 : hi * 2 ^ 32 + lo = off) (hn : n < 2 ^ 32) (ho : off ≤ maxOff) :
    (if add32 lo n < n then add32 hi 1 else hi) * 2 ^ 32 + add32 lo n = off + n ∧ add32 lo n < 2 ^ 32 := by
  have ho' : off < 2 ^ 63 := Nat.lt_of_le_of_lt ho (by decide)
  clear ho
  unfold add32
  split <;> omega

/-- A call on the descriptor `fd`: `pwrite`. -/
def isPwrite (fd : Nat) (c : Posix.Call) : Prop := ∃ dat off res, c = .pwrite fd dat off res

theorem writeLoop_spec (hE : Good E) (fd : Nat) (dat : Bytes) (off : Nat) (hd : dat.length < 2 ^ 32) : ∀ (fuel i written : Nat) (o : Nat × Nat)
    (calls : List Posix.Call), dat.length - written < fuel → written ≤ dat.length → o.1 < 2 ^ 32 → o.2 * 2 ^ 32 + o.1 = off + written →
    ∃ cs r w, writeLoop E fd dat fuel i written o calls = (calls ++ cs, r, w) ∧ written ≤ w ∧ w ≤ dat.length ∧
      (r < 0 → w < dat.length) ∧ (∀ c ∈ cs, isPwrite fd c) ∧
      ∀ f, cs.foldl (applyCall fd) (store f off (dat.take written)) = store f off (dat.take w) := by
  intro fuel
  induction fuel with
  | zero => intro i written o calls hf; omega
  | succ fuel ih =>
    intro i written o calls hf hwr ho1 ho2
    have hro : resolveOffset o = if off + written ≤ maxOff then some (off + written) else none := by
      rw [← ho2]; exact resolveOffset_eq o.2 o.1 ho1
    unfold writeLoop
    by_cases hlt : written < dat.length
    · rw [if_pos hlt]
      simp only [wPwrite, hro]
      by_cases hm : off + written ≤ maxOff
      · simp only [if_pos hm]
        have hle := hE.pwrites i (dat.drop written).length
        rw [List.length_drop] at hle ⊢
        generalize hr : E.pwrites i (dat.length - written) = r at hle ⊢
        by_cases h0 : r ≤ 0
        · rw [if_pos h0]
          refine ⟨_, _, _, rfl, Nat.le_refl _, hwr, fun _ => hlt, ?_, ?_⟩
          · intro c hc
            simp only [List.mem_singleton] at hc
            exact ⟨_, _, _, hc⟩
          · intro f
            have ht : r.toNat = 0 := by omega
            simp only [List.foldl_cons, List.foldl_nil, applyCall_pwrite, ht, List.take_zero]
            funext k
            unfold store
            simp only [List.length_nil, Nat.add_zero]
            rw [if_neg (by omega)]
        · rw [if_neg h0]
          have hn : r.toNat ≤ dat.length - written := by omega
          have hn0 : 0 < r.toNat := by omega
          obtain ⟨c1, c2⟩ := carry_ok o.1 o.2 r.toNat _ ho1 ho2 (by omega) hm
          have hadd : add32 written r.toNat = written + r.toNat := by unfold add32; omega
          rw [hadd]
          obtain ⟨cs, r', w, e1, e2, e3, e4, e5, e6⟩ := ih (i + 1) (written + r.toNat)
            (add32 o.1 r.toNat, if add32 o.1 r.toNat < r.toNat then add32 o.2 1 else o.2)
            (calls ++ [Posix.Call.pwrite fd (dat.drop written) (off + written) r]) (by omega) (by omega) c2 (by rw [c1]; omega)
          refine ⟨Posix.Call.pwrite fd (dat.drop written) (off + written) r :: cs, r', w, by simpa using e1, by omega, e3, e4, ?_, ?_⟩
          · intro c hc
            rcases List.mem_cons.1 hc with rfl | hc
            · exact ⟨_, _, _, rfl⟩
            · exact e5 c hc
          · intro f
            rw [List.foldl_cons]
            have : applyCall fd (store f off (dat.take written)) (Posix.Call.pwrite fd (dat.drop written) (off + written) r) =
                store f off (dat.take (written + r.toNat)) := by
              rw [applyCall_pwrite]
              exact store_store f off written r.toNat dat hwr (by omega)
            rw [this]
            exact e6 f
      · simp only [if_neg hm]
        rw [if_pos (by decide)]
        exact ⟨[], -1, written, rfl, Nat.le_refl _, hwr, fun _ => hlt, by simp, fun f => rfl⟩
    · rw [if_neg hlt]
      exact ⟨[], 0, written, by simp, Nat.le_refl _, hwr, fun h => absurd h (by decide), by simp, fun f => rfl⟩

/-! ## REALPATH -/

theorem canonicalize_render (cwd : Option Bytes) (cs : List Bytes) (hcs : ∀ c ∈ cs, Spec.Path.Name c) (hl : (render cs).length < 256) :
    Path.canonicalizePath cwd (render cs) = some (.ok (render cs)) := by
  unfold Path.canonicalizePath
  dsimp only
  have hO : (List.replicate Path.MAX_FILENAME (0 : Byte)).length = 256 := List.length_replicate
  rw [if_neg (by unfold Path.MAX_FILENAME; omega), getD_relative]
  obtain ⟨p, hp⟩ := render_cons cs
  have hrel : relative (render cs) = false := by rw [hp]; cases p <;> simp [relative, isSep]
  rw [hrel]
  simp only [Bool.false_eq_true, if_false]
  have h1 := realPath_cases none (render cs) (List.replicate Path.MAX_FILENAME 0) (by intro _ h; cases h) (render_no_zero hcs)
    (by omega) (by omega)
  have hst : start ((none : Option (List Bytes)).getD []) (render cs) = [] := by rw [hp]; exact start_abs _ _
  rw [hst] at h1
  obtain ⟨mem, cur, e, hh⟩ := h1.1 (by intro k; rw [hO, hp]; exact absolute_fits p 256 (by rw [← hp]; exact hl) k (by omega))
  rw [Option.map_none] at e
  rw [e]
  dsimp only
  rw [hh.str_eq, components_render cs hcs, resolve_id cs [] hcs]
  rfl

theorem realStart_eq (hE : Good E) (hs : Dirs s d j) :
    (∃ cs, startDir d E.cwd = some cs ∧ cwdShort d E.cwd ∧ (∀ c ∈ cs, Spec.Path.Name c) ∧ realStart E s = some (.ok (render cs))) ∨
    (¬ (startDir d E.cwd ≠ none ∧ cwdShort d E.cwd) ∧ realStart E s = some (.error .invalidPath)) := by
  unfold realStart
  rw [hs.default]
  cases hd : d with
  | some cs => exact .inl ⟨cs, rfl, fun h => (nomatch h), hs.dNames cs hd, rfl⟩
  | none =>
    simp only [Option.map_none]
    cases hc : E.cwd with
    | none => exact .inr ⟨fun h => h.1 rfl, rfl⟩
    | some w =>
      simp only
      have h1 := realPath_cases none w E.stack (by intro _ h; cases h) (hE.cwd w hc) (by rw [hE.stack]; omega) (by rw [hE.stack]; omega)
      have hst : start ((none : Option (List Bytes)).getD []) w = [] := by unfold start; split <;> rfl
      rw [hst, Option.map_none] at h1
      by_cases hf : ∀ k, fit E.stack.length (resolve [] ((components w).take k))
      · obtain ⟨mem, cur, e, hh⟩ := h1.1 hf
        have hfit := hh.fits
        rw [hE.stack] at hfit
        left
        refine ⟨resolve [] (components w), rfl, ?_, hh.names, ?_⟩
        · intro _ w' hw' k
          cases hw'
          have := hf k
          rwa [hE.stack] at this
        · rw [e]
          simp only
          rw [hh.str_eq]
          exact canonicalize_render _ _ hh.names hfit
      · obtain ⟨mem, _, e⟩ := h1.2 hf
        right
        refine ⟨?_, by rw [e]⟩
        rintro ⟨_, h⟩
        refine hf fun k => ?_
        have := h rfl w rfl k
        unfold fit
        rwa [hE.stack]

open Classical in
theorem realpath_eq (hE : Good E) (hs : Dirs s d j) (id : Nat) (data : Bytes) (hw : data.length < 2 ^ 32) :
    recvRealPath E s id data data.length = some (match string data with
      | none => stop s .bufferE
      | some (p, _) => if p.length ≥ 256 then stop s .bufferE
        else match (if cwdShort d E.cwd then startDir d E.cwd else none) with
          | none => ans E s (realCalls E s) id (said 4 (asc "Directory error")) (some .invalidPath)
          | some cs => if Short (some cs) p then
              (if mem E (.names [(render (target (some cs) p), render (target (some cs) p), {})]) ||
                  decide (25 + 2 * (render (target (some cs) p)).length ≤ data.length) then
                ⟨none, { s with default := some (render cs) }, realCalls E s,
                  some ((Reply.names [(render (target (some cs) p), render (target (some cs) p), {})]).packet id)⟩
              else ⟨some .memory, { s with default := some (render cs) }, realCalls E s, none⟩)
            else ⟨some .invalidPath, { s with default := some (render cs) }, realCalls E s, none⟩) := by
  unfold recvRealPath
  rcases str0 data hw with ⟨e, i, h1, h2⟩ | ⟨p, i, h1, h2, h3⟩
  · simp only [h1, h2]
  simp only [h1, h3, show Path.MAX_FILENAME = 256 from rfl]
  by_cases hp : p.length ≥ 256
  · rw [if_pos hp, if_pos hp]
  rw [if_neg hp, if_neg hp]
  rcases realStart_eq hE hs with ⟨cs, g1, g2, g3, g4⟩ | ⟨g1, g2⟩
  · simp only [g4, if_pos g2, g1]
    have hr := realPath_cases (some cs) (Path.str p) E.stack (by intro x h; cases h; exact g3) (str_no_zero p)
      (by rw [hE.stack]; omega) (by rw [hE.stack]; omega)
    rw [Option.map_some] at hr
    by_cases hsh : Short (some cs) p
    · rw [if_pos hsh]
      obtain ⟨_, hf⟩ := (short_fit hE (some cs) p).1 hsh
      obtain ⟨m, cur, e, hh⟩ := hr.1 hf
      have hfit := hh.fits
      rw [hE.stack] at hfit
      rw [e]
      simp only
      rw [hh.str_eq, realReply_eq hE id _ data hfit]
      show _ = some (if mem E (.names [(render (target (some cs) p), render (target (some cs) p), {})]) ||
                  decide (25 + 2 * (render (target (some cs) p)).length ≤ data.length) then _ else _)
      have ht : target (some cs) p = resolve (start ((some cs).getD []) (Path.str p)) (components (Path.str p)) := rfl
      rw [ht]
      by_cases hb : (mem E (.names [(render (resolve (start ((some cs).getD []) (Path.str p)) (components (Path.str p))),
          render (resolve (start ((some cs).getD []) (Path.str p)) (components (Path.str p))), {})]) ||
          decide (25 + 2 * (render (resolve (start ((some cs).getD []) (Path.str p)) (components (Path.str p)))).length ≤ data.length)) = true
      · rw [if_pos hb, if_pos hb]
      · rw [if_neg hb, if_neg hb]
    · rw [if_neg hsh]
      obtain ⟨m, _, e⟩ := hr.2 fun hf => hsh ((short_fit hE (some cs) p).2 ⟨by omega, hf⟩)
      rw [e]
  · simp only [g2]
    have : (if cwdShort d E.cwd then startDir d E.cwd else none) = none := by
      by_cases hc : cwdShort d E.cwd
      · rw [if_pos hc]
        cases hx : startDir d E.cwd with
        | none => rfl
        | some cs => exact absurd (And.intro (by rw [hx]; exact fun h => nomatch h) hc) g1
      · rw [if_neg hc]
    rw [this]
    exact finish' hE _ _ _ _ _ _ (by decide)

end Proofs.Sftp
