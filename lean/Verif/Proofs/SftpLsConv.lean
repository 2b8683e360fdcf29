import Verif.Proofs.SftpLs
/-! # Listing a directory: with a server that answers -/

namespace Proofs.SftpLs
open Wolf Wolf.Wire Wolf.Sftp Wolf.SftpClient Wolf.SftpLs Proofs.SftpLoop Proofs.SftpClient Proofs.SftpOps
open Spec.Wire Spec.Sftp
open Spec.SftpLs (Dir next seen Again Quiet Request)

theorem again_keep {err : Ret} (h : Again err) : keep err = true := by
  rcases h with rfl | rfl | rfl <;> decide

theorem again_notice {err : Ret} (h : Again err) : notice err = true := by
  rcases h with rfl | rfl | rfl <;> decide

theorem next_lt (id : Nat) : next id < 2 ^ 32 := Nat.mod_lt _ (Nat.two_pow_pos 32)

/-! ## Names -/

/-- On the way to reading names. -/
def NameC (L : List (Bytes × Bytes × Attrs)) (id : Nat) (R : Bytes) (c : Chan) : Nm → Prop
  | .head got => c.reqId = id ∧ got ++ c.inp = (Reply.names L).packet id ++ R ∧ got.length < 9
  | .body sz got => c.reqId = next id ∧ sz = (Reply.names L).body.length ∧ got ++ c.inp = (Reply.names L).body ++ R ∧ got.length < sz
  | .status _ _ => False

def NameCR (ev : Ev) (L : List (Bytes × Bytes × Attrs)) (id : Nat) (R : Bytes) : Chan × Named → Prop
  | (c, .more s) => NameC L id R c s
  | (c, .null s) => Quiet ev → Again c.err ∧ NameC L id R c s
  | (c, .names l) => c.reqId = next id ∧ c.inp = R ∧ l.map seen = L.reverse
  | (_, .ub) => False

theorem nameStep_names {L : List (Bytes × Bytes × Attrs)} {id : Nat} {R : Bytes} (h0 : L ≠ []) (hl : (Reply.names L).body.length ≤ 2 ^ 20)
    (hf : ∀ n ∈ L, n.2.2.Fits) (hid : id < 2 ^ 32) (k : Nat) (err : Ret) {c : Chan} {s : Nm} (h : NameC L id R c s) :
    NameCR (.read k err) L id R (nameStep k err c s) := by
  have hb : 0 < (Reply.names L).body.length := by simp [Reply.body, enc_len]; omega
  cases s with
  | status => exact h.elim
  | head got =>
    obtain ⟨hi, h1, h2⟩ := h
    simp only [nameStep]
    rw [reply_eq, List.append_assoc] at h1
    have hall := fun hk g => header_all (got' := g) k err h1 h2 hb (by omega) hid hk
    rcases getHeader_of k err h1 h2 hb (by omega) hid with h | ⟨got', inp', h, h4, h5⟩
    · rw [h]
      simp only [Reply.type, show (104 : UInt8).toNat = 104 from rfl]
      rw [if_neg (by unfold MAX_NAME; omega), if_neg (by simp [hi]), if_pos True.intro]
      exact ⟨by show add32 c.reqId 1 = _; rw [hi]; rfl, rfl, rfl, hb⟩
    · rw [h] at hall ⊢
      have hw : Quiet (.read k err) → Again err := by
        rintro (hw | hk)
        · exact hw
        · exact (hall hk got' rfl).elim
      simp only [noHeader]
      by_cases hn : notice err = true
      · rw [if_pos hn]
        refine fun hq => ⟨hw hq, hi, ?_, h5⟩
        show got' ++ inp' = _
        rw [reply_eq, List.append_assoc]; exact h4
      · rw [if_neg hn]
        exact fun hq => absurd (again_notice (hw hq)) hn
  | body sz got =>
    obtain ⟨hi, rfl, h3, h4⟩ := h
    simp only [nameStep]
    have hall := fun hk => bufRead_all k err h3 (Nat.le_of_lt h4) hk
    rcases bufRead_of k err h3 (Nat.le_of_lt h4) with h | ⟨got', inp', h, h5, h6⟩
    · rw [h]
      simp only [if_true]
      obtain ⟨l, e, hs⟩ := takeNames_of { c with inp := R, err := err } L h0 hl hf
      rw [e]
      exact ⟨hi, rfl, hs⟩
    · rw [h] at hall ⊢
      simp only [Bool.false_eq_true, if_false]
      intro hq
      have hw : Again err := by
        rcases hq with hw | hk
        · exact hw
        · exact nomatch (hall (by omega))
      rw [if_pos (again_notice hw)]
      exact ⟨hw, hi, rfl, h5, h6⟩

/-- On the way to reading the status behind the names. -/
def StopC (P : Reply) (id : Nat) (R : Bytes) (c : Chan) : Nm → Prop
  | .head got => c.reqId = id ∧ got ++ c.inp = P.packet id ++ R ∧ got.length < 9
  | .status sz got => c.reqId = id ∧ sz = P.body.length ∧ got ++ c.inp = P.body ++ R ∧ got.length < sz
  | .body _ _ => False

def StopCR (ev : Ev) (P : Reply) (id : Nat) (R : Bytes) : Chan × Named → Prop
  | (c, .more s) => StopC P id R c s
  | (c, .null s) => Quiet ev → (Again c.err ∧ StopC P id R c s) ∨ (keep c.err = false ∧ c.reqId = id ∧ c.inp = R)
  | (_, .names _) => False
  | (_, .ub) => False

theorem nameStep_stop {code : Nat} {m l : Bytes} {id : Nat} {R : Bytes} (hc : 1 ≤ code ∧ code ≤ 8)
    (hl : (Reply.status code m l).body.length ≤ 2 ^ 20) (hid : id < 2 ^ 32) (k : Nat) (err : Ret) {c : Chan} {s : Nm}
    (h : StopC (.status code m l) id R c s) : StopCR (.read k err) (.status code m l) id R (nameStep k err c s) := by
  have hb : 0 < (Reply.status code m l).body.length := by simp [Reply.body, enc_len]; omega
  cases s with
  | body => exact h.elim
  | head got =>
    obtain ⟨hi, h1, h2⟩ := h
    simp only [nameStep]
    rw [reply_eq, List.append_assoc] at h1
    have hall := fun hk g => header_all (got' := g) k err h1 h2 hb (by omega) hid hk
    rcases getHeader_of k err h1 h2 hb (by omega) hid with h | ⟨got', inp', h, h4, h5⟩
    · rw [h]
      simp only [Reply.type, show (101 : UInt8).toNat = 101 from rfl]
      rw [if_neg (by unfold MAX_NAME; omega), if_neg (by simp [hi]), if_neg (by decide), if_pos True.intro]
      exact ⟨hi, rfl, rfl, hb⟩
    · rw [h] at hall ⊢
      have hw : Quiet (.read k err) → Again err := by
        rintro (hw | hk)
        · exact hw
        · exact (hall hk got' rfl).elim
      simp only [noHeader]
      by_cases hn : notice err = true
      · rw [if_pos hn]
        refine fun hq => .inl ⟨hw hq, hi, ?_, h5⟩
        show got' ++ inp' = _
        rw [reply_eq, List.append_assoc]; exact h4
      · rw [if_neg hn]
        exact fun hq => absurd (again_notice (hw hq)) hn
  | status sz got =>
    obtain ⟨hi, rfl, h3, h4⟩ := h
    simp only [nameStep]
    have hall := fun hk => bufRead_all k err h3 (Nat.le_of_lt h4) hk
    rcases bufRead_of k err h3 (Nat.le_of_lt h4) with h | ⟨got', inp', h, h5, h6⟩
    · rw [h]
      simp only [if_true]
      obtain ⟨i, e⟩ := doStatus_of code m l hc.2 (by omega)
      rw [e]
      have hf : FTP_OK = 0 := rfl
      simp only
      rw [if_neg (by omega)]
      exact fun _ => .inr ⟨rfl, hi, rfl⟩
    · rw [h] at hall ⊢
      simp only [Bool.false_eq_true, if_false]
      intro hq
      have hw : Again err := by
        rcases hq with hw | hk
        · exact hw
        · exact nomatch (hall (by omega))
      rw [if_pos (again_notice hw)]
      exact .inl ⟨hw, hi, rfl, h5, h6⟩

/-! ## The handle -/

def HandleC (H : Bytes) (id : Nat) (R : Bytes) (c : Chan) : Gh → Prop
  | .head got => c.reqId = id ∧ got ++ c.inp = (Reply.handle H).packet id ++ R ∧ got.length < 9
  | .handle sz got => c.reqId = next id ∧ sz = (encString H).length ∧ got ++ c.inp = encString H ++ R ∧ got.length < sz
  | .status _ _ => False

def HandleCR (ev : Ev) (H : Bytes) (id : Nat) (R : Bytes) : Chan × GhOut → Prop
  | (c, h, .more g) => HandleC H id R c g ∧ h.cap = 256 ∧ h.mem.length = 256
  | (c, h, .again g) => Quiet ev → Again c.err ∧ HandleC H id R c g ∧ h.cap = 256 ∧ h.mem.length = 256
  | (c, h, .ret (some _)) => c.reqId = next id ∧ c.inp = R ∧ h.handle = H
  | (_, _, .ret none) => ¬ Quiet ev
  | (_, _, .ub) => False

theorem ghStep_conv {H : Bytes} {id : Nat} {R : Bytes} (hH : H.length ≤ 256) (hid : id < 2 ^ 32) (k : Nat) (err : Ret) {c : Chan} {hd : Hd} {g : Gh}
    (h : HandleC H id R c g) (hc : hd.cap = 256) (hm : hd.mem.length = 256) : HandleCR (.read k err) H id R (ghStep k err c hd g) := by
  have hl : (encString H).length = H.length + 4 := by simp [encString, enc_len]; omega
  cases g with
  | status => exact h.elim
  | head got =>
    obtain ⟨hi, h1, h2⟩ := h
    simp only [ghStep]
    rw [reply_eq, List.append_assoc] at h1
    have hb : 0 < (Reply.handle H).body.length := by show 0 < (encString H).length; omega
    have hb' : (Reply.handle H).body.length < 2 ^ 31 := by show (encString H).length < _; omega
    have hall := fun hk g => header_all (got' := g) k err h1 h2 hb hb' hid hk
    rcases getHeader_of k err h1 h2 hb hb' hid with h | ⟨got', inp', h, h4, h5⟩
    · rw [h]
      simp only [Reply.type, show (102 : UInt8).toNat = 102 from rfl]
      rw [if_pos True.intro, if_neg (by simp [hi])]
      exact ⟨⟨by show add32 c.reqId 1 = _; rw [hi]; rfl, rfl, rfl, by show 0 < (encString H).length; omega⟩, hc, hm⟩
    · rw [h] at hall ⊢
      have hw : Quiet (.read k err) → Again err := by
        rintro (hw | hk)
        · exact hw
        · exact (hall hk got' rfl).elim
      simp only
      by_cases hn : notice err = true
      · rw [if_pos hn]
        refine fun hq => ⟨hw hq, ⟨hi, ?_, h5⟩, hc, hm⟩
        show got' ++ inp' = _
        rw [reply_eq, List.append_assoc]; exact h4
      · rw [if_neg hn]
        exact fun hq => absurd (again_notice (hw hq)) hn
  | handle sz got =>
    obtain ⟨hi, rfl, h3, h4⟩ := h
    simp only [ghStep]
    have hall := fun hk => bufRead_all k err h3 (Nat.le_of_lt h4) hk
    rcases bufRead_of k err h3 (Nat.le_of_lt h4) with h | ⟨got', inp', h, h5, h6⟩
    · rw [h]
      simp only [if_true]
      obtain ⟨hd', ht, hh⟩ := takeHandle_of hd H hH hc hm
      rw [ht]
      exact ⟨hi, rfl, hh⟩
    · rw [h] at hall ⊢
      simp only [Bool.false_eq_true, if_false]
      intro hq
      have hw : Again err := by
        rcases hq with hw | hk
        · exact hw
        · exact nomatch (hall (by omega))
      exact ⟨hw, ⟨hi, rfl, h5, h6⟩, hc, hm⟩

/-! ## Closing -/

def CloseC (H : Bytes) (P : Reply) (id : Nat) (B R : Bytes) (c : Chan) : Close → Prop
  | .send => c.reqId = id ∧ c.inp = P.packet id ++ R ∧ Part B (typePacket 4 id H) c
  | .head got => got ++ c.inp = P.packet id ++ R ∧ got.length < 9 ∧ c.out = B ++ typePacket 4 id H
  | .status sz got => sz = P.body.length ∧ got ++ c.inp = P.body ++ R ∧ got.length < sz ∧ c.out = B ++ typePacket 4 id H

def CloseCR (ev : Ev) (H : Bytes) (P : Reply) (id : Nat) (B R : Bytes) : Chan × Out Close Unit → Prop
  | (c, .more s) => Quiet ev → CloseC H P id B R c s
  | (c, .again s) => Quiet ev → Again c.err ∧ CloseC H P id B R c s
  | (c, .ret (some _)) => c.inp = R ∧ c.out = B ++ typePacket 4 id H
  | (_, .ret none) => ¬ Quiet ev
  | (_, .ub) => False

theorem sendType_ok {k : Nat} {err : Ret} {t : Byte} {buf : Bytes} {c c' : Chan} {o : Option Bool} (h : sendType (.ok k) err t buf c = (c', o)) :
    c'.err = err := by
  unfold sendType at h
  simp only at h
  split at h
  · cases h; rfl
  · cases h; rfl

theorem closeStep_conv {H : Bytes} {m l : Bytes} {id : Nat} {B R : Bytes} (hl : (Reply.status 0 m l).body.length < 2 ^ 31) (hid : id < 2 ^ 32)
    (ev : Ev) {c : Chan} {s : Close} (h : CloseC H (.status 0 m l) id B R c s) : CloseCR ev H (.status 0 m l) id B R (closeStep H ev c s) := by
  have hb : 0 < (Reply.status 0 m l).body.length := by simp [Reply.body, enc_len]; omega
  cases s with
  | send =>
    cases ev <;> try exact fun _ => h
    case send res err pend =>
      obtain ⟨h1, h2, h3⟩ := h
      have hf := sendType_frame res err 4 H c
      have hs := sendType_part res err h1 h3
      have hx := @sendType_fail res err 4 H c
      simp only [closeStep]
      cases res with
      | error e =>
        have : ∃ c', sendType (.error e) err 4 H c = (c', some false) := ⟨_, rfl⟩
        obtain ⟨c', hq⟩ := this
        rw [hq] at hf hs ⊢
        have he := (hx hq).2
        simp only
        by_cases hn : notice c'.err = true
        · rw [if_pos hn]
          exact fun hQ => ⟨by rw [he]; exact hQ, hf.2.1.trans h1, hf.1.trans h2, hs⟩
        · rw [if_neg hn]
          exact fun hQ => absurd (again_notice (by rw [he]; exact hQ)) hn
      | ok k =>
        have hk := @sendType_ok k err 4 H c
        generalize sendType (.ok k) err 4 H c = q at hf hs hk hx ⊢
        obtain ⟨c', r⟩ := q
        have he : c'.err = err := hk (o := r) rfl
        match r with
        | none => exact fun _ => ⟨hf.2.1.trans h1, hf.1.trans h2, hs⟩
        | some true =>
          simp only
          by_cases hn : notice c'.err = true
          · rw [if_pos hn]
            intro hQ
            rw [he, show err = none from hQ] at hn
            exact nomatch hn
          · rw [if_neg hn]
            exact fun _ => ⟨hf.1.trans h2, by show 0 < 9; decide, hs.2⟩
        | some false =>
          exact absurd (hx (c' := c') rfl).1 (by simp)
  | head got =>
    cases ev <;> try exact fun _ => h
    case read k err =>
      obtain ⟨h1, h2, ho⟩ := h
      simp only [closeStep]
      rw [reply_eq, List.append_assoc] at h1
      have hall := fun hk g => header_all (got' := g) k err h1 h2 hb hl hid hk
      rcases getHeader_of k err h1 h2 hb hl hid with h | ⟨got', inp', h, h4, h5⟩
      · rw [h]
        simp only [Reply.type, show (101 : UInt8).toNat = 101 from rfl]
        rw [if_neg (by simp)]
        exact fun _ => ⟨rfl, rfl, hb, ho⟩
      · rw [h] at hall ⊢
        have hw : Quiet (.read k err) → Again err := by
          rintro (hw | hk)
          · exact hw
          · exact (hall hk got' rfl).elim
        simp only
        by_cases hn : notice err = true
        · rw [if_pos hn]
          refine fun hq => ⟨hw hq, ?_, h5, ho⟩
          show got' ++ inp' = _
          rw [reply_eq, List.append_assoc]; exact h4
        · rw [if_neg hn]
          exact fun hq => absurd (again_notice (hw hq)) hn
  | status sz got =>
    cases ev <;> try exact fun _ => h
    case read k err =>
      obtain ⟨rfl, h3, h4, ho⟩ := h
      simp only [closeStep]
      have hall := fun hk => bufRead_all k err h3 (Nat.le_of_lt h4) hk
      rcases bufRead_of k err h3 (Nat.le_of_lt h4) with h | ⟨got', inp', h, h5, h6⟩
      · rw [h]
        simp only [if_true]
        obtain ⟨i, e⟩ := doStatus_of 0 m l (by decide) hl
        rw [e]
        exact ⟨rfl, ho⟩
      · rw [h] at hall ⊢
        simp only [Bool.false_eq_true, if_false]
        have hw : Quiet (.read k err) → Again err := by
          rintro (hw | hk)
          · exact hw
          · exact nomatch (hall (by omega))
        by_cases hn : notice err = true
        · rw [if_pos hn]
          exact fun hq => ⟨hw hq, rfl, h5, h6, ho⟩
        · rw [if_neg hn]
          exact fun hq => absurd (again_notice (hw hq)) hn

/-- Names in a packet that is too long: the client gives up and does not read them. -/
theorem step_big {dir : Bytes} {L : List (Bytes × Bytes × Attrs)} {id : Nat} {R : Bytes} (h1 : 2 ^ 20 < (Reply.names L).body.length)
    (h2 : (Reply.names L).body.length < 2 ^ 31) (hid : id < 2 ^ 32) (h : Hd) (acc : List Entry) (c : Chan) (k : Nat) (err : Ret)
    (hk : 2 ^ 31 ≤ k) (hi : c.inp = (Reply.names L).packet id ++ R) :
    step dir (.at c (.dirName h acc (.head []))) (.read k err) =
      .at { c with inp := (Reply.names L).body ++ R, err := some .bufferE } (.close h acc .send) := by
  rw [reply_eq, List.append_assoc] at hi
  have hi' : [] ++ c.inp = _ := hi
  simp only [step, nameStep]
  have hall := fun g => header_all (got' := g) k err hi' (by simp) (by omega) (by omega) hid hk
  rcases getHeader_of k err hi' (by simp) (by omega) (by omega) hid with h | ⟨got', inp', h, h4, h5⟩
  · rw [h]
    simp only
    rw [if_pos (by unfold MAX_NAME; omega)]
    rfl
  · rw [h] at hall
    exact (hall got' rfl).elim

end Proofs.SftpLs
