import Verif.Model.SftpClient
import Verif.Spec.SftpClient
import Verif.Proofs.SftpLoop
import Verif.Proofs.SftpMore
/-! # The SFTP client: its parts -/

namespace Proofs.SftpClient
open Wolf Wolf.Wire Wolf.Sftp Wolf.SftpClient Proofs.SftpLoop

/-- How a function comes back: never with undefined behaviour, its state in order. -/
def Safe {σ α : Type} (P : σ → Prop) (Q : α → Prop) : Out σ α → Prop
  | .more s => P s
  | .again s => P s
  | .ret none => True
  | .ret (some a) => Q a
  | .ub => False

theorem bufRead_got (sz k : Nat) (err : Ret) (c : Chan) (got : Bytes) :
    (bufRead sz k err c got).2.2 = got ++ c.inp.take (min k (min (sz - got.length) c.inp.length)) := by
  simp only [bufRead, cmin_eq]

theorem bufRead_le (sz k : Nat) (err : Ret) (c : Chan) (got : Bytes) (h : got.length ≤ sz) :
    (bufRead sz k err c got).2.2.length ≤ sz := by
  rw [bufRead_got]; simp; omega

theorem bufRead_full {sz k : Nat} {err : Ret} {c : Chan} {got : Bytes} (h : got.length ≤ sz) (hf : (bufRead sz k err c got).1 = true) :
    (bufRead sz k err c got).2.2.length = sz := by
  have := bufRead_le sz k err c got h
  have h2 : sz ≤ (bufRead sz k err c got).2.2.length := by
    simpa [bufRead] using hf
  omega

theorem bufRead_part {sz k : Nat} {err : Ret} {c : Chan} {got : Bytes} (hf : (bufRead sz k err c got).1 = false) :
    (bufRead sz k err c got).2.2.length < sz := by
  simpa [bufRead] using hf

/-- What the loop in `wolfSSH_SFTP_buffer_read` comes to is what `bufRead` says. -/
theorem bufferRead_bufRead (sz : Nat) (ts : List Turn) (c : Chan) (got : Bytes) (hg : got.length < sz) :
    match bufferRead sz ts ⟨c.inp, c.err⟩ got with
    | .waiting => True
    | .fail _ io got' => ∃ k, bufRead sz k io.err c got = (false, { c with inp := io.inp, err := io.err }, got')
    | .done io got' => ∃ k, bufRead sz k io.err c got = (true, { c with inp := io.inp, err := io.err }, got') := by
  have stay : ∀ err, bufRead sz 0 err c got = (false, { c with inp := c.inp, err := err }, got) := by
    intro err
    simp [bufRead, cmin]; omega
  induction ts generalizing c got with
  | nil => exact True.intro
  | cons t ts ih =>
    unfold bufferRead
    cases hfl : t.flush.1 with
    | some e => cases e <;> exact ⟨0, stay _⟩
    | none =>
      cases htr : turnRead sz t ⟨c.inp, c.err⟩ got with
      | mk r err =>
      cases r with
      | error e =>
        simp only
        by_cases h1 : err = some .rekeying
        · rw [if_pos h1]
          by_cases h2 : t.peek = true ∧ t.work2.1 ≠ none ∧ t.work2.1 ≠ some .chanRxd ∧ t.work2.2 ≠ some .rekeying
          · rw [if_pos h2]; exact ⟨0, stay _⟩
          · rw [if_neg h2, if_pos hg]
            have := ih { c with err := if t.peek = true then t.work2.2 else err } got hg (fun err => by simp [bufRead, cmin]; omega)
            simp only at this ⊢
            generalize bufferRead sz ts ⟨c.inp, if t.peek = true then t.work2.2 else err⟩ got = b at this ⊢
            cases b with
            | waiting => exact True.intro
            | fail e io' got' => obtain ⟨k, hk⟩ := this; exact ⟨k, by simpa [bufRead] using hk⟩
            | done io' got' => obtain ⟨k, hk⟩ := this; exact ⟨k, by simpa [bufRead] using hk⟩
        · rw [if_neg h1]; exact ⟨0, stay _⟩
      | ok n =>
        obtain ⟨hn1, hn2, _⟩ := turnRead_ok htr (Nat.le_of_lt hg)
        simp only at hn1 hn2 ⊢
        have hl : (got ++ c.inp.take n).length = got.length + n := by simp; omega
        have key : ∀ k e, n ≤ k → bufRead sz k e c got =
            bufRead sz (k - n) e { c with inp := c.inp.drop n, err := err } (got ++ c.inp.take n) := by
          intro k e hk
          simp only [bufRead, cmin_eq, hl, List.length_drop]
          have e1 : c.inp.take (min k (min (sz - got.length) c.inp.length)) =
              c.inp.take n ++ (c.inp.drop n).take (min (k - n) (min (sz - (got.length + n)) (c.inp.length - n))) := by
            rw [← List.take_add]; congr 1; omega
          rw [e1, List.drop_drop]
          have e2 : min k (min (sz - got.length) c.inp.length) =
              n + min (k - n) (min (sz - (got.length + n)) (c.inp.length - n)) := by omega
          rw [e2]
          simp
        by_cases hlt : (got ++ c.inp.take n).length < sz
        · rw [if_pos hlt]
          have := ih { c with inp := c.inp.drop n, err := err } (got ++ c.inp.take n) hlt
            (fun err => by simp [bufRead, cmin]; simp at hlt; omega)
          simp only at this ⊢
          generalize bufferRead sz ts ⟨c.inp.drop n, err⟩ (got ++ c.inp.take n) = b at this ⊢
          cases b with
          | waiting => exact True.intro
          | fail e io' got' =>
            obtain ⟨k, hk⟩ := this
            exact ⟨k + n, by rw [key _ _ (by omega), Nat.add_sub_cancel, hk]⟩
          | done io' got' =>
            obtain ⟨k, hk⟩ := this
            exact ⟨k + n, by rw [key _ _ (by omega), Nat.add_sub_cancel, hk]⟩
        · rw [if_neg hlt]
          refine ⟨n, ?_⟩
          rw [key _ _ (Nat.le_refl _), Nat.sub_self]
          simp [bufRead, cmin]
          simp at hlt; omega

/-! ## Headers, statuses, attributes -/

theorem getHeader_cases (k : Nat) (err : Ret) (c : Chan) (got : Bytes) (h : got.length ≤ 9) :
    (∃ got', (getHeader k err c got).2 = .short got' ∧ got'.length ≤ 9) ∨ (∃ z, (getHeader k err c got).2 = .bad z) ∨
    ∃ type id sz, (getHeader k err c got).2 = .ok type id sz ∧ 0 < sz ∧ sz < 2 ^ 31 ∧ type < 256 ∧ id < 2 ^ 32 := by
  unfold getHeader
  simp only
  have hle := bufRead_le 9 k err c got h
  by_cases hf : (bufRead HEADER k err c got).1 = true
  · rw [if_pos hf]
    have h9 := bufRead_full (sz := 9) h hf
    obtain ⟨len, type, id, hfe, h1, h2, h3, _⟩ := fields_eq h9
    rw [show bufRead HEADER k err c got = bufRead 9 k err c got from rfl, hfe]
    simp only
    by_cases hz : sub32 (sub32 len 4) 1 = 0
    · rw [if_pos hz]; exact .inr (.inl ⟨true, rfl⟩)
    · rw [if_neg hz]
      by_cases hb : 2 ^ 31 ≤ sub32 (sub32 len 4) 1
      · rw [if_pos hb]; exact .inr (.inl ⟨false, rfl⟩)
      · rw [if_neg hb]
        exact .inr (.inr ⟨type, id, _, rfl, by omega, by omega, h2, h3⟩)
  · rw [if_neg hf]
    exact .inl ⟨_, rfl, hle⟩

theorem doStatus_safe (buf : Bytes) (h : buf.length < 2 ^ 32) : ∀ i, doStatus buf ≠ .ub ∧ (∀ code, doStatus buf = .ok code i → code ≤ 8) := by
  intro i
  unfold doStatus andThen
  rw [getUint32_eq buf buf.length 0 (Nat.le_refl _) (by omega)]
  cases Spec.Wire.uint32 ((buf.take buf.length).drop 0) with
  | none => simp
  | some p =>
    simp only
    rcases Proofs.Sftp.getStr_cases (mem' := buf) (len := buf.length) (0 + 4) (Nat.le_refl _) h with ⟨e, j, h1, _⟩ | ⟨v, j, h1, _⟩
    · rw [h1]; simp
    · rw [h1]
      simp only
      rcases Proofs.Sftp.getStr_cases (mem' := buf) (len := buf.length) j (Nat.le_refl _) h with ⟨e, j', h2, _⟩ | ⟨v, j', h2, _⟩
      · rw [h2]; simp
      · rw [h2]
        simp only [ne_eq, reduceCtorEq, not_false_eq_true, Res.ok.injEq, and_imp, true_and]
        intro code hc _
        by_cases h8 : p.1 > 8
        · rw [if_pos h8] at hc; subst hc; decide
        · rw [if_neg h8] at hc; omega

theorem getUint32_ne (buf : Bytes) (h : buf.length < 2 ^ 32) (i : Nat) : getUint32 buf buf.length i ≠ .ub := by
  rw [getUint32_eq buf buf.length i (Nat.le_refl _) (by omega)]
  split <;> simp

theorem attrPer_safe (buf : Bytes) (h : buf.length < 2 ^ 32) : ∃ per i, attrPer buf = .ok per i := by
  have hu := getUint32_ne buf h
  have hp : ∀ f i, optPair f buf buf.length i ≠ .ub := by
    intro f i
    unfold optPair andThen
    cases f
    · simp
    · simp only [if_true]
      cases h1 : getUint32 buf buf.length i with
      | ub => exact absurd h1 (hu _)
      | err => simp
      | ok v j =>
        simp only
        cases h2 : getUint32 buf buf.length j with
        | ub => exact absurd h2 (hu _)
        | err => simp
        | ok => simp
  have hw : ∀ f i, optWord f buf buf.length i ≠ .ub := by
    intro f i
    unfold optWord
    cases f
    · simp
    · simpa using hu i
  unfold attrPer andThen
  cases h1 : getUint32 buf buf.length 0 with
  | ub => exact absurd h1 (hu _)
  | err e i => exact ⟨0, i, rfl⟩
  | ok v i =>
    simp only
    cases h2 : optPair (v.testBit 0) buf buf.length i with
    | ub => exact absurd h2 (hp _ _)
    | err e i => exact ⟨0, i, rfl⟩
    | ok w i =>
      simp only
      cases h3 : optPair (v.testBit 1) buf buf.length i with
      | ub => exact absurd h3 (hp _ _)
      | err e i => exact ⟨0, i, rfl⟩
      | ok w i =>
        simp only
        cases h4 : optWord (v.testBit 2) buf buf.length i with
        | ub => exact absurd h4 (hw _ _)
        | err e i => exact ⟨0, i, rfl⟩
        | ok w i => exact ⟨w, i, rfl⟩

/-! ## Safety -/

def StatOk : Stat → Prop
  | .send => True
  | .head got => got.length ≤ 9
  | .check _ _ sz => sz < 2 ^ 31
  | .body _ sz got => sz < 2 ^ 31 ∧ got.length ≤ sz

theorem statCheck_safe (c : Chan) (type id sz : Nat) (h : sz < 2 ^ 31) : Safe StatOk (fun _ => True) (statCheck c type id sz).2 := by
  unfold statCheck
  by_cases hi : id ≠ c.reqId
  · rw [if_pos hi]; exact h
  · rw [if_neg hi]; exact ⟨h, Nat.zero_le _⟩

theorem statReply_safe (type : Nat) (got : Bytes) (h : got.length < 2 ^ 31) : Safe StatOk (fun _ => True) (statReply type got) := by
  unfold statReply
  by_cases h1 : type = 105
  · rw [if_pos h1]
    obtain ⟨per, i, hp⟩ := attrPer_safe got (by omega)
    rw [hp]; exact True.intro
  · rw [if_neg h1]
    by_cases h2 : type = 101
    · rw [if_pos h2]
      have := fun i => (doStatus_safe got (by omega) i).1
      cases hd : doStatus got with
      | ub => exact absurd hd (this 0)
      | err => exact True.intro
      | ok code i =>
        simp only
        by_cases hc : code = FTP_OK
        · rw [if_pos hc]; exact True.intro
        · rw [if_neg hc]; exact True.intro
    · rw [if_neg h2]; exact True.intro

theorem safe_ite {σ α : Type} {P : σ → Prop} {Q : α → Prop} {b : Prop} [Decidable b] {x y : Chan × Out σ α}
    (hx : b → Safe P Q x.2) (hy : ¬ b → Safe P Q y.2) : Safe P Q (if b then x else y).2 := by
  by_cases h : b
  · rw [if_pos h]; exact hx h
  · rw [if_neg h]; exact hy h

theorem statStep_safe (path : Bytes) (ev : Ev) (c : Chan) (s : Stat) (h : StatOk s) :
    Safe StatOk (fun _ => True) (statStep path ev c s).2 := by
  cases s with
  | send =>
    cases ev <;> try exact True.intro
    case send res err p =>
      simp only [statStep]
      rcases sendType res err 17 path c with ⟨c', o⟩
      cases o with
      | none => exact True.intro
      | some b =>
        cases b
        · exact safe_ite (fun _ => True.intro) (fun _ => True.intro)
        · exact Nat.zero_le _
  | head got =>
    cases ev <;> try exact h
    case read k err =>
      simp only [statStep]
      have hc := getHeader_cases k err c got h
      generalize getHeader k err c got = r at hc ⊢
      obtain ⟨c', hd⟩ := r
      simp only at hc
      rcases hc with ⟨got', rfl, h1⟩ | ⟨z, rfl⟩ | ⟨type, id, sz, rfl, h1, h2, _⟩
      · exact safe_ite (fun _ => h1) (fun _ => True.intro)
      · exact safe_ite (fun _ => Nat.zero_le _) (fun _ => True.intro)
      · exact statCheck_safe _ _ _ _ h2
  | check type id sz => exact statCheck_safe _ _ _ _ h
  | body type sz got =>
    cases ev <;> try exact h
    case read k err =>
      simp only [statStep]
      refine safe_ite (fun hf => statReply_safe _ _ ?_) (fun hf => safe_ite (fun _ => ⟨h.1, bufRead_le _ _ _ _ _ h.2⟩) (fun _ => True.intro))
      have := bufRead_le sz k err c got h.2
      have := h.1
      omega

def HdOk (h : Hd) : Prop := h.mem.length = 256 ∧ h.cap ≤ 256

theorem HdOk.fresh : HdOk Hd.fresh := ⟨by decide +kernel, by decide +kernel⟩

theorem takeHandle_safe (h : Hd) (got : Bytes) (hh : HdOk h) (hg : got.length < 2 ^ 31) :
    takeHandle h got ≠ none ∧ ∀ h', takeHandle h got = some (some h') → HdOk h' := by
  unfold takeHandle
  match got, hg with
  | [], _ => simp
  | [_], _ => simp
  | [_, _], _ => simp
  | [_, _, _], _ => simp
  | a :: b :: c :: d :: rest, hg =>
    simp only
    have hlt := ato32_lt a b c d
    by_cases h1 : ato32 a b c d > MAX_HANDLE ∨ h.cap < ato32 a b c d ∨ add32 4 (ato32 a b c d) > (a :: b :: c :: d :: rest).length
    · rw [if_pos h1]; simp
    · rw [if_neg h1]
      have hn : ato32 a b c d ≤ 256 := by
        have : ¬ ato32 a b c d > 256 := fun hh => h1 (.inl hh)
        omega
      have hm := hh.1
      have h3 : ¬ add32 4 (ato32 a b c d) > (a :: b :: c :: d :: rest).length := fun hh => h1 (.inr (.inr hh))
      simp only [List.length_cons, add32] at h3 hg
      have h2 : ¬ (h.mem.length < ato32 a b c d ∨ rest.length < ato32 a b c d) := by omega
      rw [if_neg h2]
      refine ⟨by simp, ?_⟩
      intro h' he
      cases he
      refine ⟨?_, hn⟩
      simp; omega

def GhOk : Gh → Prop
  | .head got => got.length ≤ 9
  | .status sz got => sz < 2 ^ 31 ∧ got.length ≤ sz
  | .handle sz got => sz < 2 ^ 31 ∧ got.length ≤ sz

theorem status_cases (buf : Bytes) (h : buf.length < 2 ^ 32) :
    (∃ code i, doStatus buf = .ok code i ∧ code ≤ 8) ∨ ∃ e i, doStatus buf = .err e i := by
  cases hd : doStatus buf with
  | ub => exact absurd hd (doStatus_safe buf h 0).1
  | err e i => exact .inr ⟨e, i, rfl⟩
  | ok code i => exact .inl ⟨code, i, rfl, (doStatus_safe buf h i).2 code hd⟩

theorem ghStep_safe (k : Nat) (err : Ret) (c : Chan) (h : Hd) (g : Gh) (hh : HdOk h) (hg : GhOk g) :
    HdOk (ghStep k err c h g).2.1 ∧ Safe GhOk (fun _ => True) (ghStep k err c h g).2.2 := by
  cases g with
  | head got =>
    simp only [ghStep]
    have hc := getHeader_cases k err c got hg
    generalize getHeader k err c got = r at hc ⊢
    obtain ⟨c', hd⟩ := r
    simp only at hc
    rcases hc with ⟨got', rfl, h1⟩ | ⟨z, rfl⟩ | ⟨type, id, sz, rfl, h1, h2, _⟩
    · by_cases hn : notice c'.err = true
      · simp only [if_pos hn]; exact ⟨hh, h1⟩
      · simp only [if_neg hn]; exact ⟨hh, True.intro⟩
    · by_cases hn : notice c'.err = true
      · simp only [if_pos hn]; exact ⟨hh, Nat.zero_le _⟩
      · simp only [if_neg hn]; exact ⟨hh, True.intro⟩
    · simp only
      by_cases ht : type = 102
      · rw [if_pos ht]
        by_cases hi : id ≠ c'.reqId
        · rw [if_pos hi]; exact ⟨hh, True.intro⟩
        · rw [if_neg hi]; exact ⟨hh, h2, Nat.zero_le _⟩
      · rw [if_neg ht]
        by_cases ht : type = 101
        · rw [if_pos ht]; exact ⟨hh, h2, Nat.zero_le _⟩
        · rw [if_neg ht]; exact ⟨hh, True.intro⟩
  | status sz got =>
    simp only [ghStep]
    have hle := bufRead_le sz k err c got hg.2
    have h31 := hg.1
    by_cases hf : (bufRead sz k err c got).1 = true
    · rw [if_pos hf]
      rcases status_cases _ (show (bufRead sz k err c got).2.2.length < 2 ^ 32 by omega) with ⟨code, i, hd, _⟩ | ⟨e, i, hd⟩
      · rw [hd]
        simp only
        by_cases hk : code = FTP_OK
        · rw [if_pos hk]; exact ⟨hh, True.intro⟩
        · rw [if_neg hk]; exact ⟨⟨hh.1, Nat.zero_le _⟩, True.intro⟩
      · rw [hd]; exact ⟨⟨hh.1, Nat.zero_le _⟩, True.intro⟩
    · rw [if_neg hf]; exact ⟨hh, h31, hle⟩
  | handle sz got =>
    simp only [ghStep]
    have hle := bufRead_le sz k err c got hg.2
    have h31 := hg.1
    by_cases hf : (bufRead sz k err c got).1 = true
    · rw [if_pos hf]
      have ht := takeHandle_safe h (bufRead sz k err c got).2.2 hh (by omega)
      cases hd : takeHandle h (bufRead sz k err c got).2.2 with
      | none => exact absurd hd ht.1
      | some o =>
        cases o with
        | none => exact ⟨hh, True.intro⟩
        | some h' => exact ⟨ht.2 h' hd, True.intro⟩
    · rw [if_neg hf]; exact ⟨hh, h31, hle⟩

def ChanOk (c : Chan) : Prop := ∀ g, c.gh = some g → GhOk g

theorem getD_ok (c : Chan) (h : ChanOk c) : GhOk (c.gh.getD (.head [])) := by
  cases hg : c.gh with
  | none => exact Nat.zero_le _
  | some g => exact h g hg

theorem getHeader_frame (k : Nat) (err : Ret) (c : Chan) (got : Bytes) : (getHeader k err c got).1.gh = c.gh ∧
    (getHeader k err c got).1.int = c.int ∧ (getHeader k err c got).1.out = c.out ∧ (getHeader k err c got).1.reqId = c.reqId ∧
    (getHeader k err c got).1.pkt = c.pkt ∧ (getHeader k err c got).1.err = err := by
  unfold getHeader
  simp only
  by_cases hf : (bufRead HEADER k err c got).1 = true
  · rw [if_pos hf]
    cases hfe : fields (bufRead HEADER k err c got).2.2 with
    | none => exact ⟨rfl, rfl, rfl, rfl, rfl, rfl⟩
    | some p =>
      simp only
      by_cases h1 : sub32 (sub32 p.1 4) 1 = 0
      · rw [if_pos h1]; exact ⟨rfl, rfl, rfl, rfl, rfl, rfl⟩
      · rw [if_neg h1]
        by_cases h2 : 2 ^ 31 ≤ sub32 (sub32 p.1 4) 1
        · rw [if_pos h2]; exact ⟨rfl, rfl, rfl, rfl, rfl, rfl⟩
        · rw [if_neg h2]; exact ⟨rfl, rfl, rfl, rfl, rfl, rfl⟩
  · rw [if_neg hf]; exact ⟨rfl, rfl, rfl, rfl, rfl, rfl⟩

/-- What a step leaves alone: `ssh->getHandleState` and `ssh->sftpInt`. -/
def Same (c c' : Chan) : Prop := c'.gh = c.gh ∧ c'.int = c.int

theorem Same.head (k : Nat) (err : Ret) (c : Chan) (got : Bytes) : Same c (getHeader k err c got).1 :=
  ⟨(getHeader_frame k err c got).1, (getHeader_frame k err c got).2.1⟩

theorem same_ite {σ : Type} {c : Chan} {b : Prop} [Decidable b] {x y : Chan × σ}
    (hx : b → Same c x.1) (hy : ¬ b → Same c y.1) : Same c (if b then x else y).1 := by
  by_cases h : b
  · rw [if_pos h]; exact hx h
  · rw [if_neg h]; exact hy h

theorem Same.rfl' {c : Chan} : Same c c := ⟨rfl, rfl⟩

theorem Same.type (res : Except Err Nat) (err : Ret) (type : Byte) (buf : Bytes) (c : Chan) : Same c (sendType res err type buf c).1 := by
  unfold sendType
  cases res
  · exact ⟨rfl, rfl⟩
  · exact same_ite (fun _ => ⟨rfl, rfl⟩) (fun _ => ⟨rfl, rfl⟩)

theorem Same.statCheck (c : Chan) (type id sz : Nat) : Same c (statCheck c type id sz).1 :=
  same_ite (fun _ => ⟨rfl, rfl⟩) (fun _ => ⟨rfl, rfl⟩)

theorem Same.stat (path : Bytes) (ev : Ev) (c : Chan) (s : Stat) : Same c (statStep path ev c s).1 := by
  cases s with
  | send =>
    cases ev <;> try exact ⟨rfl, rfl⟩
    case send res err p =>
      simp only [statStep]
      have := Same.type res err 17 path c
      generalize sendType res err 17 path c = r at this ⊢
      obtain ⟨c', o⟩ := r
      match o with
      | none => exact this
      | some true => exact this
      | some false => exact same_ite (fun _ => this) (fun _ => this)
  | head got =>
    cases ev <;> try exact ⟨rfl, rfl⟩
    case read k err =>
      simp only [statStep]
      have := Same.head k err c got
      generalize getHeader k err c got = r at this ⊢
      obtain ⟨c', hd⟩ := r
      cases hd with
      | short => exact same_ite (fun _ => this) (fun _ => this)
      | bad => exact same_ite (fun _ => this) (fun _ => this)
      | ok type id sz => exact ⟨(Same.statCheck _ _ _ _).1.trans this.1, (Same.statCheck _ _ _ _).2.trans this.2⟩
  | check type id sz => exact Same.statCheck _ _ _ _
  | body type sz got =>
    cases ev <;> try exact ⟨rfl, rfl⟩
    case read k err =>
      exact same_ite (fun _ => ⟨rfl, rfl⟩) (fun _ => same_ite (fun _ => ⟨rfl, rfl⟩) (fun _ => ⟨rfl, rfl⟩))

theorem rdStep_same (outSz : Nat) (ev : Ev) (c : Chan) (s : Rd) : Same c (rdStep outSz ev c s).1 := by
  cases s <;> cases ev <;> try exact ⟨rfl, rfl⟩
  case send.send buf idx res err p =>
    cases res
    · exact same_ite (fun _ => ⟨rfl, rfl⟩) (fun _ => ⟨rfl, rfl⟩)
    · exact same_ite (fun _ => ⟨rfl, rfl⟩) (fun _ => ⟨rfl, rfl⟩)
  case head.read got k err =>
    simp only [rdStep]
    have := Same.head k err c got
    generalize getHeader k err c got = r at this ⊢
    obtain ⟨c', hd⟩ := r
    cases hd with
    | short => exact same_ite (fun _ => this) (fun _ => this)
    | bad => exact same_ite (fun _ => this) (fun _ => this)
    | ok type id sz =>
      exact same_ite (fun _ => this) (fun _ => same_ite (fun _ => this) (fun _ => same_ite (fun _ => this) (fun _ => this)))
  case flat.stream res err junk =>
    cases res
    · exact same_ite (fun _ => ⟨rfl, rfl⟩) (fun _ => ⟨rfl, rfl⟩)
    · exact ⟨rfl, rfl⟩
  case rest.stream left got res err junk =>
    cases res
    · exact same_ite (fun _ => ⟨rfl, rfl⟩) (fun _ => ⟨rfl, rfl⟩)
    · exact same_ite (fun _ => same_ite (fun _ => ⟨rfl, rfl⟩) (fun _ => ⟨rfl, rfl⟩)) (fun _ => same_ite (fun _ => ⟨rfl, rfl⟩) (fun _ => ⟨rfl, rfl⟩))
  case status.read sz got k err =>
    refine same_ite (fun _ => ?_) (fun _ => same_ite (fun _ => ⟨rfl, rfl⟩) (fun _ => ⟨rfl, rfl⟩))
    cases doStatus (bufRead sz k err c got).2.2 <;> exact ⟨rfl, rfl⟩

theorem wrStep_same (data : Bytes) (ev : Ev) (c : Chan) (s : Wr) : Same c (wrStep data ev c s).1 := by
  cases s <;> cases ev <;> try exact ⟨rfl, rfl⟩
  case send.send buf idx res err p =>
    cases res
    · exact same_ite (fun _ => ⟨rfl, rfl⟩) (fun _ => ⟨rfl, rfl⟩)
    · exact same_ite (fun _ => ⟨rfl, rfl⟩) (fun _ => ⟨rfl, rfl⟩)
  case body.body rest res err p =>
    cases res
    · exact same_ite (fun _ => ⟨rfl, rfl⟩) (fun _ => ⟨rfl, rfl⟩)
    · exact same_ite (fun _ => ⟨rfl, rfl⟩) (fun _ => ⟨rfl, rfl⟩)
  case head.read got k err =>
    simp only [wrStep]
    have := Same.head k err c got
    generalize getHeader k err c got = r at this ⊢
    obtain ⟨c', hd⟩ := r
    cases hd with
    | short => exact same_ite (fun _ => this) (fun _ => this)
    | bad => exact same_ite (fun _ => this) (fun _ => this)
    | ok type id sz => exact same_ite (fun _ => this) (fun _ => same_ite (fun _ => this) (fun _ => this))
  case status.read sz got k err =>
    refine same_ite (fun _ => ?_) (fun _ => same_ite (fun _ => ⟨rfl, rfl⟩) (fun _ => ⟨rfl, rfl⟩))
    cases doStatus (bufRead sz k err c got).2.2 <;> exact ⟨rfl, rfl⟩

theorem closeStep_same (handle : Bytes) (ev : Ev) (c : Chan) (s : Close) : Same c (closeStep handle ev c s).1 := by
  cases s <;> cases ev <;> try exact ⟨rfl, rfl⟩
  case send.send res err p =>
    simp only [closeStep]
    have := Same.type res err 4 handle c
    generalize sendType res err 4 handle c = r at this ⊢
    obtain ⟨c', o⟩ := r
    match o with
    | none => exact this
    | some b => exact same_ite (fun _ => this) (fun _ => same_ite (fun _ => this) (fun _ => this))
  case head.read got k err =>
    simp only [closeStep]
    have := Same.head k err c got
    generalize getHeader k err c got = r at this ⊢
    obtain ⟨c', hd⟩ := r
    cases hd with
    | short => exact same_ite (fun _ => this) (fun _ => this)
    | bad => exact same_ite (fun _ => this) (fun _ => this)
    | ok type id sz => exact same_ite (fun _ => this) (fun _ => this)
  case status.read sz got k err =>
    refine same_ite (fun _ => ?_) (fun _ => same_ite (fun _ => ⟨rfl, rfl⟩) (fun _ => ⟨rfl, rfl⟩))
    cases doStatus (bufRead sz k err c got).2.2 <;> exact ⟨rfl, rfl⟩

theorem ghStep_same (k : Nat) (err : Ret) (c : Chan) (h : Hd) (g : Gh) : Same c (ghStep k err c h g).1 := by
  cases g with
  | head got =>
    simp only [ghStep]
    have := Same.head k err c got
    generalize getHeader k err c got = r at this ⊢
    obtain ⟨c', hd⟩ := r
    cases hd with
    | short => exact same_ite (fun _ => this) (fun _ => this)
    | bad => exact same_ite (fun _ => this) (fun _ => this)
    | ok type id sz =>
      exact same_ite (fun _ => same_ite (fun _ => this) (fun _ => this)) (fun _ => same_ite (fun _ => this) (fun _ => this))
  | status sz got =>
    refine same_ite (fun _ => ?_) (fun _ => ⟨rfl, rfl⟩)
    cases doStatus (bufRead sz k err c got).2.2 with
    | ok code i => exact same_ite (fun _ => ⟨rfl, rfl⟩) (fun _ => ⟨rfl, rfl⟩)
    | err => exact ⟨rfl, rfl⟩
    | ub => exact ⟨rfl, rfl⟩
  | handle sz got =>
    refine same_ite (fun _ => ?_) (fun _ => ⟨rfl, rfl⟩)
    match takeHandle h (bufRead sz k err c got).2.2 with
    | none => exact ⟨rfl, rfl⟩
    | some none => exact ⟨rfl, rfl⟩
    | some (some h') => exact ⟨rfl, rfl⟩

/-! ## Safety of the other functions -/

theorem ChanOk.same {c c' : Chan} (h : ChanOk c) (hs : Same c c') : ChanOk c' := by
  intro g hg; rw [hs.1] at hg; exact h g hg

theorem openGet_safe (r : Chan × GhOut) (hc : ChanOk r.1) (hh : HdOk r.2.1) (hs : Safe GhOk (fun _ => True) r.2.2) :
    ChanOk (openGet r).1 ∧ HdOk (openGet r).2.1 ∧ Safe (fun _ => True) (fun _ => True) (openGet r).2.2 := by
  obtain ⟨c, h, o⟩ := r
  have hn : ChanOk { c with gh := none } := fun g hg => by cases hg
  match o with
  | .more g => exact ⟨fun g' hg => by cases hg; exact hs, hh, True.intro⟩
  | .again g =>
    refine ⟨fun g' hg => by cases hg; exact hs, hh, ?_⟩
    simp only [openGet]
    by_cases hw : want c.err = true
    · rw [if_pos hw]; exact True.intro
    · rw [if_neg hw]; exact True.intro
  | .ret (some _) => exact ⟨hn, hh, True.intro⟩
  | .ret none =>
    refine ⟨hn, hh, ?_⟩
    simp only [openGet]
    by_cases hw : want c.err = true
    · rw [if_pos hw]; exact True.intro
    · rw [if_neg hw]; exact True.intro
  | .ub => exact absurd hs (by simp [Safe])

theorem openStep_safe (ev : Ev) (c : Chan) (h : Hd) (o : Open) (hc : ChanOk c) (hh : HdOk h) :
    ChanOk (openStep ev c h o).1 ∧ HdOk (openStep ev c h o).2.1 ∧ Safe (fun _ => True) (fun _ => True) (openStep ev c h o).2.2 := by
  cases o with
  | send buf idx =>
    cases ev <;> try exact ⟨hc, hh, True.intro⟩
    case send res err p =>
      cases res with
      | error e =>
        simp only [openStep]
        by_cases hw : want err = true
        · rw [if_pos hw]; exact ⟨hc, hh, True.intro⟩
        · rw [if_neg hw]; exact ⟨hc, hh, True.intro⟩
      | ok k =>
        simp only [openStep]
        by_cases hw : (sendSome k err c buf idx).2 < buf.length ∨ p = true
        · rw [if_pos hw]; exact ⟨hc, hh, True.intro⟩
        · rw [if_neg hw]; exact ⟨hc, hh, True.intro⟩
  | get =>
    cases ev <;> try exact ⟨hc, hh, True.intro⟩
    case read k err =>
      have h1 := ghStep_safe k err c h _ hh (getD_ok c hc)
      exact openGet_safe _ (hc.same (ghStep_same k err c h _)) h1.1 h1.2

def RdOk (outSz : Nat) : Rd → Prop
  | .send _ _ => True
  | .head got => got.length ≤ 9
  | .flat => True
  | .rest left got => left + got.length ≤ outSz
  | .status sz got => sz < 2 ^ 31 ∧ got.length ≤ sz

theorem rdFlat_safe (outSz : Nat) (b : Bytes) (h : 4 ≤ b.length) : Safe (RdOk outSz) (fun d => d.length ≤ outSz) (rdFlat outSz b) := by
  match b, h with
  | a :: b :: c :: d :: rest, _ =>
    simp only [rdFlat]
    by_cases h1 : ato32 a b c d > outSz
    · rw [if_pos h1]; exact True.intro
    · rw [if_neg h1]; show _ + 0 ≤ outSz; omega

theorem rdStep_safe (outSz : Nat) (ev : Ev) (c : Chan) (s : Rd) (h : RdOk outSz s) :
    Safe (RdOk outSz) (fun d => d.length ≤ outSz) (rdStep outSz ev c s).2 := by
  cases s <;> cases ev <;> try exact h
  case send.send buf idx res err p =>
    cases res
    · exact safe_ite (fun _ => True.intro) (fun _ => True.intro)
    · exact safe_ite (fun _ => True.intro) (fun _ => Nat.zero_le _)
  case head.read got k err =>
    simp only [rdStep]
    have hc := getHeader_cases k err c got h
    generalize getHeader k err c got = r at hc ⊢
    obtain ⟨c', hd⟩ := r
    simp only at hc
    rcases hc with ⟨got', rfl, h1⟩ | ⟨z, rfl⟩ | ⟨type, id, sz, rfl, h1, h2, _⟩
    · exact safe_ite (fun _ => h1) (fun _ => True.intro)
    · refine safe_ite (fun _ => Nat.zero_le _) (fun _ => ?_)
      cases z
      · exact True.intro
      · exact Nat.zero_le _
    · exact safe_ite (fun _ => True.intro) (fun _ => safe_ite (fun _ => True.intro) (fun _ => safe_ite (fun _ => ⟨h2, Nat.zero_le _⟩) (fun _ => True.intro)))
  case flat.stream res err junk =>
    cases res with
    | error e => exact safe_ite (fun _ => True.intro) (fun _ => True.intro)
    | ok k =>
      refine rdFlat_safe _ _ ?_
      simp only [cmin_eq]
      simp; omega
  case rest.stream left got res err junk =>
    cases res with
    | error e => exact safe_ite (fun _ => h) (fun _ => True.intro)
    | ok k =>
      simp only [rdStep, cmin_eq]
      simp only [RdOk] at h
      refine safe_ite (fun _ => safe_ite (fun _ => h) (fun _ => True.intro)) (fun hl => safe_ite (fun hu => ?_) (fun hu => ?_))
      · simp at hu; omega
      · simp only
        by_cases h0 : left - min k (min left c.inp.length) ≠ 0
        · rw [if_pos h0]; simp only [Safe, RdOk]; simp; omega
        · rw [if_neg h0]; simp only [Safe]; simp at hu ⊢; omega
  case status.read sz got k err =>
    have hle := bufRead_le sz k err c got h.2
    have h31 := h.1
    refine safe_ite (fun _ => ?_) (fun _ => safe_ite (fun _ => ⟨h31, hle⟩) (fun _ => True.intro))
    rcases status_cases _ (show (bufRead sz k err c got).2.2.length < 2 ^ 32 by omega) with ⟨code, i, hd, _⟩ | ⟨e, i, hd⟩
    · rw [hd]
      simp only
      by_cases hk : code = FTP_OK ∨ code = FTP_EOF
      · rw [if_pos hk]; exact Nat.zero_le _
      · rw [if_neg hk]; exact True.intro
    · rw [hd]; exact True.intro

def WrOk : Wr → Prop
  | .send _ _ => True
  | .body _ => True
  | .head got => got.length ≤ 9
  | .status sz got => sz < 2 ^ 31 ∧ got.length ≤ sz

theorem wrStep_safe (data : Bytes) (ev : Ev) (c : Chan) (s : Wr) (h : WrOk s) :
    Safe WrOk (fun n => n = data.length) (wrStep data ev c s).2 := by
  cases s <;> cases ev <;> try exact h
  case send.send buf idx res err p =>
    cases res
    · exact safe_ite (fun _ => True.intro) (fun _ => True.intro)
    · exact safe_ite (fun _ => True.intro) (fun _ => True.intro)
  case body.body rest res err p =>
    cases res
    · exact safe_ite (fun _ => True.intro) (fun _ => True.intro)
    · exact safe_ite (fun _ => True.intro) (fun _ => Nat.zero_le _)
  case head.read got k err =>
    simp only [wrStep]
    have hc := getHeader_cases k err c got h
    generalize getHeader k err c got = r at hc ⊢
    obtain ⟨c', hd⟩ := r
    simp only at hc
    rcases hc with ⟨got', rfl, h1⟩ | ⟨z, rfl⟩ | ⟨type, id, sz, rfl, h1, h2, _⟩
    · exact safe_ite (fun _ => h1) (fun _ => True.intro)
    · exact safe_ite (fun _ => Nat.zero_le _) (fun _ => True.intro)
    · exact safe_ite (fun _ => True.intro) (fun _ => safe_ite (fun _ => True.intro) (fun _ => ⟨h2, Nat.zero_le _⟩))
  case status.read sz got k err =>
    have hle := bufRead_le sz k err c got h.2
    have h31 := h.1
    refine safe_ite (fun _ => ?_) (fun _ => safe_ite (fun _ => ⟨h31, hle⟩) (fun _ => True.intro))
    rcases status_cases _ (show (bufRead sz k err c got).2.2.length < 2 ^ 32 by omega) with ⟨code, i, hd, _⟩ | ⟨e, i, hd⟩
    · rw [hd]
      simp only
      by_cases hk : code = FTP_OK
      · rw [if_pos hk]; exact rfl
      · rw [if_neg hk]; exact True.intro
    · rw [hd]; exact True.intro

def ClOk : Close → Prop
  | .send => True
  | .head got => got.length ≤ 9
  | .status sz got => sz < 2 ^ 31 ∧ got.length ≤ sz

theorem closeStep_safe (handle : Bytes) (ev : Ev) (c : Chan) (s : Close) (h : ClOk s) :
    Safe ClOk (fun _ => True) (closeStep handle ev c s).2 := by
  cases s <;> cases ev <;> try exact h
  case send.send res err p =>
    simp only [closeStep]
    generalize sendType res err 4 handle c = r
    obtain ⟨c', o⟩ := r
    match o with
    | none => exact True.intro
    | some b => exact safe_ite (fun _ => True.intro) (fun _ => safe_ite (fun _ => Nat.zero_le _) (fun _ => True.intro))
  case head.read got k err =>
    simp only [closeStep]
    have hc := getHeader_cases k err c got h
    generalize getHeader k err c got = r at hc ⊢
    obtain ⟨c', hd⟩ := r
    simp only at hc
    rcases hc with ⟨got', rfl, h1⟩ | ⟨z, rfl⟩ | ⟨type, id, sz, rfl, h1, h2, _⟩
    · exact safe_ite (fun _ => h1) (fun _ => True.intro)
    · exact safe_ite (fun _ => Nat.zero_le _) (fun _ => True.intro)
    · exact safe_ite (fun _ => True.intro) (fun _ => ⟨h2, Nat.zero_le _⟩)
  case status.read sz got k err =>
    have hle := bufRead_le sz k err c got h.2
    have h31 := h.1
    refine safe_ite (fun _ => ?_) (fun _ => safe_ite (fun _ => ⟨h31, hle⟩) (fun _ => True.intro))
    rcases status_cases _ (show (bufRead sz k err c got).2.2.length < 2 ^ 32 by omega) with ⟨code, i, hd, _⟩ | ⟨e, i, hd⟩
    · rw [hd]
      simp only
      by_cases hk : code = FTP_OK
      · rw [if_pos hk]; exact True.intro
      · rw [if_neg hk]; exact True.intro
    · rw [hd]; exact True.intro

end Proofs.SftpClient
