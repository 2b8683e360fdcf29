import Verif.Proofs.ScpSendDisk
/-! # The sending side with its default callback -/

namespace Proofs.Scp
open Wolf (Byte Bytes add32)
open Wolf.Scp Spec.Scp

/-- What a step leaves of the session: the options, the name, and the kind of request. -/
def Same (s s' : Source) : Prop :=
  s'.recurse = s.recurse ∧ s'.times = s.times ∧ (s'.req = s.req ∨ s'.req = .cont ∨ (s'.req = .recursive ∧ s.recurse = true))

def Kept (s s' : Source) : Prop := s'.info = s.info ∨ s'.info = { s.info with atime := 0, mtime := 0 }

theorem same_refl (s : Source) : Same s s := ⟨rfl, rfl, Or.inl rfl⟩

theorem afterSend_same (s : Source) : Same s (afterSend s) ∧ Kept s (afterSend s) := by
  unfold afterSend
  by_cases h1 : s.buf ≠ []
  · rw [if_pos h1]; exact ⟨same_refl s, Or.inl rfl⟩
  · rw [if_neg h1]
    by_cases h2 : s.off < s.info.size
    · rw [if_pos h2]
      by_cases h3 : s.stuck = true
      · rw [if_pos h3]; exact ⟨⟨rfl, rfl, Or.inl rfl⟩, Or.inl rfl⟩
      · rw [if_neg h3]; exact ⟨⟨rfl, rfl, Or.inr (Or.inl rfl)⟩, Or.inl rfl⟩
    · rw [if_neg h2]
      by_cases h3 : s.recurse = true
      · rw [if_pos h3]; exact ⟨⟨rfl, rfl, Or.inr (Or.inr ⟨rfl, h3⟩)⟩, Or.inr rfl⟩
      · rw [if_neg h3]; exact ⟨⟨rfl, rfl, Or.inl rfl⟩, Or.inl rfl⟩

/-- No question for an entry. -/
def Mute (os : List SrcOut) : Prop := ∀ e ∈ os, ∀ r off a m, e = .call r off a m → r = .newRequest

theorem srcStep_same (s : Source) (i : SrcIn) (h : s.st ≠ .transfer) :
    Same s (srcStep s i).1 ∧ Kept s (srcStep s i).1 ∧ Mute (srcStep s i).2 := by
  have hm0 : Mute [] := by intro e he; simp at he
  have hmsg : ∀ s' t, Same s s' → Kept s s' → Same s (sendMsg s s' t i).1 ∧ Kept s (sendMsg s s' t i).1 ∧ Mute (sendMsg s s' t i).2 := by
    intro s' t h1 h2
    unfold sendMsg
    cases i.snd with
    | sent n =>
      simp only
      split
      · exact ⟨h1, h2, by intro e he; simp at he; subst he; simp⟩
      · exact ⟨same_refl s, Or.inl rfl, by intro e he; simp at he; subst he; simp⟩
    | want => exact ⟨same_refl s, Or.inl rfl, hm0⟩
    | ext => exact ⟨same_refl s, Or.inl rfl, hm0⟩
    | fail => exact ⟨same_refl s, Or.inl rfl, hm0⟩
  have hconf : ∀ s', Same s s' → Kept s s' → Same s (srcConfirm s s' i).1 ∧ Kept s (srcConfirm s s' i).1 ∧ Mute (srcConfirm s s' i).2 := by
    intro s' h1 h2
    unfold srcConfirm
    cases i.snd with
    | sent n =>
      simp only
      split
      · exact ⟨same_refl s, Or.inl rfl, by intro e he; simp at he; subst he; simp⟩
      · split
        · exact ⟨h1, h2, by intro e he; simp at he; subst he; simp⟩
        · exact ⟨same_refl s, Or.inl rfl, hm0⟩
    | want => exact ⟨same_refl s, Or.inl rfl, hm0⟩
    | ext => exact ⟨same_refl s, Or.inl rfl, hm0⟩
    | fail => exact ⟨same_refl s, Or.inl rfl, hm0⟩
  have hhear : ∀ s', Same s s' → Kept s s' → Same s (srcHear s s' i).1 ∧ Kept s (srcHear s s' i).1 ∧ Mute (srcHear s s' i).2 := by
    intro s' h1 h2
    unfold srcHear
    cases i.rd with
    | take =>
      simp only
      split
      · exact ⟨same_refl s, Or.inl rfl, hm0⟩
      · split
        · exact ⟨h1, h2, by intro e he; simp at he; subst he; simp⟩
        · exact ⟨same_refl s, Or.inl rfl, hm0⟩
    | zero => exact ⟨h1, h2, by intro e he; simp at he; subst he; simp⟩
    | ext => exact ⟨h1, h2, by intro e he; simp at he; subst he; simp⟩
    | spin => exact ⟨same_refl s, Or.inl rfl, hm0⟩
    | want => exact ⟨same_refl s, Or.inl rfl, hm0⟩
    | eof => exact ⟨same_refl s, Or.inl rfl, hm0⟩
    | fail => exact ⟨same_refl s, Or.inl rfl, hm0⟩
  have st0 : ∀ s' : Source, s'.recurse = s.recurse → s'.times = s.times → s'.req = s.req → Same s s' :=
    fun s' a b c => ⟨a, b, Or.inl c⟩
  unfold srcStep
  cases hst : s.st with
  | transfer => exact absurd hst h
  | begin =>
    have hm : Mute [.call .newRequest 0 i.ans {}] := by
      intro e he r off a m hh
      simp at he; subst he; cases hh; rfl
    simp only
    split
    · exact ⟨st0 _ rfl rfl rfl, Or.inl rfl, hm⟩
    · split
      · exact ⟨st0 _ rfl rfl rfl, Or.inl rfl, hm⟩
      · exact ⟨st0 _ rfl rfl rfl, Or.inl rfl, hm⟩
  | init => exact ⟨st0 _ rfl rfl rfl, Or.inl rfl, hm0⟩
  | sendConf => exact hconf _ (st0 _ rfl rfl rfl) (Or.inl rfl)
  | confReceipt => exact hconf _ (st0 _ rfl rfl rfl) (Or.inl rfl)
  | recvConfReceipt => exact hhear _ (st0 _ rfl rfl rfl) (Or.inl rfl)
  | recvConf => exact hhear _ (st0 _ rfl rfl rfl) (Or.inl rfl)
  | sendTimes => exact hmsg _ _ (st0 _ rfl rfl rfl) (Or.inl rfl)
  | enterDir => exact hmsg _ _ (st0 _ rfl rfl rfl) (Or.inl rfl)
  | exitDir => exact hmsg _ _ (st0 _ rfl rfl rfl) (Or.inl rfl)
  | exitDirFinal => exact hmsg _ _ (st0 _ rfl rfl rfl) (Or.inl rfl)
  | sendHeader => exact hmsg _ _ (st0 _ rfl rfl rfl) (Or.inl rfl)
  | sendFile =>
    simp only
    unfold sendFile
    by_cases hb : s.buf = []
    · rw [if_pos hb]; exact ⟨(afterSend_same s).1, (afterSend_same s).2, hm0⟩
    · rw [if_neg hb]
      cases i.snd with
      | sent n =>
        obtain ⟨h1, h2⟩ := afterSend_same { s with off := add32 s.off (s.buf.take n).length, buf := s.buf.drop n, stuck := if s.buf.take n = [] then s.stuck else false }
        exact ⟨h1, h2, by intro e he; simp at he; subst he; simp⟩
      | want => exact ⟨same_refl s, Or.inl rfl, hm0⟩
      | ext => exact ⟨same_refl s, Or.inl rfl, hm0⟩
      | fail => exact ⟨same_refl s, Or.inl rfl, hm0⟩
  | done => exact ⟨same_refl s, Or.inl rfl, hm0⟩
  | dead => exact ⟨same_refl s, Or.inl rfl, hm0⟩
  | crash => exact ⟨same_refl s, Or.inl rfl, hm0⟩

/-- It cannot come to a good end any more. -/
def Doomed (s : Source) : Prop := s.st = .dead ∨ s.st = .crash ∨ (s.st = .sendConf ∧ s.confirm = .abort)

theorem doomed_step (s : Source) (i : SrcIn) (h : Doomed s) : Doomed (srcStep s i).1 := by
  unfold srcStep
  rcases h with h | h | ⟨h, hc⟩
  · simp only [h]; exact Or.inl h
  · simp only [h]; exact Or.inr (Or.inl h)
  · simp only [h]
    unfold srcConfirm
    cases i.snd with
    | sent n => simp only; rw [if_pos hc]; exact Or.inl rfl
    | want => exact Or.inr (Or.inr ⟨h, hc⟩)
    | ext => exact Or.inl rfl
    | fail => exact Or.inl rfl

theorem srcStep_transfer (s : Source) (i : SrcIn) (h : s.st = .transfer) :
    Same s (srcStep s i).1 ∧ (srcStep s i).1.info = i.info ∧ (srcStep s i).2 = [.call s.req s.off i.ans i.info] ∧
      (i.ans = .abort ∨ i.ans = .eof ∨ i.ans = .fail → Doomed (srcStep s i).1) := by
  unfold srcStep
  simp only [h]
  unfold transfer
  cases ha : i.ans with
  | data b =>
    simp only
    (repeat' split) <;> exact ⟨⟨rfl, rfl, Or.inl rfl⟩, rfl, rfl, by simp⟩
  | abort => exact ⟨⟨rfl, rfl, Or.inl rfl⟩, rfl, rfl, fun _ => Or.inr (Or.inr ⟨rfl, rfl⟩)⟩
  | eof => exact ⟨⟨rfl, rfl, Or.inl rfl⟩, rfl, rfl, fun _ => Or.inl rfl⟩
  | fail => exact ⟨⟨rfl, rfl, Or.inl rfl⟩, rfl, rfl, fun _ => Or.inl rfl⟩
  | enterDir => exact ⟨⟨rfl, rfl, Or.inl rfl⟩, rfl, rfl, by simp⟩
  | exitDir => exact ⟨⟨rfl, rfl, Or.inl rfl⟩, rfl, rfl, by simp⟩
  | exitDirFinal => exact ⟨⟨rfl, rfl, Or.inl rfl⟩, rfl, rfl, by simp⟩
  | complete => exact ⟨⟨rfl, rfl, Or.inl rfl⟩, rfl, rfl, by simp⟩

/-- The kind of request fits the options. -/
def ReqOk (s : Source) : Prop := s.req ≠ .newRequest ∧ s.req ≠ (if s.recurse then .single else .recursive)

theorem reqOk_same {s s' : Source} (h : Same s s') (ho : ReqOk s) : ReqOk s' := by
  obtain ⟨h1, h2, h3⟩ := h
  unfold ReqOk at ho ⊢
  rw [h1]
  rcases h3 with h3 | h3 | ⟨h3, h4⟩
  · rw [h3]; exact ho
  · rw [h3]; constructor
    · simp
    · split <;> simp
  · rw [h3, h4]; simp

theorem like_kept {s s' : Source} {m : Meta} (h : Kept s s') (hl : Like s.info m) : Like s'.info m := by
  rcases h with h | h
  · rw [h]; exact hl
  · rw [h]
    rcases hl with e | e
    · rw [e]; exact Or.inr rfl
    · rw [e]; exact Or.inr rfl

theorem served_mute {base : Bytes} {v : View} {d : SendDisk} {m : Meta} : ∀ {os os' : List SrcOut}, Mute os → Served base v d m os' →
    Served base v d m (os ++ os')
  | [], _, _, h => h
  | e :: os, os', hm, h => by
    have ih := served_mute (os := os) (fun e he => hm e (List.mem_cons_of_mem _ he)) h
    rw [List.cons_append]
    cases e with
    | call r off a m' =>
      have := hm _ (List.mem_cons_self ..) _ _ _ _ rfl
      unfold Served
      rw [if_pos this]
      exact ih
    | wrote b => unfold Served; exact ih
    | nak => unfold Served; exact ih
    | conf g => unfold Served; exact ih

theorem mute_fair {o : Opts} {os : List SrcOut} (h : Mute os) : ∀ e ∈ os, Fair o e := by
  intro e he
  unfold Fair
  cases e with
  | call r off a m =>
    have := h _ he _ _ _ _ rfl
    subst this
    refine ⟨by split <;> simp, fun h => absurd rfl h⟩
  | wrote b => trivial
  | nak => trivial
  | conf g => trivial

theorem doomed_run (base : Bytes) : ∀ (es : List CopyEv) (c : Copier), Doomed c.src → Doomed (copyRun base c es).1.src
  | [], _, h => h
  | e :: es, c, h => by
    unfold copyRun
    refine doomed_run base es _ ?_
    cases e with
    | arrive bs => exact h
    | step rd snd j =>
      have ht : c.src.st ≠ .transfer := by
        rcases h with h | h | ⟨h, _⟩ <;> rw [h] <;> simp
      simp only [copyNext]
      rw [if_neg ht]
      exact doomed_step _ _ h

theorem copy_ok (base : Bytes) (v : View) : ∀ (es : List CopyEv) (c : Copier) (m : Meta), Like c.src.info m → ReqOk c.src →
    (∀ e ∈ es, Still v e) → ∃ es', srcRun c.src es' = ((copyRun base c es).1.src, (copyRun base c es).2) ∧
      Served base v c.disk m (copyRun base c es).2 ∧
      ((copyRun base c es).1.src.st = .done → ∀ e ∈ (copyRun base c es).2, Fair ⟨c.src.recurse, c.src.times⟩ e)
  | [], c, m, _, _, _ => ⟨[], rfl, trivial, by intro _ e he; simp [copyRun] at he⟩
  | e :: es, c, m, hl, hr, hst => by
    have hst' : ∀ e ∈ es, Still v e := fun e he => hst e (List.mem_cons_of_mem _ he)
    have he := hst _ (List.mem_cons_self ..)
    unfold copyRun
    cases e with
    | arrive bs =>
      obtain ⟨es', h1, h2, h3⟩ := copy_ok base v es (copyNext base c (.arrive bs)).1 m hl hr hst'
      refine ⟨.arrive bs :: es', ?_, h2, h3⟩
      unfold srcRun
      have : (srcNext c.src (.arrive bs)).1 = (copyNext base c (.arrive bs)).1.src := rfl
      rw [this, h1]
      rfl
    | step rd snd j =>
      have hj : j.view = v := he
      by_cases ht : c.src.st = .transfer
      · obtain ⟨d, a, m', hcb⟩ : ∃ d a m', sendCb base c.disk c.src.req c.src.off c.src.info (PART_SZ - c.src.buf.length) j = (d, a, m') :=
          ⟨_, _, _, rfl⟩
        have hn : copyNext base c (.step rd snd j) = (⟨(srcStep c.src { rd := rd, snd := snd, ans := a, info := m' }).1, d⟩,
            (srcStep c.src { rd := rd, snd := snd, ans := a, info := m' }).2) := by
          simp only [copyNext]; rw [if_pos ht, hcb]
        obtain ⟨t1, t2, t3, t4⟩ := srcStep_transfer c.src { rd := rd, snd := snd, ans := a, info := m' } ht
        obtain ⟨es', h1, h2, h3⟩ := copy_ok base v es ⟨(srcStep c.src { rd := rd, snd := snd, ans := a, info := m' }).1, d⟩ m' (Or.inl t2)
          (reqOk_same t1 hr) hst'
        have hfin : ∀ es, (copyRun base ⟨(srcStep c.src { rd := rd, snd := snd, ans := a, info := m' }).1, d⟩ es).1.src.st = .done →
            a ≠ .abort ∧ a ≠ .eof ∧ a ≠ .fail := by
          intro es hd
          have key : ¬ (a = .abort ∨ a = .eof ∨ a = .fail) := by
            intro hbad
            have := doomed_run base es ⟨_, d⟩ (t4 hbad)
            unfold Doomed at this
            rw [hd] at this
            simp at this
          exact ⟨fun h => key (Or.inl h), fun h => key (Or.inr (Or.inl h)), fun h => key (Or.inr (Or.inr h))⟩
        rw [hn]
        simp only
        refine ⟨.step { rd := rd, snd := snd, ans := a, info := m' } :: es', ?_, ?_, ?_⟩
        · unfold srcRun
          simp only [srcNext]
          rw [h1]
        · rw [t3]
          show Served base v c.disk m (.call c.src.req c.src.off a m' :: _)
          unfold Served
          rw [if_neg hr.1]
          exact ⟨_, _, _, _, hl, hj, hcb, h2⟩
        · intro hd e he
          rcases List.mem_append.mp he with he | he
          · rw [t3] at he
            simp only [List.mem_singleton] at he
            subst he
            exact ⟨hr.2, fun _ => hfin es hd⟩
          · have := h3 hd e he
            rw [t1.1, t1.2.1] at this
            exact this
      · have hn : copyNext base c (.step rd snd j) = (⟨(srcStep c.src { rd := rd, snd := snd, ans := .data [], info := c.src.info }).1, c.disk⟩,
            (srcStep c.src { rd := rd, snd := snd, ans := .data [], info := c.src.info }).2) := by
          simp only [copyNext]; rw [if_neg ht]
        obtain ⟨t1, t2, t3⟩ := srcStep_same c.src { rd := rd, snd := snd, ans := .data [], info := c.src.info } ht
        obtain ⟨es', h1, h2, h3⟩ := copy_ok base v es
          ⟨(srcStep c.src { rd := rd, snd := snd, ans := .data [], info := c.src.info }).1, c.disk⟩ m (like_kept t2 hl)
          (reqOk_same t1 hr) hst'
        rw [hn]
        simp only
        refine ⟨.step { rd := rd, snd := snd, ans := .data [], info := c.src.info } :: es', ?_, served_mute t3 h2, ?_⟩
        · unfold srcRun
          simp only [srcNext]
          rw [h1]
        · intro hd e he
          rcases List.mem_append.mp he with he | he
          · exact mute_fair t3 e he
          · have := h3 hd e he
            rw [t1.1, t1.2.1] at this
            exact this

/-- The first that is seen is the question whether to send at all, which this callback agrees to. -/
theorem copy_first (base : Bytes) : ∀ (es : List CopyEv) (c : Copier), c.src.st = .begin →
    (copyRun base c es).1.src.st = .begin ∨ ∃ rest, (copyRun base c es).2 = .call .newRequest 0 (.data []) {} :: rest
  | [], _, h => Or.inl h
  | e :: es, c, h => by
    unfold copyRun
    cases e with
    | arrive bs => exact copy_first base es _ h
    | step rd snd j =>
      refine Or.inr ⟨(copyRun base (copyNext base c (.step rd snd j)).1 es).2, ?_⟩
      have : (copyNext base c (.step rd snd j)).2 = [.call .newRequest 0 (.data []) {}] := by
        simp only [copyNext]
        rw [if_neg (by rw [h]; simp)]
        unfold srcStep
        simp only [h]
        rfl
      rw [this]
      rfl

/-- All together. -/
theorem copy_done (base : Bytes) (v : View) (es : List CopyEv) (c : Copier) (is : List Item) (h0 : c.src.st = .begin)
    (hr : c.src.req = (if c.src.recurse then .recursive else .single)) (hstill : ∀ e ∈ es, Still v e)
    (hd : (copyRun base c es).1.src.st = .done) (hat : At base v ⟨c.src.recurse, c.src.times⟩ c.disk c.src.info none none is) :
    ∃ es', srcRun c.src es' = ((copyRun base c es).1.src, (copyRun base c es).2) ∧ Agreed (copyRun base c es).2 ∧
      supplied ⟨c.src.recurse, c.src.times⟩ none (answers (copyRun base c es).2) = some is ∧
      ∀ x ∈ answers (copyRun base c es).2, Fits x.2 := by
  have hro : ReqOk c.src := by
    unfold ReqOk
    rw [hr]
    split <;> simp
  have hrr : c.src.req = .single ∨ c.src.req = .recursive := by rw [hr]; split <;> simp
  obtain ⟨es', h1, h2, h3⟩ := copy_ok base v es c c.src.info (Or.inl rfl) hro hstill
  have hf := h3 hd
  obtain ⟨_, _, t', hfold, hgood⟩ := srcRun_keeps es' c.src {} (Or.inr ⟨rfl, by
    simp only [SInv, h0]; exact ⟨trivial, trivial, trivial, trivial, hrr⟩⟩)
  rw [h1] at hfold hgood
  have hover : t'.over = true ∨ t'.excused = true := by
    rcases hgood with h | ⟨_, h⟩
    · exact Or.inr h
    · simp only [SInv, hd] at h; exact Or.inl h.1
  rcases copy_first base es c h0 with hb | ⟨rest, hrest⟩
  · rw [hd] at hb; cases hb
  · refine ⟨es', h1, ⟨_, _, rest, hrest, by simp, by simp⟩, ?_⟩
    simp only at hfold
    rw [hrest] at h2 hf hfold ⊢
    have hans : answers (.call .newRequest 0 (.data []) {} :: rest) = answers rest := by simp [answers]
    rw [hans]
    unfold Served at h2
    rw [if_pos rfl] at h2
    rw [List.foldlM_cons] at hfold
    have hc : comply ⟨c.src.recurse, c.src.times⟩ {} (.call .newRequest 0 (.data []) {}) = some { asked := true, duty := [.hear] } := by
      simp [comply]
    rw [hc] at hfold
    exact claim_all base v _ rest c.disk c.src.info { asked := true, duty := [.hear] } t' none is h2 hfold hover rfl rfl rfl
      (fun e he => hf e (List.mem_cons_of_mem _ he)) hat

end Proofs.Scp
