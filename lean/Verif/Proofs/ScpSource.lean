import Verif.Spec.ScpSource
/-! # Proofs about the sending side of SCP -/

namespace Proofs.Scp
open Wolf (Byte Bytes)
open Wolf.Scp Spec.Scp

/-- Between two questions to the callback. -/
def Idle (s : Source) (t : Talk) : Prop :=
  t.asked = true ∧ t.over = false ∧ s.buf = [] ∧
    ((t.sent = none ∧ s.off = 0 ∧ s.hdr = false ∧ (s.req = .single ∨ s.req = .recursive)) ∨
      (t.sent = some s.off ∧ s.hdr = true ∧ s.req = .cont))

/-- What is in the buffer is to be sent; `ds` are the duties from there on. -/
def After (s : Source) (t : Talk) (ds : List Duty) : Prop :=
  t.asked = true ∧ s.confirm = .go ∧ s.off + s.buf.length < 4294967296 ∧
    if s.off + s.buf.length < s.info.size then
      t.sent = some (s.off + s.buf.length) ∧ t.over = false ∧ ds = [.say s.buf]
    else t.sent = none ∧ t.over = (!s.recurse) ∧ ds = [.say s.buf, .say [0], .hear]

def header (s : Source) : Bytes := fileHeader s.info.mode s.info.size s.info.name
def stamp (s : Source) : Bytes := timesHeader s.info.mtime s.info.atime

def last (s : Source) : Duty := if s.confirm = .abort then .sayError else .say [0]

def SInv (s : Source) (t : Talk) : Prop :=
  match s.st with
  | .begin => t.asked = false ∧ t.sent = none ∧ t.over = false ∧ t.duty = [] ∧ (s.req = .single ∨ s.req = .recursive)
  | .init => t.asked = true ∧ t.sent = none ∧ t.over = false ∧ t.duty = [.hear] ∧ (s.req = .single ∨ s.req = .recursive)
  | .sendConf => t.over = true ∧ s.next = .done ∧ t.duty = [last s]
  | .recvConfReceipt => t.over = true ∧ s.next = .done ∧ t.duty = [.hear, last s]
  | .confReceipt => s.confirm = .go ∧ t.duty = [.say [0], .hear] ∧
      ((s.next = .transfer ∧ Idle s t) ∨ (s.next = .done ∧ t.over = true))
  | .recvConf => (s.next = .transfer ∧ Idle s t ∧ t.duty = [.hear]) ∨ (s.next = .done ∧ t.over = true ∧ t.duty = [.hear]) ∨
      (s.next = .sendHeader ∧ ∃ ds, After s t ds ∧ t.duty = .hear :: .say (header s) :: .hear :: ds) ∨
      (s.next = .sendFile ∧ s.hdr = true ∧ ∃ ds, After s t ds ∧ t.duty = .hear :: ds)
  | .transfer => Idle s t ∧ t.duty = []
  | .sendTimes => ∃ ds, After s t ds ∧ t.duty = .say (stamp s) :: .hear :: .say (header s) :: .hear :: ds
  | .enterDir => Idle s t ∧ t.duty = [.say (dirHeader s.info.mode s.info.name), .hear]
  | .exitDir => Idle s t ∧ t.duty = [.say [69, 10], .hear]
  | .exitDirFinal => t.over = true ∧ t.duty = [.say [69, 10], .hear]
  | .sendHeader => ∃ ds, After s t ds ∧ t.duty = .say (header s) :: .hear :: ds
  | .sendFile => s.hdr = true ∧ ∃ ds, After s t ds ∧ t.duty = trim ds
  | .done => t.over = true ∧ t.duty = []
  | .dead | .crash => True

def SGood (s : Source) (t : Talk) : Prop := t.excused = true ∨ (t.excused = false ∧ SInv s t)

/-- The options do not change, and after the outputs the talk is where the sender is. -/
def Keeps (s : Source) (t : Talk) (r : Source × List SrcOut) : Prop :=
  r.1.recurse = s.recurse ∧ r.1.times = s.times ∧
    ∃ t', r.2.foldlM (comply ⟨s.recurse, s.times⟩) t = some t' ∧ SGood r.1 t'

theorem keeps_same (s : Source) (t : Talk) (h : SGood s t) : Keeps s t (s, []) := ⟨rfl, rfl, t, rfl, h⟩

theorem keeps_end (s s' : Source) (t : Talk) (h : SGood s t) (h1 : s'.recurse = s.recurse) (h2 : s'.times = s.times)
    (h3 : s'.st = .dead) : Keeps s t (s', []) :=
  ⟨h1, h2, t, rfl, by
    rcases h with h | ⟨h, _⟩
    · exact Or.inl h
    · refine Or.inr ⟨h, ?_⟩; simp only [SInv, h3]⟩

theorem foldlM_excused (o : Opts) (t : Talk) (h : t.excused = true) (os : List SrcOut) :
    os.foldlM (comply o) t = some t := by
  induction os with
  | nil => rfl
  | cons e es ih =>
    have : comply o t e = some t := by unfold comply; rw [if_pos h]
    simp only [List.foldlM_cons, this]; exact ih

theorem foldlM_one (o : Opts) (t : Talk) (e : SrcOut) : [e].foldlM (comply o) t = comply o t e := by
  simp only [List.foldlM_cons, List.foldlM_nil]
  cases comply o t e <;> rfl

theorem comply_wrote (o : Opts) (t : Talk) (x b : Bytes) (ds : List Duty) (he : t.excused = false)
    (h : t.duty = .say x :: ds) (hb : b <+: x) :
    comply o t (.wrote b) = some { t with duty := trim (.say (x.drop b.length) :: ds) } := by
  unfold comply; rw [if_neg (by simp [he])]; simp only [h]; rw [if_pos hb]

theorem comply_conf (o : Opts) (t : Talk) (g : Bytes) (ds : List Duty) (he : t.excused = false)
    (h : t.duty = .hear :: ds) : comply o t (.conf g) = some { t with duty := trim ds } := by
  unfold comply; rw [if_neg (by simp [he])]; simp only [h]

/-- Sending a message that is due. -/
theorem keeps_msg (s s' : Source) (t : Talk) (x : Bytes) (ds : List Duty) (i : SrcIn) (h : SGood s t)
    (hd : t.excused = false → t.duty = .say x :: ds) (h1 : s'.recurse = s.recurse) (h2 : s'.times = s.times)
    (hn : t.excused = false → SInv s' { t with duty := trim ds }) : Keeps s t (sendMsg s s' x i) := by
  unfold sendMsg
  cases i.snd with
  | want => exact keeps_same s t h
  | ext => exact keeps_end s _ t h rfl rfl rfl
  | fail => exact keeps_end s _ t h rfl rfl rfl
  | sent n =>
    rcases h with he | ⟨he, hi⟩
    · by_cases hl : n ≥ x.length
      · simp only [if_pos hl]; exact ⟨h1, h2, t, foldlM_excused _ t he _, Or.inl he⟩
      · simp only [if_neg hl]; exact ⟨rfl, rfl, t, foldlM_excused _ t he _, Or.inl he⟩
    · by_cases hl : n ≥ x.length
      · simp only [if_pos hl]
        refine ⟨h1, h2, _, ?_, Or.inr ⟨?_, hn he⟩⟩
        · rw [foldlM_one, comply_wrote _ t x x ds he (hd he) (List.prefix_refl x)]
          simp only [List.drop_length, trim]
        · exact he
      · simp only [if_neg hl]
        refine ⟨rfl, rfl, { t with duty := trim (.say (x.drop (x.take n).length) :: ds) }, ?_, Or.inr ⟨he, trivial⟩⟩
        rw [foldlM_one, comply_wrote _ t x (x.take n) ds he (hd he) (List.take_prefix n x)]

theorem keeps_hear (s s' : Source) (t : Talk) (ds : List Duty) (i : SrcIn) (h : SGood s t)
    (hd : t.excused = false → t.duty = .hear :: ds) (h1 : s'.recurse = s.recurse) (h2 : s'.times = s.times)
    (hn : t.excused = false → ∀ c, SInv { s' with chan := c } { t with duty := trim ds }) :
    Keeps s t (srcHear s s' i) := by
  have conf : ∀ g c, Keeps s t ({ s' with chan := c }, [.conf g]) := by
    intro g c
    rcases h with he | ⟨he, hi⟩
    · exact ⟨h1, h2, t, foldlM_excused _ t he _, Or.inl he⟩
    · refine ⟨h1, h2, _, ?_, Or.inr ⟨?_, hn he c⟩⟩
      · rw [foldlM_one, comply_conf _ t g ds he (hd he)]
      · exact he
  unfold srcHear
  cases i.rd with
  | take =>
    cases hc : s.chan with
    | nil => exact keeps_same s t h
    | cons b bs =>
      by_cases hb : b = 0
      · simp only [if_pos hb]; exact conf _ _
      · simp only [if_neg hb]; exact keeps_end s _ t h rfl rfl rfl
  | zero => exact conf [] s'.chan
  | ext => exact conf [] s'.chan
  | spin => exact keeps_same s t h
  | want => exact keeps_same s t h
  | eof => exact keeps_end s _ t h rfl rfl rfl
  | fail => exact keeps_end s _ t h rfl rfl rfl

theorem keeps_confirm (s s' : Source) (t : Talk) (ds : List Duty) (i : SrcIn) (h : SGood s t)
    (hd : t.excused = false → t.duty = last s :: ds) (h1 : s'.recurse = s.recurse) (h2 : s'.times = s.times)
    (hn : t.excused = false → SInv s' { t with duty := trim ds }) : Keeps s t (srcConfirm s s' i) := by
  unfold srcConfirm
  cases i.snd with
  | want => exact keeps_same s t h
  | ext => exact keeps_end s _ t h rfl rfl rfl
  | fail => exact keeps_end s _ t h rfl rfl rfl
  | sent n =>
    rcases h with he | ⟨he, hi⟩
    · by_cases hc : s.confirm = .abort
      · simp only [if_pos hc]; exact ⟨rfl, rfl, t, foldlM_excused _ t he _, Or.inl he⟩
      · simp only [if_neg hc]
        by_cases hl : n ≥ 1
        · simp only [if_pos hl]; exact ⟨h1, h2, t, foldlM_excused _ t he _, Or.inl he⟩
        · simp only [if_neg hl]; exact ⟨rfl, rfl, t, foldlM_excused _ t he _, Or.inl he⟩
    · by_cases hc : s.confirm = .abort
      · simp only [if_pos hc]
        have hdd := hd he
        rw [last, if_pos hc] at hdd
        refine ⟨rfl, rfl, { t with duty := ds }, ?_, Or.inr ⟨he, trivial⟩⟩
        rw [foldlM_one]; unfold comply; rw [if_neg (by simp [he])]; simp only [hdd]
      · simp only [if_neg hc]
        have hdd := hd he
        rw [last, if_neg hc] at hdd
        by_cases hl : n ≥ 1
        · simp only [if_pos hl]
          refine ⟨h1, h2, _, ?_, Or.inr ⟨?_, hn he⟩⟩
          · rw [foldlM_one, comply_wrote _ t [0] [0] ds he hdd (List.prefix_refl _)]
            simp only [List.drop_length, trim]
          · exact he
        · simp only [if_neg hl]; exact keeps_end s _ t (Or.inr ⟨he, hi⟩) rfl rfl rfl

theorem snprintf_ne (b : Byte) (x : Bytes) : snprintf (b :: x) ≠ [] := by
  unfold snprintf MSG_SZ; simp

theorem header_ne (s : Source) : header s ≠ [] := by
  unfold header fileHeader; simp only [List.cons_append]; exact snprintf_ne _ _

theorem stamp_ne (s : Source) : stamp s ≠ [] := by
  unfold stamp timesHeader; simp only [List.cons_append]; exact snprintf_ne _ _

theorem trim_say (x : Bytes) (ds : List Duty) (h : x ≠ []) : trim (.say x :: ds) = .say x :: ds := by
  cases x with
  | nil => exact absurd rfl h
  | cons b bs => simp only [trim]

/-- When the buffer has been sent. -/
theorem after_next (s : Source) (t : Talk) (ds : List Duty) (he : t.excused = false) (h : After s t ds) (hh : s.hdr = true)
    (hst : s.st = .sendFile) (t' : Talk) (ht : t' = { t with duty := trim ds }) :
    (afterSend s).recurse = s.recurse ∧ (afterSend s).times = s.times ∧ SGood (afterSend s) t' := by
  subst ht
  obtain ⟨ha, hc, hl, h⟩ := h
  unfold afterSend
  by_cases hb : s.buf = []
  · rw [if_neg (by simp [hb])]
    simp only [hb, List.length_nil, Nat.add_zero] at h hl
    by_cases hs : s.off < s.info.size
    · rw [if_pos hs]; rw [if_pos hs] at h
      obtain ⟨h1, h2, h3⟩ := h
      subst h3
      by_cases hk : s.stuck = true
      · rw [if_pos hk]; exact ⟨rfl, rfl, Or.inr ⟨he, trivial⟩⟩
      · rw [if_neg hk]
        refine ⟨rfl, rfl, Or.inr ⟨he, ?_⟩⟩
        exact ⟨⟨ha, h2, hb, Or.inr ⟨h1, hh, rfl⟩⟩, by simp only [trim]⟩
    · rw [if_neg hs]; rw [if_neg hs] at h
      obtain ⟨h1, h2, h3⟩ := h
      subst h3
      by_cases hr : s.recurse = true
      · rw [if_pos hr]
        refine ⟨rfl, rfl, Or.inr ⟨he, ?_⟩⟩
        refine ⟨hc, by simp only [trim], Or.inl ⟨rfl, ha, ?_, rfl, Or.inl ⟨h1, rfl, rfl, Or.inr rfl⟩⟩⟩
        simp only [h2, hr, Bool.not_true]
      · rw [if_neg hr]
        refine ⟨rfl, rfl, Or.inr ⟨he, ?_⟩⟩
        refine ⟨hc, by simp only [trim], Or.inr ⟨rfl, ?_⟩⟩
        have : s.recurse = false := by simpa using hr
        simp only [h2, this, Bool.not_false]
  · rw [if_pos hb]
    refine ⟨rfl, rfl, Or.inr ⟨he, ?_⟩⟩
    simp only [SInv, hst]
    exact ⟨hh, ds, ⟨ha, hc, hl, h⟩, rfl⟩

theorem keeps_sendFile (s : Source) (t : Talk) (i : SrcIn) (h : SGood s t) (hst : s.st = .sendFile) :
    Keeps s t (sendFile s i) := by
  rcases h with he | ⟨he, hi⟩
  · have hx : ∀ r : Source × List SrcOut, r.1.recurse = s.recurse → r.1.times = s.times → Keeps s t r :=
      fun r h1 h2 => ⟨h1, h2, t, foldlM_excused _ t he _, Or.inl he⟩
    have ha : ∀ s' : Source, (afterSend s').recurse = s'.recurse ∧ (afterSend s').times = s'.times := by
      intro s'; unfold afterSend; (repeat' split) <;> exact ⟨rfl, rfl⟩
    unfold sendFile
    (repeat' split)
    all_goals apply hx
    all_goals first | rfl | exact (ha _).1 | exact (ha _).2
  · have hi' := hi
    simp only [SInv, hst] at hi
    obtain ⟨hh, ds, ha, hd⟩ := hi
    unfold sendFile
    by_cases hb : s.buf = []
    · rw [if_pos hb]
      obtain ⟨h1, h2, h3⟩ := after_next s t ds he ha hh hst t (by cases t; simp_all)
      exact ⟨h1, h2, t, rfl, h3⟩
    · rw [if_neg hb]
      cases hn : i.snd with
      | want => exact keeps_same s t (Or.inr ⟨he, hi'⟩)
      | ext => exact keeps_same s t (Or.inr ⟨he, hi'⟩)
      | fail => exact keeps_end s _ t (Or.inr ⟨he, hi'⟩) rfl rfl rfl
      | sent n =>
        simp only
        obtain ⟨x1, x2, x3, x4⟩ := ha
        obtain ⟨es, hes⟩ : ∃ es, ds = .say s.buf :: es := by
          by_cases hs : s.off + s.buf.length < s.info.size
          · rw [if_pos hs] at x4; exact ⟨_, x4.2.2⟩
          · rw [if_neg hs] at x4; exact ⟨_, x4.2.2⟩
        have hlen : (s.buf.take n).length + (s.buf.drop n).length = s.buf.length := by
          simp only [List.length_take, List.length_drop]; omega
        have hadd : Wolf.add32 s.off (s.buf.take n).length = s.off + (s.buf.take n).length := by
          unfold Wolf.add32; rw [Nat.mod_eq_of_lt]; omega
        have hsum : s.off + (s.buf.take n).length + (s.buf.drop n).length = s.off + s.buf.length := by omega
        rw [hadd]
        have hA : ∀ k, After { s with off := s.off + (s.buf.take n).length, buf := s.buf.drop n, stuck := k } t (.say (s.buf.drop n) :: es) := by
          intro k
          refine ⟨x1, x2, ?_, ?_⟩
          · simp only [hsum]; exact x3
          · simp only [hsum]
            by_cases hs : s.off + s.buf.length < s.info.size
            · rw [if_pos hs] at x4 ⊢
              obtain ⟨a, b, c⟩ := x4
              rw [hes] at c
              exact ⟨a, b, by simp only [List.cons.injEq] at c; rw [c.2]⟩
            · rw [if_neg hs] at x4 ⊢
              obtain ⟨a, b, c⟩ := x4
              rw [hes] at c
              exact ⟨a, b, by simp only [List.cons.injEq] at c; rw [c.2]⟩
        obtain ⟨h1, h2, h3⟩ := after_next _ t _ he (hA _) hh hst _ rfl
        refine ⟨h1, h2, _, ?_, h3⟩
        rw [hes, trim_say _ _ hb] at hd
        rw [foldlM_one, comply_wrote _ t s.buf (s.buf.take n) es he hd (List.take_prefix n _)]
        have : s.buf.drop (s.buf.take n).length = s.buf.drop n := by
          rw [List.length_take]
          by_cases hl : n ≤ s.buf.length
          · rw [Nat.min_eq_left hl]
          · rw [Nat.min_eq_right (by omega), List.drop_length, List.drop_eq_nil_of_le (by omega)]
        rw [this]

theorem keeps_transfer (s : Source) (t : Talk) (i : SrcIn) (h : SGood s t) (hst : s.st = .transfer) :
    Keeps s t (transfer s i) := by
  rcases h with he | ⟨he, hi⟩
  · have hx : ∀ r : Source × List SrcOut, r.1.recurse = s.recurse → r.1.times = s.times → Keeps s t r :=
      fun r h1 h2 => ⟨h1, h2, t, foldlM_excused _ t he _, Or.inl he⟩
    unfold transfer
    cases i.ans <;> try exact hx _ rfl rfl
    simp only
    (repeat' split) <;> exact hx _ rfl rfl
  · simp only [SInv, hst] at hi
    obtain ⟨⟨ha, hov, hb, hc⟩, hd⟩ := hi
    have hcall : comply ⟨s.recurse, s.times⟩ t (.call s.req s.off i.ans i.info) =
        some (plan ⟨s.recurse, s.times⟩ t i.ans i.info) := by
      unfold comply
      rw [if_neg (by simp [he])]
      simp only [hd, hov, ne_eq, not_true_eq_false, Bool.false_eq_true, or_self, if_false, ha, Bool.true_eq_false]
      rcases hc with ⟨c1, c2, c3, c4⟩ | ⟨c1, c2, c3⟩
      · simp only [c1]; rw [if_pos ⟨c4, c2⟩]
      · simp only [c1]; rw [if_pos ⟨c3, trivial⟩]
    have go : ∀ s' : Source, s'.recurse = s.recurse → s'.times = s.times →
        SGood s' (plan ⟨s.recurse, s.times⟩ t i.ans i.info) →
        Keeps s t (s', [.call s.req s.off i.ans i.info]) :=
      fun s' h1 h2 h3 => ⟨h1, h2, _, by rw [foldlM_one, hcall], h3⟩
    unfold transfer
    cases hans : i.ans with
    | enterDir =>
      have := go { s with info := i.info, st := .enterDir, confirm := .other } rfl rfl
        (Or.inr ⟨by simp only [hans, plan, he], by
          simp only [hans, plan, SInv]
          exact ⟨⟨ha, hov, hb, hc⟩, trivial⟩⟩)
      rw [hans] at this; exact this
    | exitDir =>
      have := go { s with info := i.info, st := .exitDir, confirm := .other } rfl rfl
        (Or.inr ⟨by simp only [hans, plan, he], by
          simp only [hans, plan, SInv]
          exact ⟨⟨ha, hov, hb, hc⟩, trivial⟩⟩)
      rw [hans] at this; exact this
    | exitDirFinal =>
      have := go { s with info := i.info, st := .exitDirFinal, confirm := .other } rfl rfl
        (Or.inr ⟨by simp only [hans, plan, he], by
          simp only [hans, plan, SInv]
          exact ⟨trivial, trivial⟩⟩)
      rw [hans] at this; exact this
    | complete =>
      have := go { s with info := i.info, st := .done, confirm := .other } rfl rfl
        (Or.inr ⟨by simp only [hans, plan, he], by simp only [hans, plan, SInv, hd]; exact ⟨trivial, trivial⟩⟩)
      rw [hans] at this; exact this
    | abort =>
      have := go { s with info := i.info, st := .sendConf, next := .done, confirm := .abort } rfl rfl
        (Or.inr ⟨by simp only [hans, plan, he], by
          simp only [hans, plan, SInv]
          exact ⟨trivial, trivial, rfl⟩⟩)
      rw [hans] at this; exact this
    | eof =>
      have := go { s with info := i.info, st := .dead, confirm := .other } rfl rfl
        (Or.inr ⟨by simp only [hans, plan, he], by simp only [SInv]⟩)
      rw [hans] at this; exact this
    | fail =>
      have := go { s with info := i.info, st := .dead, confirm := .other } rfl rfl
        (Or.inr ⟨by simp only [hans, plan, he], by simp only [SInv]⟩)
      rw [hans] at this; exact this
    | data d =>
      simp only [hb, List.length_nil, Nat.sub_zero, List.nil_append]
      rw [hans] at go
      by_cases hl : d.length > PART_SZ
      · rw [if_pos hl]
        refine go _ rfl rfl ?_
        by_cases hex : (plan ⟨s.recurse, s.times⟩ t (.data d) i.info).excused = true
        · exact Or.inl hex
        · exact Or.inr ⟨by simpa using hex, trivial⟩
      · rw [if_neg hl]
        by_cases hbig : t.sent.getD 0 + d.length ≥ 4294967296
        · have hex : (plan ⟨s.recurse, s.times⟩ t (.data d) i.info).excused = true := by
            simp only [plan]; rw [if_pos hbig]
          (repeat' split) <;> exact go _ rfl rfl (Or.inl hex)
        · -- the duties
          obtain ⟨ds, hds⟩ : ∃ ds, ds = (if t.sent.getD 0 + d.length < i.info.size then [Duty.say d] else [.say d, .say [0], .hear]) :=
            ⟨_, rfl⟩
          have hplan : plan ⟨s.recurse, s.times⟩ t (.data d) i.info =
              { t with
                sent := if t.sent.getD 0 + d.length < i.info.size then some (t.sent.getD 0 + d.length) else none
                over := if t.sent.getD 0 + d.length < i.info.size then t.over else !s.recurse
                duty := trim ((if t.sent.isNone then announce ⟨s.recurse, s.times⟩ i.info else []) ++ ds) } := by
            simp only [plan]
            rw [if_neg hbig]
            by_cases hn : t.sent.getD 0 + d.length < i.info.size
            · rw [if_pos hn, if_pos hn, if_pos hn, hds, if_pos hn]
            · rw [if_neg hn, if_neg hn, if_neg hn, hds, if_neg hn]
          have hoff : t.sent.getD 0 = s.off := by
            rcases hc with ⟨c1, c2, _⟩ | ⟨c1, _⟩
            · rw [c1, c2]; rfl
            · rw [c1]; rfl
          have hafter : ∀ st du, After { s with info := i.info, buf := d, confirm := .go, st := st }
              { plan ⟨s.recurse, s.times⟩ t (.data d) i.info with duty := du } ds := by
            intro st du
            rw [hplan]
            refine ⟨ha, rfl, by simp only; omega, ?_⟩
            simp only [hoff] at hds ⊢
            by_cases hn : s.off + d.length < i.info.size
            · simp only [if_pos hn] at hds ⊢; exact ⟨trivial, hov, hds⟩
            · simp only [if_neg hn] at hds ⊢; exact ⟨trivial, trivial, hds⟩
          have hex : (plan ⟨s.recurse, s.times⟩ t (.data d) i.info).excused = false := by rw [hplan]; exact he
          rcases hc with ⟨c1, c2, c3, c4⟩ | ⟨c1, c2, c3⟩
          · have hdu : (plan ⟨s.recurse, s.times⟩ t (.data d) i.info).duty = trim (announce ⟨s.recurse, s.times⟩ i.info ++ ds) := by
              rw [hplan]; simp only [c1, Option.isNone_none, if_true]
            simp only [c3, if_true]
            by_cases ht : s.times = true
            · rw [if_pos ht]
              refine go _ rfl rfl (Or.inr ⟨hex, ?_⟩)
              simp only [SInv]
              refine ⟨ds, hafter s.st (plan ⟨s.recurse, s.times⟩ t (.data d) i.info).duty, ?_⟩
              rw [hdu]
              simp only [announce, ht, if_true, List.cons_append, List.nil_append]
              exact trim_say _ _ (stamp_ne { s with info := i.info })
            · rw [if_neg ht]
              refine go _ rfl rfl (Or.inr ⟨hex, ?_⟩)
              simp only [SInv]
              refine ⟨ds, hafter s.st (plan ⟨s.recurse, s.times⟩ t (.data d) i.info).duty, ?_⟩
              rw [hdu]
              simp only [announce, ht, Bool.false_eq_true, if_false, List.cons_append, List.nil_append]
              exact trim_say _ _ (header_ne { s with info := i.info })
          · have hdu : (plan ⟨s.recurse, s.times⟩ t (.data d) i.info).duty = trim ds := by
              rw [hplan]; simp only [c1, Option.isNone_some, Bool.false_eq_true, if_false, List.nil_append]
            rw [if_neg (by simp [c2])]
            refine go _ rfl rfl (Or.inr ⟨hex, ?_⟩)
            simp only [SInv]
            exact ⟨c2, ds, hafter s.st (plan ⟨s.recurse, s.times⟩ t (.data d) i.info).duty, hdu⟩

theorem trim_after (s : Source) (t : Talk) (ds : List Duty) (h : After s t ds) : ∃ es, ds = .say s.buf :: es := by
  obtain ⟨_, _, _, h⟩ := h
  by_cases hs : s.off + s.buf.length < s.info.size
  · rw [if_pos hs] at h; exact ⟨_, h.2.2⟩
  · rw [if_neg hs] at h; exact ⟨_, h.2.2⟩

theorem srcStep_keeps (s : Source) (t : Talk) (i : SrcIn) (h : SGood s t) : Keeps s t (srcStep s i) := by
  have hi : t.excused = false → SInv s t := by
    rcases h with h | ⟨_, h⟩
    · intro h'; rw [h] at h'; exact nomatch h'
    · exact fun _ => h
  cases hst : s.st with
  | begin =>
    simp only [srcStep, hst]
    rcases h with he | ⟨he, h⟩
    · (repeat' split) <;> exact ⟨rfl, rfl, t, foldlM_excused _ t he _, Or.inl he⟩
    · simp only [SInv, hst] at h
      obtain ⟨h1, h2, h3, h4, h5⟩ := h
      by_cases ha : i.ans = .abort
      · rw [if_pos ha]
        refine ⟨rfl, rfl, { t with asked := true, over := true, duty := [.hear, .sayError] }, ?_, Or.inr ⟨he, rfl, rfl, rfl⟩⟩
        rw [foldlM_one]; unfold comply; simp [he, h4, h3, h1, ha]
      · rw [if_neg ha]
        by_cases hb : i.ans = .eof
        · rw [if_pos hb]
          refine ⟨rfl, rfl, { t with asked := true, over := true, duty := [.hear, .say [0]] }, ?_, Or.inr ⟨he, rfl, rfl, rfl⟩⟩
          rw [foldlM_one]; unfold comply; simp [he, h4, h3, h1, hb]
        · rw [if_neg hb]
          refine ⟨rfl, rfl, { t with asked := true, duty := [.hear] }, ?_, Or.inr ⟨he, rfl, h2, h3, rfl, h5⟩⟩
          rw [foldlM_one]; unfold comply; simp [he, h4, h3, h1, ha, hb]
  | init =>
    simp only [srcStep, hst]
    refine ⟨rfl, rfl, t, rfl, ?_⟩
    rcases h with he | ⟨he, h⟩
    · exact Or.inl he
    · simp only [SInv, hst] at h
      obtain ⟨h1, h2, h3, h4, h5⟩ := h
      exact Or.inr ⟨he, Or.inl ⟨rfl, ⟨h1, h3, rfl, Or.inl ⟨h2, rfl, rfl, h5⟩⟩, h4⟩⟩
  | sendConf =>
    simp only [srcStep, hst]
    refine keeps_confirm s _ t [] i h (fun he => ?_) rfl rfl (fun he => ?_)
    · have := hi he; simp only [SInv, hst] at this; exact this.2.2
    · have := hi he; simp only [SInv, hst] at this; simp only [SInv, this.2.1, trim]; exact ⟨this.1, trivial⟩
  | recvConfReceipt =>
    simp only [srcStep, hst]
    refine keeps_hear s _ t [last s] i h (fun he => ?_) rfl rfl (fun he c => ?_)
    · have := hi he; simp only [SInv, hst] at this; exact this.2.2
    · have := hi he; simp only [SInv, hst] at this
      refine ⟨this.1, this.2.1, ?_⟩
      simp only [last]; split <;> rfl
  | confReceipt =>
    simp only [srcStep, hst]
    refine keeps_confirm s _ t [.hear] i h (fun he => ?_) rfl rfl (fun he => ?_)
    · have := hi he; simp only [SInv, hst] at this; rw [last, if_neg (by rw [this.1]; decide)]; exact this.2.1
    · have := hi he; simp only [SInv, hst] at this
      rcases this.2.2 with ⟨h1, h2⟩ | ⟨h1, h2⟩
      · exact Or.inl ⟨h1, h2, rfl⟩
      · exact Or.inr (Or.inl ⟨h1, h2, rfl⟩)
  | recvConf =>
    simp only [srcStep, hst]
    rcases h with he | ⟨he, h⟩
    · exact keeps_hear s _ t [] i (Or.inl he) (fun h' => by rw [he] at h'; exact nomatch h') rfl rfl
        (fun h' => by rw [he] at h'; exact nomatch h')
    · have hg : SGood s t := Or.inr ⟨he, h⟩
      simp only [SInv, hst] at h
      rcases h with ⟨h1, h2, h3⟩ | ⟨h1, h2, h3⟩ | ⟨h1, ds, h2, h3⟩ | ⟨h1, hh, ds, h2, h3⟩
      · refine keeps_hear s _ t [] i hg (fun _ => h3) rfl rfl (fun _ c => ?_)
        simp only [SInv, h1, trim]; exact ⟨h2, trivial⟩
      · refine keeps_hear s _ t [] i hg (fun _ => h3) rfl rfl (fun _ c => ?_)
        simp only [SInv, h1, trim]; exact ⟨h2, trivial⟩
      · refine keeps_hear s _ t _ i hg (fun _ => h3) rfl rfl (fun _ c => ?_)
        simp only [SInv, h1]
        exact ⟨ds, h2, trim_say _ _ (header_ne s)⟩
      · refine keeps_hear s _ t _ i hg (fun _ => h3) rfl rfl (fun _ c => ?_)
        simp only [SInv, h1]
        exact ⟨hh, ds, h2, rfl⟩
  | transfer => simp only [srcStep, hst]; exact keeps_transfer s t i h hst
  | sendTimes =>
    simp only [srcStep, hst]
    rcases h with he | ⟨he, h⟩
    · exact keeps_msg s _ t _ [] i (Or.inl he) (fun h' => by rw [he] at h'; exact nomatch h') rfl rfl
        (fun h' => by rw [he] at h'; exact nomatch h')
    · have hg : SGood s t := Or.inr ⟨he, h⟩
      simp only [SInv, hst] at h
      obtain ⟨ds, h1, h2⟩ := h
      refine keeps_msg s _ t _ _ i hg (fun _ => h2) rfl rfl (fun _ => ?_)
      exact Or.inr (Or.inr (Or.inl ⟨rfl, ds, h1, rfl⟩))
  | enterDir =>
    simp only [srcStep, hst]
    refine keeps_msg s _ t _ [.hear] i h (fun he => ?_) rfl rfl (fun he => ?_)
    · have := hi he; simp only [SInv, hst] at this; exact this.2
    · have := hi he; simp only [SInv, hst] at this; exact Or.inl ⟨rfl, this.1, rfl⟩
  | exitDir =>
    simp only [srcStep, hst]
    refine keeps_msg s _ t _ [.hear] i h (fun he => ?_) rfl rfl (fun he => ?_)
    · have := hi he; simp only [SInv, hst] at this; exact this.2
    · have := hi he; simp only [SInv, hst] at this; exact Or.inl ⟨rfl, this.1, rfl⟩
  | exitDirFinal =>
    simp only [srcStep, hst]
    refine keeps_msg s _ t _ [.hear] i h (fun he => ?_) rfl rfl (fun he => ?_)
    · have := hi he; simp only [SInv, hst] at this; exact this.2
    · have := hi he; simp only [SInv, hst] at this; exact Or.inr (Or.inl ⟨rfl, this.1, rfl⟩)
  | sendHeader =>
    simp only [srcStep, hst]
    rcases h with he | ⟨he, h⟩
    · exact keeps_msg s _ t _ [] i (Or.inl he) (fun h' => by rw [he] at h'; exact nomatch h') rfl rfl
        (fun h' => by rw [he] at h'; exact nomatch h')
    · have hg : SGood s t := Or.inr ⟨he, h⟩
      simp only [SInv, hst] at h
      obtain ⟨ds, h1, h2⟩ := h
      refine keeps_msg s _ t _ _ i hg (fun _ => h2) rfl rfl (fun _ => ?_)
      exact Or.inr (Or.inr (Or.inr ⟨rfl, rfl, ds, h1, rfl⟩))
  | sendFile => simp only [srcStep, hst]; exact keeps_sendFile s t i h hst
  | done => simp only [srcStep, hst]; exact keeps_same s t h
  | dead => simp only [srcStep, hst]; exact keeps_same s t h
  | crash => simp only [srcStep, hst]; exact keeps_same s t h

theorem sinv_arrive (s : Source) (t : Talk) (c : Bytes) (h : SGood s t) : SGood { s with chan := c } t := by
  rcases h with he | ⟨he, h⟩
  · exact Or.inl he
  · refine Or.inr ⟨he, ?_⟩
    cases s with
    | mk st next req recurse times info off buf hdr stuck confirm chan => cases st <;> exact h

theorem srcRun_keeps (es : List SrcEv) : ∀ (s : Source) (t : Talk), SGood s t → Keeps s t (srcRun s es) := by
  induction es with
  | nil => intro s t h; exact keeps_same s t h
  | cons e es ih =>
    intro s t h
    have h1 : Keeps s t (srcNext s e) := by
      cases e with
      | arrive bs => exact ⟨rfl, rfl, t, rfl, sinv_arrive s t _ h⟩
      | step i => exact srcStep_keeps s t i h
    obtain ⟨a, b, t1, c, d⟩ := h1
    obtain ⟨a', b', t2, c', d'⟩ := ih _ _ d
    rw [a, b] at c'
    refine ⟨a'.trans a, b'.trans b, t2, ?_, d'⟩
    have : (srcRun s (e :: es)).2 = (srcNext s e).2 ++ (srcRun (srcNext s e).1 es).2 := rfl
    rw [this, List.foldlM_append, c]; exact c'

end Proofs.Scp
