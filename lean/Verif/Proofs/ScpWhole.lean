import Verif.Proofs.ScpSource
import Verif.Proofs.ScpMsg
/-! # A whole transfer of the sending side of SCP -/

namespace Proofs.Scp
open Wolf (Byte Bytes)
open Wolf.Scp Spec.Scp

/-- What `bursts` does with one output. -/
def cut (p : List Bytes × Bytes) (e : SrcOut) : List Bytes × Bytes :=
  match e with
  | .wrote b => (p.1, p.2 ++ b)
  | .conf _ => (p.1 ++ [p.2], [])
  | _ => p

/-- The same for duties. -/
def due (p : List Bytes × Bytes) (d : Duty) : List Bytes × Bytes :=
  match d with
  | .say x => (p.1, p.2 ++ x)
  | .hear => (p.1 ++ [p.2], [])
  | .sayError => p

theorem bursts_eq (os : List SrcOut) : bursts os = os.foldl cut ([], []) := rfl

theorem due_trim (ds : List Duty) : ∀ p, (trim ds).foldl due p = ds.foldl due p := by
  induction ds with
  | nil => intro p; rfl
  | cons d ds ih =>
    intro p
    cases d with
    | say x =>
      cases x with
      | nil => simp only [trim, List.foldl_cons, due, List.append_nil]; exact ih p
      | cons b bs => simp only [trim]
    | hear => simp only [trim]
    | sayError => simp only [trim]

theorem dec_line (n k : Nat) (hk : k ≤ 20) (hk0 : 0 < k) (h : n < 10 ^ k) : (10 : Byte) ∉ dec n := by
  intro hm
  have := (dec_spec n k (Nat.lt_of_lt_of_le h (Nat.pow_le_pow_right (by omega) hk)) hk0 h).1.2.1 10 hm
  exact absurd this.1 (by decide)

theorem oct4_line (m : Nat) : (10 : Byte) ∉ oct4 (maskMode m) := by
  intro hm
  have := (oct4_spec (maskMode m) (by unfold maskMode; omega)).2.1 10 hm
  exact absurd this.1 (by decide)

/-- The bursts that announce a file. -/
def preOf (o : Opts) (m : Meta) : List Bytes := if o.times then [timesHeader m.mtime m.atime] else []
def hdrOf (m : Meta) : Bytes := fileHeader m.mode m.size m.name

theorem announce_due (o : Opts) (m : Meta) (p : List Bytes) :
    (announce o m).foldl due (p, []) = (p ++ preOf o m ++ [hdrOf m], []) := by
  unfold announce preOf hdrOf
  by_cases h : o.times = true
  · simp [h, due]
  · simp [h, due]

theorem stamp_script (o : Opts) (m : Meta) (h : Fits m) :
    Stamp (if o.times then some (m.mtime, m.atime) else none) (preOf o m) := by
  unfold preOf
  obtain ⟨_, _, _, _, h1, h2⟩ := h
  by_cases ht : o.times = true
  · rw [if_pos ht, if_pos ht, times_text _ _ h1 h2]
    have e : ([84] ++ dec m.mtime ++ [32, 48, 32] ++ dec m.atime ++ [32, 48, 10] : Bytes) =
      ([84] ++ dec m.mtime ++ [32, 48, 32] ++ dec m.atime ++ [32, 48]) ++ [10] := by simp
    rw [e]
    refine Stamp.some (times_times _ _ h1 h2) ⟨?_, ?_⟩
    · have a := dec_line m.mtime 20 (by omega) (by omega) (by omega)
      have b := dec_line m.atime 20 (by omega) (by omega) (by omega)
      simp only [List.mem_append, List.mem_cons, List.not_mem_nil, or_false, not_or]
      exact ⟨⟨⟨⟨by decide, a⟩, by decide, by decide, by decide⟩, b⟩, by decide, by decide⟩
    · have a := (dec_spec m.mtime 20 (by omega) (by omega) (by omega)).2
      have b := (dec_spec m.atime 20 (by omega) (by omega) (by omega)).2
      simp only [List.length_append, List.length_cons, List.length_nil]
      omega
  · rw [if_neg ht, if_neg ht]; exact Stamp.none

theorem file_script (o : Opts) (m : Meta) (d : Bytes) (h : Fits m) (hd : d.length = m.size) {is ss} (hs : Script is ss) :
    Script (fileItem o m d :: is) (preOf o m ++ hdrOf m :: (d ++ [0]) :: ss) := by
  have hst := stamp_script o m h
  obtain ⟨h1, h2, h3, h4, _, _⟩ := h
  unfold hdrOf
  rw [file_text m.mode m.size m.name h4 h3]
  refine Script.file hst ?_ ⟨?_, ?_⟩ hs
  · rw [hd]; exact file_announces m.mode m.size m.name h4 h1
  · have a := dec_line m.size 10 (by omega) (by omega) (by omega)
    have b := oct4_line m.mode
    simp only [List.mem_append, List.mem_cons, List.not_mem_nil, or_false, not_or]
    exact ⟨⟨⟨⟨⟨by decide, b⟩, by decide⟩, a⟩, by decide⟩, h2⟩
  · have a := (dec_spec m.size 10 (by omega) (by omega) (by omega)).2
    simp only [List.length_append, List.length_cons, List.length_nil, oct4]
    omega

theorem dir_script (m : Meta) (h : Fits m) {is ss} (hs : Script is ss) :
    Script (.dir none (m.mode % 512) m.name :: is) (dirHeader m.mode m.name :: ss) := by
  obtain ⟨h1, h2, h3, h4, _, _⟩ := h
  rw [dir_text m.mode m.name (by omega)]
  have := Script.dir (pre := []) Stamp.none (dir_announces m.mode m.name h1) ⟨?_, ?_⟩ hs
  · exact this
  · have b := oct4_line m.mode
    simp only [List.mem_append, List.mem_cons, List.not_mem_nil, or_false, not_or]
    exact ⟨⟨⟨by decide, b⟩, by decide, by decide, by decide⟩, h2⟩
  · simp only [List.length_append, List.length_cons, List.length_nil, oct4]
    omega

/-- What the answers still to come will have been: the bursts that go with the entries. In a file, `x` of which is part of
the burst already. -/
def Rest (o : Opts) (op : Option (Meta × Bytes)) (is : List Item) (X : List Bytes) (p : List Bytes × Bytes) : Prop :=
  ∃ ss, p = (X ++ ss, []) ∧
    match op with
    | none => Script is ss
    | some (m, x) => ∃ d is' ss', is = fileItem o m (x ++ d) :: is' ∧ (x ++ d).length = m.size ∧ ss = (x ++ d ++ [0]) :: ss' ∧
        Script is' ss'

/-- How planned bursts, open file and talk go together. -/
def Matches (op : Option (Meta × Bytes)) (t : Talk) (X : List Bytes) (p : List Bytes × Bytes) : Prop :=
  t.asked = true ∧ t.excused = false ∧
    match op with
    | none => t.sent = none ∧ p = (X, [])
    | some (m, x) => Fits m ∧ x.length < m.size ∧ t.sent = some x.length ∧ p = (X, x)

theorem whole (o : Opts) (os : List SrcOut) : ∀ (t t' : Talk) (op : Option (Meta × Bytes)) (B : List Bytes × Bytes)
    (X : List Bytes) (is : List Item),
    os.foldlM (comply o) t = some t' → Matches op t X (t.duty.foldl due B) → supplied o op (answers os) = some is →
    (∀ x ∈ answers os, Fits x.2) → t'.duty = [] → Rest o op is X (os.foldl cut B) := by
  induction os with
  | nil =>
    intro t t' op B X is hf hm hs _ hd
    simp only [List.foldlM_nil] at hf
    obtain rfl : t = t' := by simpa using hf
    rw [hd] at hm
    simp only [List.foldl_nil] at hm ⊢
    cases op with
    | none =>
      simp only [answers, List.filterMap_nil, supplied] at hs
      obtain rfl : [] = is := by simpa using hs
      exact ⟨[], by rw [hm.2.2.2, List.append_nil], Script.nil⟩
    | some q => simp only [answers, List.filterMap_nil, supplied] at hs; exact nomatch hs
  | cons e os ih =>
    intro t t' op B X is hf hm hs hfit hd
    simp only [List.foldlM_cons] at hf
    obtain ⟨t1, hc, hf1⟩ : ∃ t1, comply o t e = some t1 ∧ os.foldlM (comply o) t1 = some t' := by
      cases h : comply o t e with
      | none => rw [h] at hf; exact nomatch hf
      | some t1 => rw [h] at hf; exact ⟨t1, rfl, hf⟩
    have hex : t.excused = false := hm.2.1
    have hcs := hc
    unfold comply at hc
    rw [if_neg (by simp [hex])] at hc
    have hm' : ∀ B' ds, { t with duty := ds } = t1 → ds.foldl due B' = t.duty.foldl due B →
        Matches op t1 X (t1.duty.foldl due B') := by
      intro B' ds h1 h2; subst h1; simp only [h2]
      obtain ⟨a, b, c⟩ := hm
      exact ⟨a, b, c⟩
    simp only [List.foldl_cons]
    clear hf
    cases e with
    | wrote b =>
      simp only at hc
      cases hdu : t.duty with
      | nil => simp only [hdu] at hc; exact nomatch hc
      | cons d ds =>
        cases d with
        | say x =>
          simp only [hdu] at hc
          by_cases hp : b <+: x
          · rw [if_pos hp] at hc
            refine ih t1 t' op _ X is hf1 (hm' _ _ (Option.some.inj hc) ?_) hs hfit hd
            obtain ⟨r, rfl⟩ := hp
            rw [due_trim, hdu]
            simp only [List.foldl_cons, due, cut, List.drop_left, List.append_assoc]
          · rw [if_neg hp] at hc; exact nomatch hc
        | hear => simp only [hdu] at hc; exact nomatch hc
        | sayError => simp only [hdu] at hc; exact nomatch hc
    | conf g =>
      simp only at hc
      cases hdu : t.duty with
      | nil => simp only [hdu] at hc; exact nomatch hc
      | cons d ds =>
        cases d with
        | hear =>
          simp only [hdu] at hc
          refine ih t1 t' op _ X is hf1 (hm' _ _ (Option.some.inj hc) ?_) hs hfit hd
          rw [due_trim, hdu]
          simp only [List.foldl_cons, due, cut]
        | say x => simp only [hdu] at hc; exact nomatch hc
        | sayError => simp only [hdu] at hc; exact nomatch hc
    | nak =>
      simp only at hc
      cases hdu : t.duty with
      | nil => simp only [hdu] at hc; exact nomatch hc
      | cons d ds =>
        cases d with
        | sayError =>
          simp only [hdu] at hc
          refine ih t1 t' op _ X is hf1 (hm' _ _ (Option.some.inj hc) ?_) hs hfit hd
          rw [hdu]
          simp only [List.foldl_cons, due, cut]
        | say x => simp only [hdu] at hc; exact nomatch hc
        | hear => simp only [hdu] at hc; exact nomatch hc
    | call r off a m =>
      simp only at hc
      obtain ⟨hasked, _, hop⟩ := hm
      have hdu : t.duty = [] := by
        by_cases h : t.duty = []
        · exact h
        · rw [if_pos (Or.inl h)] at hc; exact nomatch hc
      have hov : t.over = false := by
        cases h : t.over with
        | false => rfl
        | true => rw [if_pos (Or.inr h)] at hc; exact nomatch hc
      rw [if_neg (by simp [hdu, hov]), if_neg (by simp [hasked])] at hc
      rw [hdu] at hop
      simp only [List.foldl_nil] at hop
      have hr : r ≠ .newRequest := by
        intro h; subst h
        cases hse : t.sent with
        | none => simp only [hse] at hc; rw [if_neg (by simp)] at hc; exact nomatch hc
        | some n => simp only [hse] at hc; rw [if_neg (by simp)] at hc; exact nomatch hc
      have ht1 : t1 = plan o t a m := by
        cases hse : t.sent with
        | none =>
          simp only [hse] at hc
          by_cases h : (r = .single ∨ r = .recursive) ∧ off = 0
          · rw [if_pos h] at hc; exact (Option.some.inj hc).symm
          · rw [if_neg h] at hc; exact nomatch hc
        | some n =>
          simp only [hse] at hc
          by_cases h : r = .cont ∧ off = n
          · rw [if_pos h] at hc; exact (Option.some.inj hc).symm
          · rw [if_neg h] at hc; exact nomatch hc
      have hans : answers (.call r off a m :: os) = (a, m) :: answers os := by
        unfold answers; rw [List.filterMap_cons]; simp only [if_neg hr]
      rw [hans] at hs hfit
      have hfm : Fits m := hfit (a, m) (by simp)
      have hfit' : ∀ x ∈ answers os, Fits x.2 := fun x hx => hfit x (by simp [hx])
      simp only [cut]
      cases op with
      | none =>
        obtain ⟨hse, hB⟩ := hop
        subst hB
        -- one burst of its own
        have one : ∀ (x : Bytes) (ov : Bool) (i1 : Item) (is' : List Item),
            (∀ ss, Script is' ss → Script (i1 :: is') (x :: ss)) → t1 = { t with duty := [.say x, .hear], over := ov } →
            supplied o none (answers os) = some is' → Rest o none (i1 :: is') X (os.foldl cut (X, [])) := by
          intro x ov i1 is' hsc ht hsu
          obtain ⟨ss, h1, h2⟩ := ih t1 t' none (X, []) (X ++ [x]) is' hf1
            (by subst ht; exact ⟨hasked, hex, hse, by simp [due]⟩) hsu hfit' hd
          exact ⟨x :: ss, by rw [h1]; simp, hsc ss h2⟩
        cases a with
        | enterDir =>
          simp only [supplied] at hs
          cases hsu : supplied o none (answers os) with
          | none => rw [hsu] at hs; exact nomatch hs
          | some is' =>
            rw [hsu] at hs
            obtain rfl : _ = is := Option.some.inj hs
            exact one _ t.over _ is' (fun ss h => dir_script m hfm h) (by rw [ht1]; rfl) hsu
        | exitDir =>
          simp only [supplied] at hs
          cases hsu : supplied o none (answers os) with
          | none => rw [hsu] at hs; exact nomatch hs
          | some is' =>
            rw [hsu] at hs
            obtain rfl : _ = is := Option.some.inj hs
            exact one [69, 10] t.over _ is' (fun ss h => Script.endDir (m := [69]) rfl (by decide) h) (by rw [ht1]; rfl) hsu
        | exitDirFinal =>
          simp only [supplied] at hs
          cases hsu : supplied o none (answers os) with
          | none => rw [hsu] at hs; exact nomatch hs
          | some is' =>
            rw [hsu] at hs
            obtain rfl : _ = is := Option.some.inj hs
            exact one [69, 10] true _ is' (fun ss h => Script.endDir (m := [69]) rfl (by decide) h) (by rw [ht1]; rfl) hsu
        | complete =>
          simp only [supplied] at hs
          exact ih t1 t' none (X, []) X is hf1 (by rw [ht1]; exact ⟨hasked, hex, hse, by simp [plan, hdu]⟩) hs hfit' hd
        | abort => simp only [supplied] at hs; exact nomatch hs
        | eof => simp only [supplied] at hs; exact nomatch hs
        | fail => simp only [supplied] at hs; exact nomatch hs
        | data d =>
          simp only [supplied] at hs
          have hsz : m.size < 4294967296 := hfm.2.2.2.1
          by_cases hlt : d.length < m.size
          · rw [if_pos hlt] at hs
            have hp : t1 = { t with sent := some d.length, duty := trim (announce o m ++ [.say d]) } := by
              rw [ht1]; simp only [plan, hse, Option.getD_none, Nat.zero_add, Option.isNone_none, if_true]
              rw [if_neg (by omega), if_pos hlt]
            have := ih t1 t' (some (m, d)) (X, []) (X ++ preOf o m ++ [hdrOf m]) is hf1
              (by
                rw [hp]
                refine ⟨hasked, hex, hfm, hlt, rfl, ?_⟩
                simp only [due_trim, List.foldl_append, announce_due]
                simp only [List.foldl_cons, List.foldl_nil, due, List.nil_append]) hs hfit' hd
            obtain ⟨ss, h1, y, is', ss', h2, h3, h4, h5⟩ := this
            refine ⟨preOf o m ++ hdrOf m :: ss, by rw [h1]; simp, ?_⟩
            rw [h2, h4]
            exact file_script o m (d ++ y) hfm h3 h5
          · rw [if_neg hlt] at hs
            by_cases heq : d.length = m.size
            · rw [if_pos heq] at hs
              cases hsu : supplied o none (answers os) with
              | none => rw [hsu] at hs; exact nomatch hs
              | some is' =>
                rw [hsu] at hs
                obtain rfl : _ = is := Option.some.inj hs
                have hp : t1 = { t with sent := none, over := !o.recurse, duty := trim (announce o m ++ [.say d, .say [0], .hear]) } := by
                  rw [ht1]; simp only [plan, hse, Option.getD_none, Nat.zero_add, Option.isNone_none, if_true]
                  rw [if_neg (by omega), if_neg hlt]
                obtain ⟨ss, h1, h2⟩ := ih t1 t' none (X, []) (X ++ preOf o m ++ [hdrOf m] ++ [d ++ [0]]) is' hf1
                  (by
                    rw [hp]
                    refine ⟨hasked, hex, rfl, ?_⟩
                    simp only [due_trim, List.foldl_append, announce_due]
                    simp only [List.foldl_cons, List.foldl_nil, due, List.nil_append]) hsu hfit' hd
                refine ⟨preOf o m ++ hdrOf m :: (d ++ [0]) :: ss, by rw [h1]; simp, ?_⟩
                exact file_script o m d hfm heq h2
            · rw [if_neg heq] at hs; exact nomatch hs
      | some q =>
        obtain ⟨m0, x⟩ := q
        obtain ⟨hf0, hlt0, hse, hB⟩ := hop
        subst hB
        have hsz : m0.size < 4294967296 := hf0.2.2.2.1
        cases a with
        | enterDir => simp only [supplied] at hs; exact nomatch hs
        | exitDir => simp only [supplied] at hs; exact nomatch hs
        | exitDirFinal => simp only [supplied] at hs; exact nomatch hs
        | complete => simp only [supplied] at hs; exact nomatch hs
        | abort => simp only [supplied] at hs; exact nomatch hs
        | eof => simp only [supplied] at hs; exact nomatch hs
        | fail => simp only [supplied] at hs; exact nomatch hs
        | data d =>
          simp only [supplied] at hs
          by_cases hsame : m.size = m0.size
          · rw [if_neg (by simp [hsame])] at hs
            have hl : (x ++ d).length = x.length + d.length := by simp
            by_cases hlt : (x ++ d).length < m0.size
            · rw [if_pos hlt] at hs
              have hp : t1 = { t with sent := some (x ++ d).length, duty := trim [.say d] } := by
                rw [ht1]
                simp only [plan, hse, Option.getD_some, Option.isNone_some, Bool.false_eq_true, if_false, List.nil_append, hl]
                rw [if_neg (by omega), if_pos (by omega)]
              have := ih t1 t' (some (m0, x ++ d)) (X, x) X is hf1
                (by
                  rw [hp]
                  refine ⟨hasked, hex, hf0, hlt, rfl, ?_⟩
                  simp only [due_trim, List.foldl_cons, List.foldl_nil, due]) hs hfit' hd
              obtain ⟨ss, h1, y, is', ss', h2, h3, h4, h5⟩ := this
              refine ⟨ss, h1, d ++ y, is', ss', ?_, ?_, ?_, h5⟩
              · rw [h2, List.append_assoc]
              · rw [← List.append_assoc]; exact h3
              · rw [h4, List.append_assoc x d y]
            · rw [if_neg hlt] at hs
              by_cases heq : (x ++ d).length = m0.size
              · rw [if_pos heq] at hs
                cases hsu : supplied o none (answers os) with
                | none => rw [hsu] at hs; exact nomatch hs
                | some is' =>
                  rw [hsu] at hs
                  obtain rfl : _ = is := Option.some.inj hs
                  have hp : t1 = { t with sent := none, over := !o.recurse, duty := trim [.say d, .say [0], .hear] } := by
                    rw [ht1]
                    simp only [plan, hse, Option.getD_some, Option.isNone_some, Bool.false_eq_true, if_false, List.nil_append]
                    rw [if_neg (by omega), if_neg (by omega)]
                  obtain ⟨ss, h1, h2⟩ := ih t1 t' none (X, x) (X ++ [x ++ d ++ [0]]) is' hf1
                    (by
                      rw [hp]
                      refine ⟨hasked, hex, rfl, ?_⟩
                      simp only [due_trim, List.foldl_cons, List.foldl_nil, due]) hsu hfit' hd
                  exact ⟨(x ++ d ++ [0]) :: ss, by rw [h1]; simp, d, is', ss, rfl, heq, rfl, h2⟩
              · rw [if_neg heq] at hs; exact nomatch hs
          · rw [if_pos hsame] at hs; exact nomatch hs

/-- A talk that has been excused stays so; one that keeps its word is not. -/
theorem not_excused (o : Opts) (os : List SrcOut) : ∀ (t t' : Talk) (op : Option (Meta × Bytes)) (is : List Item),
    os.foldlM (comply o) t = some t' → t.asked = true → t.excused = false →
    t.sent = op.map (fun q => q.2.length) → (∀ q, op = some q → q.2.length < q.1.size ∧ q.1.size < 4294967296) →
    supplied o op (answers os) = some is → (∀ x ∈ answers os, Fits x.2) → t'.excused = false := by
  induction os with
  | nil =>
    intro t t' op is hf _ hex _ _ _ _
    simp only [List.foldlM_nil] at hf
    obtain rfl : t = t' := by simpa using hf
    exact hex
  | cons e os ih =>
    intro t t' op is hf hasked hex hse hop hs hfit
    simp only [List.foldlM_cons] at hf
    obtain ⟨t1, hc, hf1⟩ : ∃ t1, comply o t e = some t1 ∧ os.foldlM (comply o) t1 = some t' := by
      cases h : comply o t e with
      | none => rw [h] at hf; exact nomatch hf
      | some t1 => rw [h] at hf; exact ⟨t1, rfl, hf⟩
    unfold comply at hc
    rw [if_neg (by simp [hex])] at hc
    have same : ∀ ds, { t with duty := ds } = t1 → answers (e :: os) = answers os → t'.excused = false := by
      intro ds h1 h2
      rw [h2] at hs hfit
      exact ih t1 t' op is hf1 (by subst h1; exact hasked) (by subst h1; exact hex) (by subst h1; exact hse) hop hs hfit
    clear hf
    cases e with
    | wrote b =>
      simp only at hc
      split at hc
      · split at hc
        · exact same _ (Option.some.inj hc) rfl
        · exact nomatch hc
      · exact nomatch hc
    | conf g =>
      simp only at hc
      split at hc
      · exact same _ (Option.some.inj hc) rfl
      · exact nomatch hc
    | nak =>
      simp only at hc
      split at hc
      · exact same _ (Option.some.inj hc) rfl
      · exact nomatch hc
    | call r off a m =>
      simp only at hc
      by_cases h0 : t.duty ≠ [] ∨ t.over = true
      · rw [if_pos h0] at hc; exact nomatch hc
      rw [if_neg h0, if_neg (by simp [hasked])] at hc
      have hr : r ≠ .newRequest := by
        intro h; subst h
        cases h2 : t.sent with
        | none => simp only [h2] at hc; rw [if_neg (by simp)] at hc; exact nomatch hc
        | some n => simp only [h2] at hc; rw [if_neg (by simp)] at hc; exact nomatch hc
      have ht1 : t1 = plan o t a m := by
        cases h2 : t.sent with
        | none =>
          simp only [h2] at hc
          by_cases h : (r = .single ∨ r = .recursive) ∧ off = 0
          · rw [if_pos h] at hc; exact (Option.some.inj hc).symm
          · rw [if_neg h] at hc; exact nomatch hc
        | some n =>
          simp only [h2] at hc
          by_cases h : r = .cont ∧ off = n
          · rw [if_pos h] at hc; exact (Option.some.inj hc).symm
          · rw [if_neg h] at hc; exact nomatch hc
      have hans : answers (.call r off a m :: os) = (a, m) :: answers os := by
        unfold answers; rw [List.filterMap_cons]; simp only [if_neg hr]
      rw [hans] at hs hfit
      have hfm : Fits m := hfit (a, m) (by simp)
      have hfit' : ∀ x ∈ answers os, Fits x.2 := fun x hx => hfit x (by simp [hx])
      have hsz : m.size < 4294967296 := hfm.2.2.2.1
      have strip : ∀ (f : List Item → List Item), (supplied o none (answers os)).map f = some is →
          ∃ is', supplied o none (answers os) = some is' := by
        intro f h
        cases hsu : supplied o none (answers os) with
        | none => rw [hsu] at h; exact nomatch h
        | some is' => exact ⟨is', rfl⟩
      cases op with
      | none =>
        have hse' : t.sent = none := hse
        have go : ∀ du ov, t1 = { t with duty := du, over := ov } → (∃ is', supplied o none (answers os) = some is') → t'.excused = false := by
          intro du ov h1 ⟨is', h2⟩
          exact ih t1 t' none is' hf1 (by subst h1; exact hasked) (by subst h1; exact hex) (by subst h1; exact hse) hop h2 hfit'
        cases a with
        | enterDir => exact go _ t.over (by rw [ht1]; rfl) (strip _ hs)
        | exitDir => exact go _ t.over (by rw [ht1]; rfl) (strip _ hs)
        | exitDirFinal => exact go _ true (by rw [ht1]; rfl) (strip _ hs)
        | complete => exact go t.duty true (by rw [ht1]; rfl) ⟨is, hs⟩
        | abort => simp only [supplied] at hs; exact nomatch hs
        | eof => simp only [supplied] at hs; exact nomatch hs
        | fail => simp only [supplied] at hs; exact nomatch hs
        | data d =>
          simp only [supplied] at hs
          simp only [plan, hse', Option.getD_none, Nat.zero_add] at ht1
          by_cases hlt : d.length < m.size
          · rw [if_pos hlt] at hs
            rw [if_neg (by omega), if_pos hlt] at ht1
            exact ih t1 t' (some (m, d)) is hf1 (by rw [ht1]; exact hasked) (by rw [ht1]; exact hex) (by rw [ht1]; rfl)
              (fun q h => by obtain rfl := Option.some.inj h; exact ⟨hlt, hsz⟩) hs hfit'
          · rw [if_neg hlt] at hs
            by_cases heq : d.length = m.size
            · rw [if_pos heq] at hs
              rw [if_neg (by omega), if_neg hlt] at ht1
              obtain ⟨is', h2⟩ := strip _ hs
              exact ih t1 t' none is' hf1 (by rw [ht1]; exact hasked) (by rw [ht1]; exact hex) (by rw [ht1]; rfl) (fun q h => nomatch h) h2 hfit'
            · rw [if_neg heq] at hs; exact nomatch hs
      | some q =>
        obtain ⟨m0, x⟩ := q
        obtain ⟨hl0, hs0⟩ := hop _ rfl
        have hse' : t.sent = some x.length := hse
        cases a with
        | enterDir => simp only [supplied] at hs; exact nomatch hs
        | exitDir => simp only [supplied] at hs; exact nomatch hs
        | exitDirFinal => simp only [supplied] at hs; exact nomatch hs
        | complete => simp only [supplied] at hs; exact nomatch hs
        | abort => simp only [supplied] at hs; exact nomatch hs
        | eof => simp only [supplied] at hs; exact nomatch hs
        | fail => simp only [supplied] at hs; exact nomatch hs
        | data d =>
          simp only [supplied] at hs
          simp only [plan, hse', Option.getD_some] at ht1
          by_cases hsame : m.size = m0.size
          · rw [if_neg (by simp [hsame])] at hs
            have hl : (x ++ d).length = x.length + d.length := by simp
            simp only at hl0 hs0
            by_cases hlt : (x ++ d).length < m0.size
            · rw [if_pos hlt] at hs
              rw [if_neg (by omega), if_pos (by omega)] at ht1
              exact ih t1 t' (some (m0, x ++ d)) is hf1 (by rw [ht1]; exact hasked) (by rw [ht1]; exact hex)
                (by rw [ht1]; simp only [Option.map_some, hl]) (fun q h => by obtain rfl := Option.some.inj h; exact ⟨hlt, hs0⟩) hs hfit'
            · rw [if_neg hlt] at hs
              by_cases heq : (x ++ d).length = m0.size
              · rw [if_pos heq] at hs
                rw [if_neg (by omega), if_neg (by omega)] at ht1
                obtain ⟨is', h2⟩ := strip _ hs
                exact ih t1 t' none is' hf1 (by rw [ht1]; exact hasked) (by rw [ht1]; exact hex) (by rw [ht1]; rfl) (fun q h => nomatch h) h2 hfit'
              · rw [if_neg heq] at hs; exact nomatch hs
          · rw [if_pos hsame] at hs; exact nomatch hs

/-- A transfer that has come to its end, with a callback that kept its word. -/
theorem done_script (s : Source) (es : List SrcEv) (is : List Item) (h0 : s.st = .begin)
    (hr : s.req = .single ∨ s.req = .recursive) (hst : (srcRun s es).1.st = .done) (ha : Agreed (srcRun s es).2)
    (hs : supplied ⟨s.recurse, s.times⟩ none (answers (srcRun s es).2) = some is)
    (hf : ∀ x ∈ answers (srcRun s es).2, Fits x.2) :
    ∃ ss, bursts (srcRun s es).2 = ([] :: ss, []) ∧ Script is ss := by
  have hg : SGood s {} := by
    refine Or.inr ⟨rfl, ?_⟩
    simp only [SInv, h0]; exact ⟨trivial, trivial, trivial, trivial, hr⟩
  obtain ⟨_, _, t', hrun, hgood⟩ := srcRun_keeps es s {} hg
  obtain ⟨a, m, rest, hos, hna, hne⟩ := ha
  rw [hos] at hrun hs hf
  have hc : comply ⟨s.recurse, s.times⟩ {} (.call .newRequest 0 a m) = some { asked := true, duty := [.hear] } := by
    unfold comply; simp [hna, hne]
  simp only [List.foldlM_cons, hc] at hrun
  have hrun' : rest.foldlM (comply ⟨s.recurse, s.times⟩) { asked := true, duty := [.hear] } = some t' := hrun
  have hans : answers (.call .newRequest 0 a m :: rest) = answers rest := by
    unfold answers; rw [List.filterMap_cons]; simp
  rw [hans] at hs hf
  have hnex := not_excused _ rest _ t' none is hrun' rfl rfl rfl (fun q h => nomatch h) hs hf
  have hduty : t'.duty = [] := by
    rcases hgood with h | ⟨_, h⟩
    · rw [h] at hnex; exact nomatch hnex
    · simp only [SInv, hst] at h; exact h.2
  obtain ⟨ss, h1, h2⟩ := whole _ rest _ t' none ([], []) [[]] is hrun' ⟨rfl, rfl, rfl, rfl⟩ hs hf hduty
  refine ⟨ss, ?_, h2⟩
  rw [bursts_eq, hos]
  simp only [List.foldl_cons, cut]
  exact h1

end Proofs.Scp

namespace Proofs.Scp
open Wolf (Byte Bytes)
open Wolf.Scp Spec.Scp

/-- The sending side announces times for files only. -/
theorem supplied_told (o : Opts) (as : List (Ans × Meta)) : ∀ (op : Option (Meta × Bytes)) (is : List Item),
    supplied o op as = some is → Told false is := by
  induction as with
  | nil =>
    intro op is h
    cases op with
    | none => simp only [supplied] at h; obtain rfl := Option.some.inj h; trivial
    | some q => simp only [supplied] at h; exact nomatch h
  | cons x as ih =>
    obtain ⟨a, m⟩ := x
    intro op is h
    have strip : ∀ (i : Item), (∀ is', Told false is' → Told false (i :: is')) →
        (supplied o none as).map (i :: ·) = some is → Told false is := by
      intro i hi h
      cases hsu : supplied o none as with
      | none => rw [hsu] at h; exact nomatch h
      | some is' => rw [hsu] at h; obtain rfl := Option.some.inj h; exact hi is' (ih none is' hsu)
    cases op with
    | none =>
      cases a with
      | enterDir => exact strip (.dir none (m.mode % 512) m.name) (fun is' h => ⟨fun _ => rfl, h⟩) h
      | exitDir => exact strip .endDir (fun is' h => h) h
      | exitDirFinal => exact strip .endDir (fun is' h => h) h
      | complete => exact ih none is h
      | abort => simp only [supplied] at h; exact nomatch h
      | eof => simp only [supplied] at h; exact nomatch h
      | fail => simp only [supplied] at h; exact nomatch h
      | data d =>
        simp only [supplied] at h
        split at h
        · exact ih _ is h
        · split at h
          · exact strip (fileItem o m d) (fun is' h => ⟨fun _ => rfl, h⟩) h
          · exact nomatch h
    | some q =>
      obtain ⟨m0, x⟩ := q
      cases a with
      | enterDir => simp only [supplied] at h; exact nomatch h
      | exitDir => simp only [supplied] at h; exact nomatch h
      | exitDirFinal => simp only [supplied] at h; exact nomatch h
      | complete => simp only [supplied] at h; exact nomatch h
      | abort => simp only [supplied] at h; exact nomatch h
      | eof => simp only [supplied] at h; exact nomatch h
      | fail => simp only [supplied] at h; exact nomatch h
      | data d =>
        simp only [supplied] at h
        split at h
        · exact nomatch h
        · split at h
          · exact ih _ is h
          · split at h
            · exact strip (fileItem o m0 (x ++ d)) (fun is' h => ⟨fun _ => rfl, h⟩) h
            · exact nomatch h

theorem srcHear_conf (s s' : Source) (i : SrcIn) (h : i.rd ≠ .zero ∧ i.rd ≠ .ext) (g : Bytes)
    (hg : SrcOut.conf g ∈ (srcHear s s' i).2) : g.head? = some 0 ∧ g <+: s.chan := by
  unfold srcHear at hg
  cases hr : i.rd with
  | zero => exact absurd hr h.1
  | ext => exact absurd hr h.2
  | take =>
    simp only [hr] at hg
    cases hc : s.chan with
    | nil => simp [hc] at hg
    | cons b bs =>
      simp only [hc] at hg
      by_cases hb : b = 0
      · rw [if_pos hb] at hg
        simp only [List.mem_singleton, SrcOut.conf.injEq] at hg
        subst hg hb
        exact ⟨by unfold MSG_SZ; rfl, List.take_prefix _ _⟩
      · rw [if_neg hb] at hg; simp at hg
  | spin => simp [hr] at hg
  | want => simp [hr] at hg
  | eof => simp [hr] at hg
  | fail => simp [hr] at hg

theorem sendMsg_conf (s s' : Source) (x : Bytes) (i : SrcIn) (g : Bytes) : SrcOut.conf g ∉ (sendMsg s s' x i).2 := by
  unfold sendMsg; (repeat' split) <;> simp

theorem srcConfirm_conf (s s' : Source) (i : SrcIn) (g : Bytes) : SrcOut.conf g ∉ (srcConfirm s s' i).2 := by
  unfold srcConfirm; (repeat' split) <;> simp

theorem srcStep_conf (s : Source) (i : SrcIn) (h : i.rd ≠ .zero ∧ i.rd ≠ .ext) (g : Bytes)
    (hg : SrcOut.conf g ∈ (srcStep s i).2) : g.head? = some 0 ∧ g <+: s.chan := by
  unfold srcStep at hg
  cases hs : s.st <;> simp only [hs] at hg
  · (repeat' split at hg) <;> simp at hg
  · simp at hg
  · exact absurd hg (srcConfirm_conf _ _ _ _)
  · exact absurd hg (srcConfirm_conf _ _ _ _)
  · exact srcHear_conf _ _ _ h g hg
  · exact srcHear_conf _ _ _ h g hg
  · unfold transfer at hg
    cases ha : i.ans <;> simp only [ha] at hg <;> try (simp at hg; done)
    (repeat' split at hg) <;> simp at hg
  · exact absurd hg (sendMsg_conf _ _ _ _ _)
  · exact absurd hg (sendMsg_conf _ _ _ _ _)
  · exact absurd hg (sendMsg_conf _ _ _ _ _)
  · exact absurd hg (sendMsg_conf _ _ _ _ _)
  · exact absurd hg (sendMsg_conf _ _ _ _ _)
  · unfold sendFile at hg
    (repeat' split at hg) <;> simp at hg
  all_goals simp at hg

theorem srcRun_conf (es : List SrcEv) : ∀ s : Source, (∀ e ∈ es, Reads e) → ∀ g, SrcOut.conf g ∈ (srcRun s es).2 →
    g.head? = some 0 := by
  induction es with
  | nil => intro s _ g hg; exact absurd hg (by simp [srcRun])
  | cons e es ih =>
    intro s h g hg
    have h0 : (srcRun s (e :: es)).2 = (srcNext s e).2 ++ (srcRun (srcNext s e).1 es).2 := rfl
    rw [h0, List.mem_append] at hg
    rcases hg with hg | hg
    · cases e with
      | arrive bs => exact absurd hg (by simp [srcNext])
      | step i => exact (srcStep_conf s i (h (.step i) (by simp)) g hg).1
    · exact ih _ (fun e he => h e (by simp [he])) g hg

end Proofs.Scp
