import Verif.Proofs.ScpWhole
import Verif.Spec.ScpSendDisk
/-! # The default send callback -/

namespace Proofs.Scp
open Wolf (Byte Bytes add32)
open Wolf.Scp Spec.Scp

/-! ## Directory names -/

theorem lastSep_eq (q t : Bytes) (h : ∀ b ∈ t, sep b = false) : lastSep (q ++ 47 :: t) = q.length := by
  unfold lastSep
  have : (q ++ 47 :: t).reverse = t.reverse ++ 47 :: q.reverse := by simp
  rw [this, List.dropWhile_append_of_pos (by
    intro b hb; rw [h b (List.mem_reverse.mp hb)]; rfl)]
  rw [List.dropWhile_cons_of_neg (by decide)]
  simp

theorem plain_sep {n : Bytes} (h : Plain n) : ∀ b ∈ n, sep b = false := by
  intro b hb
  unfold sep
  have h1 : b ≠ 47 := fun e => h.2.2.2.1 (e ▸ hb)
  have h2 : b ≠ 92 := fun e => h.2.2.2.2.1 (e ▸ hb)
  simp [h1, h2]

/-- `dirName` holds `p` and zeros. -/
def Named (d : SendDisk) (p : Bytes) : Prop := d.dirName = p ++ List.replicate (1024 - p.length) 0 ∧ p.length < 1024 ∧ 0 ∉ p

theorem named_dir {d : SendDisk} {p : Bytes} (h : Named d p) : d.dir = p := by
  unfold SendDisk.dir
  rw [h.1]
  rw [List.takeWhile_append_of_pos (by
    intro b hb
    have : b ≠ 0 := fun e => h.2.2 (e ▸ hb)
    simpa using this)]
  obtain ⟨k, hk⟩ : ∃ k, 1024 - p.length = k + 1 := ⟨1023 - p.length, by have := h.2.1; omega⟩
  rw [hk]
  simp [List.replicate_succ]

theorem named_push {d : SendDisk} {q : Bytes} (p : Bytes) (names : List Bytes) (h : Named d q) (hq : q.length ≤ p.length)
    (hp : p.length < 1024) (hz : 0 ∉ p) : Named (pushDir d p names) p := by
  refine ⟨?_, hp, hz⟩
  show p ++ 0 :: d.dirName.drop (p.length + 1) = _
  congr 1
  rw [h.1, List.drop_append, List.drop_replicate, List.drop_eq_nil_of_le (by omega), List.nil_append]
  rw [show 1024 - p.length = (1024 - q.length - (p.length + 1 - q.length)) + 1 by omega]
  rfl

theorem named_pop {d : SendDisk} {q n : Bytes} (h : Named d (q ++ 47 :: n)) (hn : Plain n) (hq : q ≠ []) : Named (popDir d) q := by
  have hl : 0 < q.length := List.length_pos_iff.mpr hq
  have hlen := h.2.1
  have hk : lastSep d.dirName = q.length := by
    rw [h.1, List.append_assoc, List.cons_append]
    apply lastSep_eq
    intro b hb
    rcases List.mem_append.mp hb with hb | hb
    · exact plain_sep hn b hb
    · rw [List.eq_of_mem_replicate hb]; rfl
  refine ⟨?_, by simp at hlen; omega, fun hz => h.2.2 (by simp [hz])⟩
  show (if lastSep d.dirName ≠ 0 then d.dirName.take (lastSep d.dirName) ++ List.replicate (1024 - lastSep d.dirName) 0 else d.dirName) = _
  rw [hk, if_pos (by omega), h.1, List.append_assoc, List.take_left' rfl]

theorem extract_leads {p n : Bytes} (h : Leads p n) (hn : Sendable n) : extractName p = some n := by
  unfold extractName
  have hs := plain_sep hn.1
  have htw : p.reverse.takeWhile (fun b => !sep b) = n.reverse := by
    have hall : n.reverse.takeWhile (fun b => !sep b) = n.reverse := by
      have := List.takeWhile_append_of_pos (p := fun b => !sep b) (l₁ := n.reverse) (l₂ := []) (by
        intro b hb; rw [hs b (List.mem_reverse.mp hb)]; rfl)
      simpa using this
    rcases h with rfl | ⟨q, rfl⟩
    · exact hall
    · rw [show (q ++ 47 :: n).reverse = n.reverse ++ 47 :: q.reverse by simp]
      rw [List.takeWhile_append_of_pos (by intro b hb; rw [hs b (List.mem_reverse.mp hb)]; rfl)]
      rw [List.takeWhile_cons_of_neg (by decide)]
      simp
  have hp : p ≠ [] := by
    rcases h with rfl | ⟨q, rfl⟩
    · exact hn.1.1
    · simp
  simp only [htw, List.reverse_reverse]
  rw [if_neg]
  rintro (h | h)
  · exact hp h
  · have := hn.2.2; omega

/-! ## Names in a directory -/

theorem within_drop {v : View} {ts : Bool} {p : Bytes} : ∀ {ns : List Bytes} {is : List Item}, Within v ts p ns is →
    Within v ts p (ns.dropWhile isDot) is := by
  intro ns
  induction ns with
  | nil => intro is h; exact h
  | cons n ns ih =>
    intro is h
    by_cases hd : isDot n = true
    · rw [List.dropWhile_cons_of_pos hd]
      cases h with
      | dot _ h => exact ih h
      | cons hs _ =>
        exfalso
        have hp : Plain n := by cases hs with
          | file _ hn => exact hn.1
          | dir _ hn => exact hn.1
        unfold isDot at hd
        simp only [Bool.or_eq_true, beq_iff_eq] at hd
        rcases hd with e | e
        · exact hp.2.1 e
        · exact hp.2.2.1 e
    · rw [List.dropWhile_cons_of_neg hd]; exact h

theorem within_next {v : View} {ts : Bool} {p n : Bytes} {ns ns' : List Bytes} {is : List Item} (h : Within v ts p ns is)
    (e : ns.dropWhile isDot = n :: ns') : ∃ js ks, is = js ++ ks ∧ Shows v ts (p ++ 47 :: n) n js ∧ Within v ts p ns' ks := by
  have h' := within_drop h
  have hnd : isDot n = false := by
    have := List.head_dropWhile_not isDot (l := ns) (by rw [e]; simp)
    simpa [e] using this
  rw [e] at h'
  cases h' with
  | dot hd _ =>
    exfalso
    unfold isDot at hnd
    rcases hd with rfl | rfl <;> simp at hnd
  | cons h1 h2 => exact ⟨_, _, rfl, h1, h2⟩

theorem within_end {v : View} {ts : Bool} {p : Bytes} {ns : List Bytes} {is : List Item} (h : Within v ts p ns is)
    (e : ns.dropWhile isDot = []) : is = [] := by
  have h' := within_drop h
  rw [e] at h'
  cases h'
  rfl

/-! ## What is left to send -/

/-- The open directories, innermost first, and the items that are still to come. -/
inductive Open (v : View) (ts : Bool) : Bytes → List (List Bytes) → List Item → Prop where
  | root {p ns is} : Within v ts p ns is → Open v ts p [ns] (is ++ [.endDir])
  | sub {q n ns rest is js} : Within v ts (q ++ 47 :: n) ns is → Plain n → q ≠ [] → Open v ts q rest js →
      Open v ts (q ++ 47 :: n) (ns :: rest) (is ++ .endDir :: js)

theorem open_replace {v : View} {ts : Bool} {p : Bytes} {ns : List Bytes} {rest : List (List Bytes)} {is : List Item}
    (h : Open v ts p (ns :: rest) is) : ∃ js ks, is = js ++ ks ∧ Within v ts p ns js ∧
      ∀ ns' js', Within v ts p ns' js' → Open v ts p (ns' :: rest) (js' ++ ks) := by
  cases h with
  | root hw => exact ⟨_, _, rfl, hw, fun _ _ h => .root h⟩
  | sub hw hn hq ho => exact ⟨_, _, rfl, hw, fun _ _ h => .sub h hn hq ho⟩

/-- What the session holds before a call is what the callback left, but for the times. -/
def Like (p m : Meta) : Prop := p = m ∨ p = { m with atime := 0, mtime := 0 }

theorem like_fits {p m : Meta} (h : Like p m) (hm : Fits m) : Fits p := by
  rcases h with rfl | rfl
  · exact hm
  · exact ⟨hm.1, hm.2.1, hm.2.2.1, hm.2.2.2.1, by show 0 < _; decide, by show 0 < _; decide⟩

/-- The calls among what could be seen are answered by the default callback on the file system `v`. -/
def Served (base : Bytes) (v : View) : SendDisk → Meta → List SrcOut → Prop
  | _, _, [] => True
  | d, m, .call r off a m' :: os =>
    if r = .newRequest then Served base v d m os
    else ∃ p room j d', Like p m ∧ j.view = v ∧ sendCb base d r off p room j = (d', a, m') ∧ Served base v d' m' os
  | d, m, .wrote _ :: os => Served base v d m os
  | d, m, .nak :: os => Served base v d m os
  | d, m, .conf _ :: os => Served base v d m os

/-- A call of the kind that the options allow, not refused. -/
def Fair (o : Opts) : SrcOut → Prop
  | .call r _ a _ => r ≠ (if o.recurse then .single else .recursive) ∧ (r ≠ .newRequest → a ≠ .abort ∧ a ≠ .eof ∧ a ≠ .fail)
  | _ => True

/-- Where the callback is: what it will supply, given what it has supplied of the file it is in. -/
inductive At (base : Bytes) (v : View) (o : Opts) : SendDisk → Meta → Option Nat → Option (Meta × Bytes) → List Item → Prop where
  | single {d m n mode mt at_ data} : o.recurse = false → v base = some (.reg mode mt at_ data) → Leads base n → Sendable n →
      data.length < 4294967296 → Time mt → Time at_ →
      At base v o d m none none [.file (if o.times then some (mt, at_) else none) (mode % 512) n data]
  | start {d m n mode mt at_ names is} : o.recurse = true → d.stack = [] → Named d [] → m.size < 4294967296 →
      v base = some (.dir mode mt at_ names) → Leads base n → Sendable n → Time mt → Time at_ → 0 ∉ base → Within v o.times base names is →
      At base v o d m none none (.dir none (mode % 512) n :: (is ++ [.endDir]))
  | between {d m p is} : o.recurse = true → Named d p → p ≠ [] → Open v o.times p d.stack is → Fits m → At base v o d m none none is
  | file {d m m0 x rest is} : d.fp = some rest → m.size = (x ++ rest).length → x.length < m.size → m0.size = m.size → m.size < 4294967296 → Fits m →
      ((o.recurse = true ∧ ∃ p, Named d p ∧ p ≠ [] ∧ Open v o.times p d.stack is) ∨ (o.recurse = false ∧ is = [])) →
      At base v o d m (some x.length) (some (m0, x)) (fileItem o m0 (x ++ rest) :: is)

theorem over_silent (o : Opts) : ∀ (os : List SrcOut) (t t' : Talk), t.over = true → t.excused = false →
    os.foldlM (comply o) t = some t' → answers os = []
  | [], _, _, _, _, _ => rfl
  | e :: os, t, t', h, hx, hf => by
    rw [List.foldlM_cons] at hf
    cases hc : comply o t e with
    | none => rw [hc] at hf; cases hf
    | some u =>
      rw [hc] at hf
      have hu : u.over = true ∧ u.excused = false ∧ ∀ r off a m, e ≠ .call r off a m := by
        unfold comply at hc
        rw [if_neg (by simp [hx])] at hc
        cases e with
        | call r off a m => simp [h] at hc
        | wrote b =>
          simp only at hc
          split at hc
          · split at hc
            · cases hc; exact ⟨h, hx, by simp⟩
            · cases hc
          · cases hc
        | nak =>
          simp only at hc
          split at hc
          · cases hc; exact ⟨h, hx, by simp⟩
          · cases hc
        | conf g =>
          simp only at hc
          split at hc
          · cases hc; exact ⟨h, hx, by simp⟩
          · cases hc
      have ih := over_silent o os u t' hu.1 hu.2.1 hf
      unfold answers at ih ⊢
      cases e with
      | call r off a m => exact absurd rfl (hu.2.2 r off a m)
      | wrote b => simpa using ih
      | nak => simpa using ih
      | conf g => simpa using ih

/-- The claim about what follows. -/
def Claim (base : Bytes) (v : View) (o : Opts) (os : List SrcOut) : Prop :=
  ∀ (d : SendDisk) (m : Meta) (t t' : Talk) (op : Option (Meta × Bytes)) (is : List Item),
    Served base v d m os → os.foldlM (comply o) t = some t' → (t'.over = true ∨ t'.excused = true) → t.asked = true → t.excused = false → t.over = false →
    (∀ e ∈ os, Fair o e) → At base v o d m t.sent op is → supplied o op (answers os) = some is ∧ ∀ x ∈ answers os, Fits x.2

/-- What comes after a file, or a part of it, was supplied. -/
def Then (v : View) (o : Opts) (d : SendDisk) (is : List Item) : Prop :=
  (o.recurse = true ∧ ∃ p, Named d p ∧ p ≠ [] ∧ Open v o.times p d.stack is) ∨ (o.recurse = false ∧ is = [])

theorem claim_first {base : Bytes} {v : View} {o : Opts} {os : List SrcOut} (ih : Claim base v o os) {d : SendDisk} {m : Meta}
    {t t' : Talk} {c rest : Bytes} {is : List Item} (hs : Served base v d m os)
    (hf : os.foldlM (comply o) (plan o t (.data c) m) = some t') (ho : (t'.over = true ∨ t'.excused = true)) (ha : t.asked = true)
    (hx : t.excused = false) (hov : t.over = false) (hfair : ∀ e ∈ os, Fair o e) (hsent : t.sent = none)
    (hfp : c.length < m.size → d.fp = some rest)
    (hsz : m.size = (c ++ rest).length) (h32 : m.size < 4294967296) (hm : Fits m) (hthen : Then v o d is) :
    supplied o none ((.data c, m) :: answers os) = some (fileItem o m (c ++ rest) :: is) ∧ ∀ x ∈ (Ans.data c, m) :: answers os, Fits x.2 := by
  have hlen : m.size = c.length + rest.length := by simpa using hsz
  by_cases hlt : c.length < m.size
  · have hu : plan o t (.data c) m = { t with sent := some c.length, duty := trim (announce o m ++ [.say c]) } := by
      unfold plan
      simp only [hsent, Option.isNone_none, if_true, Option.getD_none, Nat.zero_add]
      rw [if_neg (by omega), if_pos hlt]
    rw [hu] at hf
    obtain ⟨h1, h2⟩ := ih d m _ t' (some (m, c)) _ hs hf ho ha hx hov hfair
      (At.file (hfp hlt) hsz hlt rfl h32 hm hthen)
    constructor
    · simp only [supplied]; rw [if_pos hlt]; exact h1
    · intro x hx'
      rcases List.mem_cons.mp hx' with e | e
      · rw [e]; exact hm
      · exact h2 x e
  · have hr : rest = [] := List.eq_nil_of_length_eq_zero (by omega)
    subst hr
    rw [List.append_nil] at hsz ⊢
    have hu : plan o t (.data c) m =
        { t with sent := none, over := !o.recurse, duty := trim (announce o m ++ [.say c, .say [0], .hear]) } := by
      unfold plan
      simp only [hsent, Option.isNone_none, if_true, Option.getD_none, Nat.zero_add]
      rw [if_neg (by omega), if_neg hlt]
    rw [hu] at hf
    have key : supplied o none (answers os) = some is ∧ ∀ x ∈ answers os, Fits x.2 := by
      rcases hthen with ⟨hr, p, hp, hpn, hop⟩ | ⟨hr, his⟩
      · exact ih d m _ t' none _ hs hf ho ha hx (by simp [hr]) hfair (At.between hr hp hpn hop hm)
      · have : answers os = [] := by
          refine over_silent o os _ t' ?_ ?_ hf
          · simp [hr]
          · exact hx
        rw [this, his]
        exact ⟨rfl, by simp⟩
    constructor
    · simp only [supplied]; rw [if_neg hlt, if_pos hsz.symm, key.1]; rfl
    · intro x hx'
      rcases List.mem_cons.mp hx' with e | e
      · rw [e]; exact hm
      · exact key.2 x e

theorem claim_more {base : Bytes} {v : View} {o : Opts} {os : List SrcOut} (ih : Claim base v o os) {d : SendDisk} {m m0 : Meta}
    {t t' : Talk} {x c rest : Bytes} {is : List Item} (hs : Served base v d m os)
    (hf : os.foldlM (comply o) (plan o t (.data c) m) = some t') (ho : (t'.over = true ∨ t'.excused = true)) (ha : t.asked = true)
    (hx : t.excused = false) (hov : t.over = false) (hfair : ∀ e ∈ os, Fair o e) (hsent : t.sent = some x.length)
    (hfp : (x ++ c).length < m.size → d.fp = some rest) (hm0 : m0.size = m.size)
    (hsz : m.size = (x ++ c ++ rest).length) (h32 : m.size < 4294967296) (hm : Fits m) (hthen : Then v o d is) :
    supplied o (some (m0, x)) ((.data c, m) :: answers os) = some (fileItem o m0 (x ++ c ++ rest) :: is) ∧
      ∀ y ∈ (Ans.data c, m) :: answers os, Fits y.2 := by
  have hlen : m.size = (x ++ c).length + rest.length := by rw [hsz, List.length_append]
  have hxc : (x ++ c).length = x.length + c.length := List.length_append
  by_cases hlt : (x ++ c).length < m.size
  · have hu : plan o t (.data c) m = { t with sent := some (x ++ c).length, duty := trim ([] ++ [.say c]) } := by
      unfold plan
      simp only [hsent, Option.isNone_some, Option.getD_some]
      rw [if_neg (by omega), if_pos (by omega), hxc]
      rfl
    rw [hu] at hf
    obtain ⟨h1, h2⟩ := ih d m _ t' (some (m0, x ++ c)) _ hs hf ho ha hx hov hfair
      (At.file (hfp hlt) hsz hlt hm0 h32 hm hthen)
    constructor
    · simp only [supplied]; rw [if_neg (by simp [hm0]), if_pos (by omega)]; exact h1
    · intro y hx'
      rcases List.mem_cons.mp hx' with e | e
      · rw [e]; exact hm
      · exact h2 y e
  · have hr : rest = [] := List.eq_nil_of_length_eq_zero (by omega)
    subst hr
    rw [List.append_nil] at hsz ⊢
    have hu : plan o t (.data c) m =
        { t with sent := none, over := !o.recurse, duty := trim ([] ++ [.say c, .say [0], .hear]) } := by
      unfold plan
      simp only [hsent, Option.isNone_some, Option.getD_some]
      rw [if_neg (by omega), if_neg (by omega)]
      rfl
    rw [hu] at hf
    have key : supplied o none (answers os) = some is ∧ ∀ x ∈ answers os, Fits x.2 := by
      rcases hthen with ⟨hr, p, hp, hpn, hop⟩ | ⟨hr, his⟩
      · exact ih d m _ t' none _ hs hf ho ha hx (by simp [hr]) hfair (At.between hr hp hpn hop hm)
      · have : answers os = [] := by
          refine over_silent o os _ t' ?_ ?_ hf
          · simp [hr]
          · exact hx
        rw [this, his]
        exact ⟨rfl, by simp⟩
    constructor
    · simp only [supplied]; rw [if_neg (by simp [hm0]), if_neg (by omega), if_pos (by omega), key.1]; rfl
    · intro y hx'
      rcases List.mem_cons.mp hx' with e | e
      · rw [e]; exact hm
      · exact key.2 y e

theorem answers_call (r : Req) (off : Nat) (a : Ans) (m : Meta) (os : List SrcOut) (h : r ≠ .newRequest) :
    answers (.call r off a m :: os) = (a, m) :: answers os := by
  simp [answers, h]

theorem take_cat (l : Bytes) (k : Nat) : l.take k ++ l.drop (l.take k).length = l := by
  by_cases h : k ≤ l.length
  · rw [List.length_take, Nat.min_eq_left h, List.take_append_drop]
  · rw [List.take_of_length_le (by omega), List.drop_length, List.append_nil]

theorem leads_ne {p n : Bytes} (h : Leads p n) (hn : Sendable n) : p ≠ [] := by
  rcases h with rfl | ⟨q, rfl⟩
  · exact hn.1.1
  · simp

/-- A call for a single file. -/
theorem claim_single {base : Bytes} {v : View} {o : Opts} {os : List SrcOut} (ih : Claim base v o os) {d d' : SendDisk} {p m' : Meta}
    {t t' : Talk} {off room : Nat} {a : Ans} {j : SendIn} (hs : Served base v d' m' os)
    (hf : os.foldlM (comply o) (plan o t a m') = some t') (ho : (t'.over = true ∨ t'.excused = true)) (ha : t.asked = true)
    (hx : t.excused = false) (hov : t.over = false) (hfair : ∀ e ∈ os, Fair o e) (hsent : t.sent = none)
    (hj : j.view = v) (hcb : sendCb base d .single off p room j = (d', a, m')) (hna : a ≠ .abort ∧ a ≠ .eof ∧ a ≠ .fail)
    {n : Bytes} {mode mt at_ : Nat} {data : Bytes} (hr : o.recurse = false) (hv : v base = some (.reg mode mt at_ data))
    (hl : Leads base n) (hn : Sendable n) (h32 : data.length < 4294967296) (hmt : Time mt) (hat : Time at_) :
    supplied o none ((a, m') :: answers os) = some [.file (if o.times then some (mt, at_) else none) (mode % 512) n data] ∧
      ∀ x ∈ (a, m') :: answers os, Fits x.2 := by
  unfold sendCb at hcb
  simp only [hj, hv, extract_leads hl hn] at hcb
  by_cases hok : j.ok = false
  · rw [if_pos hok] at hcb
    cases hcb
    exact absurd rfl hna.2.2
  · rw [if_neg hok] at hcb
    have hmod : data.length % 4294967296 = data.length := Nat.mod_eq_of_lt h32
    simp only [stats, hmod] at hcb
    have hm : Fits { name := n, mtime := mt, atime := at_, mode := mode % 512, size := data.length : Meta } :=
      ⟨hn.1, hn.2.1, hn.2.2, h32, hmt, hat⟩
    have hitem : ∀ x : Bytes, fileItem o { name := n, mtime := mt, atime := at_, mode := mode % 512, size := data.length } x =
        .file (if o.times then some (mt, at_) else none) (mode % 512) n x := by
      intro x; simp [fileItem]
    by_cases h0 : data.length = 0
    · rw [if_pos h0] at hcb
      cases hcb
      have hd : data = [] := List.eq_nil_of_length_eq_zero h0
      have := claim_first (c := []) (rest := []) (is := []) ih hs hf ho ha hx hov hfair hsent (by simp [h0]) (by simp [hd]) h32 hm
        (Or.inr ⟨hr, rfl⟩)
      rw [List.nil_append, hitem] at this
      rw [hd] at this ⊢
      exact this
    · rw [if_neg h0] at hcb
      by_cases hc : data.take (min room j.takes) = []
      · rw [if_pos hc] at hcb
        cases hcb
        exact absurd rfl hna.2.1
      · rw [if_neg hc] at hcb
        cases hcb
        have hcat := take_cat data (min room j.takes)
        have := claim_first (c := data.take (min room j.takes)) (rest := data.drop (data.take (min room j.takes)).length) (is := [])
          ih hs hf ho ha hx hov hfair hsent (fun h => if_neg (by show _ ≠ data.length; exact Nat.ne_of_lt h)) (by rw [hcat]) h32 hm
          (Or.inr ⟨hr, rfl⟩)
        rw [hcat, hitem] at this
        exact this

theorem open_cons {v : View} {ts : Bool} {p : Bytes} {st : List (List Bytes)} {is : List Item} (h : Open v ts p st is) :
    ∃ ns rest, st = ns :: rest := by
  cases h with
  | root _ => exact ⟨_, _, rfl⟩
  | sub _ _ _ _ => exact ⟨_, _, rfl⟩

/-- A call for the next entry. -/
theorem claim_between {base : Bytes} {v : View} {o : Opts} {os : List SrcOut} (ih : Claim base v o os) {d d' : SendDisk} {p m m' : Meta}
    {t t' : Talk} {off room : Nat} {a : Ans} {j : SendIn} {q : Bytes} {is : List Item} (hs : Served base v d' m' os)
    (hf : os.foldlM (comply o) (plan o t a m') = some t') (ho : t'.over = true ∨ t'.excused = true) (ha : t.asked = true)
    (hx : t.excused = false) (hov : t.over = false) (hfair : ∀ e ∈ os, Fair o e) (hsent : t.sent = none)
    (hj : j.view = v) (hcb : sendCb base d .recursive off p room j = (d', a, m')) (hna : a ≠ .abort ∧ a ≠ .eof ∧ a ≠ .fail)
    (hr : o.recurse = true) (hl : Like p m) (hq : Named d q) (hqn : q ≠ []) (hop : Open v o.times q d.stack is) (hm : Fits m) :
    supplied o none ((a, m') :: answers os) = some is ∧ ∀ x ∈ (a, m') :: answers os, Fits x.2 := by
  have hp : Fits p := like_fits hl hm
  obtain ⟨ns, rest, hst⟩ := open_cons hop
  rw [hst] at hop
  unfold sendCb at hcb
  simp only [hst] at hcb
  cases hd : ns.dropWhile isDot with
  | nil =>
    simp only [hd] at hcb
    cases hop with
    | @root _ _ js hw =>
      rw [if_pos rfl] at hcb
      cases hcb
      have hjs := within_end hw hd
      subst hjs
      have : answers os = [] := by
        refine over_silent o os _ t' ?_ ?_ hf
        · rfl
        · exact hx
      rw [this]
      refine ⟨rfl, ?_⟩
      intro x hx'
      rw [List.mem_singleton] at hx'
      rw [hx']; exact hp
    | @sub q' n _ _ js ks hw hn hq' ho' =>
      obtain ⟨ns2, rest2, hst2⟩ := open_cons ho'
      rw [if_neg (by rw [hst2]; simp)] at hcb
      cases hcb
      have hjs := within_end hw hd
      subst hjs
      have hrest : (popDir d).stack = rest := by show d.stack.tail = rest; rw [hst]; rfl
      have key := ih (popDir d) p _ t' none ks hs hf ho ha hx hov hfair (by
        show At base v o (popDir d) p t.sent none ks
        rw [hsent]
        exact At.between hr (named_pop hq hn hq') hq' (by rw [hrest]; exact ho') hp)
      constructor
      · simp only [supplied]; rw [key.1]; rfl
      · intro x hx'
        rcases List.mem_cons.mp hx' with e | e
        · rw [e]; exact hp
        · exact key.2 x e
  | cons n ns' =>
    simp only [hd] at hcb
    obtain ⟨js, ks, hisE, hw, hrep⟩ := open_replace hop
    obtain ⟨as, bs, hjsE, hshow, hw'⟩ := within_next hw hd
    have hq1 : Named { d with stack := ns' :: rest } q := hq
    have hop1 := hrep ns' bs hw'
    have hdir := named_dir hq1
    generalize hd1 : ({ d with stack := ns' :: rest } : SendDisk) = d1 at hcb hq1 hdir
    have hst1 : d1.stack = ns' :: rest := by rw [← hd1]
    rw [← hst1] at hop1
    have hisF : is = as ++ (bs ++ ks) := by rw [hisE, hjsE, List.append_assoc]
    rw [hisF]
    unfold entry at hcb
    by_cases hlen : d1.dir.length + 1 + n.length ≥ 1024
    · rw [if_pos hlen] at hcb; cases hcb; exact absurd rfl hna.1
    · rw [if_neg hlen] at hcb
      rw [hdir] at hcb hlen
      cases hshow with
      | @file _ _ mode mt at_ data hv hn h32 hmt hat =>
        simp only [hj, hv] at hcb
        by_cases hok : j.ok = false
        · rw [if_pos hok] at hcb; cases hcb; exact absurd rfl hna.1
        · rw [if_neg hok] at hcb
          unfold firstRead at hcb
          have hmod : data.length % 4294967296 = data.length := Nat.mod_eq_of_lt h32
          simp only [stats, hmod] at hcb
          cases hcb
          have hcat := take_cat data (min room j.takes)
          have := claim_first (c := data.take (min room j.takes)) (rest := data.drop (data.take (min room j.takes)).length) (is := bs ++ ks)
            ih hs hf ho ha hx hov hfair hsent (fun h => if_neg (by show _ ≠ data.length; exact Nat.ne_of_lt h)) (by rw [hcat]) h32
            ⟨hn.1, hn.2.1, hn.2.2, h32, hmt, hat⟩ (Or.inl ⟨hr, q, hq1, hqn, hop1⟩)
          rw [hcat] at this
          simpa [fileItem] using this
      | @dir _ _ mode mt at_ names is' hv hn hmt hat hw2 =>
        simp only [hj, hv] at hcb
        by_cases hok : j.ok = false
        · rw [if_pos hok] at hcb; cases hcb; exact absurd rfl hna.1
        · rw [if_neg hok] at hcb
          cases hcb
          have hfit : Fits (stats { p with name := n } mode mt at_) := ⟨hn.1, hn.2.1, hn.2.2, hp.2.2.2.1, hmt, hat⟩
          have hplen : (q ++ 47 :: n).length = q.length + 1 + n.length := by simp; omega
          have hnm : Named (pushDir d1 (q ++ 47 :: n) names) (q ++ 47 :: n) :=
            named_push (q ++ 47 :: n) names hq1 (by omega) (by omega) (by
              intro hz
              rcases List.mem_append.mp hz with hz | hz
              · exact hq.2.2 hz
              · rcases List.mem_cons.mp hz with hz | hz
                · exact absurd hz (by decide)
                · exact hn.1.2.2.2.2.2 hz)
          have key := ih (pushDir d1 (q ++ 47 :: n) names) (stats { p with name := n } mode mt at_) _ t' none (is' ++ .endDir :: (bs ++ ks))
            hs hf ho ha hx hov hfair (by
              show At base v o _ _ t.sent none _
              rw [hsent]
              exact At.between hr hnm (by simp) (Open.sub hw2 hn.1 hqn hop1) hfit)
          constructor
          · simp only [supplied]; rw [key.1]; simp [stats]
          · intro x hx'
            rcases List.mem_cons.mp hx' with e | e
            · rw [e]; exact hfit
            · exact key.2 x e

/-- The first call of a copy of a tree. -/
theorem claim_start {base : Bytes} {v : View} {o : Opts} {os : List SrcOut} (ih : Claim base v o os) {d d' : SendDisk} {p m m' : Meta}
    {t t' : Talk} {off room : Nat} {a : Ans} {j : SendIn} (hs : Served base v d' m' os)
    (hf : os.foldlM (comply o) (plan o t a m') = some t') (ho : t'.over = true ∨ t'.excused = true) (ha : t.asked = true)
    (hx : t.excused = false) (hov : t.over = false) (hfair : ∀ e ∈ os, Fair o e) (hsent : t.sent = none)
    (hj : j.view = v) (hcb : sendCb base d .recursive off p room j = (d', a, m')) (hna : a ≠ .abort ∧ a ≠ .eof ∧ a ≠ .fail)
    (hr : o.recurse = true) (hl : Like p m) (hst : d.stack = []) (hq : Named d []) (h32 : m.size < 4294967296)
    {n : Bytes} {mode mt at_ : Nat} {names : List Bytes} {is : List Item} (hv : v base = some (.dir mode mt at_ names))
    (hle : Leads base n) (hn : Sendable n) (hmt : Time mt) (hat : Time at_) (hz : 0 ∉ base) (hw : Within v o.times base names is) :
    supplied o none ((a, m') :: answers os) = some (.dir none (mode % 512) n :: (is ++ [.endDir])) ∧
      ∀ x ∈ (a, m') :: answers os, Fits x.2 := by
  have hps : p.size < 4294967296 := by
    rcases hl with rfl | rfl
    · exact h32
    · exact h32
  unfold sendCb enterRoot at hcb
  simp only [hst, hj] at hcb
  by_cases hbad : (unseparated base).length ≥ 1024 ∨ v (unseparated base) = some .link ∨ base.length ≥ 1024 ∨ j.ok = false
  · rw [if_pos hbad] at hcb; cases hcb; exact absurd rfl hna.1
  · rw [if_neg hbad] at hcb
    simp only [hv, extract_leads hle hn] at hcb
    cases hcb
    have hfit : Fits (stats { p with name := n } mode mt at_) := ⟨hn.1, hn.2.1, hn.2.2, hps, hmt, hat⟩
    have hnm := named_push base names hq (by simp) (by
      apply Nat.lt_of_not_le; intro h; exact hbad (Or.inr (Or.inr (Or.inl h)))) hz
    have hst' : (pushDir d base names).stack = [names] := by show names :: d.stack = _; rw [hst]
    have key := ih (pushDir d base names) (stats { p with name := n } mode mt at_) _ t' none (is ++ [.endDir])
      hs hf ho ha hx hov hfair (by
        show At base v o _ _ t.sent none _
        rw [hsent]
        exact At.between hr hnm (leads_ne hle hn) (by rw [hst']; exact Open.root hw) hfit)
    constructor
    · simp only [supplied]; rw [key.1]; simp [stats]
    · intro x hx'
      rcases List.mem_cons.mp hx' with e | e
      · rw [e]; exact hfit
      · exact key.2 x e

/-- A call for more of a file. -/
theorem claim_cont {base : Bytes} {v : View} {o : Opts} {os : List SrcOut} (ih : Claim base v o os) {d d' : SendDisk} {p m m' m0 : Meta}
    {t t' : Talk} {room : Nat} {a : Ans} {j : SendIn} {x rest : Bytes} {is : List Item} (hs : Served base v d' m' os)
    (hf : os.foldlM (comply o) (plan o t a m') = some t') (ho : t'.over = true ∨ t'.excused = true) (ha : t.asked = true)
    (hx : t.excused = false) (hov : t.over = false) (hfair : ∀ e ∈ os, Fair o e) (hsent : t.sent = some x.length)
    (hcb : sendCb base d .cont x.length p room j = (d', a, m')) (hna : a ≠ .abort ∧ a ≠ .eof ∧ a ≠ .fail)
    (hl : Like p m) (hfp : d.fp = some rest) (hsz : m.size = (x ++ rest).length) (hm0 : m0.size = m.size)
    (h32 : m.size < 4294967296) (hm : Fits m) (hthen : Then v o d is) :
    supplied o (some (m0, x)) ((a, m') :: answers os) = some (fileItem o m0 (x ++ rest) :: is) ∧
      ∀ y ∈ (a, m') :: answers os, Fits y.2 := by
  have hp := like_fits hl hm
  have hps : p.size = m.size := by
    rcases hl with rfl | rfl
    · rfl
    · rfl
  unfold sendCb at hcb
  simp only [hfp] at hcb
  by_cases hc : rest.take (min room j.takes) = []
  · rw [if_pos hc] at hcb; cases hcb; exact absurd rfl hna.2.1
  · rw [if_neg hc] at hcb
    cases hcb
    have hcat := take_cat rest (min room j.takes)
    have hle : (rest.take (min room j.takes)).length ≤ rest.length := by rw [List.length_take]; omega
    have hadd : add32 x.length (rest.take (min room j.takes)).length = x.length + (rest.take (min room j.takes)).length := by
      unfold add32
      apply Nat.mod_eq_of_lt
      rw [List.length_append] at hsz
      omega
    have := claim_more (x := x) (m0 := m0) (c := rest.take (min room j.takes)) (rest := rest.drop (rest.take (min room j.takes)).length)
      (is := is) ih hs hf ho ha hx hov hfair hsent
      (fun h => if_neg (by rw [hadd]; rw [List.length_append] at h; exact Nat.ne_of_lt h))
      (by rw [hps, hm0]) (by rw [List.append_assoc, hcat, hps, hsz]) (by rw [hps]; exact h32) hp hthen
    rw [List.append_assoc, hcat] at this
    exact this

theorem claim_all (base : Bytes) (v : View) (o : Opts) : ∀ os, Claim base v o os
  | [] => by
    intro d m t t' op is _ hf ho _ hx hov _ _
    rw [List.foldlM_nil] at hf
    cases hf
    rcases ho with h | h
    · rw [hov] at h; cases h
    · rw [hx] at h; cases h
  | e :: os => by
    have ih := claim_all base v o os
    intro d m t t' op is hs hf ho ha hx hov hfair hat
    have hfair' : ∀ e ∈ os, Fair o e := fun e he => hfair e (List.mem_cons_of_mem _ he)
    rw [List.foldlM_cons] at hf
    cases hc : comply o t e with
    | none => rw [hc] at hf; cases hf
    | some u =>
      rw [hc] at hf
      have hf : os.foldlM (comply o) u = some t' := hf
      unfold comply at hc
      rw [if_neg (by simp [hx])] at hc
      cases e with
      | wrote b =>
        simp only at hc
        split at hc
        · split at hc
          · cases hc; exact ih d m _ t' op is hs hf ho ha hx hov hfair' hat
          · cases hc
        · cases hc
      | nak =>
        simp only at hc
        split at hc
        · cases hc; exact ih d m _ t' op is hs hf ho ha hx hov hfair' hat
        · cases hc
      | conf g =>
        simp only at hc
        split at hc
        · cases hc; exact ih d m _ t' op is hs hf ho ha hx hov hfair' hat
        · cases hc
      | call r off a m' =>
        simp only at hc
        by_cases hd : t.duty ≠ [] ∨ t.over = true
        · rw [if_pos hd] at hc; cases hc
        · rw [if_neg hd, if_neg (by simp [ha])] at hc
          have hfr := hfair _ (List.mem_cons_self ..)
          cases hsent : t.sent with
          | none =>
            simp only [hsent] at hc
            by_cases hr : (r = .single ∨ r = .recursive) ∧ off = 0
            · rw [if_pos hr] at hc
              cases hc
              have hnn : r ≠ .newRequest := by rcases hr.1 with h | h <;> rw [h] <;> simp
              have hna := hfr.2 hnn
              unfold Served at hs
              rw [if_neg hnn] at hs
              obtain ⟨p, room, j, d', hl, hj, hcb, hs⟩ := hs
              rw [answers_call _ _ _ _ _ hnn]
              rw [hsent] at hat
              cases hat with
              | single h1 h2 h3 h4 h5 h6 h7 =>
                have : r = .single := by
                  rcases hr.1 with h | h
                  · exact h
                  · exact absurd h (by simpa [h1] using hfr.1)
                subst this
                exact claim_single ih hs hf ho ha hx hov hfair' hsent hj hcb hna h1 h2 h3 h4 h5 h6 h7
              | start h1 h2 h3 h4 h5 h6 h7 h8 h9 h10 h11 =>
                have : r = .recursive := by
                  rcases hr.1 with h | h
                  · exact absurd h (by simpa [h1] using hfr.1)
                  · exact h
                subst this
                exact claim_start ih hs hf ho ha hx hov hfair' hsent hj hcb hna h1 hl h2 h3 h4 h5 h6 h7 h8 h9 h10 h11
              | between h1 h2 h3 h4 h5 =>
                have : r = .recursive := by
                  rcases hr.1 with h | h
                  · exact absurd h (by simpa [h1] using hfr.1)
                  · exact h
                subst this
                exact claim_between ih hs hf ho ha hx hov hfair' hsent hj hcb hna h1 hl h2 h3 h4 h5
            · rw [if_neg hr] at hc; cases hc
          | some k =>
            simp only [hsent] at hc
            by_cases hr : r = .cont ∧ off = k
            · rw [if_pos hr] at hc
              cases hc
              obtain ⟨rfl, rfl⟩ := hr
              have hna := hfr.2 (by simp)
              unfold Served at hs
              rw [if_neg (by simp)] at hs
              obtain ⟨p, room, j, d', hl, hj, hcb, hs⟩ := hs
              rw [answers_call _ _ _ _ _ (by simp)]
              rw [hsent] at hat
              cases hat with
              | file h1 h2 h3 h4 h5 h6 h7 =>
                exact claim_cont ih hs hf ho ha hx hov hfair' hsent hcb hna hl h1 h2 h4 h5 h6 h7
            · rw [if_neg hr] at hc; cases hc

end Proofs.Scp
