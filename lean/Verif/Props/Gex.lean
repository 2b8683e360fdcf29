import Verif.Spec.Gex
import Verif.Props.Wire
/-!
# C32, C46: group exchange
-/

namespace Props.Gex
open Wolf Wolf.Wire Wolf.Gex Spec.Gex Props.Wire

theorem deref_len {m s : Bytes} {r : StrRef} (h : deref m r = some s) : s.length = r.sz := by
  unfold deref at h
  split at h
  · split at h
    · simp only [Option.some.injEq] at h; rw [← h]; simp; omega
    · simp at h
  · split at h
    · simp only [Option.some.injEq] at h; rw [← h]; simp; omega
    · simp at h

theorem readBin_eq (b : Bytes) : readBin b = Spec.Wire.beNat b := by
  unfold readBin Spec.Wire.beNat
  congr 1
  funext n x
  rw [Nat.mul_comm]

theorem countBits_has {n : Nat} (h : 0 < n) : HasBits n (countBits n) := by
  unfold countBits HasBits
  rw [if_neg (by omega)]
  refine ⟨by omega, ?_, Nat.lt_log2_self⟩
  rw [Nat.add_sub_cancel]
  exact Nat.log2_self_le (by omega)

theorem hasBits_unique {p n m : Nat} (h : HasBits p n) (h' : HasBits p m) : n = m := by
  obtain ⟨h1, h2, h3⟩ := h
  obtain ⟨g1, g2, g3⟩ := h'
  rcases Nat.lt_trichotomy n m with h | h | h
  · have := Nat.pow_le_pow_right (n := 2) (by omega) (show n ≤ m - 1 by omega); omega
  · exact h
  · have := Nat.pow_le_pow_right (n := 2) (by omega) (show m ≤ n - 1 by omega); omega

/-- The built-in groups have the size the table says. -/
theorem candidate_bits (o : Build) : ∀ c ∈ candidates o, HasBits (Spec.Wire.beNat c.group) c.bits := by
  have h1 : HasBits (Spec.Wire.beNat dhPrimeGroup1) 1024 := by
    refine ⟨by decide, ?_, ?_⟩ <;> decide +kernel
  have h14 : HasBits (Spec.Wire.beNat dhPrimeGroup14) 2048 := by
    refine ⟨by decide, ?_, ?_⟩ <;> decide +kernel
  have h16 : HasBits (Spec.Wire.beNat dhPrimeGroup16) 4096 := by
    refine ⟨by decide, ?_, ?_⟩ <;> decide +kernel
  intro c hc
  unfold candidates at hc
  simp only [List.mem_append, List.mem_ite_nil_right, List.mem_singleton] at hc
  rcases hc with (⟨_, rfl⟩ | rfl) | ⟨_, rfl⟩
  · exact h1
  · exact h14
  · exact h16

theorem scan_spec (mn pr mx : Nat) (cs : List Cand) : ∀ best : Option Cand,
    cs.Pairwise (fun a b => a.bits < b.bits) →
    (∀ b, best = some b → b.bits < pr ∧ mn ≤ b.bits ∧ b.bits ≤ mx ∧ ∀ c ∈ cs, b.bits < c.bits) →
    (∀ c, scan mn pr mx best cs = some c →
      (c ∈ cs ∨ best = some c) ∧ mn ≤ c.bits ∧ c.bits ≤ mx ∧
      ((pr ≤ c.bits ∧ ∀ d ∈ cs, mn ≤ d.bits → d.bits ≤ mx → pr ≤ d.bits → c.bits ≤ d.bits) ∨
       (c.bits < pr ∧ ∀ d ∈ cs, mn ≤ d.bits → d.bits ≤ mx → d.bits < pr ∧ d.bits ≤ c.bits))) ∧
    (scan mn pr mx best cs = none → best = none ∧ ∀ d ∈ cs, ¬ (mn ≤ d.bits ∧ d.bits ≤ mx)) := by
  induction cs with
  | nil =>
    intro best _ hb
    constructor
    · intro c hc
      simp only [scan] at hc
      obtain ⟨h1, h2, h3, _⟩ := hb c hc
      exact ⟨.inr hc, h2, h3, .inr ⟨h1, by simp⟩⟩
    · intro h; exact ⟨h, by simp⟩
  | cons a cs ih =>
    intro best hs hb
    rw [List.pairwise_cons] at hs
    obtain ⟨ha, hs⟩ := hs
    unfold scan
    split
    · rename_i hout
      obtain ⟨i1, i2⟩ := ih best hs (fun b hbb => by
        obtain ⟨h1, h2, h3, h4⟩ := hb b hbb
        exact ⟨h1, h2, h3, fun c hc => h4 c (by simp [hc])⟩)
      constructor
      · intro c hc
        obtain ⟨h1, h2, h3, h4⟩ := i1 c hc
        refine ⟨by rcases h1 with h | h <;> simp [h], h2, h3, ?_⟩
        rcases h4 with ⟨h4, h5⟩ | ⟨h4, h5⟩
        · refine .inl ⟨h4, fun d hd => ?_⟩
          rcases List.mem_cons.mp hd with rfl | hd
          · intros; omega
          · exact h5 d hd
        · refine .inr ⟨h4, fun d hd => ?_⟩
          rcases List.mem_cons.mp hd with rfl | hd
          · intros; omega
          · exact h5 d hd
      · intro h
        obtain ⟨h1, h2⟩ := i2 h
        refine ⟨h1, fun d hd => ?_⟩
        rcases List.mem_cons.mp hd with rfl | hd
        · omega
        · exact h2 d hd
    · rename_i hin
      split
      · rename_i hpr
        constructor
        · intro c hc
          simp only [Option.some.injEq] at hc
          subst hc
          refine ⟨by simp, by omega, by omega, .inl ⟨hpr, fun d hd => ?_⟩⟩
          rcases List.mem_cons.mp hd with rfl | hd
          · intros; omega
          · intros; have := ha d hd; omega
        · intro h; simp at h
      · rename_i hpr
        obtain ⟨i1, i2⟩ := ih (some a) hs (fun b hbb => by
          simp only [Option.some.injEq] at hbb
          subst hbb
          exact ⟨by omega, by omega, by omega, ha⟩)
        constructor
        · intro c hc
          obtain ⟨h1, h2, h3, h4⟩ := i1 c hc
          have hle : a.bits ≤ c.bits := by
            rcases h1 with h | h
            · have := ha c h; omega
            · simp only [Option.some.injEq] at h; rw [h]; omega
          have hmem : c ∈ a :: cs := by
            rcases h1 with h | h
            · exact List.mem_cons_of_mem _ h
            · simp only [Option.some.injEq] at h; rw [h]; exact List.mem_cons_self
          refine ⟨.inl hmem, h2, h3, ?_⟩
          rcases h4 with ⟨h4, h5⟩ | ⟨h4, h5⟩
          · refine .inl ⟨h4, fun d hd => ?_⟩
            rcases List.mem_cons.mp hd with rfl | hd
            · intros; omega
            · exact h5 d hd
          · refine .inr ⟨h4, fun d hd => ?_⟩
            rcases List.mem_cons.mp hd with rfl | hd
            · intros; omega
            · exact h5 d hd
        · intro h
          have := (i2 h).1
          simp at this

theorem candidates_sorted (o : Build) : (candidates o).Pairwise (fun a b => a.bits < b.bits) := by
  unfold candidates
  cases o.group1 <;> cases o.group16 <;> simp

/-- C32: for every request, the server's choice is one of the groups of the build, of a size that is allowed,
and either reaches the preferred size and is the smallest allowed one that does, or no allowed one does and it is
the largest. It fails exactly if no group of the build is allowed. -/
theorem C32_select (o : Build) (mn pr mx : Nat) :
    (∀ p, selectGroup o mn pr mx = .ok p → ∃ c ∈ candidates o, c.group = p ∧ HasBits (Spec.Wire.beNat p) c.bits ∧
      Allowed o mn mx c.bits ∧
      ((pr ≤ c.bits ∧ ∀ d ∈ candidates o, Allowed o mn mx d.bits → pr ≤ d.bits → c.bits ≤ d.bits) ∨
       (∀ d ∈ candidates o, Allowed o mn mx d.bits → d.bits < pr ∧ d.bits ≤ c.bits))) ∧
    (∀ e, selectGroup o mn pr mx = .error e → e = .dhSize ∧ ∀ d ∈ candidates o, ¬ Allowed o mn mx d.bits) := by
  unfold selectGroup
  have hal : ∀ n, Allowed o mn mx n ↔ floorBits mn ≤ n ∧ n ≤ capBits o mx := by
    intro n
    unfold Allowed floorBits capBits
    simp only [show GEX_MIN_BITS = 2048 from rfl]
    constructor
    · rintro ⟨h1, h2, h3, h4, h5⟩
      constructor
      · split <;> omega
      · repeat' split
        all_goals omega
    · rintro ⟨h1, h2⟩
      have h3 : mn ≤ n ∧ 2048 ≤ n := by split at h1 <;> omega
      refine ⟨h3.1, h3.2, ?_, ?_, ?_⟩ <;> (repeat' split at h2) <;> omega
  generalize floorBits mn = mn' at hal ⊢
  generalize capBits o mx = mx2 at hal ⊢
  obtain ⟨s1, s2⟩ := scan_spec mn' pr mx2 (candidates o) none (candidates_sorted o) (by simp)
  cases hs : scan mn' pr mx2 none (candidates o) with
  | none =>
    simp only
    refine ⟨by simp, ?_⟩
    intro e he
    simp only [Except.error.injEq] at he
    refine ⟨he.symm, fun d hd => ?_⟩
    rw [hal]
    exact (s2 hs).2 d hd
  | some c =>
    simp only
    refine ⟨?_, by simp⟩
    intro p hp
    simp only [Except.ok.injEq] at hp
    obtain ⟨h1, h2, h3, h4⟩ := s1 c hs
    have hc : c ∈ candidates o := by rcases h1 with h | h <;> simp_all
    refine ⟨c, hc, hp, by rw [← hp]; exact candidate_bits o c hc, (hal _).mpr ⟨h2, h3⟩, ?_⟩
    simp only [hal]
    rcases h4 with ⟨h4, h5⟩ | ⟨_, h5⟩
    · exact .inl ⟨h4, fun d hd hda => h5 d hd hda.1 hda.2⟩
    · exact .inr fun d hd hda => h5 d hd hda.1 hda.2

theorem validate_sound (isPrime : Nat → Bool) (prime generator : Bytes) (mn mx : Nat) (hle : mn ≤ mx) (h32 : mx < 2 ^ 32)
    (hfl : 2048 ≤ mn) (h : validateGroup isPrime prime generator mn mx = none) :
    Acceptable isPrime mn mx (Spec.Wire.beNat prime) (Spec.Wire.beNat generator) := by
  unfold validateGroup at h
  simp only [readBin_eq] at h
  split at h
  · simp at h
  split at h
  · simp at h
  split at h
  · simp at h
  split at h
  · simp at h
  split at h
  · simp at h
  split at h
  · simp at h
  split at h
  · simp at h
  split at h
  · simp at h
  rename_i h1 h2 h3 h4 h5 h6 h7 h8
  have hp : 0 < Spec.Wire.beNat prime := by omega
  have hb := countBits_has hp
  have hr : mn ≤ countBits (Spec.Wire.beNat prime) ∧ countBits (Spec.Wire.beNat prime) ≤ mx := by
    unfold toInt at h3
    split at h3 <;> split at h3 <;> omega
  exact ⟨⟨_, hb, hr.1, by omega, hr.2⟩, by omega, by simpa using h7, by simpa using h8, by omega, by omega⟩

/-- C46: whatever group a server sends, a client that asked with `gexRequest` goes on only with an acceptable
one, and it is that group it keeps. Reading the message is free of undefined behaviour. -/
theorem C46_accepted (o : Build) (isPrime : Nat → Bool) (alloc : Bool) (x0 x : Gex) (req : Bytes)
    (hx : gexRequest x0 = .ok (x, req)) (h32 : x0.max < 2 ^ 32)
    (buf : Bytes) (len idx : Nat) (hl : len ≤ buf.length) (hw : len < 2 ^ 32) :
    ∃ r x', doGexGroup o isPrime alloc x buf len idx = some (r, x') ∧
      (r = .ok () → ∃ p g, x'.prime = some p ∧ x'.generator = some g ∧ p.length ≤ o.keyBytes + 1 ∧
        Acceptable isPrime x.min x.max (Spec.Wire.beNat p) (Spec.Wire.beNat g) ∧
        ∃ rest rest', Spec.Wire.mpint (msgFrom buf len idx) = some (p, rest) ∧ Spec.Wire.mpint rest = some (g, rest')) := by
  have hx' : GEX_MIN_BITS ≤ x.min ∧ x.min ≤ x.max ∧ x.max = x0.max := by
    unfold gexRequest at hx
    simp only at hx
    split at hx
    · simp at hx
    · rename_i h
      simp only [Except.ok.injEq, Prod.mk.injEq] at hx
      rw [← hx.1]
      simp only
      refine ⟨by unfold floorBits; split <;> omega, by omega, trivial⟩
  obtain ⟨hx1, hx2, hx3⟩ := hx'
  unfold doGexGroup
  have h1 := C01_getMpint buf len idx hl hw
  cases hp : getMpint buf len idx with
  | ub => rw [hp] at h1; exact h1.elim
  | err e i => exact ⟨_, _, rfl, by simp⟩
  | ok p i =>
    rw [hp] at h1
    obtain ⟨h1a, s, h1b, h1c, h1d⟩ := h1
    simp only
    split
    · exact ⟨_, _, rfl, by simp⟩
    · rename_i hsz
      have h2 := C01_getMpint buf len i hl hw
      cases hg : getMpint buf len i with
      | ub => rw [hg] at h2; exact h2.elim
      | err e j => exact ⟨_, _, rfl, by simp⟩
      | ok g j =>
        rw [hg] at h2
        obtain ⟨h2a, t, h2b, h2c, h2d⟩ := h2
        simp only [h1b, h2b]
        rw [show floorBits x.min = x.min by unfold floorBits; rw [if_neg (by omega)]]
        cases hv : validateGroup isPrime s t x.min x.max with
        | some e => exact ⟨_, _, rfl, by simp⟩
        | none =>
          simp only
          have hsl : s.length = p.sz := deref_len h1b
          cases alloc with
          | true =>
            rw [if_pos rfl]
            refine ⟨_, _, rfl, fun _ => ⟨s, t, rfl, rfl, by omega, ?_, _, _, h1d, h2d⟩⟩
            exact validate_sound isPrime s t x.min x.max hx2 (by omega) hx1 hv
          | false => exact ⟨_, _, rfl, by simp⟩

/-! ## Both sides -/

theorem getMpint_at (pre s post : Bytes) (hc : ∀ b r, s = b :: r → b.toNat < 128)
    (hw : (pre ++ (c32toa s.length ++ s) ++ post).length < 2^32) :
    let msg := pre ++ (c32toa s.length ++ s) ++ post
    ∃ r, getMpint msg msg.length pre.length = .ok r (pre.length + 4 + s.length) ∧ deref msg r = some s := by
  intro msg
  obtain ⟨r, h1, h2, _⟩ := C02_string pre s post hw
  have hmp := C01_getMpint msg msg.length pre.length (Nat.le_refl _) hw
  have hsr := C01_getStringRef msg msg.length pre.length (Nat.le_refl _) hw
  change getStringRef msg msg.length pre.length = _ at h1
  rw [h1] at hsr
  simp only at hsr
  obtain ⟨_, s', hs1, _, hs3⟩ := hsr
  change deref msg r = some s at h2
  have hss : s' = s := by rw [h2] at hs1; simpa using hs1.symm
  subst hss
  have hspec : Spec.Wire.mpint (msgFrom msg msg.length pre.length)
      = some (s', msgFrom msg msg.length (pre.length + 4 + s'.length)) := by
    unfold Spec.Wire.mpint
    rw [hs3]
    cases hb : s' with
    | nil => rfl
    | cons b bs => simp only; rw [if_pos (hc b bs hb)]
  have hml : msg.length = pre.length + 4 + s'.length + post.length := by
    simp only [msg, List.length_append, c32toa, List.length_cons, List.length_nil]; omega
  cases hg : getMpint msg msg.length pre.length with
  | ub => rw [hg] at hmp; exact hmp.elim
  | err e i => rw [hg] at hmp; simp [hspec] at hmp
  | ok r' i =>
    rw [hg] at hmp
    simp only at hmp
    obtain ⟨hi, t, ht1, _, ht3⟩ := hmp
    rw [hspec] at ht3
    simp only [Option.some.injEq, Prod.mk.injEq] at ht3
    have hlen := congrArg List.length ht3.2
    simp only [msgFrom, List.take_length, List.length_drop] at hlen
    refine ⟨r', ?_, by rw [ht1, ht3.1]⟩
    rw [show i = pre.length + 4 + s'.length by omega]

/-- The server reads from the client's request exactly the three numbers the client keeps, and answers with the group
it selects for them, or fails with the selection. -/
theorem C32_request (o : Build) (alloc : Bool) (x0 x y : Gex) (req pre post : Bytes)
    (hx : gexRequest x0 = .ok (x, req)) (h32 : x0.max < 2 ^ 32)
    (hw : (pre ++ req ++ post).length < 2 ^ 32) :
    doGexRequest o alloc y (pre ++ req ++ post) (pre ++ req ++ post).length pre.length =
      some (match selectGroup o x.min x.preferred x.max with
        | .error e => .error e
        | .ok p =>
          if alloc then
            .ok (⟨x.min, x.preferred, x.max, some p, y.generator⟩, padded p ++ padded dhGenerator)
          else .error .memory) := by
  have hx' : req = c32toa x.min ++ c32toa x.preferred ++ c32toa x.max ∧ x.min < 2 ^ 32 ∧ x.preferred < 2 ^ 32 ∧
      x.max < 2 ^ 32 := by
    unfold gexRequest at hx
    simp only at hx
    split at hx
    · simp at hx
    · rename_i h
      simp only [Except.ok.injEq, Prod.mk.injEq] at hx
      obtain ⟨rfl, rfl⟩ := hx
      simp only [true_and]
      refine ⟨by omega, ?_, h32⟩
      repeat' split
      all_goals omega
  obtain ⟨rfl, h1, h2, h3⟩ := hx'
  have r1 := C02_uint32 pre (c32toa x.preferred ++ c32toa x.max ++ post) x.min h1 (by simpa using hw)
  have r2 := C02_uint32 (pre ++ c32toa x.min) (c32toa x.max ++ post) x.preferred h2 (by simpa using hw)
  have r3 := C02_uint32 (pre ++ c32toa x.min ++ c32toa x.preferred) post x.max h3 (by simpa using hw)
  have e1 : pre ++ c32toa x.min ++ (c32toa x.preferred ++ c32toa x.max ++ post)
      = pre ++ (c32toa x.min ++ c32toa x.preferred ++ c32toa x.max) ++ post := by simp
  have e2 : pre ++ c32toa x.min ++ c32toa x.preferred ++ (c32toa x.max ++ post)
      = pre ++ (c32toa x.min ++ c32toa x.preferred ++ c32toa x.max) ++ post := by simp
  have e3 : pre ++ c32toa x.min ++ c32toa x.preferred ++ c32toa x.max ++ post
      = pre ++ (c32toa x.min ++ c32toa x.preferred ++ c32toa x.max) ++ post := by simp
  rw [e1] at r1
  rw [e2, show (pre ++ c32toa x.min).length = pre.length + 4 by simp [c32toa]] at r2
  rw [e3, show (pre ++ c32toa x.min ++ c32toa x.preferred).length = pre.length + 4 + 4 by simp [c32toa]] at r3
  unfold doGexRequest
  rw [r1]; simp only
  rw [r2]; simp only
  rw [r3]; simp only
  cases selectGroup o x.min x.preferred x.max with
  | error e => rfl
  | ok p => cases alloc <;> rfl

theorem candidate_shape (o : Build) : ∀ c ∈ candidates o,
    (c.group.getD 0 0 &&& 0x80) ≠ 0 ∧ 8 * c.group.length = c.bits ∧ mpintOnWire (createMpint c.group 0) = padded c.group ∧
    Spec.Wire.beNat c.group % 2 = 1 ∧ 64 < c.bits := by
  have h1 : (dhPrimeGroup1.getD 0 0 &&& 0x80) ≠ 0 ∧ 8 * dhPrimeGroup1.length = 1024 ∧
    mpintOnWire (createMpint dhPrimeGroup1 0) = padded dhPrimeGroup1 ∧ Spec.Wire.beNat dhPrimeGroup1 % 2 = 1 ∧ 64 < 1024 := by
    decide +kernel
  have h14 : (dhPrimeGroup14.getD 0 0 &&& 0x80) ≠ 0 ∧ 8 * dhPrimeGroup14.length = 2048 ∧
    mpintOnWire (createMpint dhPrimeGroup14 0) = padded dhPrimeGroup14 ∧ Spec.Wire.beNat dhPrimeGroup14 % 2 = 1 ∧ 64 < 2048 := by
    decide +kernel
  have h16 : (dhPrimeGroup16.getD 0 0 &&& 0x80) ≠ 0 ∧ 8 * dhPrimeGroup16.length = 4096 ∧
    mpintOnWire (createMpint dhPrimeGroup16 0) = padded dhPrimeGroup16 ∧ Spec.Wire.beNat dhPrimeGroup16 % 2 = 1 ∧ 64 < 4096 := by
    decide +kernel
  intro c hc
  unfold candidates at hc
  simp only [List.mem_append, List.mem_ite_nil_right, List.mem_singleton] at hc
  rcases hc with (⟨_, rfl⟩ | rfl) | ⟨_, rfl⟩
  · dsimp only; exact h1
  · dsimp only; exact h14
  · dsimp only; exact h16

/-- Completeness of the check, for a number sent with one sign byte. -/
theorem validate_complete (isPrime : Nat → Bool) (p g : Bytes) (mn mx bits : Nat)
    (hb : HasBits (Spec.Wire.beNat p) bits) (hl : 8 * p.length = bits) (hmn : mn ≤ bits) (hmx : bits ≤ mx)
    (h31 : mx < 2 ^ 31) (hodd : Spec.Wire.beNat p % 2 = 1)
    (hp : isPrime (Spec.Wire.beNat p) = true) (hq : isPrime ((Spec.Wire.beNat p - 1) / 2) = true)
    (hg : g ≠ []) (hgl : g.length ≤ p.length) (hg2 : 2 ≤ Spec.Wire.beNat g) (hgp : Spec.Wire.beNat g + 2 ≤ Spec.Wire.beNat p) :
    validateGroup isPrime (0 :: p) g mn mx = none := by
  have hv : Spec.Wire.beNat (0 :: p) = Spec.Wire.beNat p := by rw [beNat_cons]; simp
  have hc : countBits (Spec.Wire.beNat p) = bits := hasBits_unique (countBits_has (by omega)) hb
  unfold validateGroup
  simp only [readBin_eq, hv, hc]
  rw [if_neg (by simp [hg])]
  have ha : adjSize (0 :: p) = p.length := by simp [adjSize]
  have hag : adjSize g ≤ g.length := by unfold adjSize; omega
  have hm : p.length ≤ maxBytes mx := by unfold maxBytes; split <;> omega
  rw [if_neg (by rw [ha]; omega)]
  have hti : ∀ n, n < 2 ^ 31 → toInt n = n := by
    intro n hn; unfold toInt; rw [if_pos (by omega)]
  rw [hti mn (by omega), hti mx h31, if_neg (by omega), if_neg (by omega), if_neg (by omega), if_neg (by omega),
    if_neg (by simp [hp]), if_neg (by simp [hq])]

/-- C32, the whole exchange: the answer of the server to the client's request is taken by the client, if the primality
test accepts the server's group; both sides then compute with the same prime and generator, and feed the same bytes to the
exchange hash. -/
theorem C32_agree (os oc : Build) (isPrime : Nat → Bool) (x0 x y y' : Gex) (req ans pre post : Bytes)
    (hx : gexRequest x0 = .ok (x, req)) (h31 : x0.max < 2 ^ 31) (hoc : os.keyBytes ≤ oc.keyBytes)
    (hy : y.generator = none) (hw : (pre ++ req ++ post).length < 2 ^ 32)
    (hs : doGexRequest os true y (pre ++ req ++ post) (pre ++ req ++ post).length pre.length = some (.ok (y', ans))) :
    ∃ p g, gexGroup os y' = .ok (p, g) ∧
      (isPrime (Spec.Wire.beNat p) = true → isPrime ((Spec.Wire.beNat p - 1) / 2) = true →
        ∀ pre' post' : Bytes, (pre' ++ ans ++ post').length < 2 ^ 32 →
        ∃ x' pc gc, doGexGroup oc isPrime true x (pre' ++ ans ++ post') (pre' ++ ans ++ post').length pre'.length
            = some (.ok (), x') ∧
          gexGroup oc x' = .ok (pc, gc) ∧ Spec.Wire.beNat pc = Spec.Wire.beNat p ∧ Spec.Wire.beNat gc = Spec.Wire.beNat g ∧
          hashedClient x' pc gc = hashedServer y' p g) := by
  rw [C32_request os true x0 x y req pre post hx (by omega) hw] at hs
  have hx' : 2048 ≤ x.min ∧ x.max = x0.max ∧ x.generator = x0.generator := by
    unfold gexRequest at hx
    simp only at hx
    split at hx
    · simp at hx
    · simp only [Except.ok.injEq, Prod.mk.injEq] at hx
      rw [← hx.1]
      simp only [and_true]
      unfold floorBits
      simp only [show GEX_MIN_BITS = 2048 from rfl]
      split <;> omega
  obtain ⟨hx1, hx2, _⟩ := hx'
  cases hsel : selectGroup os x.min x.preferred x.max with
  | error e => rw [hsel] at hs; simp at hs
  | ok p =>
    rw [hsel] at hs
    simp only [if_true, Option.some.injEq, Except.ok.injEq, Prod.mk.injEq] at hs
    obtain ⟨rfl, rfl⟩ := hs
    obtain ⟨c, hc, rfl, hbits, hal, _⟩ := (C32_select os x.min x.preferred x.max).1 p hsel
    obtain ⟨a1, a2, a3, a4, a5⟩ := hal
    obtain ⟨c1, c2, c3, c4, c5⟩ := candidate_shape os c hc
    have hgen : padded dhGenerator = c32toa dhGenerator.length ++ dhGenerator := by decide
    have hgen2 : mpintOnWire (createMpint dhGenerator 0) = padded dhGenerator := by decide
    have hg2 : Spec.Wire.beNat dhGenerator = 2 := by decide
    have hpad : padded c.group = c32toa (0 :: c.group).length ++ 0 :: c.group := by
      unfold padded signPad; rw [if_pos c1]; simp
    have hpad2 : padded (0 :: c.group) = padded c.group := by
      rw [hpad]; unfold padded signPad; rw [if_neg (by simp)]; simp
    refine ⟨c.group, dhGenerator, by simp [gexGroup, hy], ?_⟩
    intro hp hq pre' post' hw'
    have e1 : pre' ++ (padded c.group ++ padded dhGenerator) ++ post'
        = pre' ++ (c32toa (0 :: c.group).length ++ 0 :: c.group) ++ (padded dhGenerator ++ post') := by
      rw [hpad]; simp
    have e2 : pre' ++ (padded c.group ++ padded dhGenerator) ++ post'
        = (pre' ++ padded c.group) ++ (c32toa dhGenerator.length ++ dhGenerator) ++ post' := by
      rw [hgen]; simp
    obtain ⟨r1, g1, d1⟩ := getMpint_at pre' (0 :: c.group) (padded dhGenerator ++ post')
      (by intro b r h; simp only [List.cons.injEq] at h; rw [← h.1]; decide) (by rw [← e1]; exact hw')
    obtain ⟨r2, g2, d2⟩ := getMpint_at (pre' ++ padded c.group) dhGenerator post'
      (by intro b r h; simp only [dhGenerator, List.cons.injEq] at h; rw [← h.1]; decide) (by rw [← e2]; exact hw')
    rw [← e1] at g1 d1
    rw [← e2] at g2 d2
    rw [show (pre' ++ padded c.group).length = pre'.length + 4 + (0 :: c.group).length by
      rw [hpad]; simp [c32toa]; omega] at g2
    have hr1 : r1.sz = c.group.length + 1 := by have := deref_len d1; simpa using this.symm
    have hbig : 2 ^ 64 ≤ Spec.Wire.beNat c.group :=
      Nat.le_trans (Nat.pow_le_pow_right (by omega) (by omega)) hbits.2.1
    have hval := validate_complete isPrime c.group dhGenerator x.min x.max c.bits hbits c2 a1 a3 (by omega) c4 hp hq
      (by decide) (by rw [show dhGenerator.length = 1 from rfl]; omega) (by omega) (by omega)
    refine ⟨{ x with prime := some (0 :: c.group), generator := some dhGenerator }, 0 :: c.group, dhGenerator, ?_, rfl, ?_,
      rfl, ?_⟩
    · unfold doGexGroup
      rw [g1]; simp only
      rw [if_neg (by omega), g2]; simp only [d1, d2]
      rw [show floorBits x.min = x.min by
        unfold floorBits; rw [if_neg (by rw [show GEX_MIN_BITS = 2048 from rfl]; omega)], hval]
      simp
    · rw [beNat_cons]; simp
    · unfold hashedClient hashedServer
      rw [hpad2, c3, hgen2]

/-! ## Concrete cases -/

/-- A build with all groups and the default sizes. -/
def full : Build := ⟨true, true, 1024, 513⟩
/-- The sizes a client starts with. -/
def asks : Gex := ⟨1024, 3072, 8192, none, none⟩

/-- The client asks for at least 2048 bits even if set to 1024. -/
example : (gexRequest asks).toOption = some (⟨2048, 3072, 8192, none, none⟩, [0,0,8,0, 0,0,12,0, 0,0,32,0]) := by decide
/-- The server answers with group 16. -/
example : (selectGroup full 2048 3072 8192).toOption = some dhPrimeGroup16 := by decide +kernel
/-- A client that insists on 1024 gets no group although the build has it. -/
example : (selectGroup full 1024 1024 1024).toOption = none := by decide +kernel
/-- Small buffers keep the large group out. -/
example : (selectGroup ⟨true, true, 1024, 257⟩ 2048 3072 8192).toOption = some dhPrimeGroup14 := by decide +kernel
/-- The hypotheses of `C32_agree` can be met; the server's side of the exchange. -/
example : ((doGexRequest full true ⟨0, 0, 0, none, none⟩ ([34, 0,0,8,0, 0,0,12,0, 0,0,32,0]) 13 1).bind (·.toOption)).map
    (fun r => (r.1.prime, r.2.length)) = some (some dhPrimeGroup16, 522) := by decide +kernel
/-- An even modulus is refused even if the oracle says yes to everything; so is the generator 1. -/
example : validateGroup (fun _ => true) (List.replicate 255 0x80 ++ [2]) [2] 2040 2048 = some .cryptoFailed := by decide +kernel
example : validateGroup (fun _ => true) dhPrimeGroup14 [1] 2048 2048 = some .cryptoFailed := by decide +kernel
example : validateGroup (fun _ => true) dhPrimeGroup14 [2] 2048 2048 = none := by decide +kernel
example : validateGroup (fun n => n % 3 ≠ 0) dhPrimeGroup14 [2] 2049 8192 = some .dhSize := by decide +kernel

end Props.Gex
