import Verif.Proofs.Confine
import Verif.Proofs.CleanAbs
import Verif.Model.NameList

/-!
# Paths: C34, C35, C40, C52, C53
-/

namespace Props.Path
open Wolf Wolf.Path Spec.Path Proofs.Path
open Wolf.NameList (asc)

/-! ## C34: `wolfSSH_RealPath` -/

/-- C34, for buffers of at least two bytes. With no start path or a canonical one (as the interface asks), the function
stays inside the buffer of every size, and returns success exactly if the path of every directory on the way fits with
its terminator; then the buffer holds the absolute path of the lexical resolution: the components are proper names - not
empty, not ".", not "..", without separators. Otherwise the result is `WS_INVALID_PATH_E`.

Missing: a buffer of one byte (`C34_one_byte`). -/
theorem C34_partial (default : Option (List Bytes)) (inp out : Bytes) (hd : ∀ d, default = some d → ∀ c ∈ d, Name c)
    (hz : 0 ∉ inp) (h2 : 2 ≤ out.length) (hn : out.length < 2 ^ 32) :
    let from_ := start (default.getD []) inp
    let cs := resolve from_ (components inp)
    ∃ r mem, realPath (default.map render) inp out = some (r, mem) ∧ mem.length = out.length ∧
      (r = none ↔ ∀ k, (render (resolve from_ ((components inp).take k))).length < out.length) ∧
      (r = none → (∃ rest, mem = render cs ++ 0 :: rest) ∧ ∀ c ∈ cs, Name c) ∧
      (r ≠ none → r = some .invalidPath) := by
  intro from_ cs
  have h := realPath_cases default inp out hd hz h2 hn
  by_cases hf : ∀ k, fit out.length (resolve (start (default.getD []) inp) ((components inp).take k))
  · obtain ⟨mem, cur, e, hh⟩ := h.1 hf
    exact ⟨none, mem, e, hh.len, ⟨fun _ => hf, fun _ => rfl⟩, fun _ => ⟨hh.str, hh.names⟩, fun h => absurd rfl h⟩
  · obtain ⟨mem, hl, e⟩ := h.2 hf
    exact ⟨_, mem, e, hl, ⟨(fun h => nomatch h), fun h => absurd h hf⟩, (fun h => nomatch h), fun _ => rfl⟩

-- `/home/u` and `../x/./y\\..//z`: `/home/x/z`
example : ∃ rest, realPath (some (render [asc "home", asc "u"])) (asc "../x/./y\\..//z") (List.replicate 16 7) =
    some (none, asc "/home/x/z" ++ 0 :: rest) ∧
    resolve [asc "home", asc "u"] (components (asc "../x/./y\\..//z")) = [asc "home", asc "x", asc "z"] ∧
    ∀ c ∈ [asc "home", asc "u"], Name c := by
  refine ⟨List.replicate 6 0, ?_, by decide, ?_⟩
  · decide +kernel
  · intro c hc
    simp only [List.mem_cons, List.not_mem_nil, or_false] at hc
    rcases hc with rfl | rfl <;> exact ⟨by decide, by decide, by decide, by decide⟩

-- going up from the root stays at the root
example : (realPath none (asc "/../../etc") (List.replicate 8 0)).map (fun r => (r.1, str r.2)) = some (none, asc "/etc") := by
  decide +kernel

/-- With a buffer of one byte and no relative start path the terminator is written behind the buffer, for every path. -/
theorem C34_one_byte (inp : Bytes) (b : Byte) : realPath none inp [b] = none := by
  have h : (if isRelative inp = true then (none : Option Bytes) else none) = none := by split <;> rfl
  unfold realPath
  simp only [List.length_cons, List.length_nil, Nat.zero_add, Nat.one_ne_zero, if_false, h]
  rfl

/-! ## C35: `wolfSSH_CleanPath` -/

/-- C35, for every string: the function stays inside its copy of the string whatever the byte behind is, terminates, and
returns a string that is not longer than the one it got (so a buffer that held the string is never too small); no
".." component follows a delimiter that is not the first byte. -/
theorem C35_every_path (inp : Bytes) (inSz : Nat) (junk : Byte) (hz : 0 ∉ inp) (h : inp.length < inSz) :
    ∃ r, cleanPath inp inSz junk = some (.ok r) ∧ r.length ≤ inp.length ∧
      ∀ a b c, r = a ++ 47 :: 46 :: 46 :: (b ++ c) → a ≠ [] → b ++ c = [] ∨ b = [47] → False := by
  obtain ⟨s, hc, e⟩ := cleanPath_ok inp inSz junk hz (by omega)
  have h1 := hc.le
  have h2 := (tidy_sub inp).length_le
  have h3 := unslash_le s
  refine ⟨unslash s, by rw [e, if_neg (by omega)], by omega, ?_⟩
  intro a b c er ha hb
  have hpre := unslash_prefix s
  have hd := hc.final
  obtain ⟨t, ht⟩ := hpre
  rw [er] at ht
  rcases hb with hb | hb
  · -- at the end: behind it is nothing, or the delimiter that was cut
    rw [hb] at ht
    apply hd a (47 :: 46 :: 46 :: t) (by rw [← ht]; simp) ha
    refine ⟨t, rfl, ?_⟩
    by_cases hx : s.length > 3 ∧ s[s.length - 1]? = some 47
    · right
      have hne : s ≠ [] := by intro e; subst e; simp at hx
      have hlast : s.getLast hne = 47 := by
        rw [List.getLast_eq_getElem]
        have := hx.2
        rw [List.getElem?_eq_getElem (by omega)] at this
        exact Option.some.inj this
      have hun : unslash s = s.dropLast := by unfold unslash; rw [if_pos hx]
      have hs : s = unslash s ++ [47] := by rw [hun, ← hlast]; exact (List.dropLast_concat_getLast hne).symm
      refine ⟨[], ?_⟩
      rw [hs, er, hb] at ht
      exact List.append_cancel_left ht
    · left
      have hun : unslash s = s := by unfold unslash; rw [if_neg hx]
      rw [hb, hun] at er
      rw [er] at ht
      simpa using ht
  · subst hb
    exact hd a (47 :: 46 :: 46 :: (47 :: (c ++ t))) (by rw [← ht]; simp) ha ⟨_, rfl, Or.inr ⟨_, rfl⟩⟩

example : (cleanPath (asc "/a/b/../../c/./d//e/..") 64 7).map Except.toOption = some (some (asc "/c/d")) := by decide +kernel

/-- C35, for paths without ':': no doubled delimiter is left. -/
theorem C35_single (inp : Bytes) (inSz : Nat) (junk : Byte) (hz : 0 ∉ inp) (h : inp.length < inSz) (hcol : 58 ∉ inp) :
    ∃ r, cleanPath inp inSz junk = some (.ok r) ∧ ∀ a b, r ≠ a ++ 47 :: 47 :: b := by
  obtain ⟨s, hc, e⟩ := cleanPath_ok inp inSz junk hz (by omega)
  have h1 := hc.le
  have h2 := (tidy_sub inp).length_le
  have h3 := unslash_le s
  refine ⟨unslash s, by rw [e, if_neg (by omega)], ?_⟩
  intro a b er
  have hs : Single (unslash s) := (hc.single (undup_single _) (fun h => hcol ((tidy_sub inp).subset h))).pre (unslash_prefix s)
  apply hs a.length
  rw [er]
  simp

/-- C35, for absolute paths without ':': the cleaned path names the same object; it begins with '/', no piece but the
last is empty or ".", and no piece but the first is "..". If it has more than three bytes, it does not end with '/'.

Missing: the path may still begin with ".." (`C35_dotdot`) and may end with "/." (`C35_dot`); paths with ':' may be
resolved to a different object (`C35_colon`), and relative paths become absolute (`C35_relative`). -/
theorem C35_partial (t : Bytes) (inSz : Nat) (junk : Byte) (hz : 0 ∉ t) (h : t.length + 1 < inSz) (hcol : 58 ∉ t) :
    ∃ r ps, cleanPath (47 :: t) inSz junk = some (.ok r) ∧ r.length ≤ t.length + 1 ∧
      slashes r = [] :: ps ∧ posixResolve r = posixResolve (47 :: t) ∧
      [] ∉ ps.dropLast ∧ [46] ∉ ps.dropLast ∧ [46, 46] ∉ ps.tail ∧ (r.length > 3 → [] ∉ ps) := by
  obtain ⟨s, hc, e⟩ := cleanPath_ok (47 :: t) inSz junk (by simp [hz]) (by omega)
  have h1 := hc.le
  have h2 := (tidy_sub (47 :: t)).length_le
  have h3 := unslash_le s
  simp only [List.length_cons] at h2
  obtain ⟨qs, e1, hi, hr⟩ := tidy_abs t hcol
  obtain ⟨qs2, e2, hi2, hr2, hd2⟩ := hc.pieces qs e1 hi
  obtain ⟨qs3, e3, hi3, hr3, hd3, hlast⟩ := unslash_pieces hi2 hd2
  have hsl : slashes (flat qs3) = [] :: qs3 := slashes_flat qs3 (fun q hq b hb => (hi3.free q hq b hb).1)
  refine ⟨unslash s, qs3, by rw [e, if_neg (by omega)], by omega, ?_, ?_, hi3.full, hi3.nodot, hd3, ?_⟩
  · rw [e2, e3, hsl]
  · rw [e2, e3]
    unfold posixResolve
    rw [hsl]
    have : ([] :: qs3).filter (· ≠ []) = qs3.filter (· ≠ []) := by simp
    rw [this]
    exact hr3.trans (hr2.trans hr)
  · rw [e2, e3]; exact hlast

example : (0 : Byte) ∉ asc "a/b/../../../x/./y/" ∧ 58 ∉ asc "a/b/../../../x/./y/" ∧
    (cleanPath (47 :: asc "a/b/../../../x/./y/") 30 0).map Except.toOption = some (some (asc "/../x/y")) ∧
    posixResolve (asc "/a/b/../../../x/./y/") = [asc "x", asc "y"] := by decide +kernel

/-- A leading ".." stays. -/
theorem C35_dotdot : (cleanPath (asc "/../x") 6 0).map Except.toOption = some (some (asc "/../x")) ∧
    (cleanPath (asc "/a/../../x") 11 0).map Except.toOption = some (some (asc "/../x")) := by decide +kernel

/-- A "." at the end stays. -/
theorem C35_dot : (cleanPath (asc "/a/.") 5 0).map Except.toOption = some (some (asc "/a/.")) := by decide +kernel

/-- A ':' counts as the begin of a segment: ".." removes only the part behind it, and doubled delimiters can appear. -/
theorem C35_colon : (cleanPath (asc "/dir/a:b/../x") 14 0).map Except.toOption = some (some (asc "/dir/a/x")) ∧
    posixResolve (asc "/dir/a/x") ≠ posixResolve (asc "/dir/a:b/../x") ∧
    (cleanPath (asc "/:b/../c") 9 0).map Except.toOption = some (some (asc "//c")) := by decide +kernel

/-- A relative path can become absolute. -/
theorem C35_relative : (cleanPath (asc "a/../x") 7 0).map Except.toOption = some (some (asc "/x")) := by decide +kernel

/-! ## C52: the jail of an SFTP session -/

/-- C52: what `GetAndCleanPath` makes of the path in a request, for every start directory, root of the jail, content of
the file system and request: no memory error; the request is refused if the path has 256 bytes or more or its resolution
does not fit the buffer; otherwise it is accepted exactly if the lexical resolution of the path (its bytes up to the first
NUL) is confined, and then the operation gets the absolute path of exactly that resolution. -/
theorem C52_jail (default root : Option (List Bytes)) (isLink : Bytes → Bool) (data out : Bytes)
    (hd : ∀ d, default = some d → ∀ c ∈ d, Name c) (hr : ∀ d, root = some d → ∀ c ∈ d, Name c)
    (h2 : 2 ≤ out.length) (hn : out.length < 2 ^ 32) :
    let p := data.takeWhile (· ≠ 0)
    let from_ := start (default.getD []) p
    let cs := resolve from_ (components p)
    ∃ r, getAndCleanPath (default.map render) (root.map render) isLink data out = some r ∧
      (∀ s, r = .ok s → Canonical s cs ∧ Confined root isLink cs) ∧
      (data.length < 256 → (∀ k, (render (resolve from_ ((components p).take k))).length < out.length) →
        Confined root isLink cs → r = .ok (render cs)) ∧
      (data.length < 256 → (∀ k, (render (resolve from_ ((components p).take k))).length < out.length) →
        ¬ Confined root isLink cs → r = .error .permissions) := by
  intro p from_ cs
  obtain ⟨hnames, h1, hA, hB, hC⟩ := getAndCleanPath_ok default root isLink data out hd hr h2 hn p rfl cs rfl
  by_cases hl : 256 ≤ data.length
  · exact ⟨_, h1 hl, (fun s h => nomatch h), fun h => absurd hl (by omega), fun h => absurd hl (by omega)⟩
  by_cases hf : ∀ k, fit out.length (resolve (start (default.getD []) p) ((components p).take k))
  · by_cases hc : Confined root isLink cs
    · refine ⟨_, hC (by omega) hf hc, ?_, fun _ _ _ => rfl, fun _ _ h => absurd hc h⟩
      intro s hs
      cases hs
      exact ⟨⟨rfl, hnames⟩, hc⟩
    · exact ⟨_, hB (by omega) hf hc, (fun s h => nomatch h), fun _ _ h => absurd h hc, fun _ _ _ => rfl⟩
  · exact ⟨_, hA (by omega) hf, (fun s h => nomatch h), fun _ h => absurd h hf, fun _ h => absurd h hf⟩

-- jail /srv/u; "../../etc/passwd", "../u2/x", a link inside, and a good request
example :
    (getAndCleanPath (some (render [asc "srv", asc "u"])) (some (render [asc "srv", asc "u"])) (fun p => p == asc "/srv/u/l")
      (asc "../../etc/passwd") (List.replicate 256 0)).map Except.toOption = some none ∧
    (getAndCleanPath (some (render [asc "srv", asc "u"])) (some (render [asc "srv", asc "u"])) (fun p => p == asc "/srv/u/l")
      (asc "../u2/x") (List.replicate 256 0)).map Except.toOption = some none ∧
    (getAndCleanPath (some (render [asc "srv", asc "u"])) (some (render [asc "srv", asc "u"])) (fun p => p == asc "/srv/u/l")
      (asc "l/x") (List.replicate 256 0)).map Except.toOption = some none ∧
    (getAndCleanPath (some (render [asc "srv", asc "u"])) (some (render [asc "srv", asc "u"])) (fun p => p == asc "/srv/u/l")
      (asc "a/../b/c") (List.replicate 256 0)).map Except.toOption = some (some (asc "/srv/u/b/c")) := by decide +kernel

/-- C52, in terms of the file system: if `isLink` tells what `lstat` says, a path that is accepted leads the operating
system to a place below the one the root of the jail leads to (as long as nobody exchanges directories for links between
the check and the use). -/
theorem C52_stays_inside (default : Option (List Bytes)) (rcs : List Bytes) (link : List Bytes → Prop)
    (isLink : Bytes → Bool) (hlink : ∀ p, lstatLink link p → isLink p = true) (data out : Bytes)
    (hd : ∀ d, default = some d → ∀ c ∈ d, Name c) (hr : ∀ c ∈ rcs, Name c)
    (h2 : 2 ≤ out.length) (hn : out.length < 2 ^ 32) (s : Bytes)
    (hok : getAndCleanPath (default.map render) (some (render rcs)) isLink data out = some (.ok s)) :
    ∃ cs, s = render cs ∧ ∀ place, Walk link cs place → ∃ jail, Walk link rcs jail ∧ (rcs ≠ [] → jail <+: place) := by
  obtain ⟨r, e, h1, _⟩ := C52_jail default (some rcs) isLink data out hd (by intro d h; cases h; exact hr) h2 hn
  rw [Option.map_some, hok] at e
  obtain ⟨⟨hs, hnames⟩, hconf⟩ := h1 s (Option.some.inj e).symm
  refine ⟨_, hs, fun place hw => ?_⟩
  by_cases hr0 : rcs = []
  · subst hr0; exact ⟨[], Walk.root, fun h => absurd rfl h⟩
  obtain ⟨⟨t, ht⟩, hno⟩ := hconf rcs rfl
  rw [← ht] at hw hno hnames
  obtain ⟨r0, g1, g2⟩ := walk_stays t.length t rfl hnames (fun k k1 k2 hl => by
    have := hno hr0 k k1 k2
    rw [hlink _ hl] at this; cases this) place hw
  exact ⟨r0, g1, fun _ => ⟨t, g2.symm⟩⟩

-- a walk in a file system with a link below the jail: it leads out
example : Walk (fun r => r = [asc "srv", asc "l"]) [asc "srv", asc "l", asc "x"] [asc "etc", asc "x"] := by
  have h1 : Walk (fun r => r = [asc "srv", asc "l"]) [asc "srv"] [asc "srv"] := Walk.down (a := []) (r := []) Walk.root (by decide)
  have h2 : Walk (fun r => r = [asc "srv", asc "l"]) [asc "srv", asc "l"] [asc "etc"] := Walk.follow [asc "etc"] h1 rfl
  exact Walk.down h2 (by decide)

/-! ## C53: setting the start directory and the jail -/

/-- C53: what `wolfSSH_SFTP_SetConfinePath` and `wolfSSH_SFTP_SetDefaultPath` store is the lexical resolution of the path
they get, from the working directory if it is relative: an absolute path of proper names - what C52 asks for. If the
working directory is needed and not known, nothing is stored. -/
theorem C53_canonical (cwd : Option Bytes) (path : Bytes) (hz : 0 ∉ path) (hc : ∀ d, cwd = some d → 0 ∉ d) :
    ∃ r, canonicalizePath cwd path = some r ∧
      ∀ s, r = .ok s → (relative path = true → cwd ≠ none) ∧
        Canonical s (resolve (start (resolve [] (components (cwd.getD []))) path) (components path)) := by
  obtain ⟨r, e, h⟩ := canonicalizePath_ok cwd path hz hc
  exact ⟨r, e, fun s hs => (h s hs).2⟩

example : (canonicalizePath (some (asc "/home/u")) (asc "./sub/..")).map Except.toOption = some (some (asc "/home/u")) ∧
    (canonicalizePath (some (asc "/home/u")) (asc "/")).map Except.toOption = some (some (asc "/")) ∧
    (canonicalizePath none (asc ".")).map Except.toOption = some none := by decide +kernel

/-! ## C40: offsets and modes -/

/-- C40: adding to a 64-bit offset kept in two words is exact modulo 2^64, so it is exact as long as the sum is below. -/
theorem C40_offset (lo hi n : Nat) (h1 : lo < 2 ^ 32) (h2 : hi < 2 ^ 32) (h3 : n < 2 ^ 32) :
    let r := addAssign64 (lo, hi) n
    r.1 < 2 ^ 32 ∧ r.2 < 2 ^ 32 ∧ r.2 * 2 ^ 32 + r.1 = (hi * 2 ^ 32 + lo + n) % 2 ^ 64 ∧
      (hi * 2 ^ 32 + lo + n < 2 ^ 64 → r.2 * 2 ^ 32 + r.1 = hi * 2 ^ 32 + lo + n) := by
  unfold addAssign64
  dsimp only
  by_cases h : add32 lo n < lo
  · rw [if_pos h]; unfold add32 at *; omega
  · rw [if_neg h]; unfold add32 at *; omega

example : addAssign64 (2 ^ 32 - 1, 6) 1 = (0, 7) := by decide

/-- The value of a digit string in base 8. -/
def octal : Bytes → Nat := fun s => s.foldl (fun v b => 8 * v + (b.toNat - 48)) 0

theorem octLoop_spec : ∀ (s : Bytes) (v : Nat),
    octLoop v s = if s.all (fun b => decide (48 ≤ b.toNat ∧ b.toNat ≤ 55)) then
      .ok (s.foldl (fun v b => 8 * v + (b.toNat - 48)) v) else .error .badArgument
  | [], v => by simp [octLoop]
  | b :: s, v => by
    unfold octLoop
    by_cases hb : b < 48 ∨ b > 55
    · rw [if_pos hb, if_neg]
      simp only [List.all_cons, Bool.and_eq_true, decide_eq_true_eq, not_and]
      intro hx
      rw [UInt8.lt_iff_toNat_lt, gt_iff_lt, UInt8.lt_iff_toNat_lt] at hb
      have e1 : (48 : UInt8).toNat = 48 := rfl
      have e2 : (55 : UInt8).toNat = 55 := rfl
      omega
    · rw [if_neg hb, octLoop_spec s]
      have hb' : 48 ≤ b.toNat ∧ b.toNat ≤ 55 := by
        rw [UInt8.lt_iff_toNat_lt, gt_iff_lt, UInt8.lt_iff_toNat_lt] at hb
        have e1 : (48 : UInt8).toNat = 48 := rfl
        have e2 : (55 : UInt8).toNat = 55 := rfl
        omega
      have hsub : (b - 48).toNat = b.toNat - 48 := by
        rw [UInt8.toNat_sub_of_le]
        · rfl
        · rw [UInt8.le_iff_toNat_le]; exact hb'.1
      have hor : (v <<< 3 ||| (b - 48).toNat) = 8 * v + (b.toNat - 48) := by
        rw [hsub, Nat.shiftLeft_eq, Nat.mul_comm]
        have : b.toNat - 48 < 2 ^ 3 := by omega
        rw [show (2 ^ 3 * v ||| b.toNat - 48) = 2 ^ 3 * v + (b.toNat - 48) from (Nat.two_pow_add_eq_or_of_lt this v).symm]
      rw [hor]
      simp [hb'.1, hb'.2]

/-- C40: a mode string is converted to its value, exactly if it has at most six bytes, all of them octal digits. -/
theorem C40_mode (s : Bytes) :
    (s.length ≤ 6 ∧ (∀ b ∈ s, 48 ≤ b.toNat ∧ b.toNat ≤ 55) → oct2dec s = .ok (octal s)) ∧
    (¬ (s.length ≤ 6 ∧ ∀ b ∈ s, 48 ≤ b.toNat ∧ b.toNat ≤ 55) → oct2dec s = .error .badArgument) := by
  unfold oct2dec
  by_cases hl : s.length > 6
  · rw [if_pos hl]; exact ⟨fun h => absurd h.1 (by omega), fun _ => rfl⟩
  · rw [if_neg hl, octLoop_spec]
    by_cases ha : ∀ b ∈ s, 48 ≤ b.toNat ∧ b.toNat ≤ 55
    · have : s.all (fun b => decide (48 ≤ b.toNat ∧ b.toNat ≤ 55)) = true := by
        rw [List.all_eq_true]; intro b hb; simpa using ha b hb
      rw [if_pos this]
      exact ⟨fun _ => rfl, fun h => absurd ⟨by omega, ha⟩ h⟩
    · have : ¬ s.all (fun b => decide (48 ≤ b.toNat ∧ b.toNat ≤ 55)) = true := by
        rw [List.all_eq_true]; intro h; exact ha (fun b hb => by simpa using h b hb)
      rw [if_neg this]
      exact ⟨fun h => absurd h.2 ha, fun _ => rfl⟩

example : (oct2dec (asc "0755")).toOption = some 493 ∧ octal (asc "0755") = 493 ∧ (oct2dec (asc "0785")).toOption = none := by
  decide +kernel

end Props.Path
