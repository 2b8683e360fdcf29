import Verif.Proofs.Modes
/-!
# C125, C126: terminal modes
-/

namespace Props.Modes
open Wolf Wolf.Modes Spec.Modes Proofs.Modes

/-! ## Linux, for the examples and the findings -/

/-- The control characters of Linux. -/
def linuxCc : Nat → Option Nat
  | 1 => some 0 | 2 => some 1 | 3 => some 2 | 4 => some 3 | 5 => some 4 | 6 => some 11 | 7 => some 16 | 8 => some 8
  | 9 => some 9 | 10 => some 10 | 12 => some 12 | 13 => some 14 | 14 => some 15 | 18 => some 13 | _ => none

/-- The flags of Linux. -/
def linuxMask : Nat → Option (BitVec 32)
  | 30 => some 0x4 | 31 => some 0x8 | 32 => some 0x10 | 33 => some 0x20 | 34 => some 0x40 | 35 => some 0x80 | 36 => some 0x100
  | 37 => some 0x200 | 38 => some 0x400 | 39 => some 0x800 | 40 => some 0x1000 | 41 => some 0x2000 | 42 => some 0x4000
  | 50 => some 0x1 | 51 => some 0x2 | 52 => some 0x4 | 53 => some 0x8 | 54 => some 0x10 | 55 => some 0x20 | 56 => some 0x40
  | 57 => some 0x80 | 58 => some 0x100 | 59 => some 0x8000 | 60 => some 0x200 | 61 => some 0x800 | 62 => some 0x4000
  | 70 => some 0x1 | 71 => some 0x2 | 72 => some 0x4 | 73 => some 0x8 | 74 => some 0x10 | 75 => some 0x20
  | 90 => some 0x20 | 91 => some 0x30 | 92 => some 0x100 | 93 => some 0x200 | _ => none

/-- Linux numbers its speeds: 15 is 38400 bits per second. -/
def linux : Platform := { cc := linuxCc, mask := linuxMask, speed := fun v => v ≤ 15 ∨ (4097 ≤ v ∧ v ≤ 4111) }

/-- A Linux terminal: seven bits, 38400 bits per second, echo, control characters 0, 1, 2, ... -/
def term7 : Termios :=
  { cc := fun i => UInt8.ofNat i, flag := fun | .iflag => 0x500 | .lflag => 0x8a3b | .oflag => 0x5 | .cflag => 0xa0,
    ispeed := 15, ospeed := 15 }

/-- A fresh pseudo-terminal of a Linux server. -/
def fresh : Termios :=
  { cc := fun _ => 0, flag := fun | .iflag => 0x500 | .lflag => 0x8a3b | .oflag => 0x5 | .cflag => 0xb0, ispeed := 15, ospeed := 15 }

/-! ## C125: a server does with its terminal what the modes say -/

/-- **C125.** Modes that are missing, empty or end inside of one are refused and change nothing; all others are taken. No bytes
make the server read outside of them. -/
theorem C125_total (q : Platform) (t : Termios) :
    doModes q none t = some (-1, t) ∧
    ∀ m : List UInt8, m.length + 5 < 2 ^ 32 → ∃ ret u, doModes q (some m) t = some (ret, u) ∧
      (ret = -1 ∧ u = t ∨ ret = 0) ∧ (ret = -1 ↔ m = [] ∨ 1 < m.length % 5) := by
  refine ⟨rfl, fun m hm => ?_⟩
  unfold doModes
  simp only
  by_cases h : m.length = 0 ∨ m.length % MODE_SZ > 1
  · rw [if_pos h]
    refine ⟨_, _, rfl, Or.inl ⟨rfl, rfl⟩, fun _ => ?_, fun _ => rfl⟩
    rcases h with h | h
    · exact Or.inl (List.eq_nil_of_length_eq_zero h)
    · exact Or.inr h
  · rw [if_neg h, loop_eq q _ hm _ 0 t (by omega) (by omega)]
    refine ⟨_, _, rfl, Or.inr rfl, fun h => (by cases h), fun h' => ?_⟩
    rcases h' with h' | h'
    · exact absurd (Or.inl (by rw [h']; rfl)) h
    · exact absurd (Or.inr h') h

/-- The terminal after modes that are taken. -/
theorem taken {q : Platform} {t u : Termios} {m : List UInt8} (hm : m.length + 5 < 2 ^ 32)
    (h : doModes q (some m) t = some (0, u)) : u = applyAll q (decode m) t := by
  unfold doModes at h
  simp only at h
  by_cases h' : m.length = 0 ∨ m.length % MODE_SZ > 1
  · rw [if_pos h'] at h; cases h
  · rw [if_neg h', loop_eq q _ hm _ 0 t (by omega) (by omega), List.drop_zero] at h
    simp only [Option.map_some, Option.some.injEq, Prod.mk.injEq, true_and] at h
    exact h.symm

/-- C125: a control character is the last one told, if one is told. -/
theorem C125_char {q : Platform} {t u : Termios} {m : List UInt8} (hm : m.length + 5 < 2 ^ 32)
    (h : doModes q (some m) t = some (0, u)) {op j : Nat} (hop : IsChar op) (hj : q.cc op = some j) (hal : CharAlone q op) :
    u.cc j = match last op (decode m) with | some v => UInt8.ofNat v | none => t.cc j := by
  rw [taken hm h]; exact apply_cc q hj hop hal _ _

/-- C125: all bits of a flag are what was told last, if it was told; but for OCRNL (73), which is left alone. -/
theorem C125_flag_partial {q : Platform} {t u : Termios} {m : List UInt8} (hm : m.length + 5 < 2 ^ 32)
    (h : doModes q (some m) t = some (0, u)) {op : Nat} {f : Field} {b : BitVec 32} (hop : field op = some f) (h73 : op ≠ 73)
    (hb : q.mask op = some b) (hal : FlagAlone q f op b) :
    u.flag f &&& b = match last op (decode m) with | some v => if v ≠ 0 then b else 0 | none => t.flag f &&& b := by
  rw [taken hm h]; exact apply_flag q hop h73 hb hal _ _

/-- C125: the speeds are the last ones told that the platform takes. -/
theorem C125_speed {q : Platform} {t u : Termios} {m : List UInt8} (hm : m.length + 5 < 2 ^ 32)
    (h : doModes q (some m) t = some (0, u)) :
    u.ispeed = (lastSpeed q 128 (decode m)).getD t.ispeed ∧ u.ospeed = (lastSpeed q 129 (decode m)).getD t.ospeed := by
  rw [taken hm h]; exact apply_speed q _ _

/-- C125: nothing else changes: no control character and no bits that no mode is about. -/
theorem C125_frame {q : Platform} {t u : Termios} {m : List UInt8} (hm : m.length + 5 < 2 ^ 32)
    (h : doModes q (some m) t = some (0, u)) :
    (∀ j, (∀ op, IsChar op → q.cc op ≠ some j) → u.cc j = t.cc j) ∧
    (∀ f (b : BitVec 32), (∀ op b', field op = some f → q.mask op = some b' → b' &&& b = 0) → u.flag f &&& b = t.flag f &&& b) := by
  rw [taken hm h]
  exact ⟨fun j hj => apply_cc_frame q hj _ _, fun f b hb => apply_bits_frame q hb _ _⟩

/-- What the code does not do (finding): OCRNL stays as it was. -/
theorem C125_ocrnl : ∃ m u, doModes linux (some m) fresh = some (0, u) ∧ last 73 (decode m) = some 1 ∧
    u.flag .oflag &&& 0x8 = 0 :=
  ⟨[73, 0, 0, 0, 1, 0], applyAll linux [(73, 1)] fresh, by
    have := doModes_enc linux [(73, 1)] (by decide) (by decide) fresh
    exact this, by decide +kernel, by decide +kernel⟩

/-! ## C126: the settings of the client's terminal arrive -/

/-- **C126.** A client with a terminal sends its speed, its control characters and its flags, each that its platform has once, in at
most 281 bytes; one without a terminal sends a speed of 38400. -/
theorem C126_sent (p : Platform) :
    (∀ t, createMode p (some t) = some (enc (settings p t)) ∧ (enc (settings p t)).length ≤ 281) ∧
    createMode p none = some (enc [(128, 38400), (129, 38400)]) := by
  refine ⟨fun t => ⟨createMode_eq p t, ?_⟩, ?_⟩
  · rw [enc_length]; have := settings_length p t; omega
  · have h0 : ttyWordSet 38400 129 (ttyWordSet 38400 128 []) = written [(128, 38400), (129, 38400)] := by decide +kernel
    unfold createMode
    simp only [h0]
    rw [if_pos (by decide +kernel)]
    rfl

/-- The server's terminal after the modes of the client's. -/
theorem arrived {p q : Platform} {t t' : Termios} (hs : t.ospeed < 2 ^ 32) :
    ∃ m u, createMode p (some t) = some m ∧ doModes q (some m) t' = some (0, u) ∧ u = applyAll q (settings p t) t' :=
  ⟨_, _, createMode_eq p t, doModes_enc q _ (settings_length p t) (settings_ok hs) t', rfl⟩

/-- C126: control characters that both platforms have arrive; the server keeps those the client's platform does not have. -/
theorem C126_char {p q : Platform} {t : Termios} (hs : t.ospeed < 2 ^ 32) (t' : Termios) :
    ∃ m u, createMode p (some t) = some m ∧ doModes q (some m) t' = some (0, u) ∧
      ∀ op j, IsChar op → q.cc op = some j → CharAlone q op →
        u.cc j = match p.cc op with | some i => t.cc i | none => t'.cc j := by
  obtain ⟨m, u, h1, h2, rfl⟩ := arrived (p := p) (q := q) (t' := t') hs
  refine ⟨m, _, h1, h2, fun op j hop hj hal => ?_⟩
  rw [apply_cc q hj hop hal]
  cases hc : p.cc op with
  | none =>
    rw [last_none fun w hw => by
      obtain ⟨i, hi, _⟩ := (mem_settings_char hop).1 hw
      rw [hc] at hi; cases hi]
  | some i =>
    rw [last_of ((mem_settings_char hop).2 ⟨i, hc, rfl⟩) fun w hw => by
      obtain ⟨k, hk, hw⟩ := (mem_settings_char hop).1 hw
      rw [hc] at hk; cases hk; exact hw]
    simp

/-- C126: flags that both platforms have arrive, if their bits are no other flag's on the server; but for OCRNL (73). The server keeps
those the client's platform does not have. Missing: the number of bits of a character, whose flags overlap (`C126_bits`). -/
theorem C126_flag_partial {p q : Platform} {t : Termios} (hs : t.ospeed < 2 ^ 32) (t' : Termios) :
    ∃ m u, createMode p (some t) = some m ∧ doModes q (some m) t' = some (0, u) ∧
      ∀ op f b, field op = some f → op ≠ 73 → q.mask op = some b → FlagAlone q f op b →
        u.flag f &&& b = match p.mask op with | some a => if t.flag f &&& a ≠ 0 then b else 0 | none => t'.flag f &&& b := by
  obtain ⟨m, u, h1, h2, rfl⟩ := arrived (p := p) (q := q) (t' := t') hs
  refine ⟨m, _, h1, h2, fun op f b hop h73 hb hal => ?_⟩
  rw [apply_flag q hop h73 hb hal]
  cases hc : p.mask op with
  | none =>
    rw [last_none fun w hw => by
      obtain ⟨i, hi, _⟩ := (mem_settings_flag hop).1 hw
      rw [hc] at hi; cases hi]
  | some a =>
    rw [last_of ((mem_settings_flag hop).2 ⟨a, hc, rfl⟩) fun w hw => by
      obtain ⟨k, hk, hw⟩ := (mem_settings_flag hop).1 hw
      rw [hc] at hk; cases hk; exact hw]
    by_cases h : t.flag f &&& a = 0 <;> simp [h]

/-- What the code does not do (finding): on Linux the bits of CS7 are among those of CS8, both are sent as set, and a terminal
of seven bits arrives as one of eight. -/
theorem C126_bits : ∃ m u, createMode linux (some term7) = some m ∧ doModes linux (some m) fresh = some (0, u) ∧
    term7.flag .cflag &&& 0x30 = 0x20 ∧ u.flag .cflag &&& 0x30 = 0x30 := by
  obtain ⟨m, u, h1, h2, rfl⟩ := arrived (p := linux) (q := linux) (t := term7) (t' := fresh) (by decide)
  exact ⟨m, _, h1, h2, by decide +kernel, by decide +kernel⟩

/-- What the code does not do (finding): the speeds are to be in bits per second; the platform's own number is sent, the output
speed for both, and the default of 38400 is no speed to a Linux server, which keeps its own. -/
theorem C126_speed : last 129 (settings linux term7) = some 15 ∧
    ∀ t', ∃ m u, createMode linux none = some m ∧ doModes linux (some m) t' = some (0, u) ∧ u.ospeed = t'.ospeed := by
  refine ⟨by decide +kernel, fun t' => ?_⟩
  refine ⟨_, _, (C126_sent linux).2, doModes_enc linux _ (by decide) (by decide) t', ?_⟩
  rw [(apply_speed linux _ t').2]
  rfl

/-! ## The hypotheses are met -/

/-- On Linux no two control characters share a place. -/
example : ∀ op, IsChar op → linux.cc op ≠ none → CharAlone linux op := by
  have key : ∀ a ∈ List.range' 1 18, ∀ b ∈ List.range' 1 18, linuxCc b ≠ none → a ≠ b → linuxCc a = none ∨ linuxCc a ≠ linuxCc b := by
    decide +kernel
  intro op hop hn op' hop' hne
  unfold IsChar at hop hop'
  exact key op' (by rw [List.mem_range'_1]; omega) op (by rw [List.mem_range'_1]; omega) hn hne

/-- On Linux echo (53) has its bits for itself. -/
example : FlagAlone linux .lflag 53 0x8 := by
  have key : ∀ a ∈ List.range' 30 64, field a = some .lflag → a ≠ 53 → ((linuxMask a).getD 0) &&& 0x8 = 0 := by decide +kernel
  intro op m h1 h2 h3
  have hr := field_range h1
  have := key op (by rw [List.mem_range'_1]; omega) h1 h2
  rw [show linuxMask op = some m from h3] at this
  exact this

example : field 53 = some .lflag ∧ linux.mask 53 = some 0x8 := by decide

/-- Echo off, and twice a control character. -/
example : decode [53, 0, 0, 0, 0, 1, 0, 0, 0, 3, 1, 0, 0, 0, 4, 0] = [(53, 0), (1, 3), (1, 4)] ∧
    last 1 (decode [53, 0, 0, 0, 0, 1, 0, 0, 0, 3, 1, 0, 0, 0, 4, 0]) = some 4 := by decide +kernel

/-- An opcode of 160 ends the list. -/
example : decode [53, 0, 0, 0, 0, 160, 0, 0, 0, 3, 1, 0, 0, 0, 4] = [(53, 0)] := by decide +kernel

example : (settings linux term7).length = 52 := by decide +kernel

end Props.Modes
