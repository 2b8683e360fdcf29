import Verif.Proofs.Receive
import Verif.Spec.Version
/-!
# Lemmas on the version exchange
-/

namespace Proofs.Version
open Wolf Wolf.Buffer Wolf.Receive Wolf.NameList Spec.Buffer Spec.Version Props.Buffer Proofs.Receive

theorem unread_zero {b : Buf} (h : b.idx = 0) : unread b = b.mem.take b.length := by
  simp [unread, h]

theorem findLf_some {u : Bytes} {i : Nat} (h : findLf u = some i) :
    ∃ body rest, u = body ++ 10 :: rest ∧ body.length = i ∧ 10 ∉ body ∧ 0 ∉ body := by
  induction u generalizing i with
  | nil => simp [findLf] at h
  | cons a u ih =>
    unfold findLf at h
    split at h
    · simp at h
    split at h
    · rename_i h10
      simp only [Option.some.injEq] at h
      exact ⟨[], u, by simp [h10], by simp [h], by simp, by simp⟩
    · rename_i h0 h10
      cases hf : findLf u with
      | none => simp [hf] at h
      | some j =>
        simp only [hf, Option.map_some, Option.some.injEq] at h
        obtain ⟨body, rest, h1, h2, h3, h4⟩ := ih hf
        refine ⟨a :: body, rest, by rw [h1]; rfl, by simp [h2, h], ?_, ?_⟩
        · simp only [List.mem_cons, not_or]; exact ⟨fun e => h10 e.symm, h3⟩
        · simp only [List.mem_cons, not_or]; exact ⟨fun e => h0 e.symm, h4⟩

theorem findLf_of (body rest : Bytes) (h10 : 10 ∉ body) (h0 : 0 ∉ body) :
    findLf (body ++ 10 :: rest) = some body.length := by
  induction body with
  | nil => simp [findLf]
  | cons a body ih =>
    simp only [List.mem_cons, not_or] at h10 h0
    simp only [List.cons_append, findLf]
    rw [if_neg (fun e => h0.1 e.symm), if_neg (fun e => h10.1 e.symm), ih h10.2 h0.2]
    rfl

/-- What the end of line pointer amounts to. -/
theorem eol_line {u body rest : Bytes} (hu : u = body ++ 10 :: rest) (h10 : 10 ∉ body) (h0 : 0 ∉ body) (hl : body.length + 1 ≤ 255)
    (m : Bytes) (hm : m.take u.length = u) :
    ∃ text raw, Line text raw ∧ u = raw ++ rest ∧
      (if body.length > 0 ∧ m[body.length - 1]? = some 13 then body.length - 1 else body.length) = text.length ∧
      text.length + (if m[text.length]? = some 13 then 2 else 1) = raw.length ∧ text <+: body := by
  have hget : ∀ i, i < u.length → m[i]? = u[i]? := by
    intro i hi
    have h1 : (m.take u.length)[i]? = m[i]? := by rw [List.getElem?_take, if_pos hi]
    rw [← h1, hm]
  have hul : u.length = body.length + 1 + rest.length := by rw [hu]; simp; omega
  rcases List.eq_nil_or_concat body with rfl | ⟨t, c, hb⟩
  · refine ⟨[], [10], ⟨.inr ⟨rfl, by simp⟩, by simp, by simp, by simp⟩, by rw [hu]; rfl, by simp, ?_, List.prefix_refl _⟩
    rw [show ([] : Bytes).length = 0 from rfl, hget 0 (by omega), hu]; simp
  · have hb : body = t ++ [c] := by simpa using hb
    subst hb
    simp only [List.length_append, List.length_cons, List.length_nil, Nat.zero_add] at *
    simp only [List.mem_append, not_or] at h10 h0
    by_cases hc : c = 13
    · subst hc
      have e1 : m[t.length + 1 - 1]? = some 13 := by
        rw [hget _ (by omega), hu]; simp
      have e2 : m[t.length]? = some 13 := by
        rw [hget _ (by omega), hu]; simp
      rw [if_pos ⟨by omega, e1⟩]
      exact ⟨t, t ++ [13, 10], ⟨.inl rfl, h10.1, h0.1, by simp; omega⟩, by rw [hu]; simp, by omega, by rw [e2]; simp, by simp⟩
    · have e1 : m[t.length + 1 - 1]? = some c := by
        rw [hget _ (by omega), hu]; simp
      have e2 : m[(t ++ [c]).length]? = some 10 := by
        rw [hget _ (by simp; omega), hu, List.getElem?_append_right (by omega)]; simp
      rw [if_neg (by rw [e1]; simp [hc])]
      refine ⟨t ++ [c], t ++ [c] ++ [10], ⟨.inr ⟨rfl, ?_⟩, by simp [h10.1]; simpa using h10.2, by simp [h0.1]; simpa using h0.2, by simp; omega⟩, by rw [hu]; simp, by simp, ?_, List.prefix_refl _⟩
      · rintro ⟨t', ht⟩
        have := List.append_inj' ht rfl
        simp at this
        exact hc this.2
      · rw [e2]; simp

theorem grow_idx {alloc : Nat → Option Bytes} {b b' : Buf} (hb : Ok b) {sz : Nat} (h : growBuffer alloc b sz = some (none, b')) :
    b'.idx = 0 := by
  unfold growBuffer at h
  simp only at h
  split at h
  · split at h
    · simp at h
    · split at h
      · split at h
        · simp at h
        · split at h
          · simp at h
          · simp only [Option.some.injEq, Prod.mk.injEq, true_and] at h; rw [← h]
      · simp only [Option.some.injEq, Prod.mk.injEq, true_and] at h; rw [← h]
  · split at h
    · split at h
      · simp at h
      · split at h
        · simp at h
        · simp only [Option.some.injEq, Prod.mk.injEq, true_and] at h; rw [← h]
    · simp only [Option.some.injEq, Prod.mk.injEq, true_and] at h
      rw [← h]; have := hb.cursor; omega

/-- A line found: where it ends, in the buffer. -/
structure Found (b : Buf) (eol : Nat) (text raw rest : Bytes) : Prop where
  line : Line text raw
  unread : unread b = raw ++ rest
  pos : eol = text.length
  size : text.length + (if b.mem[eol]? = some 13 then 2 else 1) = raw.length

/-- Without a line feed in the buffer, no line is there yet. -/
theorem no_line {b : Buf} {net : Bytes} (hi : b.idx = 0) (hf : findLf (b.mem.take b.length) = none) :
    ∀ text raw rest, Line text raw → unread b ++ net = raw ++ rest → (unread b).length < raw.length ∧ 0 < net.length := by
  have hnf : ∀ text raw rest', Line text raw → unread b = raw ++ rest' → False := by
    intro text raw rest' hline hu
    rw [unread_zero hi] at hu
    obtain ⟨h1, h2, h3, _⟩ := hline
    rcases h1 with rfl | ⟨rfl, _⟩
    · have := findLf_of (text ++ [13]) rest' (by simp [h2]) (by simp [h3])
      rw [hu] at hf
      simp at hf this
      rw [hf] at this; simp at this
    · have := findLf_of text rest' h2 h3
      rw [hu] at hf
      simp at hf this
      rw [hf] at this; simp at this
  intro text raw rest hline he
  have : (unread b).length < raw.length := by
    apply Classical.byContradiction
    intro hlt
    have h1 : raw <+: unread b := by
      have h2 : raw <+: unread b ++ net := by rw [he]; exact List.prefix_append _ _
      exact List.prefix_of_prefix_length_le h2 (List.prefix_append _ _) (by omega)
    obtain ⟨r', hr'⟩ := h1
    exact hnf text raw r' hline hr'.symm
  have hl := congrArg List.length he
  simp only [List.length_append] at hl
  omega

theorem lineLoop_spec {alloc : Nat → Option Bytes} (ha : Allocator alloc) (io : List IoRecv) :
    ∀ (net : Bytes) (b : Buf), Ok b → b.idx = 0 → b.length ≤ 255 →
    ∃ r io' net' b', lineLoop alloc io net b = some (r, io', net', b') ∧ Ok b' ∧ b'.length ≤ 255 ∧ b'.idx = 0 ∧
      unread b' ++ net' = unread b ++ net ∧
      (∀ eol, r = .ok eol → ∃ text raw rest, Found b' eol text raw rest) ∧
      (r = .error .versionE → ∀ text raw rest, Line text raw → unread b ++ net ≠ raw ++ rest) ∧
      (∀ t text raw rest, (∀ n, alloc n ≠ none) → io = .got 40000 :: t → Line text raw → unread b ++ net = raw ++ rest →
        ∃ eol, r = .ok eol ∧ (io' = t ∨ io' = io)) := by
  induction io with
  | nil =>
    intro net b hb hi hl
    unfold lineLoop
    have hbl := hb.fits; have hbm := hb.mem
    cases hf : findLf (b.mem.take b.length) with
    | some i =>
      obtain ⟨body, rest, h1, h2, h3, h4⟩ := findLf_some hf
      have hlen : body.length + 1 ≤ 255 := by
        have := congrArg List.length h1; simp at this; omega
      obtain ⟨text, raw, g1, g2, g3, g4, _⟩ := eol_line h1 h3 h4 hlen b.mem (by rw [List.length_take]; congr 1; omega)
      rw [h2] at g3
      refine ⟨_, _, _, _, rfl, hb, hl, hi, rfl, ?_, by simp, by simp⟩
      intro eol he
      simp only [Except.ok.injEq] at he
      rw [g3] at he
      exact ⟨text, raw, rest, g1, by rw [unread_zero hi]; exact g2, he.symm, by rw [← he]; exact g4⟩
    | none =>
      simp only
      split
      · rename_i hlim
        refine ⟨_, _, _, _, rfl, hb, hl, hi, rfl, by simp, ?_, by simp⟩
        intro _ text raw rest hline he
        have h1 := (no_line hi hf _ _ _ hline he).1
        have h2 := hline.2.2.2
        have hlen := unread_length hb
        simp only [PROTOID_LIMIT] at hlim
        omega
      · have := hb.size
        rename_i hlim
        obtain ⟨r, b1, e1, e2, e3, e4⟩ := C38_grow_partial alloc ha b hb (PROTOID_LIMIT - b.length) (by simp [PROTOID_LIMIT]; omega)
        rw [e1]
        have hlen1 := unread_length e2
        have hlen := unread_length hb
        rw [e3] at hlen1
        rcases e4 with ⟨rfl, e4⟩ | ⟨rfl, rfl, _⟩
        · have hi1 := grow_idx hb e1
          exact ⟨_, _, _, _, rfl, e2, by omega, hi1, by rw [e3], by simp, by simp, by simp⟩
        · exact ⟨_, _, _, _, rfl, hb, hl, hi, rfl, by simp, by simp, by simp⟩
  | cons a io ih =>
    intro net b hb hi hl
    unfold lineLoop
    have hbl := hb.fits; have hbm := hb.mem
    cases hf : findLf (b.mem.take b.length) with
    | some i =>
      obtain ⟨body, rest, h1, h2, h3, h4⟩ := findLf_some hf
      have hlen : body.length + 1 ≤ 255 := by
        have := congrArg List.length h1; simp at this; omega
      obtain ⟨text, raw, g1, g2, g3, g4, _⟩ := eol_line h1 h3 h4 hlen b.mem (by rw [List.length_take]; congr 1; omega)
      rw [h2] at g3
      refine ⟨_, _, _, _, rfl, hb, hl, hi, rfl, ?_, by simp, ?_⟩
      · intro eol he
        simp only [Except.ok.injEq] at he
        rw [g3] at he
        exact ⟨text, raw, rest, g1, by rw [unread_zero hi]; exact g2, he.symm, by rw [← he]; exact g4⟩
      · intro t text raw rest _ _ _ _
        exact ⟨_, rfl, .inr rfl⟩
    | none =>
      simp only
      have hpre := no_line (net := net) hi hf
      have hlen := unread_length hb
      split
      · rename_i hlim
        have hno : ∀ text raw rest, Line text raw → unread b ++ net ≠ raw ++ rest := by
          intro text raw rest hline he
          have h1 := (hpre _ _ _ hline he).1
          have h2 := hline.2.2.2
          simp only [PROTOID_LIMIT] at hlim
          omega
        exact ⟨_, _, _, _, rfl, hb, hl, hi, rfl, by simp, fun _ => hno, fun _ _ _ _ _ _ hline he => absurd he (hno _ _ _ hline)⟩
      · have := hb.size
        rename_i hlim
        simp only [PROTOID_LIMIT] at hlim
        obtain ⟨r, b1, e1, e2, e3, e4⟩ := C38_grow_partial alloc ha b hb (PROTOID_LIMIT - b.length) (by simp [PROTOID_LIMIT]; omega)
        rw [e1]
        have hlen1 := unread_length e2
        rw [e3] at hlen1
        rcases e4 with ⟨rfl, e4⟩ | ⟨rfl, rfl, n, hn⟩
        rotate_left
        · exact ⟨_, _, _, _, rfl, hb, hl, hi, rfl, by simp, by simp, fun _ _ _ _ hal => absurd hn (hal n)⟩
        have hi1 := grow_idx hb e1
        have hl1 : b1.length ≤ 255 := by omega
        cases a with
        | intr =>
          simp only
          obtain ⟨r, io', net', b', g1, g2, g3, g4, g5, g6, gv, g7⟩ := ih net b1 e2 hi1 hl1
          exact ⟨r, io', net', b', g1, g2, g3, g4, by rw [g5, e3], g6, by rw [← e3]; exact gv, by simp⟩
        | wantRead => exact ⟨_, _, _, _, rfl, e2, hl1, hi1, by rw [e3], by simp, by simp, by simp⟩
        | closed => exact ⟨_, _, _, _, rfl, e2, hl1, hi1, by rw [e3], by simp, by simp, by simp⟩
        | other => exact ⟨_, _, _, _, rfl, e2, hl1, hi1, by rw [e3], by simp, by simp, by simp⟩
        | got n =>
          simp only
          have hbe : b1.length = b.length := by omega
          rw [hbe]
          generalize hgot : net.take (min n (PROTOID_LIMIT - b.length)) = got
          have hgl : got.length ≤ 255 - b.length := by rw [← hgot]; simp [PROTOID_LIMIT]; omega
          have hge : net = got ++ net.drop got.length := by
            have h1 : got <+: net := by rw [← hgot]; exact List.take_prefix _ _
            obtain ⟨d, hd⟩ := h1
            rw [← hd]; simp
          split
          · rename_i hz
            refine ⟨_, _, _, _, rfl, e2, hl1, hi1, by rw [e3], by simp, by simp, ?_⟩
            intro t text raw rest _ hio hline he
            obtain ⟨h1, h2⟩ := hpre _ _ _ hline he
            simp only [List.cons.injEq, IoRecv.got.injEq] at hio
            rw [← hgot, hio.1, List.length_take] at hz
            simp only [PROTOID_LIMIT] at hz
            omega
          · rename_i hz
            have hsz := e2.size
            have hfit := e2.fits; have hmm := e2.mem
            simp only [PROTOID_LIMIT] at e4
            unfold Buffer.write
            rw [if_pos (by omega)]
            simp only
            have hadd : add32 b.length got.length = b.length + got.length := by unfold add32; omega
            rw [hadd]
            generalize hm : b1.mem.take b.length ++ got ++ b1.mem.drop (b.length + got.length) = m
            have hml : m.length = b1.mem.length := by rw [← hm]; simp; omega
            have hok : Ok { b1 with mem := m, length := b.length + got.length } :=
              ⟨by simp only; omega, by simp only; omega, by simp only; omega, hsz, e2.static⟩
            have hun : unread { b1 with mem := m, length := b.length + got.length } = unread b ++ got := by
              rw [unread_zero (by exact hi1), ← e3, unread_zero hi1, hbe]
              show m.take (b.length + got.length) = _
              rw [← hm, List.take_append_of_le_length (by simp; omega), List.take_of_length_le (by simp; omega)]
            obtain ⟨r, io', net', b', g1, g2, g3, g4, g5, g6, gv, g7⟩ := ih (net.drop got.length) _ hok hi1 (by simp only; omega)
            refine ⟨r, io', net', b', g1, g2, g3, g4, by rw [g5, hun, List.append_assoc, ← hge], g6, by rw [hun, List.append_assoc, ← hge] at gv; exact gv, ?_⟩
            intro t text raw rest hal hio hline he
            simp only [List.cons.injEq, IoRecv.got.injEq] at hio
            obtain ⟨rfl, rfl⟩ := hio
            have hfull : raw <+: unread b ++ got := by
              have h2 : raw <+: unread b ++ net := by rw [he]; exact List.prefix_append _ _
              have h3 : unread b ++ got <+: unread b ++ net := by
                rw [hge, ← List.append_assoc]; exact List.prefix_append _ _
              refine List.prefix_of_prefix_length_le h2 h3 ?_
              have h4 := congrArg List.length he
              have h5 := hline.2.2.2
              have h6 : got.length = min (255 - b.length) net.length := by
                rw [← hgot]; simp [PROTOID_LIMIT]; omega
              simp only [List.length_append] at h4 ⊢
              omega
            obtain ⟨r', hr'⟩ := hfull
            have hff : findLf (m.take (b.length + got.length)) ≠ none := by
              have : m.take (b.length + got.length) = unread b ++ got := by
                rw [← hun, unread_zero (by exact hi1)]
              rw [this, ← hr']
              obtain ⟨h1, h2, h3, _⟩ := hline
              rcases h1 with rfl | ⟨rfl, _⟩
              · have := findLf_of (text ++ [13]) r' (by simp [h2]) (by simp [h3])
                simp at this ⊢; rw [this]; simp
              · have := findLf_of text r' h2 h3
                simp at this ⊢; rw [this]; simp
            unfold lineLoop at g1
            simp only at g1
            split at g1
            · simp only [Option.some.injEq, Prod.mk.injEq] at g1
              exact ⟨_, g1.1.symm, .inl g1.2.1.symm⟩
            · rename_i hnone; exact absurd hnone hff

theorem getInputLine_spec {alloc : Nat → Option Bytes} (ha : Allocator alloc) (io : List IoRecv) (net : Bytes) (b : Buf)
    (hb : Ok b) (hl : (unread b).length ≤ 255) :
    ∃ r io' net' b', getInputLine alloc io net b = some (r, io', net', b') ∧ Ok b' ∧ (unread b').length ≤ 255 ∧
      unread b' ++ net' = unread b ++ net ∧
      (∀ eol, r = .ok eol → b'.idx = 0 ∧ ∃ text raw rest, Found b' eol text raw rest) ∧
      (r = .error .versionE → ∀ text raw rest, Line text raw → unread b ++ net ≠ raw ++ rest) ∧
      (∀ t text raw rest, (∀ n, alloc n ≠ none) → io = .got 40000 :: t → Line text raw → unread b ++ net = raw ++ rest →
        ∃ eol, r = .ok eol ∧ (io' = t ∨ io' = io)) := by
  unfold getInputLine
  have hlen := unread_length hb
  obtain ⟨r, b1, e1, e2, e3, e4⟩ := C38_grow_partial alloc ha b hb 0 (by omega)
  rw [e1]
  have hlen1 := unread_length e2
  rw [e3] at hlen1
  rcases e4 with ⟨rfl, e4⟩ | ⟨rfl, rfl, n, hn⟩
  · have hi1 := grow_idx hb e1
    obtain ⟨r, io', net', b', g1, g2, g3, g4, g5, g6, g7, g8⟩ := lineLoop_spec ha io net b1 e2 hi1 (by omega)
    have := unread_length g2
    rw [e3] at g5 g7 g8
    exact ⟨r, io', net', b', g1, g2, by omega, g5, fun eol he => ⟨g4, g6 eol he⟩, g7, g8⟩
  · exact ⟨_, _, _, _, rfl, hb, hl, rfl, by simp, by simp, fun _ _ _ _ hal => absurd hn (hal n)⟩

theorem line_unique {t r t' r' x x' : Bytes} (h : Line t r) (h' : Line t' r') (he : r ++ x = r' ++ x') : t = t' ∧ r = r' ∧ x = x' := by
  have key : ∀ {t r x : Bytes}, Line t r → ∃ body, r = body ++ [10] ∧ findLf (r ++ x) = some body.length ∧
      (t = body ∧ (¬ ∃ u, body = u ++ [13]) ∨ body = t ++ [13]) := by
    intro t r x hl
    obtain ⟨h1, h2, h3, _⟩ := hl
    rcases h1 with rfl | ⟨rfl, h1⟩
    · refine ⟨t ++ [13], by simp, ?_, .inr rfl⟩
      have := findLf_of (t ++ [13]) x (by simp [h2]) (by simp [h3])
      simpa using this
    · refine ⟨t, rfl, ?_, .inl ⟨rfl, h1⟩⟩
      have := findLf_of t x h2 h3
      simpa using this
  obtain ⟨b, e1, e2, e3⟩ := key (x := x) h
  obtain ⟨b', e1', e2', e3'⟩ := key (x := x') h'
  rw [he, e2'] at e2
  simp only [Option.some.injEq] at e2
  have hr : r = r' ∧ x = x' := List.append_inj he (by rw [e1, e1']; simp [e2])
  have hb : b = b' := by
    have := hr.1
    rw [e1, e1'] at this
    exact (List.append_inj' this rfl).1
  subst hb
  refine ⟨?_, hr⟩
  rcases e3 with ⟨rfl, e3⟩ | e3 <;> rcases e3' with ⟨rfl, e3'⟩ | e3'
  · rfl
  · exact absurd ⟨_, e3'⟩ e3
  · exact absurd ⟨_, e3⟩ e3'
  · rw [e3] at e3'
    exact (List.append_inj' e3' rfl).1

theorem line_raw {t r : Bytes} (h : Line t r) : ∃ e, r = t ++ e ∧ (e = [13, 10] ∨ e = [10]) := by
  rcases h.1 with h | ⟨h, _⟩
  · exact ⟨_, h, .inl rfl⟩
  · exact ⟨_, h, .inr rfl⟩

theorem prefix_line {p t r x : Bytes} (h : Line t r) (h10 : 10 ∉ p) (h13 : 13 ∉ p) : p <+: r ++ x ↔ p <+: t := by
  obtain ⟨e, rfl, he⟩ := line_raw h
  constructor
  · intro hp
    rw [List.append_assoc] at hp
    apply Classical.byContradiction
    intro hn
    have hlt : t.length < p.length := by
      apply Classical.byContradiction
      intro hle
      exact hn (List.prefix_of_prefix_length_le hp (List.prefix_append _ _) (by omega))
    obtain ⟨y, hy⟩ := hp
    have h1 : (p ++ y)[t.length]? = p[t.length]? := List.getElem?_append_left hlt
    rw [hy, List.getElem?_append_right (by omega), Nat.sub_self, List.getElem?_append_left (by rcases he with rfl | rfl <;> simp)] at h1
    have h2 : p[t.length]? = some p[t.length] := List.getElem?_eq_getElem hlt
    have hm : p[t.length] ∈ p := List.getElem_mem hlt
    rw [h2] at h1
    rcases he with rfl | rfl <;> simp at h1
    · rw [← h1] at hm; exact h13 hm
    · rw [← h1] at hm; exact h10 hm
  · intro hp
    exact hp.trans (by rw [List.append_assoc]; exact List.prefix_append _ _)

theorem found_prefix {b : Buf} {eol : Nat} {text raw rest : Bytes} (hb : Ok b) (hi : b.idx = 0) (h : Found b eol text raw rest)
    {p : Bytes} (h10 : 10 ∉ p) (h13 : 13 ∉ p) :
    (b.length ≥ p.length ∧ b.mem.take p.length = p) ↔ p <+: text := by
  rw [← prefix_line (x := rest) h.line h10 h13, ← h.unread, unread_zero hi]
  have h1 := hb.fits; have h2 := hb.mem
  constructor
  · rintro ⟨h3, h4⟩
    refine ⟨(b.mem.take b.length).drop p.length, ?_⟩
    have : p = (b.mem.take b.length).take p.length := by
      rw [List.take_take, Nat.min_eq_left h3, h4]
    rw [this, List.length_take_of_le (by simp; omega)]
    exact List.take_append_drop _ _
  · intro hp
    have hle := hp.length_le
    rw [List.length_take] at hle
    refine ⟨by omega, ?_⟩
    obtain ⟨y, hy⟩ := hp
    have h5 : (b.mem.take b.length).take p.length = p := by rw [← hy]; simp
    rw [List.take_take, Nat.min_eq_left (by omega)] at h5
    exact h5

theorem takeWhile_stop (t x : Bytes) (h0 : 0 ∉ t) : (t ++ 0 :: x).takeWhile (· ≠ 0) = t := by
  induction t with
  | nil => simp
  | cons a t ih =>
    simp only [List.mem_cons, not_or] at h0
    rw [List.cons_append, List.takeWhile_cons, ih h0.2]
    simp [Ne.symm h0.1]

/-- The accepting branch. -/
theorem accept_line {b : Buf} {eol : Nat} {text raw rest : Bytes} (hb : Ok b) (hi : b.idx = 0) (h : Found b eol text raw rest)
    (hid : Ident text) (static : Bytes) (hs : static.length = 16) :
    ∃ m b', Buffer.write b.mem eol [0] = some m ∧ m.takeWhile (· ≠ 0) = text ∧ text.length ≠ m.length ∧
      shrinkBuffer static { b with mem := m, idx := add32 b.idx (add32 text.length (if b.mem[eol]? = some 13 then 2 else 1)) } false = some b' ∧
      Ok b' ∧ unread b' = rest := by
  have h1 := hb.fits; have h2 := hb.mem; have h3 := hb.size
  have hraw := h.unread
  rw [unread_zero hi] at hraw
  have hrl := congrArg List.length hraw
  rw [List.length_take, List.length_append] at hrl
  obtain ⟨e, he, hee⟩ := line_raw h.line
  have hel : 1 ≤ e.length := by rcases hee with rfl | rfl <;> simp
  have hrt : raw.length = text.length + e.length := by rw [he]; simp
  have hp := h.pos
  have hle : 8 ≤ text.length := hid.length_le
  have hmem : b.mem = raw ++ rest ++ b.mem.drop b.length := by rw [← hraw, List.take_append_drop]
  have hw : Buffer.write b.mem eol [0] = some (text ++ 0 :: (e.drop 1 ++ rest ++ b.mem.drop b.length)) := by
    unfold Buffer.write
    rw [if_pos (by simp; omega)]
    have h5 : b.mem.take eol = text := by
      rw [hmem, he, hp]; simp
    have h6 : b.mem.drop (eol + 1) = e.drop 1 ++ rest ++ b.mem.drop b.length := by
      conv => lhs; rw [hmem]
      rw [he, hp]
      simp only [List.append_assoc]
      rw [show text.length + 1 = text.length + 1 from rfl, List.drop_append, List.drop_eq_nil_of_le (by omega), List.nil_append,
        show text.length + 1 - text.length = 1 by omega, List.drop_append, show 1 - e.length = 0 by omega]
      rfl
    simp only [List.length_cons, List.length_nil, Nat.zero_add, h5, h6]
    simp
  have hsz := h.size
  have hml : (text ++ 0 :: (e.drop 1 ++ rest ++ b.mem.drop b.length)).length = b.mem.length := by
    simp; omega
  have hidx : add32 b.idx (add32 text.length (if b.mem[eol]? = some 13 then 2 else 1)) = raw.length := by
    rw [hi]; unfold add32; omega
  rw [hidx]
  have hok : Ok { b with mem := text ++ 0 :: (e.drop 1 ++ rest ++ b.mem.drop b.length), idx := raw.length } :=
    ⟨by simp only; omega, h1, by simp only; omega, h3, hb.static⟩
  obtain ⟨b', g1, g2, g3⟩ := C38_shrink_partial static hs _ hok (by
    cases hd : b.dyn with
    | true => exact .inl rfl
    | false => have := hb.static hd; right; right; simp only; omega)
  refine ⟨_, b', hw, takeWhile_stop _ _ h.line.2.2.1, by omega, g1, g2, ?_⟩
  rw [g3]
  unfold unread
  simp only
  have : text ++ 0 :: (e.drop 1 ++ rest ++ b.mem.drop b.length) = (text ++ 0 :: e.drop 1) ++ (rest ++ b.mem.drop b.length) := by simp
  rw [this, show raw.length = (text ++ 0 :: e.drop 1).length by simp; omega, List.drop_left]
  rw [List.take_append_of_le_length (by simp; omega), List.take_of_length_le (by simp; omega)]

/-- What `DoProtoId` does with the stream. -/
structure Turn (c : Call) (v : Ver) (banners : List Bytes) (r : Option Err) (v' : Ver) : Prop where
  ok : Ok v'.inp
  short : (unread v'.inp).length ≤ 255
  client : v'.client = v.client
  banner : ∀ b ∈ banners, Banner b
  server : v.client = false → banners = []
  count : v.bannerLines + banners.length ≤ v'.bannerLines
  exact : r ≠ some .versionE → v'.bannerLines = v.bannerLines + banners.length
  few : banners = [] ∨ v.bannerLines + banners.length ≤ 10
  result : (v'.done = false ∧ v'.protoId = v.protoId ∧ r ≠ none ∧ pending v = banners.flatten ++ pending v') ∨
    (v'.done = true ∧ ∃ text raw, Line text raw ∧ Ident text ∧ pending v = banners.flatten ++ (raw ++ pending v') ∧
      ((c.mem = true ∧ r = none ∧ v'.protoId = some (Spec.Wire.encString text)) ∨
       (c.mem = false ∧ r = some .memory ∧ v'.protoId = v.protoId)))

theorem banner_line {raw x text raw' y : Bytes} (hb : Banner raw) (h : Line text raw') (he : raw ++ x = raw' ++ y) :
    ¬ asc "SSH-" <+: text ∧ raw = raw' ∧ x = y := by
  obtain ⟨⟨t, ht⟩, hn⟩ := hb
  obtain ⟨rfl, rfl, rfl⟩ := line_unique ht h he
  refine ⟨?_, rfl, rfl⟩
  intro hp
  obtain ⟨e, rfl, _⟩ := line_raw ht
  exact hn (hp.trans (List.prefix_append _ _))

theorem ident_prefix {t : Bytes} (h : Ident t) : asc "SSH-" <+: t := by
  refine List.IsPrefix.trans ?_ h
  exact ⟨asc "2.0-", by decide⟩

theorem protoLoop_spec (c : Call) (hc : c.Ok) : ∀ (fuel : Nat) (v : Ver), Ok v.inp → (unread v.inp).length ≤ 255 → v.done = false →
    10 < fuel + v.bannerLines →
    ∃ r v' banners, protoLoop c.alloc c.mem c.static fuel v = some (r, v') ∧ Turn c v banners r v' ∧
      (∀ banners' text rest, Greeting v.client (pending v) banners' text rest → v.bannerLines + banners'.length ≤ 10 →
        r ≠ some .versionE ∧
        ((∀ n, c.alloc n ≠ none) → c.mem = true → ∀ k t, banners'.length < k → v.io = List.replicate k (.got 40000) ++ t →
          v'.done = true)) := by
  intro fuel
  induction fuel with
  | zero =>
    intro v hb hl hd hf
    refine ⟨some .versionE, v, [], rfl, ⟨hb, hl, rfl, by simp, by simp, by simp, by simp, .inl rfl, .inl ⟨hd, rfl, by simp, rfl⟩⟩, ?_⟩
    intro banners' text rest _ hle
    omega
  | succ fuel ih =>
    intro v hb hl hd hf
    obtain ⟨r, io, net, b, e1, e2, e3, e4, e5, e6, e7⟩ := getInputLine_spec hc.1 v.io v.net v.inp hb hl
    unfold protoLoop
    rw [e1]
    cases r with
    | error e =>
      refine ⟨some e, _, [], rfl, ⟨e2, e3, rfl, by simp, by simp, by simp, by simp, .inl rfl, .inl ⟨hd, rfl, by simp, by simp [pending, e4]⟩⟩, ?_⟩
      intro banners' text rest hg hle
      have hfirst : ∃ text raw rest, Line text raw ∧ pending v = raw ++ rest := by
        obtain ⟨raw, h1, h2⟩ := hg.stream
        cases banners' with
        | nil => exact ⟨text, raw, rest, h1, by simpa using h2⟩
        | cons a as =>
          obtain ⟨⟨t, ht⟩, _⟩ := hg.banner a (by simp)
          exact ⟨t, a, as.flatten ++ (raw ++ rest), ht, by simpa using h2⟩
      obtain ⟨t, rw', rs, h1, h2⟩ := hfirst
      constructor
      · intro he
        simp only [Option.some.injEq] at he
        exact e6 (by rw [he]) _ _ _ h1 h2
      · intro hal _ k tl hk hio
        obtain ⟨k, rfl⟩ : ∃ j, k = j + 1 := ⟨k - 1, by omega⟩
        rw [List.replicate_succ, List.cons_append] at hio
        obtain ⟨eol, h3, _⟩ := e7 _ _ _ _ hal hio h1 h2
        simp at h3
    | ok eol =>
      obtain ⟨hi, text, raw, rest, hfd⟩ := e5 eol rfl
      have hpend : pending v = raw ++ (rest ++ net) := by
        show unread v.inp ++ v.net = _
        rw [← e4, hfd.unread, List.append_assoc]
      simp only
      have p4 := found_prefix e2 hi hfd (p := [83, 83, 72, 45]) (by decide) (by decide)
      have p8 := found_prefix e2 hi hfd (p := [83, 83, 72, 45, 50, 46, 48, 45]) (by decide) (by decide)
      simp only [List.length_cons, List.length_nil, Nat.zero_add, Nat.reduceAdd] at p4 p8
      split
      · rename_i h4
        rw [p4] at h4
        split
        · rename_i h8
          rw [p8] at h8
          have hid : Ident text := h8
          obtain ⟨m, b', g1, g2, g3, g4, g5, g6⟩ := accept_line e2 hi hfd hid c.static hc.2
          rw [g1]
          simp only
          rw [g2, if_neg g3, g4]
          simp only
          have hshort : (unread b').length ≤ 255 := by
            rw [g6]
            rw [hfd.unread] at e3
            simp at e3; omega
          cases hm : c.mem with
          | true =>
            rw [if_pos rfl]
            refine ⟨_, _, [], rfl, ⟨g5, hshort, rfl, by simp, by simp, by simp, by simp, .inl rfl, .inr ⟨rfl, text, raw, hfd.line, hid, ?_, .inl ⟨hm, rfl, ?_⟩⟩⟩, ?_⟩
            · simp [pending, g6] at hpend ⊢; exact hpend
            · simp [Spec.Wire.encString, Wolf.Wire.c32toa_eq]
            · intro _ _ _ _ _; exact ⟨by simp, fun _ _ _ _ _ _ => rfl⟩
          | false =>
            rw [if_neg (by simp)]
            refine ⟨_, _, [], rfl, ⟨g5, hshort, rfl, by simp, by simp, by simp, by simp, .inl rfl, .inr ⟨rfl, text, raw, hfd.line, hid, ?_, .inr ⟨hm, rfl, rfl⟩⟩⟩, ?_⟩
            · simp [pending, g6] at hpend ⊢; exact hpend
            · intro _ _ _ _ _; exact ⟨by simp, fun _ _ _ _ _ _ => rfl⟩
        · rename_i h8
          rw [p8] at h8
          refine ⟨_, _, [], rfl, ⟨e2, e3, rfl, by simp, by simp, by simp, by simp, .inl rfl, .inl ⟨hd, rfl, by simp, by simp [pending, e4]⟩⟩, ?_⟩
          intro banners' text' rest' hg _
          exfalso
          obtain ⟨raw', h1, h2⟩ := hg.stream
          rw [hpend] at h2
          cases banners' with
          | nil =>
            obtain ⟨rfl, _, _⟩ := line_unique hfd.line h1 (by simpa using h2)
            exact h8 hg.ident
          | cons a as =>
            have := banner_line (hg.banner a (by simp)) hfd.line (x := as.flatten ++ (raw' ++ rest')) (y := rest ++ net) (by rw [h2]; simp)
            exact this.1 h4
      · rename_i h4
        rw [p4] at h4
        split
        · rename_i hcl
          refine ⟨_, _, [], rfl, ⟨e2, e3, rfl, by simp, by simp, by simp, by simp, .inl rfl, .inl ⟨hd, rfl, by simp, by simp [pending, e4]⟩⟩, ?_⟩
          intro banners' text' rest' hg _
          exfalso
          obtain ⟨raw', h1, h2⟩ := hg.stream
          have hnil := hg.server hcl
          subst hnil
          rw [hpend] at h2
          obtain ⟨rfl, _, _⟩ := line_unique hfd.line h1 (by simpa using h2)
          exact h4 (ident_prefix hg.ident)
        · rename_i hcl
          have hban : Banner raw := ⟨⟨text, hfd.line⟩, fun hp => h4 ((prefix_line (x := []) hfd.line (by decide) (by decide)).mp (by rw [List.append_nil]; exact hp))⟩
          have hcont : ∀ banners' text' rest', Greeting v.client (pending v) banners' text' rest' →
              ∃ bs, banners' = raw :: bs ∧ ∃ raw', Line text' raw' ∧ rest ++ net = bs.flatten ++ (raw' ++ rest') := by
            intro banners' text' rest' hg
            obtain ⟨raw', h1, h2⟩ := hg.stream
            rw [hpend] at h2
            cases banners' with
            | nil =>
              obtain ⟨rfl, _, _⟩ := line_unique hfd.line h1 (by simpa using h2)
              exact absurd (ident_prefix hg.ident) h4
            | cons a as =>
              have := banner_line (hg.banner a (by simp)) hfd.line (x := as.flatten ++ (raw' ++ rest')) (y := rest ++ net) (by rw [h2]; simp)
              exact ⟨as, by rw [this.2.1], raw', h1, this.2.2.symm⟩
          split
          · rename_i hmax
            refine ⟨_, _, [], rfl, ⟨e2, e3, rfl, by simp, by simp, by simp, by simp, .inl rfl, .inl ⟨hd, rfl, by simp, by simp [pending, e4]⟩⟩, ?_⟩
            intro banners' text' rest' hg hle
            exfalso
            obtain ⟨bs, rfl, _⟩ := hcont _ _ _ hg
            simp only [MAX_BANNER_LINES] at hmax
            simp at hle
            omega
          · rename_i hmax
            simp only [MAX_BANNER_LINES, gt_iff_lt, Nat.not_lt] at hmax
            have hrl := congrArg List.length hfd.unread
            rw [unread_length e2, List.length_append] at hrl
            have hsz := hfd.size; have hps := hfd.pos
            have hidx : add32 b.idx (add32 eol (if b.mem[eol]? = some 13 then 2 else 1)) = raw.length := by
              have := e2.size; have := e2.fits
              rw [hi]; unfold add32; omega
            rw [hidx]
            have hok : Ok { b with idx := raw.length } := ⟨by simp only; omega, e2.fits, e2.mem, e2.size, e2.static⟩
            have hun : unread { b with idx := raw.length } = rest := by
              have h1 := hfd.unread
              unfold unread at h1 ⊢
              simp only [hi, List.drop_zero, Nat.sub_zero] at h1 ⊢
              have h2 : (b.mem.drop raw.length).take (b.length - raw.length) = (b.mem.take b.length).drop raw.length := by
                rw [List.drop_take]
              rw [h2, h1]; simp
            obtain ⟨r, v', banners, g1, g2, g3⟩ := ih { v with io := io, net := net, inp := { b with idx := raw.length }, bannerLines := v.bannerLines + 1 } hok
              (by rw [hun]; rw [unread_length e2] at e3; omega) hd (by simp only; omega)
            refine ⟨r, v', raw :: banners, g1, ⟨g2.ok, g2.short, g2.client, ?_, ?_, ?_, ?_, ?_, ?_⟩, ?_⟩
            · intro x hx
              rcases List.mem_cons.mp hx with rfl | hx
              · exact hban
              · exact g2.banner x hx
            · intro h; exact absurd h hcl
            · have := g2.count; simp at this ⊢; omega
            · intro h; have := g2.exact h; simp at this ⊢; omega
            · right
              rcases g2.few with h | h
              · rw [h]; simp; omega
              · simp at h ⊢; omega
            · have hp2 : pending { v with io := io, net := net, inp := { b with idx := raw.length }, bannerLines := v.bannerLines + 1 } = rest ++ net := by
                simp only [pending, hun]
              have := g2.result
              rw [hp2] at this
              rcases this with ⟨h1, h2, h3, h4⟩ | ⟨h1, t, rw', h2, h3, h4, h5⟩
              · exact .inl ⟨h1, h2, h3, by rw [hpend, h4]; simp⟩
              · exact .inr ⟨h1, t, rw', h2, h3, by rw [hpend, h4]; simp, h5⟩
            · intro banners' text' rest' hg hle
              obtain ⟨bs, rfl, raw', h1, h2⟩ := hcont _ _ _ hg
              have := g3 bs text' rest' ⟨⟨raw', h1, by simp only [pending, hun]; exact h2⟩, hg.ident, fun x hx => hg.banner x (by simp [hx]),
                by have := hg.few; simp at this; omega, fun h => absurd h hcl⟩ (by simp at hle ⊢; omega)
              refine ⟨this.1, ?_⟩
              intro hal hm k tl hk hio
              obtain ⟨k, rfl⟩ : ∃ j, k = j + 1 := ⟨k - 1, by omega⟩
              have hio' := hio
              rw [List.replicate_succ, List.cons_append] at hio'
              obtain ⟨eol', _, h7⟩ := e7 _ text raw (rest ++ net) hal hio' hfd.line hpend
              simp at hk
              rcases h7 with h7 | h7
              · exact this.2 hal hm k tl hk h7
              · exact this.2 hal hm (k + 1) tl (by omega) (by simp only; rw [h7]; exact hio)

theorem greeting_tail {cl : Bool} {bs : List Bytes} : ∀ {p : Bytes} {B : List Bytes} {t r : Bytes},
    Greeting cl (bs.flatten ++ p) B t r → (∀ b ∈ bs, Banner b) →
    ∃ B', B = bs ++ B' ∧ Greeting cl p B' t r := by
  induction bs with
  | nil => intro p B t r h _; exact ⟨B, rfl, by simpa using h⟩
  | cons a as ih =>
    intro p B t r h hb
    obtain ⟨raw, h1, h2⟩ := h.stream
    have h2' : a ++ (as.flatten ++ p) = B.flatten ++ (raw ++ r) := by rw [← h2]; simp
    cases B with
    | nil =>
      have := banner_line (hb a (by simp)) h1 (by simpa using h2')
      exact absurd (ident_prefix h.ident) this.1
    | cons b B =>
      obtain ⟨⟨tb, hl⟩, _⟩ := h.banner b (by simp)
      have := banner_line (hb a (by simp)) hl (x := as.flatten ++ p) (y := B.flatten ++ (raw ++ r)) (by rw [h2']; simp)
      obtain ⟨_, rfl, h4⟩ := this
      obtain ⟨B', rfl, hg⟩ := ih (p := p) (B := B) (t := t) (r := r) ⟨⟨raw, h1, h4⟩, h.ident, fun x hx => h.banner x (by simp [hx]),
        by have := h.few; simp at this; omega, fun hc => by have := h.server hc; simp at this⟩ (fun x hx => hb x (by simp [hx]))
      exact ⟨B', rfl, hg⟩

theorem greeting_unique {cl : Bool} {s : Bytes} {B B' : List Bytes} {t r t' r' : Bytes}
    (h : Greeting cl s B t r) (h' : Greeting cl s B' t' r') : B = B' ∧ t = t' ∧ r = r' := by
  obtain ⟨raw, h1, h2⟩ := h.stream
  rw [h2] at h'
  obtain ⟨B2, rfl, hg⟩ := greeting_tail h' h.banner
  obtain ⟨raw', h3, h4⟩ := hg.stream
  cases B2 with
  | nil =>
    obtain ⟨rfl, _, rfl⟩ := line_unique h1 h3 (by simpa using h4)
    exact ⟨by simp, rfl, rfl⟩
  | cons b B2 =>
    have := banner_line (hg.banner b (by simp)) h1 (x := B2.flatten ++ (raw' ++ r')) (y := r) (by rw [h4]; simp)
    exact absurd (ident_prefix h.ident) this.1

end Proofs.Version
