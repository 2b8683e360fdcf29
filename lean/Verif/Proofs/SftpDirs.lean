import Verif.Proofs.SftpLeak
/-! Open directories over a history. -/

namespace Proofs.Sftp
open Wolf Wolf.Wire Wolf.Buffer Wolf.Sftp Wolf.NameList Spec.Wire Spec.Sftp Spec.Path Proofs.Exchange Props.Wire Proofs.Path

variable {s s0 : Sess} {d j : Option (List Bytes)} {n : Nat} {e : Event} {t : List Event}

theorem dirOf_setEof (s : Sess) (i : Nat × Nat) (h : Bytes) :
    dirOf (setEof s i) h = (dirOf s h).map fun x => if x.id = i then { x with isEof := true } else x := by
  unfold dirOf setEof
  rw [List.find?_map]
  congr 1
  apply find_congr
  intro x _
  simp only [Function.comp]
  split <;> rfl

theorem rich_ans {E : Env} (hR : Rich E) (s : Sess) (calls : List Posix.Call) (id : Nat) (r : Reply) (ret : Option Err) :
    ans E s calls id r ret = ⟨ret, s, calls, some (r.packet id)⟩ := by
  unfold ans
  rw [if_pos (show mem E r = true from hR.alloc _)]

theorem dir_keep (h : Inv j n s) (hE : Good e.1.E) (hid : e.1.id < 2 ^ 32) (hw : e.1.body.length < 2 ^ 32) (hR : Rich e.1.E)
    (ho : handle e.1.E s e.1.type e.1.id e.1.body = some e.2) (hs : Shape e.1.E { s with reqId := e.1.id } j e.1.type e.1.id e.2) {y : Bytes} {x : DirH}
    (hx : dirOf s y = some x) (hc : closing e ≠ some y) :
    ∃ x', dirOf e.2.st y = some x' ∧ x'.dir = x.dir ∧ x'.name = x.name ∧ (x'.isEof = true ↔ x.isEof = true ∨ Lists e y) := by
  have hnext : y ≠ encodeId s.nextId := fun he => by rw [he, (next_new h).1] at hx; cases hx
  by_cases ht : e.1.type = 4
  · refine ⟨x, ?_, rfl, rfl, ⟨.inl, ?_⟩⟩
    · rw [(close_step h hE hw ht ho y).2, if_neg hc, hx]
    · rintro (h | ⟨h, _⟩)
      · exact h
      · omega
  by_cases ht' : e.1.type = 12
  · obtain ⟨r, o⟩ := e
    dsimp only at hE hid hw hR ho hs hc ht ht'
    rw [ht'] at ho
    obtain ⟨d', hd⟩ := (inv_id h r.id).dirs
    have hh := (inv_id h r.id).held
    have h1 : handle r.E s 12 r.id r.body = recvReadDir r.E { s with reqId := r.id } r.id r.body r.body.length := rfl
    rw [h1, readdir_eq hE hd hh.ids hh.names _ _ hw] at ho
    have ho := Option.some.inj ho
    have hx1 : dirOf { s with reqId := r.id } y = some x := hx
    have keep : (∀ l, o.reply.bind decode ≠ some (r.id, .names l)) ∨ (string r.body).map (·.1) ≠ some y →
        o.st = { s with reqId := r.id } → ∃ x', dirOf o.st y = some x' ∧ x'.dir = x.dir ∧ x'.name = x.name ∧
          (x'.isEof = true ↔ x.isEof = true ∨ Lists (r, o) y) := by
      intro hn hst
      refine ⟨x, by rw [hst]; exact hx1, rfl, rfl, ⟨.inl, ?_⟩⟩
      rintro (h | ⟨_, h2, l, h3⟩)
      · exact h
      · rcases hn with hn | hn
        · exact absurd h3 (hn l)
        · exact absurd h2 hn
    have stat : ∀ m l, decode ((said 1 m).packet r.id) ≠ some (r.id, .names l) ∨ 1000 ≤ m.length := by
      intro m l
      by_cases hm : m.length < 1000
      · left
        rw [decode_packet _ hid _ (status_fits 1 m (by decide) hm)]
        intro h
        cases h
      · right; omega
    have stat' : ∀ l, decode ((said 1 (asc "No More Files In Directory")).packet r.id) ≠ some (r.id, .names l) := fun l => by
      rcases stat (asc "No More Files In Directory") l with h | h
      · exact h
      · exact absurd h (by decide)
    cases hsb : string r.body with
    | none =>
      rw [hsb] at ho
      exact keep (.inr (by rw [hsb]; simp)) (by rw [← ho]; rfl)
    | some q =>
      rw [hsb] at ho
      dsimp only at ho
      by_cases hl : q.1.length > 256
      · rw [if_pos hl] at ho
        exact keep (.inl (fun l => by rw [← ho]; intro h; cases h)) (by rw [← ho]; rfl)
      · rw [if_neg hl] at ho
        cases hq : dirOf { s with reqId := r.id } q.1 with
        | none =>
          rw [hq] at ho
          exact keep (.inl (fun l => by rw [← ho]; intro h; cases h)) (by rw [← ho]; rfl)
        | some z =>
          rw [hq] at ho
          dsimp only at ho
          by_cases hz : z.isEof = true
          · rw [if_pos hz, rich_ans hR] at ho
            exact keep (.inl (fun l => by rw [← ho]; exact stat' l)) (by rw [← ho])
          · rw [if_neg hz] at ho
            by_cases hl : (listing r.E z.dir (components z.name) r.E.entries).1 = []
            · rw [if_pos hl, rich_ans hR] at ho
              exact keep (.inl (fun l => by rw [← ho]; exact stat' l)) (by rw [← ho])
            · rw [if_neg hl, rich_ans hR] at ho
              have e1 := List.find?_some hq
              simp only [decide_eq_true_eq] at e1
              have hx2 : dirOf o.st y = (some x).map fun w => if w.id = z.id then { w with isEof := true } else w := by
                rw [← ho, dirOf_setEof, hx1]
              by_cases hy : q.1 = y
              · rw [hy, hx1] at hq
                cases hq
                rw [Option.map_some, if_pos rfl] at hx2
                refine ⟨_, hx2, rfl, rfl, ⟨fun _ => .inr ⟨ht', by rw [hsb, Option.map_some, hy], ?_⟩, fun _ => rfl⟩⟩
                rw [← ho]
                exact ⟨_, decode_packet _ hid _ (names_fits hE _ _)⟩
              · have hne : x.id ≠ z.id := by
                  intro he
                  have e2 := List.find?_some hx1
                  simp only [decide_eq_true_eq] at e2
                  exact hy (by rw [← e1, ← e2, he])
                rw [Option.map_some, if_neg hne] at hx2
                refine ⟨_, hx2, rfl, rfl, ⟨.inl, ?_⟩⟩
                rintro (h | ⟨_, h2, _⟩)
                · exact h
                · rw [hsb, Option.map_some] at h2
                  exact absurd (Option.some.inj h2) hy
  · obtain ⟨r, o⟩ := e
    dsimp only at hs ht ht'
    have fin : dirOf o.st y = some x → ∃ x', dirOf o.st y = some x' ∧ x'.dir = x.dir ∧ x'.name = x.name ∧
        (x'.isEof = true ↔ x.isEof = true ∨ Lists (r, o) y) := by
      intro hd
      refine ⟨x, hd, rfl, rfl, ⟨.inl, ?_⟩⟩
      rintro (h | ⟨h, _⟩)
      · exact h
      · exact absurd h ht'
    apply fin
    cases hs with
    | tame h1 h2 =>
      unfold dirOf
      rw [h2 ht']
      exact hx
    | opened => exact hx
    | undone => exact hx
    | openedDir =>
      simp only [dirOf, addDir, List.find?_cons]
      rw [decide_eq_false (fun h => hnext h.symm)]
      exact hx
    | undoneDir => exact hx
    | closed h => exact absurd h ht
    | closedDir h => exact absurd h ht

/-- The directory a handle was given for. -/
theorem dir_given (hid : e.1.id < 2 ^ 32) (hs : Shape e.1.E { s with reqId := e.1.id } j e.1.type e.1.id e.2) {y p : Bytes} {dir : Nat}
    (hg : granted e = some y) (hc : e.2.calls = [.opendir p (some dir)]) :
    ∃ x, dirOf e.2.st y = some x ∧ x.dir = dir ∧ x.name = p ∧ x.isEof = false ∧ Inside j e.1.E.isLink p := by
  obtain ⟨r, o⟩ := e
  dsimp only at hs hid hc
  cases hs with
  | tame _ _ _ h3 h4 => rw [granted_none (e := (r, _)) hid h3 h4] at hg; cases hg
  | opened => cases hc
  | undone => cases hc
  | openedDir _ hp _ h =>
    cases hc
    rcases h with ⟨rfl, _⟩ | rfl
    · cases hg
    · rw [granted_handle (e := (r, _)) hid rfl] at hg
      cases hg
      refine ⟨⟨dir, p, false, s.nextId⟩, ?_, rfl, rfl, rfl, hp⟩
      simp only [dirOf, addDir, List.find?_cons, decide_true]
  | undoneDir => cases hc
  | closed => cases hc
  | closedDir => cases hc

theorem dir_after (h0 : Fresh s0 d j) (h : Trace s0 t s) (hl : t.length < 2 ^ 64) {a b : List Event}
    (ht : t = a ++ e :: b) {y p : Bytes} {dir : Nat} (hg : granted e = some y) (hc : e.2.calls = [.opendir p (some dir)])
    (hno : ∀ x ∈ b, closing x ≠ some y) (hR : ∀ x ∈ b, Rich x.1.E) :
    ∃ x, dirOf s y = some x ∧ x.dir = dir ∧ x.name = p ∧ (x.isEof = true ↔ ∃ z ∈ b, Lists z y) := by
  induction h generalizing b with
  | nil => simp at ht
  | @snoc t s' r o hT hE hid hb ho ih =>
    simp only [List.length_append, List.length_cons, List.length_nil, Nat.zero_add] at hl
    have hi := trace_inv h0 hT (by omega)
    obtain ⟨d', hd⟩ := hi.dirs
    obtain ⟨o', h1, h2⟩ := handle_shape (type := r.type) (id := r.id) hE hd hi.held r.body hb
    rw [ho] at h1
    cases h1
    rcases List.eq_nil_or_concat b with rfl | ⟨b', z, rfl⟩
    · have := List.append_inj' ht rfl
      simp only [List.cons.injEq, and_true] at this
      obtain ⟨rfl, rfl⟩ := this
      obtain ⟨x, k1, k2, k3, k4, _⟩ := dir_given (e := (r, o)) hid h2 hg hc
      refine ⟨x, k1, k2, k3, ?_⟩
      rw [k4]
      simp
    · rw [List.concat_eq_append, ← List.cons_append, ← List.append_assoc] at ht
      have h3 := List.append_inj' ht rfl
      simp only [List.cons.injEq, and_true] at h3
      obtain ⟨h3, rfl⟩ := h3
      rw [List.concat_eq_append] at hno hR
      obtain ⟨x, k1, k2, k3, k4⟩ := ih (by omega) h3 (fun x hx => hno x (by simp [hx])) (fun x hx => hR x (by simp [hx]))
      obtain ⟨x', m1, m2, m3, m4⟩ := dir_keep (e := (r, o)) hi hE hid hb (hR _ (by simp)) ho h2 k1 (hno _ (by simp))
      refine ⟨x', m1, by rw [m2, k2], by rw [m3, k3], ?_⟩
      rw [m4, k4, List.concat_eq_append]
      simp [or_and_right, exists_or]

theorem find_key {α : Type} (k : α → Bytes) : ∀ (l : List α), (l.map k).Nodup → ∀ f ∈ l, l.find? (fun g => decide (k g = k f)) = some f
  | a :: l, h, f, hf => by
    rw [List.map_cons, List.nodup_cons] at h
    rw [List.find?_cons]
    rcases List.mem_cons.1 hf with rfl | hf
    · rw [decide_eq_true rfl]
    · have : k a ≠ k f := fun he => h.1 (List.mem_map.2 ⟨f, hf, he.symm⟩)
      rw [decide_eq_false this]
      exact find_key k l h.2 f hf

theorem mem_fileOf (h : Inv j n s) {f : FileH} (hf : f ∈ s.files) : fileOf s (encodeId f.id) = some f :=
  find_key (fun f : FileH => encodeId f.id) s.files (keys_nodup h).1 f hf

theorem mem_dirOf (h : Inv j n s) {f : DirH} (hf : f ∈ s.dirs) : dirOf s (encodeId f.id) = some f :=
  find_key (fun f : DirH => encodeId f.id) s.dirs (keys_nodup h).2 f hf

end Proofs.Sftp
