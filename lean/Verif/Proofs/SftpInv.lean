import Verif.Proofs.SftpDecode
/-! Histories of a session. -/

namespace Proofs.Sftp
open Wolf Wolf.Wire Wolf.Buffer Wolf.Sftp Wolf.NameList Spec.Wire Spec.Sftp Spec.Path Proofs.Exchange Props.Wire Proofs.Path

def num (i : Nat × Nat) : Nat := i.1 + i.2 * 2 ^ 32

theorem succId_num {i : Nat × Nat} (hi : Spec.Sftp.Id i) (h : num i + 1 < 2 ^ 64) : Spec.Sftp.Id (succId i) ∧ num (succId i) = num i + 1 := by
  obtain ⟨h1, h2⟩ := hi
  unfold num at h
  have hc : add32 i.1 1 < i.1 ↔ i.1 + 1 = 2 ^ 32 := by unfold add32; omega
  unfold succId Path.addAssign64 Spec.Sftp.Id num
  dsimp only
  by_cases hh : i.1 + 1 = 2 ^ 32
  · rw [if_pos (hc.2 hh)]
    unfold add32
    omega
  · rw [if_neg (fun h => hh (hc.1 h))]
    unfold add32
    omega

/-- What holds after `n` requests. -/
structure Inv (j : Option (List Bytes)) (n : Nat) (s : Sess) : Prop where
  dirs : ∃ d, Dirs s d j
  held : Held s
  inside : ∀ x ∈ s.dirs, ∃ cs, Canonical x.name cs ∧ ∀ r, j = some r → r <+: cs
  next : num s.nextId ≤ n
  old : ∀ i ∈ s.files.map (·.id) ++ s.dirs.map (·.id), num i < num s.nextId
  nodup : (s.files.map (·.id) ++ s.dirs.map (·.id)).Nodup
  files : s.files.length ≤ 64
  dirs' : s.dirs.length ≤ 64

variable {E : Env} {s : Sess} {d j : Option (List Bytes)} {type id n : Nat}

theorem inv_fresh (h : Fresh s d j) : Inv j 0 s :=
  ⟨⟨d, h.dirs⟩, ⟨⟨by simp [h.noFiles], by simp [h.noDirs], by rw [h.first]; exact ⟨by decide, by decide⟩⟩, by simp [h.noDirs]⟩, by simp [h.noDirs], by rw [h.first]; decide,
    by simp [h.noDirs, h.noFiles], by simp [h.noDirs, h.noFiles], by simp [h.noFiles], by simp [h.noDirs]⟩

theorem dirs_default {s s' : Sess} (h : Same s s') (hs : Dirs s d j) : ∃ d', Dirs s' d' j := by
  rcases h.default with hd | ⟨hn, cs, hd, hcs⟩
  · exact ⟨d, by rw [hd]; exact hs.default, by rw [h.confine]; exact hs.confine, hs.dNames, hs.jNames⟩
  · exact ⟨some cs, by rw [hd]; rfl, by rw [h.confine]; exact hs.confine, fun x hx => by cases hx; exact hcs, hs.jNames⟩

theorem same_mem {s s' : Sess} (h : Same s s') {x : DirH} (hx : x ∈ s'.dirs) : ∃ y ∈ s.dirs, y.dir = x.dir ∧ y.name = x.name ∧ y.id = x.id := by
  have : (x.dir, x.name, x.id) ∈ s'.dirs.map fun x => (x.dir, x.name, x.id) := List.mem_map_of_mem hx
  rw [h.dirs, List.mem_map] at this
  obtain ⟨y, hy, he⟩ := this
  simp only [Prod.mk.injEq] at he
  exact ⟨y, hy, he⟩

theorem same_ids {s s' : Sess} (h : Same s s') : s'.dirs.map (·.id) = s.dirs.map (·.id) := by
  have := congrArg (List.map fun x : Nat × Bytes × (Nat × Nat) => x.2.2) h.dirs
  simpa [List.map_map, Function.comp_def] using this

theorem same_dirs {s s' : Sess} (h : Same s s') : s'.dirs.map (·.dir) = s.dirs.map (·.dir) := by
  have := congrArg (List.map fun x : Nat × Bytes × (Nat × Nat) => x.1) h.dirs
  simpa [List.map_map, Function.comp_def] using this

theorem inv_mono {m : Nat} (h : Inv j n s) (hm : n ≤ m) : Inv j m s := { h with next := Nat.le_trans h.next hm }

theorem nodup_erase {α β : Type} (f : α → β) (p : α → Bool) (l : List α) (r : List β) (h : (l.map f ++ r).Nodup) : ((l.eraseP p).map f ++ r).Nodup :=
  h.sublist ((List.eraseP_sublist.map f).append_right r)

theorem inside_prefix {isLink : Bytes → Bool} {p : Bytes} (h : Inside j isLink p) : ∃ cs, Canonical p cs ∧ ∀ r, j = some r → r <+: cs :=
  let ⟨cs, h1, h2⟩ := h
  ⟨cs, h1, fun r hr => (h2 r hr).1⟩

theorem inv_shape {o : Out} (h : Inv j n s) (hn : n + 1 < 2 ^ 64) (hs : Shape E s j type id o) : Inv j (n + 1) o.st := by
  obtain ⟨d, hd⟩ := h.dirs
  have hnx := h.next
  obtain ⟨hid, hnum⟩ := succId_num h.held.ids.next (by omega)
  cases hs with
  | tame h1 _ _ _ _ =>
    obtain ⟨d', hd'⟩ := dirs_default h1 hd
    refine ⟨⟨d', hd'⟩, ⟨⟨?_, ?_, ?_⟩, ?_⟩, ?_, ?_, ?_, ?_, ?_, ?_⟩
    · rw [h1.files]; exact h.held.ids.files
    · intro x hx; obtain ⟨y, hy, _, _, he⟩ := same_mem h1 hx; rw [← he]; exact h.held.ids.dirs y hy
    · rw [h1.next]; exact h.held.ids.next
    · intro x hx; obtain ⟨y, hy, _, he, _⟩ := same_mem h1 hx; rw [← he]; exact h.held.names y hy
    · intro x hx; obtain ⟨y, hy, _, he, _⟩ := same_mem h1 hx; rw [← he]; exact h.inside y hy
    · rw [h1.next]; omega
    · rw [h1.files, h1.next, same_ids h1]; exact h.old
    · rw [h1.files, same_ids h1]; exact h.nodup
    · rw [h1.files]; exact h.files
    · have := congrArg List.length (same_ids h1); simp only [List.length_map] at this; rw [this]; exact h.dirs'
  | opened _ hp _ hl =>
    refine ⟨⟨d, hd.1, hd.2, hd.3, hd.4⟩, ⟨⟨?_, h.held.ids.dirs, hid⟩, h.held.names⟩, h.inside, ?_, ?_, ?_, ?_, h.dirs'⟩
    · intro f hf
      rcases List.mem_cons.1 hf with rfl | hf
      · exact h.held.ids.next
      · exact h.held.ids.files f hf
    · simp only [addFile]; omega
    · intro i hi
      simp only [addFile, List.map_cons, List.cons_append, List.mem_cons] at hi ⊢
      rcases hi with rfl | hi
      · omega
      · have := h.old i hi; omega
    · simp only [addFile, List.map_cons, List.cons_append, List.nodup_cons]
      exact ⟨fun hm => by have := h.old _ hm; omega, h.nodup⟩
    · simp only [addFile, List.length_cons]; omega
  | undone =>
    exact ⟨⟨d, hd.1, hd.2, hd.3, hd.4⟩, ⟨⟨h.held.ids.files, h.held.ids.dirs, hid⟩, h.held.names⟩, h.inside, by simp only [skipId]; omega,
      fun i hi => by have := h.old i hi; simp only [skipId]; omega, h.nodup, h.files, h.dirs'⟩
  | openedDir _ hp hl _ =>
    obtain ⟨cs, hc1, hc2⟩ := inside_prefix hp
    refine ⟨⟨d, hd.1, hd.2, hd.3, hd.4⟩, ⟨⟨h.held.ids.files, ?_, hid⟩, ?_⟩, ?_, ?_, ?_, ?_, h.files, ?_⟩
    · intro f hf
      rcases List.mem_cons.1 hf with rfl | hf
      · exact h.held.ids.next
      · exact h.held.ids.dirs f hf
    · intro x hx
      rcases List.mem_cons.1 hx with rfl | hx
      · exact ⟨cs, hc1⟩
      · exact h.held.names x hx
    · intro x hx
      rcases List.mem_cons.1 hx with rfl | hx
      · exact ⟨cs, hc1, hc2⟩
      · exact h.inside x hx
    · simp only [addDir]; omega
    · intro i hi
      simp only [addDir, List.map_cons, List.mem_append, List.mem_cons] at hi ⊢
      have ho := fun i hi => h.old i hi
      simp only [List.mem_append] at ho
      rcases hi with hi | rfl | hi
      · have := ho i (.inl hi); omega
      · omega
      · have := ho i (.inr hi); omega
    · simp only [addDir, List.map_cons]
      rw [List.perm_middle.nodup_iff, List.nodup_cons]
      exact ⟨fun hm => by have := h.old _ hm; omega, h.nodup⟩
    · simp only [addDir, List.length_cons]; omega
  | undoneDir => exact inv_mono h (by omega)
  | @closed _ hb f =>
    refine ⟨⟨d, hd.1, hd.2, hd.3, hd.4⟩, ⟨⟨fun f hf => h.held.ids.files f (List.mem_of_mem_eraseP hf), h.held.ids.dirs, h.held.ids.next⟩, h.held.names⟩,
      h.inside, Nat.le_succ_of_le h.next, fun i hi => h.old i ?_, nodup_erase _ _ _ _ h.nodup,
      Nat.le_trans List.length_eraseP_le h.files, h.dirs'⟩
    simp only [dropFile, List.mem_append, List.mem_map] at hi ⊢
    rcases hi with ⟨f, hf, rfl⟩ | hi
    · exact .inl ⟨f, List.mem_of_mem_eraseP hf, rfl⟩
    · exact .inr hi
  | @closedDir _ hb f =>
    refine ⟨⟨d, hd.1, hd.2, hd.3, hd.4⟩, ⟨⟨h.held.ids.files, fun f hf => h.held.ids.dirs f (List.mem_of_mem_eraseP hf), h.held.ids.next⟩,
      fun x hx => h.held.names x (List.mem_of_mem_eraseP hx)⟩,
      fun x hx => h.inside x (List.mem_of_mem_eraseP hx), Nat.le_succ_of_le h.next, fun i hi => h.old i ?_, ?_,
      h.files, Nat.le_trans List.length_eraseP_le h.dirs'⟩
    · simp only [dropDir, List.mem_append, List.mem_map] at hi ⊢
      rcases hi with hi | ⟨f, hf, rfl⟩
      · exact .inl hi
      · exact .inr ⟨f, List.mem_of_mem_eraseP hf, rfl⟩
    · exact h.nodup.sublist ((List.eraseP_sublist.map _).append_left _)

theorem inv_id (h : Inv j n s) (id : Nat) : Inv j n { s with reqId := id } :=
  ⟨let ⟨d, hd⟩ := h.dirs; ⟨d, hd.1, hd.2, hd.3, hd.4⟩, ⟨⟨h.held.ids.files, h.held.ids.dirs, h.held.ids.next⟩, h.held.names⟩, h.inside, h.next, h.old,
    h.nodup, h.files, h.dirs'⟩

theorem trace_inv {s0 : Sess} (h0 : Fresh s0 d j) {t : List Event} (h : Trace s0 t s) (hl : t.length < 2 ^ 64) : Inv j t.length s := by
  induction h with
  | nil => exact inv_fresh h0
  | @snoc t s' r o ht hE hid hb ho ih =>
    simp only [List.length_append, List.length_cons, List.length_nil, Nat.zero_add] at hl ⊢
    have hi := ih (by omega)
    obtain ⟨d', hd⟩ := hi.dirs
    obtain ⟨o', h1, h2⟩ := handle_shape (type := r.type) (id := r.id) hE hd hi.held r.body hb
    rw [ho] at h1
    cases h1
    exact inv_shape (inv_id hi r.id) hl h2

/-- Every event of a history has a shape, in a state with the invariant. -/
theorem trace_shape {s0 : Sess} (h0 : Fresh s0 d j) {t : List Event} (h : Trace s0 t s) (hl : t.length < 2 ^ 64) {a b : List Event} {e : Event}
    (ht : t = a ++ e :: b) : ∃ s', Trace s0 a s' ∧ Inv j a.length s' ∧ handle e.1.E s' e.1.type e.1.id e.1.body = some e.2 ∧
      Shape e.1.E { s' with reqId := e.1.id } j e.1.type e.1.id e.2 ∧ Good e.1.E ∧ e.1.id < 2 ^ 32 ∧ e.1.body.length < 2 ^ 32 := by
  induction h generalizing b with
  | nil => simp at ht
  | @snoc t s' r o hT hE hid hb ho ih =>
    simp only [List.length_append, List.length_cons, List.length_nil, Nat.zero_add] at hl
    rcases List.eq_nil_or_concat b with rfl | ⟨b', x, rfl⟩
    · have := List.append_inj' ht rfl
      simp only [List.cons.injEq, and_true] at this
      obtain ⟨rfl, rfl⟩ := this
      have hi := trace_inv h0 hT (by omega)
      obtain ⟨d', hd⟩ := hi.dirs
      obtain ⟨o', h1, h2⟩ := handle_shape (type := r.type) (id := r.id) hE hd hi.held r.body hb
      rw [ho] at h1
      cases h1
      exact ⟨s', hT, hi, ho, h2, hE, hid, hb⟩
    · rw [List.concat_eq_append, ← List.cons_append, ← List.append_assoc] at ht
      have := (List.append_inj' ht rfl).1
      exact ih (by omega) this

end Proofs.Sftp
