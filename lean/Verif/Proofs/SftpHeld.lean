import Verif.Proofs.SftpInv
/-! Handles. -/

namespace Proofs.Sftp
open Wolf Wolf.Wire Wolf.Buffer Wolf.Sftp Wolf.NameList Spec.Wire Spec.Sftp Spec.Path Proofs.Exchange Props.Wire Proofs.Path

variable {s s0 : Sess} {d j : Option (List Bytes)} {n : Nat} {e : Event} {t : List Event}

theorem handle_fits (i : Nat × Nat) : (Reply.handle (encodeId i)).Fits := by
  refine ⟨?_, trivial⟩
  simp only [Reply.body, enc_length, encodeId_length]
  omega

theorem granted_handle {i : Nat × Nat} (hid : e.1.id < 2 ^ 32) (h : e.2.reply = some ((Reply.handle (encodeId i)).packet e.1.id)) :
    granted e = some (encodeId i) := by
  unfold granted
  rw [h, Option.bind_some, decode_packet _ hid _ (handle_fits i)]

theorem granted_none {type : Nat} (hid : e.1.id < 2 ^ 32) (h : Answers type e.1.id e.2.reply)
    (hh : ∀ x, e.2.reply ≠ some ((Reply.handle x).packet e.1.id)) : granted e = none := by
  unfold granted
  rcases h with h | ⟨r, _, hf, h⟩
  · rw [h]; rfl
  · rw [h, Option.bind_some, decode_packet _ hid r hf]
    cases r with
    | handle x => exact absurd h (hh x)
    | _ => rfl

theorem tame_flat {E : Env} {type : Nat} (calls : List Posix.Call) (h : ∀ c ∈ calls, Tame E s j type c) : calls.flatMap opened = [] ∧ calls.flatMap closed = [] ∧
    calls.flatMap openedDir = [] ∧ calls.flatMap closedDir = [] := by
  simp only [List.flatMap_eq_nil_iff]
  exact ⟨fun c hc => (h c hc).o1, fun c hc => (h c hc).o2, fun c hc => (h c hc).o3, fun c hc => (h c hc).o4⟩

/-- A request other than CLOSE closes nothing. -/
theorem closing_none (h : e.1.type ≠ 4) : closing e = none := if_neg h

theorem disjoint (h : Inv j n s) {x : Bytes} {f : FileH} {g : DirH} (hf : fileOf s x = some f) (hg : dirOf s x = some g) : False := by
  have h1 := List.mem_of_find?_eq_some hf
  have h2 := List.mem_of_find?_eq_some hg
  have e1 := List.find?_some hf
  have e2 := List.find?_some hg
  simp only [decide_eq_true_eq] at e1 e2
  have he : f.id = g.id := encodeId_inj (h.held.ids.files f h1) (h.held.ids.dirs g h2) (by rw [e1, e2])
  have hd := (List.nodup_append.1 h.nodup).2.2
  exact hd f.id (List.mem_map_of_mem h1) g.id (List.mem_map_of_mem h2) he

theorem find_erase {α : Type} (k : α → Bytes) (x : Bytes) : ∀ (l : List α), (l.map k).Nodup → ∀ y,
    (l.eraseP fun f => decide (k f = x)).find? (fun f => decide (k f = y)) = if x = y then none else l.find? fun f => decide (k f = y)
  | [], _, y => by simp
  | a :: l, h, y => by
    rw [List.map_cons, List.nodup_cons] at h
    have ih := find_erase k x l h.2 y
    rw [List.eraseP_cons]
    by_cases ha : k a = x
    · rw [decide_eq_true ha]
      simp only [cond_true]
      by_cases hxy : x = y
      · rw [if_pos hxy, List.find?_eq_none]
        intro b hb hk
        rw [decide_eq_true_eq] at hk
        exact h.1 (List.mem_map.2 ⟨b, hb, by rw [hk, ← hxy, ha]⟩)
      · rw [if_neg hxy, List.find?_cons, decide_eq_false (by rw [ha]; exact hxy)]
    · rw [decide_eq_false ha]
      simp only [cond_false, List.find?_cons]
      rw [ih]
      by_cases hay : k a = y
      · have hne : ¬ x = y := by rw [← hay]; exact fun h => ha h.symm
        simp only [decide_eq_true hay, if_neg hne]
      · rw [decide_eq_false hay]

theorem keys_nodup (h : Inv j n s) : (s.files.map fun f => encodeId f.id).Nodup ∧ (s.dirs.map fun f => encodeId f.id).Nodup := by
  have h1 := (List.nodup_append.1 h.nodup)
  refine ⟨?_, ?_⟩
  · have := h1.1
    rw [List.Nodup, List.pairwise_map] at this ⊢
    exact this.imp_of_mem fun ha hb hne he => hne (encodeId_inj (h.held.ids.files _ ha) (h.held.ids.files _ hb) he)
  · have := h1.2.1
    rw [List.Nodup, List.pairwise_map] at this ⊢
    exact this.imp_of_mem fun ha hb hne he => hne (encodeId_inj (h.held.ids.dirs _ ha) (h.held.ids.dirs _ hb) he)

theorem fileOf_drop (h : Inv j n s) (x y : Bytes) : fileOf (dropFile s x) y = if x = y then none else fileOf s y :=
  find_erase (fun f : FileH => encodeId f.id) x s.files (keys_nodup h).1 y

theorem dirOf_drop (h : Inv j n s) (x y : Bytes) : dirOf (dropDir s x) y = if x = y then none else dirOf s y :=
  find_erase (fun f : DirH => encodeId f.id) x s.dirs (keys_nodup h).2 y

theorem ans_st (E : Env) (s : Sess) (calls : List Posix.Call) (id : Nat) (r : Reply) (ret : Option Err) :
    (ans E s calls id r ret).st = s ∧ (ans E s calls id r ret).calls = calls := by
  unfold ans; split <;> exact ⟨rfl, rfl⟩

/-- CLOSE. -/
theorem close_step (h : Inv j n s) (hE : Good e.1.E) (hw : e.1.body.length < 2 ^ 32) (ht : e.1.type = 4)
    (ho : handle e.1.E s e.1.type e.1.id e.1.body = some e.2) : ∀ y,
    fileOf e.2.st y = (if closing e = some y then none else fileOf s y) ∧ dirOf e.2.st y = (if closing e = some y then none else dirOf s y) := by
  intro y
  rw [ht] at ho
  have hi : Ids { s with reqId := e.1.id } := ⟨h.held.ids.files, h.held.ids.dirs, h.held.ids.next⟩
  have hI : Inv j n { s with reqId := e.1.id } := inv_id h e.1.id
  have h1 : handle e.1.E s 4 e.1.id e.1.body = recvClose e.1.E { s with reqId := e.1.id } e.1.id e.1.body e.1.body.length := rfl
  rw [h1, close_eq hE hi _ _ hw] at ho
  have ho := Option.some.inj ho
  unfold closing
  rw [if_pos ht]
  rw [← ho]
  have hf : ∀ z, fileOf { s with reqId := e.1.id } z = fileOf s z := fun _ => rfl
  have hd : ∀ z, dirOf { s with reqId := e.1.id } z = dirOf s z := fun _ => rfl
  cases hs : string e.1.body with
  | none => simp [stop]; exact ⟨rfl, rfl⟩
  | some r =>
    simp only [Option.map_some, Option.some.injEq]
    by_cases hl : r.1.length > 256
    · rw [if_pos hl]
      have hl8 : r.1.length ≠ 8 := by omega
      by_cases hy : r.1 = y
      · rw [if_pos hy, if_pos hy, ← hy]
        exact ⟨fileOf_short (s := { s with reqId := e.1.id }) hl8, dirOf_short (s := { s with reqId := e.1.id }) hl8⟩
      · rw [if_neg hy, if_neg hy]; exact ⟨rfl, rfl⟩
    · rw [if_neg hl]
      cases hdr : dirOf { s with reqId := e.1.id } r.1 with
      | some x =>
        simp only [(ans_st ..).1]
        have hfn : fileOf s r.1 = none := by
          cases hff : fileOf s r.1 with
          | none => rfl
          | some f => exact absurd (disjoint h hff hdr) id
        refine ⟨?_, ?_⟩
        · show fileOf s y = _
          by_cases hy : r.1 = y
          · rw [if_pos hy, ← hy, hfn]
          · rw [if_neg hy]
        · rw [dirOf_drop hI]; rfl
      | none =>
        have hdn : (if r.1 = y then none else dirOf s y) = dirOf s y := by
          by_cases hy : r.1 = y
          · rw [if_pos hy, ← hy]; exact hdr.symm
          · rw [if_neg hy]
        rw [hdn]
        cases hfr : fileOf { s with reqId := e.1.id } r.1 with
        | none =>
          simp only [(ans_st ..).1]
          refine ⟨?_, rfl⟩
          show fileOf s y = _
          by_cases hy : r.1 = y
          · rw [if_pos hy, ← hy]; exact hfr
          · rw [if_neg hy]
        | some f =>
          dsimp only
          split
          · simp only [(ans_st ..).1]
            exact ⟨by rw [fileOf_drop hI]; rfl, rfl⟩
          · simp only [(ans_st ..).1]
            exact ⟨by rw [fileOf_drop hI]; rfl, rfl⟩

theorem shape_close_none {E : Env} {type id : Nat} {o : Out} (h : Shape E s j type id o) (ht : type = 4) :
    Answers type id o.reply ∧ ∀ x, o.reply ≠ some ((Reply.handle x).packet id) := by
  cases h with
  | tame _ _ _ h3 h4 => exact ⟨h3, h4⟩
  | opened h => omega
  | undone h => omega
  | openedDir h => omega
  | undoneDir h => omega
  | closed _ _ h3 h4 => exact ⟨h3, h4⟩
  | closedDir _ _ h3 h4 => exact ⟨h3, h4⟩

theorem grant_none {new : Posix.Call → List Nat} {m : Bytes → Option Nat} (h : granted e = none) (y : Bytes) :
    grant new m e y = if closing e = some y then none else m y := by unfold grant; rw [h]

theorem grant_empty {new : Posix.Call → List Nat} {m : Bytes → Option Nat} (h : e.2.calls.flatMap new = []) (y : Bytes) :
    grant new m e y = if closing e = some y then none else m y := by
  unfold grant; rw [h]; cases granted e <;> rfl

/-- The files of the session after a request. -/
theorem file_step (h : Inv j n s) (hE : Good e.1.E) (hid : e.1.id < 2 ^ 32) (hw : e.1.body.length < 2 ^ 32)
    (ho : handle e.1.E s e.1.type e.1.id e.1.body = some e.2) (hs : Shape e.1.E { s with reqId := e.1.id } j e.1.type e.1.id e.2) (y : Bytes) :
    (fileOf e.2.st y).map (·.fd) = grant opened (fun h => (fileOf s h).map (·.fd)) e y := by
  by_cases ht : e.1.type = 4
  · obtain ⟨h3, h4⟩ := shape_close_none hs ht
    rw [grant_none (granted_none hid h3 h4), (close_step h hE hw ht ho y).1]
    split <;> rfl
  · have hc := closing_none ht
    obtain ⟨r, o⟩ := e
    dsimp only at hs hid ho ht hc
    cases hs with
    | tame h1 _ h2 h3 h4 =>
      rw [grant_none (granted_none (e := (r, _)) hid h3 h4), hc, if_neg (by simp)]
      unfold fileOf
      dsimp only
      rw [h1.files]
    | @opened p st fl m fd h1 =>
      unfold grant
      rw [granted_handle (e := (r, _)) hid rfl]
      simp only [List.flatMap_cons, List.flatMap_nil, opened, List.append_nil, List.nil_append, fileOf, addFile, List.find?_cons]
      by_cases hy : y = encodeId s.nextId
      · rw [if_pos hy, decide_eq_true hy.symm]; rfl
      · rw [if_neg hy, decide_eq_false (fun h => hy h.symm)]
    | undone _ _ _ h3 h4 =>
      rw [grant_none (granted_none (e := (r, _)) hid h3 h4), hc, if_neg (by simp)]
      rfl
    | openedDir => rw [grant_empty (by rfl), hc, if_neg (by simp)]; rfl
    | undoneDir => rw [grant_empty (by rfl), hc, if_neg (by simp)]; rfl
    | closed h => exact absurd h ht
    | closedDir h => exact absurd h ht

theorem held_snoc : held (t ++ [e]) = grant opened (held t) e := by unfold held; rw [List.foldl_append]; rfl
theorem heldDir_snoc : heldDir (t ++ [e]) = grant openedDir (heldDir t) e := by unfold heldDir; rw [List.foldl_append]; rfl

theorem trace_files (h0 : Fresh s0 d j) (h : Trace s0 t s) (hl : t.length < 2 ^ 64) (y : Bytes) : (fileOf s y).map (·.fd) = held t y := by
  induction h generalizing y with
  | nil => unfold fileOf held; rw [h0.noFiles]; rfl
  | @snoc t s' r o hT hE hid hb ho ih =>
    simp only [List.length_append, List.length_cons, List.length_nil, Nat.zero_add] at hl
    have hi := trace_inv h0 hT (by omega)
    obtain ⟨d', hd⟩ := hi.dirs
    obtain ⟨o', h1, h2⟩ := handle_shape (type := r.type) (id := r.id) hE hd hi.held r.body hb
    rw [ho] at h1
    cases h1
    rw [held_snoc, ← show (fun h => (fileOf s' h).map (·.fd)) = held t from funext fun h => ih (by omega) h]
    exact file_step (e := (r, o)) hi hE hid hb ho h2 y

theorem next_new (h : Inv j n s) : dirOf s (encodeId s.nextId) = none ∧ fileOf s (encodeId s.nextId) = none := by
  refine ⟨?_, ?_⟩
  · unfold dirOf
    rw [List.find?_eq_none]
    intro x hx he
    rw [decide_eq_true_eq] at he
    have := encodeId_inj (h.held.ids.dirs x hx) h.held.ids.next he
    have := h.old x.id (List.mem_append_right _ (List.mem_map_of_mem hx))
    simp_all
  · unfold fileOf
    rw [List.find?_eq_none]
    intro x hx he
    rw [decide_eq_true_eq] at he
    have := encodeId_inj (h.held.ids.files x hx) h.held.ids.next he
    have := h.old x.id (List.mem_append_left _ (List.mem_map_of_mem hx))
    simp_all

theorem same_dirOf {s s' : Sess} (h : Same s s') (y : Bytes) : (dirOf s' y).map (·.dir) = (dirOf s y).map (·.dir) := by
  have key : ∀ (l : List DirH), (l.find? fun f => decide (encodeId f.id = y)).map (·.dir) =
      ((l.map fun x => (x.dir, x.name, x.id)).find? fun x => decide (encodeId x.2.2 = y)).map (·.1) := by
    intro l
    rw [List.find?_map, Option.map_map]
    rfl
  unfold dirOf
  rw [key, key, h.dirs]

/-- The directories of the session after a request. -/
theorem dir_step (h : Inv j n s) (hE : Good e.1.E) (hid : e.1.id < 2 ^ 32) (hw : e.1.body.length < 2 ^ 32)
    (ho : handle e.1.E s e.1.type e.1.id e.1.body = some e.2) (hs : Shape e.1.E { s with reqId := e.1.id } j e.1.type e.1.id e.2) (y : Bytes) :
    (dirOf e.2.st y).map (·.dir) = grant openedDir (fun h => (dirOf s h).map (·.dir)) e y ∨
    y = encodeId s.nextId ∧ ¬ Rich e.1.E ∧ grant openedDir (fun h => (dirOf s h).map (·.dir)) e y = none := by
  by_cases ht : e.1.type = 4
  · obtain ⟨h3, h4⟩ := shape_close_none hs ht
    rw [grant_none (granted_none hid h3 h4), (close_step h hE hw ht ho y).2]
    left
    split <;> rfl
  · have hc := closing_none ht
    obtain ⟨r, o⟩ := e
    dsimp only at hs hid ho ht hc
    cases hs with
    | tame h1 _ h2 h3 h4 =>
      rw [grant_none (granted_none (e := (r, _)) hid h3 h4), hc, if_neg (by simp)]
      left
      exact same_dirOf h1 y
    | opened => rw [grant_empty (by rfl), hc, if_neg (by simp)]; exact .inl rfl
    | undone => rw [grant_empty (by rfl), hc, if_neg (by simp)]; exact .inl rfl
    | openedDir h1 h2 h3 h4 =>
      rcases h4 with ⟨rfl, hR⟩ | rfl
      · rw [grant_none (by rfl), hc, if_neg (by simp)]
        by_cases hy : y = encodeId s.nextId
        · refine .inr ⟨hy, hR, ?_⟩
          rw [hy, (next_new h).1]; rfl
        · left
          simp only [dirOf, addDir, List.find?_cons]
          rw [decide_eq_false (fun h => hy h.symm)]
      · left
        unfold grant
        rw [granted_handle (e := (r, _)) hid rfl]
        simp only [List.flatMap_cons, List.flatMap_nil, openedDir, List.append_nil, dirOf, addDir, List.find?_cons]
        by_cases hy : y = encodeId s.nextId
        · rw [if_pos hy, decide_eq_true hy.symm]; rfl
        · rw [if_neg hy, decide_eq_false (fun h => hy h.symm)]
    | undoneDir => rw [grant_none (by rfl), hc, if_neg (by simp)]; exact .inl rfl
    | closed h => exact absurd h ht
    | closedDir h => exact absurd h ht

theorem grant_le {new : Posix.Call → List Nat} {m m' : Bytes → Option Nat} (h : ∀ y v, m y = some v → m' y = some v) (y : Bytes) (v : Nat)
    (hg : grant new m e y = some v) : grant new m' e y = some v := by
  have key : ∀ y v, (if closing e = some y then none else m y) = some v → (if closing e = some y then none else m' y) = some v := by
    intro y v hg
    split at hg
    · cases hg
    · rename_i hc; rw [if_neg hc]; exact h y v hg
  unfold grant at hg ⊢
  cases hgr : granted e with
  | none => rw [hgr] at hg; exact key y v hg
  | some x =>
    rw [hgr] at hg
    cases hf : e.2.calls.flatMap new with
    | nil => rw [hf] at hg; exact key y v hg
    | cons fd l =>
      rw [hf] at hg
      dsimp only at hg ⊢
      split at hg
      · rename_i hy; rw [if_pos hy]; exact hg
      · rename_i hy; rw [if_neg hy]; exact h y v hg

theorem trace_dirs (h0 : Fresh s0 d j) (h : Trace s0 t s) (hl : t.length < 2 ^ 64) :
    (∀ y v, heldDir t y = some v → (dirOf s y).map (·.dir) = some v) ∧
    ((∀ e ∈ t, Rich e.1.E) → ∀ y, (dirOf s y).map (·.dir) = heldDir t y) := by
  induction h with
  | nil => exact ⟨fun y v hv => (by cases hv), fun _ y => (by unfold dirOf heldDir; rw [h0.noDirs]; rfl)⟩
  | @snoc t s' r o hT hE hid hb ho ih =>
    simp only [List.length_append, List.length_cons, List.length_nil, Nat.zero_add] at hl
    have hi := trace_inv h0 hT (by omega)
    obtain ⟨d', hd⟩ := hi.dirs
    obtain ⟨o', h1, h2⟩ := handle_shape (type := r.type) (id := r.id) hE hd hi.held r.body hb
    rw [ho] at h1
    cases h1
    obtain ⟨ih1, ih2⟩ := ih (by omega)
    rw [heldDir_snoc]
    refine ⟨fun y v hv => ?_, fun hR y => ?_⟩
    · have hv' := grant_le ih1 y v hv
      rcases dir_step (e := (r, o)) hi hE hid hb ho h2 y with hh | ⟨_, _, hh⟩
      · rw [hh]; exact hv'
      · rw [hh] at hv'; cases hv'
    · have ih3 := ih2 fun e he => hR e (by simp [he])
      rw [← show (fun h => (dirOf s' h).map (·.dir)) = heldDir t from funext ih3]
      rcases dir_step (e := (r, o)) hi hE hid hb ho h2 y with hh | ⟨_, hh, _⟩
      · exact hh
      · exact absurd (hR (r, o) (by simp)) hh

/-- No handle is given twice. -/
theorem shape_granted {E : Env} {type id : Nat} {o : Out} {r : Req} (hs : Shape E s j type id o) (hid : id < 2 ^ 32) (hr : r.id = id) :
    granted (r, o) = none ∨ granted (r, o) = some (encodeId s.nextId) ∧ o.st.nextId = succId s.nextId := by
  subst hr
  cases hs with
  | tame _ _ _ h3 h4 => exact .inl (granted_none (e := (r, _)) hid h3 h4)
  | opened => exact .inr ⟨granted_handle (e := (r, _)) hid rfl, rfl⟩
  | undone _ _ _ h3 h4 => exact .inl (granted_none (e := (r, _)) hid h3 h4)
  | openedDir _ _ _ h =>
    rcases h with ⟨rfl, _⟩ | rfl
    · exact .inl rfl
    · exact .inr ⟨granted_handle (e := (r, _)) hid rfl, rfl⟩
  | undoneDir => exact .inl rfl
  | closed _ _ h3 h4 => exact .inl (granted_none (e := (r, _)) hid h3 h4)
  | closedDir _ _ h3 h4 => exact .inl (granted_none (e := (r, _)) hid h3 h4)

theorem shape_next {E : Env} {type id : Nat} {o : Out} (hs : Shape E s j type id o) : o.st.nextId = s.nextId ∨ o.st.nextId = succId s.nextId := by
  cases hs with
  | tame h => exact .inl h.next
  | opened => exact .inr rfl
  | undone => exact .inr rfl
  | openedDir => exact .inr rfl
  | _ => exact .inl rfl

theorem trace_unique (h0 : Fresh s0 d j) (h : Trace s0 t s) (hl : t.length < 2 ^ 64) :
    (t.filterMap granted).Nodup ∧ ∀ x ∈ t.filterMap granted, ∃ i, Spec.Sftp.Id i ∧ x = encodeId i ∧ num i < num s.nextId := by
  induction h with
  | nil => simp
  | @snoc t s' r o hT hE hid hb ho ih =>
    simp only [List.length_append, List.length_cons, List.length_nil, Nat.zero_add] at hl
    have hi := trace_inv h0 hT (by omega)
    obtain ⟨d', hd⟩ := hi.dirs
    obtain ⟨o', h1, h2⟩ := handle_shape (type := r.type) (id := r.id) hE hd hi.held r.body hb
    rw [ho] at h1
    cases h1
    obtain ⟨ih1, ih2⟩ := ih (by omega)
    have hnx := hi.next
    obtain ⟨hsid, hnum⟩ := succId_num hi.held.ids.next (by omega)
    have hge : num s'.nextId ≤ num o.st.nextId := by
      rcases shape_next h2 with h | h
      · rw [h]; exact Nat.le_refl _
      · rw [h]; dsimp only; omega
    have hold : ∀ x ∈ t.filterMap granted, ∃ i, Spec.Sftp.Id i ∧ x = encodeId i ∧ num i < num o.st.nextId := fun x hx => by
      obtain ⟨i, a, b, c⟩ := ih2 x hx; exact ⟨i, a, b, by omega⟩
    rw [List.filterMap_append]
    rcases shape_granted (r := r) h2 hid rfl with hg | ⟨hg, hn⟩
    · rw [show [(r, o)].filterMap granted = [] by simp [hg], List.append_nil]
      exact ⟨ih1, hold⟩
    · rw [show [(r, o)].filterMap granted = [encodeId s'.nextId] by simp [hg]]
      refine ⟨?_, ?_⟩
      · rw [List.nodup_append]
        refine ⟨ih1, by simp, ?_⟩
        intro x hx y hy he
        simp only [List.mem_singleton] at hy
        obtain ⟨i, a, b, c⟩ := ih2 x hx
        rw [he, hy] at b
        have := encodeId_inj hi.held.ids.next a b
        rw [this] at c
        omega
      · intro x hx
        rcases List.mem_append.1 hx with hx | hx
        · exact hold x hx
        · simp only [List.mem_singleton] at hx
          exact ⟨s'.nextId, hi.held.ids.next, hx, by rw [hn]; dsimp only; omega⟩

/-- Descriptors opened, closed, open. -/
theorem erase_perm {α β : Type} (f : α → β) (p : α → Bool) : ∀ (l : List α) (x : α), l.find? p = some x → List.Perm (l.map f) (f x :: (l.eraseP p).map f)
  | a :: l, x, h => by
    rw [List.find?_cons] at h
    rw [List.eraseP_cons]
    cases hp : p a with
    | true => rw [hp] at h; cases h; exact List.Perm.refl _
    | false =>
      rw [hp] at h
      simp only [cond_false, List.map_cons]
      exact ((erase_perm f p l x h).cons _).trans (List.Perm.swap ..)

theorem trace_balance (h0 : Fresh s0 d j) (h : Trace s0 t s) (hl : t.length < 2 ^ 64) :
    List.Perm ((callsOf t).flatMap opened) ((callsOf t).flatMap closed ++ s.files.map (·.fd)) ∧
    List.Perm ((callsOf t).flatMap openedDir) ((callsOf t).flatMap closedDir ++ s.dirs.map (·.dir)) := by
  induction h with
  | nil => simp [callsOf, h0.noFiles, h0.noDirs]
  | @snoc t s' r o hT hE hid hb ho ih =>
    simp only [List.length_append, List.length_cons, List.length_nil, Nat.zero_add] at hl
    have hi := trace_inv h0 hT (by omega)
    obtain ⟨d', hd⟩ := hi.dirs
    obtain ⟨o', h1, h2⟩ := handle_shape (type := r.type) (id := r.id) hE hd hi.held r.body hb
    rw [ho] at h1
    cases h1
    obtain ⟨ih1, ih2⟩ := ih (by omega)
    have hcalls : callsOf (t ++ [(r, o)]) = callsOf t ++ o.calls := by simp [callsOf]
    rw [hcalls]
    simp only [List.flatMap_append]
    clear ih hcalls ho
    cases h2 with
    | tame h1 _ h2 _ _ =>
      obtain ⟨a, b, c, f⟩ := tame_flat _ h2
      dsimp only
      rw [a, b, c, f, h1.files, same_dirs h1]
      simp only [List.append_nil]
      exact ⟨ih1, ih2⟩
    | opened =>
      simp only [List.flatMap_cons, List.flatMap_nil, opened, closed, openedDir, closedDir, List.append_nil, List.nil_append, addFile, List.map_cons]
      refine ⟨?_, ih2⟩
      exact ((ih1.append_right _).trans (by rw [List.append_assoc]; exact List.Perm.append_left _ List.perm_append_comm))
    | @undone _ _ _ _ _ fd _ _ =>
      simp only [List.flatMap_cons, List.flatMap_nil, opened, closed, openedDir, closedDir, List.append_nil, List.nil_append, skipId]
      refine ⟨?_, ih2⟩
      refine (ih1.append_right _).trans ?_
      rw [List.append_assoc, List.append_assoc]
      exact List.Perm.append_left _ List.perm_append_comm
    | openedDir =>
      simp only [List.flatMap_cons, List.flatMap_nil, opened, closed, openedDir, closedDir, List.append_nil, addDir, List.map_cons]
      refine ⟨ih1, ?_⟩
      exact ((ih2.append_right _).trans (by rw [List.append_assoc]; exact List.Perm.append_left _ List.perm_append_comm))
    | undoneDir =>
      simp only [List.flatMap_cons, List.flatMap_nil, opened, closed, openedDir, closedDir, List.append_nil, List.nil_append]
      refine ⟨ih1, ?_⟩
      refine (ih2.append_right _).trans ?_
      rw [List.append_assoc, List.append_assoc]
      exact List.Perm.append_left _ List.perm_append_comm
    | closed _ hf =>
      simp only [List.flatMap_cons, List.flatMap_nil, opened, closed, openedDir, closedDir, List.append_nil, dropFile]
      refine ⟨?_, ih2⟩
      refine ih1.trans ?_
      rw [List.append_assoc]
      exact List.Perm.append_left _ (erase_perm (fun f : FileH => f.fd) _ _ _ hf)
    | closedDir _ hf =>
      simp only [List.flatMap_cons, List.flatMap_nil, opened, closed, openedDir, closedDir, List.append_nil, dropDir]
      refine ⟨ih1, ?_⟩
      refine ih2.trans ?_
      rw [List.append_assoc]
      exact List.Perm.append_left _ (erase_perm (fun f : DirH => f.dir) _ _ _ hf)

end Proofs.Sftp
