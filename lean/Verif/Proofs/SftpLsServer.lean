import Verif.Spec.SftpLsServer
import Verif.Proofs.SftpLsRun
import Verif.Props.SftpIo
/-!
# What the server says to the requests of a listing
-/

namespace Proofs.SftpLs
open Wolf Spec.Wire Spec.Sftp Spec.Path Spec.SftpLs Proofs.Sftp
open Wolf.Sftp (encodeId setEof realCalls)

theorem succId_id (i : Nat × Nat) (h : Spec.Sftp.Id i) : Spec.Sftp.Id (succId i) := by
  obtain ⟨h1, h2⟩ := h
  unfold succId Path.addAssign64 Spec.Sftp.Id add32
  simp only
  split <;> constructor <;> omega

/-- The path the server gives for a name stands for the same directory. -/
theorem verdict_render {d j : Option (List Bytes)} {isLink : Bytes → Bool} {p : Bytes} {q : List Bytes} (hq : ∀ c ∈ q, Spec.Path.Name c)
    (h : verdict d j isLink p = .admit q) : verdict d j isLink (render q) = .admit q := by
  obtain ⟨_, hc, hl, _⟩ := verdict_admit h
  have h0 : (render q).takeWhile (· ≠ 0) = render q := by
    have := Proofs.Path.takeWhile_all (p := (· ≠ 0)) (render q)
      (fun b hb => by simpa using fun e : b = 0 => Proofs.Path.render_no_zero hq (e ▸ hb)) []
    simpa using this
  obtain ⟨r, hr⟩ := render_cons q
  have hst : start (d.getD []) (render q) = [] := by rw [hr]; exact start_abs _ _
  have ht : target d (render q) = q := by
    unfold target
    rw [h0, hst, components_render q hq, resolve_id q [] hq]
    rfl
  unfold verdict
  have hsh : Short d (render q) := by
    refine ⟨hl, fun k => ?_⟩
    rw [h0, hst]
    have := absolute_fits r 256 (by rw [← hr]; exact hl) k (by omega)
    rw [← hr] at this
    exact this
  rw [if_pos hsh, ht, if_pos hc]

theorem string_one (p : Bytes) (h : p.length < 2 ^ 32) : string (encString p) = some (p, []) := by
  have := Proofs.Exchange.string_enc p [] h
  rwa [List.append_nil] at this

theorem enc_four (p : Bytes) : (encString p).length = p.length + 4 := by simp [encString, encUint32]

theorem ans_rich {E : Sftp.Env} (hr : Rich E) (s : Sftp.Sess) (calls : List Posix.Call) (id : Nat) (r : Reply) (ret : Option Err) :
    ans E s calls id r ret = ⟨ret, s, calls, some (r.packet id)⟩ := by
  unfold ans mem
  rw [if_pos (hr.alloc _)]

theorem dirOf_head (s : Sftp.Sess) (x : Sftp.DirH) (l : List Sftp.DirH) (h : s.dirs = x :: l) : dirOf s (encodeId x.id) = some x := by
  unfold dirOf
  rw [h, List.find?_cons_of_pos]
  simp

theorem answers_step {s s' : Sftp.Sess} {E : Sftp.Env} {id : Nat} {r : Request} {l : List (Sftp.Env × Nat × Request)} {p q : Bytes} {o : Sftp.Out}
    (h1 : Sftp.handle E s r.type id (encString r.arg) = some o) (h2 : o.reply = some p) (h3 : answers o.st l = some (q, s')) :
    answers s ((E, id, r) :: l) = some (p ++ q, s') := by
  simp only [answers, h1, Option.bind_some, h2, h3, Option.map_some]

/-- The directory `q`, as the server shows it. -/
def shownDir (s : Sftp.Sess) (E : Sftp.Env) (q : List Bytes) (long : Bytes → Bytes) : Dir where
  full := (render q, render q, {})
  handle := encodeId s.nextId
  pages := if E.entries = [] then [] else [Props.Sftp.entries E q long]
  code := 1
  stop := (NameList.asc "No More Files In Directory", Wolf.Sftp.english)
  bye := (NameList.asc "Closed File", Wolf.Sftp.english)

variable {d j : Option (List Bytes)} {t : List Event} {s : Sftp.Sess}

theorem serve_realpath (hs : Dirs s d j) {E : Sftp.Env} (hE : Good E) (hr : Rich E) {cs : List Bytes} (h1 : startDir d E.cwd = some cs)
    (h2 : cwdShort d E.cwd) {dir : Bytes} (h3 : Short (some cs) dir) (id : Nat) :
    ∃ o, Sftp.handle E s 16 id (encString dir) = some o ∧
      o.reply = some ((Reply.names [(render (target (some cs) dir), render (target (some cs) dir), {})]).packet id) ∧
      o.st = { s with reqId := id, default := some (render cs) } ∧ o.calls = realCalls E { s with reqId := id } := by
  have hd : Dirs { s with reqId := id } d j := ⟨hs.1, hs.2, hs.3, hs.4⟩
  have hl := h3.1
  have := realpath_eq hE hd id (encString dir) (by rw [enc_four]; omega)
  rw [string_one dir (by omega)] at this
  dsimp only at this
  rw [if_neg (by omega), if_pos h2, h1] at this
  dsimp only at this
  rw [if_pos h3, if_pos (by unfold mem; rw [hr.alloc]; rfl)] at this
  exact ⟨_, this, rfl, rfl, rfl⟩

theorem serve_opendir (hs : Dirs s d j) {E : Sftp.Env} (hE : Good E) (hr : Rich E) {p : Bytes} {q : List Bytes} (hp : p.length < 2 ^ 31)
    (hv : verdict d j E.isLink p = .admit q) (hn : s.dirs.length < 64) {fd : Nat} (hfd : E.fd = some fd) (id : Nat) :
    ∃ o, Sftp.handle E s 11 id (encString p) = some o ∧ o.reply = some ((Reply.handle (encodeId s.nextId)).packet id) ∧
      o.st = addDir { s with reqId := id } fd (render q) ∧ o.calls = [.opendir (render q) (some fd)] := by
  have hd : Dirs { s with reqId := id } d j := ⟨hs.1, hs.2, hs.3, hs.4⟩
  have := opendir_eq hE hd id rfl (encString p) (by rw [enc_four]; omega)
  rw [string_one p (by omega)] at this
  dsimp only at this
  rw [hv] at this
  dsimp only at this
  rw [if_neg (by omega), hfd] at this
  dsimp only at this
  rw [if_pos hr.node, ans_rich hr] at this
  exact ⟨_, this, rfl, rfl, rfl⟩

theorem serve_readdir (hs : Dirs s d j) (hi : Ids s) (hdn : ∀ x ∈ s.dirs, ∃ cs, x.name = render cs ∧ ∀ c ∈ cs, Spec.Path.Name c)
    {E : Sftp.Env} (hE : Good E) (hr : Rich E) {x : Sftp.DirH} {l : List Sftp.DirH} (hx : s.dirs = x :: l) (id : Nat) :
    ∃ o, Sftp.handle E s 12 id (encString (encodeId x.id)) = some o ∧
      ((x.isEof = true ∨ (listing E x.dir (components x.name) E.entries).1 = []) →
        o.reply = some ((Reply.status 1 (NameList.asc "No More Files In Directory") Wolf.Sftp.english).packet id) ∧
        o.st = { s with reqId := id }) ∧
      ((x.isEof = false ∧ (listing E x.dir (components x.name) E.entries).1 ≠ []) →
        o.reply = some ((Reply.names ((listing E x.dir (components x.name) E.entries).1.reverse.map toName)).packet id) ∧
        o.st = setEof { s with reqId := id } x.id) := by
  have hd : Dirs { s with reqId := id } d j := ⟨hs.1, hs.2, hs.3, hs.4⟩
  have := readdir_eq hE hd ⟨hi.1, hi.2, hi.3⟩ hdn id (encString (encodeId x.id)) (by rw [enc_four, encodeId_length]; omega)
  rw [string_one _ (by rw [encodeId_length]; omega)] at this
  dsimp only at this
  rw [if_neg (by rw [encodeId_length]; omega), dirOf_head { s with reqId := id } x l hx] at this
  dsimp only at this
  refine ⟨_, this, ?_, ?_⟩
  · intro h
    by_cases he : x.isEof = true
    · rw [if_pos he, ans_rich hr]; exact ⟨rfl, rfl⟩
    · rw [if_neg he, if_pos (h.resolve_left he), ans_rich hr]; exact ⟨rfl, rfl⟩
  · rintro ⟨h1, h2⟩
    rw [if_neg (by rw [h1]; decide), if_neg h2, ans_rich hr]; exact ⟨rfl, rfl⟩

theorem serve_close (hi : Ids s) {E : Sftp.Env} (hE : Good E) (hr : Rich E) {x : Sftp.DirH} {l : List Sftp.DirH} (hx : s.dirs = x :: l) (id : Nat) :
    ∃ o, Sftp.handle E s 4 id (encString (encodeId x.id)) = some o ∧
      o.reply = some ((Reply.status 0 (NameList.asc "Closed File") Wolf.Sftp.english).packet id) ∧ o.calls = [.closedir x.dir] ∧
      o.st = dropDir { s with reqId := id } (encodeId x.id) := by
  have := close_eq (s := { s with reqId := id }) hE ⟨hi.1, hi.2, hi.3⟩ id (encString (encodeId x.id)) (by rw [enc_four, encodeId_length]; omega)
  rw [string_one _ (by rw [encodeId_length]; omega)] at this
  dsimp only at this
  rw [if_neg (by rw [encodeId_length]; omega), dirOf_head { s with reqId := id } x l hx] at this
  dsimp only at this
  rw [ans_rich hr] at this
  exact ⟨_, this, rfl, rfl, rfl⟩

theorem setEof_rest {s : Sftp.Sess} {x : Sftp.DirH} {l : List Sftp.DirH} (hx : s.dirs = x :: l) (hn : ∀ y ∈ l, y.id ≠ x.id) :
    (setEof s x.id).dirs = { x with isEof := true } :: l := by
  unfold setEof
  rw [hx, List.map_cons, if_pos rfl]
  have : l.map (fun d => if d.id = x.id then { d with isEof := true } else d) = l.map fun d => d :=
    List.map_congr_left fun y hy => if_neg (hn y hy)
  rw [this]
  simp

theorem dropDir_rest {s : Sftp.Sess} {x : Sftp.DirH} {l : List Sftp.DirH} (hx : s.dirs = x :: l) : (dropDir s (encodeId x.id)).dirs = l := by
  unfold dropDir
  rw [hx, List.eraseP_cons_of_pos (by simp)]

/-- The requests of a listing are answered, and afterwards the server has the same directories open as before. -/
theorem serve_all (hR : Reached d j t s) {E1 E2 E3 E4 E5 : Sftp.Env} (hE1 : Good E1) (hr1 : Rich E1) (hE2 : Good E2) (hr2 : Rich E2)
    (hE3 : Good E3) (hr3 : Rich E3) (hE4 : Good E4) (hr4 : Rich E4) (hE5 : Good E5) (hr5 : Rich E5) {cs q : List Bytes} {dir : Bytes}
    (hcs : startDir d E1.cwd = some cs) (hw : cwdShort d E1.cwd) (hv : verdict (some cs) j E2.isLink dir = .admit q)
    (hn : s.dirs.length < 64) {fd : Nat} (hfd : E2.fd = some fd) (long : Bytes → Bytes) (hlong : ∀ n a, E3.longName n a = some (long n))
    (hshort : ∀ n ∈ E3.entries, (render q).length + 1 + n.length < 256) (id : Nat) :
    ∃ s', answers s ([E1, E2, E3, E4, E5].zip (questions dir (render q) (encodeId s.nextId) (shownDir s E3 q long).pages.length id)) =
        some ((shownDir s E3 q long).says id, s') ∧ s'.dirs = s.dirs ∧ s'.files = s.files := by
  obtain ⟨hq0, hconf, hlen, hsh⟩ := verdict_admit hv
  have hcsn : ∀ c ∈ cs, Spec.Path.Name c := by
    rcases realStart_eq hE1 hR.dirs with ⟨cs', g1, _, g3, _⟩ | ⟨g1, _⟩
    · rw [hcs] at g1; cases g1; exact g3
    · exact absurd (And.intro (by rw [hcs]; exact fun h => nomatch h) hw) g1
  have hqn : ∀ c ∈ q, Spec.Path.Name c := by rw [hq0]; exact target_names (by intro c h; cases h; exact hcsn) dir
  have hI := Props.Sftp.inv hR
  -- REALPATH
  obtain ⟨o1, a1, b1, c1, _⟩ := serve_realpath hR.dirs hE1 hr1 hcs hw hsh id
  rw [← hq0] at b1
  have hd1 : Dirs o1.st (some cs) j := by
    rw [c1]; exact ⟨rfl, hR.dirs.2, by intro x h; cases h; exact hcsn, hR.dirs.4⟩
  -- OPENDIR
  obtain ⟨o2, a2, b2, c2, _⟩ := serve_opendir hd1 hE2 hr2 (by omega) (verdict_render hqn hv) (by rw [c1]; exact hn) hfd (next id)
  have hnx : o1.st.nextId = s.nextId := by rw [c1]
  rw [hnx] at b2
  have hx2 : o2.st.dirs = ⟨fd, render q, false, s.nextId⟩ :: s.dirs := by rw [c2, c1]; rfl
  have hf2 : o2.st.files = s.files := by rw [c2, c1]; rfl
  have hd2 : Dirs o2.st (some cs) j := by rw [c2]; exact ⟨hd1.1, hd1.2, hd1.3, hd1.4⟩
  have hi2 : Ids o2.st := by
    refine ⟨by rw [hf2]; exact hI.held.ids.files, ?_, by rw [c2, c1]; exact succId_id _ hI.held.ids.next⟩
    rw [hx2]
    intro f hf
    rcases List.mem_cons.1 hf with rfl | hf
    · exact hI.held.ids.next
    · exact hI.held.ids.dirs f hf
  have hm2 : ∀ x ∈ o2.st.dirs, ∃ cs, x.name = render cs ∧ ∀ c ∈ cs, Spec.Path.Name c := by
    rw [hx2]
    intro f hf
    rcases List.mem_cons.1 hf with rfl | hf
    · exact ⟨q, rfl, hqn⟩
    · exact hI.held.names f hf
  have hne : ∀ y ∈ s.dirs, y.id ≠ s.nextId := by
    intro y hy he
    have := hI.old y.id (List.mem_append_right _ (List.mem_map_of_mem hy))
    rw [he] at this
    omega
  -- READDIR
  obtain ⟨o3, a3, b3, c3⟩ := serve_readdir hd2 hi2 hm2 hE3 hr3 hx2 (next (next id))
  have hcomp : components (render q) = q := components_render q hqn
  have hl := Props.Sftp.listing_all (dir := fd) (cs := q) hlong E3.entries hshort
  have hnil : (listing E3 fd (components (render q)) E3.entries).1 = [] ↔ E3.entries = [] := by
    rw [hcomp, ← List.map_eq_nil_iff (f := toName), hl, List.map_eq_nil_iff]
  have hrev : (listing E3 fd (components (render q)) E3.entries).1.reverse.map toName = Props.Sftp.entries E3 q long := by
    rw [List.map_reverse, hcomp, hl]; rfl
  by_cases hn0 : E3.entries = []
  · obtain ⟨e1, e2⟩ := b3 (.inr (hnil.2 hn0))
    have hx3 : o3.st.dirs = ⟨fd, render q, false, s.nextId⟩ :: s.dirs := by rw [e2]; exact hx2
    obtain ⟨o4, a4, b4, _, c4⟩ := serve_close (s := o3.st) (by rw [e2]; exact ⟨hi2.1, hi2.2, hi2.3⟩) hE4 hr4 hx3 (next (next id))
    refine ⟨o4.st, ?_, ?_, ?_⟩
    · have hp : (shownDir s E3 q long).pages = [] := if_pos hn0
      rw [hp]
      simp only [List.length_nil, questions, readings, List.zip_cons_cons, List.zip_nil_right]
      have h4 : answers o4.st [] = some ([], o4.st) := rfl
      have := answers_step (r := .realpath dir) a1 b1 (answers_step (r := .opendir (render q)) a2 b2
        (answers_step (r := .readdir (encodeId s.nextId)) a3 e1 (answers_step (r := .close (encodeId s.nextId)) a4 b4 h4)))
      rw [this, Dir.says, hp, Dir.rest]
      simp [shownDir]
    · rw [c4]; exact dropDir_rest (s := { o3.st with reqId := _ }) hx3
    · rw [c4, e2]; exact hf2
  · obtain ⟨e1, e2⟩ := c3 ⟨rfl, fun h => hn0 (hnil.1 h)⟩
    rw [hrev] at e1
    have hx3 : o3.st.dirs = ⟨fd, render q, true, s.nextId⟩ :: s.dirs := by rw [e2]; exact setEof_rest (s := { o2.st with reqId := _ }) hx2 hne
    have hf3 : o3.st.files = s.files := by rw [e2]; exact hf2
    have hi3 : Ids o3.st := by
      refine ⟨by rw [hf3]; exact hI.held.ids.files, ?_, by rw [e2]; exact hi2.3⟩
      rw [hx3]
      intro f hf
      rcases List.mem_cons.1 hf with rfl | hf
      · exact hI.held.ids.next
      · exact hI.held.ids.dirs f hf
    have hm3 : ∀ x ∈ o3.st.dirs, ∃ cs, x.name = render cs ∧ ∀ c ∈ cs, Spec.Path.Name c := by
      rw [hx3]
      intro f hf
      rcases List.mem_cons.1 hf with rfl | hf
      · exact ⟨q, rfl, hqn⟩
      · exact hI.held.names f hf
    have hd3 : Dirs o3.st (some cs) j := by rw [e2]; exact ⟨hd2.1, hd2.2, hd2.3, hd2.4⟩
    obtain ⟨o4, a4, b4, _⟩ := serve_readdir hd3 hi3 hm3 hE4 hr4 hx3 (next (next (next id)))
    obtain ⟨f1, f2⟩ := b4 (.inl rfl)
    have hx4 : o4.st.dirs = ⟨fd, render q, true, s.nextId⟩ :: s.dirs := by rw [f2]; exact hx3
    obtain ⟨o5, a5, b5, _, c5⟩ := serve_close (s := o4.st) (by rw [f2]; exact ⟨hi3.1, hi3.2, hi3.3⟩) hE5 hr5 hx4 (next (next (next id)))
    refine ⟨o5.st, ?_, ?_, ?_⟩
    · have hp : (shownDir s E3 q long).pages = [Props.Sftp.entries E3 q long] := if_neg hn0
      rw [hp]
      simp only [List.length_cons, List.length_nil, questions, readings, List.zip_cons_cons, List.zip_nil_right]
      have h4 : answers o5.st [] = some ([], o5.st) := rfl
      have := answers_step (r := .realpath dir) a1 b1 (answers_step (r := .opendir (render q)) a2 b2
        (answers_step (r := .readdir (encodeId s.nextId)) a3 e1 (answers_step (r := .readdir (encodeId s.nextId)) a4 f1
          (answers_step (r := .close (encodeId s.nextId)) a5 b5 h4))))
      rw [this, Dir.says, hp, Dir.rest, Dir.rest]
      simp [shownDir]
    · rw [c5]; exact dropDir_rest (s := { o4.st with reqId := _ }) hx4
    · rw [c5, f2]; exact hf3

theorem asked_eq (D : Dir) (dir : Bytes) (id : Nat) : D.asked dir id = packets (questions dir D.full.1 D.handle D.pages.length id) := by
  have : ∀ (l : List (List (Bytes × Bytes × Attrs))) (id : Nat), D.reads id l = packets (readings D.handle l.length id) := by
    intro l
    induction l with
    | nil => intro id; simp [Dir.reads, readings, Spec.SftpLs.packets]
    | cons a l ih => intro id; simp [Dir.reads, readings, Spec.SftpLs.packets, ih]
  simp [Dir.asked, questions, Spec.SftpLs.packets, this]

theorem shown_ok {E : Sftp.Env} (hE : Good E) {q : List Bytes} (hq : (render q).length < 256) (long : Bytes → Bytes)
    (hlong : ∀ n a, E.longName n a = some (long n)) (hshort : ∀ n ∈ E.entries, (render q).length + 1 + n.length < 256)
    (hbig : (Reply.names (Props.Sftp.entries E q long)).body.length ≤ 2 ^ 20) : (shownDir s E q long).Ok := by
  have hl := Props.Sftp.listing_all (dir := 0) (cs := q) hlong E.entries hshort
  have hrev : (listing E 0 q E.entries).1.reverse.map toName = Props.Sftp.entries E q long := by
    rw [List.map_reverse, hl]; rfl
  have hf := names_fits hE 0 q
  rw [hrev] at hf
  refine ⟨?_, ⟨?_, ?_⟩, ?_, ?_, ⟨Nat.le_refl 1, (by decide : 1 ≤ 8)⟩, by simp only [shownDir]; decide, by simp only [shownDir]; decide⟩
  · obtain ⟨p, hp⟩ := render_cons q
    simp [shownDir, hp]
  · simp [shownDir, Attrs.Fits]
  · simp only [shownDir, Reply.body, List.flatMap_cons, List.flatMap_nil, encName, List.length_append, enc_four]
    have : (encAttrs {}).length = 4 := by decide
    have h4 : ∀ n, (encUint32 n).length = 4 := fun _ => rfl
    simp only [this, h4, List.length_nil]
    omega
  · show (encodeId s.nextId).length ≤ 256
    rw [encodeId_length]
    omega
  · intro l hl
    unfold shownDir at hl
    dsimp only at hl
    by_cases h0 : E.entries = []
    · rw [if_pos h0] at hl; cases hl
    · rw [if_neg h0] at hl
      simp only [List.mem_cons, List.not_mem_nil, or_false] at hl
      subst hl
      refine ⟨?_, hbig, hf.2⟩
      unfold Props.Sftp.entries
      simpa using h0

end Proofs.SftpLs
