import Verif.Proofs.SshdShell
/-!
# C133 and C134: the relay of a shell or command in wolfsshd
-/

namespace Props.SshdShell
open Wolf (Byte Bytes)
open Wolf.SshdShell Spec.SshdShell Proofs.SshdShell

/-- **C133 (partial).** Whatever the child writes and when, whatever the client sends, and however reads, sends and `select`
turn out: at any time the bytes sent to the client as stdout are the first of those the child wrote to it, none left out,
twice or out of order, and so for stderr. When the relay ends by itself everything the child wrote to stdout was sent, and
everything it wrote to stderr if at most 32768 bytes of that were left and these went out. Missing: more left on stderr is
lost (`C133_stderr_lost`); and when the relay is broken off output is lost, also without any failure (`C133_errno`), and what
was held back is passed over (`C133_gap`). -/
theorem C133_partial (pipes : Bool) (es : List Env) :
    (run pipes es {}).sentOut <+: (run pipes es {}).wroteOut ∧ (run pipes es {}).sentErr <+: (run pipes es {}).wroteErr ∧
    (∀ f, (run pipes es {}).held = [] → (run pipes es {}).dropped = false →
      (finish pipes (run pipes es {}) f).sentOut <+: (finish pipes (run pipes es {}) f).wroteOut ∧
      (finish pipes (run pipes es {}) f).sentErr <+: (finish pipes (run pipes es {}) f).wroteErr) ∧
    ((run pipes es {}).fate = some .done → ∀ f,
      (finish pipes (run pipes es {}) f).sentOut = (finish pipes (run pipes es {}) f).wroteOut ∧
      (pipes = true → f.errNonblock = true → (child (run pipes es {}) f.child).errPipe.length ≤ bufSz →
        Flushed f.errSends (child (run pipes es {}) f.child).errPipe →
        (finish pipes (run pipes es {}) f).sentErr = (finish pipes (run pipes es {}) f).wroteErr)) := by
  have h := reach pipes es
  generalize run pipes es {} = s at h ⊢
  rcases h with h | ⟨h1, _, h3, h4⟩
  · exact ⟨h.eqs.pre.out, h.eqs.pre.err, fun f hh _ => finish_pre h hh f, fun hd f => finish_all h hd f⟩
  · refine ⟨h1.out, h1.err, fun f _ hd => ?_, fun hd => ?_⟩
    · rw [h3] at hd; cases hd
    · rw [h4] at hd; cases hd

/-- Output on both, a send cut short and one that must wait, then the child is gone. -/
def runs : List Env :=
  [{ out := [1, 2, 3], err := [9], outSend := .sent 0 }, { resend := .again }, { out := [4], outRd := .got 0, err := [8] },
    { outEnd := true, running := false, running2 := false, errRd := .fail },
    { running := false, running2 := false, sel := .ok false true false }, { running := false }]

example : (run true runs {}).fate = some .done ∧ (run true runs {}).sentOut = [1, 2, 3, 4] ∧
    (run true runs {}).errPipe = [] ∧ (run true runs {}).sentErr = [9, 8] := by decide +kernel

-- In the middle of it: one byte was taken, and two are held.
example : (run true (runs.take 2) {}).sentOut = [1] ∧ (run true (runs.take 2) {}).held = [2, 3] := by decide +kernel

/-- Once the child is gone and the client's data was read, or has ended, the relay ends if the client takes what is sent:
whatever happened before. -/
theorem C133_ends (pipes : Bool) (es : List Env) (hf : (run pipes es {}).fate = none)
    (hc : (run pipes es {}).chan = [] ∨ (run pipes es {}).eof = true) (ho : (run pipes es {}).outOpen = false)
    (he : (run pipes es {}).errOpen = false) :
    ∃ n, (run pipes (List.replicate n gone) (run pipes es {})).fate = some .done := by
  have h := reach pipes es
  generalize run pipes es {} = s at h hf hc ho he ⊢
  have hl : s.held.length ≤ bufSz := by
    rcases h with h | ⟨_, h2, _, _⟩
    · exact h.aux.held
    · exact h2.held
  exact ⟨s.outPipe.length + 2, gone_ends pipes _ s (Nat.le_refl _) hf hl hc ho he⟩

example : (run true [{ out := [1, 2, 3], err := [9], outEnd := true, errEnd := true, outSend := .sent 0 }] {}).fate = none ∧
    (run true [{ out := [1, 2, 3], err := [9], outEnd := true, errEnd := true, outSend := .sent 0 }] {}).held = [2, 3] ∧
    (run true [{ out := [1, 2, 3], err := [9], outEnd := true, errEnd := true, outSend := .sent 0 }] {}).outOpen = false := by
  decide +kernel

theorem flush_one (b : Bytes) (hb : b.length ≤ 1000000) (hne : b ≠ []) (t : Nat) (rs : List (Send × Bool)) :
    flushOut (t + 1) ((.sent 1000000, false) :: rs) b = b := by
  cases b with
  | nil => exact absurd rfl hne
  | cons x xs =>
    show (x :: xs).take (took 1000000 (x :: xs).length) ++ flushOut t rs ((x :: xs).drop (took 1000000 (x :: xs).length)) = _
    have : took 1000000 (x :: xs).length = (x :: xs).length := by unfold took; omega
    rw [this, List.take_length, List.drop_length]
    cases t <;> simp [flushOut]

/-- The turns of a command that closes stdout and then writes to stderr. -/
def late (b : Bytes) : List Env :=
  [{ outEnd := true, sel := .ok false true false, running2 := false }, { err := b, errEnd := true, running := false }]

/-- A command that closes its stdout, writes to stderr and exits: the relay ends by itself and everything works, but only the
first 32768 bytes are sent. -/
theorem C133_stderr_lost (b : Bytes) (hb : bufSz < b.length) (f : Fin) (hf : f.child = {}) (hn : f.errNonblock = true)
    (hs : f.errSends = [(.sent 1000000, false)]) :
    (run true (late b) {}).fate = some .done ∧ (finish true (run true (late b) {}) f).wroteErr = b ∧
    (finish true (run true (late b) {}) f).sentErr = b.take bufSz ∧
    (finish true (run true (late b) {}) f).sentErr ≠ (finish true (run true (late b) {}) f).wroteErr := by
  have hr : run true (late b) {} = 
      { peer := false, outEmpty := true, outOpen := false, errOpen := false, errPipe := b, wroteErr := b, fate := some .done } := rfl
  have hne : b.take bufSz ≠ [] := by
    intro h
    have := congrArg List.length h
    rw [List.length_take, Nat.min_eq_left (Nat.le_of_lt hb)] at this
    cases this
  have h1 : (finish true (run true (late b) {}) f).sentErr = b.take bufSz := by
    rw [hr]
    unfold finish
    simp only [if_true, hn, hs, hf]
    have : [] ++ flushOut flushTries [(.sent 1000000, false)] (b.take bufSz) = b.take bufSz := by
      rw [List.nil_append]
      exact flush_one _ (Nat.le_trans (List.length_take_le _ _) (by decide)) hne 9 []
    cases f.outNonblock <;> exact this
  have h2 : (finish true (run true (late b) {}) f).wroteErr = b := by
    rw [hr]
    unfold finish
    simp only [if_true, hn, hs, hf]
    cases f.outNonblock <;> rfl
  refine ⟨rfl, h2, h1, ?_⟩
  rw [h1, h2]
  intro h
  have := congrArg List.length h
  rw [List.length_take, Nat.min_eq_left (Nat.le_of_lt hb)] at this
  omega

example : bufSz < (List.replicate 32769 (7 : Byte)).length := by rw [List.length_replicate]; decide

/-- The turn in which the child has written its output and exited, with `errno` left over from an earlier call. -/
def stale (b : Bytes) : Env := { out := b, outEnd := true, errEnd := true, running := false, running2 := false, errnoE := true }

/-- A command writes its output and exits, nothing fails: the end of stderr is taken for an error because `errno`, which that read
does not set, is left over from an earlier call. The relay is broken off, and only the first 32768 bytes of stdout are sent. -/
theorem C133_errno (b : Bytes) (hb : bufSz < b.length) (f : Fin) (hf : f.child = {}) (hn : f.outNonblock = true)
    (hs : f.outSends = [(.sent 1000000, false)]) :
    (run true [stale b] {}).fate = some .broke ∧ (run true [stale b] {}).dropped = false ∧
    (finish true (run true [stale b] {}) f).wroteOut = b ∧ (finish true (run true [stale b] {}) f).sentOut = b.take bufSz ∧
    (finish true (run true [stale b] {}) f).sentOut ≠ (finish true (run true [stale b] {}) f).wroteOut := by
  have hr : run true [stale b] {} = { outOpen := false, errOpen := false, outPipe := b, wroteOut := b, fate := some .broke } := rfl
  have hne : b.take bufSz ≠ [] := by
    intro h
    have := congrArg List.length h
    rw [List.length_take, Nat.min_eq_left (Nat.le_of_lt hb)] at this
    cases this
  have h1 : (finish true (run true [stale b] {}) f).sentOut = b.take bufSz := by
    rw [hr]
    unfold finish
    simp only [if_true, hn, hs, hf]
    have : [] ++ flushOut flushTries [(.sent 1000000, false)] (b.take bufSz) = b.take bufSz := by
      rw [List.nil_append]
      exact flush_one _ (Nat.le_trans (List.length_take_le _ _) (by decide)) hne 9 []
    cases f.errNonblock <;> exact this
  have h2 : (finish true (run true [stale b] {}) f).wroteOut = b := by
    rw [hr]
    unfold finish
    simp only [if_true, hn, hs, hf]
    cases f.errNonblock <;> rfl
  refine ⟨rfl, rfl, h2, h1, ?_⟩
  rw [h1, h2]
  intro h
  have := congrArg List.length h
  rw [List.length_take, Nat.min_eq_left (Nat.le_of_lt hb)] at this
  omega

-- Without the stale value the same turn goes on, and the whole output is sent.
example : (run true (List.replicate 3 { stale [1, 2] with errnoE := false }) {}).fate = some .done ∧
    (run true (List.replicate 3 { stale [1, 2] with errnoE := false }) {}).sentOut = [1, 2] := by decide +kernel

/-- The relay is broken off while output is held back for the client: the rest that is then read from the child is
sent without it, so that the client gets the beginning and the end but not the middle. -/
theorem C133_gap (b c : Bytes) (x : Byte) (hb : b ≠ []) (hc : c ≠ []) (hbl : b.length < bufSz) (hcl : c.length ≤ bufSz) :
    ∃ es f, (run true es {}).dropped = false ∧ (finish true (run true es {}) f).wroteOut = x :: b ++ c ∧
      (finish true (run true es {}) f).sentOut = x :: c := by
  have hz : min (1000000 + 1) bufSz = bufSz := by decide
  have hbz : (x :: b).length ≤ bufSz := hbl
  have h1 : run true [{ out := x :: b, outSend := .sent 0 }] {} =
      { held := b, outPipe := [], wroteOut := x :: b, sentOut := [x] } := by
    show turn true {} { out := x :: b, outSend := .sent 0 } = _
    have hf : forward { outPipe := (x :: b).drop (min (1000000 + 1) bufSz), wroteOut := x :: b } false
        ((x :: b).take (min (1000000 + 1) bufSz)) (.sent 0) =
        (true, { held := b, outPipe := [], wroteOut := x :: b, sentOut := [x] }) := by
      rw [hz, List.take_of_length_le hbz, List.drop_of_length_le hbz]
      unfold forward
      simp only
      have : took 0 (x :: b).length = 1 := by unfold took; simp
      rw [this]
      rw [if_pos (by have := List.length_pos_iff.2 hb; show 1 < b.length + 1; omega)]
      rfl
    have hs : stdout { outPipe := x :: b, wroteOut := x :: b } { out := x :: b, outSend := .sent 0 } =
        (true, { held := b, outPipe := [], wroteOut := x :: b, sentOut := [x] }) := by
      unfold stdout
      simp only
      rw [if_neg (by simp)]
      exact hf
    have : turn true {} { out := x :: b, outSend := .sent 0 } = (if (stdout { outPipe := x :: b, wroteOut := x :: b }
        { out := x :: b, outSend := .sent 0 }).1 then check (stdout { outPipe := x :: b, wroteOut := x :: b }
        { out := x :: b, outSend := .sent 0 }).2 { out := x :: b, outSend := .sent 0 } else
        (stdout { outPipe := x :: b, wroteOut := x :: b } { out := x :: b, outSend := .sent 0 }).2) := rfl
    rw [this, hs]
    rfl
  refine ⟨[{ out := x :: b, outSend := .sent 0 }, { out := c, work := .fail }],
    { outSends := [(.sent 1000000, false)] }, ?_⟩
  have h2 : run true [{ out := x :: b, outSend := .sent 0 }, { out := c, work := .fail }] {} =
      { held := b, outPipe := c, wroteOut := x :: b ++ c, sentOut := [x], fate := some .broke } := by
    have := run_append true [{ out := x :: b, outSend := .sent 0 }] [{ out := c, work := .fail }] {}
    rw [h1] at this
    rw [show [({ out := x :: b, outSend := .sent 0 } : Env), { out := c, work := .fail }] =
      [{ out := x :: b, outSend := .sent 0 }] ++ [{ out := c, work := .fail }] from rfl, this]
    cases b with
    | nil => exact absurd rfl hb
    | cons y ys => rfl
  rw [h2]
  refine ⟨rfl, ?_, ?_⟩
  · show x :: b ++ c ++ [] = _
    simp
  · show [x] ++ flushOut flushTries [(.sent 1000000, false)] ((c ++ []).take bufSz) = _
    rw [List.append_nil, List.take_of_length_le hcl, show flushOut flushTries [(.sent 1000000, false)] c = c from
      flush_one c (Nat.le_trans hcl (by decide)) hc 9 []]
    rfl

example : ∃ b c : Bytes, b ≠ [] ∧ c ≠ [] ∧ b.length < bufSz ∧ c.length ≤ bufSz := ⟨[1], [2], by decide⟩

/-- **C134 (partial).** Whatever happens, the bytes the child gets are bytes the client sent, in their order and none twice. If
the child takes whole every block it is given, or a write to it fails, they are the first of those the client sent, and as
long as the relay is not broken off the rest waits to be read. Missing: a block taken in part is lost in its rest
(`C134_short`); and what waits may wait for ever, and the child with it (`C134_stuck`), or be passed over at the end of the
client's data (`C134_eof`). -/
theorem C134_partial (pipes : Bool) (es : List Env) :
    (run pipes es {}).given.Sublist (run pipes es {}).rcvd ∧
    ((∀ e ∈ es, Whole e) → (run pipes es {}).given <+: (run pipes es {}).rcvd ∧
      ((run pipes es {}).fate ≠ some .broke → (run pipes es {}).rcvd = (run pipes es {}).given ++ (run pipes es {}).chan)) := by
  refine ⟨(List.sublist_append_left _ _).trans (run_Inp pipes es {} ⟨List.Sublist.refl _⟩).sub, fun hw => ?_⟩
  have h := run_All pipes es hw {} (Or.inl rfl)
  generalize run pipes es {} = s at h ⊢
  rcases h with h | ⟨h1, h2⟩
  · have h' : s.rcvd = s.given ++ s.chan := h
    exact ⟨⟨s.chan, h'.symm⟩, fun _ => h'⟩
  · exact ⟨h2, fun hn => absurd h1 hn⟩

/-- Data that is handed over at once, data that waits because output is held, and data that comes after it. -/
def ins : List Env :=
  [{ work := .data [1, 2] }, { out := [5, 6], outSend := .sent 0 }, { work := .data [3], resend := .again },
    { work := .wantRead }, { work := .data [4] }]

example : (∀ e ∈ ins, Whole e) ∧ (run true ins {}).given = [1, 2, 3, 4] ∧ (run true (ins.take 4) {}).chan = [3] ∧
    (run true ins {}).sentOut = [5, 6] := by
  refine ⟨?_, by decide +kernel, by decide +kernel, by decide +kernel⟩
  intro e he
  simp only [ins, List.mem_cons, List.not_mem_nil, or_false] at he
  rcases he with rfl | rfl | rfl | rfl | rfl <;> exact ⟨rfl, fun n hn => by cases hn; decide⟩

/-- A write to the child that takes one byte: the rest of what the client sent is lost, and the relay goes on. -/
theorem C134_short (x : Byte) (b : Bytes) (hb : b ≠ []) (hl : b.length < bufSz) (pipes : Bool) :
    (run pipes [{ work := .data (x :: b), toChild := some 0 }, { work := .data [x] }] {}).fate = none ∧
    (run pipes [{ work := .data (x :: b), toChild := some 0 }, { work := .data [x] }] {}).given = [x, x] ∧
    (run pipes [{ work := .data (x :: b), toChild := some 0 }, { work := .data [x] }] {}).chan = [] ∧
    (run pipes [{ work := .data (x :: b), toChild := some 0 }, { work := .data [x] }] {}).rcvd = x :: b ++ [x] ∧
    b ≠ [] := by
  have hl' : (x :: b).length ≤ bufSz := hl
  have h0 : (x :: b).take bufSz = x :: b := List.take_of_length_le hl'
  have h0' : (x :: b).drop bufSz = [] := List.drop_of_length_le hl'
  have h1 : turn pipes {} { work := .data (x :: b), toChild := some 0 } = { rcvd := x :: b, given := [x] } := by
    have hi : input { chan := x :: b, rcvd := x :: b } { work := .data (x :: b), toChild := some 0 } =
        (true, { rcvd := x :: b, given := [x] }) := by
      unfold input
      simp only [h0, h0']
      rw [if_neg (by simp)]
      rfl
    have hw : worker pipes {} { work := .data (x :: b), toChild := some 0 } = (true, { rcvd := x :: b, given := [x] }) := by
      have : worker pipes {} { work := .data (x :: b), toChild := some 0 } =
        input { chan := x :: b, rcvd := x :: b } { work := .data (x :: b), toChild := some 0 } := rfl
      rw [this, hi]
    have : turn pipes {} { work := .data (x :: b), toChild := some 0 } =
        (if (worker pipes {} { work := .data (x :: b), toChild := some 0 }).1 then
          (if (resend (worker pipes {} { work := .data (x :: b), toChild := some 0 }).2 { work := .data (x :: b), toChild := some 0 }).1
            then reads pipes (resend (worker pipes {} { work := .data (x :: b), toChild := some 0 }).2
              { work := .data (x :: b), toChild := some 0 }).2 { work := .data (x :: b), toChild := some 0 } true true
            else (resend (worker pipes {} { work := .data (x :: b), toChild := some 0 }).2
              { work := .data (x :: b), toChild := some 0 }).2)
        else (worker pipes {} { work := .data (x :: b), toChild := some 0 }).2) := rfl
    rw [this, hw]
    cases pipes <;> rfl
  have h2 : run pipes [{ work := .data (x :: b), toChild := some 0 }, { work := .data [x] }] {} =
      { rcvd := x :: b ++ [x], given := [x, x] } := by
    show run pipes [{ work := .data [x] }] (turn pipes {} { work := .data (x :: b), toChild := some 0 }) = _
    rw [h1]
    cases pipes <;> rfl
  rw [h2]
  exact ⟨rfl, rfl, rfl, rfl, hb⟩

/-- Data of the client that came while output was held back: once that output is sent, and as long as the client sends no more
and no keys are exchanged, the child gets nothing, nothing is read from it and nothing is sent, in any number of turns, which
follow each other without a pause. -/
theorem C134_stuck (pipes : Bool) (s : St) (hf : s.fate = none) (hh : s.held = []) (hc : s.chan ≠ []) (he : s.eof = false)
    (ho : s.outEmpty = false) (es : List Env) (hq : ∀ e ∈ es, Quiet e ∧ e.keying = false) :
    (run pipes es s).fate = none ∧ (run pipes es s).chan = s.chan ∧ (run pipes es s).given = s.given ∧
    (run pipes es s).sentOut = s.sentOut ∧ (run pipes es s).sentErr = s.sentErr :=
  run_stuck pipes es hq s hf hh hc he ho

/-- Such a state is reached: the client sends a line while a byte of output waits for its window. -/
def stuckAt : List Env :=
  [{ out := [5, 6], outSend := .sent 0 }, { work := .data [3, 10], resend := .again }, {}]

example : (run true stuckAt {}).fate = none ∧ (run true stuckAt {}).held = [] ∧ (run true stuckAt {}).chan = [3, 10] ∧
    (run true stuckAt {}).eof = false ∧ (run true stuckAt {}).outEmpty = false ∧ (run true stuckAt {}).sentOut = [5, 6] := by
  decide +kernel

/-- And if the client then ends its data, the child's stdin is closed: the child never sees the line. -/
theorem C134_eof (b : Bytes) (hb : b ≠ []) (s : St) (hf : s.fate = none) (hh : s.held = []) (hc : s.chan = b)
    (he : s.eof = false) :
    (turn true s { work := .success true }).stdin = false ∧ (turn true s { work := .success true }).chan = b ∧
    (turn true s { work := .success true }).given = s.given ∧ (turn true s { work := .success true }).fate = none := by
  unfold turn
  simp only
  have h1 : ((({ work := .success true } : Env).running || (child s { work := .success true }).held != [] ||
      !(child s { work := .success true }).outEmpty || (child s { work := .success true }).peer)) = true := rfl
  have h2 : ¬ ((child s { work := .success true }).chan = [] ∨ ({ work := .success true } : Env).keying = true ∨
      (child s { work := .success true }).eof = true) := by
    show ¬ (s.chan = [] ∨ false = true ∨ s.eof = true)
    rw [he, hc]; simpa using hb
  rw [if_pos h1, if_neg h2]
  unfold body
  have hw : ((child s { work := .success true }).wantWrite || (child s { work := .success true }).held != [] || true) = true := by simp
  have hwk : worker true (child s { work := .success true }) { work := .success true } =
      (true, { child s { work := .success true } with wantWrite := false, eof := true, stdin := false }) := by
    show (true, if ((s.eof || true) && true) = true then _ else _) = _
    simp
  simp only [if_pos hw, hwk, if_true]
  have hr : resend { child s { work := .success true } with wantWrite := false, eof := true, stdin := false }
      { work := .success true } = (true, { child s { work := .success true } with wantWrite := false, eof := true, stdin := false }) :=
    if_pos hh
  simp only [hr, if_true]
  unfold reads
  simp only [Bool.and_false, Bool.false_and, Bool.false_eq_true, if_false, if_true]
  unfold check
  rw [if_neg (by
    show ¬ ((!true && s.peer && s.outEmpty && s.held == []) = true)
    simp)]
  exact ⟨rfl, hc, rfl, hf⟩

-- From there a whole run: the client's line and the end of its data, and a command that waits for the end.
example : (run true (stuckAt ++ [{ work := .success true }]) {}).rcvd = [3, 10] ∧
    (run true (stuckAt ++ [{ work := .success true }]) {}).given = [] ∧
    (run true (stuckAt ++ [{ work := .success true }]) {}).stdin = false := by decide +kernel

end Props.SshdShell
