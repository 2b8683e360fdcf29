import Verif.Proofs.Version
/-!
# C39: the version exchange
-/

namespace Props.Version
open Wolf Wolf.Buffer Wolf.Receive Wolf.NameList Spec.Buffer Spec.Version Proofs.Version

/-- Once the version is known, attempts change nothing. -/
theorem attempts_done (cs : List Call) (v : Ver) (hd : v.done = true) : ∃ rs, attempts v cs = some (rs, v) ∧ ∀ r ∈ rs, r = none := by
  induction cs with
  | nil => exact ⟨[], rfl, by simp⟩
  | cons c cs ih =>
    obtain ⟨rs, h1, h2⟩ := ih
    refine ⟨none :: rs, ?_, by simpa using h2⟩
    simp [attempts, versionStep, hd, h1]

/-- In the middle of the exchange, `bs` having been said. -/
structure Midway (s : Bytes) (bs : List Bytes) (v : Ver) : Prop where
  ok : Ok v.inp
  short : (unread v.inp).length ≤ 255
  notDone : v.done = false
  banner : ∀ b ∈ bs, Banner b
  server : v.client = false → bs = []
  count : bs.length ≤ v.bannerLines
  few : bs.length ≤ 10
  stream : s = bs.flatten ++ pending v

theorem accepted_from (cs : List Call) : ∀ (s : Bytes) (bs : List Bytes) (v : Ver), Midway s bs v → (∀ c ∈ cs, c.Ok) →
    ∃ rs v', attempts v cs = some (rs, v') ∧
      (v'.done = false → v'.protoId = v.protoId ∧ ∃ bs' : List Bytes, (∀ b ∈ bs', Banner b) ∧ s = bs'.flatten ++ pending v') ∧
      (v'.done = true → ∃ banners text, Greeting v.client s banners text (pending v') ∧
        ((∀ c ∈ cs, c.mem = true) → v'.protoId = some (Spec.Wire.encString text))) ∧
      (∀ banners text rest, Greeting v.client s banners text rest → v.bannerLines = bs.length →
        ∀ r ∈ rs, r ≠ some .versionE) := by
  induction cs with
  | nil =>
    intro s bs v hm _
    refine ⟨[], v, rfl, fun _ => ⟨rfl, bs, hm.banner, hm.stream⟩, ?_, by simp⟩
    intro h; rw [hm.notDone] at h; simp at h
  | cons c cs ih =>
    intro s bs v hm hc
    obtain ⟨r, v1, new, g1, g2, g3⟩ := protoLoop_spec c (hc c (by simp)) (MAX_BANNER_LINES + 1) { v with io := c.io } hm.ok hm.short hm.notDone
      (by simp only [MAX_BANNER_LINES]; omega)
    have hpend : pending { v with io := c.io } = pending v := rfl
    rw [hpend] at g3
    have hstep : versionStep c.alloc c.mem c.static c.io v = some (r, v1) := by
      unfold versionStep doProtoId
      rw [if_neg (by rw [hm.notDone]; simp), g1]
    have hb : ∀ b ∈ bs ++ new, Banner b := by
      intro x hx
      rcases List.mem_append.mp hx with hx | hx
      · exact hm.banner x hx
      · exact g2.banner x hx
    have hsv : v.client = false → bs ++ new = [] := by
      intro h; rw [hm.server h, g2.server h]; rfl
    have hcount : (bs ++ new).length ≤ v1.bannerLines := by
      have h1 := g2.count; have h2 := hm.count; simp at h1 ⊢; omega
    have hfew : (bs ++ new).length ≤ 10 := by
      have h2 := hm.count; have h3 := hm.few
      rcases g2.few with h | h
      · rw [h]; simpa using h3
      · simp at h ⊢; omega
    have hgv : ∀ banners text rest, Greeting v.client s banners text rest → v.bannerLines = bs.length → r ≠ some .versionE := by
      intro banners text rest hg hbl
      rw [hm.stream] at hg
      obtain ⟨B', rfl, hg'⟩ := greeting_tail hg hm.banner
      have := hg.few
      exact (g3 B' text rest hg' (by simp at this ⊢; omega)).1
    rcases g2.result with ⟨h1, h2, h3, h4⟩ | ⟨h1, text, raw, h2, h3, h4, h5⟩
    · rw [hpend] at h4
      obtain ⟨rs, v', k1, k2, k3, k4⟩ := ih s (bs ++ new) v1 ⟨g2.ok, g2.short, h1, hb, by rw [g2.client]; exact hsv, hcount, hfew, by rw [hm.stream, h4]; simp⟩
        (fun x hx => hc x (by simp [hx]))
      rw [g2.client] at k3 k4
      refine ⟨r :: rs, v', by simp [attempts, hstep, k1], ?_, ?_, ?_⟩
      · intro h; obtain ⟨e1, e2⟩ := k2 h; exact ⟨by rw [e1]; exact h2, e2⟩
      · intro h
        obtain ⟨B, t, e1, e2⟩ := k3 h
        exact ⟨B, t, e1, fun hall => e2 (fun x hx => hall x (by simp [hx]))⟩
      · intro B t rst hg hbl x hx
        have hr := hgv B t rst hg hbl
        rcases List.mem_cons.mp hx with rfl | hx
        · exact hr
        · have := g2.exact hr
          exact k4 B t rst hg (by simp at this ⊢; omega) x hx
    · rw [hpend] at h4
      obtain ⟨rs, k1, k2⟩ := attempts_done cs v1 h1
      refine ⟨r :: rs, v1, by simp [attempts, hstep, k1], ?_, ?_, ?_⟩
      · intro h; rw [h1] at h; simp at h
      · intro _
        refine ⟨bs ++ new, text, ⟨⟨raw, h2, by rw [hm.stream, h4]; simp⟩, h3, hb, hfew, hsv⟩, ?_⟩
        intro hall
        rcases h5 with ⟨_, _, h5⟩ | ⟨h5, _⟩
        · exact h5
        · have := hall c (by simp); rw [this] at h5; simp at h5
      · intro B t rst hg hbl x hx
        rcases List.mem_cons.mp hx with rfl | hx
        · exact hgv B t rst hg hbl
        · rw [k2 x hx]; simp

theorem midway_fresh {v : Ver} (h : Fresh v) : Midway v.net [] v :=
  ⟨h.inp, by rw [h.empty]; simp, h.notDone, by simp, by simp, by simp, by simp, by simp [pending, h.empty]⟩

/-- C39, only such peers. However the peer's bytes arrive, whatever the allocator and the transport do and
however often the application calls again after a failure: there is no undefined behaviour; if the version is ever
accepted, what the peer sent begins with at most ten lines (none on a server) that are no identification and
a line of at most 255 bytes starting with `SSH-2.0-`; the bytes after that line, and only they, are left; what
is saved for the exchange hash is that line without its terminator, as an SSH string. While it is not accepted
nothing is saved. -/
theorem C39_accepted (v : Ver) (hv : Fresh v) (cs : List Call) (hc : ∀ c ∈ cs, c.Ok) :
    ∃ rs v', attempts v cs = some (rs, v') ∧
      (v'.done = false → v'.protoId = none) ∧
      (v'.done = true → ∃ banners text, Greeting v.client v.net banners text (pending v') ∧
        ((∀ c ∈ cs, c.mem = true) → v'.protoId = some (Spec.Wire.encString text))) := by
  obtain ⟨rs, v', h1, h2, h3, _⟩ := accepted_from cs v.net [] v (midway_fresh hv) hc
  exact ⟨rs, v', h1, fun h => by rw [(h2 h).1, hv.id], h3⟩

/-- C39, the outcome is the peer's alone: two sessions with the same peer, however its bytes are cut up and
whatever fails in between, save the same identification and go on at the same byte, if they get through. -/
theorem C39_determined (v w : Ver) (hv : Fresh v) (hw : Fresh w) (hcl : v.client = w.client) (hnet : v.net = w.net)
    (cs ds : List Call) (hc : ∀ c ∈ cs, c.Ok ∧ c.mem = true) (hd : ∀ d ∈ ds, d.Ok ∧ d.mem = true)
    (rs rs' : List (Option Err)) (v' w' : Ver) (h : attempts v cs = some (rs, v')) (h' : attempts w ds = some (rs', w'))
    (hdone : v'.done = true) (hdone' : w'.done = true) :
    v'.protoId = w'.protoId ∧ pending v' = pending w' := by
  obtain ⟨_, _, e1, _, e2⟩ := C39_accepted v hv cs (fun c h => (hc c h).1)
  rw [h] at e1
  simp only [Option.some.injEq, Prod.mk.injEq] at e1
  obtain ⟨rfl, rfl⟩ := e1
  obtain ⟨_, _, f1, _, f2⟩ := C39_accepted w hw ds (fun c h => (hd c h).1)
  rw [h'] at f1
  simp only [Option.some.injEq, Prod.mk.injEq] at f1
  obtain ⟨rfl, rfl⟩ := f1
  obtain ⟨B, t, g1, g2⟩ := e2 hdone
  obtain ⟨B', t', g1', g2'⟩ := f2 hdone'
  rw [hcl, hnet] at g1
  obtain ⟨_, rfl, hp⟩ := greeting_unique g1 g1'
  exact ⟨by rw [g2 (fun c h => (hc c h).2), g2' (fun c h => (hd c h).2)], hp⟩

/-- C39, all such peers: a peer that greets properly is never refused for its version, however its bytes
arrive and whatever else fails. -/
theorem C39_never_refused (v : Ver) (hv : Fresh v) (banners : List Bytes) (text rest : Bytes)
    (hg : Greeting v.client v.net banners text rest) (cs : List Call) (hc : ∀ c ∈ cs, c.Ok) :
    ∃ rs v', attempts v cs = some (rs, v') ∧ ∀ r ∈ rs, r ≠ some .versionE := by
  obtain ⟨rs, v', h1, _, _, h4⟩ := accepted_from cs v.net [] v (midway_fresh hv) hc
  exact ⟨rs, v', h1, h4 banners text rest hg (by rw [hv.banners]; rfl)⟩

/-- C39, all such peers: with memory and a transport that hands over what is there, one call accepts. -/
theorem C39_accepts (v : Ver) (hv : Fresh v) (banners : List Bytes) (text rest : Bytes)
    (hg : Greeting v.client v.net banners text rest) (c : Call) (hc : c.Ok) (hal : ∀ n, c.alloc n ≠ none) (hmem : c.mem = true)
    (k : Nat) (hk : banners.length < k) (hio : c.io = List.replicate k (.got 40000)) :
    ∃ v', attempts v [c] = some ([none], v') ∧ v'.done = true ∧ v'.protoId = some (Spec.Wire.encString text) ∧ pending v' = rest := by
  have hm := midway_fresh hv
  obtain ⟨r, v1, new, g1, g2, g3⟩ := protoLoop_spec c hc (MAX_BANNER_LINES + 1) { v with io := c.io } hm.ok hm.short hm.notDone
      (by simp only [MAX_BANNER_LINES]; omega)
  have hpend : pending { v with io := c.io } = v.net := by simp [pending, hv.empty]
  rw [hpend] at g3
  have hf := hg.few
  have hdone := (g3 banners text rest hg (by rw [show ({ v with io := c.io } : Ver).bannerLines = 0 from hv.banners]; omega)).2 hal hmem k [] hk (by simp [hio])
  have hstep : versionStep c.alloc c.mem c.static c.io v = some (r, v1) := by
    unfold versionStep doProtoId
    rw [if_neg (by rw [hm.notDone]; simp), g1]
  rcases g2.result with ⟨h1, _⟩ | ⟨_, t, raw, h2, h3, h4, h5⟩
  · rw [hdone] at h1; simp at h1
  · rcases h5 with ⟨_, rfl, h5⟩ | ⟨h5, _⟩
    · have hat : attempts v [c] = some ([none], v1) := by simp [attempts, hstep]
      obtain ⟨_, _, e1, _, e2⟩ := C39_accepted v hv [c] (by simpa using hc)
      rw [hat] at e1
      simp only [Option.some.injEq, Prod.mk.injEq] at e1
      obtain ⟨rfl, rfl⟩ := e1
      obtain ⟨B, t', g1, g2⟩ := e2 hdone
      obtain ⟨_, rfl, rfl⟩ := greeting_unique hg g1
      exact ⟨v1, hat, hdone, g2 (by simpa using hmem), rfl⟩
    · rw [hmem] at h5; simp at h5

/-! ## The hypotheses are met; what happens without memory -/

/-- A fresh client facing a server that says two lines and then identifies itself, a packet following. -/
def demoVer : Ver :=
  ⟨true, 0, none, false, ⟨List.replicate 16 0, 16, 0, 0, false⟩, [],
    asc "hello" ++ [13, 10] ++ asc "SS" ++ [10] ++ asc "SSH-2.0-x y" ++ [13, 10] ++ [0, 0, 0, 12]⟩

/-- A call with memory. -/
def demoCall (io : List IoRecv) : Call := ⟨fun n => some (List.replicate n 0), true, List.replicate 16 0, io⟩

theorem demoCall_ok (io : List IoRecv) : (demoCall io).Ok := ⟨by intro n m h; simp [demoCall] at h; rw [← h]; simp, by simp [demoCall]⟩

example : Fresh demoVer := ⟨⟨by decide, by decide, by decide, by decide, by decide⟩, by decide, rfl, rfl, rfl⟩

theorem demo_greeting : Greeting true demoVer.net [asc "hello" ++ [13, 10], asc "SS" ++ [10]] (asc "SSH-2.0-x y") [0, 0, 0, 12] := by
  refine ⟨⟨asc "SSH-2.0-x y" ++ [13, 10], ⟨.inl rfl, by decide, by decide, by decide⟩, by decide⟩, ⟨asc "x y", by decide⟩, ?_, by decide, by simp⟩
  intro b hb
  simp only [List.mem_cons, List.not_mem_nil, or_false] at hb
  rcases hb with rfl | rfl
  · exact ⟨⟨asc "hello", .inl rfl, by decide, by decide, by decide⟩, by decide⟩
  · refine ⟨⟨asc "SS", .inr ⟨rfl, ?_⟩, by decide, by decide, by decide⟩, by decide⟩
    rintro ⟨t, ht⟩
    have : (asc "SS").getLast? = some 13 := by rw [ht]; simp
    revert this; decide

/-- It is accepted in one call, and byte by byte over forty. -/
example : ((attempts demoVer [demoCall (List.replicate 3 (.got 40000))]).map fun q => (q.1, q.2.protoId, pending q.2)) =
    some ([none], some (Spec.Wire.encString (asc "SSH-2.0-x y")), [0, 0, 0, 12]) := by decide +kernel

example : ((attempts demoVer (List.replicate 40 (demoCall [.got 1]))).map fun q => (q.2.done, q.2.protoId, pending q.2)) =
    some (true, some (Spec.Wire.encString (asc "SSH-2.0-x y")), [0, 0, 0, 12]) := by decide +kernel

/-- A server refuses the same peer. -/
example : ((attempts { demoVer with client := false } [demoCall (List.replicate 3 (.got 40000))]).map fun q => (q.1, q.2.done)) =
    some ([some .versionE], false) := by decide +kernel

/-- C39 without memory for the identification: the call fails, the exchange counts as done all the same, and the
next call goes on without the peer's identification for the exchange hash. -/
theorem C39_memory_witness :
    ((attempts demoVer [{ demoCall (List.replicate 3 (.got 40000)) with mem := false }, demoCall []]).map
      fun q => (q.1, q.2.done, q.2.protoId)) = some ([some .memory, none], true, none) := by decide +kernel

end Props.Version
