import Verif.Props.Kex
import Verif.Proofs.KexAgree
/-!
# C06 (two ends) and C07 (guessed packet)
-/

namespace Props.Kex
open Wolf Wolf.Wire Wolf.NameList Wolf.Kex

/-- What is needed of the algorithm table of a build (all true of `defaultTable`, see below): no
row has the reserved identifier, an identifier belongs to one category, the extension markers are
not key exchange algorithms. -/
structure TableOk (t : Table) : Prop where
  wf : WF t
  oneType : ∀ e ∈ t, ∀ e' ∈ t, e.id = e'.id → e.type = e'.type
  ext : ∀ e ∈ t, e.name = asc "ext-info-c" ∨ e.name = asc "ext-info-s" → e.type ≠ .kex

theorem defaultTable_ok : TableOk defaultTable := by
  refine ⟨defaultTable_wf, ?_, ?_⟩
  · have : ∀ e ∈ defaultTable, ∀ e' ∈ defaultTable, e.id = e'.id → e.type = e'.type := by decide
    exact this
  · decide

/-- The supported identifiers of a list the setter accepted belong to its category. -/
theorem ids_type {t : Table} (hwf : WF t) {ty : AlgoType} {l : Bytes} (hl : checkAlgoList t ty l = true)
    {a : Nat} (ha : a ∈ Spec.Kex.ids (rows t) l) : ∃ e ∈ t, e.id = a ∧ e.type = ty := by
  have hv := ((C05_setter t hwf ty l).1 hl).1
  unfold Spec.Kex.ids at ha
  rw [List.mem_filterMap] at ha
  obtain ⟨w, hw, hs⟩ := ha
  rw [← names_body] at hw
  have hw' : w ∈ Spec.NameList.split 44 (Spec.NameList.body l) := by
    unfold Spec.NameList.names at hw
    exact (List.takeWhile_sublist _).subset hw
  obtain ⟨_, h2⟩ := hv w hw'
  unfold Spec.NameList.supported rows at hs
  rw [List.find?_map, Option.map_map] at hs
  simp only [Function.comp_def] at hs
  cases hf : t.find? (fun e => decide (e.name = w)) with
  | none => rw [hf] at hs; simp at hs
  | some e =>
    rw [hf] at hs
    simp at hs
    have := h2 ⟨e.id, e.type.num, e.name⟩ (by rw [find_specRows, hf]; rfl)
    exact ⟨e, List.mem_of_find?_eq_some hf, hs, AlgoType.num_inj this.2⟩

theorem plus_eq (s : Side) : ∃ w, plusExt s = 44 :: w ∧ w ≠ [] ∧ 44 ∉ w ∧
    (w = asc "ext-info-c" ∨ w = asc "ext-info-s") := by
  cases s
  · exact ⟨asc "ext-info-s", by decide, by decide, by decide, Or.inr rfl⟩
  · exact ⟨asc "ext-info-c", by decide, by decide, by decide, Or.inl rfl⟩

/-- The key exchange list on the wire: the own list, then at most a marker that is no key exchange
algorithm. -/
theorem ids_plus {t : Table} (ht : TableOk t) {l : Bytes} (hl : checkAlgoList t .kex l = true) (s : Side) :
    ∃ e, Spec.Kex.ids (rows t) (Spec.NameList.body l ++ plusExt s) = Spec.Kex.ids (rows t) l ++ e ∧
      ∀ x ∈ e, ∀ l', checkAlgoList t .kex l' = true → x ∉ Spec.Kex.ids (rows t) l' := by
  obtain ⟨w, hw, h0, hc, hn⟩ := plus_eq s
  have hv := ((C05_setter t ht.wf .kex l).1 hl).1
  refine ⟨Spec.Kex.ids (rows t) w, ?_, ?_⟩
  · unfold Spec.Kex.ids
    rw [hw, names_append _ _ (fun v hv' => (hv v hv').1), List.filterMap_append, names_body]
  · intro x hx l' hl' hx'
    obtain ⟨e, he, hid, hty⟩ := ids_type ht.wf hl' hx'
    unfold Spec.Kex.ids at hx
    rw [names_word w h0 hc, List.mem_filterMap] at hx
    obtain ⟨v, hv1, hv2⟩ := hx
    simp only [List.mem_singleton] at hv1
    subst hv1
    unfold Spec.NameList.supported rows at hv2
    rw [List.find?_map, Option.map_map] at hv2
    simp only [Function.comp_def] at hv2
    cases hf : t.find? (fun e => decide (e.name = v)) with
    | none => rw [hf] at hv2; simp at hv2
    | some e' =>
      rw [hf] at hv2
      simp at hv2
      have hm := List.mem_of_find?_eq_some hf
      have hnm : e'.name = v := by simpa using List.find?_some hf
      have h1 := ht.ext e' hm (by rw [hnm]; exact hn)
      rw [ht.oneType e' hm e he (by rw [hv2, hid])] at h1
      exact h1 hty

theorem choose_append {a b e f : List Nat} (he : ∀ x ∈ e, x ∉ b) (hf : ∀ x ∈ f, x ∉ a) :
    Spec.NameList.choose (a ++ e) b = Spec.NameList.choose a (b ++ f) := by
  unfold Spec.NameList.choose
  rw [List.find?_append]
  have h1 : e.find? (fun c => b.contains c) = none := by
    rw [List.find?_eq_none]; intro x hx; simpa using he x hx
  rw [h1, Option.or_none]
  induction a with
  | nil => rfl
  | cons x xs ih =>
    have hf' : ∀ x ∈ f, x ∉ xs := fun y hy h => hf y hy (by simp [h])
    have hx : x ∉ f := fun h => hf x h (by simp)
    rw [List.find?_cons, List.find?_cons, ih hf']
    have : (b ++ f).contains x = b.contains x := by
      rw [Bool.eq_iff_iff]; simp [hx]
    rw [this]

/-- C06, both ends. A client and a server built from the same source with the same algorithm
table, whose lists passed the setters, each run the negotiation on the KEXINIT the other one
sends: if both succeed they have chosen the same algorithms, and neither drops a packet as
guessed. -/
theorem C06_agree (cc cs : Cfg) (cookieC cookieS : Bytes)
    (hcc : cc.side = .client) (hcs : cs.side = .server) (htbl : cc.tbl = cs.tbl) (haead : cc.aead = cs.aead)
    (ht : TableOk cs.tbl)
    (hck : checkAlgoList cc.tbl .kex cc.kexList = true) (hsk : checkAlgoList cs.tbl .kex cs.kexList = true)
    (hnc : ID_UNKNOWN ∉ cc.pubKeyAlgo) (hns : Named cs.tbl cs.pubKeyAlgo)
    (hc16 : cookieC.length = 16) (hs16 : cookieS.length = 16)
    (hlc : (kexInitPayload cc cookieC).length < 2^32) (hls : (kexInitPayload cs cookieS).length < 2^32)
    (exC seC exS seS : Bool) (nc ns : Nego) (jc js : Nat)
    (hc : doKexInit cc false exC seC (kexInitPayload cs cookieS) = .ok nc jc)
    (hs : doKexInit cs false exS seS (kexInitPayload cc cookieC) = .ok ns js) :
    nc.kex = ns.kex ∧ nc.hostKey = ns.hostKey ∧ nc.c2sEnc = ns.c2sEnc ∧ nc.s2cEnc = ns.s2cEnc ∧
    nc.c2sMac = ns.c2sMac ∧ nc.s2cMac = ns.s2cMac ∧ nc.ignoreNext = false ∧ ns.ignoreNext = false := by
  have hns' : ID_UNKNOWN ∉ cs.pubKeyAlgo := fun h => (hns _ h).2.1 rfl
  obtain ⟨_, mc, pc, _, gc, ic⟩ := doKexInit_ok cc (htbl ▸ ht.wf) hnc _ _ _ _ hls nc jc hc
  obtain ⟨_, ms, ps, _, gs, is⟩ := doKexInit_ok cs ht.wf hns' _ _ _ _ hlc ns js hs
  rw [parse_payload cs cookieS hs16 hls] at pc
  rw [parse_payload cc cookieC hc16 hlc] at ps
  simp only [Option.some.injEq, Prod.mk.injEq] at pc ps
  obtain ⟨rfl, _⟩ := pc
  obtain ⟨rfl, _⟩ := ps
  have bs : isServer cs = true := by simp [isServer, hcs]
  have bc : isServer cc = false := by simp [isServer, hcc]
  have hr : rows cc.tbl = rows cs.tbl := by rw [htbl]
  obtain ⟨k1, k2, k3, k4, k5, k6, _, _⟩ := gc
  obtain ⟨q1, q2, q3, q4, q5, q6, _, _⟩ := gs
  simp only [ids_body, bs, bc, hr, Spec.Kex.pick, if_true, Bool.false_eq_true, if_false] at k1 k2 k3 k4 k5 k6 q1 q2 q3 q4 q5 q6
  have hkex : nc.kex = ns.kex := by
    rw [htbl] at hck
    obtain ⟨e, he1, he2⟩ := ids_plus ht hck cc.side
    obtain ⟨f, hf1, hf2⟩ := ids_plus ht hsk cs.side
    rw [hf1] at k1
    rw [he1, choose_append (fun x hx => he2 x hx _ hsk) (fun x hx => hf2 x hx _ hck), k1] at q1
    simpa using q1
  have hhost : nc.hostKey = ns.hostKey := by
    have e1 : Spec.Kex.ids (rows cs.tbl) (ownKeyBody cs) = ownHostKeyIds cs := by
      unfold ownKeyBody ownHostKeyIds
      rw [hcs]
      cases cs.keyList with
      | none => exact ids_build cs.tbl _ ht.wf hns
      | some l => rfl
    have e2 : Spec.Kex.ids (rows cs.tbl) (ownKeyBody cc) = ownHostKeyIds cc := by
      unfold ownKeyBody ownHostKeyIds
      rw [hcc, htbl]
    rw [e1] at k2
    rw [e2, k2] at q2
    simpa using q2
  have h3 : nc.c2sEnc = ns.c2sEnc := by rw [k3] at q3; simpa using q3
  have h4 : nc.s2cEnc = ns.s2cEnc := by rw [k4] at q4; simpa using q4
  have h5 : nc.c2sMac = ns.c2sMac := by
    rw [haead, h3] at k5
    split at k5
    · rename_i h; rw [if_pos h] at q5; omega
    · rename_i h; rw [if_neg h, k5] at q5; simpa using q5
  have h6 : nc.s2cMac = ns.s2cMac := by
    rw [haead, h4] at k6
    split at k6
    · rename_i h; rw [if_pos h] at q6; omega
    · rename_i h; rw [if_neg h, k6] at q6; simpa using q6
  refine ⟨hkex, hhost, h3, h4, h5, h6, ?_, ?_⟩
  · cases h : nc.ignoreNext with
    | false => rfl
    | true => have := (ic.1 h).1; simp at this
  · cases h : ns.ignoreNext with
    | false => rfl
    | true => have := (is.1 h).1; simp at this

/-- C06, where the code departs from the rule: whenever the two key exchange lists both start with
a name this build does not know, the negotiation fails, whatever common algorithms follow. -/
theorem C06_unknown_first (c : Cfg) (hwf : WF c.tbl) (ex se : Bool) (p : Bytes) (hp : p.length < 2^32)
    (m : Spec.Kex.KexInit) (rest : Bytes) (hm : Spec.Kex.parse p = some (m, rest))
    (hf : Fits c.tbl m.kex) (hfo : Fits c.tbl c.kexList)
    (h1 : LeadsUnknown c.tbl m.kex) (h2 : LeadsUnknown c.tbl c.kexList) :
    ∃ j, doKexInit c false ex se p = .err .matchKexAlgo j := by
  unfold Spec.Kex.parse at hm
  split at hm
  · simp at hm
  rename_i hl
  simp only [Option.bind_eq_bind, Option.bind_eq_some_iff, Option.pure_def, Option.some.injEq,
    Prod.mk.injEq, Prod.exists] at hm
  obtain ⟨s1, r1, e1, s2, r2, e2, s3, r3, e3, s4, r4, e4, s5, r5, e5, s6, r6, e6, s7, r7, e7,
    s8, r8, e8, s9, r9, e9, s10, r10, e10, fl, r11, e11, rv, r12, e12, rfl, rfl⟩ := hm
  obtain ⟨j, k1, _⟩ := nl_of hwf hp e1 hf
  refine ⟨j, ?_⟩
  unfold doKexInit
  rw [if_neg (by omega), if_neg (by simp), if_neg (by unfold COOKIE_SZ; omega)]
  rw [show (COOKIE_SZ : Nat) = 16 from rfl, bind_of k1, bind_of (ownIds_of hwf hfo j)]
  have hk : ∀ l, LeadsUnknown c.tbl l →
      ∃ r, keep ((Spec.NameList.names l).map (nameToId c.tbl)) = ID_UNKNOWN :: r := by
    rintro l ⟨n, ns, hn, hs⟩
    rw [hn, List.map_cons, nameToId_eq, hs]
    exact ⟨_, rfl⟩
  obtain ⟨ra, ha⟩ := hk _ h1
  obtain ⟨rb, hb⟩ := hk _ h2
  have : matchOr c (keep ((Spec.NameList.names s1).map (nameToId c.tbl)))
      (keep ((Spec.NameList.names c.kexList).map (nameToId c.tbl))) .matchKexAlgo j
        = .err .matchKexAlgo j := by
    unfold matchOr
    rw [ha, hb, matchIdLists_eq]
    have hc : ∀ x y : List Nat, Spec.NameList.choose (ID_UNKNOWN :: x) (ID_UNKNOWN :: y) = some ID_UNKNOWN := by
      intro x y; simp [Spec.NameList.choose]
    have : Spec.Kex.pick (c.side == .server) (ID_UNKNOWN :: ra) (ID_UNKNOWN :: rb) = some ID_UNKNOWN := by
      unfold Spec.Kex.pick; split <;> exact hc _ _
    rw [this]
    simp
  rw [this]
  rfl

/- Such a pair of lists: both accepted by the setter, with a common second choice. -/
def unkServer : Cfg := demo .server (asc "curve-x,ecdh-sha2-nistp256")
def unkClient : Cfg := demo .client (asc "curve-y,ecdh-sha2-nistp256")
def cookie7 : Bytes := List.replicate 16 7

instance (t : Table) (l : Bytes) : Decidable (Fits t l) := by unfold Fits; infer_instance

theorem demo_length (s : Side) (k : Bytes) (hk : k.length < 1000) :
    (kexInitPayload (demo s k) cookie7).length < 2^32 := by
  rw [payload_eq, layout_length]
  have h0 := body_le k
  cases s
  · have h1 : (plusExt Side.server).length = 11 := by decide
    have h2 : (Spec.NameList.body (ownKeyBody (demo .server k))).length = 19 := by
      show (Spec.NameList.body (buildNameList defaultTable [27])).length = 19
      decide
    have h3 : (Spec.NameList.body (asc "aes256-gcm@openssh.com,aes128-ctr")).length = 33 := by decide
    have h4 : (Spec.NameList.body (asc "hmac-sha2-256")).length = 13 := by decide
    have h5 : (asc "none").length = 4 := by decide
    simp only [demo, List.length_append, h1, h3, h4, h5, cookie7, List.length_replicate, List.length_nil,
      List.length_cons] at h2 ⊢
    have h6 : (c32toa 0).length = 4 := rfl
    rw [h6, h2]
    omega
  · have h1 : (plusExt Side.client).length = 11 := by decide
    have h2 : (Spec.NameList.body (ownKeyBody (demo .client k))).length = 31 := by
      show (Spec.NameList.body (asc "ecdsa-sha2-nistp256,ssh-ed25519")).length = 31
      decide
    have h3 : (Spec.NameList.body (asc "aes256-gcm@openssh.com,aes128-ctr")).length = 33 := by decide
    have h4 : (Spec.NameList.body (asc "hmac-sha2-256")).length = 13 := by decide
    have h5 : (asc "none").length = 4 := by decide
    simp only [demo, List.length_append, h1, h3, h4, h5, cookie7, List.length_replicate, List.length_nil,
      List.length_cons] at h2 ⊢
    have h6 : (c32toa 0).length = 4 := rfl
    rw [h6, h2]
    omega

set_option maxRecDepth 4000 in
/-- C06, the departure is real: both lists pass the setter, the rule picks `ecdh-sha2-nistp256`,
and the server refuses the connection. -/
theorem C06_unknown_first_witness :
    checkAlgoList unkServer.tbl .kex unkServer.kexList = true ∧
    checkAlgoList unkClient.tbl .kex unkClient.kexList = true ∧
    (∃ m rest, Spec.Kex.parse (kexInitPayload unkClient cookie7) = some (m, rest) ∧
      Spec.Kex.pick true (Spec.Kex.ids (rows unkServer.tbl) m.kex)
        (Spec.Kex.ids (rows unkServer.tbl) unkServer.kexList) = some 19) ∧
    ∃ j, doKexInit unkServer false false false (kexInitPayload unkClient cookie7)
      = .err .matchKexAlgo j := by
  have hl : (kexInitPayload unkClient cookie7).length < 2^32 := demo_length _ _ (by decide)
  have hp := parse_payload unkClient cookie7 (by decide) hl
  refine ⟨by rw [checkAlgoList_eq]; decide, by rw [checkAlgoList_eq]; decide,
    ⟨_, _, hp, by decide⟩, ?_⟩
  exact C06_unknown_first unkServer defaultTable_wf false false _ hl _ _ hp (by decide) (by decide)
    ⟨asc "curve-y", [asc "ecdh-sha2-nistp256", asc "ext-info-c"], by decide, by decide⟩
    ⟨asc "curve-x", [asc "ecdh-sha2-nistp256"], by decide, by decide⟩

/- The hypotheses of `C06_accepts_partial` and `C06_agree` are met: a client and a server with
different preferences both succeed (so `C06_choice` speaks about a non-empty set of runs). -/
def okServer : Cfg := demo .server (asc "ecdh-sha2-nistp521,ecdh-sha2-nistp256")
def okClient : Cfg := demo .client (asc "foo,ecdh-sha2-nistp256,ecdh-sha2-nistp521")

set_option maxRecDepth 4000 in
theorem ok_server : ∃ n j, doKexInit okServer false false false (kexInitPayload okClient cookie7) = .ok n j := by
  have hl : (kexInitPayload okClient cookie7).length < 2^32 := demo_length _ _ (by decide)
  refine C06_accepts_partial okServer defaultTable_wf (by decide) false false _ hl _ _
    (parse_payload okClient cookie7 (by decide) hl) rfl ?_ ?_ (by decide) (by decide) (by decide) (by decide)
    (by decide) (by decide) (by decide) (by decide)
  · decide
  · have hn : ∀ l, (match (Spec.NameList.names l).head? with
        | none => true
        | some n => (Spec.NameList.supported (rows okServer.tbl) n).isSome) = true → ¬ LeadsUnknown okServer.tbl l := by
      rintro l h ⟨n, ns, h1, h2⟩
      rw [h1] at h; simp [h2] at h
    simp only [List.mem_cons, List.not_mem_nil, or_false, forall_eq_or_imp, forall_eq]
    exact ⟨fun h => hn _ (by decide) h.2, fun h => hn _ (by decide) h.2, fun h => hn _ (by decide) h.2,
      fun h => hn _ (by decide) h.2, fun h => hn _ (by decide) h.2, fun h => hn _ (by decide) h.2⟩

set_option maxRecDepth 4000 in
theorem ok_client : ∃ n j, doKexInit okClient false false false (kexInitPayload okServer cookie7) = .ok n j := by
  have hl : (kexInitPayload okServer cookie7).length < 2^32 := demo_length _ _ (by decide)
  refine C06_accepts_partial okClient defaultTable_wf (by decide) false false _ hl _ _
    (parse_payload okServer cookie7 (by decide) hl) rfl ?_ ?_ (by decide) (by decide) (by decide) (by decide)
    (by decide) (by decide) (by decide) (by decide)
  · decide
  · have hn : ∀ l, (match (Spec.NameList.names l).head? with
        | none => true
        | some n => (Spec.NameList.supported (rows okClient.tbl) n).isSome) = true → ¬ LeadsUnknown okClient.tbl l := by
      rintro l h ⟨n, ns, h1, h2⟩
      rw [h1] at h; simp [h2] at h
    simp only [List.mem_cons, List.not_mem_nil, or_false, forall_eq_or_imp, forall_eq]
    exact ⟨fun h => hn _ (by decide) h.1, fun h => hn _ (by decide) h.1, fun h => hn _ (by decide) h.1,
      fun h => hn _ (by decide) h.1, fun h => hn _ (by decide) h.1, fun h => hn _ (by decide) h.1⟩

set_option maxRecDepth 4000 in
example : ∃ nc ns jc js, doKexInit okClient false false false (kexInitPayload okServer cookie7) = .ok nc jc ∧
    doKexInit okServer false false false (kexInitPayload okClient cookie7) = .ok ns js ∧
    nc.kex = ns.kex := by
  obtain ⟨nc, jc, hc⟩ := ok_client
  obtain ⟨ns, js, hs⟩ := ok_server
  exact ⟨nc, ns, jc, js, hc, hs, (C06_agree okClient okServer cookie7 cookie7 rfl rfl rfl rfl defaultTable_ok
    (by rw [checkAlgoList_eq]; decide) (by rw [checkAlgoList_eq]; decide) (by decide)
    (by unfold Named; decide) (by decide) (by decide) (demo_length _ _ (by decide)) (demo_length _ _ (by decide))
    _ _ _ _ nc ns jc js hc hs).1⟩

/-! ## C07: the guessed packet -/

/-- C07, the decision: after a successful negotiation the next key exchange message is marked to
be ignored exactly if the peer announced a guessed packet and the first key exchange or host key
algorithm of its lists is not the negotiated one. -/
theorem C07_flag (c : Cfg) (hwf : WF c.tbl) (hpk : ID_UNKNOWN ∉ c.pubKeyAlgo)
    (pk ex se : Bool) (p : Bytes) (hp : p.length < 2^32) (n : Nego) (j : Nat)
    (h : doKexInit c pk ex se p = .ok n j) :
    ∃ m rest, Spec.Kex.parse p = some (m, rest) ∧
      (n.ignoreNext = true ↔ m.follows ≠ 0 ∧
        ((Spec.NameList.names m.kex).head?.bind (Spec.NameList.supported (rows c.tbl)) ≠ some n.kex ∨
         (Spec.NameList.names m.hostKey).head?.bind (Spec.NameList.supported (rows c.tbl))
          ≠ some n.hostKey)) := by
  obtain ⟨_, m, h1, _, _, h2⟩ := doKexInit_ok c hwf hpk pk ex se p hp n j h
  exact ⟨m, _, h1, h2⟩

/-- The handlers' view of a run of key exchange messages: which are processed. -/
def processed (flag : Bool) : List α → List α
  | [] => []
  | m :: ms =>
    let (skip, flag') := skipGuessed flag
    if skip then processed flag' ms else m :: processed flag' ms

/-- C07, the effect: with the flag exactly the first of the following key exchange messages is
ignored, whatever their number; without it none is. -/
theorem C07_drop (flag : Bool) (ms : List α) :
    processed flag ms = if flag then ms.drop 1 else ms := by
  have h0 : ∀ ms : List α, processed false ms = ms := by
    intro ms
    induction ms with
    | nil => rfl
    | cons m ms ih => simp [processed, skipGuessed, ih]
  cases flag with
  | false => simpa using h0 ms
  | true =>
    cases ms with
    | nil => rfl
    | cons m ms => simp [processed, skipGuessed, h0]

example : processed true ["guess", "real", "newkeys"] = ["real", "newkeys"] := by decide

end Props.Kex
