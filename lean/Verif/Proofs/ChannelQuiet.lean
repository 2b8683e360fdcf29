import Verif.Proofs.ChannelRun
/-! Every data message comes from a send; nothing is parked after a flush that is not hindered. -/

namespace Wolf.Channel
open Wolf Wolf.Wire Wolf.NameList Wolf.Buffer Spec.Buffer Spec.Channel Props.Buffer

theorem queued_eq {c c' : Conn} {x : In} {l : List OutMsg} (h : step c x = some c') (e : c'.out = c.out ++ l) :
    queuedBy c x = l := by
  unfold queuedBy; rw [h]; simp only; rw [e, List.drop_left]

/-- What a send does to the output buffer. -/
theorem send_queues {c c' : Conn} (hi : Inv c) {x : In} (hs : isSend x = true) (h : step c x = some c') :
    Flushed c c' ∨ ∃ k m, (k = [] ∨ k = [.kexInit]) ∧ (c'.out = c.out ++ (k ++ [m]) ∧ c.keying = false ∧ carriesData m = true ∧
      ∃ ch ∈ c.chans, (m = .data ch.peerId (payload m) ∨ m = .ext ch.peerId (payload m)) ∧
        (payload m).length ≤ ch.peerWindowSz ∧ (payload m).length ≤ ch.peerMaxPacketSz ∧
        (payload m).length ≤ ch.maxPacketSz ∧ ch.eofTxd = false) := by
  have key : ∀ isExt id data flush e, c' = (sendData isExt c id data flush e).2 →
      Flushed c c' ∨ ∃ k m, (k = [] ∨ k = [.kexInit]) ∧ (c'.out = c.out ++ (k ++ [m]) ∧ c.keying = false ∧ carriesData m = true ∧
        ∃ ch ∈ c.chans, (m = .data ch.peerId (payload m) ∨ m = .ext ch.peerId (payload m)) ∧
          (payload m).length ≤ ch.peerWindowSz ∧ (payload m).length ≤ ch.peerMaxPacketSz ∧
          (payload m).length ≤ ch.maxPacketSz ∧ ch.eofTxd = false) := by
    intro isExt id data flush e hc'
    rcases sendData_eff (isExt := isExt) (c := c) (id := id) (data := data) (flush := flush) (e := e)
      (fun ch hc => (hi.good ch hc).tx.lt) with ⟨c1, hfl, h, _⟩ | ⟨c1, i, ch, n, hfl, _, hf, hk, _, _, he, hn, hw, hmx, hown, _, h, _⟩
    · rw [h] at hc'; subst hc'; exact .inl hfl
    · rw [h] at hc'
      subst hc'
      obtain ⟨k, hk1, hk2⟩ := hfl.grow
      refine .inr ⟨k, _, hk2, by rw [hk1, List.append_assoc], hk, ?_, ch,
        List.mem_of_getElem? (Shape.findSelf_some hf).1, ?_, ?_⟩
      · cases isExt <;> rfl
      · cases isExt
        · exact .inl rfl
        · exact .inr rfl
      · have hp : payload (if isExt then OutMsg.ext ch.peerId (data.take n) else .data ch.peerId (data.take n)) = data.take n := by
          cases isExt <;> rfl
        rw [hp, List.length_take]
        exact ⟨by omega, by omega, by omega, he⟩
  cases x with
  | send isExt id data flush e =>
    simp only [step, Option.some.injEq] at h
    unfold channelSend at h
    split at h
    · subst h; exact .inl (.refl _)
    split at h
    · subst h; exact .inl (.refl _)
    · exact key _ _ _ _ _ h.symm
  | streamSend isExt data flush e =>
    simp only [step, Option.some.injEq] at h
    unfold streamSend at h
    split at h
    · subst h; exact .inl (.refl _)
    split at h
    · subst h; exact .inl (.refl _)
    · exact key _ _ _ _ _ h.symm
  | _ => cases hs

/-- What the end of a key exchange does to the output buffer. -/
theorem keyed_queues {c c' : Conn} (hi : Inv c) {x : In} (hk : isKeyed x = true) (h : step c x = some c') :
    ∃ l, c'.out = c.out ++ l ∧ ∀ m ∈ l, carriesData m = false := by
  cases x with
  | keyed es =>
    have h1 : Inv { c with keying := false } := hi.congr rfl rfl rfl rfl
    cases h
    unfold sendPendingWindowAdjust
    simp only [Bool.false_eq_true, if_false]
    obtain ⟨l, e, f⟩ := (flushPending_says es c.chans.length 0 none h1).out
    exact ⟨l, e, fun m hm => (f m hm).1⟩
  | _ => cases hk

theorem flush_fine {es : Nat → SendEnv} (hes : ∀ i, es i = {}) (n i : Nat) (ret : Ret) {c : Conn} (hi : Inv c)
    (hk : c.keying = false) (hn : i + n = c.chans.length) (hb : ∀ j < i, ∀ ch, c.chans[j]? = some ch → ch.pending = 0) :
    (flushPending es n i ret c).1 = ret ∧ ∀ ch ∈ (flushPending es n i ret c).2.chans, ch.pending = 0 := by
  induction n generalizing i ret c with
  | zero =>
    refine ⟨rfl, fun ch hc => ?_⟩
    obtain ⟨j, hj⟩ := List.mem_iff_getElem?.1 hc
    exact hb j (by have : j < c.chans.length := (List.getElem?_eq_some_iff.1 hj).1; omega) ch hj
  | succ n ih =>
    unfold flushPending
    cases h : c.chans[i]? with
    | none => have := List.getElem?_eq_none_iff.1 h; omega
    | some ch =>
      simp only
      split
      · obtain ⟨r, out', p', cr', lo', he, hcr⟩ := creditWindow_eff hi.shape h (amount := 0) (hi.get h).rx.pend (es i)
        have hz := creditZero_inv hi h (es i)
        obtain ⟨f1, f2, _⟩ := hcr.fine hk (hes i) (by have := (hi.get h).rx.pend; omega)
        rw [he] at hz ⊢
        simp only [f1, ne_eq, not_true_eq_false, false_and, if_false]
        refine ih (i + 1) ret hz hk (by simp only [List.length_set]; omega) fun j hj d hd => ?_
        simp only [List.getElem?_set] at hd
        by_cases hij : i = j
        · rw [if_pos hij] at hd
          split at hd
          · cases hd; exact f2
          · cases hd
        · rw [if_neg hij] at hd
          exact hb j (by omega) d hd
      · rename_i hp
        refine ih (i + 1) ret hi hk (by omega) fun j hj d hd => ?_
        by_cases hij : i = j
        · subst hij; rw [h] at hd; cases hd; omega
        · exact hb j (by omega) d hd

theorem quiet_tail {a t : List Tx} (h : quietAfterEof (a ++ t) = true) (he : .eof true ∈ a) : dataBytes t = 0 := by
  induction a with
  | nil => cases he
  | cons x r ih =>
    have tail : ∀ {t : List Tx}, (∀ y ∈ t, isData y = false) → dataBytes t = 0 := by
      intro t ht
      induction t with
      | nil => rfl
      | cons y s ih =>
        have h1 := ht y List.mem_cons_self
        have h2 := ih fun z hz => ht z (List.mem_cons_of_mem _ hz)
        cases y with
        | data b => cases h1
        | ext b => cases h1
        | _ => exact h2
    cases x with
    | eof d =>
      cases d with
      | true =>
        simp only [List.cons_append, quietAfterEof, List.all_eq_true, Bool.not_eq_true'] at h
        exact tail fun y hy => h y (List.mem_append_right _ hy)
      | false => exact ih h (by simpa using he)
    | data b => exact ih h (by simpa using he)
    | ext b => exact ih h (by simpa using he)
    | close => exact ih h (by simpa using he)

theorem runs_inv {id : Nat} {c c' : Conn} {xs : List In} (hr : Runs id c xs c') (hi : Inv c) : Inv c' := by
  induction hr with
  | nil _ => exact hi
  | @cons c c1 c' x xs hh hx hs hr ih =>
    obtain ⟨c1', hs', hi1⟩ := step_inv hi x hx
    rw [hs] at hs'; cases hs'
    exact ih hi1

end Wolf.Channel
