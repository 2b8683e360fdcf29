import Verif.Spec.SftpEffect
import Verif.Proofs.SftpOpsConv
import Verif.Props.Sftp
/-!
# What the server does with the requests of the client
-/

namespace Proofs.SftpOps
open Wolf Spec.Wire Spec.Sftp Spec.Path Spec.SftpOps

/-- The server does what a request asks for and says what came of it, if it replies at all. -/
theorem served {d j : Option (List Bytes)} {t : List Event} {s : Sftp.Sess} (hR : Reached d j t s) {E : Sftp.Env} (hE : Good E) (id : Nat)
    (r : Request) (hr : r.Changes) (hf : r.Fits) :
    ∃ o, Sftp.handle E s r.type.toNat id r.body = some o ∧
      (o.reply = none ∨ ∃ code m l, o.reply = some ((Reply.status code m l).packet id) ∧ code ≤ 8 ∧
        Told (wanted d j E.isLink r) o.calls (code == 0)) := by
  have says : ∀ {o : Sftp.Out} {code : Nat}, Status E o id code → code ≤ 8 → Told (wanted d j E.isLink r) o.calls (code == 0) →
      (o.reply = none ∨ ∃ code m l, o.reply = some ((Reply.status code m l).packet id) ∧ code ≤ 8 ∧
        Told (wanted d j E.isLink r) o.calls (code == 0)) := by
    rintro o code ⟨m, l, h | h⟩ hc ht
    · exact .inr ⟨code, m, l, h, hc, ht⟩
    · exact .inl h.1
  have four : ∀ p : Bytes, (encString p).length = p.length + 4 := by intro p; simp [encString, encUint32]
  have attr : ∀ a : Attrs, (encAttrs a).length ≤ 32 := fun a => by have := Proofs.SftpClient.encAttrs_len a; omega
  have pick : ∀ ok : Bool, (if ok then 0 else 4) ≤ 8 ∧ (((if ok then 0 else 4 : Nat)) == 0) = ok := by decide
  cases r with
  | lstat p => exact hr.elim
  | stat p => exact hr.elim
  | rmdir p =>
    have hf : p.length + 4 < 2 ^ 31 := hf
    obtain ⟨o, h1, h2⟩ := Props.Sftp.C56_rmdir hR hE id (encString p) p [] (by rw [four]; omega)
      (by have := Proofs.Exchange.string_enc p [] (by omega); rwa [List.append_nil] at this)
    refine ⟨o, h1, ?_⟩
    simp only [wanted] at says ⊢
    cases hv : verdict d j E.isLink p <;> rw [hv] at h2 <;> simp only [hv] at says ⊢
    · obtain ⟨ok, h3, h4⟩ := h2
      exact says h4 (pick ok).1 (by rw [(pick ok).2]; exact h3)
    · exact says h2.2 (by decide) ⟨h2.1, rfl⟩
    · exact says h2.2 (by decide) ⟨h2.1, rfl⟩
  | remove p =>
    have hf : p.length + 4 < 2 ^ 31 := hf
    obtain ⟨o, h1, h2⟩ := Props.Sftp.C56_remove hR hE id (encString p) p [] (by rw [four]; omega)
      (by have := Proofs.Exchange.string_enc p [] (by omega); rwa [List.append_nil] at this)
    refine ⟨o, h1, ?_⟩
    simp only [wanted] at says ⊢
    cases hv : verdict d j E.isLink p <;> rw [hv] at h2 <;> simp only [hv] at says ⊢
    · obtain ⟨ok, h3, h4⟩ := h2
      exact says h4 (pick ok).1 (by rw [(pick ok).2]; exact h3)
    · exact says h2.2 (by decide) ⟨h2.1, rfl⟩
    · obtain ⟨h3, h4⟩ := h2
      split at h4
      · exact .inl h4
      · exact says h4 (by decide) ⟨h3, rfl⟩
  | mkdir p a =>
    obtain ⟨hf, ha⟩ := hf
    have := attr a
    obtain ⟨o, h1, h2⟩ := Props.Sftp.C56_mkdir hR hE id (encString p ++ encAttrs a) p (encAttrs a) a [] (by rw [List.length_append, four]; omega)
      (Proofs.Exchange.string_enc p _ (by omega)) (by have := Proofs.Sftp.attrs_enc a ha []; rwa [List.append_nil] at this)
    refine ⟨o, h1, ?_⟩
    simp only [wanted] at says ⊢
    cases hv : verdict d j E.isLink p <;> rw [hv] at h2 <;> simp only [hv] at says ⊢
    · obtain ⟨ok, h3, h4⟩ := h2
      exact says h4 (pick ok).1 (by rw [(pick ok).2]; exact h3)
    · exact says h2.2 (by decide) ⟨h2.1, rfl⟩
    · exact .inl h2.2
  | setstat p a =>
    obtain ⟨hf, ha⟩ := hf
    have := attr a
    obtain ⟨o, h1, h2⟩ := Props.Sftp.C56_setstat_partial hR hE id (encString p ++ encAttrs a) p (encAttrs a) a [] (by rw [List.length_append, four]; omega)
      (Proofs.Exchange.string_enc p _ (by omega)) (by have := Proofs.Sftp.attrs_enc a ha []; rwa [List.append_nil] at this)
    refine ⟨o, h1, ?_⟩
    simp only [wanted] at says ⊢
    have hr : a.perm.isSome := hr
    cases hv : verdict d j E.isLink p <;> rw [hv] at h2 <;> simp only [hv] at says ⊢
    · cases hm : a.perm with
      | none => rw [hm] at hr; cases hr
      | some m =>
        rw [hm] at h2
        simp only [hm] at says ⊢
        obtain ⟨ok, h3, h4⟩ := h2
        exact says h4 (pick ok).1 (by rw [(pick ok).2]; exact h3)
    · exact says h2.2 (by decide) ⟨h2.1, rfl⟩
    · exact says h2.2 (by decide) ⟨h2.1, rfl⟩
  | rename p q =>
    have hf : p.length + q.length + 8 < 2 ^ 31 := hf
    obtain ⟨o, h1, h2⟩ := Props.Sftp.C56_rename hR hE id (encString p ++ encString q) p (encString q) q [] (by rw [List.length_append, four, four]; omega)
      (Proofs.Exchange.string_enc p _ (by omega)) (by have := Proofs.Exchange.string_enc q [] (by omega); rwa [List.append_nil] at this)
    refine ⟨o, h1, ?_⟩
    simp only [wanted] at says ⊢
    cases hv : verdict d j E.isLink p <;> cases hw : verdict d j E.isLink q <;> rw [hv, hw] at h2 <;> simp only [hv, hw] at says ⊢
    · obtain ⟨ok, h3, h4⟩ := h2
      exact says h4 (pick ok).1 (by rw [(pick ok).2]; exact h3)
    all_goals exact says h2.2 (by decide) ⟨h2.1, rfl⟩

end Proofs.SftpOps
