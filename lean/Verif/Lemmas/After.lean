import Verif.Lemmas.Moves
/-!
# Escrows after the end of their sale
-/

namespace Verif
open Spec

/-- How escrow `e` of an ended sale may look later. -/
structure EAfter (e e' : Escrow) : Prop where
  identity : SameIdentity e e'
  deposit : e'.totalDeposit = e.totalDeposit
  fee : e'.totalDepositFee = e.totalDepositFee
  claimed : e.totalClaimedToken ≤ e'.totalClaimedToken
  taken : e.totalClaimedToken + e.pendingClaimToken ≤ e'.totalClaimedToken + e'.pendingClaimToken
  flag : e.isRemainingQuoteWithdrawn = 1 → e'.isRemainingQuoteWithdrawn = 1

theorem EAfter.refl (e : Escrow) : EAfter e e :=
  ⟨.refl e, rfl, rfl, Nat.le_refl _, Nat.le_refl _, id⟩

theorem EAfter.trans {e e' e'' : Escrow} (h : EAfter e e') (h' : EAfter e' e'') : EAfter e e'' :=
  ⟨h.identity.trans h'.identity, h'.deposit.trans h.deposit, h'.fee.trans h.fee,
    Nat.le_trans h.claimed h'.claimed, Nat.le_trans h.taken h'.taken, h'.flag ∘ h.flag⟩

theorem EChange.after {w : World} {p : Presale} {k : Addr} {e : Escrow} {tx : Tx} {i : Ix} {o : Option Escrow}
    (h : EChange w p k e tx i o) (ho : p.presaleEndTime ≤ w.clock.toNat) :
    ∀ e', o = some e' → EAfter e e' := by
  cases h with
  | deposit _ _ _ F => have := F.open_; omega
  | withdraw _ _ _ F => have := F.open_; omega
  | refreshed =>
    intro e' h; cases h
    exact ⟨⟨rfl, rfl, rfl, rfl, rfl⟩, rfl, rfl, Nat.le_refl _, by simp only [Escrow.accrued]; omega, id⟩
  | claimed =>
    intro e' h; cases h
    exact ⟨⟨rfl, rfl, rfl, rfl, rfl⟩, rfl, rfl, by simp only [Escrow.accrued, Escrow.paid]; omega,
      by simp only [Escrow.accrued, Escrow.paid]; omega, id⟩
  | refunded =>
    intro e' h; cases h
    exact ⟨⟨rfl, rfl, rfl, rfl, rfl⟩, rfl, rfl, Nat.le_refl _, Nat.le_refl _, fun _ => rfl⟩
  | closed => intro e' h; cases h

theorem step_after {w w' : World} {op : Op} {rc : Receipt} (W : WInv w) (hs : step w op = .ok (w', rc))
    {a k : Addr} {p : Presale} (hp : w.presales a = some p) (ho : Over p w.clock) {e' : Escrow}
    (hk : w'.escrows.get? k = some e') (ha : e'.presale = a) :
    ∃ e, w.escrows.get? k = some e ∧ EAfter e e' := by
  have S := W.core.sale a p hp
  cases h : w.escrows.get? k with
  | none =>
    obtain ⟨_, _, p1, _, hp1, hon, _⟩ := step_opening W hs h hk
    rw [ha, hp] at hp1
    cases hp1
    unfold Over at ho
    have := hon.2
    omega
  | some e =>
    refine ⟨e, rfl, ?_⟩
    rcases (step_effect W hs).escrow W h with h1 | ⟨tx, i, p1, _, hp1, _, hc⟩
    · rw [hk] at h1; cases h1; exact .refl _
    · have hid := hc.identity e' hk
      rw [← hid.presale, ha, hp] at hp1
      cases hp1
      exact hc.after (S.over.1 ho) e' hk

/-- Every escrow of an ended sale found later was there before. -/
theorem run_after {w : World} (W : WInv w) (ops : List Op) {a k : Addr} {p : Presale}
    (hp : w.presales a = some p) (ho : Over p w.clock) {e' : Escrow}
    (hk : (run w ops).escrows.get? k = some e') (ha : e'.presale = a) :
    ∃ e, w.escrows.get? k = some e ∧ EAfter e e' := by
  have key := run_rel (R := fun w w' => (∀ a p, w.presales a = some p →
        ∃ p', w'.presales a = some p' ∧ Later w.clock w'.clock p p') ∧
      ∀ a p k e', w.presales a = some p → Over p w.clock → w'.escrows.get? k = some e' → e'.presale = a →
        ∃ e, w.escrows.get? k = some e ∧ EAfter e e')
    (fun w => ⟨fun a p hp => ⟨p, hp, .refl _ _⟩, fun a p k e' _ _ h _ => ⟨e', h, .refl _⟩⟩)
    (fun w1 w2 w3 h1 h2 => by
      refine ⟨fun a p hp => ?_, fun a p k e'' hp ho hk ha => ?_⟩
      · obtain ⟨p', hp', L⟩ := h1.1 a p hp
        obtain ⟨p'', hp'', L'⟩ := h2.1 a p' hp'
        exact ⟨p'', hp'', L.trans L'⟩
      · obtain ⟨p', hp', L⟩ := h1.1 a p hp
        obtain ⟨e', he', A'⟩ := h2.2 a p' k e'' hp' (L.over ho) hk ha
        obtain ⟨e, he, A⟩ := h1.2 a p k e' hp ho he' (A'.identity.presale.symm.trans ha)
        exact ⟨e, he, A.trans A'⟩)
    (fun _ _ _ _ W h => ⟨fun _ _ hp => (step_effect W h).later W hp,
      fun _ _ _ _ hp ho hk ha => step_after W h hp ho hk ha⟩) W ops
  exact key.2 a p k e' hp ho hk ha

end Verif
