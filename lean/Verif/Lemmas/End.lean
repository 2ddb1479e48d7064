import Verif.Lemmas.After
/-!
# Settling an ended sale
-/

namespace Verif
open Spec

/-- What must be true of an escrow for its account to be closed. -/
def Settled (t : Nat) (p : Presale) (r : Registry) (e : Escrow) : Prop :=
  if t < p.presaleEndTime then e.totalDeposit = 0 ∧ e.totalDepositFee = 0
  else outstanding p r e = 0 ∧ (p.presaleMinimumCap ≤ p.totalDeposit → e.totalClaimedToken = entitlement p r e)

theorem refundQuote_refused {t : Nat} {p : Presale} {e : Escrow} {h : Handler}
    (hh : getPresaleModeHandler p = .ok h) (hm : p.presaleMode ≠ 1)
    (hp : p.getPresaleProgress t = .completed) :
    p.validateAndGetEscrowRemainingQuote e t = .error (.p .presaleNotOpenForWithdrawRemainingQuote) := by
  unfold Presale.validateAndGetEscrowRemainingQuote Presale.allowWithdrawRemainingQuote
  rw [castMode_of_handler hh, hp, if_neg hm]
  have : ∀ m : PresaleMode, m ≠ .prorata →
      ((PresaleProgress.completed == .failed) || ((PresaleProgress.completed == .completed) && m == .prorata)) =
        false := by
    intro m hm; cases m <;> first | rfl | exact absurd rfl hm
  by_cases h2 : p.presaleMode = 2
  · rw [if_pos h2]
    simp only [pure_bind', ok_bind]
    rw [this _ (by decide)]
    rfl
  · rw [if_neg h2]
    simp only [pure_bind', ok_bind]
    rw [this _ (by decide)]
    rfl

theorem owed_zero_of_mode {p : Presale} {r : Registry} {e : Escrow} (hm : p.presaleMode ≠ 1)
    (hmin : p.presaleMinimumCap ≤ p.totalDeposit) : owedRefund p r e = 0 := by
  unfold owedRefund refundDeposit refundFee
  rw [if_neg (by omega), if_neg hm, if_neg hm]

theorem outstanding_zero {p : Presale} {r : Registry} {e : Escrow} :
    outstanding p r e = 0 ↔ e.isRemainingQuoteWithdrawn = 1 ∨ owedRefund p r e = 0 := by
  unfold outstanding
  by_cases h : e.isRemainingQuoteWithdrawn = 1
  · rw [if_pos h]; exact ⟨fun _ => .inl h, fun _ => rfl⟩
  · rw [if_neg h]; exact ⟨fun h => .inr h, fun h' => h'.resolve_left h⟩

theorem taken_iff {e : Escrow} : e.remainingQuoteWithdrawn = true ↔ e.isRemainingQuoteWithdrawn = 1 := by
  unfold Escrow.remainingQuoteWithdrawn; simp

/-- The refund check of a completed sale. -/
theorem PInv.refundTaken_iff {t : Nat} {a k : Addr} {p : Presale} {es : AMap Addr Escrow} {e : Escrow}
    {r : Registry} (P : PInv t a p es) (hk : es.get? k = some e) (ha : e.presale = a)
    (hr : p.registries[e.registryIndex]? = some r) (hend : p.presaleEndTime ≤ t)
    (hmin : p.presaleMinimumCap ≤ p.totalDeposit) :
    ensureRefundTaken e (p.validateAndGetEscrowRemainingQuote e t) = .ok () ↔ outstanding p r e = 0 := by
  obtain ⟨h, hh⟩ := P.static.handler
  have hprog := progress_completed.2 ⟨Nat.le_trans P.sched.order hend, hend, hmin⟩
  rw [outstanding_zero]
  by_cases hm : p.presaleMode = 1
  · have hq := P.refundQuote hk ha hr hend (.inr hm)
    have htot := P.refundTotal hk ha hr hq
    rw [hq]
    revert htot
    generalize (if p.totalDeposit < p.presaleMinimumCap then
      (⟨e.totalDeposit, e.totalDepositFee⟩ : EscrowRemainingQuote)
      else ⟨refundDeposit p r e, refundFee p r e⟩) = q
    intro htot
    unfold ensureRefundTaken
    simp only
    by_cases hz : q.refundDepositAmount > 0 ∨ q.refundFeeAmount > 0
    · rw [if_pos hz, require_eq_ok, taken_iff]
      constructor
      · exact .inl
      · rintro (h | h)
        · exact h
        · omega
    · rw [if_neg hz]
      exact ⟨fun _ => .inr (by omega), fun _ => rfl⟩
  · rw [refundQuote_refused hh hm hprog]
    have h0 := owed_zero_of_mode (r := r) (e := e) hm hmin
    constructor
    · intro _; exact .inr h0
    · intro _
      unfold ensureRefundTaken
      simp

theorem PInv.started {t : Nat} {a k : Addr} {p : Presale} {es : AMap Addr Escrow} {e : Escrow}
    (P : PInv t a p es) (hk : es.get? k = some e) (ha : e.presale = a) : p.presaleStartTime ≤ t := by
  obtain ⟨r, _, E⟩ := P.escBook hk ha
  have := E.created; have := E.refreshed0; have := E.refreshed
  omega

/-- The checks before closing an escrow pass exactly if it is settled. -/
theorem PInv.closeChecks_iff {t : Nat} {a k : Addr} {p : Presale} {es : AMap Addr Escrow} {e : Escrow}
    {r : Registry} (P : PInv t a p es) (hk : es.get? k = some e) (ha : e.presale = a)
    (hr : p.registries[e.registryIndex]? = some r) :
    closeChecks p e t = .ok () ↔ Settled t p r e := by
  have hst := P.started hk ha
  unfold Settled
  by_cases ht : t < p.presaleEndTime
  · rw [if_pos ht]
    unfold closeChecks
    rw [progress_ongoing.2 ⟨hst, ht⟩]
    simp only [require_eq_ok]
  · rw [if_neg ht]
    have hend : p.presaleEndTime ≤ t := by omega
    by_cases hmin : p.presaleMinimumCap ≤ p.totalDeposit
    · obtain ⟨h, hh⟩ := P.static.handler
      have hv : p.vestingStartTime + p.vestDuration < u64Bound := by
        have := P.sched.range; have := P.sched.timing; omega
      have e1 : ensureDoneClaimAndRefund p e t = .ok () ↔
          ensureRefundTaken e (p.validateAndGetEscrowRemainingQuote e t) = .ok () ∧
          e.totalClaimedToken = entitlement p r e := by
        unfold ensureDoneClaimAndRefund
        have hc := P.cumulative hk ha hr hh (p.vestingStartTime + p.vestDuration)
        rw [claimableAt_vestingEnd P.sched] at hc
        simp only [bind_eq_ok, hh, add64_ok hv, ok_eq_ok, require_eq_ok]
        constructor
        · rintro ⟨_, h1, _, rfl, _, rfl, c, h2, h3⟩
          rw [hc] at h2
          cases h2
          exact ⟨h1, h3⟩
        · rintro ⟨h1, h2⟩
          exact ⟨(), h1, _, rfl, _, rfl, _, hc, h2⟩
      unfold closeChecks
      rw [progress_completed.2 ⟨hst, hend, hmin⟩]
      simp only [e1, P.refundTaken_iff hk ha hr hend hmin]
      exact ⟨fun h => ⟨h.1, fun _ => h.2⟩, fun h => ⟨h.1, h.2 hmin⟩⟩
    · unfold closeChecks
      rw [progress_failed.2 ⟨hst, hend, by omega⟩]
      simp only [require_eq_ok, taken_iff, outstanding_zero]
      have : owedRefund p r e = e.totalDeposit + e.totalDepositFee := by
        unfold owedRefund; rw [if_pos (by omega)]
      rw [this]
      constructor
      · rintro h; exact ⟨by omega, fun h => absurd h hmin⟩
      · rintro ⟨h, _⟩; omega

end Verif
