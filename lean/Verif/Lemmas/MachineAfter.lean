import Verif.Lemmas.MachineSale
import Verif.Lemmas.Frame
/-!
# Claims, refunds, closing and the creator's instructions follow the reference semantics
-/

namespace Verif
open Spec

/-! ## Claims -/

theorem claim_room {w : World} (R : Reachable w) {a k : Addr} {p : Presale} {e : Escrow} {r : Registry}
    (hp : w.presales a = some p) (hk : w.escrows.get? k = some e) (ha : e.presale = a)
    (hr : p.registries[e.registryIndex]? = some r) (hc : Completed p w.clock) :
    (e.accrued (claimableAt p r e w.clock.toNat) w.clock.toNat).pendingClaimToken =
      claimableAt p r e w.clock.toNat - e.totalClaimedToken ∧
    e.totalClaimedToken + (claimableAt p r e w.clock.toNat - e.totalClaimedToken) < u64Bound ∧
    r.totalClaimedToken + (claimableAt p r e w.clock.toNat - e.totalClaimedToken) < u64Bound ∧
    p.totalClaimedToken + (claimableAt p r e w.clock.toNat - e.totalClaimedToken) < u64Bound := by
  have S := R.winv.core.sale _ _ hp
  have hend := S.over.1 hc.1
  obtain ⟨r', hr', E⟩ := S.pinv.escBook hk ha
  rw [hr] at hr'; cases hr'
  have ht := E.taken_le hend hc.2
  have P' := S.pinv.claim hk ha hr hend hc.2
  generalize hn : (e.accrued (claimableAt p r e w.clock.toNat) w.clock.toNat).pendingClaimToken = n at *
  have hn' : n = claimableAt p r e w.clock.toNat - e.totalClaimedToken := by
    rw [← hn]; simp only [Escrow.accrued]; omega
  have hT := P'.claimsDue (show p.presaleEndTime ≤ _ from hend) hc.2
  have hb' : books (p.claimed e.registryIndex r n) = books p := books_claimed hr
  have hTs : Spec.totalSold (p.claimed e.registryIndex r n) ≤ p.presaleSupply := by
    rw [totalSold_congr hb']; exact totalSold_le S.pinv.static
  have hlt := S.pinv.static.supplyLt
  have hpc : p.totalClaimedToken + n < u64Bound := by
    have : (p.claimed e.registryIndex r n).totalClaimedToken = p.totalClaimedToken + n := rfl
    omega
  have hrc : r.totalClaimedToken ≤ p.totalClaimedToken := by
    rw [S.pinv.book.totCl]; exact le_lsum (g := Registry.totalClaimedToken) hr
  have hle := claimableAt_lt S.pinv.static.bps (S.pinv.book.dep_le hk ha hr).1 w.clock.toNat
  have hsup := (S.pinv.static.supply_lt hr).2
  refine ⟨hn', ?_, ?_, ?_⟩ <;> omega

theorem claimed_zero {p : Presale} {i : Nat} {r : Registry} (hr : p.registries[i]? = some r) : p.claimed i r 0 = p := by
  have h : p.registries.set i { r with totalClaimedToken := r.totalClaimedToken + 0 } = p.registries :=
    List.set_self' hr
  unfold Presale.claimed
  rw [h]
  rfl

theorem does_claim {w : World} (R : Reachable w) {tx : Tx} {a : ClaimAcc} {w' : World} :
    (∃ rc, handleClaim w tx a = .ok (w', rc)) ↔ ∃ p e r n k', DoesClaim w tx a w' p e r n k' := by
  have W := R.winv
  constructor
  · rintro ⟨rc, hs⟩
    obtain ⟨p, m, e, h, e1, ex, F⟩ := handleClaim_iff.1 hs
    have S := W.core.sale _ _ F.presale
    have hc := S.progress_completed.1 F.progress
    obtain ⟨r, hr, E⟩ := S.pinv.escBook F.escrow F.belongs.1
    have hacc := S.pinv.accrue F.escrow F.belongs.1 hr F.handler (S.over.1 hc.1) hc.2
    rw [F.refresh] at hacc; cases hacc
    obtain ⟨hn, _, _, _⟩ := claim_room R F.presale F.escrow F.belongs.1 hr hc
    obtain ⟨v, hv, hvm, hcov⟩ := claim_covered R F.presale F.escrow F.belongs.1 hr hc
    have hdst := Option.isSome_iff_exists.1 F.dest
    rcases F.out with ⟨hpos, p', e', hooks, rest, tk, cpi, hcl, hparse, htr, hw, _⟩ | ⟨hz, hw, _⟩
    · obtain ⟨r', hr', _, _, _, hp', he'⟩ := claim_iff.1 hcl
      change p.registries[e.registryIndex]? = some r' at hr'
      rw [hr] at hr'; cases hr'
      have hpay := (payout_iff (kind := .transferHookBase) W.core (by rw [S.pinv.static.baseVault]; rfl) hv hvm
        hcov).1 ⟨hooks, rest, cpi, hparse, by
          have := htr; rw [← F.vault.1, ← F.vault.2, hn] at this; exact this⟩
      rw [hn] at hpos
      refine ⟨p, e, r, _, tk, F.presale, ⟨F.escrow, F.belongs.1, F.belongs.2⟩, hr, ⟨F.vault.1.symm, F.vault.2.symm⟩,
        F.signed, slicesInRange_iff.1 F.range, hc, hdst, rfl, fun h => by omega, fun _ => hpay, ?_⟩
      rw [hw, hp', he']
      unfold Escrow.paid
      rw [hn]
      rfl
    · rw [hn] at hz
      refine ⟨p, e, r, _, w.tk, F.presale, ⟨F.escrow, F.belongs.1, F.belongs.2⟩, hr, ⟨F.vault.1.symm, F.vault.2.symm⟩,
        F.signed, slicesInRange_iff.1 F.range, hc, hdst, rfl, fun _ => rfl, fun h => by omega, ?_⟩
      have h1 := claimed_zero hr
      unfold Presale.claimed at h1
      rw [hw, hz, h1, upd_eq_self F.presale]
      rw [hz] at hn
      unfold Escrow.accrued at hn ⊢
      simp only at hn
      rw [hn]
      rfl
  · rintro ⟨p, e, r, n, k', D⟩
    have S := W.core.sale _ _ D.presale
    obtain ⟨h, hh⟩ := S.pinv.static.handler
    have hc := D.completed
    have hacc := S.pinv.accrue D.escrow.1 D.escrow.2.1 D.registry hh (S.over.1 hc.1) hc.2
    obtain ⟨hn, he, hr, hp⟩ := claim_room R D.presale D.escrow.1 D.escrow.2.1 D.registry hc
    obtain ⟨v, hv, hvm, hcov⟩ := claim_covered R D.presale D.escrow.1 D.escrow.2.1 D.registry hc
    obtain ⟨m, hmint, _, _⟩ := S.baseMint
    obtain ⟨ex, hex⟩ := excluded_ok (W.core.feeOk _ _ hmint) n
    rw [← D.due] at hn he hr hp hcov
    have hva := D.accounts
    have hdst := Option.isSome_iff_exists.2 D.account
    by_cases hz : 0 < n
    · obtain ⟨hooks, rest, cpi, hparse, htr⟩ := (payout_iff (kind := .transferHookBase) W.core
        (by rw [S.pinv.static.baseVault]; rfl) hv hvm hcov).2 (D.payment hz)
      have F : ClaimFacts w tx a w' _ p m e h (e.accrued (claimableAt p r e w.clock.toNat) w.clock.toNat) ex :=
        { range := slicesInRange_iff.2 D.fits, presale := D.presale, vault := ⟨hva.1.symm, hva.2.symm⟩,
          mint := by rw [hva.2]; exact hmint, escrow := D.escrow.1, belongs := D.escrow.2, dest := hdst,
          signed := D.signed, clock := S.clock, progress := S.progress_completed.2 hc, handler := hh, refresh := hacc,
          net := by rw [hn]; exact hex,
          out := .inl ⟨by rw [hn]; exact hz, p.claimed e.registryIndex r n,
            (e.accrued (claimableAt p r e w.clock.toNat) w.clock.toNat).paid, hooks, rest, k', cpi,
            claim_iff.2 ⟨r, D.registry, by rw [hn]; exact he, by rw [hn]; exact hr, by rw [hn]; exact hp,
              by rw [hn]; rfl, rfl⟩, hparse, by rw [hn, hva.1, hva.2]; exact htr,
            by rw [D.post]; unfold Escrow.paid; rw [hn]; rfl, rfl⟩ }
      exact ⟨_, handleClaim_iff.2 ⟨_, _, _, _, _, _, F⟩⟩
    · have hz : n = 0 := by omega
      subst hz
      have F : ClaimFacts w tx a w' _ p m e h (e.accrued (claimableAt p r e w.clock.toNat) w.clock.toNat) ex :=
        { range := slicesInRange_iff.2 D.fits, presale := D.presale, vault := ⟨hva.1.symm, hva.2.symm⟩,
          mint := by rw [hva.2]; exact hmint, escrow := D.escrow.1, belongs := D.escrow.2, dest := hdst,
          signed := D.signed, clock := S.clock, progress := S.progress_completed.2 hc, handler := hh, refresh := hacc,
          net := by rw [hn]; exact hex,
          out := .inr ⟨hn, by
            have h1 := claimed_zero D.registry
            unfold Presale.claimed at h1
            rw [D.post, D.nothing rfl, h1, upd_eq_self D.presale]
            unfold Escrow.accrued at hn ⊢
            simp only at hn
            rw [hn]
            rfl, rfl⟩ }
      exact ⟨_, handleClaim_iff.2 ⟨_, _, _, _, _, _, F⟩⟩

theorem does_refresh {w : World} (R : Reachable w) {tx : Tx} {a : RefreshAcc} {w' : World} :
    (∃ rc, handleRefresh w tx a = .ok (w', rc)) ↔ ∃ p e r e', DoesRefresh w a w' p e r e' := by
  have W := R.winv
  have key : ∀ {p : Presale} {e : Escrow} {r : Registry}, w.presales a.presale = some p →
      w.escrows.get? a.escrow = some e → e.presale = a.presale → p.registries[e.registryIndex]? = some r →
      Completed p w.clock → e.accrued (claimableAt p r e w.clock.toNat) w.clock.toNat = { e with
        pendingClaimToken := claimableAt p r e w.clock.toNat - e.totalClaimedToken
        lastRefreshedAt := w.clock.toNat } := by
    intro p e r hp hk ha hr hc
    obtain ⟨hn, _⟩ := claim_room R hp hk ha hr hc
    unfold Escrow.accrued at hn ⊢
    simp only at hn
    rw [hn]
  constructor
  · rintro ⟨rc, hs⟩
    obtain ⟨p, e, e', F⟩ := (handleRefresh_iff (tx := tx)).1 hs
    have S := W.core.sale _ _ F.presale
    obtain ⟨r, hr, _, hre⟩ := refreshed_eq S.pinv F.escrow F.belongs
    rw [F.refresh] at hre
    cases hre
    refine ⟨p, e, r, _, F.presale, ⟨F.escrow, F.belongs⟩, hr, ?_, ?_, F.post⟩
    · intro hc; exact if_neg (fun h => hc (S.progress_completed.1 h))
    · intro hc
      rw [if_pos (S.progress_completed.2 hc)]
      exact key F.presale F.escrow F.belongs hr hc
  · rintro ⟨p, e, r, e', D⟩
    have S := W.core.sale _ _ D.presale
    obtain ⟨r', hr', _, hre⟩ := refreshed_eq S.pinv D.escrow.1 D.escrow.2
    rw [D.registry] at hr'; cases hr'
    refine ⟨_, (handleRefresh_iff (tx := tx)).2 ⟨p, e, e', D.presale, D.escrow.1, D.escrow.2, S.clock, ?_, D.post, rfl⟩⟩
    rw [hre]
    by_cases hc : Completed p w.clock
    · rw [if_pos (S.progress_completed.2 hc), D.completed hc, key D.presale D.escrow.1 D.escrow.2 D.registry hc]
    · rw [if_neg (fun h => hc (S.progress_completed.1 h)), D.early hc]

/-! ## Refunds -/

theorem refund_room {w : World} (R : Reachable w) {a k : Addr} {p : Presale} {e : Escrow} {r : Registry}
    (hp : w.presales a = some p) (hk : w.escrows.get? k = some e) (ha : e.presale = a)
    (hr : p.registries[e.registryIndex]? = some r) (hend : p.presaleEndTime ≤ w.clock.toNat)
    (hfirst : e.isRemainingQuoteWithdrawn = 0) :
    r.totalRefundedQuoteToken + owedRefund p r e < u64Bound ∧
    p.totalRefundedQuoteToken + owedRefund p r e < u64Bound := by
  have S := R.winv.core.sale _ _ hp
  have P' := S.pinv.refund hk ha hr hend (by omega) (x := owedRefund p r e) rfl
  have hT := P'.refundsDue (show p.presaleEndTime ≤ _ from hend)
  have hpool : lsum (refundPool (p.refunded e.registryIndex r (owedRefund p r e)))
      (p.refunded e.registryIndex r (owedRefund p r e)).registries ≤ p.totalDeposit + p.totalDepositFee := by
    by_cases hf : p.totalDeposit < p.presaleMinimumCap
    · have h1 := P'.book.totDep
      have h2 := P'.book.totFee
      have h3 : lsum (refundPool (p.refunded e.registryIndex r (owedRefund p r e)))
          (p.refunded e.registryIndex r (owedRefund p r e)).registries =
          lsum Registry.totalDeposit (p.refunded e.registryIndex r (owedRefund p r e)).registries +
          lsum Registry.totalDepositFee (p.refunded e.registryIndex r (owedRefund p r e)).registries := by
        rw [← lsum_add]
        apply lsum_congr
        intro i r' _
        unfold refundPool
        exact if_pos hf
      rw [h3, ← h1, ← h2]
      exact Nat.le_refl _
    · have := budget P'.book (show p.presaleMinimumCap ≤ p.totalDeposit by omega)
      have h3 : (p.refunded e.registryIndex r (owedRefund p r e)).totalDeposit = p.totalDeposit := rfl
      have h4 : (p.refunded e.registryIndex r (owedRefund p r e)).totalDepositFee = p.totalDepositFee := rfl
      omega
  have hbound := S.pinv.book.bound
  have hpt : p.totalRefundedQuoteToken + owedRefund p r e < u64Bound := by
    have : (p.refunded e.registryIndex r (owedRefund p r e)).totalRefundedQuoteToken =
      p.totalRefundedQuoteToken + owedRefund p r e := rfl
    omega
  have hrt : r.totalRefundedQuoteToken ≤ p.totalRefundedQuoteToken := by
    rw [S.pinv.book.totRef]; exact le_lsum (g := Registry.totalRefundedQuoteToken) hr
  exact ⟨by omega, hpt⟩

theorem does_refund {w : World} (R : Reachable w) {tx : Tx} {a : RefundAcc} {w' : World} :
    (∃ rc, handleRefund w tx a = .ok (w', rc)) ↔ ∃ p e r n k', DoesRefund w tx a w' p e r n k' := by
  have W := R.winv
  constructor
  · rintro ⟨rc, hs⟩
    obtain ⟨p, m, e, q, p', hooks, rest, ex, F⟩ := handleRefund_iff.1 hs
    have S := W.core.sale _ _ F.presale
    obtain ⟨r, hr, E⟩ := S.pinv.escBook F.escrow F.belongs.1
    have htot := S.pinv.refundTotal F.escrow F.belongs.1 hr F.quote
    obtain ⟨_, hend, hph⟩ := refundQuote_phase F.quote
    have hover := S.over.2 hend
    have hphase : Failed p w.clock ∨ (Completed p w.clock ∧ p.presaleMode = 1) :=
      hph.imp (fun h => ⟨hover, h⟩) (fun h => ⟨⟨hover, h.1⟩, h.2⟩)
    have hfirst : e.isRemainingQuoteWithdrawn = 0 := by
      have h1 : e.isRemainingQuoteWithdrawn ≠ 1 := by
        rw [Ne, ← taken_iff, F.fresh]; decide
      have := E.flag
      omega
    obtain ⟨v, hv, hvm, hcov⟩ := refund_covered R F.presale F.escrow F.belongs.1 hr hphase hfirst
    obtain ⟨r', hr', _, _, hp'⟩ := updateRefunded_iff.1 F.update
    rw [hr] at hr'; cases hr'
    rw [htot] at hp'
    have hdst := Option.isSome_iff_exists.1 F.dest
    rcases F.out with ⟨hpos, tk, cpi, htr, hw, _⟩ | ⟨hz, hw, _⟩
    · have hpay := (payout_iff (kind := .transferHookQuote) W.core (by rw [S.pinv.static.quoteVault]; rfl) hv hvm
        hcov).1 ⟨hooks, rest, cpi, F.parse, by
          have := htr; rw [← F.vault.1, ← F.vault.2, htot] at this; exact this⟩
      refine ⟨p, e, r, _, tk, F.presale, ⟨F.escrow, F.belongs.1, F.belongs.2⟩, hr, ⟨F.vault.1.symm, F.vault.2.symm⟩,
        F.signed, slicesInRange_iff.1 F.range, hphase, hfirst, hdst, rfl, readable_iff.1 ⟨_, _, F.parse⟩,
        fun h => by omega, fun _ => hpay, ?_⟩
      rw [hw, hp']; rfl
    · refine ⟨p, e, r, _, w.tk, F.presale, ⟨F.escrow, F.belongs.1, F.belongs.2⟩, hr, ⟨F.vault.1.symm, F.vault.2.symm⟩,
        F.signed, slicesInRange_iff.1 F.range, hphase, hfirst, hdst, rfl, readable_iff.1 ⟨_, _, F.parse⟩,
        fun _ => rfl, fun h => by omega, ?_⟩
      rw [hw, hp']; rfl
  · rintro ⟨p, e, r, n, k', D⟩
    have S := W.core.sale _ _ D.presale
    have hphase := D.phase
    have hend : p.presaleEndTime ≤ w.clock.toNat := by
      rcases hphase with h | h
      · exact S.over.1 h.1
      · exact S.over.1 h.1.1
    have hquote := S.pinv.refundQuote D.escrow.1 D.escrow.2.1 D.registry hend (hphase.imp (fun h => h.2) And.right)
    generalize hq : (if p.totalDeposit < p.presaleMinimumCap then
      (⟨e.totalDeposit, e.totalDepositFee⟩ : EscrowRemainingQuote)
         else ⟨refundDeposit p r e, refundFee p r e⟩) = q at hquote
    have htot := S.pinv.refundTotal D.escrow.1 D.escrow.2.1 D.registry hquote
    obtain ⟨hrr, hpp⟩ := refund_room R D.presale D.escrow.1 D.escrow.2.1 D.registry hend D.first
    obtain ⟨v, hv, hvm, hcov⟩ := refund_covered R D.presale D.escrow.1 D.escrow.2.1 D.registry hphase D.first
    obtain ⟨m, hmint, _, _⟩ := S.quoteMint
    obtain ⟨ex, hex⟩ := excluded_ok (W.core.feeOk _ _ hmint) n
    rw [← D.due] at htot hrr hpp hcov
    have hva := D.accounts
    have hdst := Option.isSome_iff_exists.2 D.account
    have hfresh : e.remainingQuoteWithdrawn = false := by
      unfold Escrow.remainingQuoteWithdrawn; rw [D.first]; rfl
    have hupd : p.updateTotalRefundedQuoteToken (q.refundDepositAmount + q.refundFeeAmount) e.registryIndex =
        .ok (p.refunded e.registryIndex r n) := by
      rw [htot]; exact updateRefunded_iff.2 ⟨r, D.registry, hrr, hpp, rfl⟩
    by_cases hz : 0 < n
    · obtain ⟨hooks, rest, cpi, hparse, htr⟩ := (payout_iff (kind := .transferHookQuote) W.core
        (by rw [S.pinv.static.quoteVault]; rfl) hv hvm hcov).2 (D.payment hz)
      have F : RefundFacts w tx a w' _ p m e q (p.refunded e.registryIndex r n) hooks rest ex :=
        { range := slicesInRange_iff.2 D.fits, presale := D.presale, vault := ⟨hva.1.symm, hva.2.symm⟩,
          mint := by rw [hva.2]; exact hmint, escrow := D.escrow.1, belongs := D.escrow.2, dest := hdst,
          signed := D.signed, fresh := hfresh, clock := S.clock, quote := hquote, sum := by omega, update := hupd,
          parse := hparse, net := by rw [htot]; exact hex,
          out := .inl ⟨by omega, k', cpi, by rw [htot, hva.1, hva.2]; exact htr, by rw [D.post]; rfl, rfl⟩ }
      exact ⟨_, handleRefund_iff.2 ⟨_, _, _, _, _, _, _, _, F⟩⟩
    · have hz : n = 0 := by omega
      obtain ⟨hooks, rest, hparse⟩ := readable_iff.2 D.readable
      have F : RefundFacts w tx a w' _ p m e q (p.refunded e.registryIndex r n) hooks rest ex :=
        { range := slicesInRange_iff.2 D.fits, presale := D.presale, vault := ⟨hva.1.symm, hva.2.symm⟩,
          mint := by rw [hva.2]; exact hmint, escrow := D.escrow.1, belongs := D.escrow.2, dest := hdst,
          signed := D.signed, fresh := hfresh, clock := S.clock, quote := hquote, sum := by omega, update := hupd,
          parse := hparse, net := by rw [htot]; exact hex,
          out := .inr ⟨by omega, by rw [D.post, D.nothing hz]; rfl, rfl⟩ }
      exact ⟨_, handleRefund_iff.2 ⟨_, _, _, _, _, _, _, _, F⟩⟩

/-! ## Closing an escrow -/

/-- Settled, in terms of what is owed. -/
theorem settled_due_iff {w : World} (W : WInv w) {a k : Addr} {p : Presale} {e : Escrow} {r : Registry}
    (hp : w.presales a = some p) (hk : w.escrows.get? k = some e) (ha : e.presale = a)
    (hr : p.registries[e.registryIndex]? = some r) :
    Settled w.clock.toNat p r e ↔ (¬ Over p w.clock → e.totalDeposit = 0 ∧ e.totalDepositFee = 0) ∧
      (Over p w.clock → refundDue p e = 0) ∧ (Completed p w.clock → claimDue p e = 0) := by
  have S := W.core.sale _ _ hp
  obtain ⟨r', hr', E⟩ := S.pinv.escBook hk ha
  rw [hr] at hr'; cases hr'
  rw [refundDue_eq hr, claimDue_eq hr]
  unfold Settled
  by_cases ho : Over p w.clock
  · have hend := S.over.1 ho
    rw [if_neg (by omega)]
    constructor
    · rintro ⟨h1, h2⟩
      exact ⟨fun h => absurd ho h, fun _ => h1, fun h => by rw [h2 h.2]; omega⟩
    · rintro ⟨_, h1, h2⟩
      refine ⟨h1 ho, fun hmin => ?_⟩
      have h3 := h2 ⟨ho, hmin⟩
      have h4 := E.taken_le hend hmin
      have h5 := claimableAt_le_entitlement S.pinv.sched r e w.clock.toNat
      omega
  · have hend : ¬ p.presaleEndTime ≤ w.clock.toNat := fun h => ho (S.over.2 h)
    rw [if_pos (by omega)]
    exact ⟨fun h => ⟨fun _ => h, fun h' => absurd h' ho, fun h' => absurd h'.1 ho⟩, fun h => h.1 ho⟩

theorem does_closeEscrow {w : World} (R : Reachable w) {tx : Tx} {a : CloseEscrowAcc} {w' : World} :
    (∃ rc, handleCloseEscrow w tx a = .ok (w', rc)) ↔ ∃ p e r, DoesCloseEscrow w tx a w' p e r := by
  have W := R.winv
  constructor
  · rintro ⟨rc, hs⟩
    obtain ⟨p, e, p', F⟩ := handleCloseEscrow_iff.1 hs
    have S := W.core.sale _ _ F.presale
    obtain ⟨r, hr, _, _, hp'⟩ := decreaseEscrowCount_iff.1 F.update
    obtain ⟨h1, h2, h3⟩ := (settled_due_iff W F.presale F.escrow F.belongs.1 hr).1
      ((S.pinv.closeChecks_iff F.escrow F.belongs.1 hr).1 F.checks)
    exact ⟨p, e, r, F.presale, ⟨F.escrow, F.belongs.1, F.belongs.2⟩, hr, F.receiver, F.signed, h1, h2, h3,
      by rw [F.post, hp']; rfl⟩
  · rintro ⟨p, e, r, D⟩
    have S := W.core.sale _ _ D.presale
    have hck := (S.pinv.closeChecks_iff D.escrow.1 D.escrow.2.1 D.registry).2
      ((settled_due_iff W D.presale D.escrow.1 D.escrow.2.1 D.registry).2 ⟨D.empty, D.settled, D.claimed⟩)
    have h1 : 1 ≤ r.totalEscrow := by
      rw [(S.pinv.book.reg _ _ D.registry).count]
      exact le_esum (f := fun _ => 1) (AMap.get?_mem D.escrow.1) D.escrow.2.1 rfl
    have h2 : 1 ≤ p.totalEscrow := by
      rw [S.pinv.book.totEsc]
      exact Nat.le_trans h1 (le_lsum (g := Registry.totalEscrow) D.registry)
    exact ⟨_, handleCloseEscrow_iff.2 ⟨p, e, _,
      { presale := D.presale, escrow := D.escrow.1, belongs := D.escrow.2, receiver := D.receiver, signed := D.signed,
        clock := S.clock, checks := hck, update := decreaseEscrowCount_iff.2 ⟨r, D.registry, h1, h2, rfl⟩,
        post := by rw [D.post]; rfl, receipt := rfl }⟩⟩


/-! ## The creator -/

theorem creator_covered {w : World} (R : Reachable w) {a mint vault : Addr} {p : Presale} {kind : AccountsType} {n : Nat}
    (hp : w.presales a = some p) (hg : CreatorGets p w.clock kind mint vault n) (hfirst : p.hasCreatorWithdrawn = 0) :
    vault.isVault = true ∧ ∃ v m, w.tk.toks vault = some v ∧ v.mint = mint ∧ n ≤ v.amount ∧
      w.tk.mints mint = some m := by
  have S := R.winv.core.sale _ _ hp
  rcases hg with ⟨hc, rfl, rfl, rfl, rfl⟩ | ⟨hf, rfl, rfl, rfl, rfl⟩
  · obtain ⟨qv, hqv, hqm, _, _, _, _, hcomp⟩ := C01_quote_solvent R hp
    obtain ⟨m, hmint, _, _⟩ := S.quoteMint
    rw [S.pinv.static.quoteVault]
    refine ⟨rfl, qv, m, hqv, hqm, ?_, hmint⟩
    have := hcomp hc
    unfold creatorDue at this
    rw [if_neg (by omega)] at this
    omega
  · obtain ⟨bv, hbv, hbm, _, _, _, hfail, _⟩ := C02_base_solvent R hp
    obtain ⟨m, hmint, _, _⟩ := S.baseMint
    rw [S.pinv.static.baseVault]
    exact ⟨rfl, bv, m, hbv, hbm, hfail hf hfirst, hmint⟩

theorem does_creatorWithdraw {w : World} (R : Reachable w) {tx : Tx} {a : CreatorWithdrawAcc} {w' : World} :
    (∃ rc, handleCreatorWithdraw w tx a = .ok (w', rc)) ↔
      ∃ p kind mint vault n left k', DoesCreatorWithdraw w tx a w' p kind mint vault n left k' := by
  have W := R.winv
  constructor
  · rintro ⟨rc, hs⟩
    obtain ⟨p, c, hooks, rest, tk, cpi, m, ex, F⟩ := handleCreatorWithdraw_iff.1 hs
    have S := W.core.sale _ _ F.presale
    have hfirst : p.hasCreatorWithdrawn = 0 := by
      have := F.first
      unfold Presale.creatorWithdrawn at this
      simpa using this
    have hpayout := F.payout
    have htr := F.transfer
    have hshape := creatorPayout_shape hpayout
    have hg : CreatorGets p w.clock c.hookType c.mint c.vault c.amount ∧
        transferTokens w.tk .presaleAuthority c.mint c.vault a.ownerToken a.tokenProgram c.amount
          (hooks.get c.hookType) tx.accept = .ok (tk, cpi) := by
      rcases F.progress with h | h
      · rw [h] at hpayout
        obtain ⟨c1, c2, c3, c4, _⟩ := creatorPayout_completed hpayout
        rw [if_pos h] at htr
        refine ⟨.inl ⟨S.progress_completed.1 h, c4, c3, c2, c1⟩, ?_⟩
        rw [c4]; exact htr
      · rw [h] at hpayout
        obtain ⟨c1, c2, c3, c4, _⟩ := creatorPayout_failed hpayout
        rw [if_neg (by rw [h]; decide)] at htr
        refine ⟨.inr ⟨S.progress_failed.1 h, c4, c3, c2, c1⟩, ?_⟩
        rw [c4]; exact htr
    obtain ⟨hvk, v, m', hv, hvm, hcov, hm⟩ := creator_covered R F.presale hg.1 hfirst
    have hpay := (payout_iff (kind := c.hookType) W.core hvk hv hvm hcov).1 ⟨hooks, rest, cpi, F.parse, hg.2⟩
    exact ⟨p, c.hookType, c.mint, c.vault, c.amount, c.rest, tk, ⟨F.presale, F.owner⟩, F.signed,
      slicesInRange_iff.1 F.range, hg.1, hfirst, hshape, hpay.1, hpay.2, F.post⟩
  · rintro ⟨p, kind, mint, vault, n, left, k', D⟩
    have S := W.core.sale _ _ D.presale.1
    have hg := D.gets
    obtain ⟨hvk, v, m, hv, hvm, hcov, hm⟩ := creator_covered R D.presale.1 hg D.first
    obtain ⟨hooks, rest, cpi, hparse, htr⟩ := (payout_iff (kind := kind) W.core hvk hv hvm hcov).2 ⟨D.hooks, D.payment⟩
    obtain ⟨ex, hex⟩ := excluded_ok (W.core.feeOk _ _ hm) n
    have hfst : p.creatorWithdrawn = false := by unfold Presale.creatorWithdrawn; rw [D.first]; rfl
    have F : CreatorWithdrawFacts w tx a w' _ p ⟨n, vault, mint, kind, left⟩ hooks rest k' cpi m ex :=
      { range := slicesInRange_iff.2 D.fits, presale := D.presale.1, owner := D.presale.2, signed := D.signed,
        clock := S.clock,
        progress := by
          rcases hg with h | h
          · exact .inl (S.progress_completed.2 h.1)
          · exact .inr (S.progress_failed.2 h.1)
        first := hfst,
        payout := by
          rcases hg with ⟨h, rfl, rfl, rfl, rfl⟩ | ⟨h, rfl, rfl, rfl, rfl⟩
          · rw [S.progress_completed.2 h, D.accounts]
            unfold creatorPayout
            simp only []
            rw [takeVaultAndMint_ok (by rw [hv]; rfl) (by rw [hm]; rfl)]
            rfl
          · rw [S.progress_failed.2 h, D.accounts]
            unfold creatorPayout
            simp only []
            rw [takeVaultAndMint_ok (by rw [hv]; rfl) (by rw [hm]; rfl)]
            rfl
        parse := hparse,
        transfer := by
          rcases hg with ⟨h, rfl, _⟩ | ⟨h, rfl, _⟩
          · rw [if_pos (S.progress_completed.2 h)]; exact htr
          · rw [if_neg (by rw [S.progress_failed.2 h]; decide)]; exact htr
        mint := hm, net := hex, post := by rw [D.post]; rfl, receipt := rfl }
    exact ⟨_, handleCreatorWithdraw_iff.2 ⟨_, _, _, _, _, _, _, _, F⟩⟩

theorem does_collectFee {w : World} (R : Reachable w) {tx : Tx} {a : CollectFeeAcc} {w' : World} :
    (∃ rc, handleCollectFee w tx a = .ok (w', rc)) ↔ ∃ p k', DoesCollectFee w tx a w' p k' := by
  have W := R.winv
  have key : ∀ {p : Presale}, w.presales a.presale = some p → Completed p w.clock → p.depositFeeCollected = 0 →
      ∃ v, w.tk.toks p.quoteTokenVault = some v ∧ v.mint = p.quoteMint ∧ collectableFee p ≤ v.amount := by
    intro p hp hc hfirst
    obtain ⟨qv, hqv, hqm, _, _, _, _, hcomp⟩ := C01_quote_solvent R hp
    rw [(W.core.sale _ _ hp).pinv.static.quoteVault]
    refine ⟨qv, hqv, hqm, ?_⟩
    have := hcomp hc
    unfold creatorDue at this
    rw [if_neg (c := p.depositFeeCollected = 1) (by omega)] at this
    omega
  constructor
  · rintro ⟨rc, hs⟩
    obtain ⟨p, m, fee, ex, F⟩ := handleCollectFee_iff.1 hs
    have S := W.core.sale _ _ F.presale
    have hc := S.progress_completed.1 F.progress.1
    have hfirst : p.depositFeeCollected = 0 := by
      have h1 := F.progress.2
      unfold Presale.feeCollected at h1
      have h2 : p.depositFeeCollected ≠ 1 := by simpa using h1
      have := S.pinv.flags.f
      omega
    have hfee := F.amount
    rw [S.pinv.collectedFee] at hfee; cases hfee
    obtain ⟨v, hv, hvm, hcov⟩ := key F.presale hc hfirst
    have hdst := Option.isSome_iff_exists.1 F.dest
    rcases F.out with ⟨hpos, hooks, rest, tk, cpi, hparse, htr, hw, _⟩ | ⟨hz, hw, _⟩
    · have hpay := (payout_iff (kind := .transferHookQuote) W.core (by rw [S.pinv.static.quoteVault]; rfl) hv hvm
        hcov).1 ⟨hooks, rest, cpi, hparse, by
          have := htr; rw [← F.owner.2.1, ← F.owner.2.2] at this; exact this⟩
      exact ⟨p, tk, ⟨F.presale, F.owner.1⟩, F.signed, slicesInRange_iff.1 F.range,
        ⟨F.owner.2.2.symm, F.owner.2.1.symm⟩, hdst, hc, hfirst, fun h => by omega, fun _ => hpay, hw⟩
    · exact ⟨p, w.tk, ⟨F.presale, F.owner.1⟩, F.signed, slicesInRange_iff.1 F.range,
        ⟨F.owner.2.2.symm, F.owner.2.1.symm⟩, hdst, hc, hfirst, fun _ => rfl, fun h => by omega, hw⟩
  · rintro ⟨p, k', D⟩
    have S := W.core.sale _ _ D.presale.1
    obtain ⟨v, hv, hvm, hcov⟩ := key D.presale.1 D.completed D.first
    obtain ⟨m, hmint, _, _⟩ := S.quoteMint
    obtain ⟨ex, hex⟩ := excluded_ok (W.core.feeOk _ _ hmint) (collectableFee p)
    have hva := D.accounts
    have hout : ∃ rc : Receipt, (0 < collectableFee p ∧ ∃ hooks rest tk cpi,
        parseHooks a.remaining a.slices [.transferHookQuote] = .ok (hooks, rest) ∧
        transferTokens w.tk .presaleAuthority a.quoteMint a.quoteTokenVault a.feeReceivingAccount
          a.tokenProgram (collectableFee p) hooks.quote tx.accept = .ok (tk, cpi) ∧
        w' = { w with presales := upd w.presales a.presale (some p.setDepositFeeCollected), tk := tk } ∧
        rc = { event := some (.creatorCollectFee a.presale a.owner ex), cpis := [cpi] }) ∨
      (collectableFee p = 0 ∧
        w' = { w with presales := upd w.presales a.presale (some p.setDepositFeeCollected) } ∧
        rc = { event := some (.creatorCollectFee a.presale a.owner ex), cpis := [] }) := by
      by_cases hz : 0 < collectableFee p
      · obtain ⟨hooks, rest, cpi, hparse, htr⟩ := (payout_iff (kind := .transferHookQuote) W.core
          (by rw [S.pinv.static.quoteVault]; rfl) hv hvm hcov).2 (D.payment hz)
        exact ⟨_, .inl ⟨hz, hooks, rest, k', cpi, hparse, by rw [hva.1, hva.2]; exact htr, D.post, rfl⟩⟩
      · have hz : collectableFee p = 0 := by omega
        exact ⟨_, .inr ⟨hz, by rw [D.post, D.nothing hz]; rfl, rfl⟩⟩
    obtain ⟨rc, hout⟩ := hout
    have F : CollectFeeFacts w tx a w' rc p m (collectableFee p) ex :=
      { range := slicesInRange_iff.2 D.fits, presale := D.presale.1,
        owner := ⟨D.presale.2, hva.2.symm, hva.1.symm⟩,
        mint := by rw [hva.2]; exact hmint, dest := Option.isSome_iff_exists.2 D.account, signed := D.signed,
        clock := S.clock,
        progress := ⟨S.progress_completed.2 D.completed, by unfold Presale.feeCollected; rw [D.first]; rfl⟩,
        amount := S.pinv.collectedFee, net := hex, out := hout }
    exact ⟨_, handleCollectFee_iff.2 ⟨_, _, _, _, F⟩⟩

theorem does_unsold {w : World} (R : Reachable w) {tx : Tx} {a : UnsoldAcc} {w' : World} :
    (∃ rc, handleUnsold w tx a = .ok (w', rc)) ↔ ∃ p d k', DoesUnsold w tx a w' p d k' := by
  have W := R.winv
  have key : ∀ {p : Presale}, w.presales a.presale = some p → Completed p w.clock →
      p.isUnsoldTokenActionPerformed = 0 → ∃ v, w.tk.toks p.baseTokenVault = some v ∧ v.mint = p.baseMint ∧
        p.presaleSupply - totalSold p ≤ v.amount := by
    intro p hp hc hfirst
    obtain ⟨bv, hbv, hbm, hown, hdel, _, _, hcomp⟩ := C02_base_solvent R hp
    rw [(W.core.sale _ _ hp).pinv.static.baseVault]
    refine ⟨bv, hbv, hbm, ?_⟩
    have := hcomp hc
    rw [if_neg (by omega)] at this
    omega
  constructor
  · rintro ⟨rc, hs⟩
    obtain ⟨p, c, h, unsold, tk, cpi, F⟩ := handleUnsold_iff.1 hs
    have S := W.core.sale _ _ F.presale
    have hc := S.progress_completed.1 F.progress
    have hfirst : p.isUnsoldTokenActionPerformed = 0 := by
      have := F.first
      unfold Presale.unsoldActionPerformed at this
      simpa using this
    have hn := F.amount
    rw [S.pinv.unsold F.handler] at hn; cases hn
    obtain ⟨v, hv, hvm, hcov⟩ := key F.presale hc hfirst
    have hpos := F.pos
    have hvk : p.baseTokenVault.isVault = true := by rw [S.pinv.static.baseVault]; rfl
    refine ⟨p, c, tk, F.presale, slicesInRange_iff.1 F.range,
      ⟨F.vault.1.symm, F.vault.2.symm, by rw [F.vault.2]; exact F.ata.1⟩,
      ⟨F.dest, F.ata.2.1, by rw [F.vault.2]; exact F.ata.2.2⟩, hc, hfirst, by omega, ?_, ?_, F.post⟩
    · intro hact
      have hperf := F.perform
      rw [hact] at hperf
      exact (burn_iff W.core hvk hv hvm hcov).1 ⟨cpi, by rw [F.vault.1, F.vault.2]; exact hperf⟩
    · intro hact
      have hperf := F.perform
      rw [show UnsoldTokenAction.ofByte p.unsoldTokenAction = .refund from if_neg hact] at hperf
      simp only [performUnsold, bind_eq_ok, Prod.exists] at hperf
      obtain ⟨hooks, rest, hparse, htr⟩ := hperf
      exact (payout_iff (kind := .transferHookBase) W.core hvk hv hvm hcov).1 ⟨hooks, rest, cpi, hparse,
        by rw [F.vault.1, F.vault.2]; exact htr⟩
  · rintro ⟨p, d, k', D⟩
    have S := W.core.sale _ _ D.presale
    obtain ⟨h, hh⟩ := S.pinv.static.handler
    obtain ⟨v, hv, hvm, hcov⟩ := key D.presale D.completed D.first
    have hvk : p.baseTokenVault.isVault = true := by rw [S.pinv.static.baseVault]; rfl
    obtain ⟨hv1, hv2, hv3⟩ := D.accounts
    have hleft := D.left
    have hperf : ∃ cpi, performUnsold w tx a (UnsoldTokenAction.ofByte p.unsoldTokenAction)
        (p.presaleSupply - totalSold p) = .ok (k', cpi) := by
      by_cases hact : p.unsoldTokenAction = 1
      · obtain ⟨cpi, hb⟩ := (burn_iff W.core hvk hv hvm hcov).2 (D.burn hact)
        rw [hact]
        exact ⟨cpi, by rw [← hv1, ← hv2] at hb; exact hb⟩
      · rw [show UnsoldTokenAction.ofByte p.unsoldTokenAction = .refund from if_neg hact]
        obtain ⟨hooks, rest, cpi, hparse, htr⟩ :=
          (payout_iff (kind := .transferHookBase) W.core hvk hv hvm hcov).2 (D.refund hact)
        refine ⟨cpi, ?_⟩
        simp only [performUnsold, bind_eq_ok, Prod.exists]
        exact ⟨hooks, rest, hparse, by rw [hv1, hv2]; exact htr⟩
    obtain ⟨cpi, hperf⟩ := hperf
    have F : UnsoldFacts w tx a w' _ p d h (p.presaleSupply - totalSold p) k' cpi :=
      { range := slicesInRange_iff.2 D.fits, presale := D.presale, vault := ⟨hv1.symm, hv2.symm⟩,
        dest := D.account.1, ata := ⟨by rw [hv2]; exact hv3, D.account.2.1, by rw [hv2]; exact D.account.2.2⟩,
        clock := S.clock, progress := S.progress_completed.2 D.completed,
        first := by unfold Presale.unsoldActionPerformed; rw [D.first]; rfl,
        handler := hh, amount := S.pinv.unsold hh, pos := by omega, perform := hperf,
        post := by rw [D.post]; rfl, receipt := rfl }
    exact ⟨_, handleUnsold_iff.2 ⟨_, _, _, _, _, _, F⟩⟩


end Verif
