import Verif.Lemmas.Errors
/-!
# Error codes of the instructions after the sale
-/

namespace Verif
open Spec

theorem errs_claim {w : World} (R : Reachable w) {tx : Tx} {a : ClaimAcc} :
    Errs (Because w (.claim a)) (handleClaim w tx a) := by
  have W := R.winv
  refine errs_reqx fun _ => errs_loads fun p hp => errs_reqx fun hva => errs_loads fun m hm =>
    errs_loads fun e he => errs_reqx fun hb => errs_reqx fun _ => errs_reqx fun _ => ?_
  have S := W.core.sale _ _ hp
  obtain ⟨r, hr, E⟩ := S.pinv.escBook he hb.1
  rw [← hva.2] at hm
  refine errs_time S.clock (errs_req (fun h => ⟨p, e, r, m, hp, he, hr, hm, fun hc => h (S.progress_completed.2 hc)⟩)
    fun hc => ?_)
  have hc := S.progress_completed.1 hc
  obtain ⟨h, hh⟩ := S.pinv.static.handler
  obtain ⟨hn, h1, h2, h3⟩ := claim_room R hp he hb.1 hr hc
  refine errs_known hh (errs_known (S.pinv.accrue he hb.1 hr hh (S.over.1 hc.1) hc.2) ?_)
  dsimp only
  rw [hn]
  obtain ⟨ex, hex⟩ := excluded_ok (W.core.feeOk _ _ hm) (claimableAt p r e w.clock.toNat - e.totalClaimedToken)
  refine errs_known hex ?_
  split
  · next hpos =>
    have hlt : e.totalClaimedToken < claimableAt p r e w.clock.toNat := by omega
    have key : ∀ x, HookReason .transferHookBase m a.remaining a.slices x → Because w (.claim a) x := by
      intro x hx
      refine ⟨p, e, r, m, hp, he, hr, hm, ?_⟩
      cases x <;> first | exact ⟨hc, hlt, hx⟩ | exact hx.elim
    refine errs_known (claim_iff.2 ⟨r, hr, by rw [hn]; exact h1, by rw [hn]; exact h2, by rw [hn]; exact h3, rfl, rfl⟩)
      (errs_bind ((errs_parse m).mono key) fun hooks hparse => errs_bind ?_ fun _ _ => errs_pure _)
    rw [← hva.2]
    exact (errs_move (kind := .transferHookBase) hm hparse).mono key
  · exact errs_pure _

theorem errs_refresh {w : World} (R : Reachable w) {tx : Tx} {a : RefreshAcc} :
    Errs (Because w (.refresh a)) (handleRefresh w tx a) := by
  refine errs_loads fun p hp => errs_loads fun e he => errs_reqx fun hb => ?_
  have S := R.winv.core.sale _ _ hp
  obtain ⟨r, hr, _, hre⟩ := refreshed_eq S.pinv he hb
  exact errs_time S.clock (errs_known hre (errs_pure _))

theorem errs_quote {w : World} (W : WInv w) {a k : Addr} {p : Presale} {e : Escrow} {r : Registry}
    (hp : w.presales a = some p) (hk : w.escrows.get? k = some e) (ha : e.presale = a)
    (hr : p.registries[e.registryIndex]? = some r) :
    Errs (fun x => x = .presaleNotOpenForWithdrawRemainingQuote ∧
        ¬ (Failed p w.clock ∨ (Completed p w.clock ∧ p.presaleMode = 1)))
      (p.validateAndGetEscrowRemainingQuote e w.clock.toNat) := by
  have S := W.core.sale _ _ hp
  by_cases hph : Failed p w.clock ∨ (Completed p w.clock ∧ p.presaleMode = 1)
  · have hend : p.presaleEndTime ≤ w.clock.toNat := by
      rcases hph with h | h
      · exact S.over.1 h.1
      · exact S.over.1 h.1.1
    exact errs_of_ok (S.pinv.refundQuote hk ha hr hend (hph.imp (fun h => h.2) And.right))
  · obtain ⟨h, hh⟩ := S.pinv.static.handler
    unfold Presale.validateAndGetEscrowRemainingQuote Presale.allowWithdrawRemainingQuote
    refine errs_bind (errs_bind (errs_of_ok (castMode_of_handler hh)) fun _ _ => errs_pure _) fun al hal =>
      errs_req (fun _ => ⟨rfl, hph⟩) fun hal' => ?_
    obtain ⟨m, hm, hb⟩ := bind_eq_ok.1 hal
    rw [castMode_of_handler hh] at hm
    cases hm
    rw [pure_eq_ok, hal'] at hb
    simp only [Bool.or_eq_true, beq_iff_eq, Bool.and_eq_true] at hb
    refine absurd ?_ hph
    rcases hb with hb | ⟨hb, hb'⟩
    · exact .inl (S.progress_failed.1 hb)
    · refine .inr ⟨S.progress_completed.1 hb, ?_⟩
      by_cases h1 : p.presaleMode = 1
      · exact h1
      · rw [if_neg h1] at hb'; split at hb' <;> cases hb'

theorem errs_refund {w : World} (R : Reachable w) {tx : Tx} {a : RefundAcc} :
    Errs (Because w (.refund a)) (handleRefund w tx a) := by
  have W := R.winv
  refine errs_reqx fun _ => errs_loads fun p hp => errs_reqx fun hva => errs_loads fun m hm =>
    errs_loads fun e he => errs_reqx fun hb => errs_reqx fun _ => errs_reqx fun _ => ?_
  have S := W.core.sale _ _ hp
  obtain ⟨r, hr, E⟩ := S.pinv.escBook he hb.1
  rw [← hva.2] at hm
  refine errs_req (fun h => ⟨p, e, r, m, hp, he, hr, hm, taken_iff.1 (by simpa using h)⟩) fun hf => ?_
  have hfirst : e.isRemainingQuoteWithdrawn = 0 := by
    have h1 : e.isRemainingQuoteWithdrawn ≠ 1 := by rw [Ne, ← taken_iff, hf]; decide
    have := E.flag
    omega
  refine errs_time S.clock (errs_bind ((errs_quote W hp he hb.1 hr).mono ?_) fun q hq => ?_)
  · rintro x ⟨rfl, hx⟩
    exact ⟨p, e, r, m, hp, he, hr, hm, hfirst, hx⟩
  · have htot := S.pinv.refundTotal he hb.1 hr hq
    obtain ⟨_, hend, hph⟩ := refundQuote_phase hq
    obtain ⟨hrr, hpp⟩ := refund_room R hp he hb.1 hr hend hfirst
    have h64 : q.refundDepositAmount + q.refundFeeAmount < u64Bound := by omega
    refine errs_known (add64_ok h64) ?_
    rw [htot]
    refine errs_known (updateRefunded_iff.2 ⟨r, hr, hrr, hpp, rfl⟩) (errs_bind
      (errs_read.mono ?_) fun hooks hparse => ?_)
    · intro x hx
      refine ⟨p, e, r, m, hp, he, hr, hm, ?_⟩
      cases x <;> first | exact ⟨hfirst, hx⟩ | exact hx.elim
    · obtain ⟨ex, hex⟩ := excluded_ok (W.core.feeOk _ _ hm) (owedRefund p r e)
      rw [← hva.2] at *
      refine errs_known hex ?_
      dsimp only
      split
      · next hpos =>
        refine errs_bind ((errs_move (kind := .transferHookQuote) hm hparse).mono ?_) fun _ _ => errs_pure _
        intro x hx
        refine ⟨p, e, r, m, hp, he, hr, hm, ?_⟩
        cases x <;> first | exact ⟨hfirst, hx⟩ | exact ⟨hfirst, hpos, hx⟩ | exact hx.elim
      · exact errs_pure _

/-! ## Closing an escrow -/

theorem errs_closeChecks {w : World} (W : WInv w) {a k : Addr} {p : Presale} {e : Escrow} {r : Registry}
    (hp : w.presales a = some p) (hk : w.escrows.get? k = some e) (ha : e.presale = a)
    (hr : p.registries[e.registryIndex]? = some r) :
    Errs (fun x => x = .escrowNotEmpty) (closeChecks p e w.clock.toNat) := by
  have S := W.core.sale _ _ hp
  unfold closeChecks
  split
  · exact errs_require fun _ => rfl
  · exact errs_require fun _ => rfl
  · next hc =>
    have hc := S.progress_completed.1 hc
    obtain ⟨h, hh⟩ := S.pinv.static.handler
    have hv : p.vestingStartTime + p.vestDuration < u64Bound := by
      have := S.pinv.sched.range; have := S.pinv.sched.timing; omega
    unfold ensureDoneClaimAndRefund
    refine errs_bind ?_ fun _ _ => errs_known hh (errs_known (add64_ok hv)
      (errs_known (S.pinv.cumulative hk ha hr hh _) (errs_require fun _ => rfl)))
    have hq := errs_quote W hp hk ha hr
    cases hx : p.validateAndGetEscrowRemainingQuote e w.clock.toNat with
    | ok q =>
      unfold ensureRefundTaken
      dsimp only
      split
      · exact errs_require fun _ => rfl
      · exact errs_ok _
    | error err =>
      unfold ensureRefundTaken
      dsimp only
      split
      · next hne =>
        intro e' he'
        cases he'
        have := hq _ hx
        exact absurd (by rw [this.1]) hne
      · exact errs_ok _
  · exact errs_panic

theorem errs_closeEscrow {w : World} (R : Reachable w) {tx : Tx} {a : CloseEscrowAcc} :
    Errs (Because w (.closeEscrow a)) (handleCloseEscrow w tx a) := by
  have W := R.winv
  refine errs_loads fun p hp => errs_loads fun e he => errs_reqx fun hb => errs_reqx fun _ => errs_reqx fun _ => ?_
  have S := W.core.sale _ _ hp
  obtain ⟨r, hr, E⟩ := S.pinv.escBook he hb.1
  refine errs_time S.clock (errs_bind ?_ fun _ _ => errs_bind ?_ fun _ _ => errs_pure _)
  · intro x hx
    cases errs_closeChecks W hp he hb.1 hr x hx
    refine ⟨p, e, hp, he, ?_⟩
    have hn : ¬ Settled w.clock.toNat p r e := by
      rw [← S.pinv.closeChecks_iff he hb.1 hr, hx]; intro h; cases h
    rw [settled_due_iff W hp he hb.1 hr] at hn
    refine Classical.byContradiction fun h => hn ⟨fun h1 => ?_, fun h1 => ?_, fun h1 => ?_⟩
    · have : ¬ 0 < e.totalDeposit + e.totalDepositFee := fun h2 => h (.inl ⟨h1, h2⟩)
      omega
    · have : ¬ 0 < refundDue p e := fun h2 => h (.inr (.inl ⟨h1, h2⟩))
      omega
    · have : ¬ 0 < claimDue p e := fun h2 => h (.inr (.inr ⟨h1, h2⟩))
      omega
  · have h1 : 1 ≤ r.totalEscrow := by
      rw [(S.pinv.book.reg _ _ hr).count]
      exact le_esum (f := fun _ => 1) (AMap.get?_mem he) hb.1 rfl
    have h2 : 1 ≤ p.totalEscrow := by
      rw [S.pinv.book.totEsc]
      exact Nat.le_trans h1 (le_lsum (g := Registry.totalEscrow) hr)
    exact errs_of_ok (decreaseEscrowCount_iff.2 ⟨r, hr, h1, h2, rfl⟩)

/-! ## The creator -/

theorem errs_takeVault {S : PErr → Prop} {w : World} {remaining : List Addr} {vault mint : Addr} {err : PErr}
    (h1 : ∀ v x rest, remaining = v :: x :: rest → v ≠ vault → S .invalidTokenVault)
    (h2 : ∀ v x rest, remaining = v :: x :: rest → x ≠ mint → S err) :
    Errs S (takeVaultAndMint w remaining vault mint err) := by
  unfold takeVaultAndMint
  split
  · exact errs_reqx fun _ => errs_req (h1 _ _ _ rfl) fun _ => errs_req (h2 _ _ _ rfl) fun _ => errs_pure _
  · exact errs_x _

theorem errs_creatorWithdraw {w : World} (R : Reachable w) {tx : Tx} {a : CreatorWithdrawAcc} :
    Errs (Because w (.creatorWithdraw a)) (handleCreatorWithdraw w tx a) := by
  have W := R.winv
  refine errs_reqx fun _ => errs_loads fun p hp => errs_reqx fun _ => errs_reqx fun _ => ?_
  have S := W.core.sale _ _ hp
  refine errs_time S.clock (errs_req (fun h => ⟨p, hp, fun ho => h ?_⟩) fun hph => errs_req
    (fun h => ⟨p, hp, ?_, ?_⟩) fun hfst => ?_)
  · by_cases hmin : p.presaleMinimumCap ≤ p.totalDeposit
    · exact .inl (S.progress_completed.2 ⟨ho, hmin⟩)
    · exact .inr (S.progress_failed.2 ⟨ho, by omega⟩)
  · rcases hph with h | h
    · exact (S.progress_completed.1 h).1
    · exact (S.progress_failed.1 h).1
  · unfold Presale.creatorWithdrawn at h
    have h : p.hasCreatorWithdrawn ≠ 0 := by simpa using h
    have := S.pinv.flags.w
    omega
  have hfirst : p.hasCreatorWithdrawn = 0 := by
    unfold Presale.creatorWithdrawn at hfst
    simpa using hfst
  refine errs_bind ?_ fun c hpayout => ?_
  · rcases hph with h | h
    · rw [h]
      refine errs_bind (errs_takeVault ?_ ?_) fun _ _ => errs_pure _
      · intro v x rest he hv
        exact ⟨p, hp, v, x :: rest, he, .inl ⟨S.progress_completed.1 h, hv⟩⟩
      · intro v x rest he hx
        exact ⟨p, hp, v, x, rest, he, S.progress_completed.1 h, hx⟩
    · rw [h]
      refine errs_bind (errs_takeVault ?_ ?_) fun _ _ => errs_pure _
      · intro v x rest he hv
        exact ⟨p, hp, v, x :: rest, he, .inr ⟨S.progress_failed.1 h, hv⟩⟩
      · intro v x rest he hx
        exact ⟨p, hp, v, x, rest, he, S.progress_failed.1 h, hx⟩
  have hshape := creatorPayout_shape hpayout
  have hg : CreatorGets p w.clock c.hookType c.mint c.vault c.amount := by
    rcases hph with h | h
    · rw [h] at hpayout
      obtain ⟨c1, c2, c3, c4, _⟩ := creatorPayout_completed hpayout
      exact .inl ⟨S.progress_completed.1 h, c4, c3, c2, c1⟩
    · rw [h] at hpayout
      obtain ⟨c1, c2, c3, c4, _⟩ := creatorPayout_failed hpayout
      exact .inr ⟨S.progress_failed.1 h, c4, c3, c2, c1⟩
  obtain ⟨_, v, m, hv, hvm, hcov, hm⟩ := creator_covered R hp hg hfirst
  have key : ∀ x, HookReason c.hookType m c.rest a.slices x → Because w (.creatorWithdraw a) x := by
    intro x hx
    refine ⟨p, hp, ?_⟩
    cases x <;> first | exact ⟨c.hookType, c.mint, c.vault, c.amount, c.rest, m, hg, hshape, hm, hx⟩ | exact hx.elim
  refine errs_bind ((errs_parse m).mono key) fun hooks hparse => errs_bind ?_ fun _ _ => errs_loads fun m' hm' => ?_
  · have hk : (if p.getPresaleProgress w.clock.toNat = .completed then hooks.1.quote else hooks.1.base) =
        hooks.1.get c.hookType := by
      rcases hg with h | h
      · rw [if_pos (S.progress_completed.2 h.1), h.2.1]; rfl
      · rw [if_neg (by rw [S.progress_failed.2 h.1]; decide), h.2.1]; rfl
    rw [hk]
    exact (errs_move hm hparse).mono key
  · obtain ⟨ex, hex⟩ := excluded_ok (W.core.feeOk _ _ hm') c.amount
    exact errs_known hex (errs_pure _)

theorem errs_collectFee {w : World} (R : Reachable w) {tx : Tx} {a : CollectFeeAcc} :
    Errs (Because w (.collectFee a)) (handleCollectFee w tx a) := by
  have W := R.winv
  refine errs_reqx fun _ => errs_loads fun p hp => errs_reqx fun hva => errs_loads fun m hm => errs_reqx fun _ =>
    errs_reqx fun _ => ?_
  have S := W.core.sale _ _ hp
  rw [← hva.2.1] at hm
  have hfl := S.pinv.flags.f
  have hfc : p.feeCollected = false ↔ p.depositFeeCollected ≠ 1 := by unfold Presale.feeCollected; simp
  refine errs_time S.clock (errs_req (fun h => ⟨p, m, hp, hm, ?_⟩) fun hph => ?_)
  · by_cases hc : Completed p w.clock
    · refine .inr (Classical.byContradiction fun h1 => h ⟨S.progress_completed.2 hc, hfc.2 h1⟩)
    · exact .inl hc
  have hc := S.progress_completed.1 hph.1
  have hf : p.depositFeeCollected = 0 := by have := hfc.1 hph.2; omega
  refine errs_known S.pinv.collectedFee ?_
  obtain ⟨ex, hex⟩ := excluded_ok (W.core.feeOk _ _ hm) (collectableFee p)
  refine errs_known hex ?_
  dsimp only
  split
  · next hpos =>
    have key : ∀ x, HookReason .transferHookQuote m a.remaining a.slices x → Because w (.collectFee a) x := by
      intro x hx
      refine ⟨p, m, hp, hm, ?_⟩
      cases x <;> first | exact ⟨hc, hf, hpos, hx⟩ | exact hx.elim
    refine errs_bind ((errs_parse m).mono key) fun hooks hparse => errs_bind ?_ fun _ _ => errs_pure _
    rw [← hva.2.1]
    exact (errs_move (kind := .transferHookQuote) hm hparse).mono key
  · exact errs_pure _

theorem errs_unsold {w : World} (R : Reachable w) {tx : Tx} {a : UnsoldAcc} :
    Errs (Because w (.unsold a)) (handleUnsold w tx a) := by
  have W := R.winv
  refine errs_reqx fun _ => errs_loads fun p hp => errs_reqx fun hva => errs_loads fun _ _ => errs_reqx fun _ => ?_
  have S := W.core.sale _ _ hp
  obtain ⟨m, hm, _, _⟩ := S.baseMint
  have hfl := S.pinv.flags.u
  have hfc : p.unsoldActionPerformed = false ↔ p.isUnsoldTokenActionPerformed = 0 := by
    unfold Presale.unsoldActionPerformed; simp
  refine errs_time S.clock (errs_req (fun h => ⟨p, m, hp, hm, fun hc => h (S.progress_completed.2 hc)⟩) fun hc => ?_)
  have hc := S.progress_completed.1 hc
  refine errs_req (fun h => ⟨p, m, hp, hm, hc, by rw [hfc] at h; omega⟩) fun hf => ?_
  have hf := hfc.1 hf
  obtain ⟨h, hh⟩ := S.pinv.static.handler
  have hle := totalSold_le S.pinv.static
  refine errs_known hh (errs_known (S.pinv.unsold hh) (errs_req (fun h => ⟨p, m, hp, hm, hc, hf, by omega⟩) fun hpos =>
    errs_bind ?_ fun _ _ => errs_pure _))
  unfold performUnsold
  split
  · exact errs_burn _ _ _ _ _ _
  · next hact =>
    have hne : p.unsoldTokenAction ≠ 1 := by
      intro h1; rw [h1] at hact; revert hact; decide
    have key : ∀ x, HookReason .transferHookBase m a.remaining a.slices x → Because w (.unsold a) x := by
      intro x hx
      refine ⟨p, m, hp, hm, ?_⟩
      cases x <;> first | exact ⟨hc, hf, by omega, hne, hx⟩ | exact hx.elim
    refine errs_bind ((errs_parse m).mono key) fun hooks hparse => ?_
    rw [← hva.2]
    exact (errs_move (kind := .transferHookBase) hm hparse).mono key


end Verif
