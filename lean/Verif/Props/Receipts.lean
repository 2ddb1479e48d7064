import Verif.SpecReceipts
import Verif.Props.Events
import Verif.Props.Machine
import Verif.Examples
/-!
# C75: events and calls, exactly
-/

namespace Verif
open Spec

theorem Spec.Sends.unique {m : MintInfo} {n g h : Nat} (a : Sends m n g) (b : Sends m n h) : g = h :=
  Nat.le_antisymm (a.2 h b.1) (b.2 g a.1)

theorem sends_of {m : MintInfo} {net gross : Nat} (hm : FeeOk m) (hlt : net < u64Bound)
    (h : transferFeeIncludedAmount m net = .ok gross) : Sends m net gross := by
  obtain ⟨i1, _, _, i4⟩ := C42_inversion_exact hm hlt h
  exact ⟨i1, i4⟩

/-- The mint a transfer moves. -/
theorem transfer_cpi {k : Tokens} {authority mint src dst : Addr} {prog : TokenProgram} {n : Nat}
    {hooks : Option (List Addr)} {acc : Bool} {k' : Tokens} {cpi : Cpi}
    (h : transferTokens k authority mint src dst prog n hooks acc = .ok (k', cpi)) :
    ∃ m, k.mints mint = some m ∧ cpi = .transfer mint src dst authority n (m.transferFee n) := by
  obtain ⟨_, _, m, _, T⟩ := transferTokens_iff.1 h
  exact ⟨m, T.hm, T.cpi⟩

theorem excluded_sub {m : MintInfo} {x y : Nat} (h : transferFeeExcludedAmount m x = .ok y) :
    y = x - m.transferFee x := by
  have := excluded_eq h
  omega

theorem recorded_deposit {w : World} (R : Reachable w) {tx : Tx} {x : DepositAcc} {w' : World} {rc : Receipt}
    (h : step w (.ix tx (.deposit x)) = .ok (w', rc)) : DepositRecorded w x w' rc := by
  obtain ⟨p, m, e, d, included, hooks, rest, tk, cpi, F⟩ := handleDeposit_iff.1 h
  obtain ⟨hd, quota, r, D⟩ := depositCore_iff.1 F.core
  obtain ⟨m', hm', hc⟩ := transfer_cpi F.transfer
  rw [F.mint] at hm'; cases hm'
  have he := D.escrow
  have e1 : d.escrow.totalDeposit = e.totalDeposit + d.amount := by rw [he]; rfl
  have e2 : d.escrow.totalDepositFee = e.totalDepositFee + d.fees.fee := by rw [he]; rfl
  refine ⟨p, d.presale, e, d.escrow, m, included, F.presale, by rw [F.post]; exact upd_self _ _ _, F.escrow,
    by rw [F.post]; exact (AMap.get?_set _ _ _ _).trans (if_pos rfl), by rw [F.vault.2]; exact F.mint, ?_, ?_⟩
  · rw [e1, e2, Nat.add_sub_cancel_left, Nat.add_sub_cancel_left]
    have hlt : d.fees.amountIncludedFee < u64Bound := (depositFee_inv D.fees).2.2.1
    have C := charge_of (R.winv.core.feeOk _ _ F.mint) D.fees rfl rfl hlt F.gross
    exact ⟨C.exact, C.leastGross⟩
  · rw [F.receipt, hc, e1, e2, Nat.add_sub_cancel_left, Nat.add_sub_cancel_left, F.vault.1, F.vault.2]

theorem recorded_withdraw {w : World} {tx : Tx} {x : WithdrawAcc} {w' : World} {rc : Receipt}
    (h : step w (.ix tx (.withdraw x)) = .ok (w', rc)) : WithdrawRecorded w x w' rc := by
  obtain ⟨p, m, e, p', e', n, hooks, rest, tk, cpi, ex, F⟩ := handleWithdraw_iff.1 h
  obtain ⟨hd, r, D⟩ := withdrawCore_iff.1 F.core
  obtain ⟨m', hm', hc⟩ := transfer_cpi F.transfer
  rw [F.mint] at hm'; cases hm'
  have he := D.escrow
  have hn : n = e.totalDeposit - e'.totalDeposit := by
    have := D.leE
    rw [he]; show n = e.totalDeposit - (e.totalDeposit - n); omega
  refine ⟨p, p', e, e', m, n, F.presale, by rw [F.post]; exact upd_self _ _ _, F.escrow,
    by rw [F.post]; exact (AMap.get?_set _ _ _ _).trans (if_pos rfl), by rw [F.vault.2]; exact F.mint, hn, ?_⟩
  rw [F.receipt, hc, excluded_sub F.net, F.vault.1, F.vault.2]
  rfl

theorem recorded_claim {w : World} {tx : Tx} {x : ClaimAcc} {w' : World} {rc : Receipt}
    (h : step w (.ix tx (.claim x)) = .ok (w', rc)) : ClaimRecorded w x w' rc := by
  obtain ⟨p, m, e, hd, e1, ex, F⟩ := handleClaim_iff.1 h
  obtain ⟨c, _, he1⟩ := updatePending_accrued F.refresh
  have b3 : e1.totalClaimedToken = e.totalClaimedToken := by rw [he1]; rfl
  rcases F.out with ⟨hpos, p', e', hooks, rest, tk, cpi, g1, _, g3, g4, g5⟩ | ⟨g0, g4, g5⟩
  · obtain ⟨r', hr', _, _, _, hp', he'⟩ := claim_iff.1 g1
    obtain ⟨m', hm', hc⟩ := transfer_cpi g3
    rw [F.mint] at hm'; cases hm'
    have hn : e'.totalClaimedToken = e.totalClaimedToken + e1.pendingClaimToken := by
      rw [he']; show e1.totalClaimedToken + _ = _; rw [b3]
    refine ⟨p, p', e, e', m, e1.pendingClaimToken, F.presale, by rw [g4]; exact upd_self _ _ _, F.escrow,
      by rw [g4]; exact (AMap.get?_set _ _ _ _).trans (if_pos rfl), by rw [F.vault.2]; exact F.mint,
      by rw [hn, Nat.add_sub_cancel_left], ?_⟩
    unfold paidIfAny
    rw [if_neg (by omega), g5, hc, excluded_sub F.net, F.vault.1, F.vault.2]
    rfl
  · refine ⟨p, p, e, e1, m, 0, F.presale, by rw [g4]; exact F.presale, F.escrow,
      by rw [g4]; exact (AMap.get?_set _ _ _ _).trans (if_pos rfl), by rw [F.vault.2]; exact F.mint,
      by rw [b3, Nat.sub_self], ?_⟩
    unfold paidIfAny
    rw [if_pos rfl, g5, excluded_zero F.net g0, Nat.zero_sub]

theorem recorded_refund {w : World} {tx : Tx} {x : RefundAcc} {w' : World} {rc : Receipt}
    (h : step w (.ix tx (.refund x)) = .ok (w', rc)) : RefundRecorded w x w' rc := by
  obtain ⟨p, m, e, q, p', hooks, rest, ex, F⟩ := handleRefund_iff.1 h
  obtain ⟨r, hr, _, _, hp'⟩ := updateRefunded_iff.1 F.update
  have hn : p'.totalRefundedQuoteToken = p.totalRefundedQuoteToken +
      (q.refundDepositAmount + q.refundFeeAmount) := by rw [hp']; rfl
  refine ⟨p, p', m, _, F.presale, ?_, by rw [F.vault.2]; exact F.mint, rfl, ?_⟩
  · rcases F.out with ⟨_, tk, cpi, g3, g4, g5⟩ | ⟨h0, g4, g5⟩ <;> rw [g4] <;> exact upd_self _ _ _
  · have hs : p'.totalRefundedQuoteToken - p.totalRefundedQuoteToken =
        q.refundDepositAmount + q.refundFeeAmount := by rw [hn, Nat.add_sub_cancel_left]
    rw [hs]
    unfold paidIfAny
    rcases F.out with ⟨hpos, tk, cpi, g3, g4, g5⟩ | ⟨h0, g4, g5⟩
    · obtain ⟨m', hm', hc⟩ := transfer_cpi g3
      rw [F.mint] at hm'; cases hm'
      rw [if_neg (by omega), g5, hc, excluded_sub F.net, F.vault.1, F.vault.2]
      rfl
    · rw [if_pos h0, g5, excluded_sub F.net]

theorem recorded_unsold {w : World} (R : Reachable w) {tx : Tx} {x : UnsoldAcc} {w' : World} {rc : Receipt}
    (h : step w (.ix tx (.unsold x)) = .ok (w', rc)) : UnsoldRecorded w x rc := by
  obtain ⟨p, c, hd, n, tk, cpi, F⟩ := handleUnsold_iff.1 h
  have S := R.winv.core.sale _ _ F.presale
  have hx := S.pinv.unsold F.handler
  rw [F.amount] at hx
  cases hx
  have hp := F.perform
  rw [F.receipt]
  by_cases ha : p.unsoldTokenAction = 1
  · have hk : UnsoldTokenAction.ofByte p.unsoldTokenAction = .burn := if_pos ha
    rw [hk] at hp
    obtain ⟨_, m, _, B⟩ := burnTokens_iff.1 hp
    refine ⟨p, m, _, F.presale, by rw [F.vault.2]; exact B.hm, rfl, ?_⟩
    rw [if_pos ha, hk, B.cpi, F.vault.1, F.vault.2]
  · have hk : UnsoldTokenAction.ofByte p.unsoldTokenAction = .refund := if_neg ha
    rw [hk] at hp
    simp only [performUnsold, bind_eq_ok] at hp
    obtain ⟨_, _, ht⟩ := hp
    obtain ⟨m, hm, hc⟩ := transfer_cpi ht
    refine ⟨p, m, _, F.presale, by rw [F.vault.2]; exact hm, rfl, ?_⟩
    rw [if_neg ha, hk, hc, F.vault.1, F.vault.2, ← F.ata.1]
    rfl

theorem recorded_creator {w : World} (R : Reachable w) {tx : Tx} {x : CreatorWithdrawAcc} {w' : World} {rc : Receipt}
    (h : step w (.ix tx (.creatorWithdraw x)) = .ok (w', rc)) : CreatorRecorded w x rc := by
  obtain ⟨p, c, hooks, rest, tk, cpi, m, ex, F⟩ := handleCreatorWithdraw_iff.1 h
  have S := R.winv.core.sale _ _ F.presale
  obtain ⟨m', hm', hc⟩ := transfer_cpi F.transfer
  rw [F.mint] at hm'; cases hm'
  refine ⟨p, c.mint, c.vault, c.amount, m, p.getPresaleProgress w.clock.toNat, F.presale, F.mint, ?_, ?_⟩
  · rcases F.progress with h1 | h1
    · have hp := F.payout
      rw [h1] at hp
      obtain ⟨c1, c2, c3, c4, _⟩ := creatorPayout_completed hp
      exact .inl ⟨S.progress_completed.1 h1, h1, c3, c2, c1⟩
    · have hp := F.payout
      rw [h1] at hp
      obtain ⟨c1, c2, c3, c4, _⟩ := creatorPayout_failed hp
      exact .inr ⟨S.progress_failed.1 h1, h1, c3, c2, c1⟩
  · rw [F.receipt, hc, excluded_sub F.net]
    rfl

theorem recorded_collect {w : World} (R : Reachable w) {tx : Tx} {x : CollectFeeAcc} {w' : World} {rc : Receipt}
    (h : step w (.ix tx (.collectFee x)) = .ok (w', rc)) : CollectRecorded w x rc := by
  obtain ⟨p, m, fee, ex, F⟩ := handleCollectFee_iff.1 h
  have S := R.winv.core.sale _ _ F.presale
  have hfee := S.pinv.collectedFee
  rw [F.amount] at hfee
  cases hfee
  obtain ⟨o1, o2, o3⟩ := F.owner
  refine ⟨p, m, F.presale, by rw [o2]; exact F.mint, ?_⟩
  unfold paidIfAny
  rcases F.out with ⟨h0, hooks, rest, tk, cpi, _, g3, g4, g5⟩ | ⟨h0, g4, g5⟩
  · obtain ⟨m', hm', hc⟩ := transfer_cpi g3
    rw [F.mint] at hm'; cases hm'
    rw [if_neg (by omega), g5, hc, excluded_sub F.net, o2, o3]
    rfl
  · rw [if_pos h0, g5, excluded_sub F.net]

theorem recorded_open {w w' : World} {p p' : Presale} {key owner : Addr} {i : Nat} {cap? : Option Nat}
    {rc : Receipt} {r : Registry} (F : CreateEscrowFacts w p key owner i cap? w' rc r p') :
    OpenRecorded w' key owner rc :=
  ⟨p', by rw [F.post]; exact upd_self _ _ _, F.receipt⟩

theorem recorded_create {w : World} (R : Reachable w) {tx : Tx} {x : InitPresaleAcc} {w' : World} {rc : Receipt}
    (h : step w (.ix tx (.initPresale x)) = .ok (w', rc)) : CreateRecorded w x w' rc := by
  obtain ⟨c, left, bm, qm, src, gross, D⟩ := (C72_does_iff R tx (.initPresale x) w').1 ⟨rc, h⟩
  obtain ⟨bm', qm', q, rem, supply, inc, hooks, rest, tk, cpi, F⟩ := handleInitPresale_iff.1 h
  have C := D.creatable
  obtain ⟨m, hm, hc⟩ := transfer_cpi F.transfer
  have hm' : w.tk.mints x.presaleMint = some m := hm
  have e1 : bm = m := by have := C.baseMint.1; rw [hm'] at this; cases this; rfl
  have e2 : bm' = m := by have := F.baseMint; rw [hm'] at this; cases this; rfl
  subst e1 e2
  have hsum : supply = offered x.args := by
    have := sumSupplies_eq F.sumSupply; rw [offered_eq]; omega
  have hS : Sends bm' (offered x.args) gross := ⟨C.gross.1, D.least⟩
  have hlt : offered x.args < u64Bound := by
    have := C.terms.supply
    have := u64Bound_eq
    omega
  have hS' : Sends bm' (offered x.args) inc := by
    rw [← hsum]; exact sends_of (R.winv.core.feeOk _ _ hm') (by rw [hsum]; exact hlt) F.gross
  have hg := hS.unique hS'
  subst hg
  have hopt : (x.args.lockedVestingParams.option.map LockedVestingArgs.lockDuration).getD 0 =
        x.args.lockedVestingParams.lockDuration ∧
      (x.args.lockedVestingParams.option.map LockedVestingArgs.vestDuration).getD 0 =
        x.args.lockedVestingParams.vestDuration := by
    unfold LockedVestingArgs.option
    split
    · next hz => exact ⟨hz.2.1.symm, hz.2.2.1.symm⟩
    · exact ⟨rfl, rfl⟩
  refine ⟨newSale x c w.clock.toNat, bm', gross, by rw [D.post]; exact upd_self _ _ _, hm', hS, ?_⟩
  rw [F.receipt, hc, hopt.1, hopt.2]
  rfl

theorem recorded {w : World} (R : Reachable w) {tx : Tx} {i : Ix} {w' : World} {rc : Receipt}
    (h : step w (.ix tx i) = .ok (w', rc)) : Recorded w i w' rc := by
  cases i with
  | initFixedArgs x => exact (handleInitFixedArgs_iff.1 h).receipt
  | closeFixedArgs x =>
    obtain ⟨_, F⟩ := handleCloseFixedArgs_iff.1 h
    exact F.receipt
  | initPresale x => exact recorded_create R h
  | createMerkle x =>
    obtain ⟨_, F⟩ := handleCreateMerkle_iff.1 h
    exact F.receipt
  | closeMerkle x =>
    obtain ⟨_, _, F⟩ := handleCloseMerkle_iff.1 h
    exact F.receipt
  | createEscrow x =>
    obtain ⟨_, _, _, _, F⟩ := handleCreateEscrow_iff.1 h
    exact recorded_open F
  | createEscrowCreator x =>
    obtain ⟨_, _, _, _, _, F⟩ := handleCreateEscrowCreator_iff.1 h
    exact recorded_open F
  | createEscrowMerkle x =>
    obtain ⟨_, _, _, _, _, F⟩ := handleCreateEscrowMerkle_iff.1 h
    exact recorded_open F
  | createOperator x => exact (handleCreateOperator_iff.1 h).receipt
  | revokeOperator x =>
    obtain ⟨_, F⟩ := handleRevokeOperator_iff.1 h
    exact F.receipt
  | deposit x => exact recorded_deposit R h
  | withdraw x => exact recorded_withdraw h
  | claim x => exact recorded_claim h
  | refund x => exact recorded_refund h
  | unsold x => exact recorded_unsold R h
  | closeEscrow x =>
    obtain ⟨_, _, _, F⟩ := handleCloseEscrow_iff.1 h
    exact F.receipt
  | creatorWithdraw x => exact recorded_creator R h
  | refresh x =>
    obtain ⟨_, _, e', F⟩ := (handleRefresh_iff (tx := tx)).1 h
    exact ⟨e', by rw [F.post]; exact (AMap.get?_set _ _ _ _).trans (if_pos rfl), F.receipt⟩
  | createMetadata x =>
    obtain ⟨_, F⟩ := handleCreateMetadata_iff.1 h
    exact F.receipt
  | closeMetadata x =>
    obtain ⟨_, _, F⟩ := handleCloseMetadata_iff.1 h
    exact F.receipt
  | collectFee x => exact recorded_collect R h

theorem completed_not_failed {p : Presale} {now : Int} (h : Completed p now) : ¬ Failed p now := by
  rintro ⟨_, g⟩
  have := h.2
  omega

theorem open_unique {w' : World} {P owner : Addr} {r s : Receipt} (h : OpenRecorded w' P owner r)
    (g : OpenRecorded w' P owner s) : r = s := by
  obtain ⟨p, h1, rfl⟩ := h
  obtain ⟨q, g1, rfl⟩ := g
  rw [h1] at g1; cases g1; rfl

/-- **C75** (functional). Ledger before, ledger after and instruction determine the record. -/
theorem C75_functional {w : World} {i : Ix} {w' : World} {r s : Receipt} (h : Recorded w i w' r)
    (g : Recorded w i w' s) : r = s := by
  cases i with
  | initFixedArgs | closeFixedArgs | createMerkle | closeMerkle | createOperator | revokeOperator | closeEscrow
  | createMetadata | closeMetadata => exact Eq.trans h (Eq.symm g)
  | createEscrow | createEscrowCreator | createEscrowMerkle => exact open_unique h g
  | initPresale x =>
    obtain ⟨p, m, n, h1, h2, h3, rfl⟩ := h
    obtain ⟨q, m', n', g1, g2, g3, rfl⟩ := g
    rw [h1] at g1; cases g1
    rw [h2] at g2; cases g2
    rw [h3.unique g3]
  | deposit x =>
    obtain ⟨p, p', e, e', m, n, h1, h2, h3, h4, h5, h6, rfl⟩ := h
    obtain ⟨q, q', f, f', m', n', g1, g2, g3, g4, g5, g6, rfl⟩ := g
    rw [h1] at g1; cases g1
    rw [h2] at g2; cases g2
    rw [h3] at g3; cases g3
    rw [h4] at g4; cases g4
    rw [h5] at g5; cases g5
    rw [h6.unique g6]
  | withdraw x =>
    obtain ⟨p, p', e, e', m, n, h1, h2, h3, h4, h5, rfl, rfl⟩ := h
    obtain ⟨q, q', f, f', m', n', g1, g2, g3, g4, g5, rfl, rfl⟩ := g
    rw [h1] at g1; cases g1
    rw [h2] at g2; cases g2
    rw [h3] at g3; cases g3
    rw [h4] at g4; cases g4
    rw [h5] at g5; cases g5
    rfl
  | claim x =>
    obtain ⟨p, p', e, e', m, n, h1, h2, h3, h4, h5, rfl, rfl⟩ := h
    obtain ⟨q, q', f, f', m', n', g1, g2, g3, g4, g5, rfl, rfl⟩ := g
    rw [h1] at g1; cases g1
    rw [h2] at g2; cases g2
    rw [h3] at g3; cases g3
    rw [h4] at g4; cases g4
    rw [h5] at g5; cases g5
    rfl
  | refund x =>
    obtain ⟨p, p', m, n, h1, h2, h3, rfl, rfl⟩ := h
    obtain ⟨q, q', m', n', g1, g2, g3, rfl, rfl⟩ := g
    rw [h1] at g1; cases g1
    rw [h2] at g2; cases g2
    rw [h3] at g3; cases g3
    rfl
  | unsold x =>
    obtain ⟨p, m, n, h1, h2, rfl, rfl⟩ := h
    obtain ⟨q, m', n', g1, g2, rfl, rfl⟩ := g
    rw [h1] at g1; cases g1
    rw [h2] at g2; cases g2
    rfl
  | creatorWithdraw x =>
    obtain ⟨p, mint, vault, n, m, pr, h1, h2, h3, rfl⟩ := h
    obtain ⟨q, mint', vault', n', m', pr', g1, g2, g3, rfl⟩ := g
    rw [h1] at g1; cases g1
    rcases h3 with ⟨h3, rfl, rfl, rfl, rfl⟩ | ⟨h3, rfl, rfl, rfl, rfl⟩ <;>
      rcases g3 with ⟨g3, rfl, rfl, rfl, rfl⟩ | ⟨g3, rfl, rfl, rfl, rfl⟩
    · rw [h2] at g2; cases g2; rfl
    · exact absurd g3 (completed_not_failed h3)
    · exact absurd h3 (completed_not_failed g3)
    · rw [h2] at g2; cases g2; rfl
  | refresh x =>
    obtain ⟨e, h1, rfl⟩ := h
    obtain ⟨f, g1, rfl⟩ := g
    rw [h1] at g1; cases g1; rfl
  | collectFee x =>
    obtain ⟨p, m, h1, h2, rfl⟩ := h
    obtain ⟨q, m', g1, g2, rfl⟩ := g
    rw [h1] at g1; cases g1
    rw [h2] at g2; cases g2
    rfl

/-- **C75.** In every reachable state an instruction succeeds with ledger `w'` and record `rc` if and only if the
reference semantics relates the state to `w'` and `rc` is the record of that change: event, amounts, token
operations and their order are determined completely. -/
theorem C75_step_iff {w : World} (R : Reachable w) (tx : Tx) (i : Ix) (w' : World) (rc : Receipt) :
    step w (.ix tx i) = .ok (w', rc) ↔ Does w tx i w' ∧ Recorded w i w' rc := by
  constructor
  · exact fun h => ⟨(C72_does_iff R tx i w').1 ⟨rc, h⟩, recorded R h⟩
  · rintro ⟨h1, h2⟩
    obtain ⟨rc', h⟩ := (C72_does_iff R tx i w').2 h1
    rw [C75_functional h2 (recorded R h)]
    exact h

namespace Ex

/-- The record of an operation, if it succeeds. -/
def recordOf (w : World) (op : Op) : Option Receipt :=
  match step w op with
  | .ok (_, rc) => some rc
  | .error _ => none

/-- Alice gets 305 back, of which 4 are withheld; a second claim at
the same moment pays nothing and calls nobody. -/
example :
    recordOf prorataDone (refund alice aliceQuote) = some
      { event := some (.withdrawRemainingQuote sale (escrowOf alice) alice 301 305),
        cpis := [.transfer qm (.quoteVault sale) aliceQuote .presaleAuthority 305 4] } ∧
    (recordOf (run prorataDone [claim alice aliceBase]) (claim alice aliceBase)).map Receipt.cpis = some [] ∧
    (recordOf prorataDone (claim alice aliceBase)).map (fun r => r.cpis.length) = some 1 := by
  decide +kernel

end Ex

end Verif
