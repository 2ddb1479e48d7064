import Verif.Lemmas.Token
/-!
# What a successful instruction did

For each instruction, the facts equivalent to its success with a given result.
-/

namespace Verif

/-! ## Deposit -/

structure DepositFacts (w : World) (tx : Tx) (a : DepositAcc) (w' : World) (rc : Receipt)
    (p : Presale) (m : MintInfo) (e : Escrow) (d : DepositResult) (included : Nat) (hooks : ParsedHooks)
    (rest : List Addr) (tk : Tokens) (cpi : Cpi) : Prop where
  range : a.maxAmount < u64Bound ∧ slicesInRange a.slices = true
  presale : w.presales a.presale = some p
  vault : p.quoteTokenVault = a.quoteTokenVault ∧ p.quoteMint = a.quoteMint
  mint : w.tk.mints a.quoteMint = some m
  escrow : w.escrows.get? a.escrow = some e
  belongs : e.presale = a.presale
  signed : tx.signed a.payer = true
  clock : 0 ≤ w.clock
  core : depositCore p e w.clock.toNat a.maxAmount = .ok d
  gross : transferFeeIncludedAmount m d.fees.amountIncludedFee = .ok included
  parse : parseHooks a.remaining a.slices [.transferHookQuote] = .ok (hooks, rest)
  transfer : transferTokens w.tk a.payer a.quoteMint a.payerQuoteToken a.quoteTokenVault
    a.tokenProgram included hooks.quote tx.accept = .ok (tk, cpi)
  post : w' = { w with presales := upd w.presales a.presale (some d.presale),
                       escrows := w.escrows.set a.escrow d.escrow, tk := tk }
  receipt : rc = { event := some (.deposit a.presale a.escrow d.amount d.escrow.totalDeposit
                     d.presale.totalDeposit a.payer d.fees.fee), cpis := [cpi] }

theorem handleDeposit_iff {w : World} {tx : Tx} {a : DepositAcc} {w' : World} {rc : Receipt} :
    handleDeposit w tx a = .ok (w', rc) ↔ ∃ p m e d included hooks rest tk cpi,
      DepositFacts w tx a w' rc p m e d included hooks rest tk cpi := by
  simp only [handleDeposit, bind_eq_ok, require_eq_ok, load_eq_ok, castTime_eq_ok, pure_eq_ok, Prod.exists,
    Prod.mk.injEq, exists_const]
  constructor
  · rintro ⟨h1, p, h2, h3, m, h4, e, h5, h6, h7, t, ⟨h8, rfl⟩, d, h9, inc, h10, hooks, rest, h11, tk, cpi, h12, h13, h14⟩
    exact ⟨p, m, e, d, inc, hooks, rest, tk, cpi,
      ⟨h1, h2, h3, h4, h5, h6, h7, h8, h9, h10, h11, h12, h13.symm, h14.symm⟩⟩
  · rintro ⟨p, m, e, d, inc, hooks, rest, tk, cpi,
      ⟨h1, h2, h3, h4, h5, h6, h7, h8, h9, h10, h11, h12, h13, h14⟩⟩
    exact ⟨h1, p, h2, h3, m, h4, e, h5, h6, h7, _, ⟨h8, rfl⟩, d, h9, inc, h10, hooks, rest, h11, tk, cpi,
      h12, h13.symm, h14.symm⟩

/-! ## Withdraw -/

structure WithdrawFacts (w : World) (tx : Tx) (a : WithdrawAcc) (w' : World) (rc : Receipt)
    (p : Presale) (m : MintInfo) (e : Escrow) (p' : Presale) (e' : Escrow) (amount : Nat)
    (hooks : ParsedHooks) (rest : List Addr) (tk : Tokens) (cpi : Cpi) (excluded : Nat) : Prop where
  range : a.maxAmount < u64Bound ∧ slicesInRange a.slices = true
  presale : w.presales a.presale = some p
  vault : p.quoteTokenVault = a.quoteTokenVault ∧ p.quoteMint = a.quoteMint
  mint : w.tk.mints a.quoteMint = some m
  escrow : w.escrows.get? a.escrow = some e
  belongs : e.presale = a.presale ∧ e.owner = a.owner
  signed : tx.signed a.owner = true
  clock : 0 ≤ w.clock
  core : withdrawCore p e w.clock.toNat a.maxAmount = .ok (p', e', amount)
  parse : parseHooks a.remaining a.slices [.transferHookQuote] = .ok (hooks, rest)
  transfer : transferTokens w.tk .presaleAuthority a.quoteMint a.quoteTokenVault a.ownerQuoteToken
    a.tokenProgram amount hooks.quote tx.accept = .ok (tk, cpi)
  net : transferFeeExcludedAmount m amount = .ok excluded
  post : w' = { w with presales := upd w.presales a.presale (some p'),
                       escrows := w.escrows.set a.escrow e', tk := tk }
  receipt : rc = { event := some (.withdraw a.presale a.escrow excluded e'.totalDeposit p'.totalDeposit
                     a.owner), cpis := [cpi] }

theorem handleWithdraw_iff {w : World} {tx : Tx} {a : WithdrawAcc} {w' : World} {rc : Receipt} :
    handleWithdraw w tx a = .ok (w', rc) ↔ ∃ p m e p' e' amount hooks rest tk cpi excluded,
      WithdrawFacts w tx a w' rc p m e p' e' amount hooks rest tk cpi excluded := by
  simp only [handleWithdraw, bind_eq_ok, require_eq_ok, load_eq_ok, castTime_eq_ok, pure_eq_ok, Prod.exists,
    Prod.mk.injEq, exists_const]
  constructor
  · rintro ⟨h1, p, h2, h3, m, h4, e, h5, h6, h7, t, ⟨h8, rfl⟩, p', e', am, h9, hooks, rest, h11, tk, cpi, h12, ex, h10, h13, h14⟩
    exact ⟨p, m, e, p', e', am, hooks, rest, tk, cpi, ex,
      ⟨h1, h2, h3, h4, h5, h6, h7, h8, h9, h11, h12, h10, h13.symm, h14.symm⟩⟩
  · rintro ⟨p, m, e, p', e', am, hooks, rest, tk, cpi, ex,
      ⟨h1, h2, h3, h4, h5, h6, h7, h8, h9, h11, h12, h10, h13, h14⟩⟩
    exact ⟨h1, p, h2, h3, m, h4, e, h5, h6, h7, _, ⟨h8, rfl⟩, p', e', am, h9, hooks, rest, h11, tk, cpi,
      h12, ex, h10, h13.symm, h14.symm⟩

/-! ## Claim -/

structure ClaimFacts (w : World) (tx : Tx) (a : ClaimAcc) (w' : World) (rc : Receipt)
    (p : Presale) (m : MintInfo) (e : Escrow) (h : Handler) (e1 : Escrow) (excluded : Nat) : Prop where
  range : slicesInRange a.slices = true
  presale : w.presales a.presale = some p
  vault : p.baseTokenVault = a.baseTokenVault ∧ p.baseMint = a.baseMint
  mint : w.tk.mints a.baseMint = some m
  escrow : w.escrows.get? a.escrow = some e
  belongs : e.presale = a.presale ∧ e.owner = a.owner
  dest : (w.tk.toks a.ownerBaseToken).isSome = true
  signed : tx.signed a.owner = true
  clock : 0 ≤ w.clock
  progress : p.getPresaleProgress w.clock.toNat = .completed
  handler : getPresaleModeHandler p = .ok h
  refresh : h.updatePendingClaimAmount p e w.clock.toNat = .ok e1
  net : transferFeeExcludedAmount m e1.pendingClaimToken = .ok excluded
  out : (0 < e1.pendingClaimToken ∧ ∃ p' e' hooks rest tk cpi,
      p.claim e1 = .ok (p', e') ∧
      parseHooks a.remaining a.slices [.transferHookBase] = .ok (hooks, rest) ∧
      transferTokens w.tk .presaleAuthority a.baseMint a.baseTokenVault a.ownerBaseToken
        a.tokenProgram e1.pendingClaimToken hooks.base tx.accept = .ok (tk, cpi) ∧
      w' = { w with presales := upd w.presales a.presale (some p'),
                    escrows := w.escrows.set a.escrow e', tk := tk } ∧
      rc = { event := some (.claim a.presale a.escrow excluded e'.totalClaimedToken p'.totalClaimedToken
               a.owner), cpis := [cpi] }) ∨
    (e1.pendingClaimToken = 0 ∧
      w' = { w with escrows := w.escrows.set a.escrow e1 } ∧
      rc = { event := some (.claim a.presale a.escrow excluded e1.totalClaimedToken p.totalClaimedToken
               a.owner), cpis := [] })

theorem handleClaim_iff {w : World} {tx : Tx} {a : ClaimAcc} {w' : World} {rc : Receipt} :
    handleClaim w tx a = .ok (w', rc) ↔ ∃ p m e h e1 excluded,
      ClaimFacts w tx a w' rc p m e h e1 excluded := by
  simp only [handleClaim, bind_eq_ok, require_eq_ok, load_eq_ok, castTime_eq_ok, exists_const]
  constructor
  · rintro ⟨h1, p, h2, h3, m, h4, e, h5, h6, h7, h8, t, ⟨h9, rfl⟩, h10, h, h11, e1, h12, ex, h13, h14⟩
    refine ⟨p, m, e, h, e1, ex, ⟨h1, h2, h3, h4, h5, h6, h7, h8, h9, h10, h11, h12, h13, ?_⟩⟩
    split at h14
    · next hp =>
      simp only [bind_eq_ok, Prod.exists, pure_eq_ok, Prod.mk.injEq] at h14
      obtain ⟨p', e', g1, hooks, rest, g2, tk, cpi, g3, g4, g5⟩ := h14
      exact Or.inl ⟨hp, p', e', hooks, rest, tk, cpi, g1, g2, g3, g4.symm, g5.symm⟩
    · next hp =>
      simp only [pure_eq_ok, Prod.mk.injEq] at h14
      exact Or.inr ⟨by omega, h14.1.symm, h14.2.symm⟩
  · rintro ⟨p, m, e, h, e1, ex, ⟨h1, h2, h3, h4, h5, h6, h7, h8, h9, h10, h11, h12, h13, h14⟩⟩
    refine ⟨h1, p, h2, h3, m, h4, e, h5, h6, h7, h8, _, ⟨h9, rfl⟩, h10, h, h11, e1, h12, ex, h13, ?_⟩
    rcases h14 with ⟨hp, p', e', hooks, rest, tk, cpi, g1, g2, g3, g4, g5⟩ | ⟨hp, g4, g5⟩
    · rw [if_pos hp, g1, ok_bind]
      simp only
      rw [g2, ok_bind]
      simp only
      rw [g3, ok_bind]
      simp only
      rw [g4, g5]; rfl
    · rw [if_neg (by omega), g4, g5]; rfl

/-! ## Refresh -/

structure RefreshFacts (w : World) (a : RefreshAcc) (w' : World) (rc : Receipt)
    (p : Presale) (e e' : Escrow) : Prop where
  presale : w.presales a.presale = some p
  escrow : w.escrows.get? a.escrow = some e
  belongs : e.presale = a.presale
  clock : 0 ≤ w.clock
  refresh : refreshed p e w.clock.toNat = .ok e'
  post : w' = { w with escrows := w.escrows.set a.escrow e' }
  receipt : rc = { event := some (.escrowRefresh a.presale a.escrow e'.owner w.clock.toNat
                     e'.pendingClaimToken), cpis := [] }

theorem handleRefresh_iff {w : World} {tx : Tx} {a : RefreshAcc} {w' : World} {rc : Receipt} :
    handleRefresh w tx a = .ok (w', rc) ↔ ∃ p e e', RefreshFacts w a w' rc p e e' := by
  simp only [handleRefresh, bind_eq_ok, require_eq_ok, load_eq_ok, castTime_eq_ok, pure_eq_ok,
    Prod.mk.injEq, exists_const]
  constructor
  · rintro ⟨p, h1, e, h2, h3, t, ⟨h4, rfl⟩, e', h5, h6, h7⟩
    exact ⟨p, e, e', ⟨h1, h2, h3, h4, h5, h6.symm, h7.symm⟩⟩
  · rintro ⟨p, e, e', ⟨h1, h2, h3, h4, h5, h6, h7⟩⟩
    exact ⟨p, h1, e, h2, h3, _, ⟨h4, rfl⟩, e', h5, h6.symm, h7.symm⟩

/-! ## Refund -/

structure RefundFacts (w : World) (tx : Tx) (a : RefundAcc) (w' : World) (rc : Receipt)
    (p : Presale) (m : MintInfo) (e : Escrow) (q : EscrowRemainingQuote) (p' : Presale)
    (hooks : ParsedHooks) (rest : List Addr) (excluded : Nat) : Prop where
  range : slicesInRange a.slices = true
  presale : w.presales a.presale = some p
  vault : p.quoteTokenVault = a.quoteTokenVault ∧ p.quoteMint = a.quoteMint
  mint : w.tk.mints a.quoteMint = some m
  escrow : w.escrows.get? a.escrow = some e
  belongs : e.presale = a.presale ∧ e.owner = a.owner
  dest : (w.tk.toks a.ownerQuoteToken).isSome = true
  signed : tx.signed a.owner = true
  fresh : e.remainingQuoteWithdrawn = false
  clock : 0 ≤ w.clock
  quote : p.validateAndGetEscrowRemainingQuote e w.clock.toNat = .ok q
  sum : q.refundDepositAmount + q.refundFeeAmount < u64Bound
  update : p.updateTotalRefundedQuoteToken (q.refundDepositAmount + q.refundFeeAmount) e.registryIndex = .ok p'
  parse : parseHooks a.remaining a.slices [.transferHookQuote] = .ok (hooks, rest)
  net : transferFeeExcludedAmount m (q.refundDepositAmount + q.refundFeeAmount) = .ok excluded
  out : (0 < q.refundDepositAmount + q.refundFeeAmount ∧ ∃ tk cpi,
      transferTokens w.tk .presaleAuthority a.quoteMint a.quoteTokenVault a.ownerQuoteToken a.tokenProgram
        (q.refundDepositAmount + q.refundFeeAmount) hooks.quote tx.accept = .ok (tk, cpi) ∧
      w' = { w with presales := upd w.presales a.presale (some p'),
                    escrows := w.escrows.set a.escrow e.updateRemainingQuoteWithdrawn, tk := tk } ∧
      rc = { event := some (.withdrawRemainingQuote a.presale a.escrow a.owner excluded
               p'.totalRefundedQuoteToken), cpis := [cpi] }) ∨
    (q.refundDepositAmount + q.refundFeeAmount = 0 ∧
      w' = { w with presales := upd w.presales a.presale (some p'),
                    escrows := w.escrows.set a.escrow e.updateRemainingQuoteWithdrawn } ∧
      rc = { event := some (.withdrawRemainingQuote a.presale a.escrow a.owner excluded
               p'.totalRefundedQuoteToken), cpis := [] })

theorem handleRefund_iff {w : World} {tx : Tx} {a : RefundAcc} {w' : World} {rc : Receipt} :
    handleRefund w tx a = .ok (w', rc) ↔ ∃ p m e q p' hooks rest excluded,
      RefundFacts w tx a w' rc p m e q p' hooks rest excluded := by
  simp only [handleRefund, bind_eq_ok, require_eq_ok, load_eq_ok, castTime_eq_ok, exists_const, add64_eq_ok,
    Prod.exists]
  constructor
  · rintro ⟨h1, p, h2, h3, m, h4, e, h5, h6, h7, h8, h9, t, ⟨h10, rfl⟩, q, h11, s, ⟨h12, rfl⟩, p', h13,
      hooks, rest, h14, ex, h15, h16⟩
    refine ⟨p, m, e, q, p', hooks, rest, ex,
      ⟨h1, h2, h3, h4, h5, h6, h7, h8, h9, h10, h11, h12, h13, h14, h15, ?_⟩⟩
    split at h16
    · next hp =>
      simp only [bind_eq_ok, Prod.exists, pure_eq_ok, Prod.mk.injEq] at h16
      obtain ⟨tk, cpi, g3, g4, g5⟩ := h16
      exact Or.inl ⟨hp, tk, cpi, g3, g4.symm, g5.symm⟩
    · next hp =>
      simp only [pure_eq_ok, Prod.mk.injEq] at h16
      exact Or.inr ⟨by omega, h16.1.symm, h16.2.symm⟩
  · rintro ⟨p, m, e, q, p', hooks, rest, ex,
      ⟨h1, h2, h3, h4, h5, h6, h7, h8, h9, h10, h11, h12, h13, h14, h15, h16⟩⟩
    refine ⟨h1, p, h2, h3, m, h4, e, h5, h6, h7, h8, h9, _, ⟨h10, rfl⟩, q, h11, _, ⟨h12, rfl⟩, p', h13,
      hooks, rest, h14, ex, h15, ?_⟩
    rcases h16 with ⟨hp, tk, cpi, g3, g4, g5⟩ | ⟨hp, g4, g5⟩
    · rw [if_pos hp, g3, ok_bind]
      simp only
      rw [g4, g5]; rfl
    · rw [if_neg (by omega), g4, g5]; rfl

/-! ## Closing an escrow -/

structure CloseEscrowFacts (w : World) (tx : Tx) (a : CloseEscrowAcc) (w' : World) (rc : Receipt)
    (p : Presale) (e : Escrow) (p' : Presale) : Prop where
  presale : w.presales a.presale = some p
  escrow : w.escrows.get? a.escrow = some e
  belongs : e.presale = a.presale ∧ e.owner = a.owner
  receiver : a.rentReceiver ≠ a.escrow
  signed : tx.signed a.owner = true
  clock : 0 ≤ w.clock
  checks : closeChecks p e w.clock.toNat = .ok ()
  update : p.decreaseEscrowCount e.registryIndex = .ok p'
  post : w' = { w with presales := upd w.presales a.presale (some p'), escrows := w.escrows.erase a.escrow }
  receipt : rc = { event := some (.escrowClose a.presale a.escrow a.owner a.rentReceiver), cpis := [] }

theorem handleCloseEscrow_iff {w : World} {tx : Tx} {a : CloseEscrowAcc} {w' : World} {rc : Receipt} :
    handleCloseEscrow w tx a = .ok (w', rc) ↔ ∃ p e p', CloseEscrowFacts w tx a w' rc p e p' := by
  simp only [handleCloseEscrow, bind_eq_ok, require_eq_ok, load_eq_ok, castTime_eq_ok, pure_eq_ok,
    Prod.mk.injEq, exists_const]
  constructor
  · rintro ⟨p, h1, e, h2, h3, h4, h10, t, ⟨h5, rfl⟩, _, h6, p', h7, h8, h9⟩
    exact ⟨p, e, p', ⟨h1, h2, h3, h4, h10, h5, h6, h7, h8.symm, h9.symm⟩⟩
  · rintro ⟨p, e, p', ⟨h1, h2, h3, h4, h10, h5, h6, h7, h8, h9⟩⟩
    exact ⟨p, h1, e, h2, h3, h4, h10, _, ⟨h5, rfl⟩, (), h6, p', h7, h8.symm, h9.symm⟩

/-! ## Creator withdrawal -/

structure CreatorWithdrawFacts (w : World) (tx : Tx) (a : CreatorWithdrawAcc) (w' : World) (rc : Receipt)
    (p : Presale) (c : CreatorPayout) (hooks : ParsedHooks) (rest : List Addr) (tk : Tokens) (cpi : Cpi)
    (m : MintInfo) (excluded : Nat) : Prop where
  range : slicesInRange a.slices = true
  presale : w.presales a.presale = some p
  owner : p.owner = a.owner
  signed : tx.signed a.owner = true
  clock : 0 ≤ w.clock
  progress : p.getPresaleProgress w.clock.toNat = .completed ∨ p.getPresaleProgress w.clock.toNat = .failed
  first : p.creatorWithdrawn = false
  payout : creatorPayout w p (p.getPresaleProgress w.clock.toNat) a.remaining = .ok c
  parse : parseHooks c.rest a.slices [c.hookType] = .ok (hooks, rest)
  transfer : transferTokens w.tk .presaleAuthority c.mint c.vault a.ownerToken a.tokenProgram c.amount
    (if p.getPresaleProgress w.clock.toNat = .completed then hooks.quote else hooks.base) tx.accept
      = .ok (tk, cpi)
  mint : w.tk.mints c.mint = some m
  net : transferFeeExcludedAmount m c.amount = .ok excluded
  post : w' = { w with presales := upd w.presales a.presale (some p.updateCreatorWithdrawn), tk := tk }
  receipt : rc = { event := some (.creatorWithdraw a.presale excluded a.owner
                     (p.getPresaleProgress w.clock.toNat)), cpis := [cpi] }

theorem handleCreatorWithdraw_iff {w : World} {tx : Tx} {a : CreatorWithdrawAcc} {w' : World} {rc : Receipt} :
    handleCreatorWithdraw w tx a = .ok (w', rc) ↔ ∃ p c hooks rest tk cpi m excluded,
      CreatorWithdrawFacts w tx a w' rc p c hooks rest tk cpi m excluded := by
  simp only [handleCreatorWithdraw, bind_eq_ok, require_eq_ok, load_eq_ok, castTime_eq_ok, exists_const,
    Prod.exists, pure_eq_ok, Prod.mk.injEq]
  constructor
  · rintro ⟨h1, p, h2, h3, h4, t, ⟨h5, rfl⟩, h6, h7, c, h8, hooks, rest, h9, tk, cpi, h10, m, h11, ex, h12,
      h13, h14⟩
    exact ⟨p, c, hooks, rest, tk, cpi, m, ex,
      ⟨h1, h2, h3, h4, h5, h6, h7, h8, h9, h10, h11, h12, h13.symm, h14.symm⟩⟩
  · rintro ⟨p, c, hooks, rest, tk, cpi, m, ex,
      ⟨h1, h2, h3, h4, h5, h6, h7, h8, h9, h10, h11, h12, h13, h14⟩⟩
    exact ⟨h1, p, h2, h3, h4, _, ⟨h5, rfl⟩, h6, h7, c, h8, hooks, rest, h9, tk, cpi, h10, m, h11, ex, h12,
      h13.symm, h14.symm⟩

/-! ## Fee collection -/

structure CollectFeeFacts (w : World) (tx : Tx) (a : CollectFeeAcc) (w' : World) (rc : Receipt)
    (p : Presale) (m : MintInfo) (fee excluded : Nat) : Prop where
  range : slicesInRange a.slices = true
  presale : w.presales a.presale = some p
  owner : p.owner = a.owner ∧ p.quoteMint = a.quoteMint ∧ p.quoteTokenVault = a.quoteTokenVault
  mint : w.tk.mints a.quoteMint = some m
  dest : (w.tk.toks a.feeReceivingAccount).isSome = true
  signed : tx.signed a.owner = true
  clock : 0 ≤ w.clock
  progress : p.getPresaleProgress w.clock.toNat = .completed ∧ p.feeCollected = false
  amount : p.getTotalCollectedFee = .ok fee
  net : transferFeeExcludedAmount m fee = .ok excluded
  out : (0 < fee ∧ ∃ hooks rest tk cpi,
      parseHooks a.remaining a.slices [.transferHookQuote] = .ok (hooks, rest) ∧
      transferTokens w.tk .presaleAuthority a.quoteMint a.quoteTokenVault a.feeReceivingAccount
        a.tokenProgram fee hooks.quote tx.accept = .ok (tk, cpi) ∧
      w' = { w with presales := upd w.presales a.presale (some p.setDepositFeeCollected), tk := tk } ∧
      rc = { event := some (.creatorCollectFee a.presale a.owner excluded), cpis := [cpi] }) ∨
    (fee = 0 ∧
      w' = { w with presales := upd w.presales a.presale (some p.setDepositFeeCollected) } ∧
      rc = { event := some (.creatorCollectFee a.presale a.owner excluded), cpis := [] })

theorem handleCollectFee_iff {w : World} {tx : Tx} {a : CollectFeeAcc} {w' : World} {rc : Receipt} :
    handleCollectFee w tx a = .ok (w', rc) ↔ ∃ p m fee excluded,
      CollectFeeFacts w tx a w' rc p m fee excluded := by
  simp only [handleCollectFee, bind_eq_ok, require_eq_ok, load_eq_ok, castTime_eq_ok, exists_const]
  constructor
  · rintro ⟨h1, p, h2, h3, m, h4, h5, h6, t, ⟨h7, rfl⟩, h8, fee, h9, ex, h10, h11⟩
    refine ⟨p, m, fee, ex, ⟨h1, h2, h3, h4, h5, h6, h7, h8, h9, h10, ?_⟩⟩
    split at h11
    · next hp =>
      simp only [bind_eq_ok, Prod.exists, pure_eq_ok, Prod.mk.injEq] at h11
      obtain ⟨hooks, rest, g2, tk, cpi, g3, g4, g5⟩ := h11
      exact Or.inl ⟨hp, hooks, rest, tk, cpi, g2, g3, g4.symm, g5.symm⟩
    · next hp =>
      simp only [pure_eq_ok, Prod.mk.injEq] at h11
      exact Or.inr ⟨by omega, h11.1.symm, h11.2.symm⟩
  · rintro ⟨p, m, fee, ex, ⟨h1, h2, h3, h4, h5, h6, h7, h8, h9, h10, h11⟩⟩
    refine ⟨h1, p, h2, h3, m, h4, h5, h6, _, ⟨h7, rfl⟩, h8, fee, h9, ex, h10, ?_⟩
    rcases h11 with ⟨hp, hooks, rest, tk, cpi, g2, g3, g4, g5⟩ | ⟨hp, g4, g5⟩
    · rw [if_pos hp, g2, ok_bind]
      simp only
      rw [g3, ok_bind]
      simp only
      rw [g4, g5]; rfl
    · rw [if_neg (by omega), g4, g5]; rfl

/-! ## Unsold tokens -/

structure UnsoldFacts (w : World) (tx : Tx) (a : UnsoldAcc) (w' : World) (rc : Receipt)
    (p : Presale) (c : TokAcct) (h : Handler) (unsold : Nat) (tk : Tokens) (cpi : Cpi) : Prop where
  range : slicesInRange a.slices = true
  presale : w.presales a.presale = some p
  vault : p.baseTokenVault = a.baseTokenVault ∧ p.baseMint = a.baseMint
  dest : w.tk.toks a.creatorBaseToken = some c
  ata : a.creatorBaseToken = .ata p.owner a.baseMint a.tokenProgram ∧ c.owner = p.owner ∧ c.mint = a.baseMint
  clock : 0 ≤ w.clock
  progress : p.getPresaleProgress w.clock.toNat = .completed
  first : p.unsoldActionPerformed = false
  handler : getPresaleModeHandler p = .ok h
  amount : p.getTotalUnsoldToken h = .ok unsold
  pos : unsold > 0
  perform : performUnsold w tx a (UnsoldTokenAction.ofByte p.unsoldTokenAction) unsold = .ok (tk, cpi)
  post : w' = { w with presales := upd w.presales a.presale (some p.setUnsoldTokenActionPerformed), tk := tk }
  receipt : rc = { event := some (.performUnsoldBaseTokenAction a.presale unsold
                     (UnsoldTokenAction.ofByte p.unsoldTokenAction)), cpis := [cpi] }

theorem handleUnsold_iff {w : World} {tx : Tx} {a : UnsoldAcc} {w' : World} {rc : Receipt} :
    handleUnsold w tx a = .ok (w', rc) ↔ ∃ p c h unsold tk cpi,
      UnsoldFacts w tx a w' rc p c h unsold tk cpi := by
  simp only [handleUnsold, bind_eq_ok, require_eq_ok, load_eq_ok, castTime_eq_ok, exists_const,
    Prod.exists, pure_eq_ok, Prod.mk.injEq]
  constructor
  · rintro ⟨h1, p, h2, h3, c, h4, h5, t, ⟨h6, rfl⟩, h7, h8, h, h9, u, h10, h11, tk, cpi, h12, h13, h14⟩
    exact ⟨p, c, h, u, tk, cpi,
      ⟨h1, h2, h3, h4, h5, h6, h7, h8, h9, h10, h11, h12, h13.symm, h14.symm⟩⟩
  · rintro ⟨p, c, h, u, tk, cpi,
      ⟨h1, h2, h3, h4, h5, h6, h7, h8, h9, h10, h11, h12, h13, h14⟩⟩
    exact ⟨h1, p, h2, h3, c, h4, h5, _, ⟨h6, rfl⟩, h7, h8, h, h9, u, h10, h11, tk, cpi, h12, h13.symm, h14.symm⟩

/-! ## Escrow creation -/

structure CreateEscrowFacts (w : World) (p : Presale) (key owner : Addr) (i : Nat) (cap? : Option Nat)
    (w' : World) (rc : Receipt) (r : Registry) (p' : Presale) : Prop where
  fresh : w.escrows.get? (.escrow key owner i) = none
  clock : 0 ≤ w.clock
  progress : p.getPresaleProgress w.clock.toNat = .ongoing
  index : i < p.totalPresaleRegistryCount
  registry : p.getRegistry i = .ok r
  cap : ∀ c, cap? = some c → 0 < c ∧ r.buyerMinimumDepositCap ≤ c ∧ c ≤ r.buyerMaximumDepositCap
  update : p.increaseEscrowCount i = .ok p'
  post : w' = { w with presales := upd w.presales key (some p'),
                       escrows := w.escrows.set (.escrow key owner i)
                         (Escrow.initialized key owner w.clock.toNat i
                           (cap?.getD r.buyerMaximumDepositCap)) }
  receipt : rc = { event := some (.escrowCreate key owner p'.whitelistMode p'.totalEscrow), cpis := [] }

theorem checkDepositCap_iff {r : Registry} {cap? : Option Nat} :
    checkDepositCap r cap? = .ok () ↔
      ∀ c, cap? = some c → 0 < c ∧ r.buyerMinimumDepositCap ≤ c ∧ c ≤ r.buyerMaximumDepositCap := by
  cases cap? with
  | none => simp [checkDepositCap]
  | some c =>
    simp only [checkDepositCap, bind_eq_ok, require_eq_ok, exists_const, Option.some.injEq]
    constructor
    · rintro ⟨h1, h2, h3⟩ c' rfl; exact ⟨h1, h2, h3⟩
    · intro h; exact ⟨(h c rfl).1, (h c rfl).2.1, (h c rfl).2.2⟩

theorem createEscrowAt_iff {w : World} {p : Presale} {key owner : Addr} {i : Nat} {cap? : Option Nat}
    {w' : World} {rc : Receipt} :
    createEscrowAt w p key owner i cap? = .ok (w', rc) ↔
      ∃ r p', CreateEscrowFacts w p key owner i cap? w' rc r p' := by
  simp only [createEscrowAt, processCreateEscrow, bind_eq_ok, require_eq_ok, castTime_eq_ok, exists_const,
    Prod.exists, pure_eq_ok, Prod.mk.injEq, Option.isNone_iff_eq_none]
  constructor
  · rintro ⟨h1, t, ⟨h2, rfl⟩, p', e', ⟨h3, h4, r, h5, _, h6, p'', h7, rfl, rfl⟩, h8, h9⟩
    exact ⟨r, p'', ⟨h1, h2, h3, h4, h5, checkDepositCap_iff.1 h6, h7, h8.symm, h9.symm⟩⟩
  · rintro ⟨r, p', ⟨h1, h2, h3, h4, h5, h6, h7, h8, h9⟩⟩
    exact ⟨h1, _, ⟨h2, rfl⟩, p', _, ⟨h3, h4, r, h5, (), checkDepositCap_iff.2 h6, p', h7, rfl, rfl⟩,
      h8.symm, h9.symm⟩

structure CreateOpenFacts (w : World) (tx : Tx) (a : CreateEscrowAcc) (p : Presale) : Prop where
  presale : w.presales a.presale = some p
  signed : tx.signed a.payer = true
  mode : castWhitelistMode p.whitelistMode = .ok .permissionless

theorem handleCreateEscrow_iff {w : World} {tx : Tx} {a : CreateEscrowAcc} {w' : World} {rc : Receipt} :
    handleCreateEscrow w tx a = .ok (w', rc) ↔ ∃ p r p', CreateOpenFacts w tx a p ∧
      CreateEscrowFacts w p a.presale a.owner 0 none w' rc r p' := by
  simp only [handleCreateEscrow, bind_eq_ok, require_eq_ok, load_eq_ok, exists_const, createEscrowAt_iff]
  constructor
  · rintro ⟨p, h1, h2, m, h3, h4, r, p', h5⟩
    have : m = .permissionless := by cases m <;> simp_all [WhitelistMode.isPermissioned]
    subst this
    exact ⟨p, r, p', ⟨h1, h2, h3⟩, h5⟩
  · rintro ⟨p, r, p', ⟨h1, h2, h3⟩, h5⟩
    exact ⟨p, h1, h2, _, h3, rfl, r, p', h5⟩

structure CreateByOperatorFacts (w : World) (tx : Tx) (a : CreateEscrowCreatorAcc) (p : Presale)
    (o : Operator) : Prop where
  range : a.registryIndex < u8Bound ∧ a.depositCap < u64Bound
  presale : w.presales a.presale = some p
  operator : w.operators a.operator = some o
  signed : tx.signed a.operatorOwner = true ∧ tx.signed a.payer = true
  mode : castWhitelistMode p.whitelistMode = .ok .permissionWithAuthority
  owner : o.owner = a.operatorOwner
  creator : o.creator = p.owner

theorem handleCreateEscrowCreator_iff {w : World} {tx : Tx} {a : CreateEscrowCreatorAcc} {w' : World}
    {rc : Receipt} :
    handleCreateEscrowCreator w tx a = .ok (w', rc) ↔ ∃ p o r p', CreateByOperatorFacts w tx a p o ∧
      CreateEscrowFacts w p a.presale a.owner a.registryIndex (some a.depositCap) w' rc r p' := by
  simp only [handleCreateEscrowCreator, bind_eq_ok, require_eq_ok, load_eq_ok, exists_const,
    createEscrowAt_iff]
  constructor
  · rintro ⟨h0, p, h1, o, h2, h3, m, h4, h5, h6, h7, r, p', h8⟩
    subst h5
    exact ⟨p, o, r, p', ⟨h0, h1, h2, h3, h4, h6, h7⟩, h8⟩
  · rintro ⟨p, o, r, p', ⟨h0, h1, h2, h3, h4, h6, h7⟩, h8⟩
    exact ⟨h0, p, h1, o, h2, h3, _, h4, rfl, h6, h7, r, p', h8⟩

structure CreateByProofFacts (w : World) (tx : Tx) (a : CreateEscrowMerkleAcc) (p : Presale)
    (c : MerkleRootConfig) : Prop where
  range : a.registryIndex < u8Bound ∧ a.depositCap < u64Bound ∧ proofInRange a.proof = true
  presale : w.presales a.presale = some p
  config : w.merkleRoots a.config = some c
  belongs : c.presale = a.presale
  signed : tx.signed a.payer = true
  mode : castWhitelistMode p.whitelistMode = .ok .permissionWithMerkleProof
  proof : merkleVerify w.env.hash a.proof c.root (leafHash w.env.hash
    (nodeHash w.env.hash (w.env.keyBytes a.owner) a.registryIndex a.depositCap)) = true

theorem handleCreateEscrowMerkle_iff {w : World} {tx : Tx} {a : CreateEscrowMerkleAcc} {w' : World}
    {rc : Receipt} :
    handleCreateEscrowMerkle w tx a = .ok (w', rc) ↔ ∃ p c r p', CreateByProofFacts w tx a p c ∧
      CreateEscrowFacts w p a.presale a.owner a.registryIndex (some a.depositCap) w' rc r p' := by
  simp only [handleCreateEscrowMerkle, bind_eq_ok, require_eq_ok, load_eq_ok, exists_const,
    createEscrowAt_iff]
  constructor
  · rintro ⟨h0, p, h1, c, h2, h3, h4, m, h5, h6, h7, r, p', h8⟩
    subst h6
    exact ⟨p, c, r, p', ⟨h0, h1, h2, h3, h4, h5, h7⟩, h8⟩
  · rintro ⟨p, c, r, p', ⟨h0, h1, h2, h3, h4, h5, h7⟩, h8⟩
    exact ⟨h0, p, h1, c, h2, h3, h4, _, h5, rfl, h7, r, p', h8⟩

/-! ## Presale creation -/

structure InitPresaleFacts (w : World) (tx : Tx) (a : InitPresaleAcc) (w' : World) (rc : Receipt)
    (bm qm : MintInfo) (p : Presale) (remaining : List Addr) (supply included : Nat) (hooks : ParsedHooks)
    (rest : List Addr) (tk : Tokens) (cpi : Cpi) : Prop where
  range : a.args.inRange = true ∧ slicesInRange a.slices = true
  baseMint : w.tk.mints a.presaleMint = some bm
  quoteMint : w.tk.mints a.quoteTokenMint = some qm
  signed : tx.signed a.base = true ∧ tx.signed a.payer = true
  fresh : w.presales a.presaleKey = none ∧ w.tk.toks (.baseVault a.presaleKey) = none
    ∧ w.tk.toks (.quoteVault a.presaleKey) = none
  programs : bm.program = a.baseTokenProgram ∧ qm.program = a.quoteTokenProgram
  clock : 0 ≤ w.clock
  valid : a.args.validate w.clock.toNat = .ok ()
  supportedQuote : isSupportedMint qm = true
  supportedBase : isSupportedMint bm = true
  create : processCreatePresaleVault w.fixedArgs a.presaleKey a.keys a.args w.clock.toNat a.remaining
    = .ok (p, remaining)
  sumSupply : sumSupplies a.args.presaleRegistries 0 = .ok supply
  gross : transferFeeIncludedAmount bm supply = .ok included
  parse : parseHooks remaining a.slices [.transferHookBase] = .ok (hooks, rest)
  transfer : transferTokens
    { w.tk with toks := upd (upd w.tk.toks (.baseVault a.presaleKey) (some (freshVault a.presaleMint)))
                          (.quoteVault a.presaleKey) (some (freshVault a.quoteTokenMint)) }
    a.payer a.presaleMint a.payerPresaleToken (.baseVault a.presaleKey) a.baseTokenProgram included
    hooks.base tx.accept = .ok (tk, cpi)
  post : w' = { w with presales := upd w.presales a.presaleKey (some p), tk := tk }
  receipt : rc = { event := some (.presaleVaultCreate a.presaleMint a.quoteTokenMint a.args.presaleRegistries
        ((a.args.lockedVestingParams.option.map LockedVestingArgs.lockDuration).getD 0)
        ((a.args.lockedVestingParams.option.map LockedVestingArgs.vestDuration).getD 0)
        a.args.presaleParams.whitelistMode a.args.presaleParams.presaleMode
        a.args.presaleParams.presaleStartTime a.args.presaleParams.presaleEndTime
        a.args.presaleParams.presaleMaximumCap a.args.presaleParams.presaleMinimumCap), cpis := [cpi] }

theorem handleInitPresale_iff {w : World} {tx : Tx} {a : InitPresaleAcc} {w' : World} {rc : Receipt} :
    handleInitPresale w tx a = .ok (w', rc) ↔
      ∃ bm qm p remaining supply included hooks rest tk cpi,
        InitPresaleFacts w tx a w' rc bm qm p remaining supply included hooks rest tk cpi := by
  simp only [handleInitPresale, bind_eq_ok, require_eq_ok, load_eq_ok, castTime_eq_ok, pure_eq_ok, Prod.exists,
    Prod.mk.injEq, exists_const, Option.isNone_iff_eq_none, ensureSupportedMint]
  constructor
  · rintro ⟨h1, bm, h2, qm, h3, h4, h5, h6, t, ⟨h7, rfl⟩, _, h8, h9, h10, p, rem, h11, s, h12, inc, h13, hooks, rest,
      h14, tk, cpi, h15, h16, h17⟩
    exact ⟨bm, qm, p, rem, s, inc, hooks, rest, tk, cpi,
      ⟨h1, h2, h3, h4, h5, h6, h7, h8, h9, h10, h11, h12, h13, h14, h15, h16.symm, h17.symm⟩⟩
  · rintro ⟨bm, qm, p, rem, s, inc, hooks, rest, tk, cpi,
      ⟨h1, h2, h3, h4, h5, h6, h7, h8, h9, h10, h11, h12, h13, h14, h15, h16, h17⟩⟩
    exact ⟨h1, bm, h2, qm, h3, h4, h5, h6, _, ⟨h7, rfl⟩, (), h8, h9, h10, p, rem, h11, s, h12, inc, h13,
      hooks, rest, h14, tk, cpi, h15, h16.symm, h17.symm⟩

/-! ## Administrative instructions -/

structure InitFixedArgsFacts (w : World) (tx : Tx) (a : InitFixedArgsAcc) (w' : World) (rc : Receipt) :
    Prop where
  range : a.disableWithdraw < u8Bound ∧ a.qPrice < u128Bound
  signed : tx.signed a.payer = true
  fresh : w.fixedArgs (.fixedPriceArgs a.presale) = none
  price : 0 < a.qPrice
  flag : (boolTypeTryFrom a.disableWithdraw).isSome = true
  post : w' = { w with
    fixedArgs := upd w.fixedArgs (.fixedPriceArgs a.presale)
      (some { disableWithdraw := a.disableWithdraw, qPrice := a.qPrice, owner := a.owner, presale := a.presale }) }
  receipt : rc = { event := some (.fixedPricePresaleArgsCreate a.presale a.qPrice), cpis := [] }

theorem handleInitFixedArgs_iff {w : World} {tx : Tx} {a : InitFixedArgsAcc} {w' : World} {rc : Receipt} :
    handleInitFixedArgs w tx a = .ok (w', rc) ↔ InitFixedArgsFacts w tx a w' rc := by
  simp only [handleInitFixedArgs, bind_eq_ok, require_eq_ok, pure_eq_ok, Prod.mk.injEq, exists_const,
    Option.isNone_iff_eq_none]
  constructor
  · rintro ⟨h1, h2, h3, h4, h5, h6, h7⟩; exact ⟨h1, h2, h3, h4, h5, h6.symm, h7.symm⟩
  · rintro ⟨h1, h2, h3, h4, h5, h6, h7⟩; exact ⟨h1, h2, h3, h4, h5, h6.symm, h7.symm⟩

structure CloseFixedArgsFacts (w : World) (tx : Tx) (a : CloseFixedArgsAcc) (w' : World) (rc : Receipt)
    (x : FixedPriceArgs) : Prop where
  account : w.fixedArgs a.account = some x
  owner : x.owner = a.owner
  signed : tx.signed a.owner = true
  post : w' = { w with fixedArgs := upd w.fixedArgs a.account none }
  receipt : rc = { event := none, cpis := [] }

theorem handleCloseFixedArgs_iff {w : World} {tx : Tx} {a : CloseFixedArgsAcc} {w' : World} {rc : Receipt} :
    handleCloseFixedArgs w tx a = .ok (w', rc) ↔ ∃ x, CloseFixedArgsFacts w tx a w' rc x := by
  simp only [handleCloseFixedArgs, bind_eq_ok, require_eq_ok, load_eq_ok, pure_eq_ok, Prod.mk.injEq, exists_const]
  constructor
  · rintro ⟨x, h1, h2, h3, h4, h5⟩; exact ⟨x, h1, h2, h3, h4.symm, h5.symm⟩
  · rintro ⟨x, h1, h2, h3, h4, h5⟩; exact ⟨x, h1, h2, h3, h4.symm, h5.symm⟩

structure CreateMerkleFacts (w : World) (tx : Tx) (a : CreateMerkleAcc) (w' : World) (rc : Receipt)
    (p : Presale) : Prop where
  range : isHash32 a.root = true ∧ a.version < u64Bound
  presale : w.presales a.presale = some p
  fresh : w.merkleRoots (.merkleRoot a.presale a.version) = none
  signed : tx.signed a.creator = true
  owner : p.owner = a.creator
  clock : 0 ≤ w.clock
  progress : p.getPresaleProgress w.clock.toNat = .notStarted ∨ p.getPresaleProgress w.clock.toNat = .ongoing
  mode : castWhitelistMode p.whitelistMode = .ok .permissionWithMerkleProof
  post : w' = { w with
    merkleRoots := upd w.merkleRoots (.merkleRoot a.presale a.version)
      (some { root := a.root, presale := a.presale, version := a.version }) }
  receipt : rc = { event := some (.merkleRootConfigCreate a.creator (.merkleRoot a.presale a.version) a.presale
        a.version a.root), cpis := [] }

theorem handleCreateMerkle_iff {w : World} {tx : Tx} {a : CreateMerkleAcc} {w' : World} {rc : Receipt} :
    handleCreateMerkle w tx a = .ok (w', rc) ↔ ∃ p, CreateMerkleFacts w tx a w' rc p := by
  simp only [handleCreateMerkle, bind_eq_ok, require_eq_ok, load_eq_ok, castTime_eq_ok, pure_eq_ok,
    Prod.mk.injEq, exists_const, Option.isNone_iff_eq_none]
  constructor
  · rintro ⟨h1, p, h2, h3, h4, h5, t, ⟨h6, rfl⟩, h7, m, h8, rfl, h9, h10⟩
    exact ⟨p, h1, h2, h3, h4, h5, h6, h7, h8, h9.symm, h10.symm⟩
  · rintro ⟨p, h1, h2, h3, h4, h5, h6, h7, h8, h9, h10⟩
    exact ⟨h1, p, h2, h3, h4, h5, _, ⟨h6, rfl⟩, h7, _, h8, rfl, h9.symm, h10.symm⟩

structure CloseMerkleFacts (w : World) (tx : Tx) (a : CloseMerkleAcc) (w' : World) (rc : Receipt)
    (p : Presale) (c : MerkleRootConfig) : Prop where
  presale : w.presales a.presale = some p
  config : w.merkleRoots a.config = some c
  belongs : c.presale = a.presale
  receiver : a.rentReceiver ≠ a.config
  signed : tx.signed a.creator = true
  owner : p.owner = a.creator
  clock : 0 ≤ w.clock
  progress : p.getPresaleProgress w.clock.toNat ≠ .ongoing
  post : w' = { w with merkleRoots := upd w.merkleRoots a.config none }
  receipt : rc = { event := some (.closeMerkleRootConfig a.presale a.config a.creator), cpis := [] }

theorem handleCloseMerkle_iff {w : World} {tx : Tx} {a : CloseMerkleAcc} {w' : World} {rc : Receipt} :
    handleCloseMerkle w tx a = .ok (w', rc) ↔ ∃ p c, CloseMerkleFacts w tx a w' rc p c := by
  simp only [handleCloseMerkle, bind_eq_ok, require_eq_ok, load_eq_ok, castTime_eq_ok, pure_eq_ok,
    Prod.mk.injEq, exists_const]
  constructor
  · rintro ⟨p, h1, c, h2, h3, h10, h4, h5, t, ⟨h6, rfl⟩, h7, h8, h9⟩
    exact ⟨p, c, h1, h2, h3, h10, h4, h5, h6, h7, h8.symm, h9.symm⟩
  · rintro ⟨p, c, h1, h2, h3, h10, h4, h5, h6, h7, h8, h9⟩
    exact ⟨p, h1, c, h2, h3, h10, h4, h5, _, ⟨h6, rfl⟩, h7, h8.symm, h9.symm⟩

structure CreateOperatorFacts (w : World) (tx : Tx) (a : CreateOperatorAcc) (w' : World) (rc : Receipt) :
    Prop where
  fresh : w.operators (.operator a.creator a.operatorOwner) = none
  signed : tx.signed a.creator = true
  post : w' = { w with
    operators := upd w.operators (.operator a.creator a.operatorOwner)
      (some { owner := a.operatorOwner, creator := a.creator }) }
  receipt : rc = { event := some (.operatorCreate a.creator (.operator a.creator a.operatorOwner)
    a.operatorOwner), cpis := [] }

theorem handleCreateOperator_iff {w : World} {tx : Tx} {a : CreateOperatorAcc} {w' : World} {rc : Receipt} :
    handleCreateOperator w tx a = .ok (w', rc) ↔ CreateOperatorFacts w tx a w' rc := by
  simp only [handleCreateOperator, bind_eq_ok, require_eq_ok, pure_eq_ok, Prod.mk.injEq, exists_const,
    Option.isNone_iff_eq_none]
  constructor
  · rintro ⟨h1, h2, h3, h4⟩; exact ⟨h1, h2, h3.symm, h4.symm⟩
  · rintro ⟨h1, h2, h3, h4⟩; exact ⟨h1, h2, h3.symm, h4.symm⟩

structure RevokeOperatorFacts (w : World) (tx : Tx) (a : RevokeOperatorAcc) (w' : World) (rc : Receipt)
    (o : Operator) : Prop where
  account : w.operators a.operator = some o
  creator : o.creator = a.creator
  signed : tx.signed a.creator = true
  post : w' = { w with operators := upd w.operators a.operator none }
  receipt : rc = { event := none, cpis := [] }

theorem handleRevokeOperator_iff {w : World} {tx : Tx} {a : RevokeOperatorAcc} {w' : World} {rc : Receipt} :
    handleRevokeOperator w tx a = .ok (w', rc) ↔ ∃ o, RevokeOperatorFacts w tx a w' rc o := by
  simp only [handleRevokeOperator, bind_eq_ok, require_eq_ok, load_eq_ok, pure_eq_ok, Prod.mk.injEq,
    exists_const]
  constructor
  · rintro ⟨x, h1, h2, h3, h4, h5⟩; exact ⟨x, h1, h2, h3, h4.symm, h5.symm⟩
  · rintro ⟨x, h1, h2, h3, h4, h5⟩; exact ⟨x, h1, h2, h3, h4.symm, h5.symm⟩

structure CreateMetadataFacts (w : World) (tx : Tx) (a : CreateMetadataAcc) (w' : World) (rc : Receipt)
    (p : Presale) : Prop where
  range : urlInRange a.serverUrl = true
  presale : w.presales a.presale = some p
  owner : p.owner = a.owner
  fresh : w.metadata (.serverMetadata a.presale) = none
  signed : tx.signed a.owner = true
  mode : castWhitelistMode p.whitelistMode = .ok .permissionWithMerkleProof ∨
    castWhitelistMode p.whitelistMode = .ok .permissionWithAuthority
  clock : 0 ≤ w.clock
  progress : p.getPresaleProgress w.clock.toNat = .ongoing ∨ p.getPresaleProgress w.clock.toNat = .notStarted
  post : w' = { w with
    metadata := upd w.metadata (.serverMetadata a.presale)
      (some { presale := a.presale, serverUrl := a.serverUrl }) }
  receipt : rc = { event := some (.permissionedServerMetadataCreate a.presale (.serverMetadata a.presale)
        a.serverUrl), cpis := [] }

theorem handleCreateMetadata_iff {w : World} {tx : Tx} {a : CreateMetadataAcc} {w' : World} {rc : Receipt} :
    handleCreateMetadata w tx a = .ok (w', rc) ↔ ∃ p, CreateMetadataFacts w tx a w' rc p := by
  simp only [handleCreateMetadata, bind_eq_ok, require_eq_ok, load_eq_ok, castTime_eq_ok, pure_eq_ok,
    Prod.mk.injEq, exists_const, Option.isNone_iff_eq_none]
  constructor
  · rintro ⟨h0, p, h1, h2, h3, h4, m, h5, h6, t, ⟨h7, rfl⟩, h8, h9, h10⟩
    refine ⟨p, h0, h1, h2, h3, h4, ?_, h7, h8, h9.symm, h10.symm⟩
    rcases h6 with h | h
    · subst h; exact Or.inl h5
    · subst h; exact Or.inr h5
  · rintro ⟨p, h0, h1, h2, h3, h4, h5, h7, h8, h9, h10⟩
    rcases h5 with h | h
    · exact ⟨h0, p, h1, h2, h3, h4, _, h, Or.inl rfl, _, ⟨h7, rfl⟩, h8, h9.symm, h10.symm⟩
    · exact ⟨h0, p, h1, h2, h3, h4, _, h, Or.inr rfl, _, ⟨h7, rfl⟩, h8, h9.symm, h10.symm⟩

structure CloseMetadataFacts (w : World) (tx : Tx) (a : CloseMetadataAcc) (w' : World) (rc : Receipt)
    (p : Presale) (m : ServerMetadata) : Prop where
  presale : w.presales a.presale = some p
  owner : p.owner = a.owner
  account : w.metadata a.account = some m
  belongs : m.presale = a.presale
  receiver : a.rentReceiver ≠ a.account
  signed : tx.signed a.owner = true
  post : w' = { w with metadata := upd w.metadata a.account none }
  receipt : rc = { event := some (.permissionedServerMetadataClose a.presale a.account), cpis := [] }

theorem handleCloseMetadata_iff {w : World} {tx : Tx} {a : CloseMetadataAcc} {w' : World} {rc : Receipt} :
    handleCloseMetadata w tx a = .ok (w', rc) ↔ ∃ p m, CloseMetadataFacts w tx a w' rc p m := by
  simp only [handleCloseMetadata, bind_eq_ok, require_eq_ok, load_eq_ok, pure_eq_ok, Prod.mk.injEq,
    exists_const]
  constructor
  · rintro ⟨p, h1, h2, m, h3, h4, h8, h5, h6, h7⟩
    exact ⟨p, m, h1, h2, h3, h4, h8, h5, h6.symm, h7.symm⟩
  · rintro ⟨p, m, h1, h2, h3, h4, h8, h5, h6, h7⟩
    exact ⟨p, h1, h2, m, h3, h4, h8, h5, h6.symm, h7.symm⟩

end Verif
