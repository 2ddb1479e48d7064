import Verif.Lemmas.WInv
import Verif.Props.DepositFee
/-!
# Every step preserves the ledger invariant
-/

namespace Verif
open Spec

/-- Instructions that rewrite one existing escrow. -/
theorem Core.setEscrow {w : World} {k' : Tokens} {a x src : Addr} {amount : Nat} {p' : Presale} {e e' : Escrow}
    (C : Core w) (hM : Moved w.tk k' src amount)
    (hsrc : src.isVault = false ∨ src = .baseVault a ∨ src = .quoteVault a)
    (hk : w.escrows.get? x = some e) (ha : e.presale = a) (h1 : e'.presale = e.presale)
    (h2 : e'.owner = e.owner) (h3 : e'.registryIndex = e.registryIndex)
    (hS : Sale w.clock (w.escrows.set x e') k' a p') :
    Core { w with presales := upd w.presales a (some p'), escrows := w.escrows.set x e', tk := k' } := by
  refine C.update hM hsrc (AMap.nodup_set C.nodup) ?_ ?_ hS
  · intro y hy
    rcases AMap.mem_set hy with h | h
    · subst h
      refine Or.inr ⟨by rw [h1, ha], ?_⟩
      have := (C.esc (x, e) (AMap.get?_mem hk)).1
      simp only [h1, h2, h3]
      exact this
    · exact Or.inl h
  · intro b hb
    exact SameFor.set_some hk (by rw [ha]; exact hb.symm) (by rw [h1, ha]; exact hb.symm)

theorem Book.refunded0 {t : Nat} {a : Addr} {p : Presale} {es : AMap Addr Escrow} (B : Book t a p es)
    (h : t < p.presaleEndTime) : p.totalRefundedQuoteToken = 0 := by
  rw [B.totRef]
  apply lsum_zero
  intro i r hr
  exact (B.reg i r hr).refund0 h

theorem Book.claimed0 {t : Nat} {a : Addr} {p : Presale} {es : AMap Addr Escrow} (B : Book t a p es)
    (h : t < p.presaleEndTime ∨ p.totalDeposit < p.presaleMinimumCap) : p.totalClaimedToken = 0 := by
  rw [B.totCl]
  apply lsum_zero
  intro i r hr
  exact (B.reg i r hr).claim0 h

/-- A deposit brings exactly principal plus fee into the quote vault. -/
theorem DepositFacts.vaultGain {w : World} {tx : Tx} {a : DepositAcc} {w' : World} {rc : Receipt}
    {p : Presale} {m : MintInfo} {e : Escrow} {d : DepositResult} {included : Nat} {hooks : ParsedHooks}
    {rest : List Addr} {tk : Tokens} {cpi : Cpi} (C : Core w)
    (F : DepositFacts w tx a w' rc p m e d included hooks rest tk cpi) :
    a.payerQuoteToken.isVault = false ∧ a.quoteTokenVault = .quoteVault a.presale ∧
    Moved w.tk tk a.payerQuoteToken included ∧ tk.mints = w.tk.mints ∧
    ∃ s q dlg, w.tk.toks a.payerQuoteToken = some s ∧ included ≤ s.amount ∧
      w.tk.toks a.quoteTokenVault = some q ∧
      tk.toks a.payerQuoteToken = some { s with amount := s.amount - included, delegate := dlg } ∧
      tk.toks a.quoteTokenVault = some { q with amount := q.amount + (d.amount + d.fees.fee) } ∧
      (∀ x, x ≠ a.payerQuoteToken → x ≠ a.quoteTokenVault → tk.toks x = w.tk.toks x) := by
  have S := C.sale _ _ F.presale
  obtain ⟨s, q, m', dlg, T⟩ := transferTokens_iff.1 F.transfer
  have hsrc := user_src T C.vaults (signed_isKey F.signed)
  have hv : a.quoteTokenVault = .quoteVault a.presale := by
    rw [← F.vault.1]; exact S.pinv.static.quoteVault
  have hne : a.payerQuoteToken ≠ a.quoteTokenVault := by
    rintro h; rw [h, hv] at hsrc; cases hsrc
  obtain ⟨x1, x2, x3, x4⟩ := T.exact hne
  have hm : m' = m := by
    have := T.hm; rw [F.mint] at this; cases this; rfl
  subst hm
  obtain ⟨h, quota, r, D⟩ := depositCore_iff.1 F.core
  obtain ⟨_, g1, g2, _⟩ := depositFee_inv D.fees
  have hex := (C42_inversion_exact (wellFormed_feeOk (C.mints _ _ F.mint)) g2 F.gross).1
  refine ⟨hsrc, hv, T.moved, x4, s, q, dlg, T.hs, T.enough, T.hd, x1, ?_, x3⟩
  rw [x2, hex, g1]

theorem Core.deposit {w : World} {tx : Tx} {a : DepositAcc} {w' : World} {rc : Receipt} (C : Core w)
    (h : handleDeposit w tx a = .ok (w', rc)) : Core w' := by
  obtain ⟨p, m, e, d, included, hooks, rest, tk, cpi, F⟩ := handleDeposit_iff.1 h
  have S := C.sale _ _ F.presale
  obtain ⟨hsrc, hv, hM, _, s, q, dlg, _, _, hq, _, hq', _⟩ := F.vaultGain C
  obtain ⟨hd, quota, r, D⟩ := depositCore_iff.1 F.core
  obtain ⟨t1, t2, t3⟩ := D.totals
  have hopen := D.open_
  have hfl := S.pinv.flags
  obtain ⟨f1, f2, f3⟩ : p.hasCreatorWithdrawn = 0 ∧ p.depositFeeCollected = 0 ∧ p.isUnsoldTokenActionPerformed = 0 :=
    ⟨hfl.open_ hopen, (hfl.failed (Or.inl hopen)).1, (hfl.failed (Or.inl hopen)).2⟩
  have hr0 := S.pinv.book.refunded0 hopen
  have hmoney0 : p.totalDeposit + p.totalDepositFee ≤ q.amount := by
    obtain ⟨b, q0, _, _, h1, _, M⟩ := S.vaults
    rw [hv] at hq
    rw [hq] at h1; cases h1
    have := ((Money.open_iff f1 f2 f3).1 M).1
    omega
  have hb : p.totalDeposit + d.amount + (p.totalDepositFee + d.fees.fee) < u64Bound := by
    have := hM.range C.amounts _ _ hq'
    simp only at this
    omega
  have hcounters : d.presale.hasCreatorWithdrawn = p.hasCreatorWithdrawn ∧
      d.presale.depositFeeCollected = p.depositFeeCollected ∧
      d.presale.isUnsoldTokenActionPerformed = p.isUnsoldTokenActionPerformed ∧
      d.presale.totalRefundedQuoteToken = p.totalRefundedQuoteToken ∧
      d.presale.totalClaimedToken = p.totalClaimedToken ∧ d.presale.presaleSupply = p.presaleSupply ∧
      Shifted p d.presale := by
    rcases D.result with ⟨h1, _⟩ | ⟨h1, _⟩ <;> rw [h1]
    · exact ⟨rfl, rfl, rfl, rfl, rfl, rfl, ⟨Nat.le_of_lt hopen, Or.inr ⟨rfl, rfl, rfl⟩⟩⟩
    · exact ⟨rfl, rfl, rfl, rfl, rfl, rfl, Shifted.same rfl rfl rfl rfl⟩
  obtain ⟨c1, c2, c3, c4, c5, c6, c7⟩ := hcounters
  rw [F.post]
  refine C.setEscrow hM (Or.inl hsrc) F.escrow F.belongs (by rw [D.escrow]; rfl) (by rw [D.escrow]; rfl)
    (by rw [D.escrow]; rfl) ?_
  refine S.update hM (S.pinv.deposit F.escrow F.belongs D hb) t3 c7 ?_
  intro b1 q1 b2 q2 hb1 hq1 hb2 hq2 hbl hql M
  rw [hv] at hq hq'
  rw [hq] at hq1; cases hq1
  rw [hq'] at hq2; cases hq2
  rw [if_neg (by rintro h; rw [← h] at hsrc; cases hsrc)] at hbl
  have hM0 := (Money.open_iff f1 f2 f3).1 M
  rw [Money.open_iff (c1.trans f1) (c2.trans f2) (c3.trans f3), t1, t2, c4, c5, c6]
  simp only
  omega

theorem transfer_moved {k : Tokens} {authority mint src dst : Addr} {prog : TokenProgram} {amount : Nat}
    {hooks : Option (List Addr)} {accept : Bool} {k' : Tokens} {cpi : Cpi}
    (h : transferTokens k authority mint src dst prog amount hooks accept = .ok (k', cpi)) :
    Moved k k' src amount := by
  obtain ⟨s, d, m, dlg, T⟩ := transferTokens_iff.1 h
  exact T.moved

theorem Core.withdraw {w : World} {tx : Tx} {a : WithdrawAcc} {w' : World} {rc : Receipt} (C : Core w)
    (h : handleWithdraw w tx a = .ok (w', rc)) : Core w' := by
  obtain ⟨p, m, e, p', e', x, hooks, rest, tk, cpi, ex, F⟩ := handleWithdraw_iff.1 h
  have S := C.sale _ _ F.presale
  obtain ⟨hd, r, D⟩ := withdrawCore_iff.1 F.core
  have hM := transfer_moved F.transfer
  have hv : a.quoteTokenVault = .quoteVault a.presale := by
    rw [← F.vault.1]; exact S.pinv.static.quoteVault
  rw [hv] at hM
  have hopen := D.open_
  have hfl := S.pinv.flags
  obtain ⟨f1, f2, f3⟩ : p.hasCreatorWithdrawn = 0 ∧ p.depositFeeCollected = 0 ∧ p.isUnsoldTokenActionPerformed = 0 :=
    ⟨hfl.open_ hopen, (hfl.failed (Or.inl hopen)).1, (hfl.failed (Or.inl hopen)).2⟩
  have hP := S.pinv.withdraw F.escrow F.belongs.1 D
  have hx := D.leP
  rw [F.post]
  rw [D.presale, D.escrow] at *
  refine C.setEscrow hM (Or.inr (Or.inr rfl)) F.escrow F.belongs.1 rfl rfl rfl ?_
  refine S.update hM hP (terms_debited D.registry) (Shifted.same rfl rfl rfl rfl) ?_
  intro b1 q1 b2 q2 hb1 hq1 hb2 hq2 hbl hql M
  rw [if_neg (by simp)] at hbl
  rw [if_pos rfl] at hql
  have hM0 := (Money.open_iff f1 f2 f3).1 M
  rw [Money.open_iff (p := p.debited e.registryIndex r x) f1 f2 f3]
  show p.totalDeposit - x + p.totalDepositFee ≤ q2.amount + p.totalRefundedQuoteToken ∧
    p.presaleSupply ≤ b2.amount + p.totalClaimedToken
  omega

/-- The same presale, one escrow rewritten, no tokens moved. -/
theorem Core.setOnly {w : World} {a x : Addr} {p : Presale} {e e' : Escrow} (C : Core w)
    (hp : w.presales a = some p) (hk : w.escrows.get? x = some e) (ha : e.presale = a)
    (h1 : e'.presale = e.presale) (h2 : e'.owner = e.owner) (h3 : e'.registryIndex = e.registryIndex)
    (hP : PInv w.clock.toNat a p (w.escrows.set x e')) :
    Core { w with escrows := w.escrows.set x e' } := by
  have S := C.sale _ _ hp
  have hM := Moved.refl w.tk (.baseVault a)
  have := C.setEscrow (p' := p) (e' := e') hM (Or.inr (Or.inl rfl)) hk ha h1 h2 h3
    (S.update hM hP rfl (Shifted.refl p) ?_)
  · rw [upd_eq_self hp] at this; exact this
  · intro b q b' q' _ _ _ _ hb hq M
    refine M.mono ?_ ?_
    · split at hb <;> omega
    · split at hq <;> omega

theorem refreshed_eq {t : Nat} {a x : Addr} {p : Presale} {es : AMap Addr Escrow} {e : Escrow}
    (P : PInv t a p es) (hk : es.get? x = some e) (ha : e.presale = a) :
    ∃ r, p.registries[e.registryIndex]? = some r ∧ EscBook t p r e ∧
      refreshed p e t = .ok (if p.getPresaleProgress t = .completed then e.accrued (claimableAt p r e t) t else e) := by
  obtain ⟨r, hr, E⟩ := P.escBook hk ha
  refine ⟨r, hr, E, ?_⟩
  unfold refreshed
  by_cases hc : p.getPresaleProgress t = .completed
  · rw [if_pos hc, if_pos hc]
    obtain ⟨_, h2, h3⟩ := progress_completed.1 hc
    obtain ⟨h, hh⟩ := P.static.handler
    rw [hh, ok_bind, P.accrue hk ha hr hh h2 h3]
  · rw [if_neg hc, if_neg hc]

theorem Core.refresh {w : World} {tx : Tx} {a : RefreshAcc} {w' : World} {rc : Receipt} (C : Core w)
    (h : handleRefresh w tx a = .ok (w', rc)) : Core w' := by
  obtain ⟨p, e, e', F⟩ := handleRefresh_iff.1 h
  have S := C.sale _ _ F.presale
  obtain ⟨r, hr, E, he⟩ := refreshed_eq S.pinv F.escrow F.belongs
  rw [F.refresh] at he
  cases he
  rw [F.post]
  by_cases hc : p.getPresaleProgress w.clock.toNat = .completed
  · simp only [if_pos hc]
    obtain ⟨_, h2, h3⟩ := progress_completed.1 hc
    exact C.setOnly F.presale F.escrow F.belongs rfl rfl rfl (S.pinv.refresh F.escrow F.belongs hr h2 h3)
  · simp only [if_neg hc]
    refine C.setOnly F.presale F.escrow F.belongs rfl rfl rfl (S.pinv.frame ?_)
    exact SameFor.set_same F.escrow

theorem Core.claim {w : World} {tx : Tx} {a : ClaimAcc} {w' : World} {rc : Receipt} (C : Core w)
    (h : handleClaim w tx a = .ok (w', rc)) : Core w' := by
  obtain ⟨p, m, e, hd, e1, ex, F⟩ := handleClaim_iff.1 h
  have S := C.sale _ _ F.presale
  obtain ⟨r, hr, E⟩ := S.pinv.escBook F.escrow F.belongs.1
  obtain ⟨_, h2, h3⟩ := progress_completed.1 F.progress
  have hacc := S.pinv.accrue F.escrow F.belongs.1 hr F.handler h2 h3
  rw [F.refresh] at hacc
  cases hacc
  rcases F.out with ⟨_, p', e', hooks, rest, tk, cpi, g1, g2, g3, g4, _⟩ | ⟨_, g4, _⟩
  · obtain ⟨r', hr', _, _, _, hp', he'⟩ := claim_iff.1 g1
    have : r' = r := by
      have h0 : p.registries[e.registryIndex]? = some r' := hr'
      rw [hr] at h0; cases h0; rfl
    subst this
    have hM := transfer_moved g3
    have hv : a.baseTokenVault = .baseVault a.presale := by
      rw [← F.vault.1]; exact S.pinv.static.baseVault
    rw [hv] at hM
    rw [g4, he', hp']
    refine C.setEscrow hM (Or.inr (Or.inl rfl)) F.escrow F.belongs.1 rfl rfl rfl ?_
    have hbk := books_claimed (p := p) (x := (e.accrued (claimableAt p r' e w.clock.toNat) w.clock.toNat).pendingClaimToken) hr
    refine S.update hM (S.pinv.claim F.escrow F.belongs.1 hr h2 h3) (terms_of_books hbk)
      (Shifted.of_books hbk) ?_
    intro b1 q1 b2 q2 hb1 hq1 hb2 hq2 hbl hql M
    rw [if_neg (by simp)] at hql
    rw [if_pos rfl] at hbl
    exact M.pay (x := 0) hbk rfl rfl rfl rfl rfl hql hbl
  · rw [g4]
    exact C.setOnly F.presale F.escrow F.belongs.1 rfl rfl rfl (S.pinv.refresh F.escrow F.belongs.1 hr h2 h3)

theorem Core.refund {w : World} {tx : Tx} {a : RefundAcc} {w' : World} {rc : Receipt} (C : Core w)
    (h : handleRefund w tx a = .ok (w', rc)) : Core w' := by
  obtain ⟨p, m, e, q, p', hooks, rest, ex, F⟩ := handleRefund_iff.1 h
  have S := C.sale _ _ F.presale
  obtain ⟨r, hr, _, _, hp'⟩ := updateRefunded_iff.1 F.update
  obtain ⟨_, hend, _⟩ := refundQuote_phase F.quote
  have htot := S.pinv.refundTotal F.escrow F.belongs.1 hr F.quote
  have hflag : e.isRemainingQuoteWithdrawn ≠ 1 := by
    have := F.fresh
    unfold Escrow.remainingQuoteWithdrawn at this
    simpa using this
  have hP := S.pinv.refund F.escrow F.belongs.1 hr hend hflag htot
  have hv : a.quoteTokenVault = .quoteVault a.presale := by
    rw [← F.vault.1]; exact S.pinv.static.quoteVault
  have hbk := books_refunded (p := p) (x := q.refundDepositAmount + q.refundFeeAmount) hr
  rcases F.out with ⟨_, tk, cpi, g3, g4, _⟩ | ⟨h0, g4, _⟩
  · have hM := transfer_moved g3
    rw [hv] at hM
    rw [g4, hp']
    refine C.setEscrow hM (Or.inr (Or.inr rfl)) F.escrow F.belongs.1 rfl rfl rfl ?_
    refine S.update hM hP (terms_of_books hbk) (Shifted.of_books hbk) ?_
    intro b1 q1 b2 q2 hb1 hq1 hb2 hq2 hbl hql M
    rw [if_neg (by simp)] at hbl
    rw [if_pos rfl] at hql
    exact M.pay (y := 0) hbk rfl rfl rfl rfl rfl hql hbl
  · have hM := Moved.refl w.tk (.quoteVault a.presale)
    rw [g4, hp']
    refine C.setEscrow hM (Or.inr (Or.inr rfl)) F.escrow F.belongs.1 rfl rfl rfl ?_
    refine S.update hM hP (terms_of_books hbk) (Shifted.of_books hbk) ?_
    intro b1 q1 b2 q2 hb1 hq1 hb2 hq2 hbl hql M
    refine M.pay (y := 0) hbk rfl rfl rfl rfl rfl ?_ ?_
    · split at hql <;> omega
    · split at hbl <;> omega

theorem closeChecks_open {p : Presale} {e : Escrow} {t : Nat} (h : closeChecks p e t = .ok ())
    (ht : t < p.presaleEndTime) : e.totalDeposit = 0 ∧ e.totalDepositFee = 0 := by
  unfold closeChecks at h
  by_cases hs : p.presaleStartTime ≤ t
  · rw [progress_ongoing.2 ⟨hs, ht⟩] at h
    simpa [require_eq_ok] using h
  · rw [progress_notStarted.2 (by omega)] at h
    cases h

theorem Core.closeEscrow {w : World} {tx : Tx} {a : CloseEscrowAcc} {w' : World} {rc : Receipt} (C : Core w)
    (h : handleCloseEscrow w tx a = .ok (w', rc)) : Core w' := by
  obtain ⟨p, e, p', F⟩ := handleCloseEscrow_iff.1 h
  have S := C.sale _ _ F.presale
  obtain ⟨r, hr, hpos, _, hp'⟩ := decreaseEscrowCount_iff.1 F.update
  have hP := S.pinv.close F.escrow F.belongs.1 hr hpos (closeChecks_open F.checks)
  have hbk := books_uncounted (p := p) hr
  have hM := Moved.refl w.tk (.quoteVault a.presale)
  rw [F.post, hp']
  refine C.update hM (Or.inr (Or.inr rfl)) (AMap.nodup_erase C.nodup) ?_ ?_ ?_
  · intro y hy
    exact Or.inl ((AMap.erase_sublist w.escrows a.escrow).subset hy)
  · intro b hb
    exact SameFor.erase F.escrow (by rw [F.belongs.1]; exact hb.symm)
  · refine S.update hM hP (terms_of_books hbk) (Shifted.of_books hbk) ?_
    intro b1 q1 b2 q2 hb1 hq1 hb2 hq2 hbl hql M
    refine M.pay (x := 0) (y := 0) hbk rfl rfl rfl rfl rfl ?_ ?_
    · split at hql <;> omega
    · split at hbl <;> omega

/-- Instructions that only change the flags of a presale and move tokens out of one of its vaults. -/
theorem Core.setFlags {w : World} {k' : Tokens} {a src : Addr} {amount : Nat} {p p' : Presale} (C : Core w)
    (hp : w.presales a = some p) (hM : Moved w.tk k' src amount)
    (hsrc : src = .baseVault a ∨ src = .quoteVault a) (hbk : books p' = books p)
    (hr : p'.registries = p.registries) (h1 : p'.totalEscrow = p.totalEscrow)
    (h2 : p'.totalClaimedToken = p.totalClaimedToken)
    (h3 : p'.totalRefundedQuoteToken = p.totalRefundedQuoteToken) (hF : Flags w.clock.toNat p')
    (hmoney : ∀ b q b' q', w.tk.toks (.baseVault a) = some b → w.tk.toks (.quoteVault a) = some q →
      k'.toks (.baseVault a) = some b' → k'.toks (.quoteVault a) = some q' →
      b.amount ≤ b'.amount + (if .baseVault a = src then amount else 0) →
      q.amount ≤ q'.amount + (if .quoteVault a = src then amount else 0) →
      Money p b.amount q.amount → Money p' b'.amount q'.amount) :
    Core { w with presales := upd w.presales a (some p'), tk := k' } := by
  have S := C.sale _ _ hp
  have hP : PInv w.clock.toNat a p' w.escrows := by
    have P := S.pinv
    have e1 : p'.createdAt = p.createdAt := (congrArg Presale.createdAt hbk :)
    have e2 : p'.presaleStartTime = p.presaleStartTime := (congrArg Presale.presaleStartTime hbk :)
    have e3 : p'.presaleEndTime = p.presaleEndTime := (congrArg Presale.presaleEndTime hbk :)
    have e4 : p'.vestingStartTime = p.vestingStartTime := (congrArg Presale.vestingStartTime hbk :)
    have e5 : p'.vestingEndTime = p.vestingEndTime := (congrArg Presale.vestingEndTime hbk :)
    have e6 : p'.lockDuration = p.lockDuration := (congrArg Presale.lockDuration hbk :)
    have e7 : p'.vestDuration = p.vestDuration := (congrArg Presale.vestDuration hbk :)
    have e8 : p'.immediateReleaseBps = p.immediateReleaseBps := (congrArg Presale.immediateReleaseBps hbk :)
    have e9 : p'.immediateReleaseTimestamp = p.immediateReleaseTimestamp :=
      (congrArg Presale.immediateReleaseTimestamp hbk :)
    refine ⟨P.static.congr (terms_of_books hbk), ?_, hF, P.book.flags hbk hr h1 h2 h3⟩
    have G := P.sched
    constructor
    · rw [e1]; exact G.created
    · rw [e2, e3]; exact G.order
    · rw [e3, e4, e5, e6, e7, e8, e9]; exact G.timing
    · rw [e3, e6, e7]; exact G.range
    · rw [e3, e6, e7, e9]; exact G.immLe
    · rw [e3, e9]; exact G.immGe
  exact C.update hM (Or.inr hsrc) C.nodup (fun x hx => Or.inl hx) (fun b _ => SameFor.refl b _)
    (S.update hM hP (terms_of_books hbk) (Shifted.of_books hbk) hmoney)

theorem creatorPayout_completed {w : World} {p : Presale} {rem : List Addr} {c : CreatorPayout}
    (h : creatorPayout w p .completed rem = .ok c) :
    c.amount = raise p ∧ c.vault = p.quoteTokenVault ∧ c.mint = p.quoteMint ∧
      c.hookType = .transferHookQuote ∧
      takeVaultAndMint w rem p.quoteTokenVault p.quoteMint .invalidQuoteMint = .ok c.rest := by
  simp only [creatorPayout, bind_eq_ok, pure_eq_ok] at h
  obtain ⟨rest, h1, rfl⟩ := h
  exact ⟨rfl, rfl, rfl, rfl, h1⟩

theorem creatorPayout_failed {w : World} {p : Presale} {rem : List Addr} {c : CreatorPayout}
    (h : creatorPayout w p .failed rem = .ok c) :
    c.amount = p.presaleSupply ∧ c.vault = p.baseTokenVault ∧ c.mint = p.baseMint ∧
      c.hookType = .transferHookBase ∧
      takeVaultAndMint w rem p.baseTokenVault p.baseMint .invalidBaseMint = .ok c.rest := by
  simp only [creatorPayout, bind_eq_ok, pure_eq_ok] at h
  obtain ⟨rest, h1, rfl⟩ := h
  exact ⟨rfl, rfl, rfl, rfl, h1⟩

theorem creatorWithdrawn_false {p : Presale} (h : p.creatorWithdrawn = false) : p.hasCreatorWithdrawn = 0 := by
  unfold Presale.creatorWithdrawn at h; simpa using h

theorem unsoldPerformed_false {p : Presale} (h : p.unsoldActionPerformed = false) :
    p.isUnsoldTokenActionPerformed = 0 := by
  unfold Presale.unsoldActionPerformed at h; simpa using h

theorem feeCollected_false {p : Presale} (h : p.feeCollected = false) : p.depositFeeCollected ≠ 1 := by
  unfold Presale.feeCollected at h; simpa using h

/-- Quote tokens paid to the creator so far. -/
def quoteOut (p : Presale) : Nat :=
  (if p.hasCreatorWithdrawn = 1 ∧ p.presaleMinimumCap ≤ p.totalDeposit then raise p else 0) +
    (if p.depositFeeCollected = 1 then collectableFee p else 0)

/-- Base tokens that left the vault otherwise than by claims. -/
def baseOut (p : Presale) : Nat :=
  (if p.isUnsoldTokenActionPerformed = 1 then p.presaleSupply - totalSold p else 0) +
    (if p.hasCreatorWithdrawn = 1 ∧ p.totalDeposit < p.presaleMinimumCap then p.presaleSupply else 0)

theorem money_iff {p : Presale} {bb qb : Nat} :
    Money p bb qb ↔ p.totalDeposit + p.totalDepositFee ≤ qb + p.totalRefundedQuoteToken + quoteOut p ∧
      p.presaleSupply ≤ bb + p.totalClaimedToken + baseOut p := by
  unfold quoteOut baseOut
  constructor
  · intro M; have := M.quote; have := M.base; omega
  · intro h; exact ⟨by omega, by omega⟩

theorem Money.flagged {p p' : Presale} {bb qb bb' qb' x y : Nat} (M : Money p bb qb)
    (h1 : p'.totalDeposit = p.totalDeposit) (h2 : p'.totalDepositFee = p.totalDepositFee)
    (h3 : p'.presaleSupply = p.presaleSupply) (h4 : p'.totalRefundedQuoteToken = p.totalRefundedQuoteToken)
    (h5 : p'.totalClaimedToken = p.totalClaimedToken) (hx : quoteOut p' = quoteOut p + x)
    (hy : baseOut p' = baseOut p + y) (hq : qb ≤ qb' + x) (hb : bb ≤ bb' + y) : Money p' bb' qb' := by
  rw [money_iff] at *
  omega

theorem out_creatorWithdrawn {p : Presale} (h : p.hasCreatorWithdrawn = 0) :
    quoteOut p.updateCreatorWithdrawn =
      quoteOut p + (if p.presaleMinimumCap ≤ p.totalDeposit then raise p else 0) ∧
    baseOut p.updateCreatorWithdrawn =
      baseOut p + (if p.totalDeposit < p.presaleMinimumCap then p.presaleSupply else 0) := by
  have e1 : p.updateCreatorWithdrawn.hasCreatorWithdrawn = 1 := rfl
  have e2 : raise p.updateCreatorWithdrawn = raise p := rfl
  have e3 : collectableFee p.updateCreatorWithdrawn = collectableFee p := rfl
  have e4 : totalSold p.updateCreatorWithdrawn = totalSold p := rfl
  have e5 : p.updateCreatorWithdrawn.presaleMinimumCap = p.presaleMinimumCap := rfl
  have e6 : p.updateCreatorWithdrawn.totalDeposit = p.totalDeposit := rfl
  have e7 : p.updateCreatorWithdrawn.depositFeeCollected = p.depositFeeCollected := rfl
  have e8 : p.updateCreatorWithdrawn.isUnsoldTokenActionPerformed = p.isUnsoldTokenActionPerformed := rfl
  have e9 : p.updateCreatorWithdrawn.presaleSupply = p.presaleSupply := rfl
  unfold quoteOut baseOut
  rw [e1, e2, e3, e4, e5, e6, e7, e8, e9, h]
  simp only [Nat.zero_ne_one, false_and, true_and, if_false]
  omega

theorem out_feeCollected {p : Presale} (h : p.depositFeeCollected ≠ 1) :
    quoteOut p.setDepositFeeCollected = quoteOut p + collectableFee p ∧
    baseOut p.setDepositFeeCollected = baseOut p + 0 := by
  have e1 : p.setDepositFeeCollected.hasCreatorWithdrawn = p.hasCreatorWithdrawn := rfl
  have e2 : raise p.setDepositFeeCollected = raise p := rfl
  have e3 : collectableFee p.setDepositFeeCollected = collectableFee p := rfl
  have e5 : p.setDepositFeeCollected.presaleMinimumCap = p.presaleMinimumCap := rfl
  have e6 : p.setDepositFeeCollected.totalDeposit = p.totalDeposit := rfl
  have e7 : p.setDepositFeeCollected.depositFeeCollected = 1 := rfl
  refine ⟨?_, rfl⟩
  unfold quoteOut
  rw [e1, e2, e3, e5, e6, e7, if_neg h]
  simp only [if_true]
  omega

theorem out_unsold {p : Presale} (h : p.isUnsoldTokenActionPerformed = 0) :
    quoteOut p.setUnsoldTokenActionPerformed = quoteOut p + 0 ∧
    baseOut p.setUnsoldTokenActionPerformed = baseOut p + (p.presaleSupply - totalSold p) := by
  have e1 : p.setUnsoldTokenActionPerformed.hasCreatorWithdrawn = p.hasCreatorWithdrawn := rfl
  have e4 : totalSold p.setUnsoldTokenActionPerformed = totalSold p := rfl
  have e5 : p.setUnsoldTokenActionPerformed.presaleMinimumCap = p.presaleMinimumCap := rfl
  have e6 : p.setUnsoldTokenActionPerformed.totalDeposit = p.totalDeposit := rfl
  have e8 : p.setUnsoldTokenActionPerformed.isUnsoldTokenActionPerformed = 1 := rfl
  have e9 : p.setUnsoldTokenActionPerformed.presaleSupply = p.presaleSupply := rfl
  refine ⟨rfl, ?_⟩
  unfold baseOut
  rw [e1, e4, e5, e6, e8, e9, h]
  simp only [Nat.zero_ne_one, if_true, if_false]
  omega

theorem Core.creatorWithdraw {w : World} {tx : Tx} {a : CreatorWithdrawAcc} {w' : World} {rc : Receipt}
    (C : Core w) (h : handleCreatorWithdraw w tx a = .ok (w', rc)) : Core w' := by
  obtain ⟨p, c, hooks, rest, tk, cpi, m, ex, F⟩ := handleCreatorWithdraw_iff.1 h
  have S := C.sale _ _ F.presale
  have hM := transfer_moved F.transfer
  have hw := creatorWithdrawn_false F.first
  have hfl := S.pinv.flags
  have hend : p.presaleEndTime ≤ w.clock.toNat := by
    rcases F.progress with h1 | h1
    · exact (progress_completed.1 h1).2.1
    · exact (progress_failed.1 h1).2.1
  have hF : Flags w.clock.toNat p.updateCreatorWithdrawn := by
    refine ⟨Nat.le_refl 1, hfl.f, hfl.u, ?_, hfl.failed⟩
    intro h; exact absurd h (by show ¬ w.clock.toNat < p.presaleEndTime; omega)
  rw [F.post]
  rcases F.progress with h1 | h1
  · have hpay := F.payout
    rw [h1] at hpay
    obtain ⟨c1, c2, c3, _⟩ := creatorPayout_completed hpay
    have hmin := (progress_completed.1 h1).2.2
    rw [c1, c2, S.pinv.static.quoteVault] at hM
    refine C.setFlags F.presale hM (Or.inr rfl) rfl rfl rfl rfl rfl hF ?_
    intro b1 q1 b2 q2 _ _ _ _ hbl hql M
    rw [if_neg (by simp)] at hbl
    rw [if_pos rfl] at hql
    obtain ⟨o1, o2⟩ := out_creatorWithdrawn hw
    rw [if_pos hmin] at o1
    rw [if_neg (by omega)] at o2
    exact M.flagged rfl rfl rfl rfl rfl o1 o2 hql hbl
  · have hpay := F.payout
    rw [h1] at hpay
    obtain ⟨c1, c2, c3, _⟩ := creatorPayout_failed hpay
    have hmin := (progress_failed.1 h1).2.2
    rw [c1, c2, S.pinv.static.baseVault] at hM
    refine C.setFlags F.presale hM (Or.inl rfl) rfl rfl rfl rfl rfl hF ?_
    intro b1 q1 b2 q2 _ _ _ _ hbl hql M
    rw [if_neg (by simp)] at hql
    rw [if_pos rfl] at hbl
    obtain ⟨o1, o2⟩ := out_creatorWithdrawn hw
    rw [if_neg (by omega)] at o1
    rw [if_pos hmin] at o2
    exact M.flagged rfl rfl rfl rfl rfl o1 o2 hql hbl

theorem Core.collectFee {w : World} {tx : Tx} {a : CollectFeeAcc} {w' : World} {rc : Receipt}
    (C : Core w) (h : handleCollectFee w tx a = .ok (w', rc)) : Core w' := by
  obtain ⟨p, m, fee, ex, F⟩ := handleCollectFee_iff.1 h
  have S := C.sale _ _ F.presale
  have hfee := S.pinv.collectedFee
  rw [F.amount] at hfee
  cases hfee
  have hfl := S.pinv.flags
  have hf0 := feeCollected_false F.progress.2
  obtain ⟨_, hend, hmin⟩ := progress_completed.1 F.progress.1
  have hF : Flags w.clock.toNat p.setDepositFeeCollected := by
    refine ⟨hfl.w, Nat.le_refl 1, hfl.u, hfl.open_, ?_⟩
    intro h
    have h' : w.clock.toNat < p.presaleEndTime ∨ p.totalDeposit < p.presaleMinimumCap := h
    omega
  have hv : a.quoteTokenVault = .quoteVault a.presale := by
    rw [← F.owner.2.2]; exact S.pinv.static.quoteVault
  have hmoney : ∀ b q b' q' : Nat, b ≤ b' → q ≤ q' + collectableFee p → Money p b q →
      Money p.setDepositFeeCollected b' q' := by
    intro b q b' q' hbl hql M
    obtain ⟨o1, o2⟩ := out_feeCollected hf0
    exact M.flagged rfl rfl rfl rfl rfl o1 o2 hql hbl
  rcases F.out with ⟨_, hooks, rest, tk, cpi, _, g3, g4, _⟩ | ⟨h0, g4, _⟩
  · have hM := transfer_moved g3
    rw [hv] at hM
    rw [g4]
    refine C.setFlags F.presale hM (Or.inr rfl) rfl rfl rfl rfl rfl hF ?_
    intro b1 q1 b2 q2 _ _ _ _ hbl hql M
    rw [if_neg (by simp)] at hbl
    rw [if_pos rfl] at hql
    exact hmoney _ _ _ _ hbl hql M
  · have hM := Moved.refl w.tk (.quoteVault a.presale)
    rw [g4]
    refine C.setFlags F.presale hM (Or.inr rfl) rfl rfl rfl rfl rfl hF ?_
    intro b1 q1 b2 q2 _ _ _ _ hbl hql M
    refine hmoney b1.amount q1.amount _ _ ?_ ?_ M
    · split at hbl <;> omega
    · split at hql <;> omega

theorem performUnsold_moved {w : World} {tx : Tx} {a : UnsoldAcc} {action : UnsoldTokenAction} {x : Nat}
    {tk : Tokens} {cpi : Cpi} (h : performUnsold w tx a action x = .ok (tk, cpi)) :
    Moved w.tk tk a.baseTokenVault x := by
  cases action with
  | burn =>
    obtain ⟨s, m, dlg, B⟩ := burnTokens_iff.1 h
    exact B.moved
  | refund =>
    simp only [performUnsold, bind_eq_ok, Prod.exists] at h
    obtain ⟨hooks, rest, _, h2⟩ := h
    exact transfer_moved h2

theorem Core.unsold {w : World} {tx : Tx} {a : UnsoldAcc} {w' : World} {rc : Receipt}
    (C : Core w) (h : handleUnsold w tx a = .ok (w', rc)) : Core w' := by
  obtain ⟨p, c, hd, x, tk, cpi, F⟩ := handleUnsold_iff.1 h
  have S := C.sale _ _ F.presale
  have hx := S.pinv.unsold F.handler
  rw [F.amount] at hx
  cases hx
  have hM := performUnsold_moved F.perform
  have hfl := S.pinv.flags
  have hf0 := unsoldPerformed_false F.first
  obtain ⟨_, hend, hmin⟩ := progress_completed.1 F.progress
  have hF : Flags w.clock.toNat p.setUnsoldTokenActionPerformed := by
    refine ⟨hfl.w, hfl.f, Nat.le_refl 1, hfl.open_, ?_⟩
    intro h
    have h' : w.clock.toNat < p.presaleEndTime ∨ p.totalDeposit < p.presaleMinimumCap := h
    omega
  have hv : a.baseTokenVault = .baseVault a.presale := by
    rw [← F.vault.1]; exact S.pinv.static.baseVault
  rw [hv] at hM
  rw [F.post]
  refine C.setFlags F.presale hM (Or.inl rfl) rfl rfl rfl rfl rfl hF ?_
  intro b1 q1 b2 q2 _ _ _ _ hbl hql M
  rw [if_neg (by simp)] at hql
  rw [if_pos rfl] at hbl
  obtain ⟨o1, o2⟩ := out_unsold hf0
  exact M.flagged rfl rfl rfl rfl rfl o1 o2 hql hbl

theorem Core.create {w : World} {p : Presale} {key owner : Addr} {i : Nat} {cap? : Option Nat}
    {w' : World} {rc : Receipt} {r : Registry} {p' : Presale} (C : Core w)
    (hp : w.presales key = some p) (F : CreateEscrowFacts w p key owner i cap? w' rc r p')
    (hopen : castWhitelistMode p.whitelistMode = .ok .permissionless → i = 0 ∧ cap? = none) : Core w' := by
  have S := C.sale _ _ hp
  obtain ⟨r', hr', _, _, hp'⟩ := increaseEscrowCount_iff.1 F.update
  have hr := getRegistry_eq_ok.1 F.registry
  rw [hr] at hr'; cases hr'
  obtain ⟨h1, h2⟩ := progress_ongoing.1 F.progress
  have hP := S.pinv.create (owner := owner) (cap := cap?.getD r.buyerMaximumDepositCap) F.fresh h1 h2 F.index hr
    (by
      cases hc : cap? with
      | none => exact Nat.le_refl _
      | some c => exact (F.cap c hc).2.2)
    (by
      intro hw
      obtain ⟨g1, g2⟩ := hopen hw
      exact ⟨g1, by rw [g2]; rfl⟩)
  have hM := Moved.refl w.tk (.quoteVault key)
  have hfl := S.pinv.flags
  obtain ⟨f1, f2, f3⟩ : p.hasCreatorWithdrawn = 0 ∧ p.depositFeeCollected = 0 ∧ p.isUnsoldTokenActionPerformed = 0 :=
    ⟨hfl.open_ h2, (hfl.failed (Or.inl h2)).1, (hfl.failed (Or.inl h2)).2⟩
  rw [F.post, hp']
  refine C.update hM (Or.inr (Or.inr rfl)) (AMap.nodup_set C.nodup) ?_ ?_ ?_
  · intro y hy
    rcases AMap.mem_set hy with h | h
    · subst h; exact Or.inr ⟨rfl, rfl⟩
    · exact Or.inl h
  · intro b hb
    exact SameFor.set_none F.fresh hb.symm
  · refine S.update hM hP (terms_counted hr) (Shifted.same rfl rfl rfl rfl) ?_
    intro b1 q1 b2 q2 _ _ _ _ hbl hql M
    have hM0 := (Money.open_iff f1 f2 f3).1 M
    rw [Money.open_iff (p := p.counted i r) f1 f2 f3]
    show p.totalDeposit + p.totalDepositFee ≤ q2.amount + p.totalRefundedQuoteToken ∧
      p.presaleSupply ≤ b2.amount + p.totalClaimedToken
    split at hbl <;> split at hql <;> omega

end Verif
