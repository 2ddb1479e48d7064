import Verif.Model.Instructions
import Verif.Lemmas.Basic
/-!
# Computations that do not fail to decode

Only the argument checks at the head of an instruction report a decoding error.
-/

namespace Verif

/-- The computation does not end in a decoding error. -/
def ND {α : Type} (x : Except Err α) : Prop := x ≠ .error (.x .deserialize)

section basic
variable {α β : Type}

@[simp] theorem nd_ok (a : α) : ND (.ok a) := by simp [ND]
@[simp] theorem nd_pure (a : α) : ND (pure a) := by simp [ND, pure, Except.pure]
@[simp] theorem nd_p (e : PErr) : ND (.error (.p e) : Except Err α) := by simp [ND]
@[simp] theorem nd_x (e : XErr) : ND (.error (.x e) : Except Err α) ↔ e ≠ .deserialize := by simp [ND]
@[simp] theorem nd_panic : ND (.error .panic : Except Err α) := by simp [ND]
@[simp] theorem nd_bind {x : Except Err α} {f : α → Except Err β} :
    ND (x >>= f) ↔ ND x ∧ ∀ a, x = .ok a → ND (f a) := by
  cases x with
  | ok a => simp [ND, bind, Except.bind]
  | error e => simp [ND, bind, Except.bind]
@[simp] theorem nd_map {x : Except Err α} {f : α → β} : ND (f <$> x) ↔ ND x := by
  cases x with
  | ok a => simp [ND, Functor.map, Except.map]
  | error e => simp [ND, Functor.map, Except.map]
@[simp] theorem nd_ite {c : Prop} [Decidable c] {x y : Except Err α} :
    ND (if c then x else y) ↔ (c → ND x) ∧ (¬ c → ND y) := by
  by_cases h : c <;> simp [h]
@[simp] theorem nd_require_p {c : Prop} [Decidable c] (e : PErr) : ND (require c (.p e)) := by
  unfold require; simp
@[simp] theorem nd_require_x {c : Prop} [Decidable c] (e : XErr) : ND (require c (.x e)) ↔ (e = .deserialize → c) := by
  unfold require
  by_cases h : c <;> simp [h]
@[simp] theorem nd_load (o : Option α) : ND (load o) := by
  unfold load; cases o <;> simp
@[simp] theorem nd_add64 (a b : Nat) : ND (add64 a b) := by unfold add64; simp
@[simp] theorem nd_add128 (a b : Nat) : ND (add128 a b) := by unfold add128; simp
@[simp] theorem nd_sub (a b : Nat) : ND (sub a b) := by unfold sub; simp
@[simp] theorem nd_mul128 (a b : Nat) : ND (mul128 a b) := by unfold mul128; simp
@[simp] theorem nd_div (a b : Nat) : ND (div a b) := by unfold div; simp
@[simp] theorem nd_shl128 (a b : Nat) : ND (shl128 a b) := by unfold shl128; simp
@[simp] theorem nd_cast64 (a : Nat) : ND (cast64 a) := by unfold cast64; simp
@[simp] theorem nd_castTime (a : Int) : ND (castTime a) := by unfold castTime; simp
end basic

/-- Split matches until simplification closes the goal. -/
macro "nd" : tactic => `(tactic| (repeat' (first | (intros; first | done | (simp; done) | (rw [nd_bind]; constructor) | split | dsimp only))))

/-! ## Arithmetic of the program -/

@[simp] theorem nd_immediate (a b : Nat) : ND (calculateImmediateReleaseToken a b) := by
  unfold calculateImmediateReleaseToken; simp
@[simp] theorem nd_immediateUser (a b c : Nat) : ND (calculateImmediateReleaseTokenForUser a b c) := by
  unfold calculateImmediateReleaseTokenForUser; simp
@[simp] theorem nd_dripped (a b c d : Nat) : ND (drippedTotalSoldToken a b c d) := by
  unfold drippedTotalSoldToken; simp
@[simp] theorem nd_drippedUser (a b c d e f : Nat) : ND (calculateDrippedAmountForUser a b c d e f) := by
  unfold calculateDrippedAmountForUser; simp
@[simp] theorem nd_userImmediate (a b c d e : Nat) : ND (userImmediateReleased a b c d e) := by
  unfold userImmediateReleased; simp
@[simp] theorem nd_cumulative (a b c d e f g h : Nat) :
    ND (calculateCumulativeClaimableAmountForUser a b c d e f g h) := by
  unfold calculateCumulativeClaimableAmountForUser; simp
@[simp] theorem nd_adjust (a b : Nat) (r : Rounding) : ND (adjustForRounding a b r) := by
  cases r <;> unfold adjustForRounding <;> simp
@[simp] theorem nd_feeIncluded (a b : Nat) (r : Rounding) : ND (calculateDepositFeeIncludedAmount a b r) := by
  unfold calculateDepositFeeIncludedAmount; simp
@[simp] theorem nd_minQuote (q : Nat) : ND (calculateMinQuoteAmountForBaseLamport q) := by
  unfold calculateMinQuoteAmountForBaseLamport; simp
@[simp] theorem nd_bought (q a : Nat) : ND (calculateTokenBought q a) := by
  unfold calculateTokenBought; simp
@[simp] theorem nd_buyable (q a : Nat) : ND (ensureTokenBuyable q a) := by
  unfold ensureTokenBuyable; simp
@[simp] theorem nd_enough (a b c : Nat) : ND (ensureEnoughPresaleSupply a b c) := by
  unfold ensureEnoughPresaleSupply; simp
@[simp] theorem nd_gap (a b c : Nat) : ND (ensureGapBetweenMinAndMaxPresaleCap a b c) := by
  unfold ensureGapBetweenMinAndMaxPresaleCap; simp
@[simp] theorem nd_withoutSurplus (a b : Nat) : ND (calculateQuoteTokenWithoutSurplus a b) := by
  unfold calculateQuoteTokenWithoutSurplus; simp

/-! ## Tokens -/

@[simp] theorem nd_supported (m : MintInfo) : ND (ensureSupportedMint m) := by
  unfold ensureSupportedMint; nd
@[simp] theorem nd_excluded (m : MintInfo) (n : Nat) : ND (transferFeeExcludedAmount m n) := by
  unfold transferFeeExcludedAmount; nd
@[simp] theorem nd_feeToAdd (f : TransferFee) (n : Nat) : ND (feeToAdd f n) := by
  unfold feeToAdd; nd
@[simp] theorem nd_included (m : MintInfo) (n : Nat) : ND (transferFeeIncludedAmount m n) := by
  unfold transferFeeIncludedAmount; nd
@[simp] theorem nd_hooksLoop (v : List AccountsType) (s : List RemSlice) (r : List Addr) (p : ParsedHooks) :
    ND (parseHooksLoop v s r p) := by
  induction s generalizing r p with
  | nil => unfold parseHooksLoop; nd
  | cons s ss ih => unfold parseHooksLoop; repeat' (first | (intros; first | done | (simp [ih]; done) | split))
@[simp] theorem nd_hooks (r : List Addr) (s : List RemSlice) (v : List AccountsType) : ND (parseHooks r s v) := by
  unfold parseHooks; nd
@[simp] theorem nd_authorize (t : TokAcct) (a : Addr) (n : Nat) : ND (authorizeSpend t a n) := by
  unfold authorizeSpend; nd
@[simp] theorem nd_transferChecked (k : Tokens) (g : TokenProgram) (s m d a : Addr) (n : Nat) (b : Bool) :
    ND (transferChecked k g s m d a n b) := by
  unfold transferChecked; nd
@[simp] theorem nd_burn (k : Tokens) (g : TokenProgram) (s m a : Addr) (n : Nat) : ND (burnTokens k g s m a n) := by
  unfold burnTokens; nd
@[simp] theorem nd_checkHooks (m : MintInfo) (h : Option (List Addr)) : ND (checkHookAccounts m h) := by
  unfold checkHookAccounts; nd
@[simp] theorem nd_transfer (k : Tokens) (a m s d : Addr) (g : TokenProgram) (n : Nat) (h : Option (List Addr))
    (b : Bool) : ND (transferTokens k a m s d g n h b) := by
  unfold transferTokens; nd

/-! ## Accounts -/

@[simp] theorem nd_presaleMode (b : Nat) : ND (castPresaleMode b) := by unfold castPresaleMode; nd
@[simp] theorem nd_whitelistMode (b : Nat) : ND (castWhitelistMode b) := by unfold castWhitelistMode; nd
@[simp] theorem nd_escrowQuota (e : Escrow) (b : Nat) : ND (e.getRemainingDepositQuota b) := by
  unfold Escrow.getRemainingDepositQuota; nd
@[simp] theorem nd_escrowDeposit (e : Escrow) (a b : Nat) : ND (e.deposit a b) := by unfold Escrow.deposit; nd
@[simp] theorem nd_escrowWithdraw (e : Escrow) (a : Nat) : ND (e.withdraw a) := by unfold Escrow.withdraw; nd
@[simp] theorem nd_escrowClaim (e : Escrow) : ND e.claim := by unfold Escrow.claim; nd
@[simp] theorem nd_escrowSum (e : Escrow) : ND e.sumClaimedAndPendingClaimAmount := by
  unfold Escrow.sumClaimedAndPendingClaimAmount; nd
@[simp] theorem nd_accumulate (e : Escrow) (a : Nat) : ND (e.accumulatePendingClaimToken a) := by
  unfold Escrow.accumulatePendingClaimToken; nd
@[simp] theorem nd_regFee (r : Registry) (a : Nat) : ND (r.depositFeeIncluded a) := by
  unfold Registry.depositFeeIncluded; nd
@[simp] theorem nd_regDeposit (r : Registry) (e : Escrow) (a b : Nat) : ND (r.deposit e a b) := by
  unfold Registry.deposit; nd
@[simp] theorem nd_regWithdraw (r : Registry) (e : Escrow) (a : Nat) : ND (r.withdraw e a) := by
  unfold Registry.withdraw; nd
@[simp] theorem nd_regInc (r : Registry) : ND r.increaseEscrowCount := by unfold Registry.increaseEscrowCount; nd
@[simp] theorem nd_regDec (r : Registry) : ND r.decreaseEscrowCount := by unfold Registry.decreaseEscrowCount; nd
@[simp] theorem nd_regRefund (r : Registry) (a : Nat) : ND (r.updateTotalRefundedQuoteToken a) := by
  unfold Registry.updateTotalRefundedQuoteToken; nd
@[simp] theorem nd_regClaim (r : Registry) (a : Nat) : ND (r.updateTotalClaimAmount a) := by
  unfold Registry.updateTotalClaimAmount; nd
@[simp] theorem nd_regRemaining (r : Registry) (a b : Nat) : ND (r.getFinalizedPresaleRemainingQuote a b) := by
  unfold Registry.getFinalizedPresaleRemainingQuote; nd
@[simp] theorem nd_regValidate (r : Registry) (e : Escrow) : ND (r.validateEscrowDeposit e) := by
  unfold Registry.validateEscrowDeposit; nd
@[simp] theorem nd_timings (a b c : Nat) : ND (vestAndLockTimings a b c) := by
  unfold vestAndLockTimings; nd
@[simp] theorem nd_getRegistry (p : Presale) (i : Nat) : ND (p.getRegistry i) := by unfold Presale.getRegistry; nd
@[simp] theorem nd_inc (p : Presale) (i : Nat) : ND (p.increaseEscrowCount i) := by
  unfold Presale.increaseEscrowCount; nd
@[simp] theorem nd_dec (p : Presale) (i : Nat) : ND (p.decreaseEscrowCount i) := by
  unfold Presale.decreaseEscrowCount; nd
@[simp] theorem nd_recalculate (p : Presale) (i : Nat) : ND (p.recalculatePresaleTiming i) := by
  unfold Presale.recalculatePresaleTiming; nd
@[simp] theorem nd_advance (p : Presale) (i : Nat) : ND (p.advanceProgressToCompleted i) := by
  unfold Presale.advanceProgressToCompleted; nd
@[simp] theorem nd_quota (p : Presale) : ND p.getRemainingDepositQuota := by
  unfold Presale.getRemainingDepositQuota; nd
@[simp] theorem nd_deposit (p : Presale) (e : Escrow) (a : Nat) : ND (p.deposit e a) := by unfold Presale.deposit; nd
@[simp] theorem nd_withdraw (p : Presale) (e : Escrow) (a : Nat) : ND (p.withdraw e a) := by
  unfold Presale.withdraw; nd
@[simp] theorem nd_updRefund (p : Presale) (a i : Nat) : ND (p.updateTotalRefundedQuoteToken a i) := by
  unfold Presale.updateTotalRefundedQuoteToken; nd
@[simp] theorem nd_allow (p : Presale) (g : PresaleProgress) : ND (p.allowWithdrawRemainingQuote g) := by
  unfold Presale.allowWithdrawRemainingQuote; nd
@[simp] theorem nd_share (a b c : Nat) : ND (Presale.shareOfRefund a b c) := by unfold Presale.shareOfRefund; nd
@[simp] theorem nd_validateRefund (p : Presale) (e : Escrow) (t : Nat) :
    ND (p.validateAndGetEscrowRemainingQuote e t) := by
  unfold Presale.validateAndGetEscrowRemainingQuote; nd
@[simp] theorem nd_claim (p : Presale) (e : Escrow) : ND (p.claim e) := by unfold Presale.claim; nd
@[simp] theorem nd_feeLoop (a b : Nat) (rs : List Registry) (n : Nat) : ND (Presale.collectedFeeLoop a b rs n) := by
  induction rs generalizing n with
  | nil => unfold Presale.collectedFeeLoop; nd
  | cons r rs ih => unfold Presale.collectedFeeLoop; simp [ih]
@[simp] theorem nd_totalFee (p : Presale) : ND p.getTotalCollectedFee := by unfold Presale.getTotalCollectedFee; nd

/-! ## Sale modes -/

@[simp] theorem nd_handler (p : Presale) : ND (getPresaleModeHandler p) := by unfold getPresaleModeHandler; nd
@[simp] theorem nd_enforce (m : Nat) (rs : List Registry) :
    ND (enforceDynamicPriceRegistriesMaxBuyerCapRange m rs) := by
  induction rs with
  | nil => unfold enforceDynamicPriceRegistriesMaxBuyerCapRange; nd
  | cons r rs ih => unfold enforceDynamicPriceRegistriesMaxBuyerCapRange; simp [ih]
@[simp] theorem nd_endIf (p : Presale) (b : Bool) (t : Nat) : ND (endPresaleIfMaxCapReached p b t) := by
  unfold endPresaleIfMaxCapReached; nd
@[simp] theorem nd_dynamicLoop (rs : List Registry) (n : Nat) : ND (dynamicSoldLoop rs n) := by
  induction rs generalizing n with
  | nil => unfold dynamicSoldLoop; nd
  | cons r rs ih => unfold dynamicSoldLoop; simp [ih]
@[simp] theorem nd_fixedLoop (q : Nat) (rs : List Registry) (n : Nat) : ND (fixedSoldLoop q rs n) := by
  induction rs generalizing n with
  | nil => unfold fixedSoldLoop; nd
  | cons r rs ih => unfold fixedSoldLoop; simp [ih]
@[simp] theorem nd_accrue (e : Escrow) (c t : Nat) : ND (accrue e c t) := by unfold accrue; nd
@[simp] theorem nd_fixedSold (q : Nat) (r : Registry) : ND (Handler.fixedRegistrySold q r) := by
  unfold Handler.fixedRegistrySold; nd
@[simp] theorem nd_modeQuota (h : Handler) (p : Presale) (e : Escrow) : ND (h.getRemainingDepositQuota p e) := by
  unfold Handler.getRemainingDepositQuota; nd
@[simp] theorem nd_modeEnd (h : Handler) (p : Presale) (t : Nat) : ND (h.endIfMaxCapReached p t) := by
  unfold Handler.endIfMaxCapReached; nd
@[simp] theorem nd_processWithdraw (h : Handler) (p : Presale) (e : Escrow) (a : Nat) :
    ND (h.processWithdraw p e a) := by
  unfold Handler.processWithdraw; nd
@[simp] theorem nd_cumulativeMode (h : Handler) (p : Presale) (e : Escrow) (t : Nat) :
    ND (h.cumulativeClaimable p e t) := by
  unfold Handler.cumulativeClaimable; nd
@[simp] theorem nd_pending (h : Handler) (p : Presale) (e : Escrow) (t : Nat) :
    ND (h.updatePendingClaimAmount p e t) := by
  unfold Handler.updatePendingClaimAmount; nd
@[simp] theorem nd_sold (h : Handler) (p : Presale) : ND (h.totalBaseTokenSold p) := by
  unfold Handler.totalBaseTokenSold; nd
@[simp] theorem nd_suggest (h : Handler) (n : Nat) : ND (h.suggestDepositAmount n) := by
  unfold Handler.suggestDepositAmount; nd
@[simp] theorem nd_suggestW (h : Handler) (e : Escrow) (n : Nat) : ND (h.suggestWithdrawAmount e n) := by
  unfold Handler.suggestWithdrawAmount; nd
@[simp] theorem nd_unsold (p : Presale) (h : Handler) : ND (p.getTotalUnsoldToken h) := by
  unfold Presale.getTotalUnsoldToken; nd

/-! ## Creation -/

@[simp] theorem nd_regArgs (r : RegistryArgs) (a : PresaleArgs) : ND (r.validate a) := by
  unfold RegistryArgs.validate; nd
@[simp] theorem nd_regArgsLoop (a : PresaleArgs) (rs : List RegistryArgs) (n : Nat) :
    ND (validateRegistriesLoop a rs n) := by
  induction rs generalizing n with
  | nil => unfold validateRegistriesLoop; nd
  | cons r rs ih => unfold validateRegistriesLoop; simp [ih]
@[simp] theorem nd_multiple (rs : List RegistryArgs) (a : PresaleArgs) : ND (checkMultipleRegistries rs a) := by
  unfold checkMultipleRegistries; nd
@[simp] theorem nd_validateRegs (rs : List RegistryArgs) (a : PresaleArgs) : ND (validatePresaleRegistries rs a) := by
  unfold validatePresaleRegistries; nd
@[simp] theorem nd_presaleArgs (a : PresaleArgs) (t : Nat) : ND (a.validate t) := by unfold PresaleArgs.validate; nd
@[simp] theorem nd_vestingArgs (l : LockedVestingArgs) (t : Nat) : ND (l.validate t) := by
  unfold LockedVestingArgs.validate; nd
@[simp] theorem nd_initArgs (a : InitializePresaleArgs) (t : Nat) : ND (a.validate t) := by
  unfold InitializePresaleArgs.validate; nd
@[simp] theorem nd_lockTerms (t : Nat) (l : Option LockedVestingArgs) : ND (lockTermsOf t l) := by
  cases l <;> unfold lockTermsOf <;> nd
@[simp] theorem nd_fixedCheck (q m : Nat) (b : Bool) (r : Registry) : ND (fixedPriceRegistryCheck q m b r) := by
  unfold fixedPriceRegistryCheck; nd
@[simp] theorem nd_fixedChecks (q m : Nat) (b : Bool) (rs : List Registry) :
    ND (fixedPriceRegistryChecks q m b rs) := by
  induction rs with
  | nil => unfold fixedPriceRegistryChecks; nd
  | cons r rs ih => unfold fixedPriceRegistryChecks; simp [ih]
@[simp] theorem nd_dynamicCheck (p : Presale) : ND (checkDynamicPriceRegistries p) := by
  unfold checkDynamicPriceRegistries; nd
@[simp] theorem nd_initializePresale (h : Handler) (l : Addr → Option FixedPriceArgs) (k : Addr) (p : Presale)
    (a : PresaleArgs) (r : List Addr) : ND (h.initializePresale l k p a r) := by
  unfold Handler.initializePresale; nd
@[simp] theorem nd_initRegistries (rs : List RegistryArgs) (i : Nat) (slots : List Registry) (n : Nat) :
    ND (initRegistriesLoop rs i slots n) := by
  induction rs generalizing i slots n with
  | nil => unfold initRegistriesLoop; nd
  | cons r rs ih => unfold initRegistriesLoop; split <;> simp [ih]
@[simp] theorem nd_initialized (k : InitKeys) (a : PresaleArgs) (rs : List RegistryArgs)
    (l : Option LockedVestingArgs) (t : Nat) : ND (Presale.initialized k a rs l t) := by
  unfold Presale.initialized; nd
@[simp] theorem nd_processCreate (l : Addr → Option FixedPriceArgs) (key : Addr) (k : InitKeys)
    (a : InitializePresaleArgs) (t : Nat) (r : List Addr) : ND (processCreatePresaleVault l key k a t r) := by
  unfold processCreatePresaleVault; nd
@[simp] theorem nd_sumSupplies (rs : List RegistryArgs) (n : Nat) : ND (sumSupplies rs n) := by
  induction rs generalizing n with
  | nil => unfold sumSupplies; nd
  | cons r rs ih => unfold sumSupplies; simp [ih]

/-! ## Instructions -/

theorem nd_handleInitPresale (w : World) (tx : Tx) (a : InitPresaleAcc)
    (h : a.args.inRange = true ∧ slicesInRange a.slices = true) : ND (handleInitPresale w tx a) := by
  unfold handleInitPresale
  rw [require_ok h]
  nd
theorem nd_handleCreateMerkle (w : World) (tx : Tx) (a : CreateMerkleAcc)
    (h : isHash32 a.root = true ∧ a.version < u64Bound) : ND (handleCreateMerkle w tx a) := by
  unfold handleCreateMerkle
  rw [require_ok h]
  nd
theorem nd_handleCloseMerkle (w : World) (tx : Tx) (a : CloseMerkleAcc) : ND (handleCloseMerkle w tx a) := by
  unfold handleCloseMerkle; nd
theorem nd_handleCreateOperator (w : World) (tx : Tx) (a : CreateOperatorAcc) : ND (handleCreateOperator w tx a) := by
  unfold handleCreateOperator; nd
theorem nd_handleRevokeOperator (w : World) (tx : Tx) (a : RevokeOperatorAcc) : ND (handleRevokeOperator w tx a) := by
  unfold handleRevokeOperator; nd
theorem nd_handleCreateMetadata (w : World) (tx : Tx) (a : CreateMetadataAcc)
    (h : urlInRange a.serverUrl = true) : ND (handleCreateMetadata w tx a) := by
  unfold handleCreateMetadata
  rw [require_ok h]
  nd
theorem nd_handleCloseMetadata (w : World) (tx : Tx) (a : CloseMetadataAcc) : ND (handleCloseMetadata w tx a) := by
  unfold handleCloseMetadata; nd
theorem nd_handleInitFixedArgs (w : World) (tx : Tx) (a : InitFixedArgsAcc)
    (h : a.disableWithdraw < u8Bound ∧ a.qPrice < u128Bound) : ND (handleInitFixedArgs w tx a) := by
  unfold handleInitFixedArgs
  rw [require_ok h]
  nd
theorem nd_handleCloseFixedArgs (w : World) (tx : Tx) (a : CloseFixedArgsAcc) : ND (handleCloseFixedArgs w tx a) := by
  unfold handleCloseFixedArgs; nd
@[simp] theorem nd_capCheck (r : Registry) (c : Option Nat) : ND (checkDepositCap r c) := by
  cases c <;> unfold checkDepositCap <;> nd
@[simp] theorem nd_processEscrow (p : Presale) (k o : Addr) (t i : Nat) (c : Option Nat) :
    ND (processCreateEscrow p k o t i c) := by
  unfold processCreateEscrow; nd
@[simp] theorem nd_escrowAt (w : World) (p : Presale) (k o : Addr) (i : Nat) (c : Option Nat) :
    ND (createEscrowAt w p k o i c) := by
  unfold createEscrowAt; nd
theorem nd_handleCreateEscrow (w : World) (tx : Tx) (a : CreateEscrowAcc) : ND (handleCreateEscrow w tx a) := by
  unfold handleCreateEscrow; nd
theorem nd_handleCreateEscrowCreator (w : World) (tx : Tx) (a : CreateEscrowCreatorAcc)
    (h : a.registryIndex < u8Bound ∧ a.depositCap < u64Bound) : ND (handleCreateEscrowCreator w tx a) := by
  unfold handleCreateEscrowCreator
  rw [require_ok h]
  nd
theorem nd_handleCreateEscrowMerkle (w : World) (tx : Tx) (a : CreateEscrowMerkleAcc)
    (h : a.registryIndex < u8Bound ∧ a.depositCap < u64Bound ∧ proofInRange a.proof = true) : ND (handleCreateEscrowMerkle w tx a) := by
  unfold handleCreateEscrowMerkle
  rw [require_ok h]
  nd
@[simp] theorem nd_depositCore (p : Presale) (e : Escrow) (t n : Nat) : ND (depositCore p e t n) := by
  unfold depositCore; nd
theorem nd_handleDeposit (w : World) (tx : Tx) (a : DepositAcc)
    (h : a.maxAmount < u64Bound ∧ slicesInRange a.slices = true) : ND (handleDeposit w tx a) := by
  unfold handleDeposit
  rw [require_ok h]
  nd
@[simp] theorem nd_withdrawCore (p : Presale) (e : Escrow) (t n : Nat) : ND (withdrawCore p e t n) := by
  unfold withdrawCore; nd
theorem nd_handleWithdraw (w : World) (tx : Tx) (a : WithdrawAcc)
    (h : a.maxAmount < u64Bound ∧ slicesInRange a.slices = true) : ND (handleWithdraw w tx a) := by
  unfold handleWithdraw
  rw [require_ok h]
  nd
theorem nd_handleClaim (w : World) (tx : Tx) (a : ClaimAcc)
    (h : slicesInRange a.slices = true) : ND (handleClaim w tx a) := by
  unfold handleClaim
  rw [require_ok h]
  nd
@[simp] theorem nd_refreshed (p : Presale) (e : Escrow) (t : Nat) : ND (refreshed p e t) := by
  unfold refreshed; nd
theorem nd_handleRefresh (w : World) (tx : Tx) (a : RefreshAcc) : ND (handleRefresh w tx a) := by
  unfold handleRefresh; nd
theorem nd_handleRefund (w : World) (tx : Tx) (a : RefundAcc)
    (h : slicesInRange a.slices = true) : ND (handleRefund w tx a) := by
  unfold handleRefund
  rw [require_ok h]
  nd
theorem nd_refundTaken (e : Escrow) {x : Except Err EscrowRemainingQuote} (h : ND x) : ND (ensureRefundTaken e x) := by
  unfold ensureRefundTaken
  cases x with
  | ok q => dsimp only; nd
  | error err =>
    dsimp only
    split
    · intro h'; cases h'; exact h rfl
    · exact nd_ok _
@[simp] theorem nd_ensureDone (p : Presale) (e : Escrow) (t : Nat) : ND (ensureDoneClaimAndRefund p e t) := by
  unfold ensureDoneClaimAndRefund
  rw [nd_bind]
  refine ⟨nd_refundTaken _ (nd_validateRefund _ _ _), ?_⟩
  nd
@[simp] theorem nd_closeChecks (p : Presale) (e : Escrow) (t : Nat) : ND (closeChecks p e t) := by
  unfold closeChecks; nd
theorem nd_handleCloseEscrow (w : World) (tx : Tx) (a : CloseEscrowAcc) : ND (handleCloseEscrow w tx a) := by
  unfold handleCloseEscrow; nd
@[simp] theorem nd_take (w : World) (r : List Addr) (v m : Addr) (e : PErr) : ND (takeVaultAndMint w r v m e) := by
  unfold takeVaultAndMint; nd
@[simp] theorem nd_payout (w : World) (p : Presale) (g : PresaleProgress) (r : List Addr) :
    ND (creatorPayout w p g r) := by
  unfold creatorPayout; nd
theorem nd_handleCreatorWithdraw (w : World) (tx : Tx) (a : CreatorWithdrawAcc)
    (h : slicesInRange a.slices = true) : ND (handleCreatorWithdraw w tx a) := by
  unfold handleCreatorWithdraw
  rw [require_ok h]
  nd
theorem nd_handleCollectFee (w : World) (tx : Tx) (a : CollectFeeAcc)
    (h : slicesInRange a.slices = true) : ND (handleCollectFee w tx a) := by
  unfold handleCollectFee
  rw [require_ok h]
  nd
@[simp] theorem nd_performUnsold (w : World) (tx : Tx) (a : UnsoldAcc) (u : UnsoldTokenAction) (n : Nat) :
    ND (performUnsold w tx a u n) := by
  unfold performUnsold; nd
theorem nd_handleUnsold (w : World) (tx : Tx) (a : UnsoldAcc)
    (h : slicesInRange a.slices = true) : ND (handleUnsold w tx a) := by
  unfold handleUnsold
  rw [require_ok h]
  nd

end Verif
