import Verif.Lemmas.WInv
import Verif.Lemmas.End
import Verif.Props.TransferFee
/-!
# Computations that do not panic
-/

namespace Verif
open Spec

/-- The computation does not end in a panic. -/
def NP {α : Type} (x : Except Err α) : Prop := x ≠ .error .panic

section basic
variable {α β : Type}

@[simp] theorem np_ok (a : α) : NP (.ok a) := by simp [NP]
@[simp] theorem np_pure (a : α) : NP (pure a) := by simp [NP, pure, Except.pure]
@[simp] theorem np_p (e : PErr) : NP (.error (.p e) : Except Err α) := by simp [NP]
@[simp] theorem np_x (e : XErr) : NP (.error (.x e) : Except Err α) := by simp [NP]
@[simp] theorem np_bind {x : Except Err α} {f : α → Except Err β} :
    NP (x >>= f) ↔ NP x ∧ ∀ a, x = .ok a → NP (f a) := by
  cases x with
  | ok a => simp [NP, bind, Except.bind]
  | error e => simp [NP, bind, Except.bind]
@[simp] theorem np_map {x : Except Err α} {f : α → β} : NP (f <$> x) ↔ NP x := by
  cases x with
  | ok a => simp [NP, Functor.map, Except.map]
  | error e => simp [NP, Functor.map, Except.map]
@[simp] theorem np_ite {c : Prop} [Decidable c] {x y : Except Err α} :
    NP (if c then x else y) ↔ (c → NP x) ∧ (¬ c → NP y) := by
  by_cases h : c <;> simp [h]
@[simp] theorem np_require_p {c : Prop} [Decidable c] (e : PErr) : NP (require c (.p e)) := by
  unfold require; simp
@[simp] theorem np_require_x {c : Prop} [Decidable c] (e : XErr) : NP (require c (.x e)) := by
  unfold require; simp
@[simp] theorem np_load (o : Option α) : NP (load o) := by
  unfold load; cases o <;> simp
@[simp] theorem np_add64 (a b : Nat) : NP (add64 a b) := by unfold add64; simp
@[simp] theorem np_add128 (a b : Nat) : NP (add128 a b) := by unfold add128; simp
@[simp] theorem np_sub (a b : Nat) : NP (sub a b) := by unfold sub; simp
@[simp] theorem np_mul128 (a b : Nat) : NP (mul128 a b) := by unfold mul128; simp
@[simp] theorem np_div (a b : Nat) : NP (div a b) := by unfold div; simp
@[simp] theorem np_shl128 (a b : Nat) : NP (shl128 a b) := by unfold shl128; simp
@[simp] theorem np_cast64 (a : Nat) : NP (cast64 a) := by unfold cast64; simp
@[simp] theorem np_castTime (a : Int) : NP (castTime a) := by unfold castTime; simp
end basic

/-- Split matches until simplification closes the goal. -/
macro "np" : tactic => `(tactic| (repeat' (first | (intros; first | done | (simp; done) | (rw [np_bind]; constructor) | split | dsimp only))))

/-! ## Arithmetic of the program -/

@[simp] theorem np_immediate (a b : Nat) : NP (calculateImmediateReleaseToken a b) := by
  unfold calculateImmediateReleaseToken; simp
@[simp] theorem np_immediateUser (a b c : Nat) : NP (calculateImmediateReleaseTokenForUser a b c) := by
  unfold calculateImmediateReleaseTokenForUser; simp
@[simp] theorem np_dripped (a b c d : Nat) : NP (drippedTotalSoldToken a b c d) := by
  unfold drippedTotalSoldToken; simp
@[simp] theorem np_drippedUser (a b c d e f : Nat) : NP (calculateDrippedAmountForUser a b c d e f) := by
  unfold calculateDrippedAmountForUser; simp
@[simp] theorem np_userImmediate (a b c d e : Nat) : NP (userImmediateReleased a b c d e) := by
  unfold userImmediateReleased; simp
@[simp] theorem np_cumulative (a b c d e f g h : Nat) :
    NP (calculateCumulativeClaimableAmountForUser a b c d e f g h) := by
  unfold calculateCumulativeClaimableAmountForUser; simp
@[simp] theorem np_adjust (a b : Nat) (r : Rounding) : NP (adjustForRounding a b r) := by
  cases r <;> unfold adjustForRounding <;> simp
@[simp] theorem np_feeIncluded (a b : Nat) (r : Rounding) : NP (calculateDepositFeeIncludedAmount a b r) := by
  unfold calculateDepositFeeIncludedAmount; simp
@[simp] theorem np_minQuote (q : Nat) : NP (calculateMinQuoteAmountForBaseLamport q) := by
  unfold calculateMinQuoteAmountForBaseLamport; simp
@[simp] theorem np_bought (q a : Nat) : NP (calculateTokenBought q a) := by
  unfold calculateTokenBought; simp
@[simp] theorem np_buyable (q a : Nat) : NP (ensureTokenBuyable q a) := by
  unfold ensureTokenBuyable; simp
@[simp] theorem np_enough (a b c : Nat) : NP (ensureEnoughPresaleSupply a b c) := by
  unfold ensureEnoughPresaleSupply; simp
@[simp] theorem np_gap (a b c : Nat) : NP (ensureGapBetweenMinAndMaxPresaleCap a b c) := by
  unfold ensureGapBetweenMinAndMaxPresaleCap; simp
@[simp] theorem np_withoutSurplus (a b : Nat) : NP (calculateQuoteTokenWithoutSurplus a b) := by
  unfold calculateQuoteTokenWithoutSurplus; simp

/-! ## Tokens -/

@[simp] theorem np_supported (m : MintInfo) : NP (ensureSupportedMint m) := by
  unfold ensureSupportedMint; np
@[simp] theorem np_excluded (m : MintInfo) (n : Nat) : NP (transferFeeExcludedAmount m n) := by
  unfold transferFeeExcludedAmount; np
theorem np_included {m : MintInfo} (hm : FeeOk m) {n : Nat} (hn : n < u64Bound) :
    NP (transferFeeIncludedAmount m n) := (C42_panic_unreachable hm hn).1
@[simp] theorem np_hooksLoop (v : List AccountsType) (s : List RemSlice) (r : List Addr) (p : ParsedHooks) :
    NP (parseHooksLoop v s r p) := by
  induction s generalizing r p with
  | nil => unfold parseHooksLoop; np
  | cons s ss ih => unfold parseHooksLoop; repeat' (first | (intros; first | done | (simp [ih]; done) | split))
@[simp] theorem np_hooks (r : List Addr) (s : List RemSlice) (v : List AccountsType) : NP (parseHooks r s v) := by
  unfold parseHooks; np
@[simp] theorem np_authorize (t : TokAcct) (a : Addr) (n : Nat) : NP (authorizeSpend t a n) := by
  unfold authorizeSpend; np
@[simp] theorem np_transferChecked (k : Tokens) (g : TokenProgram) (s m d a : Addr) (n : Nat) (b : Bool) :
    NP (transferChecked k g s m d a n b) := by
  unfold transferChecked; np
@[simp] theorem np_burn (k : Tokens) (g : TokenProgram) (s m a : Addr) (n : Nat) : NP (burnTokens k g s m a n) := by
  unfold burnTokens; np
@[simp] theorem np_checkHooks (m : MintInfo) (h : Option (List Addr)) : NP (checkHookAccounts m h) := by
  unfold checkHookAccounts; np
@[simp] theorem np_transfer (k : Tokens) (a m s d : Addr) (g : TokenProgram) (n : Nat) (h : Option (List Addr))
    (b : Bool) : NP (transferTokens k a m s d g n h b) := by
  unfold transferTokens; np

/-! ## Accounts -/

@[simp] theorem np_presaleMode (b : Nat) : NP (castPresaleMode b) := by unfold castPresaleMode; np
@[simp] theorem np_whitelistMode (b : Nat) : NP (castWhitelistMode b) := by unfold castWhitelistMode; np
@[simp] theorem np_escrowQuota (e : Escrow) (b : Nat) : NP (e.getRemainingDepositQuota b) := by
  unfold Escrow.getRemainingDepositQuota; np
@[simp] theorem np_escrowDeposit (e : Escrow) (a b : Nat) : NP (e.deposit a b) := by unfold Escrow.deposit; np
@[simp] theorem np_escrowWithdraw (e : Escrow) (a : Nat) : NP (e.withdraw a) := by unfold Escrow.withdraw; np
@[simp] theorem np_escrowClaim (e : Escrow) : NP e.claim := by unfold Escrow.claim; np
@[simp] theorem np_escrowSum (e : Escrow) : NP e.sumClaimedAndPendingClaimAmount := by
  unfold Escrow.sumClaimedAndPendingClaimAmount; np
@[simp] theorem np_accumulate (e : Escrow) (a : Nat) : NP (e.accumulatePendingClaimToken a) := by
  unfold Escrow.accumulatePendingClaimToken; np
@[simp] theorem np_regFee (r : Registry) (a : Nat) : NP (r.depositFeeIncluded a) := by
  unfold Registry.depositFeeIncluded; np
@[simp] theorem np_regDeposit (r : Registry) (e : Escrow) (a b : Nat) : NP (r.deposit e a b) := by
  unfold Registry.deposit; np
@[simp] theorem np_regWithdraw (r : Registry) (e : Escrow) (a : Nat) : NP (r.withdraw e a) := by
  unfold Registry.withdraw; np
@[simp] theorem np_regInc (r : Registry) : NP r.increaseEscrowCount := by unfold Registry.increaseEscrowCount; np
@[simp] theorem np_regDec (r : Registry) : NP r.decreaseEscrowCount := by unfold Registry.decreaseEscrowCount; np
@[simp] theorem np_regRefund (r : Registry) (a : Nat) : NP (r.updateTotalRefundedQuoteToken a) := by
  unfold Registry.updateTotalRefundedQuoteToken; np
@[simp] theorem np_regClaim (r : Registry) (a : Nat) : NP (r.updateTotalClaimAmount a) := by
  unfold Registry.updateTotalClaimAmount; np
@[simp] theorem np_regRemaining (r : Registry) (a b : Nat) : NP (r.getFinalizedPresaleRemainingQuote a b) := by
  unfold Registry.getFinalizedPresaleRemainingQuote; np
@[simp] theorem np_regValidate (r : Registry) (e : Escrow) : NP (r.validateEscrowDeposit e) := by
  unfold Registry.validateEscrowDeposit; np
@[simp] theorem np_timings (a b c : Nat) : NP (vestAndLockTimings a b c) := by
  unfold vestAndLockTimings; np
@[simp] theorem np_getRegistry (p : Presale) (i : Nat) : NP (p.getRegistry i) := by unfold Presale.getRegistry; np
@[simp] theorem np_inc (p : Presale) (i : Nat) : NP (p.increaseEscrowCount i) := by
  unfold Presale.increaseEscrowCount; np
@[simp] theorem np_dec (p : Presale) (i : Nat) : NP (p.decreaseEscrowCount i) := by
  unfold Presale.decreaseEscrowCount; np
@[simp] theorem np_recalculate (p : Presale) (i : Nat) : NP (p.recalculatePresaleTiming i) := by
  unfold Presale.recalculatePresaleTiming; np
@[simp] theorem np_advance (p : Presale) (i : Nat) : NP (p.advanceProgressToCompleted i) := by
  unfold Presale.advanceProgressToCompleted; np
@[simp] theorem np_quota (p : Presale) : NP p.getRemainingDepositQuota := by
  unfold Presale.getRemainingDepositQuota; np
@[simp] theorem np_deposit (p : Presale) (e : Escrow) (a : Nat) : NP (p.deposit e a) := by unfold Presale.deposit; np
@[simp] theorem np_withdraw (p : Presale) (e : Escrow) (a : Nat) : NP (p.withdraw e a) := by
  unfold Presale.withdraw; np
@[simp] theorem np_updRefund (p : Presale) (a i : Nat) : NP (p.updateTotalRefundedQuoteToken a i) := by
  unfold Presale.updateTotalRefundedQuoteToken; np
@[simp] theorem np_allow (p : Presale) (g : PresaleProgress) : NP (p.allowWithdrawRemainingQuote g) := by
  unfold Presale.allowWithdrawRemainingQuote; np
@[simp] theorem np_share (a b c : Nat) : NP (Presale.shareOfRefund a b c) := by unfold Presale.shareOfRefund; np
@[simp] theorem np_validateRefund (p : Presale) (e : Escrow) (t : Nat) :
    NP (p.validateAndGetEscrowRemainingQuote e t) := by
  unfold Presale.validateAndGetEscrowRemainingQuote; np
@[simp] theorem np_claim (p : Presale) (e : Escrow) : NP (p.claim e) := by unfold Presale.claim; np
@[simp] theorem np_feeLoop (a b : Nat) (rs : List Registry) (n : Nat) : NP (Presale.collectedFeeLoop a b rs n) := by
  induction rs generalizing n with
  | nil => unfold Presale.collectedFeeLoop; np
  | cons r rs ih => unfold Presale.collectedFeeLoop; simp [ih]
@[simp] theorem np_totalFee (p : Presale) : NP p.getTotalCollectedFee := by unfold Presale.getTotalCollectedFee; np

/-! ## Sale modes -/

@[simp] theorem np_handler (p : Presale) : NP (getPresaleModeHandler p) := by unfold getPresaleModeHandler; np
@[simp] theorem np_enforce (m : Nat) (rs : List Registry) :
    NP (enforceDynamicPriceRegistriesMaxBuyerCapRange m rs) := by
  induction rs with
  | nil => unfold enforceDynamicPriceRegistriesMaxBuyerCapRange; np
  | cons r rs ih => unfold enforceDynamicPriceRegistriesMaxBuyerCapRange; simp [ih]
@[simp] theorem np_endIf (p : Presale) (b : Bool) (t : Nat) : NP (endPresaleIfMaxCapReached p b t) := by
  unfold endPresaleIfMaxCapReached; np
@[simp] theorem np_dynamicLoop (rs : List Registry) (n : Nat) : NP (dynamicSoldLoop rs n) := by
  induction rs generalizing n with
  | nil => unfold dynamicSoldLoop; np
  | cons r rs ih => unfold dynamicSoldLoop; simp [ih]
@[simp] theorem np_fixedLoop (q : Nat) (rs : List Registry) (n : Nat) : NP (fixedSoldLoop q rs n) := by
  induction rs generalizing n with
  | nil => unfold fixedSoldLoop; np
  | cons r rs ih => unfold fixedSoldLoop; simp [ih]
@[simp] theorem np_accrue (e : Escrow) (c t : Nat) : NP (accrue e c t) := by unfold accrue; np
@[simp] theorem np_fixedSold (q : Nat) (r : Registry) : NP (Handler.fixedRegistrySold q r) := by
  unfold Handler.fixedRegistrySold; np
@[simp] theorem np_modeQuota (h : Handler) (p : Presale) (e : Escrow) : NP (h.getRemainingDepositQuota p e) := by
  unfold Handler.getRemainingDepositQuota; np
@[simp] theorem np_modeEnd (h : Handler) (p : Presale) (t : Nat) : NP (h.endIfMaxCapReached p t) := by
  unfold Handler.endIfMaxCapReached; np
/-- The panic of first-come-first-served withdrawals is behind `canWithdraw`. -/
theorem np_processWithdraw {h : Handler} (hc : h.canWithdraw = true) (p : Presale) (e : Escrow) (a : Nat) :
    NP (h.processWithdraw p e a) := by
  cases h with
  | fcfs _ => cases hc
  | _ => unfold Handler.processWithdraw; np
@[simp] theorem np_cumulativeMode (h : Handler) (p : Presale) (e : Escrow) (t : Nat) :
    NP (h.cumulativeClaimable p e t) := by
  unfold Handler.cumulativeClaimable; np
@[simp] theorem np_pending (h : Handler) (p : Presale) (e : Escrow) (t : Nat) :
    NP (h.updatePendingClaimAmount p e t) := by
  unfold Handler.updatePendingClaimAmount; np
@[simp] theorem np_sold (h : Handler) (p : Presale) : NP (h.totalBaseTokenSold p) := by
  unfold Handler.totalBaseTokenSold; np
@[simp] theorem np_suggest (h : Handler) (n : Nat) : NP (h.suggestDepositAmount n) := by
  unfold Handler.suggestDepositAmount; np
@[simp] theorem np_suggestW (h : Handler) (e : Escrow) (n : Nat) : NP (h.suggestWithdrawAmount e n) := by
  unfold Handler.suggestWithdrawAmount; np
@[simp] theorem np_unsold (p : Presale) (h : Handler) : NP (p.getTotalUnsoldToken h) := by
  unfold Presale.getTotalUnsoldToken; np

/-! ## Creation -/

@[simp] theorem np_regArgs (r : RegistryArgs) (a : PresaleArgs) : NP (r.validate a) := by
  unfold RegistryArgs.validate; np
@[simp] theorem np_regArgsLoop (a : PresaleArgs) (rs : List RegistryArgs) (n : Nat) :
    NP (validateRegistriesLoop a rs n) := by
  induction rs generalizing n with
  | nil => unfold validateRegistriesLoop; np
  | cons r rs ih => unfold validateRegistriesLoop; simp [ih]
@[simp] theorem np_multiple (rs : List RegistryArgs) (a : PresaleArgs) : NP (checkMultipleRegistries rs a) := by
  unfold checkMultipleRegistries; np
@[simp] theorem np_validateRegs (rs : List RegistryArgs) (a : PresaleArgs) : NP (validatePresaleRegistries rs a) := by
  unfold validatePresaleRegistries; np
@[simp] theorem np_presaleArgs (a : PresaleArgs) (t : Nat) : NP (a.validate t) := by unfold PresaleArgs.validate; np
@[simp] theorem np_vestingArgs (l : LockedVestingArgs) (t : Nat) : NP (l.validate t) := by
  unfold LockedVestingArgs.validate; np
@[simp] theorem np_initArgs (a : InitializePresaleArgs) (t : Nat) : NP (a.validate t) := by
  unfold InitializePresaleArgs.validate; np
@[simp] theorem np_lockTerms (t : Nat) (l : Option LockedVestingArgs) : NP (lockTermsOf t l) := by
  cases l <;> unfold lockTermsOf <;> np
@[simp] theorem np_fixedCheck (q m : Nat) (b : Bool) (r : Registry) : NP (fixedPriceRegistryCheck q m b r) := by
  unfold fixedPriceRegistryCheck; np
@[simp] theorem np_fixedChecks (q m : Nat) (b : Bool) (rs : List Registry) :
    NP (fixedPriceRegistryChecks q m b rs) := by
  induction rs with
  | nil => unfold fixedPriceRegistryChecks; np
  | cons r rs ih => unfold fixedPriceRegistryChecks; simp [ih]
@[simp] theorem np_dynamicCheck (p : Presale) : NP (checkDynamicPriceRegistries p) := by
  unfold checkDynamicPriceRegistries; np
@[simp] theorem np_initializePresale (h : Handler) (l : Addr → Option FixedPriceArgs) (k : Addr) (p : Presale)
    (a : PresaleArgs) (r : List Addr) : NP (h.initializePresale l k p a r) := by
  unfold Handler.initializePresale; np
/-- Indexing the five registry slots is in range as long as slots remain. -/
theorem np_initRegistries (rs : List RegistryArgs) (i : Nat) (slots : List Registry) (n : Nat)
    (h : i + rs.length ≤ slots.length) : NP (initRegistriesLoop rs i slots n) := by
  induction rs generalizing i slots n with
  | nil => unfold initRegistriesLoop; np
  | cons r rs ih =>
    unfold initRegistriesLoop
    simp only [List.length_cons] at h
    have : slots[i]? = some slots[i] := List.getElem?_eq_getElem (by omega)
    rw [this]
    simp
    intro a _
    apply ih
    rw [List.length_set]
    omega

theorem np_initialized (k : InitKeys) (a : PresaleArgs) (rs : List RegistryArgs) (l : Option LockedVestingArgs)
    (t : Nat) (h : rs.length ≤ 5) : NP (Presale.initialized k a rs l t) := by
  unfold Presale.initialized
  rw [np_bind]
  constructor
  · apply np_initRegistries
    simp only [List.length_replicate, MAX_PRESALE_REGISTRY_COUNT]
    omega
  · np
theorem np_processCreate (l : Addr → Option FixedPriceArgs) (key : Addr) (k : InitKeys)
    (a : InitializePresaleArgs) (t : Nat) (r : List Addr) (h : a.presaleRegistries.length ≤ 5) :
    NP (processCreatePresaleVault l key k a t r) := by
  unfold processCreatePresaleVault
  rw [np_bind]
  constructor
  · exact np_initialized _ _ _ _ _ h
  · np
@[simp] theorem np_sumSupplies (rs : List RegistryArgs) (n : Nat) : NP (sumSupplies rs n) := by
  induction rs generalizing n with
  | nil => unfold sumSupplies; np
  | cons r rs ih => unfold sumSupplies; simp [ih]

/-! ## Instructions -/

theorem np_initPresale {w : World} (C : Core w) (tx : Tx) (a : InitPresaleAcc) : NP (handleInitPresale w tx a) := by
  unfold handleInitPresale
  simp only [np_bind, np_require_x, np_load, np_castTime, np_initArgs, np_supported, np_sumSupplies, true_and]
  intro _ _ bm hb qm hq _ _ _ _ _ _ t ht _ hv _ _ _ _
  have V := validate_ok hv
  refine ⟨np_processCreate _ _ _ _ _ _ V.count.2, ?_⟩
  intro x hx s hs
  obtain ⟨k', _, _, hsup, _⟩ := processCreate_ok (p := x.1) (rest := x.2) hx
  have hs' := sumSupplies_eq hs
  refine ⟨np_included (C.feeOk _ _ (load_eq_ok.1 hb)) (by omega), ?_⟩
  np
@[simp] theorem np_createMerkle (w : World) (tx : Tx) (a : CreateMerkleAcc) : NP (handleCreateMerkle w tx a) := by
  unfold handleCreateMerkle; np
@[simp] theorem np_closeMerkle (w : World) (tx : Tx) (a : CloseMerkleAcc) : NP (handleCloseMerkle w tx a) := by
  unfold handleCloseMerkle; np
@[simp] theorem np_createOperator (w : World) (tx : Tx) (a : CreateOperatorAcc) :
    NP (handleCreateOperator w tx a) := by
  unfold handleCreateOperator; np
@[simp] theorem np_revokeOperator (w : World) (tx : Tx) (a : RevokeOperatorAcc) :
    NP (handleRevokeOperator w tx a) := by
  unfold handleRevokeOperator; np
@[simp] theorem np_createMetadata (w : World) (tx : Tx) (a : CreateMetadataAcc) :
    NP (handleCreateMetadata w tx a) := by
  unfold handleCreateMetadata; np
@[simp] theorem np_closeMetadata (w : World) (tx : Tx) (a : CloseMetadataAcc) :
    NP (handleCloseMetadata w tx a) := by
  unfold handleCloseMetadata; np
@[simp] theorem np_initFixed (w : World) (tx : Tx) (a : InitFixedArgsAcc) : NP (handleInitFixedArgs w tx a) := by
  unfold handleInitFixedArgs; np
@[simp] theorem np_closeFixed (w : World) (tx : Tx) (a : CloseFixedArgsAcc) : NP (handleCloseFixedArgs w tx a) := by
  unfold handleCloseFixedArgs; np
@[simp] theorem np_capCheck (r : Registry) (c : Option Nat) : NP (checkDepositCap r c) := by
  cases c <;> unfold checkDepositCap <;> np
@[simp] theorem np_processEscrow (p : Presale) (k o : Addr) (t i : Nat) (c : Option Nat) :
    NP (processCreateEscrow p k o t i c) := by
  unfold processCreateEscrow; np
@[simp] theorem np_escrowAt (w : World) (p : Presale) (k o : Addr) (i : Nat) (c : Option Nat) :
    NP (createEscrowAt w p k o i c) := by
  unfold createEscrowAt; np
@[simp] theorem np_createEscrow (w : World) (tx : Tx) (a : CreateEscrowAcc) : NP (handleCreateEscrow w tx a) := by
  unfold handleCreateEscrow; np
@[simp] theorem np_createEscrowCreator (w : World) (tx : Tx) (a : CreateEscrowCreatorAcc) :
    NP (handleCreateEscrowCreator w tx a) := by
  unfold handleCreateEscrowCreator; np
@[simp] theorem np_createEscrowMerkle (w : World) (tx : Tx) (a : CreateEscrowMerkleAcc) :
    NP (handleCreateEscrowMerkle w tx a) := by
  unfold handleCreateEscrowMerkle; np
@[simp] theorem np_depositCore (p : Presale) (e : Escrow) (t n : Nat) : NP (depositCore p e t n) := by
  unfold depositCore; np
theorem np_handleDeposit {w : World} (C : Core w) (tx : Tx) (a : DepositAcc) : NP (handleDeposit w tx a) := by
  unfold handleDeposit
  simp only [np_bind, np_require_x, np_load, np_castTime, np_depositCore, true_and]
  intro _ _ p hp _ _ m hm e he _ _ _ _ t ht d hd
  obtain ⟨h, quota, r, D⟩ := depositCore_iff.1 hd
  have hf := D.fees
  simp only [calculateDepositFeeIncludedAmount, bind_eq_ok, cast64_eq_ok, pure_eq_ok] at hf
  obtain ⟨_, _, _, _, _, _, _, _, _, _, _, _, i, ⟨hi, rfl⟩, hf⟩ := hf
  have : d.fees.amountIncludedFee < u64Bound := by rw [← hf]; exact hi
  refine ⟨np_included (C.feeOk _ _ (load_eq_ok.1 hm)) this, ?_⟩
  np
@[simp] theorem np_withdrawCore (p : Presale) (e : Escrow) (t n : Nat) : NP (withdrawCore p e t n) := by
  unfold withdrawCore
  simp only [np_bind, np_require_p, np_handler, np_suggestW, true_and]
  intro _ _ _ _ _ _ h _ _ hc _ _ _ _
  refine ⟨np_processWithdraw (require_eq_ok.1 hc) _ _ _, ?_⟩
  np
@[simp] theorem np_handleWithdraw (w : World) (tx : Tx) (a : WithdrawAcc) : NP (handleWithdraw w tx a) := by
  unfold handleWithdraw; np
@[simp] theorem np_handleClaim (w : World) (tx : Tx) (a : ClaimAcc) : NP (handleClaim w tx a) := by
  unfold handleClaim; np
@[simp] theorem np_refreshed (p : Presale) (e : Escrow) (t : Nat) : NP (refreshed p e t) := by
  unfold refreshed; np
@[simp] theorem np_handleRefresh (w : World) (tx : Tx) (a : RefreshAcc) : NP (handleRefresh w tx a) := by
  unfold handleRefresh; np
@[simp] theorem np_handleRefund (w : World) (tx : Tx) (a : RefundAcc) : NP (handleRefund w tx a) := by
  unfold handleRefund; np
theorem np_refundTaken (e : Escrow) {x : Except Err EscrowRemainingQuote} (h : NP x) : NP (ensureRefundTaken e x) := by
  unfold ensureRefundTaken
  cases x with
  | ok q => dsimp only; np
  | error err =>
    dsimp only
    split
    · intro h'; cases h'; exact h rfl
    · exact np_ok _
@[simp] theorem np_ensureDone (p : Presale) (e : Escrow) (t : Nat) : NP (ensureDoneClaimAndRefund p e t) := by
  unfold ensureDoneClaimAndRefund
  rw [np_bind]
  refine ⟨np_refundTaken _ (np_validateRefund _ _ _), ?_⟩
  np
/-- The panic of `handle_close_escrow` needs a sale that has not started. -/
theorem np_closeChecks {p : Presale} {e : Escrow} {t : Nat} (h : p.presaleStartTime ≤ t) : NP (closeChecks p e t) := by
  unfold closeChecks
  split
  · np
  · np
  · np
  · next hp =>
    unfold Presale.getPresaleProgress at hp
    rw [if_neg (by omega)] at hp
    split at hp
    · cases hp
    · split at hp <;> cases hp
theorem np_handleClose {w : World} (C : Core w) (tx : Tx) (a : CloseEscrowAcc) : NP (handleCloseEscrow w tx a) := by
  unfold handleCloseEscrow
  simp only [np_bind, np_require_x, np_load, np_castTime, true_and]
  intro p hp e he _ hb _ _ _ _ t ht
  obtain ⟨h0, rfl⟩ := castTime_eq_ok.1 ht
  refine ⟨np_closeChecks ((C.sale _ _ (load_eq_ok.1 hp)).pinv.started (load_eq_ok.1 he)
    (require_eq_ok.1 hb).1), ?_⟩
  np
@[simp] theorem np_take (w : World) (r : List Addr) (v m : Addr) (e : PErr) : NP (takeVaultAndMint w r v m e) := by
  unfold takeVaultAndMint; np
@[simp] theorem np_payout (w : World) (p : Presale) (g : PresaleProgress) (r : List Addr) :
    NP (creatorPayout w p g r) := by
  unfold creatorPayout; np
@[simp] theorem np_creatorWithdraw (w : World) (tx : Tx) (a : CreatorWithdrawAcc) :
    NP (handleCreatorWithdraw w tx a) := by
  unfold handleCreatorWithdraw; np
@[simp] theorem np_collectFee (w : World) (tx : Tx) (a : CollectFeeAcc) : NP (handleCollectFee w tx a) := by
  unfold handleCollectFee; np
@[simp] theorem np_performUnsold (w : World) (tx : Tx) (a : UnsoldAcc) (u : UnsoldTokenAction) (n : Nat) :
    NP (performUnsold w tx a u n) := by
  unfold performUnsold; np
@[simp] theorem np_handleUnsold (w : World) (tx : Tx) (a : UnsoldAcc) : NP (handleUnsold w tx a) := by
  unfold handleUnsold; np

theorem np_execIx {w : World} (C : Core w) (tx : Tx) (i : Ix) : NP (execIx w tx i) := by
  cases i with
  | initPresale a => exact np_initPresale C tx a
  | deposit a => exact np_handleDeposit C tx a
  | closeEscrow a => exact np_handleClose C tx a
  | _ => unfold execIx; simp

theorem np_step {w : World} (C : Core w) (op : Op) : NP (step w op) := by
  cases op with
  | ix tx i => exact np_execIx C tx i
  | _ => unfold step; np

end Verif
