import Verif.SpecMachine
/-!
# Why an instruction is refused

For each instruction and each error code of the program (`errors.rs`), what must be the case when the
instruction is refused with that code. Codes not listed for an instruction are never returned by it. Refusals
by Anchor and by the token programs carry codes of their own and are not described here.
-/

namespace Verif.Spec

/-- Reasons to do with the accounts passed for a transfer hook. -/
def HookReason (kind : AccountsType) (m : MintInfo) (passed : List Addr) (slices : List RemSlice) : PErr → Prop
  | .invalidRemainingAccountSlice => (∃ s ∈ slices, s.accountsType ≠ kind) ∨ passed.length < announced slices
  | .duplicatedRemainingAccountTypes => 1 < (slices.filter (fun s => s.length ≠ 0)).length
  | .missingRemainingAccountForTransferHook => m.hookProgram ≠ none ∧ ∀ s ∈ slices, s.length = 0
  | .noTransferHookProgram => m.hookProgram = none ∧ ∃ s ∈ slices, s.length ≠ 0
  | _ => False

/-! ## Prices and creation -/

def InitFixedArgsReason (a : InitFixedArgsAcc) : PErr → Prop
  | .invalidTokenPrice => a.qPrice = 0
  | .invalidType => a.disableWithdraw ≠ 0 ∧ a.disableWithdraw ≠ 1
  | _ => False

/-- Something is wrong with the caps, the dates, the modes or the limits of a registry. -/
def BadInfo (now : Nat) (a : InitializePresaleArgs) : Prop :=
  a.presaleParams.presaleMaximumCap < a.presaleParams.presaleMinimumCap ∨
  a.presaleParams.presaleMinimumCap = 0 ∨
  a.presaleParams.presaleEndTime < max a.presaleParams.presaleStartTime now + 60 ∨
  max a.presaleParams.presaleStartTime now + 30 * 24 * 3600 < a.presaleParams.presaleEndTime ∨
  now + 30 * 24 * 3600 < a.presaleParams.presaleStartTime ∨
  (2 < a.presaleParams.whitelistMode ∧ unknownWhitelistIsDefault = false) ∨
  (2 < a.presaleParams.presaleMode ∧ unknownModeIsDefault = false) ∨
  a.presaleRegistries = [] ∨ 5 < a.presaleRegistries.length ∨
  ∃ r ∈ a.presaleRegistries, r.buyerMaximumDepositCap < r.buyerMinimumDepositCap ∨ r.buyerMaximumDepositCap = 0 ∨
    a.presaleParams.presaleMaximumCap < r.buyerMaximumDepositCap ∨ 5000 < r.depositFeeBps

/-- The limits a whitelisted sale must have in every registry. -/
def ListedLimits (a : PresaleArgs) (price : Option Nat) (r : RegistryArgs) : Prop :=
  r.buyerMaximumDepositCap = a.presaleMaximumCap ∧ (price = none → r.buyerMinimumDepositCap = 1) ∧
  ∀ q, price = some q → IsCeilDiv r.buyerMinimumDepositCap q (2 ^ 64)

/-- The sale of `a` is given the price `price`. -/
def Priced (w : World) (a : InitPresaleAcc) (price : Option Nat) (left : List Addr) : Prop :=
  PricedBy w.fixedArgs (.presale a.base a.presaleMint a.quoteTokenMint) a.args.presaleParams.presaleMode a.remaining
    price left

def InitPresaleReason (w : World) (a : InitPresaleAcc) (bm qm : MintInfo) : PErr → Prop
  | .invalidPresaleInfo => BadInfo w.clock.toNat a.args
  | .invalidType => 1 < a.args.presaleParams.disableEarlierPresaleEndOnceCapReached
  | .invalidTokenSupply => (∃ r ∈ a.args.presaleRegistries, r.presaleSupply = 0) ∨ 2 ^ 64 ≤ offered a.args
  | .multiplePresaleRegistriesNotAllowed =>
    1 < a.args.presaleRegistries.length ∧ ¬ Whitelisted a.args.presaleParams
  | .invalidLockVestingInfo => ¬ ReleaseTerms a.args.lockedVestingParams a.args.presaleParams.presaleEndTime
  | .unsupportedToken2022MintOrExtension => ¬ (Admitted bm ∧ Admitted qm)
  | .missingPresaleExtraParams =>
    a.args.presaleParams.presaleMode ≠ 1 ∧ a.args.presaleParams.presaleMode ≠ 2 ∧
    (a.remaining = [] ∨ ∃ acc rest x, a.remaining = acc :: rest ∧ w.fixedArgs acc = some x ∧
      x.presale ≠ .presale a.base a.presaleMint a.quoteTokenMint)
  | .zeroTokenAmount => ∃ q left, Priced w a (some q) left ∧
    ∃ r ∈ a.args.presaleRegistries, tokensAtPrice q r.buyerMinimumDepositCap = 0
  | .invalidTokenPrice => ∃ q left, Priced w a (some q) left ∧
    ((∃ r ∈ a.args.presaleRegistries, 2 ^ 64 ≤ tokensAtPrice q r.buyerMaximumDepositCap) ∨
      offered a.args < tokensAtPrice q a.args.presaleParams.presaleMaximumCap)
  | .presaleMinMaxCapGapTooSmall => ∃ q left, Priced w a (some q) left ∧
    tokensAtPrice q a.args.presaleParams.presaleMinimumCap = tokensAtPrice q a.args.presaleParams.presaleMaximumCap
  | .invalidBuyerCapRange => Whitelisted a.args.presaleParams ∧ ∃ price left, Priced w a price left ∧
    ∃ r ∈ a.args.presaleRegistries, ¬ ListedLimits a.args.presaleParams price r
  | .mathOverflow => w.clock < 0 ∨
    2 ^ 64 ≤ a.args.lockedVestingParams.lockDuration + a.args.lockedVestingParams.vestDuration ∨
    2 ^ 64 ≤ a.args.presaleParams.presaleEndTime + a.args.lockedVestingParams.lockDuration +
      a.args.lockedVestingParams.vestDuration ∨
    ∀ g, g < 2 ^ 64 → g - bm.transferFee g ≠ offered a.args
  | e => ∃ price left, Priced w a price left ∧ HookReason .transferHookBase bm left a.slices e

/-! ## Whitelists and notices -/

def CreateMerkleReason (w : World) (a : CreateMerkleAcc) (p : Presale) : PErr → Prop
  | .invalidCreatorAccount => p.owner ≠ a.creator
  | .presaleEnded => p.owner = a.creator ∧ Over p w.clock
  | .invalidPresaleWhitelistMode => p.owner = a.creator ∧ ¬ Over p w.clock ∧ p.whitelistMode ≠ 1
  | _ => False

def CloseMerkleReason (w : World) (a : CloseMerkleAcc) (p : Presale) : PErr → Prop
  | .invalidCreatorAccount => p.owner ≠ a.creator
  | .presaleOngoing => p.owner = a.creator ∧ Ongoing p w.clock
  | _ => False

def CreateMetadataReason (w : World) (p : Presale) : PErr → Prop
  | .invalidPresaleWhitelistMode => p.whitelistMode ≠ 1 ∧ p.whitelistMode ≠ 2
  | .presaleEnded => (p.whitelistMode = 1 ∨ p.whitelistMode = 2) ∧ Over p w.clock
  | _ => False

/-! ## Escrows -/

/-- Reasons not to open an escrow in registry `i` of sale `p`; `cap` is the limit asked for, if any. -/
def OpenReason (w : World) (p : Presale) (i : Nat) (cap : Option Nat) : PErr → Prop
  | .presaleNotOpenForDeposit => ¬ Ongoing p w.clock
  | .invalidPresaleRegistryIndex => Ongoing p w.clock ∧ p.totalPresaleRegistryCount ≤ i
  | .invalidDepositCap => Ongoing p w.clock ∧
    ∃ r c, p.registries[i]? = some r ∧ cap = some c ∧ ¬ CapAllowed r c
  | .mathOverflow => Ongoing p w.clock ∧ 2 ^ 64 ≤ p.totalEscrow + 1
  | _ => False

def CreateEscrowReason (w : World) (p : Presale) : PErr → Prop
  | .invalidPresaleWhitelistMode => p.whitelistMode = 1 ∨ p.whitelistMode = 2
  | .invalidPresaleRegistryIndex => False
  | e => ¬ (p.whitelistMode = 1 ∨ p.whitelistMode = 2) ∧ OpenReason w p 0 none e

def CreateEscrowCreatorReason (w : World) (a : CreateEscrowCreatorAcc) (p : Presale) (o : Operator) : PErr → Prop
  | .invalidPresaleWhitelistMode => p.whitelistMode ≠ 2
  | .invalidOperator => p.whitelistMode = 2 ∧ ¬ (o.owner = a.operatorOwner ∧ o.creator = p.owner)
  | e => p.whitelistMode = 2 ∧ o.owner = a.operatorOwner ∧ o.creator = p.owner ∧
    OpenReason w p a.registryIndex (some a.depositCap) e

def CreateEscrowMerkleReason (w : World) (a : CreateEscrowMerkleAcc) (p : Presale) (c : MerkleRootConfig) :
    PErr → Prop
  | .invalidPresaleWhitelistMode => p.whitelistMode ≠ 1
  | .invalidMerkleProof => p.whitelistMode = 1 ∧
    climb w.env.hash a.proof (w.env.hash (0 :: w.env.hash
      (entryString (w.env.keyBytes a.owner) a.registryIndex a.depositCap))) ≠ c.root
  | e => p.whitelistMode = 1 ∧ OpenReason w p a.registryIndex (some a.depositCap) e

/-! ## Deposits and withdrawals -/

/-- A deposit of `n` cannot be accounted for in 64 bits. -/
def Unbookable (p : Presale) (r : Registry) (m : MintInfo) (n : Nat) : Prop :=
  ∀ fee gross, Charge m r.depositFeeBps n fee gross →
    2 ^ 64 ≤ gross ∨ 2 ^ 64 ≤ p.totalDeposit + n ∨ 2 ^ 64 ≤ p.totalDepositFee + fee

def DepositReason (w : World) (a : DepositAcc) (p : Presale) (e : Escrow) (r : Registry) (m : MintInfo) :
    PErr → Prop
  | .presaleNotOpenForDeposit => ¬ Ongoing p w.clock
  | .zeroTokenAmount => Ongoing p w.clock ∧ DepositTaken p r e a.maxAmount 0
  | .depositAmountOutOfCap => Ongoing p w.clock ∧
    ∃ n, 0 < n ∧ DepositTaken p r e a.maxAmount n ∧ e.totalDeposit + n < r.buyerMinimumDepositCap
  | .mathOverflow => Ongoing p w.clock ∧
    (¬ Payworthy p r ∨ ∃ n, 0 < n ∧ DepositTaken p r e a.maxAmount n ∧ Unbookable p r m n)
  | x => Ongoing p w.clock ∧ HookReason .transferHookQuote m a.remaining a.slices x

def WithdrawReason (w : World) (a : WithdrawAcc) (p : Presale) (e : Escrow) (r : Registry) (m : MintInfo) :
    PErr → Prop
  | .presaleNotOpenForWithdraw => ¬ (Ongoing p w.clock ∧ WithdrawAllowed p)
  | .zeroTokenAmount => Ongoing p w.clock ∧ (a.maxAmount = 0 ∨ WithdrawTaken p e a.maxAmount 0)
  | .insufficientEscrowBalance => Ongoing p w.clock ∧ e.totalDeposit < a.maxAmount
  | .depositAmountOutOfCap => Ongoing p w.clock ∧ WithdrawAllowed p ∧
    ∃ n, 0 < n ∧ n < e.totalDeposit ∧ WithdrawTaken p e a.maxAmount n ∧
      e.totalDeposit - n < r.buyerMinimumDepositCap
  | x => Ongoing p w.clock ∧ WithdrawAllowed p ∧ HookReason .transferHookQuote m a.remaining a.slices x

/-! ## After the sale -/

def ClaimReason (w : World) (a : ClaimAcc) (p : Presale) (e : Escrow) (r : Registry) (m : MintInfo) : PErr → Prop
  | .presaleNotOpenForClaim => ¬ Completed p w.clock
  | x => Completed p w.clock ∧ e.totalClaimedToken < claimableAt p r e w.clock.toNat ∧
    HookReason .transferHookBase m a.remaining a.slices x

def RefundReason (w : World) (a : RefundAcc) (p : Presale) (e : Escrow) (r : Registry) (m : MintInfo) : PErr → Prop
  | .remainingQuoteAlreadyWithdrawn => e.isRemainingQuoteWithdrawn = 1
  | .presaleNotOpenForWithdrawRemainingQuote => e.isRemainingQuoteWithdrawn = 0 ∧
    ¬ (Failed p w.clock ∨ (Completed p w.clock ∧ p.presaleMode = 1))
  | .missingRemainingAccountForTransferHook => e.isRemainingQuoteWithdrawn = 0 ∧ 0 < owedRefund p r e ∧
    m.hookProgram ≠ none ∧ ∀ s ∈ a.slices, s.length = 0
  | .noTransferHookProgram => e.isRemainingQuoteWithdrawn = 0 ∧ 0 < owedRefund p r e ∧
    m.hookProgram = none ∧ ∃ s ∈ a.slices, s.length ≠ 0
  | x => e.isRemainingQuoteWithdrawn = 0 ∧ HookReason .transferHookQuote m a.remaining a.slices x

def CloseEscrowReason (w : World) (p : Presale) (e : Escrow) : PErr → Prop
  | .escrowNotEmpty =>
    (¬ Over p w.clock ∧ 0 < e.totalDeposit + e.totalDepositFee) ∨
    (Over p w.clock ∧ 0 < refundDue p e) ∨ (Completed p w.clock ∧ 0 < claimDue p e)
  | _ => False

/-! ## The creator -/

def CreatorWithdrawReason (w : World) (a : CreatorWithdrawAcc) (p : Presale) : PErr → Prop
  | .presaleNotOpenForWithdraw => ¬ Over p w.clock
  | .creatorAlreadyWithdrawn => Over p w.clock ∧ p.hasCreatorWithdrawn = 1
  | .invalidTokenVault => ∃ v rest, a.remaining = v :: rest ∧
    ((Completed p w.clock ∧ v ≠ p.quoteTokenVault) ∨ (Failed p w.clock ∧ v ≠ p.baseTokenVault))
  | .invalidQuoteMint => ∃ v x rest, a.remaining = v :: x :: rest ∧ Completed p w.clock ∧ x ≠ p.quoteMint
  | .invalidBaseMint => ∃ v x rest, a.remaining = v :: x :: rest ∧ Failed p w.clock ∧ x ≠ p.baseMint
  | x => ∃ kind mint vault n left m, CreatorGets p w.clock kind mint vault n ∧ a.remaining = vault :: mint :: left ∧
    w.tk.mints mint = some m ∧ HookReason kind m left a.slices x

def CollectFeeReason (w : World) (a : CollectFeeAcc) (p : Presale) (m : MintInfo) : PErr → Prop
  | .presaleNotOpenForCollectFee => ¬ Completed p w.clock ∨ p.depositFeeCollected = 1
  | x => Completed p w.clock ∧ p.depositFeeCollected = 0 ∧ 0 < collectableFee p ∧
    HookReason .transferHookQuote m a.remaining a.slices x

def UnsoldReason (w : World) (a : UnsoldAcc) (p : Presale) (m : MintInfo) : PErr → Prop
  | .presaleNotCompleted => ¬ Completed p w.clock
  | .unsoldBaseTokenActionAlreadyPerformed => Completed p w.clock ∧ p.isUnsoldTokenActionPerformed = 1
  | .noUnsoldBaseTokens => Completed p w.clock ∧ p.isUnsoldTokenActionPerformed = 0 ∧ totalSold p = p.presaleSupply
  | x => Completed p w.clock ∧ p.isUnsoldTokenActionPerformed = 0 ∧ totalSold p < p.presaleSupply ∧
    p.unsoldTokenAction ≠ 1 ∧ HookReason .transferHookBase m a.remaining a.slices x

/-! ## All instructions -/

/-- What is the case when instruction `i` is refused in ledger `w` with error code `e`. -/
def Because (w : World) (i : Ix) (e : PErr) : Prop :=
  match i with
  | .initFixedArgs a => InitFixedArgsReason a e
  | .closeFixedArgs _ | .createOperator _ | .revokeOperator _ | .closeMetadata _ | .refresh _ => False
  | .initPresale a => ∃ bm qm, w.tk.mints a.presaleMint = some bm ∧ w.tk.mints a.quoteTokenMint = some qm ∧
      InitPresaleReason w a bm qm e
  | .createMerkle a => ∃ p, w.presales a.presale = some p ∧ CreateMerkleReason w a p e
  | .closeMerkle a => ∃ p, w.presales a.presale = some p ∧ CloseMerkleReason w a p e
  | .createMetadata a => ∃ p, w.presales a.presale = some p ∧ CreateMetadataReason w p e
  | .createEscrow a => ∃ p, w.presales a.presale = some p ∧ CreateEscrowReason w p e
  | .createEscrowCreator a => ∃ p o, w.presales a.presale = some p ∧ w.operators a.operator = some o ∧
      CreateEscrowCreatorReason w a p o e
  | .createEscrowMerkle a => ∃ p c, w.presales a.presale = some p ∧ w.merkleRoots a.config = some c ∧
      CreateEscrowMerkleReason w a p c e
  | .deposit a => ∃ p x r m, w.presales a.presale = some p ∧ w.escrows.get? a.escrow = some x ∧
      p.registries[x.registryIndex]? = some r ∧ w.tk.mints p.quoteMint = some m ∧ DepositReason w a p x r m e
  | .withdraw a => ∃ p x r m, w.presales a.presale = some p ∧ w.escrows.get? a.escrow = some x ∧
      p.registries[x.registryIndex]? = some r ∧ w.tk.mints p.quoteMint = some m ∧ WithdrawReason w a p x r m e
  | .claim a => ∃ p x r m, w.presales a.presale = some p ∧ w.escrows.get? a.escrow = some x ∧
      p.registries[x.registryIndex]? = some r ∧ w.tk.mints p.baseMint = some m ∧ ClaimReason w a p x r m e
  | .refund a => ∃ p x r m, w.presales a.presale = some p ∧ w.escrows.get? a.escrow = some x ∧
      p.registries[x.registryIndex]? = some r ∧ w.tk.mints p.quoteMint = some m ∧ RefundReason w a p x r m e
  | .closeEscrow a => ∃ p x, w.presales a.presale = some p ∧ w.escrows.get? a.escrow = some x ∧
      CloseEscrowReason w p x e
  | .creatorWithdraw a => ∃ p, w.presales a.presale = some p ∧ CreatorWithdrawReason w a p e
  | .collectFee a => ∃ p m, w.presales a.presale = some p ∧ w.tk.mints p.quoteMint = some m ∧
      CollectFeeReason w a p m e
  | .unsold a => ∃ p m, w.presales a.presale = some p ∧ w.tk.mints p.baseMint = some m ∧ UnsoldReason w a p m e

/-- Codes to do with transfer-hook accounts. -/
def hookCodes : List PErr :=
  [.invalidRemainingAccountSlice, .duplicatedRemainingAccountTypes, .missingRemainingAccountForTransferHook,
   .noTransferHookProgram]

/-- The error codes an instruction can return. -/
def codes : Ix → List PErr
  | .initFixedArgs _ => [.invalidTokenPrice, .invalidType]
  | .closeFixedArgs _ | .createOperator _ | .revokeOperator _ | .closeMetadata _ | .refresh _ => []
  | .initPresale _ => [.invalidPresaleInfo, .invalidType, .invalidTokenSupply, .multiplePresaleRegistriesNotAllowed,
      .invalidLockVestingInfo, .unsupportedToken2022MintOrExtension, .missingPresaleExtraParams, .zeroTokenAmount,
      .invalidTokenPrice, .presaleMinMaxCapGapTooSmall, .invalidBuyerCapRange, .mathOverflow] ++ hookCodes
  | .createMerkle _ => [.invalidCreatorAccount, .presaleEnded, .invalidPresaleWhitelistMode]
  | .closeMerkle _ => [.invalidCreatorAccount, .presaleOngoing]
  | .createMetadata _ => [.invalidPresaleWhitelistMode, .presaleEnded]
  | .createEscrow _ => [.invalidPresaleWhitelistMode, .presaleNotOpenForDeposit, .mathOverflow]
  | .createEscrowCreator _ => [.invalidPresaleWhitelistMode, .invalidOperator, .presaleNotOpenForDeposit,
      .invalidPresaleRegistryIndex, .invalidDepositCap, .mathOverflow]
  | .createEscrowMerkle _ => [.invalidPresaleWhitelistMode, .invalidMerkleProof, .presaleNotOpenForDeposit,
      .invalidPresaleRegistryIndex, .invalidDepositCap, .mathOverflow]
  | .deposit _ => [.presaleNotOpenForDeposit, .zeroTokenAmount, .depositAmountOutOfCap, .mathOverflow] ++ hookCodes
  | .withdraw _ => [.presaleNotOpenForWithdraw, .zeroTokenAmount, .insufficientEscrowBalance,
      .depositAmountOutOfCap] ++ hookCodes
  | .claim _ => .presaleNotOpenForClaim :: hookCodes
  | .refund _ => .remainingQuoteAlreadyWithdrawn :: .presaleNotOpenForWithdrawRemainingQuote :: hookCodes
  | .closeEscrow _ => [.escrowNotEmpty]
  | .creatorWithdraw _ => [.presaleNotOpenForWithdraw, .creatorAlreadyWithdrawn, .invalidTokenVault,
      .invalidQuoteMint, .invalidBaseMint] ++ hookCodes
  | .collectFee _ => .presaleNotOpenForCollectFee :: hookCodes
  | .unsold _ => .presaleNotCompleted :: .unsoldBaseTokenActionAlreadyPerformed :: .noUnsoldBaseTokens :: hookCodes

end Verif.Spec
