import Verif.Model.Math
/-!
# Program accounts and their methods (`state/*.rs`)

Padding fields are omitted. Zero-copy accounts are created zero-filled, which is what the `fresh`
values below stand for.
-/

namespace Verif

/-! ## Enums stored as bytes (`state/presale.rs:4-78`) -/

/-- Whether `num_enum`'s `TryFromPrimitive` maps unknown bytes of an enum with a variant marked
`#[num_enum(default)]` (`PresaleMode`, `state/presale.rs:11-21`) to that variant instead of rejecting
them. Depends on the crate's internals, hence left open. -/
opaque unknownModeIsDefault : Bool

/-- Same question for an enum with a variant marked `#[default]` (`WhitelistMode`,
`state/presale.rs:23-33`). -/
opaque unknownWhitelistIsDefault : Bool

/-- `state/presale.rs:11-21`. -/
inductive PresaleMode where
  | fixedPrice
  | prorata
  | fcfs
  deriving DecidableEq, Repr

/-- `PresaleMode::try_from(u8)`. -/
def PresaleMode.tryFrom (b : Nat) : Option PresaleMode :=
  match b with
  | 0 => some .fixedPrice
  | 1 => some .prorata
  | 2 => some .fcfs
  | _ => if unknownModeIsDefault then some .fixedPrice else none

/-- `u8.safe_cast::<PresaleMode>()` (`math/safe_math.rs:140`). -/
def castPresaleMode (b : Nat) : Except Err PresaleMode :=
  match PresaleMode.tryFrom b with
  | some m => .ok m
  | none => .error (.p .mathOverflow)

/-- `state/presale.rs:23-33`. -/
inductive WhitelistMode where
  | permissionless
  | permissionWithMerkleProof
  | permissionWithAuthority
  deriving DecidableEq, Repr

/-- `WhitelistMode::try_from(u8)`. -/
def WhitelistMode.tryFrom (b : Nat) : Option WhitelistMode :=
  match b with
  | 0 => some .permissionless
  | 1 => some .permissionWithMerkleProof
  | 2 => some .permissionWithAuthority
  | _ => if unknownWhitelistIsDefault then some .permissionless else none

/-- `u8.safe_cast::<WhitelistMode>()` (`math/safe_math.rs:139`). -/
def castWhitelistMode (b : Nat) : Except Err WhitelistMode :=
  match WhitelistMode.tryFrom b with
  | some m => .ok m
  | none => .error (.p .mathOverflow)

/-- `state/presale.rs:35-44`. -/
def WhitelistMode.isPermissioned : WhitelistMode → Bool
  | .permissionless => false
  | .permissionWithMerkleProof | .permissionWithAuthority => true

/-- `state/presale.rs:46-54`. -/
inductive UnsoldTokenAction where
  | refund
  | burn
  deriving DecidableEq, Repr

/-- `UnsoldTokenAction::from(u8)`; `FromPrimitive` with default `Refund` (`state/presale.rs:46-54`). -/
def UnsoldTokenAction.ofByte (b : Nat) : UnsoldTokenAction :=
  if b = 1 then .burn else .refund

/-- `BoolType::try_from(u8)`; no default variant (`state/presale.rs:4-9`). -/
def boolTypeTryFrom (b : Nat) : Option Bool :=
  match b with
  | 0 => some false
  | 1 => some true
  | _ => none

/-- `state/presale.rs:56-68`. -/
inductive PresaleProgress where
  | notStarted
  | ongoing
  | completed
  | failed
  deriving DecidableEq, Repr

/-- `token_program_to_flag` (`state/presale.rs:177-185`); `TokenProgramFlags` (`70-78`). -/
def TokenProgram.flag : TokenProgram → Nat
  | .splToken => 0
  | .splToken2022 => 1

/-! ## Escrow (`state/escrow.rs`) -/

/-- `state/escrow.rs:5-30`. -/
structure Escrow where
  presale : Addr
  owner : Addr
  totalDeposit : Nat
  totalClaimedToken : Nat
  isRemainingQuoteWithdrawn : Nat
  registryIndex : Nat
  pendingClaimToken : Nat
  depositMaxCap : Nat
  createdAt : Nat
  totalDepositFee : Nat
  lastRefreshedAt : Nat
  deriving DecidableEq, Repr

namespace Escrow

/-- `Escrow::initialize` on a zeroed account (`state/escrow.rs:36-52`). -/
def initialized (presale owner : Addr) (createdAt registryIndex depositCap : Nat) : Escrow :=
  { presale := presale, owner := owner, totalDeposit := 0, totalClaimedToken := 0,
    isRemainingQuoteWithdrawn := 0, registryIndex := registryIndex, pendingClaimToken := 0,
    depositMaxCap := depositCap, createdAt := createdAt, totalDepositFee := 0,
    lastRefreshedAt := createdAt }

/-- `state/escrow.rs:54-62`. -/
def getRemainingDepositQuota (e : Escrow) (buyerMaximumBuyCap : Nat) : Except Err Nat :=
  let maximumBuyCap := min buyerMaximumBuyCap e.depositMaxCap
  if e.totalDeposit ≥ maximumBuyCap then .ok 0
  else sub maximumBuyCap e.totalDeposit

/-- `state/escrow.rs:64-68`. -/
def deposit (e : Escrow) (feeExcludedDepositAmount fee : Nat) : Except Err Escrow := do
  let d ← add64 e.totalDeposit feeExcludedDepositAmount
  let f ← add64 e.totalDepositFee fee
  return { e with totalDeposit := d, totalDepositFee := f }

/-- `state/escrow.rs:70-73`. -/
def withdraw (e : Escrow) (amount : Nat) : Except Err Escrow := do
  let d ← sub e.totalDeposit amount
  return { e with totalDeposit := d }

/-- `state/escrow.rs:75-82`: new escrow and the claimed amount. -/
def claim (e : Escrow) : Except Err (Escrow × Nat) := do
  let c ← add64 e.totalClaimedToken e.pendingClaimToken
  return ({ e with totalClaimedToken := c, pendingClaimToken := 0 }, e.pendingClaimToken)

/-- `state/escrow.rs:84-87`. -/
def updateRemainingQuoteWithdrawn (e : Escrow) : Escrow :=
  { e with isRemainingQuoteWithdrawn := 1 }

/-- `state/escrow.rs:89-91`. -/
def remainingQuoteWithdrawn (e : Escrow) : Bool := e.isRemainingQuoteWithdrawn == 1

/-- `state/escrow.rs:93-97`. -/
def sumClaimedAndPendingClaimAmount (e : Escrow) : Except Err Nat :=
  add64 e.totalClaimedToken e.pendingClaimToken

/-- `state/escrow.rs:99-102`. -/
def accumulatePendingClaimToken (e : Escrow) (amount : Nat) : Except Err Escrow := do
  let p ← add64 e.pendingClaimToken amount
  return { e with pendingClaimToken := p }

/-- `state/escrow.rs:104-107`. -/
def updateLastRefreshedAt (e : Escrow) (t : Nat) : Escrow := { e with lastRefreshedAt := t }

end Escrow

/-! ## Presale registry (`state/presale_registry.rs`) -/

/-- `state/presale_registry.rs:3-28`. -/
structure Registry where
  presaleSupply : Nat
  totalDeposit : Nat
  totalEscrow : Nat
  totalClaimedToken : Nat
  totalRefundedQuoteToken : Nat
  buyerMinimumDepositCap : Nat
  buyerMaximumDepositCap : Nat
  totalDepositFee : Nat
  depositFeeBps : Nat
  deriving DecidableEq, Repr

/-- `RemainingQuote` (`state/presale_registry.rs:140-143`). -/
structure RemainingQuote where
  refundAmount : Nat
  refundFee : Nat
  deriving DecidableEq, Repr

namespace Registry

/-- Zeroed registry slot. -/
def fresh : Registry :=
  { presaleSupply := 0, totalDeposit := 0, totalEscrow := 0, totalClaimedToken := 0,
    totalRefundedQuoteToken := 0, buyerMinimumDepositCap := 0, buyerMaximumDepositCap := 0,
    totalDepositFee := 0, depositFeeBps := 0 }

/-- `state/presale_registry.rs:32-43`. -/
def init (r : Registry) (presaleSupply buyerMin buyerMax feeBps : Nat) : Registry :=
  { r with presaleSupply := presaleSupply, buyerMinimumDepositCap := buyerMin,
           buyerMaximumDepositCap := buyerMax, depositFeeBps := feeBps }

/-- `state/presale_registry.rs:45-50`. -/
def depositFeeIncluded (r : Registry) (depositAmount : Nat) : Except Err DepositFeeIncluded :=
  calculateDepositFeeIncludedAmount depositAmount r.depositFeeBps .up

/-- `state/presale_registry.rs:52-63`. -/
def deposit (r : Registry) (e : Escrow) (amount fee : Nat) : Except Err (Registry × Escrow) := do
  let d ← add64 r.totalDeposit amount
  let f ← add64 r.totalDepositFee fee
  let e' ← e.deposit amount fee
  return ({ r with totalDeposit := d, totalDepositFee := f }, e')

/-- `state/presale_registry.rs:65-69`. -/
def withdraw (r : Registry) (e : Escrow) (amount : Nat) : Except Err (Registry × Escrow) := do
  let e' ← e.withdraw amount
  let d ← sub r.totalDeposit amount
  return ({ r with totalDeposit := d }, e')

/-- `state/presale_registry.rs:71-74`. -/
def increaseEscrowCount (r : Registry) : Except Err Registry := do
  let n ← add64 r.totalEscrow 1
  return { r with totalEscrow := n }

/-- `state/presale_registry.rs:76-79`. -/
def decreaseEscrowCount (r : Registry) : Except Err Registry := do
  let n ← sub r.totalEscrow 1
  return { r with totalEscrow := n }

/-- `state/presale_registry.rs:81-84`. -/
def updateTotalRefundedQuoteToken (r : Registry) (amount : Nat) : Except Err Registry := do
  let n ← add64 r.totalRefundedQuoteToken amount
  return { r with totalRefundedQuoteToken := n }

/-- `state/presale_registry.rs:86-89`. -/
def updateTotalClaimAmount (r : Registry) (amount : Nat) : Except Err Registry := do
  let n ← add64 r.totalClaimedToken amount
  return { r with totalClaimedToken := n }

/-- `state/presale_registry.rs:91-96`. -/
def isUninitialized (r : Registry) : Bool :=
  r.presaleSupply == 0 && r.buyerMaximumDepositCap == 0 && r.buyerMinimumDepositCap == 0
    && r.depositFeeBps == 0

/-- `state/presale_registry.rs:98-123`. -/
def getFinalizedPresaleRemainingQuote (r : Registry)
    (presaleRemainingQuote presaleTotalDeposit : Nat) : Except Err RemainingQuote :=
  if presaleTotalDeposit = 0 ∨ r.totalDeposit = 0 then
    .ok { refundAmount := 0, refundFee := 0 }
  else do
    let x ← mul128 presaleRemainingQuote r.totalDeposit
    let registryRemainingQuote ← div x presaleTotalDeposit
    let y ← mul128 r.totalDepositFee registryRemainingQuote
    let registryRefundFee ← div y r.totalDeposit
    let refundAmount ← cast64 registryRemainingQuote
    let refundFee ← cast64 registryRefundFee
    return { refundAmount := refundAmount, refundFee := refundFee }

/-- `state/presale_registry.rs:125-137`. -/
def validateEscrowDeposit (r : Registry) (e : Escrow) : Except Err Unit :=
  if e.totalDeposit = 0 then .ok ()
  else
    require (e.totalDeposit ≥ r.buyerMinimumDepositCap ∧ e.totalDeposit ≤ r.buyerMaximumDepositCap)
      (.p .depositAmountOutOfCap)

end Registry

/-! ## Presale (`state/presale.rs`) -/

/-- `state/presale.rs:82-157`. `raw0 raw1 raw2` is `presale_mode_raw_data : [u128; 3]`. -/
structure Presale where
  owner : Addr
  quoteMint : Addr
  baseMint : Addr
  baseTokenVault : Addr
  quoteTokenVault : Addr
  base : Addr
  presaleMode : Nat
  whitelistMode : Nat
  presaleMaximumCap : Nat
  presaleMinimumCap : Nat
  presaleStartTime : Nat
  presaleEndTime : Nat
  presaleSupply : Nat
  totalDeposit : Nat
  totalEscrow : Nat
  createdAt : Nat
  lockDuration : Nat
  vestDuration : Nat
  immediateReleaseTimestamp : Nat
  vestingStartTime : Nat
  vestingEndTime : Nat
  totalClaimedToken : Nat
  totalRefundedQuoteToken : Nat
  totalDepositFee : Nat
  depositFeeCollected : Nat
  hasCreatorWithdrawn : Nat
  baseTokenProgramFlag : Nat
  quoteTokenProgramFlag : Nat
  totalPresaleRegistryCount : Nat
  unsoldTokenAction : Nat
  isUnsoldTokenActionPerformed : Nat
  immediateReleaseBps : Nat
  raw0 : Nat
  raw1 : Nat
  raw2 : Nat
  registries : List Registry
  deriving DecidableEq, Repr

/-- `EscrowRemainingQuoteResult` (`state/presale.rs:559-562`). -/
structure EscrowRemainingQuote where
  refundDepositAmount : Nat
  refundFeeAmount : Nat
  deriving DecidableEq, Repr

/-- `calculate_presale_vest_and_lock_timings` (`state/presale.rs:194-209`): (vesting start, end). -/
def vestAndLockTimings (presaleEndTime lockDuration vestDuration : Nat) :
    Except Err (Nat × Nat) := do
  let lockEnd ← add64 presaleEndTime lockDuration
  let vestEnd ← add64 lockEnd vestDuration
  return (lockEnd, vestEnd)

namespace Presale

/-- `state/presale.rs:300-312`. -/
def getPresaleProgress (p : Presale) (t : Nat) : PresaleProgress :=
  if t < p.presaleStartTime then .notStarted
  else if t < p.presaleEndTime then .ongoing
  else if p.totalDeposit ≥ p.presaleMinimumCap then .completed
  else .failed

/-- `get_presale_registry` (`state/presale.rs:507-511`). -/
def getRegistry (p : Presale) (i : Nat) : Except Err Registry :=
  match p.registries[i]? with
  | some r => .ok r
  | none => .error (.p .invalidPresaleRegistryIndex)

/-- Write-back through `get_presale_registry_mut` (`state/presale.rs:513-517`). -/
def setRegistry (p : Presale) (i : Nat) (r : Registry) : Presale :=
  { p with registries := p.registries.set i r }

/-- `state/presale.rs:314-319`. -/
def increaseEscrowCount (p : Presale) (i : Nat) : Except Err Presale := do
  let r ← p.getRegistry i
  let r' ← r.increaseEscrowCount
  let n ← add64 p.totalEscrow 1
  return { p.setRegistry i r' with totalEscrow := n }

/-- `state/presale.rs:321-326`. -/
def decreaseEscrowCount (p : Presale) (i : Nat) : Except Err Presale := do
  let r ← p.getRegistry i
  let r' ← r.decreaseEscrowCount
  let n ← sub p.totalEscrow 1
  return { p.setRegistry i r' with totalEscrow := n }

/-- `recalculate_presale_timing` (`state/presale.rs:328-353`); `saturating_sub` is `Nat` subtraction. -/
def recalculatePresaleTiming (p : Presale) (newEnd : Nat) : Except Err Presale := do
  let durationUntilImmediateRelease := p.immediateReleaseTimestamp - p.presaleEndTime
  let (vs, ve) ← vestAndLockTimings newEnd p.lockDuration p.vestDuration
  let imm ← add64 newEnd durationUntilImmediateRelease
  return { p with presaleEndTime := newEnd, vestingStartTime := vs, vestingEndTime := ve,
                  immediateReleaseTimestamp := imm }

/-- `state/presale.rs:355-357`. -/
def advanceProgressToCompleted (p : Presale) (t : Nat) : Except Err Presale :=
  p.recalculatePresaleTiming t

/-- `state/presale.rs:359-362`. -/
def getRemainingDepositQuota (p : Presale) : Except Err Nat :=
  sub p.presaleMaximumCap p.totalDeposit

/-- `state/presale.rs:364-382`. -/
def deposit (p : Presale) (e : Escrow) (amount : Nat) :
    Except Err (Presale × Escrow × DepositFeeIncluded) := do
  let r ← p.getRegistry e.registryIndex
  let c ← r.depositFeeIncluded amount
  let (r', e') ← r.deposit e amount c.fee
  let d ← add64 p.totalDeposit amount
  let f ← add64 p.totalDepositFee c.fee
  return ({ p.setRegistry e.registryIndex r' with totalDeposit := d, totalDepositFee := f }, e', c)

/-- `state/presale.rs:384-389`. -/
def withdraw (p : Presale) (e : Escrow) (amount : Nat) : Except Err (Presale × Escrow) := do
  let r ← p.getRegistry e.registryIndex
  let (r', e') ← r.withdraw e amount
  let d ← sub p.totalDeposit amount
  return ({ p.setRegistry e.registryIndex r' with totalDeposit := d }, e')

/-- `state/presale.rs:391-400`. -/
def updateTotalRefundedQuoteToken (p : Presale) (amount i : Nat) : Except Err Presale := do
  let r ← p.getRegistry i
  let r' ← r.updateTotalRefundedQuoteToken amount
  let n ← add64 p.totalRefundedQuoteToken amount
  return { p.setRegistry i r' with totalRefundedQuoteToken := n }

/-- `state/presale.rs:402-404`. -/
def unsoldActionPerformed (p : Presale) : Bool := p.isUnsoldTokenActionPerformed != 0

/-- `state/presale.rs:406-409`. -/
def setUnsoldTokenActionPerformed (p : Presale) : Presale :=
  { p with isUnsoldTokenActionPerformed := 1 }

/-- `state/presale.rs:411-420`. -/
def allowWithdrawRemainingQuote (p : Presale) (progress : PresaleProgress) : Except Err Bool := do
  let mode ← castPresaleMode p.presaleMode
  return (progress == .failed || (progress == .completed && mode == .prorata))

/-- `state/presale.rs:422-424`. -/
def getRemainingQuote (p : Presale) : Nat := p.totalDeposit - p.presaleMaximumCap

/-- Share of a registry's refund that belongs to an escrow: `state/presale.rs:455-462` for the fee,
`464-471` for the deposit. -/
def shareOfRefund (part refund whole : Nat) : Except Err Nat :=
  if whole > 0 then do
    let x ← mul128 part refund
    let x ← div x whole
    cast64 x
  else .ok 0

/-- `state/presale.rs:426-480`. -/
def validateAndGetEscrowRemainingQuote (p : Presale) (e : Escrow) (t : Nat) :
    Except Err EscrowRemainingQuote := do
  let progress := p.getPresaleProgress t
  let allowed ← p.allowWithdrawRemainingQuote progress
  require (allowed = true) (.p .presaleNotOpenForWithdrawRemainingQuote)
  if progress = .failed then
    return { refundDepositAmount := e.totalDeposit, refundFeeAmount := e.totalDepositFee }
  else
    let r ← p.getRegistry e.registryIndex
    let q ← r.getFinalizedPresaleRemainingQuote p.getRemainingQuote p.totalDeposit
    let fee ← shareOfRefund e.totalDepositFee q.refundFee r.totalDepositFee
    let amount ← shareOfRefund e.totalDeposit q.refundAmount r.totalDeposit
    return { refundDepositAmount := amount, refundFeeAmount := fee }

/-- `has_creator_withdrawn` (`state/presale.rs:489-491`). -/
def creatorWithdrawn (p : Presale) : Bool := p.hasCreatorWithdrawn != 0

/-- `state/presale.rs:493-496`. -/
def updateCreatorWithdrawn (p : Presale) : Presale := { p with hasCreatorWithdrawn := 1 }

/-- `state/presale.rs:498-505`. -/
def claim (p : Presale) (e : Escrow) : Except Err (Presale × Escrow) := do
  let r ← p.getRegistry e.registryIndex
  let (e', claimed) ← e.claim
  let r' ← r.updateTotalClaimAmount claimed
  let n ← add64 p.totalClaimedToken claimed
  return ({ p.setRegistry e.registryIndex r' with totalClaimedToken := n }, e')

/-- `is_deposit_fee_collected` (`state/presale.rs:519-521`). -/
def feeCollected (p : Presale) : Bool := p.depositFeeCollected == 1

/-- `state/presale.rs:523-525`. -/
def setDepositFeeCollected (p : Presale) : Presale := { p with depositFeeCollected := 1 }

/-- Loop of `get_total_collected_fee` (`state/presale.rs:534-550`): stops at the first
uninitialised registry. -/
def collectedFeeLoop (remainingQuote totalDeposit : Nat) : List Registry → Nat → Except Err Nat
  | [], acc => .ok acc
  | r :: rs, acc =>
    if r.isUninitialized then .ok acc
    else do
      let q ← r.getFinalizedPresaleRemainingQuote remainingQuote totalDeposit
      let collected ← sub r.totalDepositFee q.refundFee
      let acc' ← add64 acc collected
      collectedFeeLoop remainingQuote totalDeposit rs acc'

/-- `state/presale.rs:527-556`. -/
def getTotalCollectedFee (p : Presale) : Except Err Nat := do
  let mode ← castPresaleMode p.presaleMode
  match mode with
  | .prorata => collectedFeeLoop p.getRemainingQuote p.totalDeposit p.registries 0
  | .fcfs | .fixedPrice => return p.totalDepositFee

end Presale

/-! ## Small accounts -/

/-- `state/merkle_root_config.rs:6-17`; the root is a list of 32 bytes. -/
structure MerkleRootConfig where
  root : List UInt8
  presale : Addr
  version : Nat
  deriving DecidableEq, Repr

/-- `state/operator.rs:5-9`. -/
structure Operator where
  owner : Addr
  creator : Addr
  deriving DecidableEq, Repr

/-- `state/permissioned_server_metadata.rs:3-11`; the URL is a list of bytes. -/
structure ServerMetadata where
  presale : Addr
  serverUrl : List UInt8
  deriving DecidableEq, Repr

/-- `state/fixed_price_presale_params.rs:5-12`. -/
structure FixedPriceArgs where
  disableWithdraw : Nat
  qPrice : Nat
  owner : Addr
  presale : Addr
  deriving DecidableEq, Repr

end Verif
