import Verif.Model.Basic
/-!
# Pure arithmetic of the program

`math/claim_math.rs`, `math/fee_math.rs` and the price arithmetic at the top of
`presale_mode_handler/fixed_price_presale.rs`.
-/

namespace Verif

/-! ## `math/claim_math.rs` -/

/-- `math/claim_math.rs:4-7`. -/
structure TokenReleaseResult where
  immediateReleasedAmount : Nat
  vestedAmount : Nat
  deriving DecidableEq, Repr

/-- `math/claim_math.rs:9-24`. -/
def calculateImmediateReleaseToken (totalSoldToken immediateReleaseBps : Nat) :
    Except Err TokenReleaseResult := do
  let x ← mul128 totalSoldToken immediateReleaseBps
  let x ← div x MAX_FEE_BASIS_POINTS
  let immediate ← cast64 x
  let vested ← sub totalSoldToken immediate
  return { immediateReleasedAmount := immediate, vestedAmount := vested }

/-- `math/claim_math.rs:26-37`. -/
def calculateImmediateReleaseTokenForUser (releaseAmount userDeposit totalDeposit : Nat) :
    Except Err Nat := do
  let x ← mul128 releaseAmount userDeposit
  let x ← div x totalDeposit
  cast64 x

/-- `math/claim_math.rs:51-61`: the dripped part of all sold tokens. -/
def drippedTotalSoldToken (vestingStartTime vestDuration currentTimestamp vestedAmount : Nat) :
    Except Err Nat :=
  if vestDuration = 0 then .ok vestedAmount
  else do
    let elapsed ← sub currentTimestamp vestingStartTime
    let x ← mul128 vestedAmount (min elapsed vestDuration)
    div x vestDuration

/-- `math/claim_math.rs:39-68`. -/
def calculateDrippedAmountForUser (vestingStartTime vestDuration currentTimestamp vestedAmount
    userDeposit totalDeposit : Nat) : Except Err Nat :=
  if currentTimestamp < vestingStartTime then .ok 0
  else do
    let dripped ← drippedTotalSoldToken vestingStartTime vestDuration currentTimestamp vestedAmount
    let x ← mul128 dripped userDeposit
    div x totalDeposit

/-- `math/claim_math.rs:89-97`: the user's immediate part, from the release timestamp on. -/
def userImmediateReleased (immediateReleaseTimestamp currentTimestamp releaseAmount userDeposit
    totalDeposit : Nat) : Except Err Nat :=
  if currentTimestamp ≥ immediateReleaseTimestamp then
    calculateImmediateReleaseTokenForUser releaseAmount userDeposit totalDeposit
  else .ok 0

/-- `math/claim_math.rs:70-111`. -/
def calculateCumulativeClaimableAmountForUser (immediateReleaseBps immediateReleaseTimestamp
    totalSoldToken vestingStartTime vestDuration currentTimestamp userDeposit totalDeposit : Nat) :
    Except Err Nat :=
  if userDeposit = 0 ∨ totalDeposit = 0 then .ok 0
  else do
    let r ← calculateImmediateReleaseToken totalSoldToken immediateReleaseBps
    let userImmediate ← userImmediateReleased immediateReleaseTimestamp currentTimestamp
      r.immediateReleasedAmount userDeposit totalDeposit
    let userDripped ← calculateDrippedAmountForUser vestingStartTime vestDuration currentTimestamp
      r.vestedAmount userDeposit totalDeposit
    let userDripped ← cast64 userDripped
    add64 userImmediate userDripped

/-! ## `math/fee_math.rs` -/

/-- `math/fee_math.rs:4-7`. -/
inductive Rounding where
  | up
  | down
  deriving DecidableEq, Repr

/-- `math/fee_math.rs:9-12`. -/
structure DepositFeeIncluded where
  fee : Nat
  amountIncludedFee : Nat
  deriving DecidableEq, Repr

/-- `math/fee_math.rs:22-25`: numerator of the division, by rounding mode. -/
def adjustForRounding (adjust denominator : Nat) : Rounding → Except Err Nat
  | .up => do
    let d ← sub denominator 1
    add128 adjust d
  | .down => .ok adjust

/-- `math/fee_math.rs:14-35`. -/
def calculateDepositFeeIncludedAmount (depositAmount feeBps : Nat) (rounding : Rounding) :
    Except Err DepositFeeIncluded := do
  let denominator ← sub MAX_FEE_BASIS_POINTS feeBps
  let adjust ← mul128 depositAmount MAX_FEE_BASIS_POINTS
  let adjusted ← adjustForRounding adjust denominator rounding
  let included ← div adjusted denominator
  let fee ← sub included depositAmount
  let fee ← cast64 fee
  let included ← cast64 included
  return { fee := fee, amountIncludedFee := included }

/-! ## Price arithmetic of `presale_mode_handler/fixed_price_presale.rs` -/

/-- `presale_mode_handler/fixed_price_presale.rs:5-8`. -/
def calculateMinQuoteAmountForBaseLamport (qPrice : Nat) : Except Err Nat :=
  cast64 (divCeil qPrice SCALE_MULTIPLIER)

/-- `presale_mode_handler/fixed_price_presale.rs:10-15`. -/
def calculateTokenBought (qPrice amount : Nat) : Except Err Nat := do
  let qAmount ← shl128 amount SCALE_OFFSET
  div qAmount qPrice

/-- `presale_mode_handler/fixed_price_presale.rs:17-26`. -/
def ensureTokenBuyable (qPrice amount : Nat) : Except Err Unit := do
  let maxTokenBought ← calculateTokenBought qPrice amount
  require (maxTokenBought > 0) (.p .zeroTokenAmount)
  require (maxTokenBought ≤ u64Bound - 1) (.p .invalidTokenPrice)

/-- `presale_mode_handler/fixed_price_presale.rs:28-40`. -/
def ensureEnoughPresaleSupply (qPrice presaleSupply maximumCap : Nat) : Except Err Unit := do
  let bought ← calculateTokenBought qPrice maximumCap
  require (bought ≤ presaleSupply) (.p .invalidTokenPrice)

/-- `presale_mode_handler/fixed_price_presale.rs:42-54`. -/
def ensureGapBetweenMinAndMaxPresaleCap (qPrice presaleMinimumCap presaleMaximumCap : Nat) :
    Except Err Unit := do
  let minBought ← calculateTokenBought qPrice presaleMinimumCap
  let maxBought ← calculateTokenBought qPrice presaleMaximumCap
  let delta ← sub maxBought minBought
  require (delta > 0) (.p .presaleMinMaxCapGapTooSmall)

/-- `presale_mode_handler/fixed_price_presale.rs:56-73`. -/
def calculateQuoteTokenWithoutSurplus (qPrice amount : Nat) : Except Err Nat := do
  let baseTokenAmount ← calculateTokenBought qPrice amount
  let x ← mul128 baseTokenAmount qPrice
  let quoteTokenNeeded ← cast64 (divCeil x SCALE_MULTIPLIER)
  require (quoteTokenNeeded ≤ amount) (.p .undeterminedError)
  return quoteTokenNeeded

end Verif
