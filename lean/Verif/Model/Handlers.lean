import Verif.Model.State
/-!
# Presale mode handlers (`presale_mode_handler/*.rs`)

The trait object `Box<dyn PresaleModeHandler>` becomes a sum type; each trait method a function by
cases. `initialize_presale` is in `Model/Params.lean`, next to the argument types it reads.
-/

namespace Verif

/-- `FixedPricePresaleHandler` (`fixed_price_presale.rs:75-82`), `ProrataPresaleHandler`
(`prorata_presale.rs:4`), `FcfsPresaleHandler` (`fcfs_presale.rs:4-9`). -/
inductive Handler where
  | fixedPrice (qPrice disableWithdraw disableEarlierEnd : Nat)
  | prorata
  | fcfs (disableEarlierEnd : Nat)
  deriving DecidableEq, Repr

/-! ## Raw mode data: `presale_mode_raw_data : [u128; 3]` reinterpreted as a `repr(C)` struct on a
little-endian machine -/

/-- `FixedPricePresaleHandler::initialize_data` (`fixed_price_presale.rs:85-104`): `q_price` is bytes
0..16, `disable_withdraw` byte 16, `disable_earlier_presale_end_once_cap_reached` byte 17; the
other bytes are left as they are. -/
def Presale.writeFixedPriceData (p : Presale) (qPrice disableEarlierEnd disableWithdraw : Nat) :
    Presale :=
  { p with raw0 := qPrice, raw1 := p.raw1 - p.raw1 % 65536 + disableWithdraw + 256 * disableEarlierEnd }

/-- `FcfsPresaleHandler::initialize_data` (`fcfs_presale.rs:12-26`): the flag is byte 0. -/
def Presale.writeFcfsData (p : Presale) (disableEarlierEnd : Nat) : Presale :=
  { p with raw0 := p.raw0 - p.raw0 % 256 + disableEarlierEnd }

/-- `get_presale_mode_handler` (`presale_mode_handler/mod.rs:74-92`). The `bytemuck` casts cannot
fail (sizes and alignments agree). -/
def getPresaleModeHandler (p : Presale) : Except Err Handler := do
  let mode ← castPresaleMode p.presaleMode
  match mode with
  | .fixedPrice => return .fixedPrice p.raw0 (p.raw1 % 256) (p.raw1 / 256 % 256)
  | .prorata => return .prorata
  | .fcfs => return .fcfs (p.raw0 % 256)

/-- `enforce_dynamic_price_registries_max_buyer_cap_range` (`presale_mode_handler/mod.rs:61-72`). -/
def enforceDynamicPriceRegistriesMaxBuyerCapRange (maxCap : Nat) : List Registry → Except Err Unit
  | [] => .ok ()
  | r :: rs => do
    require (r.isUninitialized = true
      ∨ (r.buyerMinimumDepositCap = 1 ∧ r.buyerMaximumDepositCap = maxCap)) (.p .invalidBuyerCapRange)
    enforceDynamicPriceRegistriesMaxBuyerCapRange maxCap rs

/-- `end_presale_if_max_cap_reached` (`presale_mode_handler/mod.rs:94-108`). -/
def endPresaleIfMaxCapReached (p : Presale) (disabled : Bool) (t : Nat) : Except Err Presale :=
  if disabled then .ok p
  else if p.totalDeposit ≥ p.presaleMaximumCap then p.advanceProgressToCompleted t
  else .ok p

/-- Loop of `get_dynamic_price_based_total_base_token_sold` (`presale_mode_handler/mod.rs:110-127`). -/
def dynamicSoldLoop : List Registry → Nat → Except Err Nat
  | [], acc => .ok acc
  | r :: rs, acc =>
    if r.isUninitialized then .ok acc
    else if r.totalDeposit = 0 then dynamicSoldLoop rs acc
    else do
      let acc' ← add64 acc r.presaleSupply
      dynamicSoldLoop rs acc'

/-- Loop of the fixed-price `get_total_base_token_sold` (`fixed_price_presale.rs:288-304`). -/
def fixedSoldLoop (qPrice : Nat) : List Registry → Nat → Except Err Nat
  | [], acc => .ok acc
  | r :: rs, acc =>
    if r.isUninitialized then .ok acc
    else if r.totalDeposit = 0 then fixedSoldLoop qPrice rs acc
    else do
      let bought ← calculateTokenBought qPrice r.totalDeposit
      let acc' ← add128 acc (min bought r.presaleSupply)
      fixedSoldLoop qPrice rs acc'

/-- Common tail of `update_pending_claim_amount` (`fixed_price_presale.rs:279-285`) and of
`process_claim_full_presale_supply_by_share` (`presale_mode_handler/mod.rs:146-152`). -/
def accrue (e : Escrow) (cumulative t : Nat) : Except Err Escrow := do
  let s ← e.sumClaimedAndPendingClaimAmount
  let claimable ← sub cumulative s
  let e' ← e.accumulatePendingClaimToken claimable
  return e'.updateLastRefreshedAt t

namespace Handler

/-- Tokens already sold by a fixed-price registry (`fixed_price_presale.rs:210-222`). -/
def fixedRegistrySold (qPrice : Nat) (r : Registry) : Except Err Nat :=
  if r.totalDeposit > 0 then do
    let b ← calculateTokenBought qPrice r.totalDeposit
    let b ← cast64 b
    return min b r.presaleSupply
  else .ok 0

/-- `get_remaining_deposit_quota`: `fixed_price_presale.rs:206-242`, `prorata_presale.rs:22-26`,
`fcfs_presale.rs:55-62`. -/
def getRemainingDepositQuota (h : Handler) (p : Presale) (e : Escrow) : Except Err Nat :=
  match h with
  | .fixedPrice qPrice _ _ => do
    let globalRemaining ← p.getRemainingDepositQuota
    let r ← p.getRegistry e.registryIndex
    let totalTokenSold ← fixedRegistrySold qPrice r
    if totalTokenSold = r.presaleSupply then return 0
    else
      let remainingBase ← sub r.presaleSupply totalTokenSold
      let x ← mul128 remainingBase qPrice
      let registryQuota ← cast64 (divCeil x SCALE_MULTIPLIER)
      let personal ← e.getRemainingDepositQuota r.buyerMaximumDepositCap
      return min (min globalRemaining personal) registryQuota
  | .prorata => do
    let r ← p.getRegistry e.registryIndex
    e.getRemainingDepositQuota r.buyerMaximumDepositCap
  | .fcfs _ => do
    let globalRemaining ← p.getRemainingDepositQuota
    let r ← p.getRegistry e.registryIndex
    let personal ← e.getRemainingDepositQuota r.buyerMaximumDepositCap
    return min globalRemaining personal

/-- `end_presale_if_max_cap_reached`: `fixed_price_presale.rs:245-255`, `prorata_presale.rs:28-35`,
`fcfs_presale.rs:64-74`. -/
def endIfMaxCapReached (h : Handler) (p : Presale) (t : Nat) : Except Err Presale :=
  match h with
  | .fixedPrice _ _ de => endPresaleIfMaxCapReached p (de != 0) t
  | .prorata => .ok p
  | .fcfs de => endPresaleIfMaxCapReached p (de != 0) t

/-- `can_withdraw`: `fixed_price_presale.rs:257-259`, `prorata_presale.rs:37-40`,
`fcfs_presale.rs:76-79`. -/
def canWithdraw : Handler → Bool
  | .fixedPrice _ dw _ => !(dw != 0)
  | .prorata => true
  | .fcfs _ => false

/-- `process_withdraw`: `fixed_price_presale.rs:261-268`, `prorata_presale.rs:42-49`,
`fcfs_presale.rs:81-88` (`unreachable!`). -/
def processWithdraw (h : Handler) (p : Presale) (e : Escrow) (amount : Nat) :
    Except Err (Presale × Escrow) :=
  match h with
  | .fixedPrice _ _ _ | .prorata => p.withdraw e amount
  | .fcfs _ => .error .panic

/-- `get_escrow_cumulative_claimable_token`: `fixed_price_presale.rs:309-335`,
`prorata_presale.rs:60-77`, `fcfs_presale.rs:99-116`. The same computation is what
`update_pending_claim_amount` uses. -/
def cumulativeClaimable (h : Handler) (p : Presale) (e : Escrow) (t : Nat) : Except Err Nat :=
  match h with
  | .fixedPrice qPrice _ _ => do
    let r ← p.getRegistry e.registryIndex
    let b ← calculateTokenBought qPrice r.totalDeposit
    let b ← cast64 b
    calculateCumulativeClaimableAmountForUser p.immediateReleaseBps p.immediateReleaseTimestamp
      (min b r.presaleSupply) p.vestingStartTime p.vestDuration t e.totalDeposit r.totalDeposit
  | .prorata | .fcfs _ => do
    let r ← p.getRegistry e.registryIndex
    calculateCumulativeClaimableAmountForUser p.immediateReleaseBps p.immediateReleaseTimestamp
      r.presaleSupply p.vestingStartTime p.vestDuration t e.totalDeposit r.totalDeposit

/-- `update_pending_claim_amount`: `fixed_price_presale.rs:270-286`, `prorata_presale.rs:51-58`,
`fcfs_presale.rs:90-97`, both of the latter via `process_claim_full_presale_supply_by_share`
(`presale_mode_handler/mod.rs:129-153`). -/
def updatePendingClaimAmount (h : Handler) (p : Presale) (e : Escrow) (t : Nat) :
    Except Err Escrow := do
  let cumulative ← h.cumulativeClaimable p e t
  accrue e cumulative t

/-- `get_total_base_token_sold`: `fixed_price_presale.rs:288-307`, `prorata_presale.rs:79-81`,
`fcfs_presale.rs:118-120`. -/
def totalBaseTokenSold (h : Handler) (p : Presale) : Except Err Nat :=
  match h with
  | .fixedPrice qPrice _ _ => do
    let s ← fixedSoldLoop qPrice p.registries 0
    cast64 s
  | .prorata | .fcfs _ => dynamicSoldLoop p.registries 0

/-- `suggest_deposit_amount`: `fixed_price_presale.rs:337-339`, `prorata_presale.rs:83-85`,
`fcfs_presale.rs:122-124`. -/
def suggestDepositAmount (h : Handler) (maxDepositAmount : Nat) : Except Err Nat :=
  match h with
  | .fixedPrice qPrice _ _ => calculateQuoteTokenWithoutSurplus qPrice maxDepositAmount
  | .prorata | .fcfs _ => .ok maxDepositAmount

/-- `suggest_withdraw_amount`: `fixed_price_presale.rs:341-346`, `prorata_presale.rs:87-89`,
`fcfs_presale.rs:126-128`. -/
def suggestWithdrawAmount (h : Handler) (e : Escrow) (maxWithdrawAmount : Nat) : Except Err Nat :=
  match h with
  | .fixedPrice qPrice _ _ =>
    if e.totalDeposit = maxWithdrawAmount then .ok maxWithdrawAmount
    else calculateQuoteTokenWithoutSurplus qPrice maxWithdrawAmount
  | .prorata => .ok maxWithdrawAmount
  | .fcfs _ => .ok 0

end Handler

/-- `get_total_unsold_token` (`state/presale.rs:482-487`). -/
def Presale.getTotalUnsoldToken (p : Presale) (h : Handler) : Except Err Nat := do
  let sold ← h.totalBaseTokenSold p
  sub p.presaleSupply sold

end Verif
