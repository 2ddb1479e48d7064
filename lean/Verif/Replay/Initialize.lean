import Verif.Replay.Base
/-!
# `tests/test_initialize_presale_vault.rs`
-/

namespace Verif.Replay.Initialize

open Verif.Replay

def w0 : World := start spl native

/-- Refused without a fixed-price account in front (the tests pass no remaining accounts). -/
def bad (e : PErr) (x : InitializePresaleArgs) : Bool := refused w0 (.p e) [createWith w0 [] x]

/-- Arguments of `test_initialize_presale_vault_with_invalid_parameters`. -/
def good : InitializePresaleArgs :=
  { args .fixedPrice .permissionless with
    lockedVestingParams := { noVesting with lockDuration := 3600, vestDuration := 7200 } }
def withParams (f : PresaleArgs → PresaleArgs) : InitializePresaleArgs :=
  { good with presaleParams := f good.presaleParams }
def reg (min max supply : Nat) : RegistryArgs :=
  { buyerMinimumDepositCap := min, buyerMaximumDepositCap := max, presaleSupply := supply, depositFeeBps := 0 }

/-- `assert_err_invalid_locked_vesting_param` -/
def invalidVesting : Bool :=
  bad .invalidLockVestingInfo
    { good with
      lockedVestingParams :=
        { good.lockedVestingParams with
          lockDuration := MAXIMUM_LOCK_AND_VEST_DURATION / 2,
          vestDuration := MAXIMUM_LOCK_AND_VEST_DURATION / 2 + 1 } }

/-- The caps left over by `err_9` in `err_10` and the last case. -/
def caps (x : InitializePresaleArgs) : InitializePresaleArgs :=
  { x with presaleParams := { x.presaleParams with presaleMaximumCap := 90, presaleMinimumCap := 50 } }

/-- `assert_err_invalid_presale_params` -/
def invalidParams : List Bool :=
  [bad .invalidPresaleInfo (withParams fun p => { p with presaleMaximumCap := 0, presaleMinimumCap := 0 }),
   bad .invalidPresaleInfo (withParams fun p => { p with presaleMaximumCap := 100, presaleMinimumCap := 200 }),
   bad .invalidPresaleInfo (withParams fun p =>
     { p with presaleEndTime := p.presaleStartTime + MINIMUM_PRESALE_DURATION - 1 }),
   bad .invalidPresaleInfo (withParams fun p =>
     { p with presaleStartTime := now + 100, presaleEndTime := now + 50 }),
   bad .invalidPresaleInfo (withParams fun p =>
     { p with presaleStartTime := now + 100, presaleEndTime := now + 100 + MAXIMUM_PRESALE_DURATION + 1 }),
   bad .invalidPresaleInfo (withParams fun p =>
     { p with
       presaleStartTime := now + MAXIMUM_DURATION_UNTIL_PRESALE + 1,
       presaleEndTime := now + MAXIMUM_DURATION_UNTIL_PRESALE + 1 + 1000 }),
   bad .invalidPresaleInfo (withParams fun p => { p with presaleMaximumCap := 100, presaleMinimumCap := 0 }),
   bad .invalidPresaleInfo { good with presaleRegistries := [reg 0 0 1000] },
   bad .invalidPresaleInfo { good with presaleRegistries := [reg 200 100 1000] },
   bad .invalidPresaleInfo (caps { good with presaleRegistries := [reg 200 100 1000] }),
   bad .invalidPresaleInfo (caps { good with presaleRegistries := [] }),
   bad .invalidTokenSupply (caps { good with presaleRegistries := [reg 0 50 0] })]

/-- `test_initialize_presale_vault_with_invalid_parameters` -/
example : invalidVesting = true ∧ invalidParams = List.replicate 12 true := by decide +kernel

/-- `test_initialize_permissionless_presale_vault_with_multiple_registries` (the test leaves the fixed-price
account out) -/
example : bad .multiplePresaleRegistriesNotAllowed
    { args .fixedPrice .permissionless with presaleRegistries := List.replicate 5 (reg 0 SOL (10 ^ 9)) } = true := by
  decide +kernel

/-- `test_total_presale_supply_from_multiple_registries_overflow` -/
example : bad .invalidTokenSupply
    { args .fixedPrice .permissionless with
      presaleRegistries := List.replicate 5 (reg 0 SOL (2 ^ 64 - 1)) } = true := by
  decide +kernel

/-- `test_initialize_fixed_token_price_presale_vault_missing_fixed_price_extra_args_remaining_accounts` -/
example : bad .missingPresaleExtraParams
    { args .fixedPrice .permissionless with lockedVestingParams := noVesting } = true := by
  decide +kernel

/-- Refused with the fixed-price account at hand. -/
def badFixed (e : PErr) (maxCap minCap : Nat) (r : RegistryArgs) : Bool :=
  refused w0 (.p e)
    [fixedArgs price 0, createWith w0 [.fixedPriceArgs sale]
      { presaleParams :=
          { presaleArgs .fixedPrice .permissionless with
            presaleMaximumCap := maxCap, presaleMinimumCap := minCap },
        lockedVestingParams := noVesting, presaleRegistries := [r] }]

/-- `test_initialize_fixed_token_price_presale_vault_with_invalid_configuration`: the price is ten, the
supply a million tokens of six decimals, the caps of the last two cases are for one unit more. -/
example :
    badFixed .zeroTokenAmount SOL 1000000 (reg 9 9 (10 ^ 12)) = true ∧
    badFixed .invalidTokenPrice ((10 ^ 12 + 1) * 10) 1
      (reg ((10 ^ 12 + 1) * 5) ((10 ^ 12 + 1) * 5) (10 ^ 12)) = true ∧
    badFixed .zeroTokenAmount ((10 ^ 12 + 1) * 10) 1 (reg 0 ((10 ^ 12 + 1) * 5) (10 ^ 12)) = true := by
  decide +kernel

/-- The vesting of the remaining tests. -/
def twoHours : LockedVestingArgs := { noVesting with lockDuration := 3600, vestDuration := 7200 }

/-- `test_initialize_presale_vault_with_dynamic_price_fcfs` and `_prorata` -/
def dynamic (m : Mode) : Option Bool := do
  let w ← after w0
    [createWith w0 []
      { presaleParams := presaleArgs m .permissionless, lockedVestingParams := twoHours,
        presaleRegistries := [reg 1000000 SOL (10 ^ 12)] }]
  let p ← presale? w
  return decide (p.presaleMode = m.byte) && decide (p.whitelistMode = 0) && decide (p.unsoldTokenAction = 0)

example : dynamic .fcfs = some true ∧ dynamic .prorata = some true := by decide +kernel

/-- What the two tests of fixed-price sales compare. -/
def asGiven (w : World) (x : InitializePresaleArgs) : Option Bool := do
  let p ← presale? w
  let a := x.presaleParams
  let v := x.lockedVestingParams
  return decide (p.baseMint = base ∧ p.quoteMint = quote ∧ p.presaleMode = 0 ∧
      p.presaleStartTime = a.presaleStartTime ∧ p.presaleEndTime = a.presaleEndTime ∧
      p.presaleMaximumCap = a.presaleMaximumCap ∧ p.presaleMinimumCap = a.presaleMinimumCap ∧
      p.whitelistMode = a.whitelistMode ∧ p.owner = user ∧ p.base = user) &&
    decide (0 < p.createdAt ∧ p.hasCreatorWithdrawn = 0 ∧ p.vestDuration = v.vestDuration ∧
      p.lockDuration = v.lockDuration ∧ p.vestingEndTime = p.vestingStartTime + v.vestDuration ∧
      p.raw0 = price ∧ p.unsoldTokenAction = a.unsoldTokenAction ∧
      p.immediateReleaseBps = v.immediatelyReleaseBps ∧
      p.immediateReleaseTimestamp = v.immediateReleaseTimestamp) &&
    (List.range x.presaleRegistries.length).all (fun i =>
      decide (p.registries[i]?.map (fun r =>
        (⟨r.buyerMinimumDepositCap, r.buyerMaximumDepositCap, r.presaleSupply, r.depositFeeBps⟩ : RegistryArgs)) =
        x.presaleRegistries[i]?)) &&
    decide (bal w p.baseTokenVault = (p.registries.map (·.presaleSupply)).sum) &&
    decide (p.totalPresaleRegistryCount = (p.registries.filter fun r => decide (0 < r.presaleSupply)).length)

/-- Create a sale and look. -/
def created (x : InitializePresaleArgs) : Option Bool := do
  let w ← after w0 [fixedArgs price 0, createWith w0 [.fixedPriceArgs sale] x]
  asGiven w x

/-- `test_initialize_presale_vault_with_fixed_token_price` -/
example : created
    { presaleParams := { presaleArgs .fixedPrice .permissionless with presaleMaximumCap := 2 * SOL },
      lockedVestingParams := { twoHours with immediatelyReleaseBps := 5000 },
      presaleRegistries := [reg 1000000 SOL (10 ^ 12)] } = some true := by decide +kernel

/-- `test_initialize_presale_vault_with_fixed_token_price_with_multiple_registries` -/
example : created
    { presaleParams := { presaleArgs .fixedPrice .merkle with presaleMaximumCap := 2 * SOL },
      lockedVestingParams := twoHours,
      presaleRegistries :=
        [{ reg 10 (2 * SOL) (10 ^ 12) with depositFeeBps := 100 },
         { reg 10 (2 * SOL) (15 * 10 ^ 11) with depositFeeBps := 200 }] } = some true := by decide +kernel

end Verif.Replay.Initialize
