import Verif.Replay.Base
/-!
# `tests/test_unsold_token_action.rs`, `tests/test_initialize_presale_vault_token2022.rs`
-/

namespace Verif.Replay.Unsold

open Verif.Replay

def w0 : World := start spl native

/-- A whitelisted sale with five registries, of which only the first gets a deposit; vesting is over. -/
def zeroDeposit (m : Mode) (action : Nat) : Option World := do
  let x := args m .merkle
  let w ← after w0 (create w0 { x with
    presaleRegistries := fiveRegistries m .merkle,
    presaleParams := { x.presaleParams with unsoldTokenAction := action } })
  let p ← presale? w
  let t ← tree [(user, 0, p.presaleMaximumCap), (user1, 1, p.presaleMaximumCap)] 0
  let n ← node t user
  let q ← n.proof
  let w ← after w [createMerkle t, openMerkle t user n.registryIndex n.depositCap q]
  let w ← after w (deposit w user n.registryIndex n.depositCap)
  return warp w (p.vestingEndTime + 1)

/-- `…_prorata_presale_with_zero_deposit_registry_burn_unsold` -/
def burnt : Option Bool := do
  let w ← zeroDeposit .prorata 1
  let w' ← after w [unsold w]
  return decide (bal w' (baseOf w user) = bal w (baseOf w user))

/-- `…_with_zero_deposit_registry` with a refund; the unsold part of a registry with deposits is `rest`. -/
def refunded (m : Mode) (rest : Presale → Registry → Nat) : Option Bool := do
  let w ← zeroDeposit m 0
  let p ← presale? w
  let w' ← after w [unsold w]
  return decide (bal w' (baseOf w user) - bal w (baseOf w user) =
    (p.registries.map fun r => if 0 < r.totalDeposit then rest p r else r.presaleSupply).sum)

example : burnt = some true ∧ refunded .prorata (fun _ _ => 0) = some true ∧
    refunded .fcfs (fun _ _ => 0) = some true ∧
    refunded .fixedPrice (fun p r => r.presaleSupply - r.totalDeposit * 2 ^ 64 / p.raw0) = some true := by
  decide +kernel

/-- A permissionless sale with an unsold-token action. -/
def open1 (w : World) (m : Mode) (action : Nat) : Option World :=
  let x := args m .permissionless
  after w (create w { x with presaleParams := { x.presaleParams with unsoldTokenAction := action } })

/-- The same with a deposit just above the minimum cap, at the end of the sale. -/
def ended (w : World) (m : Mode) (action : Nat) : Option World := do
  let w ← open1 w m action
  let p ← presale? w
  let w ← after w (deposit w user 0 (p.presaleMinimumCap + 1))
  return warp w p.presaleEndTime

/-- `…_{fcfs,prorata}_presale_with_non_zero_deposit_registry` -/
def nothingLeft (m : Mode) : Option Bool := do
  let w ← ended w0 m 0
  return refused w (.p .noUnsoldBaseTokens) [unsold w]

/-- `…_before_presale_complete`, `…_when_presale_failed` -/
def notCompleted : Option Bool := do
  let w ← open1 w0 .fixedPrice 0
  let p ← presale? w
  return refused w (.p .presaleNotCompleted) [unsold w] &&
    refused (warp w p.presaleEndTime) (.p .presaleNotCompleted) [unsold w]

/-- `…_refund_fixed_price_presale_token2022`, `…_refund_fixed_price_presale_with_non_zero_deposit_registry` -/
def refundsCreator (w : World) : Option Bool := do
  let w ← ended w .fixedPrice 0
  let w' ← after w [unsold w]
  let p ← presale? w'
  return decide (bal w' (.baseVault sale) < bal w (.baseVault sale) ∧
    bal w (baseOf w user) < bal w' (baseOf w user) ∧ p.isUnsoldTokenActionPerformed = 1)

/-- `…_burn_fixed_price_presale_with_non_zero_deposit_registry` -/
def burns : Option Bool := do
  let w ← ended w0 .fixedPrice 1
  let w' ← after w [unsold w]
  let p ← presale? w'
  return decide (bal w' (.baseVault sale) < bal w (.baseVault sale) ∧ p.isUnsoldTokenActionPerformed = 1) &&
    refused w' (.p .unsoldBaseTokenActionAlreadyPerformed) [unsold w']

example : nothingLeft .fcfs = some true ∧ nothingLeft .prorata = some true ∧ notCompleted = some true ∧
    refundsCreator w0 = some true ∧ refundsCreator (start t22HookFee native) = some true ∧
    refundsCreator (start t22Hook native) = some true ∧ burns = some true := by decide +kernel

/-! ## Creation with Token-2022 mints -/

/-- `test_initialize_presale_vault_token_2022` and the cases with a transfer fee (`fee`) and a transfer hook -/
def token2022 (b : MintInfo) (fee : Bool) : Option Bool := do
  let w := start b native
  let w' ← after w (create w (args .fixedPrice .permissionless))
  let p ← presale? w'
  let supply := (p.registries.map (·.presaleSupply)).sum
  let paid := bal w (baseOf w user) - bal w' (baseOf w user)
  return decide (bal w' (.baseVault sale) = supply) &&
    (if fee then decide (supply < paid) else decide (supply = paid))

example : token2022 t22 false = some true ∧ token2022 t22Fee true = some true ∧
    token2022 t22Hook false = some true := by decide +kernel

end Verif.Replay.Unsold
