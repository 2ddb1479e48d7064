import Verif.Replay.Base
/-!
# `tests/test_deposit.rs`
-/

namespace Verif.Replay.Deposit

open Verif.Replay

def w0 : World := start spl native

/-- `test_deposit_fixed_price_presale_progress_update` and `test_deposit_fcfs_presale_progress_update` -/
def progress (m : Mode) : Option Bool := do
  let w ← after w0 (create w0 (args m .permissionless))
  let p ← presale? w
  let w' ← after w (deposit w user 0 p.presaleMaximumCap)
  let p' ← presale? w'
  return decide (p.getPresaleProgress now = .ongoing) && decide (p'.getPresaleProgress now = .completed)

example : progress .fixedPrice = some true ∧ progress .fcfs = some true := by decide +kernel

/-- A fixed-price sale with an opened escrow. -/
def opened : Option World := after w0 (create w0 (args .fixedPrice .permissionless) ++ [openEscrow user])

/-- `test_deposit_below_buyer_minimum_cap` -/
def belowMinimum : Option Bool := do
  let w ← opened
  let p ← presale? w
  let r ← p.registries[0]?
  return refused w (.p .depositAmountOutOfCap) (deposit w user 0 (r.buyerMinimumDepositCap - 1))

/-- `test_deposit_before_presale_start` and `test_deposit_when_presale_ended` -/
def outside : Option Bool := do
  let w ← opened
  let p ← presale? w
  let before := warp w (p.presaleStartTime - 1)
  let late := warp w p.presaleEndTime
  return refused before (.p .presaleNotOpenForDeposit) (deposit before user 0 (SOL / 2)) &&
    refused late (.p .presaleNotOpenForDeposit) (deposit late user 0 (SOL / 2))

example : belowMinimum = some true ∧ outside = some true := by decide +kernel

/-- Deposit and compare both totals. -/
def deposited (amount expected : Nat) : Option Bool := do
  let w ← after w0 (create w0 (args .fixedPrice .permissionless))
  let w ← after w (deposit w user 0 amount)
  let p ← presale? w
  let e ← escrow? w user 0
  return decide (p.totalDeposit = expected ∧ e.totalDeposit = expected)

/-- `test_deposit` and `test_deposit_with_max_buyer_cap` -/
example : deposited (SOL / 2) (SOL / 2) = some true ∧ deposited (10 * SOL) SOL = some true := by decide +kernel

/-- `test_deposit_with_max_presale_cap` -/
def maxCap : Option Bool := do
  let w ← after w0 (create w0 (args .fixedPrice .permissionless))
  let p ← presale? w
  let w ← after w (deposit w user 0 (SOL / 2 + 100))
  let w ← after w (deposit w user1 0 (SOL / 2 + 100))
  let q ← presale? w
  return decide (q.totalDeposit = q.presaleMaximumCap ∧ q.presaleEndTime < p.presaleEndTime ∧
    q.vestingStartTime < p.vestingStartTime ∧ q.vestingEndTime < p.vestingEndTime ∧
    q.vestingStartTime - q.presaleEndTime = q.lockDuration ∧
    q.vestingEndTime - q.vestingStartTime = q.vestDuration)

example : maxCap = some true := by decide +kernel

/-- `test_deposit_over_escrow_max_deposit_cap` -/
def overEscrowCap : Option Bool := do
  let w ← after w0 (create w0
    { args .fixedPrice .merkle with presaleRegistries := fiveRegistries .fixedPrice .merkle })
  let p ← presale? w
  let r ← p.registries[0]?
  let t ← tree [(user, 0, (r.buyerMaximumDepositCap - r.buyerMinimumDepositCap) / 2)] 0
  let n ← node t user
  let proof ← n.proof
  let w ← after w [createMerkle t, openMerkle t user n.registryIndex n.depositCap proof]
  let w ← after w (deposit w user n.registryIndex (n.depositCap + 100))
  let e ← escrow? w user n.registryIndex
  let most := e.depositMaxCap * 2 ^ 64 / p.raw0
  return decide (e.totalDeposit = (most * p.raw0 + 2 ^ 64 - 1) / 2 ^ 64)

example : overEscrowCap = some true := by decide +kernel

/-- One round of `test_deposit_2022_with_fee`. The expected fee is computed by hand: the smallest amount whose
fee, rounded up, leaves the deposit. -/
def feeRound (w : World) (t : ConfigMerkleTree) (owner : Addr) (amount fee : Nat) : Option (World × Bool) := do
  let n ← node t owner
  let proof ← n.proof
  let w ← after w [openMerkle t owner n.registryIndex n.depositCap proof]
  let w' ← after w (deposit w owner n.registryIndex amount)
  let p ← presale? w'
  let r ← p.registries[n.registryIndex]?
  let e ← escrow? w' owner n.registryIndex
  let moved := bal w (quoteOf w owner) - bal w' (quoteOf w owner)
  return (w', decide (e.totalDeposit = amount ∧ e.totalDepositFee = fee ∧ r.totalDeposit = amount ∧
    r.totalDepositFee = fee ∧ amount + fee < moved ∧ (p.registries.map (·.totalDeposit)).sum = p.totalDeposit ∧
    (p.registries.map (·.totalDepositFee)).sum = p.totalDepositFee))

/-- `test_deposit_2022_with_fee` -/
def withTransferFee : Option Bool := do
  let w := start t22HookFee t22HookFee
  let reg (supply fee : Nat) : RegistryArgs :=
    { buyerMinimumDepositCap := 1, buyerMaximumDepositCap := SOL, presaleSupply := supply, depositFeeBps := fee }
  let w ← after w (create w
    { args .prorata .merkle with presaleRegistries := [reg (10 ^ 12) 100, reg (2 * 10 ^ 12) 200] })
  let t ← tree [(user, 0, 200000000), (user1, 1, 400000000)] 0
  let w ← after w [createMerkle t]
  let (w, ok) ← feeRound w t user 100000000 1010102
  let (_, ok') ← feeRound w t user1 200000000 4081633
  return ok && ok'

example : withTransferFee = some true := by decide +kernel

/-- `test_deposit_token2022` -/
def token2022 : Option Bool := do
  let w := start t22HookFee t22HookFee
  let w ← after w (create w (args .fixedPrice .permissionless))
  let p ← presale? w
  let r ← p.registries[0]?
  let w ← after w (deposit w user 0 r.buyerMinimumDepositCap)
  let p ← presale? w
  let e ← escrow? w user 0
  return decide (bal w p.quoteTokenVault = r.buyerMinimumDepositCap ∧
    p.totalDeposit = r.buyerMinimumDepositCap ∧ e.totalDeposit = r.buyerMinimumDepositCap)

example : token2022 = some true := by decide +kernel

/-- `test_deposit_fixed_price_presale_with_end_earlier_disabled` and its counterpart for first come, first
served -/
def keepsEnd (m : Mode) : Option Bool := do
  let x := args m .permissionless
  let x := { x with presaleParams := { x.presaleParams with disableEarlierPresaleEndOnceCapReached := 1 } }
  let w ← after w0 (match m with
    | .fixedPrice => [fixedArgs price 1, createWith w0 [.fixedPriceArgs sale] x]
    | _ => create w0 x)
  let p ← presale? w
  let w ← after w (deposit w user 0 p.presaleMaximumCap)
  let q ← presale? w
  return decide (p.presaleEndTime = q.presaleEndTime ∧ p.vestingStartTime = q.vestingStartTime ∧
    p.vestingEndTime = q.vestingEndTime)

example : keepsEnd .fixedPrice = some true ∧ keepsEnd .fcfs = some true := by decide +kernel

end Verif.Replay.Deposit
