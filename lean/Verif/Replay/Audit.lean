import Verif.Replay.Base
/-!
# `tests/test_audit_fixes.rs`
-/

namespace Verif.Replay.Audit

open Verif.Replay

def w0 : World := start spl native

/-- `test_fixed_price_presale_registry_consume_over_supply`: two registries of half the supply; an escrow which pays
for all of it gets no more than its registry's. -/
def overSupply : Option Bool := do
  let supply := 1000 * 10 ^ 6
  let max := price * supply / 2 ^ 64
  let r : RegistryArgs :=
    { buyerMinimumDepositCap := 10, buyerMaximumDepositCap := max, presaleSupply := supply / 2, depositFeeBps := 0 }
  let x := args .fixedPrice .merkle
  let w ← after w0 (create w0 { x with
    presaleParams := { x.presaleParams with presaleMinimumCap := 10, presaleMaximumCap := max },
    presaleRegistries := [r, r] })
  let t ← tree [(user, 0, max)] 0
  let n ← node t user
  let q ← n.proof
  let w ← after w [createMerkle t, openMerkle t user 0 n.depositCap q]
  let w ← after w (deposit w user 0 n.depositCap)
  let p ← presale? w
  let w ← after (warp w (p.vestingEndTime + 1)) [refresh user 0]
  let e ← escrow? w user 0
  let w' ← after w [refresh user 0, claimOnly w user 0]
  return decide (e.pendingClaimToken ≤ supply / 2 ∧
    bal w' (baseOf w user) - bal w (baseOf w user) = e.pendingClaimToken ∧ 0 < e.pendingClaimToken)

/-- `test_presale_progress_manipulation`: a full sale cannot be emptied again. -/
def manipulation : Option Bool := do
  let w ← after w0 (create w0 (args .fixedPrice .permissionless))
  let p ← presale? w
  let w ← after w (deposit w user 0 p.presaleMaximumCap)
  return refused w (.p .presaleNotOpenForWithdraw)
    [withdraw w user 0 (p.presaleMaximumCap - p.presaleMinimumCap + 1)]

/-- `test_uncloseable_escrow_on_failed_presale` -/
def closeable : Option Bool := do
  let w ← after w0 (create w0 (args .fixedPrice .permissionless))
  let p ← presale? w
  let w ← after w (deposit w user 0 (p.presaleMinimumCap - 1))
  let w := warp w (p.presaleEndTime + 1)
  let w ← after w [refund w user 0, closeEscrow user 0]
  return (w.escrows.get? (escrowOf user 0)).isNone

/-- `test_zero_vest_duration_dos_escrow_claim` -/
def zeroVest : Option Bool := do
  let x := args .prorata .permissionless
  let w ← after w0 (create w0 { x with
    lockedVestingParams :=
      { x.lockedVestingParams with lockDuration := 0, vestDuration := 0, immediatelyReleaseBps := 10000 } })
  let p ← presale? w
  let half := (p.presaleMaximumCap - p.presaleMinimumCap) / 2
  let w ← after w (deposit w user 0 half)
  let w ← after w (deposit w user1 0 half)
  let w := warp w (p.presaleEndTime + 1)
  let w ← after w [refresh user 0, claimOnly w user 0, refresh user1 0, claimOnly w user1 0]
  let e0 ← escrow? w user 0
  let e1 ← escrow? w user1 0
  let r ← p.registries[0]?
  return decide (r.presaleSupply = e0.totalClaimedToken + e1.totalClaimedToken)

/-- `test_fixed_price_presale_completion_unreachable` -/
def unreachable : Option Bool := do
  let x := args .fixedPrice .permissionless
  let w ← after w0 [fixedArgs (9 * 2 ^ 64) 0, createWith w0 [.fixedPriceArgs sale] { x with
    presaleParams := { x.presaleParams with presaleMinimumCap := 92, presaleMaximumCap := 100 },
    presaleRegistries := x.presaleRegistries.map fun r =>
      { r with buyerMinimumDepositCap := 10, buyerMaximumDepositCap := 100 } }]
  let w ← after w (deposit w user 0 99)
  let p ← presale? w
  return refused w (.p .zeroTokenAmount) (deposit w user 0 1) &&
    decide (p.getPresaleProgress p.presaleEndTime = .completed)

example : overSupply = some true ∧ manipulation = some true ∧ closeable = some true ∧ zeroVest = some true ∧
    unreachable = some true := by decide +kernel

/-! ## `fixed_price_deposit_surplus_stuck_tests`: the buyer's minimum is the price of one token, ten lamports -/

def setup : Option World :=
  let x := args .fixedPrice .permissionless
  after w0 (create w0 { x with
    presaleRegistries := x.presaleRegistries.map fun r => { r with buyerMinimumDepositCap := 10 } })

/-- Both totals. -/
def totals (w : World) : Option (Nat × Nat) := do
  let p ← presale? w
  let e ← escrow? w user 0
  return (e.totalDeposit, p.totalDeposit)

/-- `test_withdraw_fixed_price_with_suggested_amount` -/
def suggestedWithdraw : Option (Nat × Nat) := do
  let w ← setup
  let w ← after w (deposit w user 0 20)
  let w ← after w [withdraw w user 0 15]
  totals w

/-- `test_deposit_fixed_price_with_suggested_amount` -/
def suggestedDeposit : Option (Nat × Nat) := do
  let w ← setup
  let w ← after w (deposit w user 0 15)
  totals w

/-- `test_deposit_fixed_price_with_stuck_surplus`, `test_withdraw_fixed_price_with_stuck_surplus` -/
def stuck : Option Bool := do
  let w ← setup
  let w1 ← after w (deposit w user 0 10)
  let w2 ← after w1 [withdraw w1 user 0 10]
  let t ← totals w2
  return refused w (.p .zeroTokenAmount) (deposit w user 0 9) &&
    refused w1 (.p .zeroTokenAmount) [withdraw w1 user 0 1] && decide (t = (0, 0))

example : suggestedWithdraw = some (10, 10) ∧ suggestedDeposit = some (10, 10) ∧ stuck = some true := by
  decide +kernel

end Verif.Replay.Audit
