import Verif.Replay.Base
/-!
# `tests/test_close_escrow.rs`, `tests/test_creator_collect_fee.rs`, `tests/test_creator_withdraw.rs`
-/

namespace Verif.Replay.Creator

open Verif.Replay

def w0 : World := start spl native

/-- A default permissionless sale, with the deposit fee of the tests if `fee`. -/
def saleOf (w : World) (m : Mode) (fee : Bool) : Option World :=
  let x := args m .permissionless
  after w (create w { x with
    presaleRegistries := if fee then withFee x.presaleRegistries else x.presaleRegistries })

/-! ## Closing escrows -/

/-- `test_close_escrow_with_deposit` and `test_close_escrow_with_unclaimed_token` -/
def notEmpty : Option Bool := do
  let w ← saleOf w0 .fixedPrice false
  let p ← presale? w
  let w ← after w (deposit w user 0 p.presaleMaximumCap)
  return refused w (.p .escrowNotEmpty) [closeEscrow user 0] &&
    refused (warp w (p.vestingStartTime + p.vestDuration / 2)) (.p .escrowNotEmpty) [closeEscrow user 0]

/-- `test_close_escrow_presale_ongoing` -/
def closeOngoing : Option Bool := do
  let w ← saleOf w0 .fixedPrice false
  let p ← presale? w
  let a0 := p.presaleMaximumCap / 2
  let w ← after w (deposit w user 0 a0)
  let w ← after w (deposit w user1 0 (p.presaleMaximumCap - a0 - 1))
  let e0 ← escrow? w user 0
  let e1 ← escrow? w user1 0
  let w ← after w [withdraw w user 0 e0.totalDeposit, withdraw w user1 0 e1.totalDeposit, closeEscrow user 0,
    closeEscrow user1 0]
  let p ← presale? w
  return decide (p.totalEscrow = 0)

/-- `test_close_escrow_presale_completed` -/
def closeCompleted : Option Bool := do
  let w ← saleOf w0 .fixedPrice false
  let p ← presale? w
  let a0 := p.presaleMaximumCap / 2
  let w ← after w (deposit w user 0 a0)
  let w ← after w (deposit w user1 0 (p.presaleMaximumCap - a0))
  let p ← presale? w
  let w := warp w (p.vestingEndTime + 1)
  let w ← after w [refresh user 0, claimOnly w user 0, refresh user1 0, claimOnly w user1 0, closeEscrow user 0,
    closeEscrow user1 0]
  let p ← presale? w
  let r ← p.registries[0]?
  return decide (p.totalEscrow = 0 ∧ r.totalEscrow = 0)

/-- `test_close_escrow_with_potential_refundable_deposit_fee` -/
def refundableFee : Option Bool := do
  let w ← saleOf w0 .prorata true
  let w ← after w (deposit w user 0 SOL)
  let e ← escrow? w user 0
  let w ← after w [withdraw w user 0 e.totalDeposit]
  return refused w (.p .escrowNotEmpty) [closeEscrow user 0]

example : notEmpty = some true ∧ closeOngoing = some true ∧ closeCompleted = some true ∧
    refundableFee = some true := by decide +kernel

/-! ## Fees -/

/-- `test_creator_collect_fee_before_presale_ends` and `test_non_creator_collect_fee` -/
def notYet : Option Bool := do
  let w ← saleOf w0 .prorata true
  let other := match collectFee w with
    | .ix _ (.collectFee a) => .ix (tx [user1]) (.collectFee { a with owner := user1 })
    | o => o
  return refused w (.p .presaleNotOpenForCollectFee) [collectFee w] && refused w (.x .constraint) [other]

/-- `test_collect_fee_when_claimed` -/
def twice : Option Bool := do
  let w ← saleOf w0 .prorata true
  let p ← presale? w
  let w ← after w (deposit w user 0 p.presaleMaximumCap)
  let w := warp w p.presaleEndTime
  let w ← after w [collectFee w]
  let p ← presale? w
  return decide (p.depositFeeCollected = 1) && refused w (.p .presaleNotOpenForCollectFee) [collectFee w]

/-- `test_creator_collect_fee_on_zero_deposit_fee_presale` -/
def zeroFee : Option Bool := do
  let w ← saleOf w0 .prorata false
  let p ← presale? w
  let w ← after w (deposit w user 0 p.presaleMaximumCap)
  let w := warp w p.presaleEndTime
  let w' ← after w [collectFee w]
  let p ← presale? w'
  return decide (bal w (quoteOf w user) = bal w' (quoteOf w user) ∧ p.depositFeeCollected = 1)

/-- Two deposits, the end of the sale, the creator's withdrawal, refunds if `back`, and the fee collected:
what arrived and what was recorded. -/
def collected (w : World) (m : Mode) (a0 a1 : Nat) (back : Bool) : Option (Nat × Nat × Bool) := do
  let w ← saleOf w m true
  let w ← after w (deposit w user 0 a0)
  let w ← after w (deposit w user1 0 a1)
  let p ← presale? w
  let w := warp w p.presaleEndTime
  let w ← after w [creatorWithdraw w true]
  let w ← if back then after w [refund w user 0, refund w user1 0] else some w
  let w' ← after w [collectFee w]
  let p ← presale? w'
  return (bal w' (quoteOf w user) - bal w (quoteOf w user), p.totalDepositFee, decide (p.depositFeeCollected = 1))

/-- `test_creator_collect_fee_prorata_presale`: less than the fees taken, part of them being refunded. -/
def collectProrata : Option Bool := do
  let (got, fee, done) ← collected w0 .prorata SOL SOL true
  return done && decide (0 < got ∧ got < fee)

/-- `test_creator_collect_fee_fixed_price_presale` and `test_creator_collect_fee_fcfs_price_presale`: all of
them. -/
def collectAll (m : Mode) : Option Bool := do
  let (got, fee, done) ← collected w0 m (SOL / 2) (SOL / 2) false
  return done && decide (0 < got ∧ got = fee)

/-- `test_creator_collect_fee_token_2022`: less because of the transfer fee. -/
def collect2022 : Option Bool := do
  let (got, fee, done) ← collected (start t22HookFee t22HookFee) .fcfs (SOL / 2) (SOL / 2) false
  return done && decide (0 < got ∧ got < fee)

example : notYet = some true ∧ twice = some true ∧ zeroFee = some true := by decide +kernel
example : collectProrata = some true ∧ collectAll .fixedPrice = some true ∧ collectAll .fcfs = some true ∧
    collect2022 = some true := by decide +kernel

/-! ## The creator's withdrawal -/

/-- `test_creator_withdraw_presale_success`, `_failed` and their Token-2022 counterparts: with the minimum cap
reached the creator gets quote tokens, otherwise the base tokens. -/
def creatorTakes (w : World) (reached : Bool) : Option Bool := do
  let w ← saleOf w .fixedPrice false
  let p ← presale? w
  let w ← after w (deposit w user 0 (if reached then p.presaleMinimumCap else p.presaleMinimumCap - 1))
  let p ← presale? w
  let w := warp w p.presaleEndTime
  let a := if reached then quoteOf w user else baseOf w user
  let w' ← after w [creatorWithdraw w reached]
  let p ← presale? w'
  return decide (bal w a < bal w' a ∧ p.hasCreatorWithdrawn = 1)

example : creatorTakes w0 true = some true ∧ creatorTakes w0 false = some true ∧
    creatorTakes (start t22HookFee t22HookFee) true = some true ∧
    creatorTakes (start t22HookFee t22HookFee) false = some true := by decide +kernel

/-- `test_creator_withdraw_when_presale_ongoing` -/
def creatorTooEarly : Option Bool := do
  let w ← saleOf w0 .fixedPrice false
  return refused w (.p .presaleNotOpenForWithdraw) [creatorWithdraw w true] &&
    refused w (.p .presaleNotOpenForWithdraw) [creatorWithdraw w false]

example : creatorTooEarly = some true := by decide +kernel

end Verif.Replay.Creator
