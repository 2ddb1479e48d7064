import Verif.Replay.Base
/-!
# `tests/test_withdraw.rs`, `tests/test_withdraw_remaining_quote.rs`, `tests/test_refresh_escrow.rs`
-/

namespace Verif.Replay.Withdraw

open Verif.Replay

def w0 : World := start spl native

/-- A default permissionless sale and a deposit. -/
def sold (w : World) (m : Mode) (amount : Nat) : Option World := do
  let w ← after w (create w (args m .permissionless))
  after w (deposit w user 0 amount)

/-- `test_withdraw_when_presale_end`, `test_withdraw_over_escrow_balance`, `test_withdraw_fcfs_presale` -/
def cannot : Option Bool := do
  let w ← sold w0 .fixedPrice 1000000
  let p ← presale? w
  let late := warp w p.presaleEndTime
  let f ← sold w0 .fcfs 1000000
  return refused late (.p .presaleNotOpenForWithdraw) [withdraw late user 0 1000000] &&
    refused w (.p .insufficientEscrowBalance) [withdraw w user 0 1000001] &&
    refused f (.p .presaleNotOpenForWithdraw) [withdraw f user 0 500000]

example : cannot = some true := by decide +kernel

/-- `test_withdraw_fixed_price_presale`, `test_withdraw_prorata_presale` and
`test_withdraw_fixed_price_presale_token2022` (`fee`: the recipient gets less than was withdrawn) -/
def half (w : World) (m : Mode) (fee : Bool) : Option Bool := do
  let w ← sold w m 1000000
  let p ← presale? w
  let r ← p.registries[0]?
  let e ← escrow? w user 0
  let amount := e.totalDeposit / 2
  let w' ← after w [withdraw w user 0 amount]
  let p' ← presale? w'
  let r' ← p'.registries[0]?
  let e' ← escrow? w' user 0
  let got := bal w' (quoteOf w user) - bal w (quoteOf w user)
  return decide (e.totalDeposit - e'.totalDeposit = amount ∧ p'.totalDeposit = p.totalDeposit - amount ∧
    r'.totalDeposit = r.totalDeposit - amount) && (if fee then decide (got < amount) else decide (got = amount))

example : half w0 .fixedPrice false = some true ∧ half w0 .prorata false = some true ∧
    half (start t22HookFee t22HookFee) .fixedPrice true = some true := by decide +kernel

/-- `test_withdraw_fixed_price_presale_violate_buyer_cap` -/
def buyerCap : Option Bool := do
  let w ← after w0 (create w0
    { args .fixedPrice .permissionless with
      presaleRegistries :=
        [{ buyerMinimumDepositCap := 1000, buyerMaximumDepositCap := 10000000, presaleSupply := 10 ^ 12,
           depositFeeBps := 0 }] })
  let w ← after w (deposit w user 0 1000)
  let _ ← after w [withdraw w user 0 1000]
  return refused w (.p .depositAmountOutOfCap) [withdraw w user 0 500]

/-- `test_withdraw_fixed_price_presale_with_withdraw_disabled` -/
def disabled : Option Bool := do
  let w ← after w0 [fixedArgs price 1, createWith w0 [.fixedPriceArgs sale] (args .fixedPrice .permissionless)]
  let w ← after w (deposit w user 0 1000)
  return refused w (.p .presaleNotOpenForWithdraw) [withdraw w user 0 1000]

example : buyerCap = some true ∧ disabled = some true := by decide +kernel

/-! ## The rest of the quote tokens -/

/-- `test_withdraw_remaining_quote_failed_{fixed_price,fcfs,prorata}_presale` and the Token-2022 case -/
def failedRefund (w : World) (m : Mode) (fee : Bool) : Option Bool := do
  let w ← sold w m 999999
  let p ← presale? w
  let w := warp w p.presaleEndTime
  let w' ← after w [refund w user 0]
  let e ← escrow? w' user 0
  let got := bal w' (quoteOf w user) - bal w (quoteOf w user)
  return decide (e.isRemainingQuoteWithdrawn = 1) &&
    (if fee then decide (got < e.totalDeposit) else decide (got = e.totalDeposit))

example : failedRefund w0 .fixedPrice false = some true ∧ failedRefund w0 .fcfs false = some true ∧
    failedRefund w0 .prorata false = some true ∧
    failedRefund (start t22HookFee t22HookFee) .prorata true = some true := by decide +kernel

/-- `test_withdraw_remaining_quote_success_prorata_presale` -/
def prorataRefund : Option Bool := do
  let w ← sold w0 .prorata SOL
  let w ← after w (deposit w user1 0 SOL)
  let p ← presale? w
  let w := warp w p.presaleEndTime
  let w' ← after w [refund w user 0]
  let e ← escrow? w' user 0
  let got := bal w' (quoteOf w user) - bal w (quoteOf w user)
  return decide (e.isRemainingQuoteWithdrawn = 1 ∧
    got = (p.totalDeposit - p.presaleMaximumCap) * e.totalDeposit / p.totalDeposit)

/-- `test_withdraw_remaining_quote_success_{fixed_price,fcfs}_presale` and
`test_withdraw_remaining_quote_when_presale_ongoing` -/
def noRefund : Option Bool := do
  let a ← sold w0 .fixedPrice 1000010
  let b ← sold w0 .fcfs 1000010
  let c ← sold w0 .prorata 999999
  let p ← presale? a
  let a := warp a p.presaleEndTime
  let b := warp b p.presaleEndTime
  return refused a (.p .presaleNotOpenForWithdrawRemainingQuote) [refund a user 0] &&
    refused b (.p .presaleNotOpenForWithdrawRemainingQuote) [refund b user 0] &&
    refused c (.p .presaleNotOpenForWithdrawRemainingQuote) [refund c user 0]

example : prorataRefund = some true ∧ noRefund = some true := by decide +kernel

/-! ## Refreshing -/

/-- `test_escrow_refresh_with_immediate_release` -/
def refreshImmediate : Option Bool := do
  let x := args .fixedPrice .permissionless
  let w ← after w0 (create w0 { x with
    lockedVestingParams :=
      { x.lockedVestingParams with
        immediatelyReleaseBps := 5000, immediateReleaseTimestamp := x.presaleParams.presaleEndTime } })
  let p ← presale? w
  let w ← after w (deposit w user 0 p.presaleMinimumCap)
  let w ← after (warp w p.presaleEndTime) [refresh user 0]
  let p ← presale? w
  let r ← p.registries[0]?
  let e ← escrow? w user 0
  let bought := r.totalDeposit * 2 ^ 64 / p.raw0
  let w ← after (warp w p.vestingStartTime) [refresh user 0]
  let e' ← escrow? w user 0
  let w ← after (warp w (p.vestingStartTime + p.vestDuration / 2)) [refresh user 0]
  let e'' ← escrow? w user 0
  return decide (e.pendingClaimToken = bought * 5000 / 10000 ∧ e.lastRefreshedAt = p.presaleEndTime ∧
    e'.pendingClaimToken = e.pendingClaimToken ∧ e.pendingClaimToken < e''.pendingClaimToken)

/-- `test_escrow_refresh` -/
def refreshVested : Option Bool := do
  let w ← sold w0 .fixedPrice 1000000
  let p ← presale? w
  let w ← after (warp w (p.vestingStartTime + 1)) [refresh user 0]
  let e ← escrow? w user 0
  return decide (0 < e.pendingClaimToken ∧ e.lastRefreshedAt = p.vestingStartTime + 1)

example : refreshImmediate = some true ∧ refreshVested = some true := by decide +kernel

end Verif.Replay.Withdraw
