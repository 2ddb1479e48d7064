import Verif.Model.Math
/-!
# The project's own property tests

`presale_mode_handler/fixed_price_presale.rs` and `math/fee_math.rs` end with tests which draw their inputs at random
or use one sample. Here are their bodies, transcribed. A result `none` is a panic of an `unwrap`, `some false` a failed
assertion, `some true` a test which passes. Left out: `println!` and the 256-bit integers (`U256`), which are exact.
-/

namespace Verif.Proptests

/-- `.unwrap()` -/
def unwrap {α : Type} : Except Err α → Option α
  | .ok a => some a
  | .error _ => none

/-- `assert!` -/
def assert (p : Prop) [Decidable p] (rest : Option Bool) : Option Bool := if p then rest else some false

/-- `test_calculate_quote_token_without_surplus_prop` (`fixed_price_presale.rs:428-433`). -/
def withoutSurplus (lamportPerPrice maxDepositAmount : Nat) : Option Bool := do
  let qPrice := lamportPerPrice * SCALE_MULTIPLIER
  let suggested ← unwrap (calculateQuoteTokenWithoutSurplus qPrice maxDepositAmount)
  assert (suggested ≤ maxDepositAmount) (some true)

/-- The first lines of the two tests below: the cap which pays for the supply, rounded up, before and after
`try_into().unwrap_or(u64::MAX)`. -/
def wideCap (qPrice supply : Nat) : Nat := divCeil (supply * qPrice) SCALE_MULTIPLIER
def cap (qPrice supply : Nat) : Nat :=
  if wideCap qPrice supply < u64Bound then wideCap qPrice supply else u64Bound - 1

/-- `test_suggest_deposit_amount_on_presale_maximum_cap_prop` (`fixed_price_presale.rs:436-486`). -/
def lastDeposit (qPrice supply : Nat) : Option Bool := do
  let shifted ← unwrap (shl128 (cap qPrice supply) SCALE_OFFSET)
  let bought ← unwrap (div shifted qPrice)
  let cost ← unwrap (mul128 bought qPrice)
  let adjusted ← unwrap (cast64 (divCeil cost SCALE_MULTIPLIER))
  let allButOne ← unwrap (sub adjusted 1)
  let first ← unwrap (calculateQuoteTokenWithoutSurplus qPrice allButOne)
  let quota ← unwrap (sub adjusted first)
  let second ← unwrap (calculateQuoteTokenWithoutSurplus qPrice quota)
  let last := assert (qPrice < SCALE_MULTIPLIER → 0 < second) (some true)
  if second = 0 then
    assert (SCALE_MULTIPLIER < qPrice) last
  else do
    let total ← unwrap (add64 first second)
    assert (total = adjusted) do
      let tokens ← unwrap (calculateTokenBought qPrice total)
      let tokens ← unwrap (cast64 tokens)
      if wideCap qPrice supply < u64Bound - 1 then
        assert (tokens = supply) (assert (cap qPrice supply = adjusted) last)
      else last

/-- `test_presale_min_max_gap_completion_prop` (`fixed_price_presale.rs:489-513`). -/
def gap (qPrice supply : Nat) : Option Bool := do
  let shifted ← unwrap (shl128 (cap qPrice supply) SCALE_OFFSET)
  let bought ← unwrap (div shifted qPrice)
  let less ← unwrap (sub bought 1)
  let cost ← unwrap (mul128 less qPrice)
  let minimum ← unwrap (cast64 (divCeil cost SCALE_MULTIPLIER))
  let first ← unwrap (calculateQuoteTokenWithoutSurplus qPrice minimum)
  let quota ← unwrap (sub (cap qPrice supply) first)
  let second ← unwrap (calculateQuoteTokenWithoutSurplus qPrice quota)
  let total ← unwrap (add64 first second)
  assert (minimum ≤ total ∧ total ≤ cap qPrice supply) (some true)

/-- `test_calculate_deposit_fee_included_amount_round_up` (`fee_math.rs:42-56`) and `_round_down` (`:58-72`), for any
amount and rate. -/
def feeIncluded (depositAmount feeBps : Nat) (r : Rounding) : Option Bool := do
  let c ← unwrap (calculateDepositFeeIncludedAmount depositAmount feeBps r)
  assert (c.fee = match r with
    | .up => divCeil (c.amountIncludedFee * feeBps) MAX_FEE_BASIS_POINTS
    | .down => c.amountIncludedFee * feeBps / MAX_FEE_BASIS_POINTS) (some true)

/-- `test_calculate_quote_token_for_base_lamport` (`fixed_price_presale.rs:365-386`): the tokens bought with the least
amount of quote tokens. -/
def baseLamport (qPrice : Nat) : Option Nat := do
  let least ← unwrap (calculateMinQuoteAmountForBaseLamport qPrice)
  unwrap (calculateTokenBought qPrice least)

end Verif.Proptests
