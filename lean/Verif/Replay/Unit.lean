import Verif.Replay.Base
import Verif.Model.Data
/-!
# The unit tests in `src/`

`instructions/initialize_presale/params.rs:292-336`, `instructions/process_initialize_extra_presale_params.rs` (last
test) and `presale_mode_handler/fixed_price_presale.rs:356-363,389-424`. The rest are in `Props/Proptests.lean` (C82).
-/

namespace Verif.Replay.Unit

open Verif.Replay

/-- `test_optional_non_zero_locked_vesting_args_conversion` -/
example : noVesting.option = none ∧
    ({ noVesting with immediatelyReleaseBps := 1000 } : LockedVestingArgs).option.isSome = true := by decide +kernel

/-- `test_ensure_locked_vesting_args_size`, `test_ensure_initialize_presale_args_size`,
`test_ensure_presale_args_size`, `test_ensure_presale_registry_args_size` -/
example : (vestingArgsCodec.enc noVesting).length = 50 ∧
    (initArgsCodec.enc { args .fixedPrice .permissionless with presaleRegistries := [] }).length = 152 ∧
    (presaleArgsCodec.enc (presaleArgs .fixedPrice .permissionless)).length = 66 ∧
    (registryArgsCodec.enc (registry .fixedPrice .permissionless 10000)).length = 58 := by decide +kernel

/-- `test_ensure_initialize_fixed_price_presale_extra_args_size` -/
example (K : Keys) (a : Addr) (h : (K.enc a).length = 32) :
    ((IxName.codec K .initFixedArgs).enc (a, 0, 0, ())).length = 113 := by
  have : ((IxName.codec K .initFixedArgs).enc (a, 0, 0, ())).length = (K.enc a).length + 81 := by
    change (K.enc a ++ _).length = _
    rw [List.length_append]
    congr 1
  omega

/-- `test_calculate_quote_token_without_surplus` -/
example : (calculateQuoteTokenWithoutSurplus (5 * SCALE_MULTIPLIER) 7).toOption = some 5 := by decide +kernel

/-- The loop of `test_total_token_bought_over_presale_supply_due_to_accumulated_precision_loss`: tokens for two units
at a time until the supply is bought. `(0.33 * 2^64) as u128` and `(1.33 * 2^64) as u128`. -/
def buyOut (q : Nat) : Nat → Nat → Nat
  | 0, spent => spent
  | fuel + 1, spent =>
    if 100 ≤ spent * 2 ^ 64 / q then spent else buyOut q fuel (spent + divCeil (2 * 2 ^ 64 / q * q) (2 ^ 64))

example : ∀ q ∈ [6087425544324152320, 24534169618033704960],
    100 ≤ buyOut q 100 0 * 2 ^ 64 / q ∧ 100 * q ≤ buyOut q 100 0 * 2 ^ 64 := by decide +kernel

end Verif.Replay.Unit
