import Verif.Spec
import Mathlib.Algebra.Order.Field.Rat
import Mathlib.Data.Rat.Cast.Order
/-!
# Exact amounts

The shares of a sale as rational numbers, without any rounding.
-/

namespace Verif.Spec

/-- Fraction of the vested tokens released at time `t`: nothing before `start`, everything after
`start + duration`, linear in between. -/
def dripFraction (start duration t : Nat) : ℚ :=
  if t < start then 0
  else if duration = 0 then 1
  else (min (t - start) duration : Nat) / (duration : ℚ)

/-- Fraction of all sold tokens released at time `t`: the immediate part from `imm` on, and the released
fraction of the rest. -/
def releasedFraction (bps imm start duration t : Nat) : ℚ :=
  (if imm ≤ t then (bps : ℚ) / 10000 else 0) + (1 - (bps : ℚ) / 10000) * dripFraction start duration t

/-- Exact entitlement of escrow `e` at time `t`: its part of the deposits of its registry, times the tokens
the registry sold, times the released fraction. -/
def exactClaim (p : Presale) (r : Registry) (e : Escrow) (t : Nat) : ℚ :=
  (sold p r : ℚ) * releasedFraction p.immediateReleaseBps p.immediateReleaseTimestamp p.vestingStartTime
    p.vestDuration t * ((e.totalDeposit : ℚ) / r.totalDeposit)

/-- Exact part of the surplus of a sale that belongs to escrow `e`. -/
def exactRefund (p : Presale) (e : Escrow) : ℚ :=
  (surplus p : ℚ) * ((e.totalDeposit : ℚ) / p.totalDeposit)

end Verif.Spec
