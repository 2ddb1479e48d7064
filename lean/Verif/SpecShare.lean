import Verif.Spec
/-!
# What a fixed-price buyer may count on
-/

namespace Verif.Spec

/-- What one token costs. -/
def unitCost (q : Nat) : Nat := costOf q 1

/-- The sale does not let buyers undo the rounding of their purchases: withdrawals are off, or the price is at most one
quote unit, or a whole number of them. -/
def Steady (p : Presale) : Prop := p.raw1 % 256 ≠ 0 ∨ p.raw0 ≤ 2 ^ 64 ∨ 2 ^ 64 ∣ p.raw0

/-- Everything is released at once, or nothing before vesting. -/
def Undivided (p : Presale) : Prop := p.immediateReleaseBps = 0 ∨ p.immediateReleaseBps = 10000

end Verif.Spec
