import Verif.Spec
/-!
# The same sale with one larger deposit
-/

namespace Verif.Spec

/-- `p2` is the same sale as `p1` with `n` more deposited in registry `i`. -/
structure Topped (p1 p2 : Presale) (i n : Nat) : Prop where
  terms : terms p2 = terms p1
  total : p2.totalDeposit = p1.totalDeposit + n
  registries : ∀ j r1 r2, p1.registries[j]? = some r1 → p2.registries[j]? = some r2 →
    r2.totalDeposit = r1.totalDeposit + if j = i then n else 0

/-- Release dates are the same. -/
def SameRelease (p1 p2 : Presale) : Prop :=
  p2.immediateReleaseTimestamp = p1.immediateReleaseTimestamp ∧ p2.vestingStartTime = p1.vestingStartTime

end Verif.Spec
