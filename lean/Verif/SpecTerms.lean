import Verif.SpecBooks
/-!
# Better terms

Two agreements are compared. `q` offers no less than `p` if it asks no higher price and has no smaller supply in any
registry; it pays no later if nothing of its schedule comes later; it has a wider cap if it takes in at least as much.
-/

namespace Verif.Spec

/-- `q` sells on terms at least as good as those of `p`, in the same mode. -/
structure NoDearer (p q : Presale) : Prop where
  mode : q.presaleMode = p.presaleMode
  price : p.presaleMode ≠ 1 → p.presaleMode ≠ 2 → q.raw0 ≤ p.raw0
  supplies : ∀ (i : Nat) (r s : Registry), p.registries[i]? = some r → q.registries[i]? = some s →
    r.presaleSupply ≤ s.presaleSupply

/-- The schedule of `q` is nowhere behind that of `p`. -/
structure NoLater (p q : Presale) : Prop where
  immediate : q.immediateReleaseTimestamp ≤ p.immediateReleaseTimestamp
  start : q.vestingStartTime ≤ p.vestingStartTime
  duration : q.vestDuration ≤ p.vestDuration

/-- `q` may take in at least as much as `p`, in the same mode and with the same minimum. -/
structure WiderCap (p q : Presale) : Prop where
  mode : q.presaleMode = p.presaleMode
  minimum : q.presaleMinimumCap = p.presaleMinimumCap
  maximum : p.presaleMaximumCap ≤ q.presaleMaximumCap

/-- The same numbers were agreed, except perhaps how the price is formed. -/
structure SameFrame (p q : Presale) : Prop where
  minimum : q.presaleMinimumCap = p.presaleMinimumCap
  maximum : q.presaleMaximumCap = p.presaleMaximumCap
  release : q.immediateReleaseBps = p.immediateReleaseBps
  supplies : q.registries.map Registry.presaleSupply = p.registries.map Registry.presaleSupply

/-- The whole supply of a registry goes to whoever deposited, at the price that results. -/
def WholeSupply (p : Presale) : Prop := p.presaleMode = 1 ∨ p.presaleMode = 2

end Verif.Spec
