import Verif.Spec
/-!
# Two sales that end with the same books

What a sale comes to is compared between two histories: the agreed numbers are the same, and in every registry the same
deposits stand when it ends, whoever made them, in whatever order and number of steps.
-/

namespace Verif.Spec

/-- Deposit and fee of every escrow in a registry, in any order. -/
def entries (es : AMap Addr Escrow) (a : Addr) (i : Nat) : List (Nat × Nat) :=
  (es.filter fun x => decide (x.2.presale = a ∧ x.2.registryIndex = i)).map
    fun x => (x.2.totalDeposit, x.2.totalDepositFee)

/-- The same numbers were agreed: mode, price, caps, the part released at once, and the supply of each registry. -/
structure SameDeal (p q : Presale) : Prop where
  mode : q.presaleMode = p.presaleMode
  price : q.raw0 = p.raw0
  minimum : q.presaleMinimumCap = p.presaleMinimumCap
  maximum : q.presaleMaximumCap = p.presaleMaximumCap
  release : q.immediateReleaseBps = p.immediateReleaseBps
  supplies : q.registries.map Registry.presaleSupply = p.registries.map Registry.presaleSupply

/-- In each registry the same deposits and fees are entered. -/
def SameEntries (w : World) (a : Addr) (v : World) (b : Addr) : Prop :=
  ∀ i, (entries v.escrows b i).Perm (entries w.escrows a i)

end Verif.Spec
