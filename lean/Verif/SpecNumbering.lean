import Verif.SpecBooks
import Mathlib.Logic.Equiv.Defs
/-!
# Registries under other numbers

The registries of a sale are numbered. `s` gives each number of one sale the number of its counterpart in another.
-/

namespace Verif.Spec

/-- The same numbers were agreed, the registries being numbered differently. -/
structure SameDealBy (s : Equiv.Perm Nat) (p q : Presale) : Prop where
  mode : q.presaleMode = p.presaleMode
  price : q.raw0 = p.raw0
  minimum : q.presaleMinimumCap = p.presaleMinimumCap
  maximum : q.presaleMaximumCap = p.presaleMaximumCap
  release : q.immediateReleaseBps = p.immediateReleaseBps
  supplies : ∀ i : Nat, q.registries[s i]?.map Registry.presaleSupply = p.registries[i]?.map Registry.presaleSupply

/-- In each registry the same deposits and fees are entered as in its counterpart. -/
def SameEntriesBy (s : Equiv.Perm Nat) (w : World) (a : Addr) (v : World) (b : Addr) : Prop :=
  ∀ i, (entries v.escrows b (s i)).Perm (entries w.escrows a i)

end Verif.Spec
