import Verif.Spec
/-!
# Searching for a collision
-/

namespace Verif.Spec
open Verif

/-- The first pair of different strings, one from each list, with the same hash. -/
def collisionIn (H : Bytes → Bytes) (xs ys : List Bytes) : Option (Bytes × Bytes) :=
  (xs.flatMap fun x => ys.map fun y => (x, y)).find? fun z => decide (z.1 ≠ z.2 ∧ H z.1 = H z.2)

/-- A row of a list with this owner, registry and cap. -/
def OnList (rows : List TreeNode) (owner : Bytes) (registryIndex depositCap : Nat) : Prop :=
  ∃ n ∈ rows, n.escrowOwner = owner ∧ n.registryIndex = registryIndex ∧ n.depositCap = depositCap

end Verif.Spec
