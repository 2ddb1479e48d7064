import Verif.SpecMachine
/-!
# Several lists for one sale
-/

namespace Verif.Spec

/-- Somebody's row: with proof `proof` the root kept at `config` lets `owner` into registry `i` of sale `a` with
cap `cap`. -/
structure Listed (w : World) (a config owner : Addr) (proof : List Bytes) (i cap : Nat) : Prop where
  root : ∃ c, w.merkleRoots config = some c ∧ c.presale = a ∧
    climb w.env.hash proof (w.env.hash (0 :: w.env.hash (entryString (w.env.keyBytes owner) i cap))) = c.root
  fits : proof.length < 2 ^ 32 ∧ ∀ x ∈ proof, x.length = 32
  allowed : ∃ p r, w.presales a = some p ∧ p.whitelistMode = 1 ∧ i < p.totalPresaleRegistryCount ∧
    p.registries[i]? = some r ∧ CapAllowed r cap

/-- Escrow `e` of sale `p` holds something that cannot be taken out while the sale is open: a deposit without a way
to withdraw it, or a fee, which is never given back before the end. -/
def Pinned (p : Presale) (e : Escrow) : Prop :=
  0 < e.totalDepositFee ∨ (0 < e.totalDeposit ∧ ¬ WithdrawAllowed p)

end Verif.Spec
