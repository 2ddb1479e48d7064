import Verif.Spec
/-!
# Who can lose to rounding
-/

namespace Verif.Spec

/-- 1 for an escrow that holds a deposit or a fee. -/
def payer (e : Escrow) : Nat := if e.totalDeposit = 0 ∧ e.totalDepositFee = 0 then 0 else 1

/-- 1 for an escrow that holds a deposit. -/
def buyer (e : Escrow) : Nat := if e.totalDeposit = 0 then 0 else 1

/-- Registries with deposits. -/
def usedRegistries (p : Presale) : Nat := (p.registries.map fun r => if r.totalDeposit = 0 then 0 else 1).sum

end Verif.Spec
