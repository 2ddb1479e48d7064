import Verif.Model.Instructions
/-!
# Adding up what happened

Amounts are read off the token-program calls recorded in the receipts of the successful steps of a
history, not off the counters of the program.
-/

namespace Verif.Spec
open Verif

/-- The four instructions that move a buyer's tokens. -/
inductive Kind where
  | deposit | withdraw | claim | refund
  deriving DecidableEq, Repr

/-- The kind of an operation, with the presale and the escrow it names. -/
def about : Op → Option (Kind × Addr × Addr)
  | .ix _ (.deposit x) => some (.deposit, x.presale, x.escrow)
  | .ix _ (.withdraw x) => some (.withdraw, x.presale, x.escrow)
  | .ix _ (.claim x) => some (.claim, x.presale, x.escrow)
  | .ix _ (.refund x) => some (.refund, x.presale, x.escrow)
  | _ => none

/-- What the source of a token call was debited. -/
def debitedBy : Cpi → Nat
  | .transfer _ _ _ _ amount _ => amount
  | .burn _ _ amount => amount

/-- What the destination of a token call was credited. -/
def creditedBy : Cpi → Nat
  | .transfer _ _ _ _ amount fee => amount - fee
  | .burn _ _ _ => 0

/-- What a step moved as seen from the vault: credited to it by a deposit, debited from it otherwise. -/
def volume (K : Kind) (s : StepRec) : Nat :=
  match K with
  | .deposit => (s.receipt.cpis.map creditedBy).sum
  | _ => (s.receipt.cpis.map debitedBy).sum

/-- Contribution of a step to the total of kind `K` over the presales and escrows selected by `sel`. -/
def part (K : Kind) (sel : Addr → Addr → Bool) (s : StepRec) : Nat :=
  match about s.op with
  | some (K', a, k) => if K' = K ∧ sel a k = true then volume K s else 0
  | none => 0

/-- Total of kind `K` over the successful steps of a history. -/
def total (K : Kind) (sel : Addr → Addr → Bool) (l : List StepRec) : Nat := (l.map (part K sel)).sum

/-- All escrows of presale `a`. -/
def ofSale (a : Addr) : Addr → Addr → Bool := fun b _ => decide (b = a)

/-- The escrow at address `k`. -/
def ofEscrow (k : Addr) : Addr → Addr → Bool := fun _ l => decide (l = k)

/-- The escrows of registry `i` of presale `a`. -/
def ofRegistry (a : Addr) (i : Nat) : Addr → Addr → Bool
  | b, .escrow _ _ j => decide (b = a ∧ j = i)
  | _, _ => false

end Verif.Spec
