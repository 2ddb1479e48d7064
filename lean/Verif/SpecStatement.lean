import Verif.Spec
import Verif.SpecTally
import Verif.SpecDonate
/-!
# Bank statements of vaults

Vocabulary of C114. What goes into and out of a token account is read off the calls of the token programs that the
successful steps of a history left in their receipts.
-/

namespace Verif.Spec
open Verif

/-- What the account `v` holds; nothing if there is no such account. -/
def balance (w : World) (v : Addr) : Nat := ((w.tk.toks v).map TokAcct.amount).getD 0

/-- What a call takes out of `v`. -/
def debit (v : Addr) : Cpi → Nat
  | .transfer _ src _ _ n _ => if src = v then n else 0
  | .burn _ src n => if src = v then n else 0

/-- What a call puts into `v`. The transfer fee is kept back, unless an account pays itself. -/
def credit (v : Addr) : Cpi → Nat
  | .transfer _ src dst _ n fee => if dst = v then (if src = v then n else n - fee) else 0
  | .burn _ _ _ => 0

/-- The part of `credit` that the program paid out of a vault, into this vault. -/
def paidBack (v : Addr) : Cpi → Nat
  | .transfer mint src dst authority n fee =>
    if authority = .presaleAuthority then credit v (.transfer mint src dst authority n fee) else 0
  | .burn _ _ _ => 0

/-- Adding up over the calls of all steps. -/
def summed (f : Cpi → Nat) (l : List StepRec) : Nat := (l.map fun s => (s.receipt.cpis.map f).sum).sum

/-- Quote tokens the creator took out of the vault: the raise of a sale that reached its minimum, and the fees. -/
def takenQuote (p : Presale) : Nat :=
  (if p.hasCreatorWithdrawn = 1 ∧ p.presaleMinimumCap ≤ p.totalDeposit then raise p else 0) +
    (if p.depositFeeCollected = 1 then collectableFee p else 0)

/-- Base tokens that left the vault otherwise than by claims: the unsold ones, and all of them after a failed sale. -/
def takenBase (p : Presale) : Nat :=
  (if p.isUnsoldTokenActionPerformed = 1 then p.presaleSupply - totalSold p else 0) +
    (if p.hasCreatorWithdrawn = 1 ∧ p.totalDeposit < p.presaleMinimumCap then p.presaleSupply else 0)

end Verif.Spec
