import Verif.Spec
/-!
# Winding up a sale: specification

What the participants of a sale need from outside the program, and what the two vaults still owe.
-/

namespace Verif.Spec

/-- Balance of a token account, zero if there is none. -/
def amountOf (k : Tokens) (x : Addr) : Nat :=
  match k.toks x with
  | some t => t.amount
  | none => 0

/-- `o` has an associated token account for `mint` that is not frozen and has room for whatever the two vaults
of presale `a` hold. -/
def HasAccount (k : Tokens) (a mint o : Addr) : Prop :=
  ∃ m d, k.mints mint = some m ∧ k.toks (.ata o mint m.program) = some d ∧ d.owner = o ∧ d.mint = mint ∧
    d.frozen = false ∧ d.amount + amountOf k (.baseVault a) + amountOf k (.quoteVault a) < 2 ^ 64

/-- The token accounts stand ready: the vaults are not frozen, the supply of the base mint is not below the
balance of the base vault, and everybody in `who` can sign and has an account for either mint. -/
structure Ready (k : Tokens) (a : Addr) (p : Presale) (who : Addr → Prop) : Prop where
  base : ∀ v, k.toks (.baseVault a) = some v → v.frozen = false
  quote : ∀ v, k.toks (.quoteVault a) = some v → v.frozen = false
  supply : ∀ m, k.mints p.baseMint = some m → amountOf k (.baseVault a) ≤ m.supply
  signs : ∀ o, who o → o.isKey = true
  toBase : ∀ o, who o → HasAccount k a p.baseMint o
  toQuote : ∀ o, who o → HasAccount k a p.quoteMint o

/-- Those who have a claim on the vaults of presale `a`: its creator and the owners of its escrows. -/
def Participant (w : World) (a : Addr) (p : Presale) (o : Addr) : Prop :=
  o = p.owner ∨ ∃ k e, w.escrows.get? k = some e ∧ e.presale = a ∧ e.owner = o

/-- Quote tokens the quote vault of an ended sale still owes: refunds to buyers and, if the sale was completed,
raise and fees to the creator. -/
def quoteOwed (w : World) (a : Addr) (p : Presale) : Nat :=
  saleSum w.escrows a (refundDue p) +
  if p.presaleMinimumCap ≤ p.totalDeposit then
    (if p.hasCreatorWithdrawn = 1 then 0 else raise p) + (if p.depositFeeCollected = 1 then 0 else collectableFee p)
  else 0

/-- Base tokens the base vault of an ended sale still owes: if the sale was completed, what buyers have still to
claim and what was not sold, otherwise the whole supply to the creator. -/
def baseOwed (w : World) (a : Addr) (p : Presale) : Nat :=
  if p.presaleMinimumCap ≤ p.totalDeposit then
    saleSum w.escrows a (claimDue p) +
      (if p.isUnsoldTokenActionPerformed = 1 then 0 else p.presaleSupply - totalSold p)
  else if p.hasCreatorWithdrawn = 1 then 0 else p.presaleSupply

/-- The sale is over and, if it was completed, everything has vested. -/
def Vested (p : Presale) (now : Int) : Prop :=
  Failed p now ∨ Completed p now ∧ ((p.vestingStartTime + p.vestDuration : Nat) : Int) ≤ now

/-- Instructions executed one after the other, all of them successfully, each signed by people in `who` only. -/
inductive Performed (who : Addr → Prop) : World → List (Tx × Ix) → World → Prop
  | nil (w : World) : Performed who w [] w
  | cons {w w1 w2 : World} {tx : Tx} {i : Ix} {rc : Receipt} {l : List (Tx × Ix)}
      (step : step w (.ix tx i) = .ok (w1, rc)) (signers : ∀ s ∈ tx.signers, who s)
      (rest : Performed who w1 l w2) : Performed who w ((tx, i) :: l) w2

/-- The sale `a` found in `w` as `p` is settled in `w'`, where it reads `p'`: no escrow is left, the creator has taken
raise or supply, fees and unsold tokens, and the vaults have lost what they owed, not more and not less. -/
structure WoundUp (w w' : World) (a : Addr) (p p' : Presale) : Prop where
  escrows : ∀ k e, w'.escrows.get? k = some e → e.presale ≠ a
  withdrawn : p'.hasCreatorWithdrawn = 1
  fees : p.presaleMinimumCap ≤ p.totalDeposit → p'.depositFeeCollected = 1
  unsold : p.presaleMinimumCap ≤ p.totalDeposit → totalSold p < p.presaleSupply → p'.isUnsoldTokenActionPerformed = 1
  quote : amountOf w'.tk (.quoteVault a) + quoteOwed w a p = amountOf w.tk (.quoteVault a)
  base : amountOf w'.tk (.baseVault a) + baseOwed w a p = amountOf w.tk (.baseVault a)

end Verif.Spec
