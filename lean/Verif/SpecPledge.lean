import Verif.Spec
/-!
# Pledges

Some depositors decide to stay in a sale. A pledge is a list of escrow addresses with the amounts that are to stay.
-/

namespace Verif.Spec
open Verif

/-- The addresses are distinct and name escrows of sale `a` that hold at least the amounts pledged. -/
structure Pledged (w : World) (a : Addr) (l : List (Addr × Nat)) : Prop where
  distinct : (l.map Prod.fst).Nodup
  held : ∀ x ∈ l, ∃ e, w.escrows.get? x.1 = some e ∧ e.presale = a ∧ x.2 ≤ e.totalDeposit

/-- Nobody withdraws from the escrows of the pledge. -/
def Kept (l : List (Addr × Nat)) (ops : List Op) : Prop :=
  ∀ tx x, Op.ix tx (.withdraw x) ∈ ops → x.escrow ∉ l.map Prod.fst

/-- The amount pledged. -/
def pledge (l : List (Addr × Nat)) : Nat := (l.map Prod.snd).sum

/-- The owner of escrow `e` of sale `a` takes everything out by `x`, and nothing outside the program stands in the way. -/
structure Leaving (w : World) (a : Addr) (p : Presale) (tx : Tx) (x : WithdrawAcc) (e : Escrow) : Prop where
  here : x.presale = a
  escrow : w.escrows.get? x.escrow = some e
  belongs : e.presale = x.presale
  owner : x.owner = e.owner
  signed : tx.signed e.owner = true
  positive : 0 < e.totalDeposit
  all : x.maxAmount = e.totalDeposit
  vault : x.quoteTokenVault = p.quoteTokenVault
  mint : x.quoteMint = p.quoteMint
  payable : Payable w.tk tx .transferHookQuote p.quoteMint p.quoteTokenVault x.ownerQuoteToken x.tokenProgram
    x.remaining x.slices e.totalDeposit

/-- `x` empties an escrow of sale `a`. -/
def Leaves (w : World) (a : Addr) (p : Presale) (tx : Tx) (x : WithdrawAcc) : Prop := ∃ e, Leaving w a p tx x e

/-- The withdrawal as an operation. -/
def leaving (z : Tx × WithdrawAcc) : Op := .ix z.1 (.withdraw z.2)

/-- What a group holds between them. -/
def stake (w : World) (zs : List (Tx × WithdrawAcc)) : Nat :=
  (zs.map fun z => match w.escrows.get? z.2.escrow with
    | some e => e.totalDeposit
    | none => 0).sum

end Verif.Spec
