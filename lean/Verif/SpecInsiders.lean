import Verif.SpecTally
/-!
# Insiders

The creator of a sale may hold escrows in it like anybody else, in their own name or through others. What such a group
pays in and takes out is read off the token-program calls of a history.
-/

namespace Verif.Spec
open Verif

/-- What a token call takes out of account `v`. -/
def outOf (v : Addr) : Cpi → Nat
  | .transfer _ src _ _ amount _ => if src = v then amount else 0
  | .burn _ src amount => if src = v then amount else 0

/-- Quote tokens that a step of the creator took out of the vault of sale `a`. -/
def takenBy (a : Addr) (s : StepRec) : Nat :=
  match s.op with
  | .ix _ (.creatorWithdraw x) => if x.presale = a then (s.receipt.cpis.map (outOf (.quoteVault a))).sum else 0
  | .ix _ (.collectFee x) => if x.presale = a then (s.receipt.cpis.map (outOf (.quoteVault a))).sum else 0
  | _ => 0

/-- All the creator of sale `a` took out of its quote vault over a history: raise and fees. -/
def proceeds (a : Addr) (l : List StepRec) : Nat := (l.map (takenBy a)).sum

/-- The escrows in sale `a` of the people selected by `who`. -/
def circle (a : Addr) (who : Addr → Bool) : Addr → Addr → Bool
  | _, .escrow b o _ => decide (b = a) && who o
  | _, _ => false

/-- Quote tokens those people paid into the sale. -/
def paidBy (a : Addr) (who : Addr → Bool) (l : List StepRec) : Nat := total .deposit (circle a who) l

/-- Quote tokens they got back, during and after the sale. -/
def backTo (a : Addr) (who : Addr → Bool) (l : List StepRec) : Nat :=
  total .withdraw (circle a who) l + total .refund (circle a who) l

/-- Base tokens they received. -/
def tokensTo (a : Addr) (who : Addr → Bool) (l : List StepRec) : Nat := total .claim (circle a who) l

/-- Everybody else. -/
def others (who : Addr → Bool) : Addr → Bool := fun o => !who o

end Verif.Spec
