import Verif.SpecMachine
/-!
# Settling a sale, one instruction after another
-/

namespace Verif.Spec

/-- What an instruction of the settlement takes care of: the claim, the refund, the refresh or the closing of
escrow `k`; the creator's withdrawal, the fee or the unsold supply of sale `a`. -/
inductive Slot
  | claim (k : Addr)
  | refund (k : Addr)
  | refresh (k : Addr)
  | close (k : Addr)
  | raise (a : Addr)
  | fee (a : Addr)
  | unsold (a : Addr)
  deriving DecidableEq, Repr

/-- The escrow concerned. -/
def Slot.key : Slot → Option Addr
  | .claim k => some k
  | .refund k => some k
  | .refresh k => some k
  | .close k => some k
  | _ => none

/-- The slot of an instruction of the settlement. -/
def slot : Ix → Option Slot
  | .claim a => some (.claim a.escrow)
  | .refund a => some (.refund a.escrow)
  | .refresh a => some (.refresh a.escrow)
  | .closeEscrow a => some (.close a.escrow)
  | .creatorWithdraw a => some (.raise a.presale)
  | .collectFee a => some (.fee a.presale)
  | .unsold a => some (.unsold a.presale)
  | _ => none

/-- Two different tasks, and neither closes the escrow that the other is about. -/
def Slot.Separate (s t : Slot) : Prop :=
  s ≠ t ∧ (∀ k, s = .close k → t.key ≠ some k) ∧ (∀ k, t = .close k → s.key ≠ some k)

/-- Both instructions belong to the settlement, with separate tasks. -/
def Independent (i j : Ix) : Prop := ∃ s t, slot i = some s ∧ slot j = some t ∧ s.Separate t

/-- Where an instruction of the settlement pays to, if whoever sends it may choose. -/
def payee : Ix → Option Addr
  | .claim a => some a.ownerBaseToken
  | .refund a => some a.ownerQuoteToken
  | .creatorWithdraw a => some a.ownerToken
  | .collectFee a => some a.feeReceivingAccount
  | _ => none

/-- The instructions `l`, in this order, all succeed and lead from `w` to `w'`. -/
inductive Done : World → List (Tx × Ix) → World → Prop where
  | nil (w : World) : Done w [] w
  | cons {w w1 w' : World} {tx : Tx} {i : Ix} {rc : Receipt} {l : List (Tx × Ix)}
      (succeeds : step w (.ix tx i) = .ok (w1, rc)) (rest : Done w1 l w') : Done w ((tx, i) :: l) w'

end Verif.Spec
