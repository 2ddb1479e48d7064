import Verif.Model.Transactions
/-!
# The runtime's check of rent at the end of a transaction

After a transaction the runtime looks at every account it could write: an account must not be left with lamports below
the rent-exempt minimum for its size, unless it was so before with the same size and has gained nothing. This is
behaviour of the Solana runtime (`account_rent_state.rs`), not of code in `/repo`. Accounts without lamports do not
exist afterwards.

Simplifications: sizes of accounts of other programs are given with the transaction and stay the same during it; the
transaction fee is not charged (`COp.setLam` before the transaction can do that).
-/

namespace Verif

/-- `RentState` of the runtime. -/
inductive RentState where
  | uninitialized
  | paying (lamports size : Nat)
  | exempt
  deriving DecidableEq, Repr

/-- State of an account with the given lamports and size. -/
def rentState (r : RentEnv) (lamports size : Nat) : RentState :=
  if lamports = 0 then .uninitialized
  else if r.minimum size ≤ lamports then .exempt
  else .paying lamports size

/-- `transition_allowed` of the runtime. -/
def RentState.allows : RentState → RentState → Bool
  | .paying l n, .paying l' n' => decide (n' = n) && decide (l' ≤ l)
  | _, .paying _ _ => false
  | _, _ => true

/-- Addresses derived by this program. -/
def Addr.isOwn : Addr → Bool
  | .key _ => false
  | .ata _ _ _ => false
  | _ => true

/-- Size of the account at an address: `sizes` for those of other programs; a derived address without account is
empty. -/
def dataSize (r : RentEnv) (w : World) (sizes : Addr → Nat) (a : Addr) : Nat :=
  if a.isOwn then (accountSize r w a).getD 0 else sizes a

/-- Accounts whose lamports or size an operation may change. -/
def COp.touched (r : RentEnv) (w : World) : COp → List Addr
  | .setLam a _ => [a]
  | .op (.ix _ i) =>
    (rentPayer i).toList ++ (creations r w i).map Prod.fst ++
      (match closing i with
        | some (a, d) => [a, d]
        | none => [])
  | _ => []

/-- The same for a transaction. -/
def Transaction.touched (r : RentEnv) (w : World) (t : Transaction) : List Addr :=
  t.items.flatMap fun i => ((i.op t.signers).map (COp.touched r w)).getD []

/-- A transaction with the check at its end. -/
def rexec (c : Chain) (t : Transaction) (sizes : Addr → Nat) : Except Err (Chain × List Receipt) := do
  let (c', rcs) ← exec t.signers c t.items
  require ((t.touched c.rent c.w).all (fun a => (rentState c.rent (c.lam a) (dataSize c.rent c.w sizes a)).allows
    (rentState c'.rent (c'.lam a) (dataSize c'.rent c'.w sizes a))) = true) (.x .constraint)
  return (c', rcs)

/-- What happens on the chain. -/
inductive ROp where
  | tick (seconds : Nat)
  | tx (t : Transaction) (sizes : Addr → Nat)

/-- A failed transaction changes nothing. -/
def rapply (c : Chain) : ROp → Chain
  | .tick n => capply c (.op (.tick n))
  | .tx t sizes =>
    match rexec c t sizes with
    | .ok (c', _) => c'
    | .error _ => c

/-- Execute a history. -/
def rrun (c : Chain) : List ROp → Chain
  | [] => c
  | o :: os => rrun (rapply c o) os

/-- States between transactions. -/
def RReachable (c : Chain) : Prop := ∃ c0 os, Genesis c0.w ∧ c = rrun c0 os

end Verif
