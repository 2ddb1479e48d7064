import Verif.Model.RentCheck
/-!
# What the runtime asks of the lamports of an account
-/

namespace Verif.Spec

/-- An account of sizes `n` and `n'` may go from `l` to `l'` lamports: it ends empty or rent-exempt, or it was below
the minimum before, and then neither grew nor gained. -/
def RentFine (r : RentEnv) (l n l' n' : Nat) : Prop :=
  l' = 0 ∨ r.minimum n' ≤ l' ∨ (0 < l ∧ l < r.minimum n ∧ n' = n ∧ l' ≤ l)

/-- Addresses this program does not derive: wallets, accounts of other programs, associated token accounts. -/
def Foreign (a : Addr) : Prop := (∃ n, a = .key n) ∨ ∃ p o m, a = .ata p o m

/-- `n` bytes are stored at `a`: `sizes` says how many for addresses this program does not derive; one it derives and
has not created is empty. -/
def Stores (r : RentEnv) (w : World) (sizes : Addr → Nat) (a : Addr) (n : Nat) : Prop :=
  (Foreign a ∧ n = sizes a) ∨ (¬ Foreign a ∧ (accountSize r w a = some n ∨ (accountSize r w a = none ∧ n = 0)))

/-- Larger accounts need no less. -/
def Monotone (r : RentEnv) : Prop := ∀ m n, m ≤ n → r.minimum m ≤ r.minimum n

end Verif.Spec
