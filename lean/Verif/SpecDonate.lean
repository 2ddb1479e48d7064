import Verif.Model.Instructions
/-!
# Ledgers that differ only in what the vaults hold

Vocabulary of C92. Anybody can send tokens straight to a vault without going through the program.
-/

namespace Verif.Spec
open Verif

/-- A token account with another balance. -/
def holding (t : TokAcct) (n : Nat) : TokAcct :=
  { t with amount := n }

/-- The two ledgers agree on everything except on the balances of vaults, where `w2` holds `d v` more than `w1`
(fewer, when `d v` is negative). -/
structure SameBut (d : Addr → Int) (w1 w2 : World) : Prop where
  /-- everything but the token accounts -/
  rest : { w2 with tk := w1.tk } = w1
  mints : w2.tk.mints = w1.tk.mints
  none_ : ∀ a, w1.tk.toks a = none → w2.tk.toks a = none
  some_ : ∀ a t1, w1.tk.toks a = some t1 → ∃ n : Nat, (n : Int) = t1.amount + d a ∧ w2.tk.toks a = some (holding t1 n)
  only : ∀ a, d a ≠ 0 → a.isVault = true ∧ w1.tk.toks a ≠ none

/-- Sending tokens straight to a vault. -/
def Gift : Op → Bool
  | .donate v _ => v.isVault
  | _ => false

/-- What an operation sends straight to `a`. -/
def sent (a : Addr) : Op → Nat
  | .donate v n => if v = a ∧ v.isVault = true then n else 0
  | _ => 0

/-- What was sent straight to the vault `a` by the steps recorded in `l`. -/
def given (l : List StepRec) (a : Addr) : Nat := (l.map fun s => sent a s.op).sum

/-- What a list of operations tries to send straight to the vault `a`. -/
def pushed (l : List Op) (a : Addr) : Nat := (l.map (sent a)).sum

/-- What happened, without the ledgers: operations with their events and token-program calls. -/
def happened (l : List StepRec) : List (Op × Receipt) := l.map fun s => (s.op, s.receipt)

/-- The steps that were not gifts. -/
def withoutGifts (l : List StepRec) : List StepRec := l.filter fun s => !Gift s.op

end Verif.Spec
