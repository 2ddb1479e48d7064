import Verif.Model.Hooks
/-!
# What a hook may and may not bring about

Notions for C86, in terms of ledgers and receipts only.
-/

namespace Verif.Spec

open Verif

/-- Not an instruction of the program. -/
def NoInstruction : Op → Prop
  | .ix _ _ => False
  | _ => True

/-- The two ledgers agree in every account of the program and in the clock. -/
structure SameProgramState (w w' : World) : Prop where
  presales : w'.presales = w.presales
  escrows : w'.escrows = w.escrows
  merkleRoots : w'.merkleRoots = w.merkleRoots
  operators : w'.operators = w.operators
  metadata : w'.metadata = w.metadata
  fixedArgs : w'.fixedArgs = w.fixedArgs
  clock : w'.clock = w.clock
  env : w'.env = w.env

/-- No vault holds less, changes hands or disappears. -/
def VaultsKept (w w' : World) : Prop :=
  ∀ v t, v.isVault = true → w.tk.toks v = some t →
    ∃ t', w'.tk.toks v = some t' ∧ t.amount ≤ t'.amount ∧ t'.owner = t.owner ∧ t'.mint = t.mint ∧
      t'.delegate = t.delegate

/-- The token operation is a transfer between two accounts of a mint with hook program `prog`. -/
def Hooked (w : World) (prog : Addr) (mint : Addr) : Cpi → Prop
  | .transfer x src dst _ _ _ => x = mint ∧ src ≠ dst ∧ ∃ m, w.tk.mints x = some m ∧ m.hookProgram = some prog
  | .burn _ _ _ => False

instance (w : World) (prog mint : Addr) : (c : Cpi) → Decidable (Hooked w prog mint c)
  | .transfer x src dst _ _ _ =>
    decidable_of_iff (x = mint ∧ src ≠ dst ∧ (w.tk.mints x).bind MintInfo.hookProgram = some prog) (by
      simp only [Hooked, Option.bind_eq_some_iff])
  | .burn _ _ _ => isFalse id

/-- How many transfers with the hook are in a receipt. -/
def hookedIn (w : World) (prog mint : Addr) (rc : Receipt) : Nat :=
  (rc.cpis.filter fun c => decide (Hooked w prog mint c)).length

end Verif.Spec
