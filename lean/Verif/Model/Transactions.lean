import Verif.Model.Lamports
/-!
# Transactions

A transaction is a list of instructions with common signers, executed at one time, entirely or not at all. The
instructions are those of this program, called directly or by another program, and instructions of other programs,
which can do what the environment operations of `Model/Instructions.lean` and `Model/Lamports.lean` allow.
This is behaviour of the Solana runtime, not of code in `/repo`.
-/

namespace Verif

/-- One instruction of a transaction. -/
inductive TIx where
  /-- an instruction of this program; `cpiSigners` are addresses for which a calling program signs -/
  | own (cpiSigners : List Addr) (accept : Bool) (i : Ix)
  /-- an instruction of another program -/
  | other (o : COp)

/-- A transaction. -/
structure Transaction where
  signers : List Addr
  items : List TIx

/-- The operation performed by an instruction. Other programs cannot advance the clock, and their calls of this
program are `own`. -/
def TIx.op (signers : List Addr) : TIx → Option COp
  | .own s acc i => some (.op (.ix ⟨signers ++ s, acc⟩ i))
  | .other (.op (.tick _)) => none
  | .other (.op (.ix _ _)) => none
  | .other o => some o

/-- Execute instructions in order; the first failure aborts. -/
def exec (signers : List Addr) : Chain → List TIx → Except Err (Chain × List Receipt)
  | c, [] => .ok (c, [])
  | c, t :: ts =>
    match t.op signers with
    | none => .error (.x .constraint)
    | some o => do
      let (c1, rc) ← cstep c o
      let (c2, rcs) ← exec signers c1 ts
      return (c2, rc :: rcs)

/-- What happens on the chain: transactions and the passing of time. -/
inductive TOp where
  | tick (seconds : Nat)
  | tx (t : Transaction)

/-- A failed transaction changes nothing. -/
def tapply (c : Chain) : TOp → Chain
  | .tick n => capply c (.op (.tick n))
  | .tx t =>
    match exec t.signers c t.items with
    | .ok (c', _) => c'
    | .error _ => c

/-- Execute a history of transactions. -/
def trun (c : Chain) : List TOp → Chain
  | [] => c
  | o :: os => trun (tapply c o) os

/-- States between transactions. -/
def TReachable (c : Chain) : Prop := ∃ c0 os, Genesis c0.w ∧ c = trun c0 os

end Verif
