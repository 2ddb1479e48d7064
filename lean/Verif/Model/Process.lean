import Verif.Model.Entry
import Mathlib.Data.List.Dedup
/-!
# Bytes in, bytes out

The program as the runtime runs it. The runtime keeps the data of the accounts the program owns as byte strings; a call
names its accounts by 32-byte keys and carries bytes. Only the accounts a call lists can be read, only those it marks
writable can be written. Accounts are decoded when loaded (`Model/Layout.lean`), the call is decoded and bound
(`Model/Data.lean`, `Model/Entry.lean`), the handler runs, and what it changed is written back
(`AccountsExit::exit`, `AccountLoader::load_mut`, `init`, `close`).

Simplifications: token accounts, mints and the clock are kept decoded, since other programs own them; an account of
another program has no data here, which stands for the owner check of `AccountLoader` and `Account`.
-/

namespace Verif

/-- The ledger as the runtime keeps it. -/
structure Bank where
  env : Env
  clock : Int
  /-- data of the accounts owned by the program -/
  data : Addr → Option Bytes
  tk : Tokens

/-- `AccountInfo` as delivered: key and flags. -/
structure WireMeta where
  key : Bytes
  signer : Bool
  writable : Bool
  deriving Repr

/-- A call as delivered. -/
structure Wire where
  accounts : List WireMeta
  data : Bytes
  deriving Repr

/-- Its accounts by address. -/
def Wire.raw (K : Keys) (c : Wire) : Raw :=
  { accounts := c.accounts.map fun m => ⟨K.dec m.key, m.signer, m.writable⟩, data := c.data }

/-- What the program sees of the ledger: the listed accounts, each read as the type it is asked for
(`AccountLoader::load`, `Account::try_from`). -/
def Bank.see (D : Discs Kind) (K : Keys) (b : Bank) (keys : List Addr) : World where
  env := b.env
  clock := b.clock
  presales a := if a ∈ keys then (b.data a).bind (readAccount D K .presale) else none
  escrows := keys.dedup.filterMap fun a => ((b.data a).bind (readAccount D K .escrow)).map fun (e : Escrow) => (a, e)
  merkleRoots a := if a ∈ keys then (b.data a).bind (readAccount D K .merkleRoot) else none
  operators a := if a ∈ keys then (b.data a).bind (readAccount D K .operator) else none
  metadata a := if a ∈ keys then (b.data a).bind (readAccount D K .metadata) else none
  fixedArgs a := if a ∈ keys then (b.data a).bind (readAccount D K .fixedArgs) else none
  tk := { toks := fun a => if a ∈ keys then b.tk.toks a else none
          mints := fun a => if a ∈ keys then b.tk.mints a else none }

/-- The data of an account when it is written: discriminator and value. -/
def World.dataAt (D : Discs Kind) (K : Keys) (w : World) (a : Addr) : Option Bytes :=
  ((w.presales a).map (writeAccount D K .presale)).or <|
  ((w.escrows.get? a).map (writeAccount D K .escrow)).or <|
  ((w.fixedArgs a).map (writeAccount D K .fixedArgs)).or <|
  ((w.merkleRoots a).map (writeAccount D K .merkleRoot)).or <|
  ((w.operators a).map (writeAccount D K .operator)).or <|
  (w.metadata a).map (writeAccount D K .metadata)

/-- Write back what a call changed. The runtime lets through changes of writable accounts only; an account whose value
is as before keeps its bytes. -/
def Bank.write (D : Discs Kind) (K : Keys) (b : Bank) (accounts : List Meta) (w w' : World) : Bank :=
  let writable := fun a => decide (∃ m ∈ accounts, m.key = a ∧ m.writable = true)
  { b with
    data := fun a =>
      if writable a = true ∧ w'.dataAt D K a ≠ w.dataAt D K a then w'.dataAt D K a else b.data a
    tk := { toks := fun a => if writable a then w'.tk.toks a else b.tk.toks a
            mints := fun a => if writable a then w'.tk.mints a else b.tk.mints a } }

/-- One call: bytes in, bytes out (`#[program]`, `lib.rs:51-184`). -/
def process (P : ProgIds) (D : Discs Kind) (DI : Discs IxName) (K : Keys) (b : Bank) (accept : Bool) (c : Wire) :
    Except Err (Bank × Receipt) := do
  let r := c.raw K
  let w := b.see D K (r.accounts.map Meta.key)
  let (w', rc) ← execRaw P DI K w accept r
  return (b.write D K r.accounts w w', rc)

/-- What happens to the ledger from outside: as the steps of `Model/Instructions.lean` that are not calls. The clock is
an `i64`. -/
def Bank.outside (b : Bank) (op : Op) : Except Err Bank := do
  let w : World :=
    { env := b.env, clock := b.clock, presales := fun _ => none, escrows := [], merkleRoots := fun _ => none,
      operators := fun _ => none, metadata := fun _ => none, fixedArgs := fun _ => none, tk := b.tk }
  match op with
  | .ix _ _ => .error (.x .constraint)
  | op =>
    let (w', _) ← step w op
    require (w'.clock < (2 : Int) ^ 63) (.x .constraint)
    return { b with clock := w'.clock, tk := w'.tk }

/-- Steps of the byte machine. -/
inductive BOp where
  | call (accept : Bool) (c : Wire)
  | outside (op : Op)
  deriving Repr

/-- Failed steps change nothing. -/
def bapply (P : ProgIds) (D : Discs Kind) (DI : Discs IxName) (K : Keys) (b : Bank) : BOp → Bank
  | .call accept c =>
    match process P D DI K b accept c with
    | .ok (b', _) => b'
    | .error _ => b
  | .outside op =>
    match b.outside op with
    | .ok b' => b'
    | .error _ => b

/-- Execute a history. -/
def brun (P : ProgIds) (D : Discs Kind) (DI : Discs IxName) (K : Keys) (b : Bank) : List BOp → Bank
  | [] => b
  | o :: os => brun P D DI K (bapply P D DI K b o) os

end Verif
