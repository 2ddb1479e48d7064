import Verif.Model.Process
import Verif.Props.Layout
import Verif.SpecEntry
/-!
# When stored bytes stand for a state

Stated by account types and addresses, without the reading and writing of whole ledgers in `Model/Process.lean`.
-/

namespace Verif.Spec
open Verif

/-- The bytes kept by the runtime stand for a state: each account's data is its discriminator and value, and there is
no other data. -/
structure Represents (D : Discs Kind) (K : Keys) (b : Bank) (w : World) : Prop where
  env : b.env = w.env
  clock : b.clock = w.clock
  tk : b.tk = w.tk
  data : ∀ k a v, Stored w k a v → b.data a = some (writeAccount D K k v)
  empty : ∀ a, (∀ k v, ¬ Stored w k a v) → b.data a = none

/-- Every address mentioned by an account has its own 32-byte string. -/
def Named (K : Keys) (w : World) : Prop := ∀ k a v, Stored w k a v → ∀ x ∈ addresses k v, K.known x

/-- All keys of a call have 32 bytes. -/
def Keyed (c : Wire) : Prop := ∀ m ∈ c.accounts, m.key.length = 32

/-- Addresses a call puts in front of the program: its accounts, and the one among its arguments. -/
def Shows (P : ProgIds) (i : Ix) (x : Addr) : Prop :=
  x ∈ (metas P i).map Meta.key ∨ ∃ y, i = .initFixedArgs y ∧ x = y.presale

/-- Addresses a history mentions. -/
def ShowsIn (P : ProgIds) (ops : List Op) (x : Addr) : Prop := ∃ tx i, Op.ix tx i ∈ ops ∧ Shows P i x

/-- An empty deployment. -/
structure BankGenesis (b : Bank) : Prop where
  data : ∀ a, b.data a = none
  vaults : ∀ a, a.isVault = true → b.tk.toks a = none
  amounts : ∀ a t, b.tk.toks a = some t → t.amount < u64Bound
  mints : ∀ a m, b.tk.mints a = some m → m.wellFormed = true
  clock : b.clock < (2 : Int) ^ 63

/-- The type of the accounts at an address. -/
def kindAt : Addr → Option Kind
  | .presale _ _ _ => some .presale
  | .escrow _ _ _ => some .escrow
  | .fixedPriceArgs _ => some .fixedArgs
  | .merkleRoot _ _ => some .merkleRoot
  | .operator _ _ => some .operator
  | .serverMetadata _ => some .metadata
  | _ => none

end Verif.Spec
