import Verif.SpecBytes
import Verif.SpecSelectors
import Verif.SpecBank
/-!
# Reading a sale from raw account data

What somebody computes who fetches all accounts of the program and reads numbers at offsets.
-/

namespace Verif.Spec
open Verif

/-- The list of all accounts whose data begin with the escrow discriminator, each once. -/
structure AllEscrows (b : Bank) (found : List (Addr × Bytes)) : Prop where
  once : (found.map Prod.fst).Nodup
  all : ∀ k d, (k, d) ∈ found ↔ b.data k = some d ∧ d.take 8 = accountBytes .escrow

/-- The escrows of sale `a` in registry `i`: the sale's address lies at byte 8, the registry's number at byte 89. -/
def escrowsIn (K : Keys) (found : List (Addr × Bytes)) (a : Addr) (i : Nat) : List Bytes :=
  (found.map Prod.snd).filter fun d => decide (keyAt K d 8 = a ∧ numAt d 89 1 = i)

/-- The sum of the eight-byte numbers at an offset. -/
def sumAt (ds : List Bytes) (o : Nat) : Nat := (ds.map fun d => numAt d o 8).sum

/-- The sum over the five registries of a sale of the eight-byte numbers at an offset within the registry. -/
def registriesSum (d : Bytes) (o : Nat) : Nat := ((List.range 5).map fun i => numAt d (472 + 160 * i + o) 8).sum

end Verif.Spec
