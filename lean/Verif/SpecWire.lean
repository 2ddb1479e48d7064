import Verif.SpecBytes
import Verif.SpecSelectors
import Verif.SpecBank
import Verif.SpecReceipts
/-!
# What a delivered call asks for

A call is a list of 32-byte keys with two flags each, and data bytes. The tables of selectors and offsets, and the
interface description, say which instruction it asks for; the reference machine says what then happens.
-/

namespace Verif.Spec
open Verif

/-- The data begin with the instruction's selector and hold its arguments at their offsets; the keys are those of the
instruction's accounts, in order, with at least the declared privileges. -/
structure Asks (P : ProgIds) (K : Keys) (c : Wire) (i : Ix) : Prop where
  selector : c.data.take 8 = selectorBytes i.call.1
  complete : ArgsFit c.data i.call.1
  arguments : i.call.2 = argsAt K c.data i.call.1
  accounts : GoodFor P i (c.accounts.map fun m => ⟨K.dec m.key, m.signer, m.writable⟩)

/-- Who signed: the keys delivered with the signer flag. -/
def signatures (K : Keys) (accept : Bool) (c : Wire) : Tx :=
  { signers := (c.accounts.filter (·.signer)).map fun m => K.dec m.key, accept := accept }

end Verif.Spec
