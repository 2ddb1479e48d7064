import Verif.SpecMachine
/-!
# The same at another time

Everything is put off by `d` seconds (or brought forward, if `d` is negative): the clock, the dates recorded in sales
and escrows, and the dates asked for when a sale is created. A release date of 0 stands for "none" and stays 0, so do
the dates of a sale without release terms.
-/

namespace Verif

/-- A date after moving. -/
def moved (d : Int) (t : Nat) : Nat := ((t : Int) + d).toNat

/-- A date after moving, where 0 stands for none. -/
def movedDate (d : Int) (t : Nat) : Nat := if t = 0 then 0 else moved d t

def Presale.delay (d : Int) (p : Presale) : Presale :=
  { p with
    presaleStartTime := moved d p.presaleStartTime
    presaleEndTime := moved d p.presaleEndTime
    createdAt := moved d p.createdAt
    immediateReleaseTimestamp := movedDate d p.immediateReleaseTimestamp
    vestingStartTime := movedDate d p.vestingStartTime
    vestingEndTime := movedDate d p.vestingEndTime }

def Escrow.delay (d : Int) (e : Escrow) : Escrow :=
  { e with
    createdAt := moved d e.createdAt
    lastRefreshedAt := moved d e.lastRefreshedAt }

def World.delay (d : Int) (w : World) : World :=
  { w with
    clock := w.clock + d
    presales := fun a => (w.presales a).map (Presale.delay d)
    escrows := w.escrows.map fun y => (y.1, y.2.delay d) }

def InitializePresaleArgs.delay (d : Int) (x : InitializePresaleArgs) : InitializePresaleArgs :=
  { x with
    presaleParams := { x.presaleParams with
      presaleStartTime := moved d x.presaleParams.presaleStartTime
      presaleEndTime := moved d x.presaleParams.presaleEndTime }
    lockedVestingParams := { x.lockedVestingParams with
      immediateReleaseTimestamp := movedDate d x.lockedVestingParams.immediateReleaseTimestamp } }

def InitPresaleAcc.delay (d : Int) (x : InitPresaleAcc) : InitPresaleAcc := { x with args := x.args.delay d }

/-- Only the creation of a sale mentions dates. -/
def Ix.delay (d : Int) : Ix → Ix
  | .initPresale x => .initPresale (x.delay d)
  | i => i

def Op.delay (d : Int) : Op → Op
  | .ix tx i => .ix tx (i.delay d)
  | op => op

end Verif
