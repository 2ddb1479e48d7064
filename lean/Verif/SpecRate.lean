import Verif.SpecLife
/-!
# The fee rate

A fee is at the rate if it is no less than the rate of everything paid, deposit and fee together.
-/

namespace Verif.Spec

/-- `fee` is at least the rate `bps` of `deposit + fee`. -/
def AtRate (bps deposit fee : Nat) : Prop := (deposit + fee) * bps ≤ fee * 10000

/-- `fee` is the least fee with which a single payment of `deposit + fee` covers `deposit`. -/
structure OneCharge (bps deposit fee : Nat) : Prop where
  rate : IsCeilDiv fee ((deposit + fee) * bps) 10000
  least : ∀ f gross, IsCeilDiv f (gross * bps) 10000 → deposit + f ≤ gross → deposit + fee ≤ gross

/-- Whether a step was a deposit into the escrow at `k`. -/
def isPayment (k : Addr) (s : StepRec) : Bool :=
  match about s.op with
  | some (.deposit, _, l) => decide (l = k)
  | _ => false

/-- Number of deposits into the escrow at `k`. -/
def payments (k : Addr) (l : List StepRec) : Nat := (l.filter (isPayment k)).length

end Verif.Spec
