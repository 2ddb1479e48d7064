import Verif.SpecMachine
/-!
# Deposits one after another
-/

namespace Verif.Spec

/-- What a deposit of at most `asked` into escrow `e` takes when nothing but the buyer's own limits stands in its
way. -/
def Unhindered (p : Presale) (r : Registry) (e : Escrow) (asked n : Nat) : Prop :=
  if p.presaleMode = 1 ∨ p.presaleMode = 2 then n = min asked (personalQuota r e)
  else LeastCharge p.raw0 (min asked (personalQuota r e)) n

/-- Between `w` and `w'` the escrow of request `x` got in all that its own limits allow. -/
def TakenInFull (w : World) (x : DepositAcc) (w' : World) : Prop :=
  ∃ p e e' r, w.presales x.presale = some p ∧ w.escrows.get? x.escrow = some e ∧
    w'.escrows.get? x.escrow = some e' ∧ p.registries[e.registryIndex]? = some r ∧
    Unhindered p r e x.maxAmount (e'.totalDeposit - e.totalDeposit)

/-- The deposits `l` into sale `a`, made in this order, all succeed, each is taken in full, and they lead from
`w` to `w'`. -/
inductive InTurn (a : Addr) : World → List (Tx × DepositAcc) → World → Prop where
  | nil (w : World) : InTurn a w [] w
  | cons {w w1 w' : World} {tx : Tx} {x : DepositAcc} {rc : Receipt} {l : List (Tx × DepositAcc)}
      (sale : x.presale = a) (succeeds : step w (.ix tx (.deposit x)) = .ok (w1, rc)) (full : TakenInFull w x w1)
      (rest : InTurn a w1 l w') : InTurn a w ((tx, x) :: l) w'

/-- At a fixed price, what is deposited in a registry pays for no more than the registry offers. -/
def WithinSupply (w : World) (a : Addr) : Prop :=
  ∀ p, w.presales a = some p → p.presaleMode = 1 ∨ p.presaleMode = 2 ∨
    ∀ (i : Nat) (r : Registry), p.registries[i]? = some r → tokensAtPrice p.raw0 r.totalDeposit ≤ r.presaleSupply

/-- The owner of token account `src` has not named themselves as the delegate of it. -/
def NotSelfDelegated (k : Tokens) (src : Addr) : Prop :=
  ∀ s n, k.toks src = some s → s.delegate ≠ some (s.owner, n)

end Verif.Spec
