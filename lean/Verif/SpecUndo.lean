import Verif.SpecMachine
/-!
# Deposits that are taken back
-/

namespace Verif.Spec

/-- The request of `owner` to get back `n` into the account from which `x` was paid. -/
def takeBack (x : DepositAcc) (owner : Addr) (n : Nat) : WithdrawAcc :=
  { presale := x.presale, quoteTokenVault := x.quoteTokenVault, quoteMint := x.quoteMint, escrow := x.escrow,
    ownerQuoteToken := x.payerQuoteToken, owner := owner, tokenProgram := x.tokenProgram, maxAmount := n,
    remaining := x.remaining, slices := x.slices }

/-- Ledger `w` with tokens `k`, and with `fee` more on record as paid by escrow `e`, kept at `key`, in registry `r`
of sale `p`, kept at `a`. -/
def feePaid (w : World) (a key : Addr) (p : Presale) (r : Registry) (e : Escrow) (fee : Nat) (k : Tokens) : World :=
  { w with
    presales := upd w.presales a (some { p with
      registries := p.registries.set e.registryIndex { r with totalDepositFee := r.totalDepositFee + fee },
      totalDepositFee := p.totalDepositFee + fee }),
    escrows := w.escrows.set key { e with totalDepositFee := e.totalDepositFee + fee },
    tk := k }

/-- `n` times the deposit `x` and its reversal. -/
def rounds (tx tx' : Tx) (x : DepositAcc) (owner : Addr) (n : Nat) : Nat → List Op
  | 0 => []
  | k + 1 => .ix tx (.deposit x) :: .ix tx' (.withdraw (takeBack x owner n)) :: rounds tx tx' x owner n k

end Verif.Spec
