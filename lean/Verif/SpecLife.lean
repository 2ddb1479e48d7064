import Verif.SpecTally
import Verif.Spec
/-!
# The account of one escrow over its whole life

What an escrow's address paid in and got out over a history, read off the token-program calls of the
successful instructions naming it (`SpecTally`), across closings and reopenings.
-/

namespace Verif.Spec
open Verif

/-- Quote tokens the vault received for the escrow at `k`. -/
def paidIn (k : Addr) (l : List StepRec) : Nat := total .deposit (ofEscrow k) l

/-- Quote tokens the vault gave back to the escrow at `k`, during and after the sale. -/
def gotBack (k : Addr) (l : List StepRec) : Nat := total .withdraw (ofEscrow k) l + total .refund (ofEscrow k) l

/-- Base tokens the escrow at `k` received. -/
def gotTokens (k : Addr) (l : List StepRec) : Nat := total .claim (ofEscrow k) l

/-- The escrow at `k` of sale `p` was closed after the end of the sale with contents `e`; over its whole
life it received all it was due. -/
structure ServedOut (p : Presale) (r : Registry) (e : Escrow) (k : Addr) (l : List StepRec) : Prop where
  /-- deposit and fee are what was paid in and not withdrawn -/
  kept : e.totalDeposit + e.totalDepositFee + total .withdraw (ofEscrow k) l = paidIn k l
  /-- the refund of the sale's outcome was paid in full -/
  refund : total .refund (ofEscrow k) l = owedRefund p r e
  /-- the whole entitlement of a completed sale was paid, nothing of a failed one -/
  tokens : gotTokens k l = if p.totalDeposit < p.presaleMinimumCap then 0 else entitlement p r e

end Verif.Spec
