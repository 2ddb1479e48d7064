import Verif.Lemmas.Tally
import Verif.Examples
/-!
# The counters equal what happened
-/

namespace Verif
open Spec

/-- **C50** for a presale: after any history, its counters equal the sums over the token calls of all
successful claims and refunds naming it; recorded deposits and fees equal what its quote vault received
by deposits, less what withdrawals took out. -/
theorem C50_sale {w0 : World} (G : Genesis w0) (ops : List Op) {a : Addr} {p : Presale}
    (hp : (run w0 ops).presales a = some p) :
    p.totalClaimedToken = total .claim (ofSale a) (trace w0 ops) ∧
    p.totalRefundedQuoteToken = total .refund (ofSale a) (trace w0 ops) ∧
    p.totalDeposit + p.totalDepositFee + total .withdraw (ofSale a) (trace w0 ops) =
      total .deposit (ofSale a) (trace w0 ops) := by
  have T := (sale_tally G ops a).1
  unfold saleCounts at T
  rw [hp] at T
  exact ⟨T.cla, T.ref, T.dep⟩

/-- **C50** for a registry of a presale. -/
theorem C50_registry {w0 : World} (G : Genesis w0) (ops : List Op) {a : Addr} {p : Presale} {i : Nat}
    {r : Registry} (hp : (run w0 ops).presales a = some p) (hr : p.registries[i]? = some r) :
    r.totalClaimedToken = total .claim (ofRegistry a i) (trace w0 ops) ∧
    r.totalRefundedQuoteToken = total .refund (ofRegistry a i) (trace w0 ops) ∧
    r.totalDeposit + r.totalDepositFee + total .withdraw (ofRegistry a i) (trace w0 ops) =
      total .deposit (ofRegistry a i) (trace w0 ops) := by
  have T := (sale_tally G ops a).2 i
  unfold regCounts at T
  rw [hp] at T
  have T : Tallied (p.countsAt i) (ofRegistry a i) (trace w0 ops) := T
  rw [countsAt_self hr] at T
  exact ⟨T.cla, T.ref, T.dep⟩

/-- **C50** for an escrow: the sums over the whole history, even if the escrow was closed and opened
again in between. -/
theorem C50_escrow {w0 : World} (G : Genesis w0) (ops : List Op) {k : Addr} {e : Escrow}
    (hk : (run w0 ops).escrows.get? k = some e) :
    e.totalClaimedToken = total .claim (ofEscrow k) (trace w0 ops) ∧
    e.totalDeposit + e.totalDepositFee + total .withdraw (ofEscrow k) (trace w0 ops) =
      total .deposit (ofEscrow k) (trace w0 ops) := by
  obtain ⟨h1, h2⟩ := (escrow_tally G ops k).1 e hk
  exact ⟨h2, h1⟩

/-- Before its presale exists nothing can be deposited, withdrawn, claimed or refunded. -/
theorem C50_nothing_before {w0 : World} (G : Genesis w0) (ops : List Op) {a : Addr}
    (hp : (run w0 ops).presales a = none) :
    total .claim (ofSale a) (trace w0 ops) = 0 ∧ total .refund (ofSale a) (trace w0 ops) = 0 ∧
    total .withdraw (ofSale a) (trace w0 ops) = total .deposit (ofSale a) (trace w0 ops) := by
  have T := (sale_tally G ops a).1
  unfold saleCounts at T
  rw [hp] at T
  obtain ⟨t1, t2, t3⟩ := T
  exact ⟨t2.symm, t3.symm, by simpa using t1⟩

/-! A history with deposits, a withdrawal, claims and refunds. -/

namespace Ex

def busyOps : List Op :=
  prorataOps ++ [withdraw alice aliceQuote 100, .tick 1180, claim alice aliceBase, refund bob bobQuote,
    claim bob bobBase, .tick 800, claim alice aliceBase, refund bob bobQuote]

example : Genesis genesis := genesis_ok
example : has (run genesis busyOps) (fun p =>
    decide (0 < p.totalClaimedToken ∧ 0 < p.totalRefundedQuoteToken ∧ 0 < p.totalDepositFee)) = true := by
  decide +kernel
example : (total .deposit (ofSale sale) (trace genesis busyOps), total .withdraw (ofSale sale) (trace genesis busyOps),
    total .claim (ofSale sale) (trace genesis busyOps), total .refund (ofSale sale) (trace genesis busyOps)) =
    (1532, 100, 8284, 174) := by decide +kernel
example : (total .claim (ofEscrow (escrowOf alice)) (trace genesis busyOps),
    total .claim (ofEscrow (escrowOf bob)) (trace genesis busyOps)) = (5713, 2571) := by decide +kernel

end Ex
end Verif
