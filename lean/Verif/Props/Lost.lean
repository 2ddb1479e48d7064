import Verif.Props.Statement
import Verif.Props.Ledger
import Verif.Props.Tally
/-!
# C115 — what is paid into a vault from outside the sale is lost
-/

namespace Verif
open Spec

/-- The balances of both vaults in terms of the counters of the sale. -/
theorem exact_money {w0 : World} (G : Genesis w0) (ops : List Op) {a : Addr} {p : Presale}
    (hp : (run w0 ops).presales a = some p) :
    ∃ bb qb, Money p bb qb ∧
      balance (run w0 ops) (.quoteVault a) =
        qb + given (trace w0 ops) (.quoteVault a) + summed (paidBack (.quoteVault a)) (trace w0 ops) ∧
      balance (run w0 ops) (.baseVault a) =
        bb + given (trace w0 ops) (.baseVault a) + summed (paidBack (.baseVault a)) (trace w0 ops) ∧
      qb + p.totalRefundedQuoteToken + takenQuote p = p.totalDeposit + p.totalDepositFee ∧
      bb + p.totalClaimedToken + takenBase p = p.presaleSupply := by
  obtain ⟨_, _, q⟩ := C114_quote G ops hp
  obtain ⟨_, _, b⟩ := C114_base G ops hp
  obtain ⟨t1, t2, t3⟩ := C50_sale G ops hp
  have S := (Reachable.winv ⟨w0, ops, G, rfl⟩ : WInv (run w0 ops)).core.sale a p hp
  have hq : p.totalRefundedQuoteToken + takenQuote p ≤ p.totalDeposit + p.totalDepositFee := by
    unfold takenQuote
    by_cases ht : (run w0 ops).clock.toNat < p.presaleEndTime
    · have h1 := S.pinv.flags.open_ ht
      have h2 := (S.pinv.flags.failed (.inl ht)).1
      have h3 : p.totalRefundedQuoteToken = 0 := by
        rw [S.pinv.book.totRef]
        exact lsum_zero (fun i r hr => (S.pinv.book.reg i r hr).refund0 ht)
      rw [if_neg (by omega), if_neg (by omega)]
      omega
    · have h1 := S.pinv.refundsDue (by omega)
      by_cases hf : p.totalDeposit < p.presaleMinimumCap
      · rw [lsum_refundPool S.pinv.book hf] at h1
        have h2 := (S.pinv.flags.failed (.inr hf)).1
        rw [if_neg (by omega), if_neg (by omega)]
        omega
      · have h2 := budget S.pinv.book (show p.presaleMinimumCap ≤ p.totalDeposit by omega)
        split <;> split <;> omega
  have hb : p.totalClaimedToken + takenBase p ≤ p.presaleSupply := by
    unfold takenBase
    by_cases ht : (run w0 ops).clock.toNat < p.presaleEndTime ∨ p.totalDeposit < p.presaleMinimumCap
    · have h2 := (S.pinv.flags.failed ht).2
      have h3 : p.totalClaimedToken = 0 := by
        rw [S.pinv.book.totCl]
        exact lsum_zero (fun i r hr => (S.pinv.book.reg i r hr).claim0 ht)
      rw [if_neg (by omega)]
      split <;> omega
    · have h1 := S.pinv.claimsDue (by omega) (by omega)
      have h2 := totalSold_le S.pinv.static
      rw [if_neg (c := p.hasCreatorWithdrawn = 1 ∧ _) (by omega)]
      split <;> omega
  refine ⟨p.presaleSupply - (p.totalClaimedToken + takenBase p),
    p.totalDeposit + p.totalDepositFee - (p.totalRefundedQuoteToken + takenQuote p), ?_, ?_, ?_, ?_, ?_⟩
  · refine money_iff.2 ⟨?_, ?_⟩
    · show _ ≤ _ + takenQuote p; omega
    · show _ ≤ _ + takenBase p; omega
  all_goals omega

/-- **C115, quote tokens.** What was sent straight to the quote vault of a sale, and what this program ever paid into
it, comes on top of everything that is owed. While the sale is open the vault holds exactly the deposits, the fees and
that. -/
theorem C115_quote {w0 : World} (G : Genesis w0) (ops : List Op) {a : Addr} {p : Presale}
    (hp : (run w0 ops).presales a = some p) :
    ∃ owned, balance (run w0 ops) (.quoteVault a) =
        owned + given (trace w0 ops) (.quoteVault a) + summed (paidBack (.quoteVault a)) (trace w0 ops) ∧
      owned + p.totalRefundedQuoteToken + takenQuote p = p.totalDeposit + p.totalDepositFee ∧
      (¬ Over p (run w0 ops).clock → owned = p.totalDeposit + p.totalDepositFee) ∧
      (Failed p (run w0 ops).clock → saleSum (run w0 ops).escrows a (fun e =>
        if e.isRemainingQuoteWithdrawn = 1 then 0 else e.totalDeposit + e.totalDepositFee) ≤ owned) ∧
      (Completed p (run w0 ops).clock →
        (if p.hasCreatorWithdrawn = 1 then 0 else raise p) + (if p.depositFeeCollected = 1 then 0 else collectableFee p) +
          saleSum (run w0 ops).escrows a (refundDue p) ≤ owned) := by
  have W : WInv (run w0 ops) := Reachable.winv ⟨w0, ops, G, rfl⟩
  obtain ⟨bb, qb, M, h1, _, h3, _⟩ := exact_money G ops hp
  obtain ⟨c1, c2, c3⟩ := quote_cover W hp M
  refine ⟨qb, h1, h3, fun h => ?_, c2, c3⟩
  have := c1 h
  omega

/-- **C115, base tokens.** -/
theorem C115_base {w0 : World} (G : Genesis w0) (ops : List Op) {a : Addr} {p : Presale}
    (hp : (run w0 ops).presales a = some p) :
    ∃ owned, balance (run w0 ops) (.baseVault a) =
        owned + given (trace w0 ops) (.baseVault a) + summed (paidBack (.baseVault a)) (trace w0 ops) ∧
      owned + p.totalClaimedToken + takenBase p = p.presaleSupply ∧
      (¬ Over p (run w0 ops).clock → owned = p.presaleSupply) ∧
      (Failed p (run w0 ops).clock → owned = if p.hasCreatorWithdrawn = 1 then 0 else p.presaleSupply) ∧
      (Completed p (run w0 ops).clock →
        (if p.isUnsoldTokenActionPerformed = 1 then 0 else p.presaleSupply - totalSold p) +
          saleSum (run w0 ops).escrows a (claimDue p) ≤ owned) := by
  have W : WInv (run w0 ops) := Reachable.winv ⟨w0, ops, G, rfl⟩
  obtain ⟨bb, qb, M, _, h2, _, h4⟩ := exact_money G ops hp
  obtain ⟨c1, c2, c3⟩ := base_cover W hp M
  refine ⟨bb, h2, h4, fun h => ?_, fun h => ?_, c3⟩
  · have := c1 h
    omega
  · have hf := (W.core.sale a p hp).pinv.flags.w
    by_cases hw : p.hasCreatorWithdrawn = 1
    · rw [if_pos hw]
      unfold takenBase at h4
      rw [if_pos (c := p.hasCreatorWithdrawn = 1 ∧ _) ⟨hw, h.2⟩] at h4
      omega
    · have := c2 h (by omega)
      rw [if_neg hw]
      omega

theorem trace_append (w : World) (xs ys : List Op) : trace w (xs ++ ys) = trace w xs ++ trace (run w xs) ys := by
  induction ys using List.reverseRecOn with
  | nil => rw [List.append_nil]; exact (List.append_nil _).symm
  | append_singleton ys op ih =>
    rw [← List.append_assoc, trace_snoc, trace_snoc, ih, run_append, List.append_assoc]

/-- **C115, lost.** Whatever happens later, what was given or paid back stays in the vault: nobody ever gets it out. -/
theorem C115_lost {w0 : World} (G : Genesis w0) (ops more : List Op) {a : Addr} {p : Presale}
    (hp : (run w0 ops).presales a = some p) {v : Addr} (hv : v = .quoteVault a ∨ v = .baseVault a) :
    given (trace w0 ops) v + summed (paidBack v) (trace w0 ops) ≤ balance (run w0 (ops ++ more)) v := by
  have W : WInv (run w0 ops) := Reachable.winv ⟨w0, ops, G, rfl⟩
  obtain ⟨p', hp', _⟩ := run_later W more hp
  rw [← run_append] at hp'
  have hg : given (trace w0 ops) v ≤ given (trace w0 (ops ++ more)) v := by
    rw [trace_append]; simp [given]
  have hs : summed (paidBack v) (trace w0 ops) ≤ summed (paidBack v) (trace w0 (ops ++ more)) := by
    rw [trace_append, summed_append]; omega
  rcases hv with rfl | rfl
  · obtain ⟨_, h, _⟩ := C115_quote G (ops ++ more) hp'
    omega
  · obtain ⟨_, h, _⟩ := C115_base G (ops ++ more) hp'
    omega

/-! ## The hypotheses are met -/

namespace Ex

/-- Everybody takes the rest out of the sale whose creator had the fees paid into the vault. -/
def loopEnd : List Op := [refund alice aliceQuote, claim bob bobBase, creatorWithdraw creatorWithdrawAcc]

example : has (run genesis loopOps) (fun _ => true) = true ∧
    summed (paidBack (.quoteVault sale)) (trace genesis loopOps) = 23 ∧
    has (run genesis (loopOps ++ loopEnd)) (fun p => decide (p.hasCreatorWithdrawn = 1 ∧ p.depositFeeCollected = 1 ∧
      p.totalRefundedQuoteToken = 407)) = true ∧
    balance (run genesis (loopOps ++ loopEnd)) (.quoteVault sale) = 25 := by decide +kernel

end Ex

end Verif
