import Verif.Props.Ledger
import Verif.Examples

/-!
# C97: the program relies on a clock that does not run backwards

In the model the clock only advances (`Op.tick`). This is an assumption about the runtime, not something the
program checks: it reads the clock afresh in each instruction and keeps no record of the phase a sale has reached.
The theorems below show that the assumption cannot be dropped. One second backwards, once, is enough to undo
solvency: the vault of a sale whose unsold tokens were sent back no longer covers the buyers' claims, and the vault
of a sale whose raise was withdrawn no longer covers what is due.
-/

namespace Verif
open Verif.Spec

/-- The ledger with the clock put back by one second. -/
def World.secondBack (w : World) : World := { w with clock := w.clock - 1 }

namespace Ex

/-- A fixed-price sale just over; its unsold tokens have been returned to the creator. -/
def tidied : World := run genesis (fixedOps ++ [.tick 580, unsold])
/-- One second back the sale is open again: bob buys more. -/
def resold : World := run tidied.secondBack [deposit bob bobQuote 500, .tick 2000]

/-- A pro-rata sale just over; the creator has withdrawn the raise. -/
def raised : World := run genesis (prorataOps ++ [.tick 580, creatorWithdraw creatorWithdrawAcc])
/-- One second back bob takes deposited money out of what is left. -/
def drained : World := run raised.secondBack [withdraw bob bobQuote 520, .tick 1]

end Ex

/-- Read a number off a presale and a vault. -/
theorem read_both {w : World} {a v : Addr} {f : Presale → TokAcct → Bool}
    (h : (match w.presales a, w.tk.toks v with
      | some p, some b => f p b
      | _, _ => false) = true) :
    ∃ p b, w.presales a = some p ∧ w.tk.toks v = some b ∧ f p b = true := by
  split at h
  · rename_i p b h1 h2
    exact ⟨p, b, h1, h2, h⟩
  · cases h

/-- **C97**, base tokens (against C02): a reachable ledger, one second backwards, one more deposit, and the vault
holds less than what the buyers of the completed sale may claim; bob's claim fails, long after vesting. -/
theorem C97_base :
    ∃ w ops, Reachable w ∧ (∃ p b, (run w.secondBack ops).presales Ex.sale = some p ∧
        (run w.secondBack ops).tk.toks (.baseVault Ex.sale) = some b ∧
        Completed p (run w.secondBack ops).clock ∧
        b.amount < saleSum (run w.secondBack ops).escrows Ex.sale (claimDue p)) ∧
      Ex.works (run w.secondBack ops) (Ex.claim Ex.bob Ex.bobBase) = false := by
  refine ⟨Ex.tidied, [Ex.deposit Ex.bob Ex.bobQuote 500, .tick 2000], ⟨_, _, Ex.genesis_ok, rfl⟩, ?_,
    by decide +kernel⟩
  obtain ⟨p, b, hp, hb, hf⟩ := read_both (w := Ex.resold) (a := Ex.sale) (v := .baseVault Ex.sale)
    (f := fun p b => decide ((p.presaleEndTime : Int) ≤ Ex.resold.clock ∧ p.presaleMinimumCap ≤ p.totalDeposit ∧
      b.amount < saleSum Ex.resold.escrows Ex.sale (claimDue p))) (by decide +kernel)
  obtain ⟨h1, h2, h3⟩ := of_decide_eq_true hf
  exact ⟨p, b, hp, hb, ⟨h1, h2⟩, h3⟩

/-- **C97**, quote tokens (against C01): after one second backwards and one withdrawal the vault holds less than
what is still due in the completed sale. -/
theorem C97_quote :
    ∃ w ops, Reachable w ∧ ∃ p q, (run w.secondBack ops).presales Ex.sale = some p ∧
        (run w.secondBack ops).tk.toks (.quoteVault Ex.sale) = some q ∧
        Completed p (run w.secondBack ops).clock ∧
        q.amount < creatorDue p + saleSum (run w.secondBack ops).escrows Ex.sale (refundDue p) := by
  refine ⟨Ex.raised, [Ex.withdraw Ex.bob Ex.bobQuote 520, .tick 1], ⟨_, _, Ex.genesis_ok, rfl⟩, ?_⟩
  obtain ⟨p, q, hp, hq, hf⟩ := read_both (w := Ex.drained) (a := Ex.sale) (v := .quoteVault Ex.sale)
    (f := fun p q => decide ((p.presaleEndTime : Int) ≤ Ex.drained.clock ∧ p.presaleMinimumCap ≤ p.totalDeposit ∧
      q.amount < creatorDue p + saleSum Ex.drained.escrows Ex.sale (refundDue p))) (by decide +kernel)
  obtain ⟨h1, h2, h3⟩ := of_decide_eq_true hf
  exact ⟨p, q, hp, hq, ⟨h1, h2⟩, h3⟩

/-- **C97**: so the ledgers reached that way are not reachable with a clock that only advances. -/
theorem C97_unreachable : ¬ Reachable Ex.resold ∧ ¬ Reachable Ex.drained := by
  constructor
  · intro R
    obtain ⟨p, b, hp, hb, hf⟩ := read_both (w := Ex.resold) (a := Ex.sale) (v := .baseVault Ex.sale)
      (f := fun p b => decide ((p.presaleEndTime : Int) ≤ Ex.resold.clock ∧ p.presaleMinimumCap ≤ p.totalDeposit ∧
        b.amount < saleSum Ex.resold.escrows Ex.sale (claimDue p))) (by decide +kernel)
    obtain ⟨h1, h2, h3⟩ := of_decide_eq_true hf
    obtain ⟨b', hb', -, -, -, -, -, h⟩ := C02_base_solvent R hp
    rw [hb] at hb'; cases hb'
    have := h ⟨h1, h2⟩
    omega
  · intro R
    obtain ⟨p, b, hp, hb, hf⟩ := read_both (w := Ex.drained) (a := Ex.sale) (v := .quoteVault Ex.sale)
      (f := fun p q => decide ((p.presaleEndTime : Int) ≤ Ex.drained.clock ∧ p.presaleMinimumCap ≤ p.totalDeposit ∧
        q.amount < creatorDue p + saleSum Ex.drained.escrows Ex.sale (refundDue p))) (by decide +kernel)
    obtain ⟨h1, h2, h3⟩ := of_decide_eq_true hf
    obtain ⟨b', hb', -, -, -, -, -, h⟩ := C01_quote_solvent R hp
    rw [hb] at hb'; cases hb'
    have := h ⟨h1, h2⟩
    omega

end Verif
