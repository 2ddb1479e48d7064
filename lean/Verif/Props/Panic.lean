import Verif.Lemmas.NoPanic
import Verif.Lemmas.Reach
import Verif.Examples
/-!
# No instruction panics

The model marks every `unreachable!`, failing `unwrap` and out-of-range index of the program by the
error `Err.panic`. The theorems say that this error never comes out of a step in a reachable state.
-/

namespace Verif
open Spec

/-- In every reachable state no instruction panics, whatever its accounts, signers and arguments; nor
does any environment step. -/
theorem C54_no_panic {w : World} (R : Reachable w) (op : Op) : step w op ≠ .error .panic :=
  np_step R.winv.core op

/-- Stated on histories: nowhere in a history does an attempted operation panic. -/
theorem C54_no_panic_in_history {w : World} (R : Reachable w) (ops : List Op) (n : Nat) (op : Op)
    (_h : ops[n]? = some op) : step (run w (ops.take n)) op ≠ .error .panic :=
  C54_no_panic (R.run _) op

/-- Closing an escrow never reaches the branch for a sale that has not started. -/
theorem C30_no_panic {w : World} (R : Reachable w) (tx : Tx) (x : CloseEscrowAcc) :
    step w (.ix tx (.closeEscrow x)) ≠ .error .panic :=
  C54_no_panic R _

/-- Why: an escrow of a sale exists only after the sale has started. -/
theorem C30_escrow_means_started {w : World} (R : Reachable w) {k : Addr} {e : Escrow} {p : Presale}
    (hk : w.escrows.get? k = some e) (hp : w.presales e.presale = some p) :
    (p.presaleStartTime : Int) ≤ w.clock := by
  have S := R.winv.core.sale _ _ hp
  have := S.pinv.started hk rfl
  have := S.clock
  omega

/-! The panics are there: each appears once its guard is taken away. -/

namespace Ex

/-- The escrow of `alice`, with the clock turned back to before the sale started. -/
def turnedBack : World := { prorataOpen with clock := 0 }

example : works prorataOpen (closeEscrow alice) = false := by decide +kernel
example : (match step turnedBack (closeEscrow alice) with
  | .error .panic => true
  | _ => false) = true := by decide +kernel

/-- Withdrawing from a first-come-first-served sale, without the check on the mode. -/
example : (match fcfsOpen.presales sale, fcfsOpen.escrows.get? (escrowOf alice) with
  | some p, some e =>
    (match Handler.processWithdraw (.fcfs 0) p e 1 with
     | .error .panic => true
     | _ => false)
  | _, _ => false) = true := by decide +kernel
example : (match step fcfsOpen (withdraw alice aliceQuote 1) with
  | .error (.p .presaleNotOpenForWithdraw) => true
  | _ => false) = true := by decide +kernel

/-- Six registries do not fit, without the check on their number. -/
example : (match initRegistriesLoop (List.replicate 6 ⟨1, 1, 1, 0⟩) 0
    (List.replicate 5 Registry.fresh) 0 with
  | .error .panic => true
  | _ => false) = true := by decide +kernel

/-- A fee rate over 100%, which the token program does not allow, breaks the fee inversion. -/
example : (match transferFeeIncludedAmount ⟨.splToken2022, false, [], some ⟨20000, 100⟩, none, 0⟩ 7 with
  | .error .panic => true
  | _ => false) = true := by decide +kernel

end Ex
end Verif
