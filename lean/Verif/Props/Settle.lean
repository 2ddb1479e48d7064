import Verif.Lemmas.Settle
import Verif.Props.Order
/-!
# The order of settlement
-/

namespace Verif
open Spec

/-- The instruction in its transaction. -/
def asIx (z : Tx × Ix) : Op := .ix z.1 z.2

theorem done_run {w w' : World} {l : List (Tx × Ix)} (h : Done w l w') :
    run w (l.map asIx) = w' ∧ (trace w (l.map asIx)).length = l.length := by
  induction h with
  | nil => exact ⟨rfl, rfl⟩
  | cons succeeds rest ih =>
    simp only [List.map_cons, run, asIx, apply, trace, succeeds, List.length_cons, Nat.add_right_cancel_iff]
    exact ih

theorem done_of_trace (l : List (Tx × Ix)) :
    ∀ {w : World}, (trace w (l.map asIx)).length = l.length → Done w l (run w (l.map asIx)) := by
  induction l with
  | nil => intro w _; exact .nil w
  | cons z l ih =>
    intro w ht
    obtain ⟨tx, i⟩ := z
    cases hstep : step w (.ix tx i) with
    | error e =>
      have hlt := trace_short (l.map asIx) w
      rw [List.length_map] at hlt
      have heq : trace w (((tx, i) :: l).map asIx) = trace w (l.map asIx) := by
        simp only [List.map_cons, asIx, trace, hstep]
      rw [heq, List.length_cons] at ht
      omega
    | ok v =>
      obtain ⟨w1, rc⟩ := v
      have heq : trace w (((tx, i) :: l).map asIx) = ⟨w, asIx (tx, i), rc, w1⟩ :: trace w1 (l.map asIx) := by
        simp only [List.map_cons, asIx, trace, hstep]
      rw [heq, List.length_cons, List.length_cons, Nat.add_right_cancel_iff] at ht
      have hrun : run w (((tx, i) :: l).map asIx) = run w1 (l.map asIx) := by
        simp only [List.map_cons, run, asIx, apply, hstep]
      rw [hrun]
      exact .cons hstep (ih ht)

/-- **C99.** The order of settlement does not matter: if claims, refunds, refreshes, closings, the creator's
withdrawals, collections of fees and dealings with unsold supply, of one sale or several and each with a task of its own,
all succeed one after another, then they succeed in every other order and lead to the same ledger. -/
theorem C99_any_order {w w' : World} (R : Reachable w) {l l' : List (Tx × Ix)} (h : Done w l w')
    (hi : l.Pairwise (fun y z => Independent y.2 z.2)) (hd : ∀ z ∈ l, ∀ d, payee z.2 = some d → d.isVault = false)
    (hp : l'.Perm l) : Done w l' w' :=
  done_perm hp.symm R h hi hd

/-- **C99.** The same in terms of histories: whichever order they are sent in, all succeed, and every account of the
ledger ends the same. -/
theorem C99_same_ledger {w : World} (R : Reachable w) {l l' : List (Tx × Ix)}
    (hall : (trace w (l.map asIx)).length = l.length) (hi : l.Pairwise (fun y z => Independent y.2 z.2))
    (hd : ∀ z ∈ l, ∀ d, payee z.2 = some d → d.isVault = false) (hp : l'.Perm l) :
    run w (l'.map asIx) = run w (l.map asIx) ∧ (trace w (l'.map asIx)).length = l'.length :=
  done_run (C99_any_order R (done_of_trace l hall) hi hd hp)

/-- **C99.** Nobody can be shut out by others being first: what succeeds after the rest of the settlement would have
succeeded before it. -/
theorem C99_first {w w' : World} (R : Reachable w) {l : List (Tx × Ix)} {z : Tx × Ix} (h : Done w (l ++ [z]) w')
    (hi : (l ++ [z]).Pairwise (fun y z => Independent y.2 z.2))
    (hd : ∀ y ∈ l ++ [z], ∀ d, payee y.2 = some d → d.isVault = false) :
    ∃ w1 rc, step w (.ix z.1 z.2) = .ok (w1, rc) ∧ Done w1 l w' := by
  have h' : Done w (z :: l) w' := C99_any_order R h hi hd (List.perm_append_singleton z l).symm
  cases h' with
  | cons succeeds rest => exact ⟨_, _, succeeds, rest⟩

namespace Ex

def closeAcc (owner : Addr) : CloseEscrowAcc :=
  { presale := sale, escrow := escrowOf owner, owner := owner, rentReceiver := owner }

/-- Settling an oversubscribed pro-rata sale. -/
def settling : List (Tx × Ix) :=
  [(tx [alice], .claim (claimAcc alice aliceBase)), (tx [bob], .refund (refundAcc bob bobQuote)),
   (tx [], .refresh { presale := sale, escrow := escrowOf bob }), (tx [creator], .creatorWithdraw creatorWithdrawAcc),
   (tx [alice], .refund (refundAcc alice aliceQuote)), (tx [bob], .claim (claimAcc bob bobBase)),
   (tx [creator], .collectFee collectFeeAcc)]

/-- Settling a fixed-price sale with unsold supply. -/
def settlingFixed : List (Tx × Ix) :=
  [(tx [], .unsold unsoldAcc), (tx [alice], .claim (claimAcc alice aliceBase)),
   (tx [], .refresh { presale := sale, escrow := escrowOf alice }), (tx [creator], .creatorWithdraw creatorWithdrawAcc),
   (tx [creator], .collectFee collectFeeAcc)]

/-- Whether `Separate` holds, as a computation. -/
def apartSlots (s t : Slot) : Bool :=
  decide (s ≠ t) && (match s with | .close k => decide (t.key ≠ some k) | _ => true) &&
    (match t with | .close k => decide (s.key ≠ some k) | _ => true)

def apartIx (i j : Ix) : Bool := match slot i, slot j with | some s, some t => apartSlots s t | _, _ => false

def outward (i : Ix) : Bool := match payee i with | some d => !d.isVault | none => true

example : (trace prorataVested (settling.map asIx)).length = settling.length ∧
    (trace prorataVested (settling.reverse.map asIx)).length = settling.length ∧
    (settling.all fun z => outward z.2) = true ∧
    (settling.zipIdx.all fun y => settling.zipIdx.all fun z => y.2 == z.2 || apartIx y.1.2 z.1.2) = true ∧
    (run prorataVested (settling.map asIx)).escrows = (run prorataVested (settling.reverse.map asIx)).escrows ∧
    (run prorataVested (settling.map asIx)).escrows ≠ prorataVested.escrows := by
  decide +kernel

example : (trace fixedVested (settlingFixed.map asIx)).length = settlingFixed.length ∧
    (trace fixedVested (settlingFixed.reverse.map asIx)).length = settlingFixed.length ∧
    (settlingFixed.all fun z => outward z.2) = true ∧
    (settlingFixed.zipIdx.all fun y => settlingFixed.zipIdx.all fun z => y.2 == z.2 || apartIx y.1.2 z.1.2) = true := by
  decide +kernel

end Ex

/-- **C99.** Closing an escrow has to wait for its claim: in this order both succeed, in the other the closing is
refused. The two have different tasks, but the closing is about the same escrow. -/
theorem C99_close_last :
    ∃ w, Reachable w ∧ ∃ (c : Tx × Ix) (x : Tx × Ix) (w1 w2 : World) (r1 r2 : Receipt) (e : Err),
      slot c.2 = some (.claim (Ex.escrowOf Ex.alice)) ∧ slot x.2 = some (.close (Ex.escrowOf Ex.alice)) ∧
      step w (.ix c.1 c.2) = .ok (w1, r1) ∧ step w1 (.ix x.1 x.2) = .ok (w2, r2) ∧
      step w (.ix x.1 x.2) = .error e := by
  have key : ∀ (w : World) (c x : Op), Ex.works w c = true → Ex.works (apply w c) x = true → Ex.works w x = false →
      ∃ w1 w2 r1 r2 e, step w c = .ok (w1, r1) ∧ step w1 x = .ok (w2, r2) ∧ step w x = .error e := by
    intro w c x h1 h2 h3
    unfold Ex.works at h1 h2 h3
    unfold apply at h2
    cases e1 : step w c with
    | error e => rw [e1] at h1; cases h1
    | ok v =>
      rw [e1] at h2
      simp only at h2
      cases e2 : step v.1 x with
      | error e => rw [e2] at h2; cases h2
      | ok u =>
        cases e3 : step w x with
        | ok u' => rw [e3] at h3; cases h3
        | error e => exact ⟨v.1, u.1, v.2, u.2, e, rfl, e2, rfl⟩
  obtain ⟨w1, w2, r1, r2, e, h⟩ := key (apply Ex.prorataVested (Ex.refund Ex.alice Ex.aliceQuote))
    (.ix (Ex.tx [Ex.alice]) (.claim (Ex.claimAcc Ex.alice Ex.aliceBase)))
    (.ix (Ex.tx [Ex.alice]) (.closeEscrow (Ex.closeAcc Ex.alice))) (by decide +kernel) (by decide +kernel)
    (by decide +kernel)
  exact ⟨_, Ex.reachable (Ex.prorataOps ++ [.tick 2000, Ex.refund Ex.alice Ex.aliceQuote]),
    ⟨Ex.tx [Ex.alice], .claim (Ex.claimAcc Ex.alice Ex.aliceBase)⟩,
    ⟨Ex.tx [Ex.alice], .closeEscrow (Ex.closeAcc Ex.alice)⟩, w1, w2, r1, r2, e, rfl, rfl, h⟩

end Verif
