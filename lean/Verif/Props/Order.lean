import Verif.Lemmas.Order
import Verif.Props.Dust
/-!
# The order of deposits
-/

namespace Verif
open Spec

/-- The instruction of a deposit. -/
def asOp (z : Tx × DepositAcc) : Op := .ix z.1 (.deposit z.2)

theorem inTurn_run {a : Addr} {w w' : World} {l : List (Tx × DepositAcc)} (h : InTurn a w l w') :
    run w (l.map asOp) = w' := by
  induction h with
  | nil => rfl
  | cons sale succeeds full rest ih =>
    simp only [List.map_cons, run, asOp, apply, succeeds]
    exact ih

theorem inTurn_trace {a : Addr} {w w' : World} {l : List (Tx × DepositAcc)} (h : InTurn a w l w') :
    (trace w (l.map asOp)).length = l.length := by
  induction h with
  | nil => rfl
  | cons sale succeeds full rest ih =>
    simp only [List.map_cons, asOp, trace, succeeds, List.length_cons, Nat.add_right_cancel_iff]
    exact ih

theorem trace_short (ops : List Op) : ∀ w, (trace w ops).length ≤ ops.length := by
  induction ops with
  | nil => intro w; exact Nat.le_refl _
  | cons op ops ih =>
    intro w
    unfold trace
    split
    · exact Nat.succ_le_succ (ih _)
    · exact Nat.le_succ_of_le (ih _)

/-- **C94.** While there is room, the order of deposits does not matter: if deposits into different escrows of a
sale all succeed, each in full, and at a fixed price do not exceed what the registries offer, then they succeed in full
in any other order, and the resulting ledger is the same in every account. -/
theorem C94_any_order {w w' : World} (R : Reachable w) {a : Addr} {l l' : List (Tx × DepositAcc)}
    (h : InTurn a w l w') (hd : (l.map fun z => z.2.escrow).Nodup)
    (hs : ∀ z ∈ l, NotSelfDelegated w.tk z.2.payerQuoteToken) (hw : WithinSupply w' a) (hp : l'.Perm l) :
    InTurn a w l' w' ∧ run w (l'.map asOp) = run w (l.map asOp) := by
  have h' := inTurn_perm hp.symm R h hd hs hw
  exact ⟨h', by rw [inTurn_run h, inTurn_run h']⟩

/-- **C94.** In a pro-rata sale there always is room: a deposit that succeeds is taken in full. -/
theorem C94_prorata_full {w w' : World} (R : Reachable w) {tx : Tx} {x : DepositAcc} {rc : Receipt} {p : Presale}
    (hs : step w (.ix tx (.deposit x)) = .ok (w', rc)) (hp : w.presales x.presale = some p) (hm : p.presaleMode = 1) :
    TakenInFull w x w' := by
  obtain ⟨q, e, r, m, n, f, g, k, D⟩ := (does_deposit R).1 ⟨_, hs⟩
  have hq := D.presale
  rw [hp] at hq; cases hq
  refine (full_amount D).2 ?_
  have h := D.taken.2
  unfold DepositTaken remainingQuota at h
  rw [if_pos (Or.inl hm), if_pos hm] at h
  unfold Unhindered
  rw [if_pos (Or.inl hm)]
  exact h

theorem prorata_inTurn {a : Addr} (l : List (Tx × DepositAcc)) :
    ∀ {w : World} {p : Presale}, Reachable w → w.presales a = some p → p.presaleMode = 1 →
      (∀ z ∈ l, z.2.presale = a) → (trace w (l.map asOp)).length = l.length →
      InTurn a w l (run w (l.map asOp)) ∧ ∃ q, (run w (l.map asOp)).presales a = some q ∧ q.presaleMode = 1 := by
  induction l with
  | nil => intro w p _ hp hm _ _; exact ⟨.nil w, p, hp, hm⟩
  | cons z l ih =>
    intro w p R hp hm ha ht
    obtain ⟨tx, x⟩ := z
    have hx : x.presale = a := ha _ List.mem_cons_self
    cases hstep : step w (.ix tx (.deposit x)) with
    | error e =>
      have hlt := trace_short (l.map asOp) w
      rw [List.length_map] at hlt
      have heq : trace w (((tx, x) :: l).map asOp) = trace w (l.map asOp) := by
        simp only [List.map_cons, asOp, trace, hstep]
      rw [heq, List.length_cons] at ht
      omega
    | ok v =>
      obtain ⟨w1, rc⟩ := v
      have heq : trace w (((tx, x) :: l).map asOp) = ⟨w, asOp (tx, x), rc, w1⟩ :: trace w1 (l.map asOp) := by
        simp only [List.map_cons, asOp, trace, hstep]
      rw [heq, List.length_cons, List.length_cons, Nat.add_right_cancel_iff] at ht
      obtain ⟨q, e, r, m, n, f, g, k, D⟩ := (does_deposit R).1 ⟨_, hstep⟩
      have hq := D.presale
      rw [hx, hp] at hq; cases hq
      have hp1 : w1.presales a = some (afterDeposit p e.registryIndex r n f w.clock.toNat) := by
        rw [D.post, hx]; exact upd_self _ _ _
      have hm1 : (afterDeposit p e.registryIndex r n f w.clock.toNat).presaleMode = 1 := by
        rw [afterDeposit_grown]; split <;> exact hm
      obtain ⟨this, hlast⟩ := ih (R.step hstep) hp1 hm1 (fun z hz => ha z (List.mem_cons_of_mem _ hz)) ht
      have hrun : run w (((tx, x) :: l).map asOp) = run w1 (l.map asOp) := by
        simp only [List.map_cons, run, asOp, apply, hstep]
      rw [hrun]
      exact ⟨.cons hx hstep (C94_prorata_full R hstep (by rw [hx]; exact hp) hm) this, hlast⟩

/-- **C94.** Deposits into different escrows of a pro-rata sale lead to the same ledger in whatever order they are
made: if they all succeed in one order, so they do in any other. -/
theorem C94_prorata {w : World} (R : Reachable w) {a : Addr} {p : Presale} {l l' : List (Tx × DepositAcc)}
    (hp : w.presales a = some p) (hm : p.presaleMode = 1) (ha : ∀ z ∈ l, z.2.presale = a)
    (hall : (trace w (l.map asOp)).length = l.length) (hd : (l.map fun z => z.2.escrow).Nodup)
    (hs : ∀ z ∈ l, NotSelfDelegated w.tk z.2.payerQuoteToken) (hl : l'.Perm l) :
    run w (l'.map asOp) = run w (l.map asOp) ∧ (trace w (l'.map asOp)).length = l'.length := by
  obtain ⟨h, q, hq, hqm⟩ := prorata_inTurn l R hp hm ha hall
  have hw : WithinSupply (run w (l.map asOp)) a := by
    intro q' hq'
    rw [hq] at hq'; cases hq'
    exact .inl hqm
  obtain ⟨h1, h2⟩ := C94_any_order R h hd hs hw hl
  exact ⟨h2, inTurn_trace h1⟩

/-! ## The conditions are needed -/

namespace Ex

/-- Makes a deposit and checks that it is taken in full. -/
def fullStep (w : World) (z : Tx × DepositAcc) : Option World :=
  match step w (.ix z.1 (.deposit z.2)) with
  | .error _ => none
  | .ok (w', _) =>
    match w.presales z.2.presale, w.escrows.get? z.2.escrow, w'.escrows.get? z.2.escrow with
    | some p, some e, some e' =>
      match p.registries[e.registryIndex]? with
      | none => none
      | some r =>
        let n := e'.totalDeposit - e.totalDeposit
        let o := min z.2.maxAmount (personalQuota r e)
        if (p.presaleMode = 1 ∨ p.presaleMode = 2) ∧ n = o then some w'
        else if ¬ (p.presaleMode = 1 ∨ p.presaleMode = 2) ∧ n ≤ o ∧ tokensAtPrice p.raw0 n = tokensAtPrice p.raw0 o ∧
            0 < n ∧ tokensAtPrice p.raw0 (n - 1) < tokensAtPrice p.raw0 o then some w'
        else none
    | _, _, _ => none

theorem fullStep_ok {w w' : World} {z : Tx × DepositAcc} (h : fullStep w z = some w') :
    (∃ rc, step w (.ix z.1 (.deposit z.2)) = .ok (w', rc)) ∧ TakenInFull w z.2 w' := by
  unfold fullStep at h
  split at h
  · cases h
  · next w1 rc hs =>
    split at h
    · next p e e' hp he he' =>
      split at h
      · cases h
      · next r hr =>
        simp only at h
        split at h
        · next hc =>
          cases h
          refine ⟨⟨rc, hs⟩, p, e, e', r, hp, he, he', hr, ?_⟩
          unfold Unhindered
          rw [if_pos hc.1]
          exact hc.2
        · split at h
          · next hc =>
            cases h
            refine ⟨⟨rc, hs⟩, p, e, e', r, hp, he, he', hr, ?_⟩
            unfold Unhindered
            rw [if_neg hc.1]
            obtain ⟨_, h1, h2, h3, h4⟩ := hc
            refine ⟨h1, h2, fun l hl => ?_⟩
            exact Nat.lt_of_le_of_lt (tokensAtPrice_mono (Nat.le_sub_one_of_lt hl)) h4
          · cases h
    · cases h

/-- Makes deposits and checks that all are taken in full. -/
def fullSteps (w : World) : List (Tx × DepositAcc) → Option World
  | [] => some w
  | z :: l => match fullStep w z with
    | none => none
    | some w' => fullSteps w' l

theorem fullSteps_ok {a : Addr} (l : List (Tx × DepositAcc)) : ∀ {w w' : World}, fullSteps w l = some w' →
    (∀ z ∈ l, z.2.presale = a) → InTurn a w l w' := by
  induction l with
  | nil => intro w w' h _; cases h; exact .nil w
  | cons z l ih =>
    intro w w' h ha
    unfold fullSteps at h
    split at h
    · cases h
    · next w1 h1 =>
      obtain ⟨⟨rc, hs⟩, hf⟩ := fullStep_ok h1
      exact .cons (ha z List.mem_cons_self) hs hf (ih h fun y hy => ha y (List.mem_cons_of_mem _ hy))

/-- A deposit from the owner's account. -/
def put (owner tok : Addr) (amount : Nat) : Tx × DepositAcc := (tx [owner], depositAcc owner tok amount)

/-- At a price of one and a half, a registry of five tokens has sold two, for two units each. -/
def nearlyOps : List Op :=
  [setPrice (3 * 2 ^ 63), sell 0 2 1 30 2 2000 1000 50 [5, 20], hireOperator, .tick 10, letUpTo 30 alice 0,
   letUpTo 30 bob 0, deposit alice aliceQuote 2, deposit alice aliceQuote 2]

def nearlyGone : World := run genesis nearlyOps

/-- Pro-rata: three buyers, the first two paying from the same account. -/
def crowdOps : List Op :=
  [init 1 0 0 reg1, .tick 10, open' alice, open' bob, open' creator,
   .setTok creatorQuote (some (acct qm creator 5000))]

def crowd : World := run genesis crowdOps

def crowdPuts : List (Tx × DepositAcc) :=
  [put alice aliceQuote 900, (tx [alice], { depositAcc bob aliceQuote 600 with payer := alice }),
   put creator creatorQuote 70]

end Ex

namespace Ex

theorem fullStep_complete {w w' : World} (R : Reachable w) {z : Tx × DepositAcc} {rc : Receipt}
    (hs : step w (.ix z.1 (.deposit z.2)) = .ok (w', rc)) (hf : TakenInFull w z.2 w') : fullStep w z = some w' := by
  obtain ⟨p, e, r, m, n, f, g, k, D⟩ := (does_deposit R).1 ⟨_, hs⟩
  have hu := (full_amount D).1 hf
  have he' : w'.escrows.get? z.2.escrow = some { e with
      totalDeposit := e.totalDeposit + n
      totalDepositFee := e.totalDepositFee + f } := by
    rw [D.post]
    simp only [AMap.get?_set, if_true]
  have hn := D.taken.1
  unfold fullStep
  simp only [hs, D.presale, D.escrow.1, he', D.registry, Nat.add_sub_cancel_left]
  unfold Unhindered at hu
  by_cases hm : p.presaleMode = 1 ∨ p.presaleMode = 2
  · rw [if_pos hm] at hu
    rw [if_pos ⟨hm, hu⟩]
  · rw [if_neg hm] at hu
    rw [if_neg (fun h => hm h.1), if_pos ⟨hm, hu.le, hu.same, hn, hu.least _ (by omega)⟩]

theorem fullSteps_complete {a : Addr} {w w' : World} {l : List (Tx × DepositAcc)} (h : InTurn a w l w')
    (R : Reachable w) : fullSteps w l = some w' := by
  induction h with
  | nil => rfl
  | cons sale succeeds full rest ih =>
    unfold fullSteps
    rw [fullStep_complete R succeeds full]
    exact ih (R.step succeeds)

/-- Nobody is the delegate of the account. -/
def undelegated (w : World) (src : Addr) : Bool :=
  match w.tk.toks src with
  | some s => decide (s.delegate = none)
  | none => true

theorem undelegated_ok {w : World} {src : Addr} (h : undelegated w src = true) : NotSelfDelegated w.tk src := by
  intro s n hs
  unfold undelegated at h
  rw [hs] at h
  simp only [decide_eq_true_eq] at h
  rw [h]
  simp

/-- What Alice puts in for herself, and, from the same account, for Bob. -/
def aliceForBoth : List (Tx × DepositAcc) :=
  [put alice aliceQuote 100, (tx [alice], { depositAcc bob aliceQuote 600 with payer := alice })]

/-- Alice is the delegate of their own account, up to exactly what a deposit of 100 costs. -/
def selfish : World :=
  run genesis [init 1 0 0 reg1, .tick 10, open' alice, open' bob,
    .setTok aliceQuote (some { acct qm alice 100000 with delegate := some (alice, 105) })]

end Ex

/-- **C94.** That the registries are not sold out beyond their supply is needed: at a fixed price, rounding can make
two deposits fit in one order only. -/
theorem C94_supply_needed : ∃ (w w' : World) (a : Addr) (z1 z2 : Tx × DepositAcc), Reachable w ∧
    z1.2.escrow ≠ z2.2.escrow ∧ (∀ z ∈ [z1, z2], NotSelfDelegated w.tk z.2.payerQuoteToken) ∧
    InTurn a w [z1, z2] w' ∧ (trace w ([z2, z1].map asOp)).length = 2 ∧ ¬ ∃ w'', InTurn a w [z2, z1] w'' := by
  have R : Reachable Ex.nearlyGone := ⟨_, _, Ex.genesis_ok, rfl⟩
  have h1 : (Ex.fullSteps Ex.nearlyGone [Ex.put Ex.alice Ex.aliceQuote 3, Ex.put Ex.bob Ex.bobQuote 2]).isSome = true := by
    decide +kernel
  have h2 : (Ex.fullSteps Ex.nearlyGone [Ex.put Ex.bob Ex.bobQuote 2, Ex.put Ex.alice Ex.aliceQuote 3]).isSome = false := by
    decide +kernel
  have h3 : Ex.undelegated Ex.nearlyGone Ex.aliceQuote = true ∧ Ex.undelegated Ex.nearlyGone Ex.bobQuote = true := by
    decide +kernel
  obtain ⟨w', hw'⟩ := Option.isSome_iff_exists.1 h1
  refine ⟨Ex.nearlyGone, w', Ex.sale, Ex.put Ex.alice Ex.aliceQuote 3, Ex.put Ex.bob Ex.bobQuote 2, R, by decide,
    ?_, Ex.fullSteps_ok _ hw' ?_, by decide +kernel, ?_⟩
  · intro z hz
    simp only [List.mem_cons, List.not_mem_nil, or_false] at hz
    rcases hz with rfl | rfl
    · exact Ex.undelegated_ok h3.1
    · exact Ex.undelegated_ok h3.2
  · intro z hz
    simp only [List.mem_cons, List.not_mem_nil, or_false] at hz
    rcases hz with rfl | rfl <;> rfl
  · rintro ⟨w'', h⟩
    rw [Ex.fullSteps_complete h R] at h2
    cases h2

/-- **C94.** That owners are not their own delegates is needed: the allowance a buyer gave themselves stops a
larger payment until a smaller one has used it up. -/
theorem C94_delegate_needed : ∃ (w w' : World) (a : Addr) (z1 z2 : Tx × DepositAcc), Reachable w ∧
    z1.2.escrow ≠ z2.2.escrow ∧ InTurn a w [z1, z2] w' ∧ WithinSupply w' a ∧
    ¬ ∃ w'', InTurn a w [z2, z1] w'' := by
  have R : Reachable Ex.selfish := ⟨_, _, Ex.genesis_ok, rfl⟩
  have h1 : (match Ex.fullSteps Ex.selfish Ex.aliceForBoth with
    | some w => match w.presales Ex.sale with
      | some p => decide (p.presaleMode = 1)
      | none => false
    | none => false) = true := by decide +kernel
  have h2 : (Ex.fullSteps Ex.selfish Ex.aliceForBoth.reverse).isSome = false := by decide +kernel
  split at h1
  · next w' hw' =>
    split at h1
    · next p hp =>
      refine ⟨Ex.selfish, w', Ex.sale, _, _, R, ?_, Ex.fullSteps_ok _ hw' ?_, ?_, ?_⟩
      · decide
      · intro z hz
        simp only [List.mem_cons, List.not_mem_nil, or_false] at hz
        rcases hz with rfl | rfl <;> rfl
      · intro q hq
        rw [hp] at hq; cases hq
        exact .inl (of_decide_eq_true h1)
      · rintro ⟨w'', h⟩
        have := Ex.fullSteps_complete h R
        simp only [Ex.aliceForBoth, List.reverse_cons, List.reverse_nil, List.nil_append, List.cons_append] at h2
        rw [this] at h2
        cases h2
    · cases h1
  · cases h1

/-! ## Examples -/

namespace Ex

/-- Three deposits into a pro-rata sale, two of them paid from the same account, and the reverse order. -/
example : crowd.presales sale ≠ none ∧ has crowd (fun p => decide (p.presaleMode = 1)) = true ∧
    (trace crowd (crowdPuts.map asOp)).length = 3 ∧ (crowdPuts.map fun z => z.2.escrow).Nodup ∧
    (crowdPuts.all fun z => undelegated crowd z.2.payerQuoteToken) = true ∧
    (run crowd (crowdPuts.map asOp)).escrows.map (fun y => y.2.totalDeposit) = [900, 600, 70] ∧
    (run crowd (crowdPuts.reverse.map asOp)).escrows.map (fun y => y.2.totalDeposit) = [900, 600, 70] := by
  decide +kernel

/-- First come, first served: the cap of 1000 leaves room for both deposits, or it does not. -/
def twoPuts (n : Nat) : List (Tx × DepositAcc) := [put alice aliceQuote 500, put bob bobQuote n]

def freshFcfs : World := run genesis [init 2 0 0 reg1, .tick 10, open' alice, open' bob]

example : (fullSteps freshFcfs (twoPuts 500)).isSome = true ∧ (fullSteps freshFcfs (twoPuts 500).reverse).isSome = true ∧
    (run freshFcfs ((twoPuts 500).map asOp)).escrows.map (fun y => y.2.totalDeposit) = [500, 500] ∧
    (run freshFcfs ((twoPuts 500).reverse.map asOp)).escrows.map (fun y => y.2.totalDeposit) = [500, 500] ∧
    (run freshFcfs ((twoPuts 800).map asOp)).escrows.map (fun y => y.2.totalDeposit) = [500, 500] ∧
    (run freshFcfs ((twoPuts 800).reverse.map asOp)).escrows.map (fun y => y.2.totalDeposit) = [200, 800] := by
  decide +kernel

/-- Fixed price: deposits that fit. -/
def freshFixed : World := run genesis [fixedArgsOp, init 0 0 1 reg1, .tick 10, open' alice, open' bob]

example : (fullSteps freshFixed (twoPuts 109)).isSome = true ∧
    has (run freshFixed ((twoPuts 109).map asOp)) (fun p => p.registries.all fun r =>
      decide (tokensAtPrice p.raw0 r.totalDeposit ≤ r.presaleSupply)) = true ∧
    (run freshFixed ((twoPuts 109).map asOp)).escrows.map (fun y => y.2.totalDeposit) = [500, 108] ∧
    (run freshFixed ((twoPuts 109).reverse.map asOp)).escrows.map (fun y => y.2.totalDeposit) = [500, 108] := by
  decide +kernel

end Ex

end Verif
