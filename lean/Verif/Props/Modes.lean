import Verif.Props.Terms
/-!
# C117: the three kinds of sale compared

With the same deposits, the kinds of sale differ only in the tokens handed out and in what is given back above the cap.
-/

namespace Verif
open Spec

theorem sameFrame_later {p q p' q' : Presale} (D : SameFrame p q) (A : SameTotals p p') (B : SameTotals q q') :
    SameFrame p' q' :=
  ⟨B.minimum.trans (D.minimum.trans A.minimum.symm), B.maximum.trans (D.maximum.trans A.maximum.symm),
    B.release.trans (D.release.trans A.release.symm), B.supplies.trans (D.supplies.trans A.supplies.symm)⟩

/-- Below the cap nothing is given back in a completed sale, whatever its mode. -/
theorem refund_within {p : Presale} (h : p.totalDeposit ≤ p.presaleMaximumCap) (r : Registry) :
    registryFeeRefund p r = 0 ∧ ∀ e, refundDeposit p r e = 0 ∧ refundFee p r e = 0 := by
  have h0 : registrySurplus p r = 0 := by
    unfold registrySurplus surplus
    rw [Nat.sub_eq_zero_of_le h, Nat.zero_mul, Nat.zero_div]
  have h1 : registryFeeRefund p r = 0 := by
    unfold registryFeeRefund
    rw [h0, Nat.mul_zero, Nat.zero_div]
  refine ⟨h1, fun e => ⟨?_, ?_⟩⟩
  · unfold refundDeposit
    rw [h0, Nat.mul_zero, Nat.zero_div, ite_self]
  · unfold refundFee
    rw [h1, Nat.mul_zero, Nat.zero_div, ite_self]

/-- Below the cap the creator collects all fees, whatever the mode. -/
theorem fees_within {p : Presale} (h : p.totalDeposit ≤ p.presaleMaximumCap)
    (hf : p.totalDepositFee = (p.registries.map Registry.totalDepositFee).sum) :
    collectableFee p = p.totalDepositFee := by
  unfold collectableFee
  split
  · rw [hf]
    refine congrArg List.sum (List.map_congr_left fun r _ => ?_)
    rw [(refund_within h r).1, Nat.sub_zero]
  · rfl

/-- **C117.** Within the cap the kind of sale makes no difference to the money. Take two sales of whatever kinds with the
same caps that end with the same deposits and fees in each registry, the first of them not pro-rata, or with deposits
that do not exceed the cap. Whatever happens afterwards, both have succeeded or both have failed, both raise exactly the
deposits, both creators may collect all fees, and two escrows with the same deposit and fee in the same registry are
refunded the same: everything if the sales failed, otherwise nothing. -/
theorem C117_money {w v : World} {a b : Addr} {p q : Presale} (J : JustEnded w a p) (K : JustEnded v b q)
    (D : SameFrame p q) (E : SameEntries w a v b)
    (hm : p.presaleMode ≠ 1 ∨ p.totalDeposit ≤ p.presaleMaximumCap) (ops more : List Op) :
    ∃ p' q', (run w ops).presales a = some p' ∧ (run v more).presales b = some q' ∧
      (Completed p' (run w ops).clock ↔ Completed q' (run v more).clock) ∧
      (Failed p' (run w ops).clock ↔ Failed q' (run v more).clock) ∧
      raise p' = p.totalDeposit ∧ raise q' = p.totalDeposit ∧
      collectableFee p' = p.totalDepositFee ∧ collectableFee q' = p.totalDepositFee ∧
      ∀ k l e f, (run w ops).escrows.get? k = some e → (run v more).escrows.get? l = some f → e.presale = a →
        f.presale = b → f.registryIndex = e.registryIndex → f.totalDeposit = e.totalDeposit →
        f.totalDepositFee = e.totalDepositFee →
        ∃ r s, p'.registries[e.registryIndex]? = some r ∧ q'.registries[e.registryIndex]? = some s ∧
          owedRefund q' s f = owedRefund p' r e ∧
          owedRefund p' r e =
            if p.totalDeposit < p.presaleMinimumCap then e.totalDeposit + e.totalDepositFee else 0 := by
  obtain ⟨p', hp', L⟩ := run_later J.reachable.winv ops J.presale
  obtain ⟨q', hq', M⟩ := run_later K.reachable.winv more K.presale
  have A := alike_later J hp'
  have B := alike_later K hq'
  have I := (income_of_ended J K E).later A B
  have D' := sameFrame_later D A B
  have P := ((J.reachable.run ops).winv.core.sale a p' hp').pinv
  have Q := ((K.reachable.run more).winv.core.sale b q' hq').pinv
  have T := C03_totals (J.reachable.run ops) hp'
  have U := C03_totals (K.reachable.run more) hq'
  have o1 := L.over J.over
  have o2 := M.over K.over
  have c0 : p.totalDeposit ≤ p.presaleMaximumCap := hm.elim (fun h => (C04_hard_cap J.reachable J.presale h).1) id
  have c1 : p'.totalDeposit ≤ p'.presaleMaximumCap := by rw [A.total, A.maximum]; exact c0
  have c2 : q'.totalDeposit ≤ q'.presaleMaximumCap := by rw [I.total, D'.maximum]; exact c1
  refine ⟨p', q', hp', hq', ?_, ?_, ?_, ?_, ?_, ?_, ?_⟩
  · unfold Completed
    rw [I.total, D'.minimum]
    exact ⟨fun h => ⟨o2, h.2⟩, fun h => ⟨o1, h.2⟩⟩
  · unfold Failed
    rw [I.total, D'.minimum]
    exact ⟨fun h => ⟨o2, h.2⟩, fun h => ⟨o1, h.2⟩⟩
  · unfold raise
    rw [Nat.min_eq_left c1, A.total]
  · unfold raise
    rw [Nat.min_eq_left c2, I.total, A.total]
  · rw [fees_within c1 T.2.1, A.totalFee]
  · rw [fees_within c2 U.2.1, I.totalFee, A.totalFee]
  · intro k l e f hk hl ha hb hi hd hf
    obtain ⟨r, hr, -⟩ := P.escBook hk ha
    obtain ⟨s, hs, -⟩ := Q.escBook hl hb
    rw [hi] at hs
    have e1 : owedRefund p' r e =
        if p.totalDeposit < p.presaleMinimumCap then e.totalDeposit + e.totalDepositFee else 0 := by
      unfold owedRefund
      rw [((refund_within c1 r).2 e).1, ((refund_within c1 r).2 e).2, A.total, A.minimum]
    refine ⟨r, s, hr, hs, ?_, e1⟩
    rw [e1]
    unfold owedRefund
    rw [((refund_within c2 s).2 f).1, ((refund_within c2 s).2 f).2, I.total, D'.minimum, A.total, A.minimum, hd, hf]

/-- **C117.** A fixed price never gives more tokens than the whole supply. Take two sales with the same supplies and the
same part released at once that end with the same deposits and fees in each registry, the second pro-rata or first come,
first served. Whatever happens afterwards, the first sells no more tokens than the second, and no escrow of it is
entitled to more tokens than an escrow with the same deposit in the same registry of the second; at every moment, if no
date is later. If the first is of one of those two kinds as well, the amounts are the same. -/
theorem C117_tokens {w v : World} {a b : Addr} {p q : Presale} (J : JustEnded w a p) (K : JustEnded v b q)
    (D : SameFrame p q) (E : SameEntries w a v b) (hq : WholeSupply q) (ops more : List Op) :
    ∃ p' q', (run w ops).presales a = some p' ∧ (run v more).presales b = some q' ∧
      totalSold p' ≤ totalSold q' ∧ (WholeSupply p → totalSold q' = totalSold p') ∧
      ∀ k l e f, (run w ops).escrows.get? k = some e → (run v more).escrows.get? l = some f → e.presale = a →
        f.presale = b → f.registryIndex = e.registryIndex → f.totalDeposit = e.totalDeposit →
        ∃ r s, p'.registries[e.registryIndex]? = some r ∧ q'.registries[e.registryIndex]? = some s ∧
          entitlement p' r e ≤ entitlement q' s f ∧ (WholeSupply p → entitlement q' s f = entitlement p' r e) ∧
          (NoLater p' q' → ∀ t, claimableAt p' r e t ≤ claimableAt q' s f t) ∧
          (WholeSupply p → SameRelease p' q' → q'.vestDuration = p'.vestDuration →
            ∀ t, claimableAt q' s f t = claimableAt p' r e t) := by
  obtain ⟨p', hp', -⟩ := run_later J.reachable.winv ops J.presale
  obtain ⟨q', hq', -⟩ := run_later K.reachable.winv more K.presale
  have A := alike_later J hp'
  have B := alike_later K hq'
  have I := (income_of_ended J K E).later A B
  have D' := sameFrame_later D A B
  have P := ((J.reachable.run ops).winv.core.sale a p' hp').pinv
  have Q := ((K.reachable.run more).winv.core.sale b q' hq').pinv
  have hl := P.static.len.trans Q.static.len.symm
  have wq : q'.presaleMode = 1 ∨ q'.presaleMode = 2 := by rw [B.mode]; exact hq
  have same : WholeSupply p → ∀ (i : Nat) (r s : Registry), p'.registries[i]? = some r →
      q'.registries[i]? = some s → sold q' s = sold p' r := by
    intro wp i r s hr hs
    have wp' : p'.presaleMode = 1 ∨ p'.presaleMode = 2 := by rw [A.mode]; exact wp
    unfold sold
    rw [if_pos wq, if_pos wp', map_get I.deposits hs hr, map_get D'.supplies hs hr]
  have key : ∀ (i : Nat) (r s : Registry), p'.registries[i]? = some r → q'.registries[i]? = some s →
      sold p' r ≤ sold q' s := by
    intro i r s hr hs
    by_cases wp : WholeSupply p
    · exact Nat.le_of_eq (same wp i r s hr hs).symm
    · have wp' : ¬ (p'.presaleMode = 1 ∨ p'.presaleMode = 2) := by rw [A.mode]; exact wp
      unfold sold
      rw [if_pos wq, if_neg wp', map_get I.deposits hs hr, map_get D'.supplies hs hr]
      split
      · rename_i h0
        rw [h0]
        unfold tokensAtPrice
        rw [Nat.zero_mul, Nat.zero_div]
        exact Nat.min_le_left _ _
      · exact Nat.min_le_right _ _
  refine ⟨p', q', hp', hq', sum_of_get hl key, fun wp => ?_, ?_⟩
  · exact congrArg List.sum (map_of_get hl.symm fun i s r hs hr => same wp i r s hr hs)
  intro k l e f hk hl ha hb hi hd
  obtain ⟨r, hr, -⟩ := P.escBook hk ha
  obtain ⟨s, hs, -⟩ := Q.escBook hl hb
  rw [hi] at hs
  refine ⟨r, s, hr, hs, ?_, fun wp => ?_, fun N t => ?_, fun wp R h3 t => ?_⟩
  · unfold entitlement
    rw [hd, map_get I.deposits hs hr, D'.release]
    split
    · exact Nat.le_refl _
    · exact Nat.add_le_add
        (Nat.div_le_div_right (Nat.mul_le_mul_right _ (immediatePart_mono (key _ r s hr hs))))
        (Nat.div_le_div_right (Nat.mul_le_mul_right _ (vestedPart_mono (key _ r s hr hs) P.static.bps)))
  · unfold entitlement
    rw [hd, map_get I.deposits hs hr, D'.release, same wp _ r s hr hs]
  · unfold claimableAt
    rw [hd, map_get I.deposits hs hr, D'.release]
    exact claimable_better P.static.bps N.immediate (key _ r s hr hs) N.start N.duration
  · unfold claimableAt
    rw [hd, map_get I.deposits hs hr, D'.release, same wp _ r s hr hs, R.1, R.2, h3]

namespace Ex

/-- The same two deposits in a sale of each kind. -/
def inMode (mode : Nat) : List Op :=
  [fixedArgsOp, init mode 0 0 reg1, .tick 10, open' alice, open' bob, deposit alice aliceQuote 300,
   deposit bob bobQuote 500]

theorem modes_meet (m n : Nat) (hm : m = 0 ∨ m = 1 ∨ m = 2) (hn : n = 0 ∨ n = 1 ∨ n = 2) :
    ∃ p q, JustEnded (run genesis (inMode m ++ [.tick 1000])) sale p ∧
      JustEnded (run genesis (inMode n ++ [.tick 1000])) sale q ∧ SameFrame p q ∧
      SameEntries (run genesis (inMode m ++ [.tick 1000])) sale (run genesis (inMode n ++ [.tick 1000])) sale ∧
      p.presaleMode = m ∧ q.presaleMode = n ∧ p.totalDeposit = 800 ∧ p.presaleMaximumCap = 1000 ∧
      totalSold p = (if m = 0 then 320 else 10000) ∧ totalSold q = (if n = 0 then 320 else 10000) := by
  have all : ∀ m, m = 0 ∨ m = 1 ∨ m = 2 →
      standing (run genesis (inMode m ++ [.tick 1000])) = [(sale, 0, 300, 7), (sale, 0, 500, 11)] ∧
      ∃ p, JustEnded (run genesis (inMode m ++ [.tick 1000])) sale p ∧ p.presaleMode = m ∧
        p.presaleMinimumCap = 100 ∧ p.presaleMaximumCap = 1000 ∧ p.immediateReleaseBps = 2000 ∧
        p.registries.map Registry.presaleSupply = [10000, 0, 0, 0, 0] ∧ p.totalDeposit = 800 ∧
        totalSold p = (if m = 0 then 320 else 10000) := by
    intro m hm
    have h1 : standing (run genesis (inMode m ++ [.tick 1000])) = [(sale, 0, 300, 7), (sale, 0, 500, 11)] := by
      rcases hm with rfl | rfl | rfl <;> decide +kernel
    obtain ⟨p, hp, J⟩ := booksEnded (inMode m) (by rcases hm with rfl | rfl | rfl <;> decide +kernel)
    have h2 : has (run genesis (inMode m)) (fun p => decide (p.presaleMode = m ∧
        p.presaleMinimumCap = 100 ∧ p.presaleMaximumCap = 1000 ∧ p.immediateReleaseBps = 2000 ∧
        p.registries.map Registry.presaleSupply = [10000, 0, 0, 0, 0] ∧ p.totalDeposit = 800 ∧
        totalSold p = (if m = 0 then 320 else 10000))) = true := by
      rcases hm with rfl | rfl | rfl <;> decide +kernel
    obtain ⟨p2, hp2, hd⟩ := has_some h2
    rw [hp] at hp2; cases hp2
    exact ⟨h1, p, J, of_decide_eq_true hd⟩
  obtain ⟨s1, p, J, a1, a2, a3, a4, a5, a6, a7⟩ := all m hm
  obtain ⟨s2, q, K, b1, b2, b3, b4, b5, b6, b7⟩ := all n hn
  refine ⟨p, q, J, K, ⟨b2.trans a2.symm, b3.trans a3.symm, b4.trans a4.symm, b5.trans a5.symm⟩, fun i => ?_, a1, b1,
    a6, a3, a7, b7⟩
  rw [entries_standing, entries_standing, s1, s2]

/-- Both theorems apply to a fixed-price and a pro-rata sale: 320 tokens against 10000. -/
example : ∃ p q, JustEnded (run genesis (inMode 0 ++ [.tick 1000])) sale p ∧
    JustEnded (run genesis (inMode 1 ++ [.tick 1000])) sale q ∧ SameFrame p q ∧
    SameEntries (run genesis (inMode 0 ++ [.tick 1000])) sale (run genesis (inMode 1 ++ [.tick 1000])) sale ∧
    p.presaleMode ≠ 1 ∧ WholeSupply q ∧ totalSold p = 320 ∧ totalSold q = 10000 := by
  obtain ⟨p, q, J, K, D, E, h1, h2, -, -, h3, h4⟩ := modes_meet 0 1 (.inl rfl) (.inr (.inl rfl))
  exact ⟨p, q, J, K, D, E, by omega, .inl h2, h3, h4⟩

/-- And to a sale first come, first served and a pro-rata one, where the amounts are the same. -/
example : ∃ p q, JustEnded (run genesis (inMode 2 ++ [.tick 1000])) sale p ∧
    JustEnded (run genesis (inMode 1 ++ [.tick 1000])) sale q ∧ SameFrame p q ∧
    SameEntries (run genesis (inMode 2 ++ [.tick 1000])) sale (run genesis (inMode 1 ++ [.tick 1000])) sale ∧
    p.presaleMode ≠ 1 ∧ WholeSupply p ∧ WholeSupply q := by
  obtain ⟨p, q, J, K, D, E, h1, h2, -⟩ := modes_meet 2 1 (.inr (.inr rfl)) (.inr (.inl rfl))
  exact ⟨p, q, J, K, D, E, by omega, .inr h1, .inl h2⟩

end Ex

end Verif
