import Verif.Props.Modes
/-!
# C118: only the time since the end counts

When a sale ends early, its release dates move with its end. What can be claimed at a given time after the end is
therefore fixed by the delays agreed when the sale was created, whenever the end comes.
-/

namespace Verif
open Spec

theorem dripped_after (v n lock d x : Nat) : dripped v (n + lock) d (n + x) = dripped v lock d x := by
  unfold dripped
  by_cases h : x < lock
  · rw [if_pos h, if_pos (by omega)]
  · rw [if_neg h, if_neg (by omega), Nat.add_sub_add_left]

/-- **C118.** What can be claimed `x` seconds after the end of a sale is fixed from its creation on: at every later time,
whether the sale has ended early or not, it is what the delay of the immediate release after the end, the lock and the
vesting, as they were agreed, leave after `x` seconds. -/
theorem C118_since_end {w : World} (R : Reachable w) {a : Addr} {p p' : Presale} (hp : w.presales a = some p)
    (ops : List Op) (hp' : (run w ops).presales a = some p') :
    p'.immediateReleaseTimestamp - p'.presaleEndTime = p.immediateReleaseTimestamp - p.presaleEndTime ∧
    ∀ r e x, claimableAt p' r e (p'.presaleEndTime + x) =
      claimable p.immediateReleaseBps (p.immediateReleaseTimestamp - p.presaleEndTime) (sold p' r) p.lockDuration
        p.vestDuration x e.totalDeposit r.totalDeposit := by
  obtain ⟨p2, hp2, L⟩ := run_later R.winv ops hp
  rw [hp'] at hp2; cases hp2
  have S := ((R.run ops).winv.core.sale a p' hp').pinv.sched
  have t1 : p'.lockDuration = p.lockDuration := (congrArg Presale.lockDuration L.terms :)
  have t2 : p'.vestDuration = p.vestDuration := (congrArg Presale.vestDuration L.terms :)
  have t3 : p'.immediateReleaseBps = p.immediateReleaseBps := (congrArg Presale.immediateReleaseBps L.terms :)
  have hi : p'.immediateReleaseTimestamp - p'.presaleEndTime = p.immediateReleaseTimestamp - p.presaleEndTime := by
    rcases L.shifted.dates with ⟨h1, -, -, h4⟩ | ⟨-, -, h4⟩
    · rw [h1, h4]
    · rw [h4, Nat.add_sub_cancel_left]
  refine ⟨hi, fun r e x => ?_⟩
  have hc : (p'.immediateReleaseTimestamp ≤ p'.presaleEndTime + x) =
      (p.immediateReleaseTimestamp - p.presaleEndTime ≤ x) := by
    apply propext
    omega
  unfold claimableAt claimable
  simp only [hc, t3]
  rcases S.timing with ⟨h1, -⟩ | ⟨h1, h2, -, -, h5, -⟩
  · rw [h1, dripped_after, t1, t2]
  · have d0 : ∀ v t, dripped v 0 0 t = v := fun v t => dripped_end (Nat.zero_le _)
    rw [h5, h2, ← t1, ← t2, h1, h2, d0, d0]

/-- **C118.** An early end only brings everything forward. Take two sales with the same caps, supplies and part released
at once, both handing out the whole supply or both at the same fixed price, with the same delays after the end, that end
with the same deposits and fees in each registry, one perhaps earlier than the other. Whatever happens afterwards, two
escrows with the same deposit in the same registry may have claimed the same `x` seconds after the end of their sales,
for every `x`. -/
theorem C118_early {w v : World} {a b : Addr} {p q : Presale} (J : JustEnded w a p) (K : JustEnded v b q)
    (D : SameFrame p q) (E : SameEntries w a v b)
    (hs : (WholeSupply p ∧ WholeSupply q) ∨ (q.presaleMode = p.presaleMode ∧ q.raw0 = p.raw0))
    (hi : q.immediateReleaseTimestamp - q.presaleEndTime = p.immediateReleaseTimestamp - p.presaleEndTime)
    (hl : q.lockDuration = p.lockDuration) (hv : q.vestDuration = p.vestDuration) (ops more : List Op) :
    ∃ p' q', (run w ops).presales a = some p' ∧ (run v more).presales b = some q' ∧
      p'.presaleEndTime = p.presaleEndTime ∧ q'.presaleEndTime = q.presaleEndTime ∧
      ∀ k l e f, (run w ops).escrows.get? k = some e → (run v more).escrows.get? l = some f → e.presale = a →
        f.presale = b → f.registryIndex = e.registryIndex → f.totalDeposit = e.totalDeposit →
        ∃ r s, p'.registries[e.registryIndex]? = some r ∧ q'.registries[e.registryIndex]? = some s ∧
          ∀ x, claimableAt q' s f (q.presaleEndTime + x) = claimableAt p' r e (p.presaleEndTime + x) := by
  obtain ⟨p', hp', L⟩ := run_later J.reachable.winv ops J.presale
  obtain ⟨q', hq', M⟩ := run_later K.reachable.winv more K.presale
  have A := alike_later J hp'
  have B := alike_later K hq'
  have I := (income_of_ended J K E).later A B
  have D' := sameFrame_later D A B
  have P := ((J.reachable.run ops).winv.core.sale a p' hp').pinv
  have Q := ((K.reachable.run more).winv.core.sale b q' hq').pinv
  have e1 : p'.presaleEndTime = p.presaleEndTime := (congrArg Presale.presaleEndTime (L.frozen J.over) :)
  have e2 : q'.presaleEndTime = q.presaleEndTime := (congrArg Presale.presaleEndTime (M.frozen K.over) :)
  refine ⟨p', q', hp', hq', e1, e2, ?_⟩
  intro k l e f hk hl' ha hb hix hd
  obtain ⟨r, hr, -⟩ := P.escBook hk ha
  obtain ⟨s, hs', -⟩ := Q.escBook hl' hb
  rw [hix] at hs'
  refine ⟨r, s, hr, hs', fun x => ?_⟩
  have hsold : sold q' s = sold p' r := by
    unfold sold
    rw [map_get I.deposits hs' hr, map_get D'.supplies hs' hr]
    rcases hs with ⟨h1, h2⟩ | ⟨h1, h2⟩
    · rw [if_pos (show q'.presaleMode = 1 ∨ q'.presaleMode = 2 by rw [B.mode]; exact h2),
        if_pos (show p'.presaleMode = 1 ∨ p'.presaleMode = 2 by rw [A.mode]; exact h1)]
    · rw [A.mode, B.mode, A.price, B.price, h1, h2]
  rw [← e1, ← e2, (C118_since_end K.reachable K.presale more hq').2, (C118_since_end J.reachable J.presale ops hp').2,
    hi, hl, hv, hsold, hd, D.release, map_get I.deposits hs' hr]

namespace Ex

/-- Alice deposits 400 and Bob 600: the cap of 1000 is met. -/
def filling (mode : Nat) : List Op :=
  [init mode 0 0 reg1, .tick 10, open' alice, open' bob, deposit alice aliceQuote 400]

/-- First come, first served, the sale ends with Bob's deposit; pro-rata it runs until its end, much later. -/
example : ∃ p q, JustEnded (run genesis (filling 2 ++ [deposit bob bobQuote 600])) sale p ∧
    JustEnded (run genesis (filling 1 ++ [deposit bob bobQuote 600] ++ [.tick 1000])) sale q ∧ SameFrame p q ∧
    SameEntries (run genesis (filling 2 ++ [deposit bob bobQuote 600])) sale
      (run genesis (filling 1 ++ [deposit bob bobQuote 600] ++ [.tick 1000])) sale ∧
    WholeSupply p ∧ WholeSupply q ∧
    q.immediateReleaseTimestamp - q.presaleEndTime = p.immediateReleaseTimestamp - p.presaleEndTime ∧
    q.lockDuration = p.lockDuration ∧ q.vestDuration = p.vestDuration ∧
    p.presaleEndTime = 1010 ∧ q.presaleEndTime = 1600 := by
  obtain ⟨p0, hp0, h0⟩ := has_some (w := run genesis (filling 2)) (f := fun p =>
    decide ((run genesis (filling 2)).clock < p.presaleEndTime)) (by decide +kernel)
  obtain ⟨p, hp, h1⟩ := has_some (w := run genesis (filling 2 ++ [deposit bob bobQuote 600])) (f := fun p =>
    decide ((p.presaleEndTime ≤ (run genesis (filling 2 ++ [deposit bob bobQuote 600])).clock) ∧ p.presaleMode = 2 ∧
      p.presaleMinimumCap = 100 ∧ p.presaleMaximumCap = 1000 ∧ p.immediateReleaseBps = 2000 ∧
      p.registries.map Registry.presaleSupply = [10000, 0, 0, 0, 0] ∧
      p.immediateReleaseTimestamp - p.presaleEndTime = 50 ∧ p.lockDuration = 100 ∧ p.vestDuration = 1000 ∧
      p.presaleEndTime = 1010)) (by decide +kernel)
  obtain ⟨q, hq, K⟩ := booksEnded (filling 1 ++ [deposit bob bobQuote 600]) (by decide +kernel)
  obtain ⟨q2, hq2, h2⟩ := has_some (w := run genesis (filling 1 ++ [deposit bob bobQuote 600])) (f := fun p =>
    decide (p.presaleMode = 1 ∧
      p.presaleMinimumCap = 100 ∧ p.presaleMaximumCap = 1000 ∧ p.immediateReleaseBps = 2000 ∧
      p.registries.map Registry.presaleSupply = [10000, 0, 0, 0, 0] ∧
      p.immediateReleaseTimestamp - p.presaleEndTime = 50 ∧ p.lockDuration = 100 ∧ p.vestDuration = 1000 ∧
      p.presaleEndTime = 1600)) (by decide +kernel)
  rw [hq] at hq2; cases hq2
  obtain ⟨a0, a1, a2, a3, a4, a5, a6, a7, a8, a9⟩ := of_decide_eq_true h1
  obtain ⟨b1, b2, b3, b4, b5, b6, b7, b8, b9⟩ := of_decide_eq_true h2
  have J : JustEnded (run genesis (filling 2 ++ [deposit bob bobQuote 600])) sale p := by
    refine ⟨⟨genesis, _, genesis_ok, rfl⟩, hp, a0,
      ⟨run genesis (filling 2), deposit bob bobQuote 600, p0, ⟨genesis, _, genesis_ok, rfl⟩, ?_, hp0, ?_⟩⟩
    · rw [run_snoc]
    · have := of_decide_eq_true h0
      unfold Over; omega
  have s1 : standing (run genesis (filling 2 ++ [deposit bob bobQuote 600])) =
      [(sale, 0, 400, 9), (sale, 0, 600, 13)] := by decide +kernel
  have s2 : standing (run genesis (filling 1 ++ [deposit bob bobQuote 600] ++ [.tick 1000])) =
      [(sale, 0, 400, 9), (sale, 0, 600, 13)] := by decide +kernel
  refine ⟨p, q, J, K, ⟨b2.trans a2.symm, b3.trans a3.symm, b4.trans a4.symm, b5.trans a5.symm⟩, fun i => ?_, .inr a1,
    .inl b1, b6.trans a6.symm, b7.trans a7.symm, b8.trans a8.symm, a9, b9⟩
  rw [entries_standing, entries_standing, s1, s2]

end Ex

end Verif
