import Verif.SpecBooks
import Verif.SpecMore
import Verif.Props.Lifecycle
import Verif.Props.Ledger
import Verif.Lemmas.Conserve
import Verif.Props.ListLimit
/-!
# C109: how the money came in does not matter

What everybody gets from a sale depends on the deposits that stand when it ends and on nothing else in its history: not on
who deposited first, in how many parts, who withdrew in between, nor on who holds which escrow.
-/

namespace Verif
open Spec

theorem entries_sum (es : AMap Addr Escrow) (a : Addr) (i : Nat) :
    ((entries es a i).map Prod.fst).sum = escrowSum es a i Escrow.totalDeposit ∧
    ((entries es a i).map Prod.snd).sum = escrowSum es a i Escrow.totalDepositFee := by
  rw [escrowSum_list, escrowSum_list]
  unfold entries regEscrows
  simp only [List.map_map]
  exact ⟨rfl, rfl⟩

/-- The same deal, and the same totals everywhere. -/
structure SameTotals (p q : Presale) : Prop extends SameDeal p q where
  total : q.totalDeposit = p.totalDeposit
  totalFee : q.totalDepositFee = p.totalDepositFee
  deposits : q.registries.map Registry.totalDeposit = p.registries.map Registry.totalDeposit
  fees : q.registries.map Registry.totalDepositFee = p.registries.map Registry.totalDepositFee

theorem map_get {α β : Type} {f : α → β} {l m : List α} (h : l.map f = m.map f) {i : Nat} {x y : α}
    (hx : l[i]? = some x) (hy : m[i]? = some y) : f x = f y := by
  have e := congrArg (·[i]?) h
  simp only [List.getElem?_map, hx, hy, Option.map_some, Option.some.injEq] at e
  exact e

theorem map_of_get {α β : Type} {f g : α → β} {l m : List α} (hl : l.length = m.length)
    (h : ∀ (i : Nat) x y, l[i]? = some x → m[i]? = some y → f x = g y) : l.map f = m.map g := by
  apply List.ext_getElem?
  intro i
  rw [List.getElem?_map, List.getElem?_map]
  by_cases hi : i < l.length
  · rw [List.getElem?_eq_getElem hi, List.getElem?_eq_getElem (by omega : i < m.length)]
    simp only [Option.map_some]
    exact congrArg some (h i _ _ (List.getElem?_eq_getElem hi) (List.getElem?_eq_getElem (by omega)))
  · rw [List.getElem?_eq_none (by omega), List.getElem?_eq_none (by omega)]
    rfl

theorem SameTotals.sold_eq {p q : Presale} (A : SameTotals p q) {i : Nat} {r s : Registry} (hr : p.registries[i]? = some r)
    (hs : q.registries[i]? = some s) : sold q s = sold p r := by
  unfold sold
  rw [A.mode, A.price, map_get A.supplies hs hr, map_get A.deposits hs hr]

theorem SameTotals.entitlement_eq {p q : Presale} (A : SameTotals p q) {i : Nat} {r s : Registry}
    (hr : p.registries[i]? = some r) (hs : q.registries[i]? = some s) {e f : Escrow}
    (h : f.totalDeposit = e.totalDeposit) : entitlement q s f = entitlement p r e := by
  unfold entitlement
  rw [A.sold_eq hr hs, A.release, map_get A.deposits hs hr, h]

theorem SameTotals.claimable_eq {p q : Presale} (A : SameTotals p q) {i : Nat} {r s : Registry}
    (hr : p.registries[i]? = some r) (hs : q.registries[i]? = some s) {e f : Escrow}
    (h : f.totalDeposit = e.totalDeposit) (h1 : q.immediateReleaseTimestamp = p.immediateReleaseTimestamp)
    (h2 : q.vestingStartTime = p.vestingStartTime) (h3 : q.vestDuration = p.vestDuration) (t : Nat) :
    claimableAt q s f t = claimableAt p r e t := by
  unfold claimableAt
  rw [A.sold_eq hr hs, A.release, map_get A.deposits hs hr, h, h1, h2, h3]

theorem SameTotals.surplus_eq {p q : Presale} (A : SameTotals p q) {i : Nat} {r s : Registry}
    (hr : p.registries[i]? = some r) (hs : q.registries[i]? = some s) :
    registrySurplus q s = registrySurplus p r ∧ registryFeeRefund q s = registryFeeRefund p r := by
  have h1 : registrySurplus q s = registrySurplus p r := by
    unfold registrySurplus surplus
    rw [A.total, A.maximum, map_get A.deposits hs hr]
  refine ⟨h1, ?_⟩
  unfold registryFeeRefund
  rw [h1, map_get A.deposits hs hr, map_get A.fees hs hr]

theorem SameTotals.refund_eq {p q : Presale} (A : SameTotals p q) {i : Nat} {r s : Registry}
    (hr : p.registries[i]? = some r) (hs : q.registries[i]? = some s) {e f : Escrow}
    (h : f.totalDeposit = e.totalDeposit) (h' : f.totalDepositFee = e.totalDepositFee) :
    owedRefund q s f = owedRefund p r e := by
  obtain ⟨h1, h2⟩ := A.surplus_eq hr hs
  unfold owedRefund refundDeposit refundFee
  rw [A.total, A.minimum, A.mode, h1, h2, map_get A.deposits hs hr, map_get A.fees hs hr, h, h']

theorem SameTotals.creator {p q : Presale} (A : SameTotals p q) :
    raise q = raise p ∧ collectableFee q = collectableFee p ∧ totalSold q = totalSold p := by
  have hl : q.registries.length = p.registries.length := by
    have := congrArg List.length A.supplies
    simpa using this
  refine ⟨?_, ?_, ?_⟩
  · unfold raise
    rw [A.total, A.maximum]
  · unfold collectableFee
    rw [A.mode, A.totalFee]
    split
    · refine congrArg List.sum (map_of_get hl fun i s r hs hr => ?_)
      rw [(A.surplus_eq hr hs).2, map_get A.fees hs hr]
    · rfl
  · exact congrArg List.sum (map_of_get hl fun i s r hs hr => A.sold_eq hr hs)

/-- Sales that end with the same entries have the same totals. -/
theorem alike_of_ended {w v : World} {a b : Addr} {p q : Presale} (J : JustEnded w a p) (K : JustEnded v b q)
    (D : SameDeal p q) (E : SameEntries w a v b) : SameTotals p q := by
  have hl : q.registries.length = p.registries.length := by
    have := congrArg List.length D.supplies
    simpa using this
  have T := C03_totals J.reachable J.presale
  have U := C03_totals K.reachable K.presale
  have hd : q.registries.map Registry.totalDeposit = p.registries.map Registry.totalDeposit := by
    refine map_of_get hl fun i s r hs hr => ?_
    rw [← J.whole.dep i r hr, ← K.whole.dep i s hs, ← esum_eq, ← esum_eq, ← (entries_sum _ _ _).1,
      ← (entries_sum _ _ _).1]
    exact ((E i).map Prod.fst).sum_eq
  have hf : q.registries.map Registry.totalDepositFee = p.registries.map Registry.totalDepositFee := by
    refine map_of_get hl fun i s r hs hr => ?_
    rw [← J.whole.fee i r hr, ← K.whole.fee i s hs, ← esum_eq, ← esum_eq, ← (entries_sum _ _ _).2,
      ← (entries_sum _ _ _).2]
    exact ((E i).map Prod.snd).sum_eq
  exact { D with total := by rw [T.1, U.1, hd], totalFee := by rw [T.2.1, U.2.1, hf], deposits := hd, fees := hf }

/-- An ended sale stays alike to itself. -/
theorem alike_later {w : World} {a : Addr} {p p' : Presale} (J : JustEnded w a p) {ops : List Op}
    (hp : (run w ops).presales a = some p') : SameTotals p p' := by
  obtain ⟨p2, hp2, L⟩ := run_later J.reachable.winv ops J.presale
  rw [hp] at hp2; cases hp2
  have hb := L.frozen J.over
  have hr : p'.registries.map registryBooks = p.registries.map registryBooks := (congrArg Presale.registries hb :)
  have g : ∀ {β : Type} (f : Registry → β), (∀ r, f (registryBooks r) = f r) →
      p'.registries.map f = p.registries.map f := by
    intro β f h
    have := congrArg (List.map f) hr
    rw [List.map_map, List.map_map] at this
    rw [show f = f ∘ registryBooks from funext fun r => (h r).symm]
    exact this
  exact
    { mode := (congrArg Presale.presaleMode hb :), price := (congrArg Presale.raw0 hb :),
      minimum := (congrArg Presale.presaleMinimumCap hb :), maximum := (congrArg Presale.presaleMaximumCap hb :),
      release := (congrArg Presale.immediateReleaseBps hb :), supplies := g _ fun _ => rfl,
      total := (congrArg Presale.totalDeposit hb :), totalFee := (congrArg Presale.totalDepositFee hb :),
      deposits := g _ fun _ => rfl, fees := g _ fun _ => rfl }

theorem SameTotals.symm {p q : Presale} (A : SameTotals p q) : SameTotals q p :=
  { mode := A.mode.symm, price := A.price.symm, minimum := A.minimum.symm, maximum := A.maximum.symm,
    release := A.release.symm, supplies := A.supplies.symm, total := A.total.symm, totalFee := A.totalFee.symm,
    deposits := A.deposits.symm, fees := A.fees.symm }

theorem SameTotals.trans {p q s : Presale} (A : SameTotals p q) (B : SameTotals q s) : SameTotals p s :=
  { mode := B.mode.trans A.mode, price := B.price.trans A.price, minimum := B.minimum.trans A.minimum,
    maximum := B.maximum.trans A.maximum, release := B.release.trans A.release,
    supplies := B.supplies.trans A.supplies, total := B.total.trans A.total,
    totalFee := B.totalFee.trans A.totalFee, deposits := B.deposits.trans A.deposits, fees := B.fees.trans A.fees }

/-- **C109.** How the money came in does not matter. Take two sales, in two histories of two deployments, on which the
same numbers were agreed. If at their ends the same deposits and fees stand in each registry, whoever made them, in
whatever order and in however many deposits and withdrawals, then whatever happens afterwards both have succeeded or
both have failed, the creators are due the same raise and fees, the same number of tokens is sold, and every two escrows
with the same deposit and fee in the same registry are due the same tokens and the same refund; if the release dates are
the same too, the same part of the tokens at every moment. -/
theorem C109_outcome {w v : World} {a b : Addr} {p q : Presale} (J : JustEnded w a p) (K : JustEnded v b q)
    (D : SameDeal p q) (E : SameEntries w a v b) (ops more : List Op) :
    ∃ p' q', (run w ops).presales a = some p' ∧ (run v more).presales b = some q' ∧
      (Completed p' (run w ops).clock ↔ Completed q' (run v more).clock) ∧
      (Failed p' (run w ops).clock ↔ Failed q' (run v more).clock) ∧
      raise q' = raise p' ∧ collectableFee q' = collectableFee p' ∧ totalSold q' = totalSold p' ∧
      ∀ k l e f, (run w ops).escrows.get? k = some e → (run v more).escrows.get? l = some f → e.presale = a →
        f.presale = b → f.registryIndex = e.registryIndex → f.totalDeposit = e.totalDeposit →
        f.totalDepositFee = e.totalDepositFee →
        ∃ r s, p'.registries[e.registryIndex]? = some r ∧ q'.registries[e.registryIndex]? = some s ∧
          entitlement q' s f = entitlement p' r e ∧ owedRefund q' s f = owedRefund p' r e ∧
          (SameRelease p' q' → q'.vestDuration = p'.vestDuration →
            ∀ t, claimableAt q' s f t = claimableAt p' r e t) := by
  obtain ⟨p', hp', L⟩ := run_later J.reachable.winv ops J.presale
  obtain ⟨q', hq', M⟩ := run_later K.reachable.winv more K.presale
  have A : SameTotals p' q' := (alike_later J hp').symm.trans ((alike_of_ended J K D E).trans (alike_later K hq'))
  have o1 := L.over J.over
  have o2 := M.over K.over
  refine ⟨p', q', hp', hq', ?_, ?_, A.creator.1, A.creator.2.1, A.creator.2.2, ?_⟩
  · unfold Completed
    rw [A.total, A.minimum]
    exact ⟨fun h => ⟨o2, h.2⟩, fun h => ⟨o1, h.2⟩⟩
  · unfold Failed
    rw [A.total, A.minimum]
    exact ⟨fun h => ⟨o2, h.2⟩, fun h => ⟨o1, h.2⟩⟩
  · intro k l e f hk hl ha hb hi hd hf
    obtain ⟨r, hr, -⟩ := ((J.reachable.run ops).winv.core.sale a p' hp').pinv.escBook hk ha
    obtain ⟨s, hs, -⟩ := ((K.reachable.run more).winv.core.sale b q' hq').pinv.escBook hl hb
    rw [hi] at hs
    exact ⟨r, s, hr, hs, A.entitlement_eq hr hs hd, A.refund_eq hr hs hd hf,
      fun h h3 t => A.claimable_eq hr hs hd h.1 h.2 h3 t⟩

namespace Ex

/-- A pro-rata sale without fee. -/
def freeRegs : List RegistryArgs :=
  [{ buyerMinimumDepositCap := 1, buyerMaximumDepositCap := 1000, presaleSupply := 10000, depositFeeBps := 0 }]

/-- Alice deposits 500, then Bob 900. -/
def straight : List Op :=
  [init 1 0 0 freeRegs, .tick 10, open' alice, open' bob, deposit alice aliceQuote 500, deposit bob bobQuote 900]

/-- Bob comes first with 700, Alice pays in three parts, and Bob takes 200 back. -/
def roundabout : List Op :=
  [init 1 0 0 freeRegs, .tick 10, open' bob, deposit bob bobQuote 700, open' alice, .tick 5,
   deposit alice aliceQuote 100, deposit alice aliceQuote 300, withdraw bob bobQuote 200,
   deposit alice aliceQuote 500]

/-- What stands in the escrows, as a list. -/
def standing (w : World) : List (Addr × Nat × Nat × Nat) :=
  w.escrows.map fun x => (x.2.presale, x.2.registryIndex, x.2.totalDeposit, x.2.totalDepositFee)

theorem entries_standing (w : World) (a : Addr) (i : Nat) :
    entries w.escrows a i =
      ((standing w).filter fun y => decide (y.1 = a ∧ y.2.1 = i)).map fun y => y.2.2 := by
  unfold entries standing
  rw [List.filter_map, List.map_map]
  rfl

theorem booksEnded (ops : List Op) (h : has (run genesis ops) (fun p => decide
      ((run genesis ops).clock < p.presaleEndTime ∧ (p.presaleEndTime : Int) ≤ (run genesis ops).clock + 1000)) = true) :
    ∃ p, (run genesis ops).presales sale = some p ∧ JustEnded (run genesis (ops ++ [.tick 1000])) sale p := by
  obtain ⟨p, hp, hd⟩ := has_some h
  obtain ⟨h1, h2⟩ := of_decide_eq_true hd
  have R : Reachable (run genesis ops) := ⟨genesis, ops, genesis_ok, rfl⟩
  refine ⟨p, hp, ⟨⟨genesis, _, genesis_ok, rfl⟩, ?_, ?_, ⟨run genesis ops, .tick 1000, p, R, ?_, hp, ?_⟩⟩⟩
  · rw [run_snoc]; exact hp
  · rw [run_snoc]; exact h2
  · rw [run_snoc]
  · unfold Over; omega

/-- The two histories meet the hypotheses; in the second Alice holds what Bob holds in the first. -/
example : ∃ p q, JustEnded (run genesis (straight ++ [.tick 1000])) sale p ∧
    JustEnded (run genesis (roundabout ++ [.tick 1000])) sale q ∧ SameDeal p q ∧
    SameEntries (run genesis (straight ++ [.tick 1000])) sale (run genesis (roundabout ++ [.tick 1000])) sale ∧
    standing (run genesis (roundabout ++ [.tick 1000])) = [(sale, 0, 500, 0), (sale, 0, 900, 0)] := by
  obtain ⟨p, hp, J⟩ := booksEnded straight (by decide +kernel)
  obtain ⟨q, hq, K⟩ := booksEnded roundabout (by decide +kernel)
  have h : (match (run genesis straight).presales sale, (run genesis roundabout).presales sale with
      | some p, some q => decide (q.presaleMode = p.presaleMode ∧ q.raw0 = p.raw0 ∧
          q.presaleMinimumCap = p.presaleMinimumCap ∧ q.presaleMaximumCap = p.presaleMaximumCap ∧
          q.immediateReleaseBps = p.immediateReleaseBps ∧
          q.registries.map Registry.presaleSupply = p.registries.map Registry.presaleSupply)
      | _, _ => false) = true := by decide +kernel
  rw [hp, hq] at h
  obtain ⟨h1, h2, h3, h4, h5, h6⟩ := of_decide_eq_true h
  have s1 : standing (run genesis (straight ++ [.tick 1000])) = [(sale, 0, 500, 0), (sale, 0, 900, 0)] := by
    decide +kernel
  have s2 : standing (run genesis (roundabout ++ [.tick 1000])) = [(sale, 0, 500, 0), (sale, 0, 900, 0)] := by
    decide +kernel
  refine ⟨p, q, J, K, ⟨h1, h2, h3, h4, h5, h6⟩, fun i => ?_, s2⟩
  rw [entries_standing, entries_standing, s1, s2]

end Ex

end Verif
