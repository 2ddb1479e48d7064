import Verif.SpecNumbering
import Verif.Props.Books
import Verif.Props.Dust
import Mathlib.Algebra.BigOperators.Fin
import Mathlib.Algebra.BigOperators.Intervals
import Mathlib.Logic.Equiv.Basic
/-!
# C113: the numbers of registries do not matter, and other registries matter only through the total

A registry's number chooses its place in the account and nothing else. What an escrow is due in tokens depends on its own
registry only; what it is refunded depends on the other registries only through the total deposit.
-/

namespace Verif
open Spec

theorem sum_places {α : Type} (f : α → Nat) (l : List α) :
    (l.map f).sum = ∑ i ∈ Finset.range l.length, (l[i]?.map f).getD 0 := by
  induction l with
  | nil => rfl
  | cons x l ih =>
    rw [List.map_cons, List.sum_cons, List.length_cons, Finset.sum_range_succ', ih, Nat.add_comm]
    rfl

theorem sum_renumbered {α β : Type} (s : Equiv.Perm Nat) {f : α → Nat} {g : β → Nat} {l : List α} {m : List β}
    (h : ∀ i : Nat, m[s i]?.map g = l[i]?.map f) : (m.map g).sum = (l.map f).sum := by
  rw [sum_places, sum_places]
  symm
  refine Finset.sum_equiv s (fun i => ?_) fun i _ => by rw [h i]
  have := congrArg Option.isSome (h i)
  rw [Option.isSome_map, Option.isSome_map, Bool.eq_iff_iff] at this
  simp only [Option.isSome_iff_exists, List.getElem?_eq_some_iff] at this
  have : s i < m.length ↔ i < l.length :=
    ⟨fun hi => (this.1 ⟨_, hi, rfl⟩).choose_spec.1, fun hi => (this.2 ⟨_, hi, rfl⟩).choose_spec.1⟩
  simp only [Finset.mem_range]
  exact this.symm

/-- The same deal and the same totals, under other numbers. -/
structure SameTotalsBy (s : Equiv.Perm Nat) (p q : Presale) : Prop extends SameDealBy s p q where
  total : q.totalDeposit = p.totalDeposit
  totalFee : q.totalDepositFee = p.totalDepositFee
  deposits : ∀ i : Nat, q.registries[s i]?.map Registry.totalDeposit = p.registries[i]?.map Registry.totalDeposit
  fees : ∀ i : Nat, q.registries[s i]?.map Registry.totalDepositFee = p.registries[i]?.map Registry.totalDepositFee

theorem opt_get {α β γ : Type} {f : α → γ} {g : β → γ} {x : Option α} {y : Option β} (h : y.map g = x.map f) {a : α}
    {b : β} (hx : x = some a) (hy : y = some b) : g b = f a := by
  subst hx hy
  exact Option.some.inj h

theorem opt_of_get {α β γ : Type} {f : α → γ} {g : β → γ} {x : Option α} {y : Option β} (hs : y.isSome = x.isSome)
    (h : ∀ a b, x = some a → y = some b → g b = f a) : y.map g = x.map f := by
  cases x <;> cases y
  · rfl
  · cases hs
  · cases hs
  · exact congrArg some (h _ _ rfl rfl)

theorem map_places {α β : Type} {f : α → β} {l m : List α} (h : l.map f = m.map f) (i : Nat) :
    l[i]?.map f = m[i]?.map f := by
  rw [← List.getElem?_map, ← List.getElem?_map, h]

namespace SameTotalsBy

variable {s : Equiv.Perm Nat} {p q : Presale} {i : Nat} {r t : Registry}

theorem sold_eq (A : SameTotalsBy s p q) (hr : p.registries[i]? = some r) (ht : q.registries[s i]? = some t) :
    sold q t = sold p r := by
  unfold sold
  rw [A.mode, A.price, opt_get (A.supplies i) hr ht, opt_get (A.deposits i) hr ht]

theorem surplus_eq (A : SameTotalsBy s p q) (hr : p.registries[i]? = some r) (ht : q.registries[s i]? = some t) :
    registrySurplus q t = registrySurplus p r ∧ registryFeeRefund q t = registryFeeRefund p r := by
  have h1 : registrySurplus q t = registrySurplus p r := by
    unfold registrySurplus surplus
    rw [A.total, A.maximum, opt_get (A.deposits i) hr ht]
  refine ⟨h1, ?_⟩
  unfold registryFeeRefund
  rw [h1, opt_get (A.deposits i) hr ht, opt_get (A.fees i) hr ht]

theorem refund_eq (A : SameTotalsBy s p q) (hr : p.registries[i]? = some r) (ht : q.registries[s i]? = some t)
    {e f : Escrow} (h : f.totalDeposit = e.totalDeposit) (h' : f.totalDepositFee = e.totalDepositFee) :
    owedRefund q t f = owedRefund p r e := by
  obtain ⟨h1, h2⟩ := A.surplus_eq hr ht
  unfold owedRefund refundDeposit refundFee
  rw [A.total, A.minimum, A.mode, h1, h2, opt_get (A.deposits i) hr ht, opt_get (A.fees i) hr ht, h, h']

theorem some_iff (A : SameTotalsBy s p q) (i : Nat) : q.registries[s i]?.isSome = p.registries[i]?.isSome := by
  have := congrArg Option.isSome (A.supplies i)
  rwa [Option.isSome_map, Option.isSome_map] at this

theorem creator (A : SameTotalsBy s p q) :
    raise q = raise p ∧ collectableFee q = collectableFee p ∧ totalSold q = totalSold p := by
  refine ⟨?_, ?_, ?_⟩
  · unfold raise
    rw [A.total, A.maximum]
  · unfold collectableFee
    rw [A.mode, A.totalFee]
    split
    · refine sum_renumbered s fun i => opt_of_get (A.some_iff i) fun r t hr ht => ?_
      rw [(A.surplus_eq hr ht).2, opt_get (A.fees i) hr ht]
    · rfl
  · exact sum_renumbered s fun i => opt_of_get (A.some_iff i) fun r t hr ht => A.sold_eq hr ht

theorem later (A : SameTotalsBy s p q) {p' q' : Presale} (B : SameTotals p p') (C : SameTotals q q') :
    SameTotalsBy s p' q' where
  mode := C.mode.trans (A.mode.trans B.mode.symm)
  price := C.price.trans (A.price.trans B.price.symm)
  minimum := C.minimum.trans (A.minimum.trans B.minimum.symm)
  maximum := C.maximum.trans (A.maximum.trans B.maximum.symm)
  release := C.release.trans (A.release.trans B.release.symm)
  supplies i := (map_places C.supplies _).trans ((A.supplies i).trans (map_places B.supplies i).symm)
  total := C.total.trans (A.total.trans B.total.symm)
  totalFee := C.totalFee.trans (A.totalFee.trans B.totalFee.symm)
  deposits i := (map_places C.deposits _).trans ((A.deposits i).trans (map_places B.deposits i).symm)
  fees i := (map_places C.fees _).trans ((A.fees i).trans (map_places B.fees i).symm)

end SameTotalsBy

/-- Two registries with the same entries have the same totals when their sales end. -/
theorem registry_alike {w v : World} {a b : Addr} {p q : Presale} (J : JustEnded w a p) (K : JustEnded v b q) {i j : Nat}
    (E : (entries v.escrows b j).Perm (entries w.escrows a i)) {r t : Registry} (hr : p.registries[i]? = some r)
    (ht : q.registries[j]? = some t) :
    t.totalDeposit = r.totalDeposit ∧ t.totalDepositFee = r.totalDepositFee := by
  constructor
  · rw [← J.whole.dep i r hr, ← K.whole.dep j t ht, ← esum_eq, ← esum_eq, ← (entries_sum _ _ _).1,
      ← (entries_sum _ _ _).1]
    exact (E.map Prod.fst).sum_eq
  · rw [← J.whole.fee i r hr, ← K.whole.fee j t ht, ← esum_eq, ← esum_eq, ← (entries_sum _ _ _).2,
      ← (entries_sum _ _ _).2]
    exact (E.map Prod.snd).sum_eq

theorem alikeBy_of_ended {s : Equiv.Perm Nat} {w v : World} {a b : Addr} {p q : Presale} (J : JustEnded w a p)
    (K : JustEnded v b q) (D : SameDealBy s p q) (E : SameEntriesBy s w a v b) : SameTotalsBy s p q := by
  have hs : ∀ i : Nat, q.registries[s i]?.isSome = p.registries[i]?.isSome := by
    intro i
    have := congrArg Option.isSome (D.supplies i)
    rwa [Option.isSome_map, Option.isSome_map] at this
  have T := C03_totals J.reachable J.presale
  have U := C03_totals K.reachable K.presale
  have hd : ∀ i : Nat, q.registries[s i]?.map Registry.totalDeposit = p.registries[i]?.map Registry.totalDeposit :=
    fun i => opt_of_get (hs i) fun r t hr ht => (registry_alike J K (E i) hr ht).1
  have hf : ∀ i : Nat,
      q.registries[s i]?.map Registry.totalDepositFee = p.registries[i]?.map Registry.totalDepositFee :=
    fun i => opt_of_get (hs i) fun r t hr ht => (registry_alike J K (E i) hr ht).2
  exact { D with
    total := by rw [T.1, U.1, sum_renumbered s hd]
    totalFee := by rw [T.2.1, U.2.1, sum_renumbered s hf]
    deposits := hd, fees := hf }

/-- **C113.** The numbers of registries do not matter. Take two sales, in two histories, on which the same was agreed
except that the registries are numbered differently, and which end with the same deposits and fees in corresponding
registries. Whatever happens afterwards, both have succeeded or both have failed, raise, collectable fees and tokens sold
are the same, and two escrows with the same deposit and fee in corresponding registries are due the same tokens and the
same refund; at every moment, if the release dates agree. -/
theorem C113_numbers {s : Equiv.Perm Nat} {w v : World} {a b : Addr} {p q : Presale} (J : JustEnded w a p)
    (K : JustEnded v b q) (D : SameDealBy s p q) (E : SameEntriesBy s w a v b) (ops more : List Op) :
    ∃ p' q', (run w ops).presales a = some p' ∧ (run v more).presales b = some q' ∧
      (Completed p' (run w ops).clock ↔ Completed q' (run v more).clock) ∧
      (Failed p' (run w ops).clock ↔ Failed q' (run v more).clock) ∧
      raise q' = raise p' ∧ collectableFee q' = collectableFee p' ∧ totalSold q' = totalSold p' ∧
      ∀ k l e f, (run w ops).escrows.get? k = some e → (run v more).escrows.get? l = some f → e.presale = a →
        f.presale = b → f.registryIndex = s e.registryIndex → f.totalDeposit = e.totalDeposit →
        f.totalDepositFee = e.totalDepositFee →
        ∃ r t, p'.registries[e.registryIndex]? = some r ∧ q'.registries[s e.registryIndex]? = some t ∧
          entitlement q' t f = entitlement p' r e ∧ owedRefund q' t f = owedRefund p' r e ∧
          (SameRelease p' q' → q'.vestDuration = p'.vestDuration →
            ∀ x, claimableAt q' t f x = claimableAt p' r e x) := by
  obtain ⟨p', hp', L⟩ := run_later J.reachable.winv ops J.presale
  obtain ⟨q', hq', M⟩ := run_later K.reachable.winv more K.presale
  have A : SameTotalsBy s p' q' := (alikeBy_of_ended J K D E).later (alike_later J hp') (alike_later K hq')
  have o1 := L.over J.over
  have o2 := M.over K.over
  refine ⟨p', q', hp', hq', ?_, ?_, A.creator.1, A.creator.2.1, A.creator.2.2, ?_⟩
  · unfold Completed
    rw [A.total, A.minimum]
    exact ⟨fun h => ⟨o2, h.2⟩, fun h => ⟨o1, h.2⟩⟩
  · unfold Failed
    rw [A.total, A.minimum]
    exact ⟨fun h => ⟨o2, h.2⟩, fun h => ⟨o1, h.2⟩⟩
  · intro k l e f hk hl ha hb hi hd hf
    obtain ⟨r, hr, -⟩ := ((J.reachable.run ops).winv.core.sale a p' hp').pinv.escBook hk ha
    obtain ⟨t, ht, -⟩ := ((K.reachable.run more).winv.core.sale b q' hq').pinv.escBook hl hb
    rw [hi] at ht
    refine ⟨r, t, hr, ht, ?_, A.refund_eq hr ht hd hf, fun h h3 x => ?_⟩
    · unfold entitlement
      rw [A.sold_eq hr ht, A.release, opt_get (A.deposits _) hr ht, hd]
    · unfold claimableAt
      rw [A.sold_eq hr ht, A.release, opt_get (A.deposits _) hr ht, hd, h.1, h.2, h3]

/-- **C113.** Other registries matter only through the total. Take two sales with the same mode, price and immediate part,
and a registry of each with the same supply and, when the sales end, the same deposits and fees. Whatever was offered and
deposited in the other registries, escrows with the same deposit in the two are due the same tokens ever after, at every
moment if the dates agree; and if also total deposit and caps of the two sales agree, the same refund. -/
theorem C113_own_registry {w v : World} {a b : Addr} {p q : Presale} (J : JustEnded w a p) (K : JustEnded v b q)
    (mode : q.presaleMode = p.presaleMode) (price : q.raw0 = p.raw0)
    (release : q.immediateReleaseBps = p.immediateReleaseBps) {i j : Nat}
    (supply : q.registries[j]?.map Registry.presaleSupply = p.registries[i]?.map Registry.presaleSupply)
    (E : (entries v.escrows b j).Perm (entries w.escrows a i)) (ops more : List Op) :
    ∃ p' q', (run w ops).presales a = some p' ∧ (run v more).presales b = some q' ∧
      ∀ k l e f, (run w ops).escrows.get? k = some e → (run v more).escrows.get? l = some f → e.presale = a →
        f.presale = b → e.registryIndex = i → f.registryIndex = j → f.totalDeposit = e.totalDeposit →
        ∃ r t, p'.registries[i]? = some r ∧ q'.registries[j]? = some t ∧ sold q' t = sold p' r ∧
          entitlement q' t f = entitlement p' r e ∧
          (SameRelease p' q' → q'.vestDuration = p'.vestDuration →
            ∀ x, claimableAt q' t f x = claimableAt p' r e x) ∧
          (q.totalDeposit = p.totalDeposit → q.presaleMinimumCap = p.presaleMinimumCap →
            q.presaleMaximumCap = p.presaleMaximumCap → f.totalDepositFee = e.totalDepositFee →
            owedRefund q' t f = owedRefund p' r e) := by
  obtain ⟨p', hp', -⟩ := run_later J.reachable.winv ops J.presale
  obtain ⟨q', hq', -⟩ := run_later K.reachable.winv more K.presale
  have B := alike_later J hp'
  have C := alike_later K hq'
  refine ⟨p', q', hp', hq', ?_⟩
  intro k l e f hk hl ha hb hi hj hd
  obtain ⟨r, hr, -⟩ := ((J.reachable.run ops).winv.core.sale a p' hp').pinv.escBook hk ha
  obtain ⟨t, ht, -⟩ := ((K.reachable.run more).winv.core.sale b q' hq').pinv.escBook hl hb
  rw [hi] at hr
  rw [hj] at ht
  have back : ∀ {l m : List Registry}, l.map Registry.presaleSupply = m.map Registry.presaleSupply → ∀ {n : Nat} {x},
      l[n]? = some x → ∃ y, m[n]? = some y := by
    intro l m h n x hx
    have := map_places h n
    rw [hx] at this
    cases hm : m[n]? with
    | none => rw [hm] at this; cases this
    | some y => exact ⟨y, rfl⟩
  obtain ⟨r0, hr0⟩ := back B.supplies hr
  obtain ⟨t0, ht0⟩ := back C.supplies ht
  obtain ⟨g1, g2⟩ := registry_alike J K E hr0 ht0
  have d1 : t.totalDeposit = r.totalDeposit := by
    rw [map_get C.deposits ht ht0, map_get B.deposits hr hr0, g1]
  have d2 : t.totalDepositFee = r.totalDepositFee := by
    rw [map_get C.fees ht ht0, map_get B.fees hr hr0, g2]
  have d3 : t.presaleSupply = r.presaleSupply := by
    rw [map_get C.supplies ht ht0, map_get B.supplies hr hr0, opt_get supply hr0 ht0]
  have m : q'.presaleMode = p'.presaleMode := by rw [C.mode, B.mode, mode]
  have pr : q'.raw0 = p'.raw0 := by rw [C.price, B.price, price]
  have re : q'.immediateReleaseBps = p'.immediateReleaseBps := by rw [C.release, B.release, release]
  have so : sold q' t = sold p' r := by
    unfold sold
    rw [m, pr, d1, d3]
  refine ⟨r, t, hr, ht, so, ?_, fun h h3 x => ?_, fun h1 h2 h3 h4 => ?_⟩
  · unfold entitlement
    rw [so, re, d1, hd]
  · unfold claimableAt
    rw [so, re, d1, hd, h.1, h.2, h3]
  · have e1 : q'.totalDeposit = p'.totalDeposit := by rw [C.total, B.total, h1]
    have e2 : q'.presaleMinimumCap = p'.presaleMinimumCap := by rw [C.minimum, B.minimum, h2]
    have e3 : q'.presaleMaximumCap = p'.presaleMaximumCap := by rw [C.maximum, B.maximum, h3]
    unfold owedRefund refundDeposit refundFee registryFeeRefund registrySurplus surplus
    rw [e1, e2, e3, m, d1, d2, hd, h4]

namespace Ex

/-- A pro-rata sale of 1000 and 10 tokens; Alice and Bob buy in the first registry, Bob in the second too. -/
def oneWay : List Op :=
  [sell 1 2 100 998 1 5000 1000 50 [1000, 10], hireOperator, .tick 10, letUpTo 998 alice 0, letUpTo 998 bob 0,
   letUpTo 998 bob 1, depositIn alice aliceQuote 0 990, depositIn bob bobQuote 0 5, depositIn bob bobQuote 1 5]

/-- The same with the registries the other way round, and Bob coming first. -/
def otherWay : List Op :=
  [sell 1 2 100 998 1 5000 1000 50 [10, 1000], hireOperator, .tick 10, letUpTo 998 bob 0, letUpTo 998 bob 1,
   letUpTo 998 alice 1, depositIn bob bobQuote 0 5, depositIn bob bobQuote 1 5, depositIn alice aliceQuote 1 990]

/-- The histories meet the hypotheses of `C113_numbers`, with the numbers 0 and 1 exchanged. -/
example : ∃ p q, JustEnded (run genesis (oneWay ++ [.tick 1000])) sale p ∧
    JustEnded (run genesis (otherWay ++ [.tick 1000])) sale q ∧ SameDealBy (Equiv.swap 0 1) p q ∧
    SameEntriesBy (Equiv.swap 0 1) (run genesis (oneWay ++ [.tick 1000])) sale
      (run genesis (otherWay ++ [.tick 1000])) sale ∧
    ((standing (run genesis (otherWay ++ [.tick 1000]))).length = 3 ∧ p.totalDeposit = 1000) := by
  obtain ⟨p, hp, J⟩ := booksEnded oneWay (by decide +kernel)
  obtain ⟨q, hq, K⟩ := booksEnded otherWay (by decide +kernel)
  have h : (match (run genesis oneWay).presales sale, (run genesis otherWay).presales sale with
      | some p, some q => decide (q.presaleMode = p.presaleMode ∧ q.raw0 = p.raw0 ∧
          q.presaleMinimumCap = p.presaleMinimumCap ∧ q.presaleMaximumCap = p.presaleMaximumCap ∧
          q.immediateReleaseBps = p.immediateReleaseBps ∧
          p.registries.map Registry.presaleSupply = [1000, 10, 0, 0, 0] ∧
          q.registries.map Registry.presaleSupply = [10, 1000, 0, 0, 0] ∧ p.totalDeposit = 1000)
      | _, _ => false) = true := by decide +kernel
  rw [hp, hq] at h
  obtain ⟨h1, h2, h3, h4, h5, h6, h7, h8⟩ := of_decide_eq_true h
  have s1 : standing (run genesis (oneWay ++ [.tick 1000])) =
      [(sale, 0, 990, 21), (sale, 0, 5, 1), (sale, 1, 5, 1)] := by decide +kernel
  have s2 : standing (run genesis (otherWay ++ [.tick 1000])) =
      [(sale, 0, 5, 1), (sale, 1, 5, 1), (sale, 1, 990, 21)] := by decide +kernel
  have other : ∀ n : Nat, Equiv.swap 0 1 (n + 2) = n + 2 := fun n =>
    Equiv.swap_apply_of_ne_of_ne (by omega) (by omega)
  refine ⟨p, q, J, K, ⟨h1, h2, h3, h4, h5, fun i => ?_⟩, fun i => ?_, ?_, h8⟩
  · rw [← List.getElem?_map, ← List.getElem?_map, h6, h7]
    match i with
    | 0 => rw [Equiv.swap_apply_left]; rfl
    | 1 => rw [Equiv.swap_apply_right]; rfl
    | n + 2 => rw [other]; rfl
  · rw [entries_standing, entries_standing, s1, s2]
    match i with
    | 0 =>
      rw [Equiv.swap_apply_left]
      exact List.Perm.swap _ _ _
    | 1 =>
      rw [Equiv.swap_apply_right]
      exact List.Perm.refl _
    | n + 2 =>
      rw [other]
      simp
  · rw [s2]; rfl

end Ex

namespace Ex

/-- Other supply and other deposits in registry 0; in registry 1 what `oneWay` has in registry 0. -/
def thirdWay : List Op :=
  [sell 1 2 100 998 1 5000 1000 50 [77, 1000], hireOperator, .tick 10, letUpTo 998 bob 0, letUpTo 998 bob 1,
   letUpTo 998 alice 1, depositIn bob bobQuote 0 200, depositIn bob bobQuote 1 5, depositIn alice aliceQuote 1 990]

/-- The histories meet the hypotheses of `C113_own_registry`, though the sales differ. -/
example : ∃ p q, JustEnded (run genesis (oneWay ++ [.tick 1000])) sale p ∧
    JustEnded (run genesis (thirdWay ++ [.tick 1000])) sale q ∧ q.presaleMode = p.presaleMode ∧ q.raw0 = p.raw0 ∧
    q.immediateReleaseBps = p.immediateReleaseBps ∧
    q.registries[1]?.map Registry.presaleSupply = p.registries[0]?.map Registry.presaleSupply ∧
    (entries (run genesis (thirdWay ++ [.tick 1000])).escrows sale 1).Perm
      (entries (run genesis (oneWay ++ [.tick 1000])).escrows sale 0) ∧
    q.totalDeposit = 1195 ∧ p.totalDeposit = 1000 := by
  obtain ⟨p, hp, J⟩ := booksEnded oneWay (by decide +kernel)
  obtain ⟨q, hq, K⟩ := booksEnded thirdWay (by decide +kernel)
  have h : (match (run genesis oneWay).presales sale, (run genesis thirdWay).presales sale with
      | some p, some q => decide (q.presaleMode = p.presaleMode ∧ q.raw0 = p.raw0 ∧
          q.immediateReleaseBps = p.immediateReleaseBps ∧
          q.registries[1]?.map Registry.presaleSupply = p.registries[0]?.map Registry.presaleSupply ∧
          q.totalDeposit = 1195 ∧ p.totalDeposit = 1000)
      | _, _ => false) = true := by decide +kernel
  rw [hp, hq] at h
  obtain ⟨h1, h2, h3, h4, h5, h6⟩ := of_decide_eq_true h
  have s1 : standing (run genesis (oneWay ++ [.tick 1000])) =
      [(sale, 0, 990, 21), (sale, 0, 5, 1), (sale, 1, 5, 1)] := by decide +kernel
  have s2 : standing (run genesis (thirdWay ++ [.tick 1000])) =
      [(sale, 0, 200, 5), (sale, 1, 5, 1), (sale, 1, 990, 21)] := by decide +kernel
  refine ⟨p, q, J, K, h1, h2, h3, h4, ?_, h5, h6⟩
  rw [entries_standing, entries_standing, s1, s2]
  exact List.Perm.swap _ _ _

end Ex

end Verif
