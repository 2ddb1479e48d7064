import Verif.SpecMore
import Verif.Props.Fairness
import Verif.Props.Dust
/-!
# Depositing more (C91)
-/

namespace Verif
open Spec

theorem share_more {x x' d T n : Nat} (h : x ≤ x') (hd : d ≤ T) : x * d / T ≤ x' * (d + n) / (T + n) := by
  rcases Nat.eq_zero_or_pos T with h0 | h0
  · rw [h0, Nat.div_zero]; exact Nat.zero_le _
  · rw [Nat.le_div_iff_mul_le (by omega), Nat.mul_add]
    have h1 := Nat.div_mul_le_self (x * d) T
    have h2 : x * d / T ≤ x := by
      have : x * d / T ≤ x * T / T := Nat.div_le_div_right (Nat.mul_le_mul_left _ hd)
      rwa [Nat.mul_div_cancel _ h0] at this
    have h3 : x * d / T * n ≤ x * n := Nat.mul_le_mul_right _ h2
    have h4 : x * (d + n) ≤ x' * (d + n) := Nat.mul_le_mul_right _ h
    rw [Nat.mul_add] at h4
    omega

theorem immediatePart_mono {s s' b : Nat} (h : s ≤ s') : immediatePart s b ≤ immediatePart s' b :=
  Nat.div_le_div_right (Nat.mul_le_mul_right _ h)

theorem vestedPart_mono {s s' b : Nat} (h : s ≤ s') (hb : b ≤ 10000) :
    s - immediatePart s b ≤ s' - immediatePart s' b := by
  obtain ⟨k, rfl⟩ := Nat.exists_eq_add_of_le h
  have h1 : immediatePart (s + k) b ≤ immediatePart s b + k := by
    unfold immediatePart
    have hk : k * b ≤ 10000 * k := by rw [Nat.mul_comm]; exact Nat.mul_le_mul_right _ hb
    calc (s + k) * b / 10000 ≤ (s * b + 10000 * k) / 10000 :=
          Nat.div_le_div_right (by rw [Nat.add_mul]; omega)
      _ = s * b / 10000 + k := Nat.add_mul_div_left _ _ (by omega)
  have h2 := immediatePart_le (s := s) hb
  have h3 := immediatePart_le (s := s + k) hb
  omega

theorem dripped_mono_vested {v v' s d t : Nat} (h : v ≤ v') : dripped v s d t ≤ dripped v' s d t := by
  unfold dripped
  split
  · exact Nat.le_refl _
  · split
    · exact h
    · exact Nat.div_le_div_right (Nat.mul_le_mul_right _ h)

theorem claimable_more {bps imm s s' start duration t d T n : Nat} (h : s ≤ s') (hb : bps ≤ 10000) (hd : d ≤ T) :
    claimable bps imm s start duration t d T ≤ claimable bps imm s' start duration t (d + n) (T + n) := by
  unfold claimable
  by_cases h0 : d = 0 ∨ T = 0
  · rw [if_pos h0]; exact Nat.zero_le _
  · have h1 : ¬ (d + n = 0 ∨ T + n = 0) := by omega
    rw [if_neg h0, if_neg h1]
    refine Nat.add_le_add ?_ (share_more (dripped_mono_vested (vestedPart_mono h hb)) hd)
    split
    · exact share_more (immediatePart_mono h) hd
    · exact Nat.le_refl _

/-- What the terms say is the same in both sales. -/
structure SameTerms (p1 p2 : Presale) : Prop where
  mode : p2.presaleMode = p1.presaleMode
  price : p2.raw0 = p1.raw0
  bps : p2.immediateReleaseBps = p1.immediateReleaseBps
  duration : p2.vestDuration = p1.vestDuration
  cap : p2.presaleMaximumCap = p1.presaleMaximumCap
  supply : ∀ (j : Nat) (r1 r2 : Registry), p1.registries[j]? = some r1 → p2.registries[j]? = some r2 →
    r2.presaleSupply = r1.presaleSupply

theorem same_terms {p1 p2 : Presale} (h : terms p2 = terms p1) : SameTerms p1 p2 := by
  have f1 : (terms p2).presaleMode = (terms p1).presaleMode := by rw [h]
  have f2 : (terms p2).raw0 = (terms p1).raw0 := by rw [h]
  have f3 : (terms p2).immediateReleaseBps = (terms p1).immediateReleaseBps := by rw [h]
  have f4 : (terms p2).vestDuration = (terms p1).vestDuration := by rw [h]
  have f5 : (terms p2).presaleMaximumCap = (terms p1).presaleMaximumCap := by rw [h]
  have hr : (terms p2).registries = (terms p1).registries := by rw [h]
  refine ⟨f1, f2, f3, f4, f5, ?_⟩
  intro j r1 r2 h1 h2
  replace hr : p2.registries.map registryTerms = p1.registries.map registryTerms := hr
  have := congrArg (fun l => l[j]?) hr
  simp only [List.getElem?_map, h1, h2, Option.map_some, Option.some.injEq] at this
  have f : (registryTerms r2).presaleSupply = (registryTerms r1).presaleSupply := by rw [this]
  exact f

theorem sold_more {p1 p2 : Presale} {r1 r2 : Registry} (h1 : p2.presaleMode = p1.presaleMode) (h2 : p2.raw0 = p1.raw0)
    (h3 : r2.presaleSupply = r1.presaleSupply) (h4 : r1.totalDeposit ≤ r2.totalDeposit) :
    Spec.sold p1 r1 ≤ Spec.sold p2 r2 := by
  unfold Spec.sold
  rw [h1, h2, h3]
  split
  · split
    · exact Nat.zero_le _
    · next h0 =>
      have h5 : ¬ r2.totalDeposit = 0 := by omega
      rw [if_neg h5]
  · have h5 : tokensAtPrice p1.raw0 r1.totalDeposit ≤ tokensAtPrice p1.raw0 r2.totalDeposit := tokensAtPrice_mono h4
    generalize tokensAtPrice p1.raw0 r1.totalDeposit = x at *
    generalize tokensAtPrice p1.raw0 r2.totalDeposit = y at *
    omega

/-- Facts about an escrow of a reachable sale. -/
theorem stake_le {w : World} (R : Reachable w) {a k : Addr} {p : Presale} {e : Escrow} {r : Registry}
    (hp : w.presales a = some p) (hk : w.escrows.get? k = some e) (ha : e.presale = a)
    (hr : p.registries[e.registryIndex]? = some r) :
    e.totalDeposit ≤ r.totalDeposit ∧ r.totalDeposit ≤ p.totalDeposit ∧ p.immediateReleaseBps ≤ 10000 := by
  have P := (R.winv.core.sale a p hp).pinv
  exact ⟨(P.book.dep_le hk ha hr).1, (P.book.reg_le hr).1, P.static.bps⟩

/-- **C91.** Depositing more never yields fewer tokens: of two sales that differ only in one buyer's deposit, the one
with the larger deposit gives that buyer at least as many tokens, in the end and at every moment if the release
dates are the same. -/
theorem C91_more_tokens {w1 : World} (R1 : Reachable w1) {a1 k1 : Addr} {p1 p2 : Presale} {e1 e2 : Escrow}
    {r1 r2 : Registry} {n : Nat} (hp1 : w1.presales a1 = some p1) (hk1 : w1.escrows.get? k1 = some e1)
    (ha1 : e1.presale = a1) (hr1 : p1.registries[e1.registryIndex]? = some r1)
    (hr2 : p2.registries[e1.registryIndex]? = some r2) (T : Topped p1 p2 e1.registryIndex n)
    (hd : e2.totalDeposit = e1.totalDeposit + n) :
    entitlement p1 r1 e1 ≤ entitlement p2 r2 e2 ∧
    (SameRelease p1 p2 → ∀ t, claimableAt p1 r1 e1 t ≤ claimableAt p2 r2 e2 t) := by
  obtain ⟨h1, h2, h3⟩ := stake_le R1 hp1 hk1 ha1 hr1
  have E := same_terms T.terms
  have hT := T.registries _ r1 r2 hr1 hr2
  rw [if_pos rfl] at hT
  have hs := sold_more E.mode E.price (E.supply _ _ _ hr1 hr2) (by omega : r1.totalDeposit ≤ r2.totalDeposit)
  constructor
  · unfold entitlement
    by_cases h0 : e1.totalDeposit = 0 ∨ r1.totalDeposit = 0
    · rw [if_pos h0]; exact Nat.zero_le _
    · have h4 : ¬ (e2.totalDeposit = 0 ∨ r2.totalDeposit = 0) := by omega
      rw [if_neg h0, if_neg h4, E.bps, hd, hT]
      exact Nat.add_le_add (share_more (immediatePart_mono hs) h1) (share_more (vestedPart_mono hs h3) h1)
  · intro D t
    unfold claimableAt
    rw [E.bps, E.duration, D.1, D.2, hd, hT]
    exact claimable_more hs h3 h1

theorem surplus_more {p1 p2 : Presale} {n : Nat} (h : p2.presaleMaximumCap = p1.presaleMaximumCap)
    (ht : p2.totalDeposit = p1.totalDeposit + n) : surplus p1 ≤ surplus p2 := by
  unfold surplus; omega

/-- **C91.** Nor a smaller refund from an oversubscribed sale. -/
theorem C91_more_back {w1 : World} (R1 : Reachable w1) {a1 k1 : Addr} {p1 p2 : Presale} {e1 e2 : Escrow}
    {r1 r2 : Registry} {n : Nat} (hp1 : w1.presales a1 = some p1) (hk1 : w1.escrows.get? k1 = some e1)
    (ha1 : e1.presale = a1) (hr1 : p1.registries[e1.registryIndex]? = some r1)
    (hr2 : p2.registries[e1.registryIndex]? = some r2) (T : Topped p1 p2 e1.registryIndex n)
    (hd : e2.totalDeposit = e1.totalDeposit + n) : refundDeposit p1 r1 e1 ≤ refundDeposit p2 r2 e2 := by
  obtain ⟨h1, h2, h3⟩ := stake_le R1 hp1 hk1 ha1 hr1
  have E := same_terms T.terms
  have hT := T.registries _ r1 r2 hr1 hr2
  rw [if_pos rfl] at hT
  have hs := surplus_more E.cap T.total
  have hg : registrySurplus p1 r1 ≤ registrySurplus p2 r2 := by
    unfold registrySurplus
    rw [hT, T.total]
    exact share_more hs h2
  unfold refundDeposit
  rw [E.mode]
  split
  · rw [Nat.mul_comm e1.totalDeposit, Nat.mul_comm e2.totalDeposit, hd, hT]
    exact share_more hg h1
  · exact Nat.le_refl _

/-- The exact part of a deposit that is kept. -/
theorem kept_exact {p : Presale} {e : Escrow} (ht : 0 < p.totalDeposit) :
    (e.totalDeposit : ℚ) - exactRefund p e =
      (raise p : ℚ) * ((e.totalDeposit : ℚ) / p.totalDeposit) := by
  have h0 : (p.totalDeposit : ℚ) ≠ 0 := by positivity
  have h1 : (surplus p : ℚ) + raise p = p.totalDeposit := by
    have : surplus p + raise p = p.totalDeposit := by unfold surplus raise; omega
    exact_mod_cast this
  unfold exactRefund
  have h2 : (e.totalDeposit : ℚ) = p.totalDeposit * ((e.totalDeposit : ℚ) / p.totalDeposit) := by
    field_simp
  generalize (e.totalDeposit : ℚ) / p.totalDeposit = x at *
  rw [← h1] at h2
  linarith [h2]

/-- What a floored share leaves behind grows with the stake. -/
theorem rest_more {x x' d T n : Nat} (hx : x ≤ T) (hx' : x' ≤ T + n) (h : T - x ≤ T + n - x') (hd : d ≤ T) :
    d - x * d / T ≤ d + n - x' * (d + n) / (T + n) := by
  rcases Nat.eq_zero_or_pos T with h0 | h0
  · have : d = 0 := by omega
    rw [this, Nat.zero_sub]; exact Nat.zero_le _
  have hT : 0 < T + n := by omega
  have h1 : x' * (d + n) / (T + n) ≤ d + n := by
    have : x' * (d + n) / (T + n) ≤ (T + n) * (d + n) / (T + n) := Nat.div_le_div_right (Nat.mul_le_mul_right _ hx')
    rwa [Nat.mul_div_cancel_left _ hT] at this
  have h2 : x * d / T ≤ d := by
    have : x * d / T ≤ T * d / T := Nat.div_le_div_right (Nat.mul_le_mul_right _ hx)
    rwa [Nat.mul_div_cancel_left _ h0] at this
  have key : x' * (d + n) / (T + n) ≤ x * d / T + n := by
    obtain ⟨k, hk⟩ := Nat.exists_eq_add_of_le hx
    obtain ⟨k', hk'⟩ := Nat.exists_eq_add_of_le hx'
    have hkk : k ≤ k' := by omega
    generalize hq : x * d / T = q
    have e1 : x * d < T * (q + 1) := by
      have := Nat.div_add_mod (x * d) T
      have := Nat.mod_lt (x * d) h0
      rw [hq] at *
      rw [Nat.mul_add, Nat.mul_one]; omega
    have e2 : T * d = x * d + k * d := by rw [hk, Nat.add_mul]
    have e3 : (T + n) * (d + n) = x' * (d + n) + k' * (d + n) := by rw [hk', Nat.add_mul]
    have e4 : k * (d + n) ≤ k' * (d + n) := Nat.mul_le_mul_right _ hkk
    by_contra hc
    have hc' : q + n + 1 ≤ x' * (d + n) / (T + n) := by omega
    rw [Nat.le_div_iff_mul_le hT] at hc'
    -- with m the part left behind, `k * d > T * (m - 1)` and `k' * (d + n) ≤ (T + n) * (m - 1)`
    obtain ⟨m, hm⟩ := Nat.exists_eq_add_of_le (show q + 1 ≤ d from by
      have : q + n + 1 ≤ d + n := by
        have := Nat.le_of_mul_le_mul_right (show (q + n + 1) * (T + n) ≤ (d + n) * (T + n) by
          have : x' * (d + n) ≤ (T + n) * (d + n) := Nat.mul_le_mul_right _ hx'
          rw [Nat.mul_comm (d + n)]; omega) hT
        exact this
      omega)
    have e5 : T * d = T * (q + 1) + T * m := by rw [hm, Nat.mul_add]
    have e6 : T * m < k * d := by omega
    have e7 : (T + n) * (d + n) = (q + n + 1) * (T + n) + (T + n) * m := by
      rw [show d + n = (q + n + 1) + m by omega, Nat.mul_add, Nat.mul_comm (T + n) (q + n + 1)]
    have e8 : k' * (d + n) ≤ (T + n) * m := by omega
    have e9 : m < k := by
      have : T * m < T * k := by
        have : k * d ≤ k * T := Nat.mul_le_mul_left _ hd
        rw [Nat.mul_comm T k]; omega
      exact Nat.lt_of_mul_lt_mul_left this
    have e10 : n * m ≤ n * k := Nat.mul_le_mul_left _ (by omega)
    have e11 : (T + n) * m = T * m + n * m := Nat.add_mul _ _ _
    have e12 : k * (d + n) = k * d + n * k := by rw [Nat.mul_add, Nat.mul_comm n k]
    omega
  omega

/-- **C91.** Depositing more does not make it cheaper: what the sale keeps of a deposit never falls. -/
theorem C91_not_cheaper {w1 : World} (R1 : Reachable w1) {a1 k1 : Addr} {p1 p2 : Presale} {e1 e2 : Escrow}
    {r1 r2 : Registry} {n : Nat} (hp1 : w1.presales a1 = some p1) (hk1 : w1.escrows.get? k1 = some e1)
    (ha1 : e1.presale = a1) (hr1 : p1.registries[e1.registryIndex]? = some r1)
    (hr2 : p2.registries[e1.registryIndex]? = some r2) (T : Topped p1 p2 e1.registryIndex n)
    (hd : e2.totalDeposit = e1.totalDeposit + n) :
    e1.totalDeposit - refundDeposit p1 r1 e1 ≤ e2.totalDeposit - refundDeposit p2 r2 e2 := by
  obtain ⟨h1, h2, h3⟩ := stake_le R1 hp1 hk1 ha1 hr1
  have E := same_terms T.terms
  have hT := T.registries _ r1 r2 hr1 hr2
  rw [if_pos rfl] at hT
  have hle : ∀ p : Presale, surplus p ≤ p.totalDeposit := fun p => by unfold surplus; omega
  have hsh : ∀ (p : Presale) (r : Registry), registrySurplus p r ≤ r.totalDeposit := by
    intro p r
    unfold registrySurplus
    rcases Nat.eq_zero_or_pos p.totalDeposit with h0 | h0
    · rw [h0, Nat.div_zero]; exact Nat.zero_le _
    · have : surplus p * r.totalDeposit / p.totalDeposit ≤ p.totalDeposit * r.totalDeposit / p.totalDeposit :=
        Nat.div_le_div_right (Nat.mul_le_mul_right _ (hle p))
      rwa [Nat.mul_div_cancel_left _ h0] at this
  have hg : r1.totalDeposit - registrySurplus p1 r1 ≤ r2.totalDeposit - registrySurplus p2 r2 := by
    have := rest_more (x := surplus p1) (x' := surplus p2) (d := r1.totalDeposit) (T := p1.totalDeposit) (n := n)
      (hle p1) (by rw [← T.total]; exact hle p2) (by
        unfold surplus; rw [E.cap, T.total]; omega) h2
    unfold registrySurplus
    rw [hT, T.total]
    exact this
  unfold refundDeposit
  rw [E.mode]
  split
  · rw [Nat.mul_comm e1.totalDeposit, Nat.mul_comm e2.totalDeposit, hd, hT]
    have b1 := hsh p1 r1
    have b2 := hsh p2 r2
    rw [hT] at hg b2
    exact rest_more b1 b2 hg h1
  · omega

/-- **C91.** The others never gain tokens by it: where the registry supply is shared out, an escrow with the same
deposit in both sales gets no more tokens in the second, in the end and at every moment; in other registries exactly
the same. -/
theorem C91_others_tokens {w1 : World} (R1 : Reachable w1) {a1 k1 : Addr} {p1 p2 : Presale} {f1 f2 : Escrow}
    {r1 r2 : Registry} {i n : Nat} (hp1 : w1.presales a1 = some p1) (hk1 : w1.escrows.get? k1 = some f1)
    (ha1 : f1.presale = a1) (hm : p1.presaleMode = 1 ∨ p1.presaleMode = 2)
    (hr1 : p1.registries[f1.registryIndex]? = some r1) (hr2 : p2.registries[f1.registryIndex]? = some r2)
    (T : Topped p1 p2 i n) (hd : f2.totalDeposit = f1.totalDeposit) :
    entitlement p2 r2 f2 ≤ entitlement p1 r1 f1 ∧
    (SameRelease p1 p2 → ∀ t, claimableAt p2 r2 f2 t ≤ claimableAt p1 r1 f1 t) ∧
    (f1.registryIndex ≠ i → entitlement p2 r2 f2 = entitlement p1 r1 f1) := by
  have h0 := (stake_le R1 hp1 hk1 ha1 hr1).1
  have E := same_terms T.terms
  have hT := T.registries _ r1 r2 hr1 hr2
  have hsup := E.supply _ _ _ hr1 hr2
  by_cases hz : f1.totalDeposit = 0
  · have hz2 : f2.totalDeposit = 0 := by omega
    refine ⟨?_, fun _ t => ?_, fun _ => ?_⟩
    · unfold entitlement; rw [if_pos (.inl hz2)]; exact Nat.zero_le _
    · unfold claimableAt claimable; rw [if_pos (.inl hz2)]; exact Nat.zero_le _
    · unfold entitlement; rw [if_pos (.inl hz2), if_pos (.inl hz)]
  · have hT1 : ¬ r1.totalDeposit = 0 := by omega
    have hT2 : ¬ r2.totalDeposit = 0 := by omega
    have hs : Spec.sold p2 r2 = Spec.sold p1 r1 := by
      unfold Spec.sold
      rw [E.mode, if_pos hm, if_pos hm, if_neg hT1, if_neg hT2, hsup]
    have hle : r1.totalDeposit ≤ r2.totalDeposit := by omega
    have hn1 : ¬ (f1.totalDeposit = 0 ∨ r1.totalDeposit = 0) := by omega
    have hn2 : ¬ (f2.totalDeposit = 0 ∨ r2.totalDeposit = 0) := by omega
    have hpos : 0 < r1.totalDeposit := by omega
    refine ⟨?_, fun D t => ?_, fun hne => ?_⟩
    · unfold entitlement
      rw [if_neg hn1, if_neg hn2, hs, E.bps, hd]
      exact Nat.add_le_add (Nat.div_le_div_left hle hpos) (Nat.div_le_div_left hle hpos)
    · unfold claimableAt claimable
      rw [if_neg hn1, if_neg hn2, hs, E.bps, E.duration, D.1, D.2, hd]
      refine Nat.add_le_add ?_ (Nat.div_le_div_left hle hpos)
      split
      · exact Nat.div_le_div_left hle hpos
      · exact Nat.le_refl _
    · rw [if_neg hne] at hT
      unfold entitlement
      rw [if_neg hn1, if_neg hn2, hs, E.bps, hd, show r2.totalDeposit = r1.totalDeposit by omega]

/-- **C91.** And they get more of their money back, up to a unit of rounding. -/
theorem C91_others_back {w1 w2 : World} (R1 : Reachable w1) (R2 : Reachable w2) {a1 a2 k1 k2 : Addr}
    {p1 p2 : Presale} {f1 f2 : Escrow} {r1 r2 : Registry} {i n : Nat}
    (hp1 : w1.presales a1 = some p1) (hp2 : w2.presales a2 = some p2) (hc1 : Completed p1 w1.clock)
    (hc2 : Completed p2 w2.clock) (hm : p1.presaleMode = 1)
    (hk1 : w1.escrows.get? k1 = some f1) (ha1 : f1.presale = a1)
    (hk2 : w2.escrows.get? k2 = some f2) (ha2 : f2.presale = a2)
    (hi : f2.registryIndex = f1.registryIndex) (hr1 : p1.registries[f1.registryIndex]? = some r1)
    (hr2 : p2.registries[f1.registryIndex]? = some r2) (T : Topped p1 p2 i n)
    (hd : f2.totalDeposit = f1.totalDeposit) :
    refundDeposit p1 r1 f1 ≤ refundDeposit p2 r2 f2 + 1 := by
  have E := same_terms T.terms
  obtain ⟨h1, h2, _⟩ := stake_le R1 hp1 hk1 ha1 hr1
  obtain ⟨x, hx, _, g1, _⟩ := C20_exact_share R1 hp1 hc1 hm hk1 ha1
  rw [hr1] at hx; cases hx
  obtain ⟨y, hy, _, _, g2, _⟩ := C20_exact_share R2 hp2 hc2 (by rw [E.mode]; exact hm) hk2 ha2
  rw [hi, hr2] at hy; cases hy
  rcases Nat.eq_zero_or_pos f1.totalDeposit with h0 | h0
  · unfold refundDeposit; rw [h0, Nat.zero_mul, Nat.zero_div, ite_self]; exact Nat.zero_le _
  have k1 := kept_exact (p := p1) (e := f1) (by omega)
  have k2 := kept_exact (p := p2) (e := f2) (by have := T.total; omega)
  have hle : (raise p2 : ℚ) * ((f2.totalDeposit : ℚ) / p2.totalDeposit) ≤
      (raise p1 : ℚ) * ((f1.totalDeposit : ℚ) / p1.totalDeposit) := by
    have t0 : (0 : ℚ) < p1.totalDeposit := by exact_mod_cast (by omega : 0 < p1.totalDeposit)
    have t1 : (0 : ℚ) < p2.totalDeposit := by
      exact_mod_cast (by have := T.total; omega : 0 < p2.totalDeposit)
    rw [hd, ← mul_div_assoc, ← mul_div_assoc, div_le_div_iff₀ t1 t0]
    have : raise p2 * p1.totalDeposit ≤ raise p1 * p2.totalDeposit := by
      unfold raise
      rw [E.cap]
      rcases Nat.le_total p1.totalDeposit p1.presaleMaximumCap with hc | hc
      · rw [Nat.min_eq_left hc, Nat.mul_comm]
        exact Nat.mul_le_mul_left _ (Nat.min_le_left _ _)
      · rw [Nat.min_eq_right hc]
        exact Nat.mul_le_mul (Nat.min_le_right _ _) (by have := T.total; omega)
    have h3 : raise p2 * f1.totalDeposit * p1.totalDeposit ≤ raise p1 * f1.totalDeposit * p2.totalDeposit := by
      have := Nat.mul_le_mul_left f1.totalDeposit this
      calc raise p2 * f1.totalDeposit * p1.totalDeposit = f1.totalDeposit * (raise p2 * p1.totalDeposit) := by ring
        _ ≤ f1.totalDeposit * (raise p1 * p2.totalDeposit) := this
        _ = raise p1 * f1.totalDeposit * p2.totalDeposit := by ring
    exact_mod_cast h3
  have hd' : (f2.totalDeposit : ℚ) = f1.totalDeposit := by rw [hd]
  have : (refundDeposit p1 r1 f1 : ℚ) < ((refundDeposit p2 r2 f2 + 2 : Nat) : ℚ) := by
    push_cast
    linarith
  have : refundDeposit p1 r1 f1 < refundDeposit p2 r2 f2 + 2 := by exact_mod_cast this
  omega

/-! ## Examples -/

namespace Ex

/-- Bob deposits in two registries of a sale that wants two units; Alice has an escrow in the first. -/
def quietOps : List Op :=
  [sell 1 2 1 2 1 5000 1000 50 [1000, 10], hireOperator, .tick 10, letUpTo 2 alice 0, letUpTo 2 bob 0,
   letUpTo 2 bob 1, depositIn bob bobQuote 0 2, depositIn bob bobQuote 1 2]

def quietWorld : World := run genesis (quietOps ++ [.tick 3000])

/-- The same with a deposit of Alice. -/
def toppedWorld : World := run genesis (quietOps ++ [depositIn alice aliceQuote 0 1, .tick 3000])

/-- Two presales side by side. -/
def both (f : Presale → Presale → Bool) : Bool :=
  match quietWorld.presales sale, toppedWorld.presales sale with
  | some p, some q => f p q
  | _, _ => false

/-- `Topped` as a test. -/
def topped (p q : Presale) : Bool :=
  decide (terms q = terms p) && decide (q.totalDeposit = p.totalDeposit + 1) &&
    decide (q.registries.map Registry.totalDeposit = [3, 2, 0, 0, 0]) &&
    decide (p.registries.map Registry.totalDeposit = [2, 2, 0, 0, 0])

theorem topped_ok {p q : Presale} (h : topped p q = true) : Topped p q 0 1 := by
  simp only [topped, Bool.and_eq_true, decide_eq_true_eq] at h
  obtain ⟨⟨⟨h1, h2⟩, h3⟩, h4⟩ := h
  refine ⟨h1, h2, ?_⟩
  intro j r1 r2 g1 g2
  have e1 := congrArg (fun l => l[j]?) h3
  have e2 := congrArg (fun l => l[j]?) h4
  simp only [List.getElem?_map, g1, g2, Option.map_some] at e1 e2
  match j with
  | 0 => simp_all
  | 1 => simp_all
  | 2 => simp_all
  | 3 => simp_all
  | 4 => simp_all
  | _ + 5 => simp at e1

end Ex

/-- **C91.** The unit of rounding in the refunds of the others is real: two reachable sales differing in a deposit of
one unit in which the larger one refunds another buyer a unit less. -/
theorem C91_unit_lost : ∃ w1 w2 : World, ∃ a k : Addr, ∃ p1 p2 : Presale, ∃ f1 f2 : Escrow, ∃ r1 r2 : Registry,
    Reachable w1 ∧ Reachable w2 ∧ w1.presales a = some p1 ∧ w2.presales a = some p2 ∧
    Completed p1 w1.clock ∧ Completed p2 w2.clock ∧ w1.escrows.get? k = some f1 ∧ w2.escrows.get? k = some f2 ∧
    f1.presale = a ∧ f2.registryIndex = f1.registryIndex ∧ f2.totalDeposit = f1.totalDeposit ∧
    p1.registries[f1.registryIndex]? = some r1 ∧ p2.registries[f1.registryIndex]? = some r2 ∧
    p1.presaleMode = 1 ∧ Topped p1 p2 0 1 ∧ refundDeposit p1 r1 f1 = refundDeposit p2 r2 f2 + 1 := by
  have h1 : Ex.seen Ex.quietWorld (Ex.escrowOf Ex.bob) (fun p r e => decide (p.presaleMode = 1) &&
      decide (Completed p Ex.quietWorld.clock) && decide (e.registryIndex = 0) && decide (e.totalDeposit = 2) &&
      decide (refundDeposit p r e = 1)) = true := by decide +kernel
  have h2 : Ex.seen Ex.toppedWorld (Ex.escrowOf Ex.bob) (fun p r e =>
      decide (Completed p Ex.toppedWorld.clock) && decide (e.registryIndex = 0) && decide (e.totalDeposit = 2) &&
      decide (refundDeposit p r e = 0)) = true := by decide +kernel
  have h3 : Ex.both Ex.topped = true := by decide +kernel
  obtain ⟨p1, f1, r1, a1, a2, a3, a4, a5⟩ := Ex.seen_iff h1
  obtain ⟨p2, f2, r2, b1, b2, b3, b4, b5⟩ := Ex.seen_iff h2
  simp only [Bool.and_eq_true, decide_eq_true_eq] at a5 b5
  obtain ⟨⟨⟨⟨c1, c2⟩, c3⟩, c4⟩, c5⟩ := a5
  obtain ⟨⟨⟨d2, d3⟩, d4⟩, d5⟩ := b5
  simp only [Ex.both, a1, b1] at h3
  refine ⟨_, _, _, _, p1, p2, f1, f2, r1, r2, ⟨_, _, Ex.genesis_ok, rfl⟩, ⟨_, _, Ex.genesis_ok, rfl⟩, a1, b1, c2, d2,
    a2, b2, a3, by omega, by omega, a4, by rw [c3, ← d3]; exact b4, c1, Ex.topped_ok h3, by omega⟩

namespace Ex

/-- Alice's deposit brings tokens and costs a unit; Bob's share in the other registry stays. -/
example :
    seen quietWorld (escrowOf alice) (fun p r e => decide (entitlement p r e = 0 ∧ e.totalDeposit = 0)) = true ∧
    seen toppedWorld (escrowOf alice) (fun p r e =>
      decide (entitlement p r e = 332 ∧ e.totalDeposit = 1 ∧ refundDeposit p r e = 0)) = true ∧
    seen quietWorld (escrowOf bob) (fun p r e => decide (entitlement p r e = 1000)) = true ∧
    seen toppedWorld (escrowOf bob) (fun p r e => decide (entitlement p r e = 666)) = true ∧
    seen quietWorld (.escrow sale bob 1) (fun p r e => decide (entitlement p r e = 10)) = true ∧
    seen toppedWorld (.escrow sale bob 1) (fun p r e => decide (entitlement p r e = 10)) = true := by
  decide +kernel

end Ex

end Verif
