import Verif.Props.Claims
/-!
# Fixed-price sales: tokens for deposits
-/

namespace Verif
open Spec

/-- A property of single presales that holds after creation and across every action holds always. -/
theorem presale_invariant {Q : Presale → Prop} (created : ∀ now p, Documented now p → Q p)
    (acted : ∀ w a p tx i p' es', WInv w → w.presales a = some p → Act w a p tx i p' es' → Q p → Q p')
    {w : World} (R : Reachable w) : ∀ a p, w.presales a = some p → Q p := by
  obtain ⟨w0, ops, G, rfl⟩ := R
  refine (run_rel (R := fun w w' => (∀ a p, w.presales a = some p → Q p) →
      ∀ a p, w'.presales a = some p → Q p) (fun _ h => h) (fun _ _ _ h h' => h' ∘ h) ?_ G.winv ops) ?_
  · intro w op w' rc W hs ih a p hp
    cases step_effect W hs with
    | quiet h => rw [h] at hp; exact ih a p hp
    | @create tx x q h1 h2 h3 h4 h5 h6 =>
      rw [h4] at hp
      by_cases h : a = x.presaleKey
      · subst h; rw [upd_self] at hp; cases hp; exact created _ _ h3
      · rw [upd_other _ _ h] at hp; exact ih a p hp
    | @act tx i b q q' es' h1 h2 h3 h4 h5 h6 =>
      rw [h4] at hp
      by_cases h : a = b
      · subst h; rw [upd_self] at hp; cases hp; exact acted w a q tx i _ es' W h2 h3 (ih a q h2)
      · rw [upd_other _ _ h] at hp; exact ih a p hp
  · intro a p hp; rw [G.presales a] at hp; cases hp

/-- No registry of a fixed-price sale is oversold by more than rounding. -/
def NotOversold (p : Presale) : Prop :=
  p.presaleMode ≠ 1 → p.presaleMode ≠ 2 → ∀ (i : Nat) r, p.registries[i]? = some r →
    r.totalDeposit * SCALE_MULTIPLIER < (r.presaleSupply + 1) * p.raw0 + SCALE_MULTIPLIER

theorem NotOversold.congr {p p' : Presale} (h : books p' = books p) (H : NotOversold p) : NotOversold p' := by
  intro h1 h2 i r' hr'
  have e1 : p'.presaleMode = p.presaleMode := (congrArg Presale.presaleMode h :)
  have e2 : p'.raw0 = p.raw0 := (congrArg Presale.raw0 h :)
  obtain ⟨r, hr, hb⟩ := books_reg h.symm hr'
  have e3 : r.totalDeposit = r'.totalDeposit := (congrArg Registry.totalDeposit hb :)
  have e4 : r.presaleSupply = r'.presaleSupply := (congrArg Registry.presaleSupply hb :)
  have := H (by omega) (by omega) i r hr
  rw [e3, e4] at this
  rw [e2]; exact this

/-- A deposit within the quota of the registry does not oversell it. -/
theorem quota_not_oversold {p : Presale} {r : Registry} {e : Escrow} {n : Nat}
    (hm : p.presaleMode ≠ 1) (hm' : p.presaleMode ≠ 2) (hq : 0 < p.raw0) (hn : 0 < n)
    (h : n ≤ remainingQuota p r e) :
    (r.totalDeposit + n) * SCALE_MULTIPLIER < (r.presaleSupply + 1) * p.raw0 + SCALE_MULTIPLIER := by
  unfold remainingQuota at h
  rw [if_neg hm, if_neg hm'] at h
  by_cases hs : sold p r = r.presaleSupply
  · rw [if_pos hs] at h; omega
  · rw [if_neg hs, costOf_eq] at h
    have hc : n ≤ divCeil ((r.presaleSupply - sold p r) * p.raw0) SCALE_MULTIPLIER := by omega
    have hsold : sold p r = min (tokensAtPrice p.raw0 r.totalDeposit) r.presaleSupply := by
      unfold sold; rw [if_neg (by omega)]
    have hlt : tokensAtPrice p.raw0 r.totalDeposit < r.presaleSupply := by omega
    have hs2 : sold p r = tokensAtPrice p.raw0 r.totalDeposit := by omega
    rw [hs2] at hc
    have h1 := divCeil_mul_lt ((r.presaleSupply - tokensAtPrice p.raw0 r.totalDeposit) * p.raw0) scale_pos
    have h2 := lt_div_succ_mul (r.totalDeposit * SCALE_MULTIPLIER) hq
    rw [← tokensAtPrice_def] at h2
    generalize tokensAtPrice p.raw0 r.totalDeposit = s at *
    have h3 := Nat.mul_le_mul_right SCALE_MULTIPLIER hc
    obtain ⟨u, hu⟩ : ∃ u, r.presaleSupply = s + u := ⟨r.presaleSupply - s, by omega⟩
    rw [hu, Nat.add_sub_cancel_left] at h1 h3
    rw [hu]
    generalize divCeil (u * p.raw0) SCALE_MULTIPLIER = c at *
    have e1 : (s + u + 1) * p.raw0 = (s + 1) * p.raw0 + u * p.raw0 := by ring
    rw [e1, Nat.add_mul]
    omega

theorem notOversold {w : World} (R : Reachable w) {a : Addr} {p : Presale} (hp : w.presales a = some p) :
    NotOversold p := by
  refine presale_invariant (Q := NotOversold) ?_ ?_ R a p hp
  · intro now p D _ _ i r hr
    have h1 := D.blank r (List.mem_of_getElem? hr)
    have h2 : r.totalDeposit = 0 := by rw [h1]; rfl
    rw [h2, Nat.zero_mul]
    have := scale_pos
    omega
  · intro w a p tx i p' es' W hp A H
    have P := (W.core.sale a p hp).pinv
    cases A with
    | opened _ _ _ _ _ hr => exact H.congr (books_counted hr)
    | @deposit x e d h quota r _ _ _ _ F =>
      have key : NotOversold (p.credited e.registryIndex r d.amount d.fees.fee) := by
        intro h1 h2 j r' hr'
        have hj : (p.registries.set e.registryIndex { r with
            totalDeposit := r.totalDeposit + d.amount,
            totalDepositFee := r.totalDepositFee + d.fees.fee })[j]? = some r' := hr'
        by_cases hje : j = e.registryIndex
        · subst hje
          rw [List.getElem?_set_self (List.getElem?_eq_some_iff.1 F.registry).1] at hj
          cases hj
          have hq := quota_eq F.handler F.registry (by have := F.boundR; omega) F.quotaIs
          have hle := F.amount_le.2.1
          rw [hq] at hle
          exact quota_not_oversold (p := p) h1 h2 (P.static.price h1 h2).1 F.pos hle
        · rw [List.getElem?_set_ne (Ne.symm hje)] at hj
          exact H h1 h2 j r' hj
      rcases F.result with ⟨h1, _⟩ | ⟨h1, _⟩ <;> rw [h1]
      · exact key
      · exact key
    | @withdraw x e _ e1 n h r _ _ _ _ _ F =>
      rw [F.presale]
      intro h1 h2 j r' hr'
      have hj : (p.registries.set e.registryIndex
          { r with totalDeposit := r.totalDeposit - n })[j]? = some r' := hr'
      by_cases hje : j = e.registryIndex
      · subst hje
        rw [List.getElem?_set_self (List.getElem?_eq_some_iff.1 F.registry).1] at hj
        cases hj
        have h3 := H h1 h2 _ r F.registry
        refine Nat.lt_of_le_of_lt ?_ h3
        exact Nat.mul_le_mul_right _ (Nat.sub_le _ _)
      · rw [List.getElem?_set_ne (Ne.symm hje)] at hj
        exact H h1 h2 j r' hj
    | refreshed => exact H
    | claimed _ _ _ _ _ hr => exact H.congr (books_claimed hr)
    | refunded _ _ _ _ _ hr => exact H.congr (books_refunded hr)
    | closed _ _ _ _ _ hr => exact H.congr (books_uncounted hr)
    | creatorWithdrew => exact H
    | collected => exact H
    | unsold => exact H

/-- **C09.** In a fixed-price sale with price `q / 2^64` the tokens an escrow can ever claim are worth at most
its deposit, at most one quote unit and the price of three base units less, and no registry takes more in
deposits than its supply, one quote unit and the price of one base unit. -/
theorem C09_price_paid {w : World} (R : Reachable w) {a k : Addr} {p : Presale} {e : Escrow}
    (hp : w.presales a = some p) (h1 : p.presaleMode ≠ 1) (h2 : p.presaleMode ≠ 2)
    (hk : w.escrows.get? k = some e) (ha : e.presale = a) :
    ∃ r, p.registries[e.registryIndex]? = some r ∧
      entitlement p r e * p.raw0 ≤ e.totalDeposit * 2 ^ 64 ∧
      e.totalDeposit * 2 ^ 64 < (entitlement p r e + 3) * p.raw0 + 2 ^ 64 := by
  have S := R.winv.core.sale a p hp
  obtain ⟨r, hr, _, _, hup, hlow⟩ := C15_full_entitlement R hp hk ha
  have hd := (S.pinv.book.dep_le hk ha hr).1
  have hq := (S.pinv.static.price h1 h2).1
  have hover := notOversold R hp h1 h2 _ _ hr
  have hsold : sold p r = min (tokensAtPrice p.raw0 r.totalDeposit) r.presaleSupply := by
    unfold sold; rw [if_neg (by omega)]
  have hT1 : sold p r * p.raw0 ≤ r.totalDeposit * SCALE_MULTIPLIER := by
    refine Nat.le_trans (Nat.mul_le_mul_right _ ?_) (tokensAtPrice_mul_le p.raw0 r.totalDeposit)
    omega
  have hT2 : r.totalDeposit * SCALE_MULTIPLIER < (sold p r + 1) * p.raw0 + SCALE_MULTIPLIER := by
    rcases Nat.le_total (tokensAtPrice p.raw0 r.totalDeposit) r.presaleSupply with h | h
    · have h3 := lt_div_succ_mul (r.totalDeposit * SCALE_MULTIPLIER) hq
      rw [← tokensAtPrice_def] at h3
      rw [hsold, Nat.min_eq_left h]
      omega
    · rw [hsold, Nat.min_eq_right h]; exact hover
  have e64 : (2 : Nat) ^ 64 = SCALE_MULTIPLIER := by rw [scale_eq]; norm_num
  rw [e64]
  refine ⟨r, hr, ?_⟩
  have hM := scale_pos
  generalize SCALE_MULTIPLIER = M at *
  generalize entitlement p r e = E at *
  generalize sold p r = s at *
  generalize p.raw0 = q at *
  generalize hde : e.totalDeposit = d at *
  generalize r.totalDeposit = T at *
  by_cases hT : T = 0
  · have hd0 : d = 0 := by omega
    subst hd0
    have hE : E = 0 := by
      have h3 : (E : ℚ) ≤ 0 := by simpa using hup
      have : (E : ℚ) = 0 := le_antisymm h3 (by positivity)
      exact_mod_cast this
    subst hE
    constructor
    · omega
    · omega
  · have hT' : (0 : ℚ) < T := by exact_mod_cast Nat.pos_of_ne_zero hT
    have hs0 : (0 : ℚ) ≤ (d : ℚ) / T := by positivity
    have hs1 : (d : ℚ) / T ≤ 1 := (div_le_one hT').2 (by exact_mod_cast hd)
    have hdT : (d : ℚ) = (d : ℚ) / T * T := by field_simp
    have hT1' : (s : ℚ) * q ≤ T * M := by exact_mod_cast hT1
    have hT2' : (T : ℚ) * M < (s + 1) * q + M := by exact_mod_cast hT2
    have hq' : (0 : ℚ) < q := by exact_mod_cast hq
    have hM' : (0 : ℚ) < M := by exact_mod_cast hM
    generalize (d : ℚ) / T = f at *
    constructor
    · have : (E : ℚ) * q ≤ d * M := by
        have a1 : (E : ℚ) * q ≤ s * f * q := mul_le_mul_of_nonneg_right hup hq'.le
        have a2 : f * ((s : ℚ) * q) ≤ f * (T * M) := mul_le_mul_of_nonneg_left hT1' hs0
        rw [hdT]
        have a3 : (s : ℚ) * f * q = f * (s * q) := by ring
        have a4 : f * T * M = f * (T * M) := by ring
        linarith
      exact_mod_cast this
    · have : (d : ℚ) * M < (E + 3) * q + M := by
        have a2 : f * (T * M) ≤ f * ((s + 1) * q + M) := mul_le_mul_of_nonneg_left hT2'.le hs0
        have a3 : (s : ℚ) * f * q < (E + 2) * q := mul_lt_mul_of_pos_right hlow hq'
        have a5 : f * q ≤ q := by nlinarith
        have a6 : f * M ≤ M := by nlinarith
        have a4 : (d : ℚ) * M = f * (T * M) := by rw [hdT]; ring
        have a7 : f * ((s + 1) * q + M) = s * f * q + f * q + f * M := by ring
        have a8 : ((E : ℚ) + 3) * q = (E + 2) * q + q := by ring
        linarith
      exact_mod_cast this

/-- **C09**, registries: never oversold by more than one quote unit and the price of one base unit. -/
theorem C09_not_oversold {w : World} (R : Reachable w) {a : Addr} {p : Presale}
    (hp : w.presales a = some p) (h1 : p.presaleMode ≠ 1) (h2 : p.presaleMode ≠ 2) {i : Nat} {r : Registry}
    (hr : p.registries[i]? = some r) :
    r.totalDeposit * 2 ^ 64 < (r.presaleSupply + 1) * p.raw0 + 2 ^ 64 := by
  have := notOversold R hp h1 h2 i r hr
  rw [scale_eq] at this
  have e : (2 : Nat) ^ 64 = 18446744073709551616 := by norm_num
  rw [e]
  exact this

/-! ## The hypotheses are met -/

namespace Ex

/-- 300 and 108 deposited at a price of 2.5: 163 tokens sold, 119 and 42 claimed. -/
example : has fixedVested (fun p => decide (p.presaleMode = 0 ∧ p.raw0 = 5 * 2 ^ 63 ∧ Spec.totalSold p = 163)) = true ∧
    hasEsc (apply fixedVested (claim alice aliceBase)) (escrowOf alice)
      (fun e => decide (e.totalDeposit = 300 ∧ e.totalClaimedToken = 119)) = true ∧
    hasEsc (apply fixedVested (claim bob bobBase)) (escrowOf bob)
      (fun e => decide (e.totalDeposit = 108 ∧ e.totalClaimedToken = 42)) = true := by
  decide +kernel

end Ex

end Verif
