import Verif.Lemmas.Basic
import Verif.Spec
/-!
# C08: fixed price charges the least sufficient amount; C47 (arithmetic part): the minimum cap is
reachable by one deposit
-/

namespace Verif
open Spec

theorem tokensAtPrice_def (q a : Nat) : tokensAtPrice q a = a * SCALE_MULTIPLIER / q := by
  unfold tokensAtPrice; rw [scale_eq]

theorem tokenBought_eq {q a : Nat} (ha : a < u64Bound) (hq : q ≠ 0) :
    calculateTokenBought q a = .ok (tokensAtPrice q a) := by
  simp only [calculateTokenBought, shl128_eq ha, ok_bind, div_ok hq, tokensAtPrice_def]

theorem tokensAtPrice_mono {q a b : Nat} (h : a ≤ b) : tokensAtPrice q a ≤ tokensAtPrice q b := by
  rw [tokensAtPrice_def, tokensAtPrice_def]
  exact Nat.div_le_div_right (Nat.mul_le_mul_right _ h)

theorem tokensAtPrice_mul_le (q a : Nat) : tokensAtPrice q a * q ≤ a * SCALE_MULTIPLIER := by
  rw [tokensAtPrice_def]
  exact Nat.div_mul_le_self _ _

theorem withoutSurplus_eq {q a : Nat} (ha : a < u64Bound) (hq : q ≠ 0) :
    calculateQuoteTokenWithoutSurplus q a =
      .ok (divCeil (tokensAtPrice q a * q) SCALE_MULTIPLIER) := by
  have h1 := tokensAtPrice_mul_le q a
  have h2 : divCeil (tokensAtPrice q a * q) SCALE_MULTIPLIER ≤ a := (divCeil_le_iff scale_pos).2 h1
  have h3 : tokensAtPrice q a * q < u128Bound := by
    have : a * SCALE_MULTIPLIER < u128Bound := by
      rw [u128_eq_sq, scale_eq_u64]; exact Nat.mul_lt_mul_of_pos_right ha u64_pos
    exact Nat.lt_of_le_of_lt h1 this
  unfold calculateQuoteTokenWithoutSurplus
  rw [tokenBought_eq ha hq, ok_bind, mul128_ok h3, ok_bind, cast64_ok (Nat.lt_of_le_of_lt h2 ha),
    ok_bind, require_ok h2, ok_bind]
  exact pure_eq_ok.2 rfl

/-- C08: for every 64-bit amount and every non-zero price the charged amount exists (the internal
sanity check never rejects), is at most the offered amount, buys exactly as many base units, and
every smaller amount buys strictly fewer. -/
theorem C08_least_charge {q amount : Nat} (ha : amount < u64Bound) (hq : q ≠ 0) :
    ∃ charged, calculateQuoteTokenWithoutSurplus q amount = .ok charged ∧
      charged ≤ amount ∧
      tokensAtPrice q charged = tokensAtPrice q amount ∧
      ∀ less, less < charged → tokensAtPrice q less < tokensAtPrice q amount := by
  have hle : divCeil (tokensAtPrice q amount * q) SCALE_MULTIPLIER ≤ amount :=
    (divCeil_le_iff scale_pos).2 (tokensAtPrice_mul_le q amount)
  refine ⟨_, withoutSurplus_eq ha hq, hle, ?_, ?_⟩
  · apply Nat.le_antisymm (tokensAtPrice_mono hle)
    rw [tokensAtPrice_def q (divCeil _ _), Nat.le_div_iff_mul_le (Nat.pos_of_ne_zero hq)]
    exact le_divCeil_mul _ scale_pos
  · intro less hless
    have h : ¬ tokensAtPrice q amount * q ≤ less * SCALE_MULTIPLIER := by
      intro hc
      have := (divCeil_le_iff scale_pos).2 hc
      omega
    rw [tokensAtPrice_def q less, Nat.div_lt_iff_lt_mul (Nat.pos_of_ne_zero hq)]
    exact Nat.lt_of_not_le h

/-- Non-vacuity: at 2.5 quote units per base unit, 9 quote units buy 3 base units, for which 8 suffice. -/
example : calculateQuoteTokenWithoutSurplus (5 * 2 ^ 63) 9 = .ok 8 ∧ tokensAtPrice (5 * 2 ^ 63) 9 = 3
    ∧ tokensAtPrice (5 * 2 ^ 63) 7 = 2 := by decide +kernel

/-- C47, arithmetic part: a price and cap pair that passes the gap check lets a single deposit of the
maximum cap be charged at least the minimum cap. -/
theorem C47_single_deposit_reaches_minimum {q minCap maxCap : Nat} (hq : q ≠ 0)
    (hmin : minCap < u64Bound) (hmax : maxCap < u64Bound)
    (h : ensureGapBetweenMinAndMaxPresaleCap q minCap maxCap = .ok ()) :
    ∃ charged, calculateQuoteTokenWithoutSurplus q maxCap = .ok charged ∧
      minCap < charged ∧ charged ≤ maxCap := by
  simp only [ensureGapBetweenMinAndMaxPresaleCap, tokenBought_eq hmin hq, tokenBought_eq hmax hq,
    ok_bind, bind_eq_ok, sub_eq_ok, require_eq_ok] at h
  obtain ⟨_, ⟨h1, rfl⟩, h2⟩ := h
  obtain ⟨c, hc, hle, hsame, _⟩ := C08_least_charge hmax hq
  refine ⟨c, hc, ?_, hle⟩
  by_contra hlt
  have := tokensAtPrice_mono (q := q) (show c ≤ minCap by omega)
  omega

/-- Non-vacuity: price 10/3 quote units per base unit, caps 6 and 7. -/
example : ensureGapBetweenMinAndMaxPresaleCap (10 * 2 ^ 64 / 3) 6 7 = .ok ()
    ∧ calculateQuoteTokenWithoutSurplus (10 * 2 ^ 64 / 3) 7 = .ok 7 := by decide +kernel

end Verif
