import Verif.Lemmas.Basic
import Verif.Spec
/-!
# C07: deposit fee law
-/

namespace Verif
open Spec

/-- Characterisation of a successful fee computation. -/
theorem depositFee_inv {d b : Nat} {r : DepositFeeIncluded}
    (h : calculateDepositFeeIncludedAmount d b .up = .ok r) :
    b < 10000 ∧ r.amountIncludedFee = d + r.fee ∧ r.amountIncludedFee < u64Bound ∧
    d * 10000 ≤ r.amountIncludedFee * (10000 - b) ∧
    r.amountIncludedFee * (10000 - b) < d * 10000 + (10000 - b) := by
  simp only [calculateDepositFeeIncludedAmount, adjustForRounding, bind_eq_ok, sub_eq_ok, mul128_eq_ok, add128_eq_ok,
    div_eq_ok, cast64_eq_ok, pure_eq_ok, MAX_FEE_BASIS_POINTS] at h
  obtain ⟨den, ⟨hb, rfl⟩, adj, ⟨hadj, rfl⟩, x, ⟨d1, ⟨hd1, rfl⟩, hx, rfl⟩, inc, ⟨hden, rfl⟩, fee,
    ⟨hle, rfl⟩, f2, ⟨hf, rfl⟩, i2, ⟨hi, rfl⟩, rfl⟩ := h
  have hpos : 0 < 10000 - b := by omega
  have e : (d * 10000 + (10000 - b - 1)) / (10000 - b) = divCeil (d * 10000) (10000 - b) := by
    rw [divCeil_eq _ hpos]; congr 1; omega
  rw [e] at hi hle ⊢
  refine ⟨by omega, by simp; omega, hi, le_divCeil_mul _ hpos, divCeil_mul_lt _ hpos⟩

theorem adjust_lt {d x : Nat} (hd : d < u64Bound) (hx : x ≤ 9999) : d * 10000 + x < u128Bound := by
  rw [u64Bound_eq] at hd; rw [u128Bound_eq]; omega

/-- C07, fee law: whenever a fee is computed, gross is principal plus fee, the fee is the rate
applied to the gross amount rounded up, and no smaller gross amount covers the principal. -/
theorem C07_fee_law {d b : Nat} {r : DepositFeeIncluded}
    (h : calculateDepositFeeIncludedAmount d b .up = .ok r) :
    r.amountIncludedFee = d + r.fee ∧
    IsCeilDiv r.fee (r.amountIncludedFee * b) 10000 ∧
    ∀ gross fee, IsCeilDiv fee (gross * b) 10000 → d + fee ≤ gross → r.amountIncludedFee ≤ gross := by
  obtain ⟨hb, hg, _, h1, h2⟩ := depositFee_inv h
  obtain ⟨c, hc⟩ : ∃ c, 10000 = b + c := ⟨10000 - b, by omega⟩
  have hcb : 10000 - b = c := by omega
  rw [hcb] at h1 h2
  refine ⟨hg, ⟨?_, ?_⟩, ?_⟩
  · rw [hg] at h1 ⊢; rw [hc] at h1 ⊢; nlinarith
  · rw [hg] at h2 ⊢; rw [hc] at h2 ⊢; nlinarith
  · intro gross fee hfee hcov
    by_contra hlt
    have h3 : gross + 1 ≤ r.amountIncludedFee := by omega
    have h4 : (gross + 1) * c ≤ r.amountIncludedFee * c := Nat.mul_le_mul_right c h3
    have h5 := hfee.1
    rw [hc] at h5 h2
    have h6 : (d + fee) * (b + c) ≤ gross * (b + c) := Nat.mul_le_mul_right _ hcov
    nlinarith

/-- C07, domain: with a rate below 100% the computation succeeds exactly when a sufficient gross
amount fits 64 bits; with a rate of 100% or more it always fails. -/
theorem C07_fee_domain {d b : Nat} (hd : d < u64Bound) :
    (∃ r, calculateDepositFeeIncludedAmount d b .up = .ok r) ↔
    b < 10000 ∧ ∃ gross fee, gross < u64Bound ∧ IsCeilDiv fee (gross * b) 10000 ∧ d + fee ≤ gross := by
  constructor
  · rintro ⟨r, h⟩
    have hi := depositFee_inv h
    obtain ⟨h1, h2, _⟩ := C07_fee_law h
    exact ⟨hi.1, r.amountIncludedFee, r.fee, hi.2.2.1, h2, by omega⟩
  · rintro ⟨hb, gross, fee, hg, hfee, hcov⟩
    have hpos : 0 < 10000 - b := by omega
    have hadj : d * 10000 < u128Bound := by rw [u64Bound_eq] at hd; rw [u128Bound_eq]; omega
    have hadj2 : d * 10000 + (10000 - b - 1) < u128Bound := adjust_lt hd (by omega)
    have e : (d * 10000 + (10000 - b - 1)) / (10000 - b) = divCeil (d * 10000) (10000 - b) := by
      rw [divCeil_eq _ hpos]; congr 1; omega
    have hle : divCeil (d * 10000) (10000 - b) ≤ gross := by
      rw [divCeil_le_iff hpos]
      have h5 := hfee.1
      obtain ⟨c, hc⟩ : ∃ c, 10000 = b + c := ⟨10000 - b, by omega⟩
      have hcb : 10000 - b = c := by omega
      rw [hcb]
      rw [hc] at h5 ⊢
      have h6 : (d + fee) * (b + c) ≤ gross * (b + c) := Nat.mul_le_mul_right _ hcov
      nlinarith
    have hge : d ≤ divCeil (d * 10000) (10000 - b) := by
      have := le_divCeil_mul (d * 10000) hpos
      by_contra hlt
      have h1 : divCeil (d * 10000) (10000 - b) * (10000 - b) ≤
          divCeil (d * 10000) (10000 - b) * 10000 := Nat.mul_le_mul_left _ (by omega)
      omega
    refine ⟨⟨divCeil (d * 10000) (10000 - b) - d, divCeil (d * 10000) (10000 - b)⟩, ?_⟩
    simp only [calculateDepositFeeIncludedAmount, adjustForRounding, bind_eq_ok, sub_eq_ok, mul128_eq_ok, add128_eq_ok,
      div_eq_ok, cast64_eq_ok, pure_eq_ok, MAX_FEE_BASIS_POINTS]
    refine ⟨_, ⟨by omega, rfl⟩, _, ⟨hadj, rfl⟩, _, ⟨_, ⟨by omega, rfl⟩, hadj2, rfl⟩, _, ⟨by omega, rfl⟩, ?_⟩
    rw [e]
    exact ⟨_, ⟨hge, rfl⟩, _, ⟨by omega, rfl⟩, _, ⟨by omega, rfl⟩, rfl⟩

/-- C07, shape: the fee is monotone in the principal, at most the principal for rates up to 50%, and
splitting a deposit never lowers the total fee. -/
theorem C07_fee_shape {d₁ d₂ b : Nat} {r₁ r₂ : DepositFeeIncluded}
    (h₁ : calculateDepositFeeIncludedAmount d₁ b .up = .ok r₁)
    (h₂ : calculateDepositFeeIncludedAmount d₂ b .up = .ok r₂) :
    (d₁ ≤ d₂ → r₁.fee ≤ r₂.fee) ∧
    (b ≤ 5000 → r₁.fee ≤ d₁) ∧
    (∀ r, calculateDepositFeeIncludedAmount (d₁ + d₂) b .up = .ok r → r.fee ≤ r₁.fee + r₂.fee) := by
  obtain ⟨hb, g1, _, a1, b1⟩ := depositFee_inv h₁
  obtain ⟨_, g2, _, a2, b2⟩ := depositFee_inv h₂
  obtain ⟨c, hc⟩ : ∃ c, 10000 = b + c := ⟨10000 - b, by omega⟩
  have hcb : 10000 - b = c := by omega
  have hcpos : 0 < c := by omega
  rw [hcb] at a1 b1 a2 b2
  rw [g1] at a1 b1
  rw [g2] at a2 b2
  refine ⟨?_, ?_, ?_⟩
  · intro hle
    by_contra hlt
    have h3 : (r₂.fee + 1) * c ≤ r₁.fee * c := Nat.mul_le_mul_right c (by omega)
    rw [hc] at a2 b1
    have h4 : d₁ * b ≤ d₂ * b := Nat.mul_le_mul_right _ hle
    nlinarith
  · intro h5
    by_contra hlt
    have h3 : (d₁ + 1) * c ≤ r₁.fee * c := Nat.mul_le_mul_right c (by omega)
    rw [hc] at b1
    have h4 : d₁ * b ≤ d₁ * c := Nat.mul_le_mul_left _ (by omega)
    nlinarith
  · intro r hr
    obtain ⟨_, g3, _, a3, b3⟩ := depositFee_inv hr
    rw [hcb, g3] at a3 b3
    by_contra hlt
    have h3 : (r₁.fee + r₂.fee + 1) * c ≤ r.fee * c := Nat.mul_le_mul_right c (by omega)
    nlinarith

/-- Non-vacuity: a 2.5% fee on 1000 quote units. -/
example : calculateDepositFeeIncludedAmount 1000 250 .up = .ok ⟨26, 1026⟩ := by decide +kernel
/-- Non-vacuity of the splitting clause. -/
example : calculateDepositFeeIncludedAmount 500 250 .up = .ok ⟨13, 513⟩
    ∧ calculateDepositFeeIncludedAmount 501 250 .up = .ok ⟨13, 514⟩
    ∧ calculateDepositFeeIncludedAmount 1001 250 .up = .ok ⟨26, 1027⟩ := by decide +kernel
/-- Non-vacuity of the domain clause: 64-bit overflow does occur. -/
example : ¬ ∃ r, calculateDepositFeeIncludedAmount (u64Bound - 1) 250 .up = .ok r := by
  rw [C07_fee_domain (by rw [u64Bound_eq]; norm_num)]
  rintro ⟨_, gross, fee, hg, hfee, hcov⟩
  have := hfee.1
  rw [u64Bound_eq] at *
  omega

end Verif
