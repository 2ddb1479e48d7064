import Verif.Spec
import Verif.Lemmas.Basic
/-!
# The claim computation equals the release schedule of the specification
-/

namespace Verif
open Spec

theorem immediatePart_le {s b : Nat} (hb : b ≤ 10000) : immediatePart s b ≤ s := by
  unfold immediatePart
  exact mul_div_le_of_le hb

theorem dripped_le (v s d t : Nat) : dripped v s d t ≤ v := by
  unfold dripped
  split
  · omega
  · split
    · exact Nat.le_refl _
    · exact mul_div_le_of_le (Nat.min_le_right _ _)

theorem dripped_mono (v s d : Nat) {t t' : Nat} (h : t ≤ t') : dripped v s d t ≤ dripped v s d t' := by
  unfold dripped
  split
  · omega
  · next h1 =>
    have h2 : ¬ t' < s := by omega
    simp only [h2, if_false]
    split
    · exact Nat.le_refl _
    · apply Nat.div_le_div_right
      apply Nat.mul_le_mul_left
      omega

theorem dripped_end {v s d t : Nat} (h : s + d ≤ t) : dripped v s d t = v := by
  unfold dripped
  rw [if_neg (by omega)]
  split
  · rfl
  · next hd =>
    rw [show min (t - s) d = d by omega]
    exact Nat.mul_div_cancel _ (by omega)

/-- Claimable amounts never decrease over time. -/
theorem claimable_mono (bps imm sold vs vd d total : Nat) {t t' : Nat} (h : t ≤ t') :
    claimable bps imm sold vs vd t d total ≤ claimable bps imm sold vs vd t' d total := by
  unfold claimable
  split
  · exact Nat.le_refl _
  · apply Nat.add_le_add
    · split
      · rw [if_pos (by omega)]
      · omega
    · apply Nat.div_le_div_right
      apply Nat.mul_le_mul_right
      exact dripped_mono _ _ _ h

/-- The value from the end of the schedule on. -/
theorem claimable_end (bps imm sold vs vd d total : Nat) {t : Nat} (h1 : imm ≤ t) (h2 : vs + vd ≤ t) :
    claimable bps imm sold vs vd t d total =
      if d = 0 ∨ total = 0 then 0
      else immediatePart sold bps * d / total + (sold - immediatePart sold bps) * d / total := by
  unfold claimable
  rw [dripped_end h2, if_pos h1]

/-- Never more than the floored share of all sold tokens. -/
theorem claimable_le_share (bps imm sold vs vd t d total : Nat) (hb : bps ≤ 10000) :
    claimable bps imm sold vs vd t d total ≤ sold * d / total := by
  unfold claimable
  split
  · exact Nat.zero_le _
  · have h1 := immediatePart_le (s := sold) hb
    have h2 := dripped_le (sold - immediatePart sold bps) vs vd t
    calc _ ≤ immediatePart sold bps * d / total +
          (sold - immediatePart sold bps) * d / total := by
          apply Nat.add_le_add
          · split
            · exact Nat.le_refl _
            · exact Nat.zero_le _
          · exact Nat.div_le_div_right (Nat.mul_le_mul_right _ h2)
      _ ≤ (immediatePart sold bps * d + (sold - immediatePart sold bps) * d) / total :=
          Nat.add_div_le_add_div' _ _ _
      _ = sold * d / total := by rw [← Nat.add_mul, Nat.add_sub_cancel' h1]

theorem claimable_le_sold {bps imm sold vs vd t d total : Nat} (hb : bps ≤ 10000) (hd : d ≤ total) :
    claimable bps imm sold vs vd t d total ≤ sold :=
  Nat.le_trans (claimable_le_share bps imm sold vs vd t d total hb) (mul_div_le_of_le hd)

/-- Whenever the computation of `claim_math.rs` returns a value, it is the specified one. -/
theorem cumulative_value {bps imm sold vs vd t d total x : Nat} (hb : bps ≤ 10000)
    (h : calculateCumulativeClaimableAmountForUser bps imm sold vs vd t d total = .ok x) :
    x = claimable bps imm sold vs vd t d total := by
  unfold calculateCumulativeClaimableAmountForUser at h
  unfold claimable
  split at h
  · next h0 => rw [if_pos h0]; simpa using h.symm
  · next h0 =>
    rw [if_neg h0]
    simp only [bind_eq_ok, calculateImmediateReleaseToken, mul128_eq_ok, div_eq_ok, cast64_eq_ok,
      sub_eq_ok, pure_eq_ok, add64_eq_ok, userImmediateReleased] at h
    obtain ⟨r, ⟨x1, ⟨_, rfl⟩, x2, ⟨_, rfl⟩, x3, ⟨_, rfl⟩, x4, ⟨_, rfl⟩, rfl⟩, ui, hui, ud, hud, ud', ⟨_, rfl⟩,
      _, rfl⟩ := h
    have e1 : sold * bps / MAX_FEE_BASIS_POINTS = immediatePart sold bps := rfl
    simp only [e1] at *
    congr 1
    · split at hui
      · next hi =>
        rw [if_pos hi]
        simp only [calculateImmediateReleaseTokenForUser, bind_eq_ok, mul128_eq_ok, div_eq_ok,
          cast64_eq_ok] at hui
        obtain ⟨_, ⟨_, rfl⟩, _, ⟨_, rfl⟩, _, rfl⟩ := hui
        rfl
      · next hi => rw [if_neg hi]; simpa using hui.symm
    · unfold calculateDrippedAmountForUser at hud
      unfold dripped
      split at hud
      · next hi => rw [if_pos hi]; simp at hud; simp [← hud]
      · next hi =>
        rw [if_neg hi]
        simp only [bind_eq_ok] at hud
        obtain ⟨dr, hdr, y, hy, hz⟩ := hud
        simp only [mul128_eq_ok, div_eq_ok] at hy hz
        obtain ⟨_, rfl⟩ := hy
        obtain ⟨_, rfl⟩ := hz
        congr 2
        unfold drippedTotalSoldToken at hdr
        split at hdr
        · next hv => rw [if_pos hv]; simpa using hdr.symm
        · next hv =>
          rw [if_neg hv]
          simp only [bind_eq_ok, mul128_eq_ok, div_eq_ok, sub_eq_ok] at hdr
          obtain ⟨_, ⟨_, rfl⟩, _, ⟨_, rfl⟩, _, rfl⟩ := hdr
          rfl

/-- The computation succeeds on 64-bit data with a deposit not above the total. -/
theorem cumulative_ok {bps imm sold vs vd t d total : Nat} (hb : bps ≤ 10000) (hs : sold < u64Bound)
    (hvd : vd < u64Bound) (hd : d ≤ total) (ht : total < u64Bound) :
    calculateCumulativeClaimableAmountForUser bps imm sold vs vd t d total =
      .ok (claimable bps imm sold vs vd t d total) := by
  have hle := claimable_le_sold (imm := imm) (sold := sold) (vs := vs) (vd := vd) (t := t) hb hd
  unfold calculateCumulativeClaimableAmountForUser
  unfold claimable at hle ⊢
  split
  · rfl
  · next h0 =>
    rw [if_neg h0] at hle
    have hi := immediatePart_le (s := sold) hb
    have hdr := dripped_le (sold - immediatePart sold bps) vs vd t
    have e1 : sold * bps / MAX_FEE_BASIS_POINTS = immediatePart sold bps := rfl
    have hb64 : bps < u64Bound := by rw [u64Bound_eq]; omega
    have ht0 : total ≠ 0 := by omega
    have hr : calculateImmediateReleaseToken sold bps =
        .ok ⟨immediatePart sold bps, sold - immediatePart sold bps⟩ := by
      unfold calculateImmediateReleaseToken
      rw [mul128_ok (mul_lt_u128 hs hb64), ok_bind, div_ok (by decide), ok_bind, e1,
        cast64_ok (by omega), ok_bind, sub_ok hi, ok_bind]
      rfl
    rw [hr, ok_bind]
    have hui : userImmediateReleased imm t (immediatePart sold bps) d total =
        .ok (if imm ≤ t then immediatePart sold bps * d / total else 0) := by
      unfold userImmediateReleased
      split
      · unfold calculateImmediateReleaseTokenForUser
        rw [mul128_ok (mul_lt_u128 (by omega) (by omega)), ok_bind, div_ok ht0, ok_bind, cast64_ok]
        exact Nat.lt_of_le_of_lt (mul_div_le_of_le hd) (by omega)
      · rfl
    simp only [hui, ok_bind]
    have hud : calculateDrippedAmountForUser vs vd t (sold - immediatePart sold bps) d total =
        .ok (dripped (sold - immediatePart sold bps) vs vd t * d / total) := by
      unfold calculateDrippedAmountForUser
      unfold dripped at hdr ⊢
      split
      · simp
      · next hvs =>
        rw [if_neg hvs] at hdr
        have : drippedTotalSoldToken vs vd t (sold - immediatePart sold bps) =
            .ok (if vd = 0 then sold - immediatePart sold bps
              else (sold - immediatePart sold bps) * min (t - vs) vd / vd) := by
          unfold drippedTotalSoldToken
          split
          · rfl
          · next hv =>
            rw [sub_ok (by omega), ok_bind, mul128_ok (mul_lt_u128 (by omega) (by omega)), ok_bind, div_ok hv]
        rw [this, ok_bind, mul128_ok (mul_lt_u128 (by omega) (by omega)), ok_bind, div_ok ht0]
    rw [hud, ok_bind, cast64_ok (by omega), ok_bind, add64_ok (by omega)]

end Verif
