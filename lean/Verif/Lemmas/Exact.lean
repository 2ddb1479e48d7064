import Verif.SpecExact
import Verif.Lemmas.Claim
import Mathlib.Data.Nat.Cast.Order.Field
import Mathlib.Tactic.Linarith
import Mathlib.Tactic.Positivity
import Mathlib.Tactic.FieldSimp
import Mathlib.Tactic.Ring
/-!
# Rounding against exact amounts
-/

namespace Verif
open Spec

theorem floor_le (a b : Nat) : ((a / b : Nat) : ℚ) ≤ (a : ℚ) / b := Nat.cast_div_le

theorem lt_floor (a : Nat) {b : Nat} (hb : 0 < b) : (a : ℚ) / b < ((a / b : Nat) : ℚ) + 1 := by
  have h := lt_div_succ_mul a hb
  have hb' : (0 : ℚ) < b := by exact_mod_cast hb
  rw [div_lt_iff₀ hb']
  exact_mod_cast h

theorem dripFraction_range (s d t : Nat) : 0 ≤ dripFraction s d t ∧ dripFraction s d t ≤ 1 := by
  unfold dripFraction
  split
  · norm_num
  · split
    · norm_num
    · next h =>
      have hd : (0 : ℚ) < d := by exact_mod_cast Nat.pos_of_ne_zero h
      have hle : ((min (t - s) d : Nat) : ℚ) ≤ d := by exact_mod_cast Nat.min_le_right _ _
      exact ⟨by positivity, (div_le_one hd).2 hle⟩

/-- The dripped amount is the floor of the exact one. -/
theorem dripped_exact (v s d t : Nat) :
    (dripped v s d t : ℚ) ≤ v * dripFraction s d t ∧ v * dripFraction s d t < dripped v s d t + 1 := by
  unfold dripped dripFraction
  split
  · norm_num
  · split
    · norm_num
    · next h =>
      have hd := Nat.pos_of_ne_zero h
      have h1 := floor_le (v * min (t - s) d) d
      have h2 := lt_floor (v * min (t - s) d) hd
      have e : (v : ℚ) * (((min (t - s) d : Nat) : ℚ) / d) = ((v * min (t - s) d : Nat) : ℚ) / d := by
        rw [Nat.cast_mul, mul_div_assoc]
      rw [e]
      exact ⟨h1, h2⟩

/-- C10, arithmetic: the cumulative amount against the exact share. -/
theorem claimable_exact {bps imm sold vs vd t d total : Nat} (hb : bps ≤ 10000) (hd : d ≤ total) :
    let x : ℚ := sold * releasedFraction bps imm vs vd t * ((d : ℚ) / total)
    (claimable bps imm sold vs vd t d total : ℚ) < x + 1 ∧ x < claimable bps imm sold vs vd t d total + 4 ∧
      (imm ≤ t → (claimable bps imm sold vs vd t d total : ℚ) ≤ x) := by
  intro x
  unfold claimable
  by_cases h0 : d = 0 ∨ total = 0
  · have hx : x = 0 := by
      rcases h0 with h | h <;> simp [x, h]
    rw [if_pos h0, hx]
    norm_num
  · rw [if_neg h0]
    have hT : 0 < total := by omega
    have hT' : (0 : ℚ) < total := by exact_mod_cast hT
    have hI := immediatePart_le (s := sold) hb
    -- the immediate part
    have i1 : (immediatePart sold bps : ℚ) ≤ sold * ((bps : ℚ) / 10000) := by
      have := floor_le (sold * bps) 10000
      rw [Nat.cast_mul, mul_div_assoc] at this
      exact_mod_cast this
    have i2 : (sold : ℚ) * ((bps : ℚ) / 10000) < immediatePart sold bps + 1 := by
      have := lt_floor (sold * bps) (b := 10000) (by norm_num)
      rw [Nat.cast_mul, mul_div_assoc] at this
      exact_mod_cast this
    obtain ⟨f0, f1⟩ := dripFraction_range vs vd t
    obtain ⟨g1, g2⟩ := dripped_exact (sold - immediatePart sold bps) vs vd t
    rw [Nat.cast_sub hI] at g1 g2
    generalize dripped (sold - immediatePart sold bps) vs vd t = D at *
    have hx : x = sold * ((if imm ≤ t then (bps : ℚ) / 10000 else 0) + (1 - (bps : ℚ) / 10000) *
      dripFraction vs vd t) * ((d : ℚ) / total) := rfl
    generalize immediatePart sold bps = I at *
    generalize dripFraction vs vd t = f at *
    have s1 : (0 : ℚ) ≤ (d : ℚ) / total := by positivity
    have s2 : (d : ℚ) / total ≤ 1 := (div_le_one hT').2 (by exact_mod_cast hd)
    have b0 : (0 : ℚ) ≤ (bps : ℚ) / 10000 := by positivity
    have b1 : (bps : ℚ) / 10000 ≤ 1 := by
      rw [div_le_one (by norm_num)]; exact_mod_cast hb
    have hs0 : (0 : ℚ) ≤ sold := by positivity
    have j1 := floor_le (I * d) total
    have j2 := lt_floor (I * d) hT
    have k1 := floor_le (D * d) total
    have k2 := lt_floor (D * d) hT
    rw [Nat.cast_mul, mul_div_assoc] at j1 j2 k1 k2
    generalize (d : ℚ) / total = s at *
    generalize (bps : ℚ) / 10000 = b at *
    rw [hx]
    generalize (sold : ℚ) = S at *
    have ec : (((if imm ≤ t then I * d / total else 0) + D * d / total : Nat) : ℚ) =
        (if imm ≤ t then ((I * d / total : Nat) : ℚ) else 0) + ((D * d / total : Nat) : ℚ) := by
      split <;> simp only [Nat.cast_add, Nat.cast_zero]
    rw [ec]
    generalize ((I * d / total : Nat) : ℚ) = A at j1 j2 ⊢
    generalize ((D * d / total : Nat) : ℚ) = B at k1 k2 ⊢
    have hDs : (D : ℚ) * s ≤ (S - I) * f * s := mul_le_mul_of_nonneg_right g1 s1
    have hIs : (I : ℚ) * s ≤ S * b * s := mul_le_mul_of_nonneg_right i1 s1
    have hIs' : S * b * s ≤ I * s + s := by
      have := mul_le_mul_of_nonneg_right i2.le s1; linarith
    have hDs' : (S - I) * f * s ≤ D * s + s := by
      have := mul_le_mul_of_nonneg_right g2.le s1; linarith
    have hfs : 0 ≤ f * s := mul_nonneg f0 s1
    have hfs1 : f * s ≤ 1 := by nlinarith
    -- (S - I) f s against S (1 - b) f s
    have m1 : S * (1 - b) * (f * s) ≤ (S - I) * (f * s) := by
      apply mul_le_mul_of_nonneg_right _ hfs; linarith
    have m2 : (S - I) * (f * s) ≤ (S * (1 - b) + 1) * (f * s) := by
      apply mul_le_mul_of_nonneg_right _ hfs; linarith
    by_cases him : imm ≤ t
    · rw [if_pos him, if_pos him]
      have up : A + B ≤ S * (b + (1 - b) * f) * s := by
        have h1 : (I : ℚ) * (1 - f) * s ≤ S * b * (1 - f) * s := by
          apply mul_le_mul_of_nonneg_right _ s1
          apply mul_le_mul_of_nonneg_right i1; linarith
        have h2 : S * (b + (1 - b) * f) * s = S * b * (1 - f) * s + S * f * s := by ring
        have h3 : (I : ℚ) * (1 - f) * s = I * s - I * f * s := by ring
        have h4 : (S - I) * f * s = S * f * s - I * f * s := by ring
        linarith
      refine ⟨by linarith, ?_, fun _ => up⟩
      have h2 : S * (b + (1 - b) * f) * s = S * b * s + S * (1 - b) * (f * s) := by ring
      have h4 : (S - I) * f * s = (S - I) * (f * s) := by ring
      linarith
    · rw [if_neg him, if_neg him]
      refine ⟨?_, ?_, fun h => absurd h him⟩
      · have h2 : S * (0 + (1 - b) * f) * s = S * (1 - b) * (f * s) := by ring
        have h4 : (S - I) * f * s = (S - I) * (f * s) := by ring
        have h5 : (S * (1 - b) + 1) * (f * s) = S * (1 - b) * (f * s) + f * s := by ring
        rw [h2]
        by_cases hz : f * s = 0
        · have hB0 : B ≤ 0 := by
            have : (S - I) * f * s = 0 := by rw [h4, hz, mul_zero]
            linarith
          rw [hz, mul_zero]; linarith
        · have hpos : 0 < f * s := lt_of_le_of_ne hfs (Ne.symm hz)
          have : (S - I) * (f * s) < (S * (1 - b) + 1) * (f * s) := by
            apply mul_lt_mul_of_pos_right _ hpos; linarith
          linarith
      · have h2 : S * (0 + (1 - b) * f) * s = S * (1 - b) * (f * s) := by ring
        have h4 : (S - I) * f * s = (S - I) * (f * s) := by ring
        rw [h2]
        linarith

end Verif
