import Verif.Lemmas.Basic
import Verif.Spec
/-!
# C42: transfer-fee inversion
-/

namespace Verif

/-- What a fee setting of a mint can be: rate at most 100%, maximum fee a 64-bit number. -/
def FeeOk (m : MintInfo) : Prop :=
  ∀ f, m.fee = some f → f.basisPoints ≤ 10000 ∧ f.maximumFee < u64Bound

theorem wellFormed_feeOk {m : MintInfo} (h : m.wellFormed = true) : FeeOk m := by
  intro f hf
  have h' : m.supply < u64Bound ∧ f.basisPoints ≤ MAX_FEE_BASIS_POINTS ∧ f.maximumFee < u64Bound := by
    simpa [MintInfo.wellFormed, hf] using h
  exact h'.2

/-- `f.calculateFee` in elementary terms, for a positive amount. -/
theorem calculateFee_pos {f : TransferFee} {x : Nat} (hb : f.basisPoints ≠ 0) (hx : x ≠ 0) :
    f.calculateFee x = min (divCeil (x * f.basisPoints) 10000) f.maximumFee := by
  unfold TransferFee.calculateFee
  rw [if_neg (by simp [hb, hx])]
  unfold feeCeilDiv MAX_FEE_BASIS_POINTS
  rw [divCeil_eq _ (by norm_num)]

theorem calculateFee_le (f : TransferFee) (hb : f.basisPoints ≤ 10000) (x : Nat) :
    f.calculateFee x ≤ x := by
  by_cases h : f.basisPoints = 0 ∨ x = 0
  · simp [TransferFee.calculateFee, h]
  · have h1 : f.basisPoints ≠ 0 := fun e => h (Or.inl e)
    have h2 : x ≠ 0 := fun e => h (Or.inr e)
    rw [calculateFee_pos h1 h2]
    have : divCeil (x * f.basisPoints) 10000 ≤ x :=
      (divCeil_le_iff (by norm_num)).2 (Nat.mul_le_mul_left x hb)
    omega

/-- The fee withheld from a transfer never exceeds the amount. -/
theorem transferFee_le {m : MintInfo} (hm : FeeOk m) (x : Nat) : m.transferFee x ≤ x := by
  unfold MintInfo.transferFee MintInfo.epochFee
  cases hp : m.program with
  | splToken => simp
  | splToken2022 =>
    simp only
    cases hf : m.fee with
    | none => simp
    | some f => exact calculateFee_le f (hm f hf).1 x

/-- Gross amount of the uncapped fee equation. -/
theorem ceil_gross {b post : Nat} (hb : b < 10000) :
    let raw := divCeil (post * 10000) (10000 - b)
    post ≤ raw ∧ divCeil (raw * b) 10000 = raw - post ∧
    ∀ z, divCeil (z * b) 10000 + post ≤ z → raw ≤ z := by
  intro raw
  obtain ⟨c, hc⟩ : ∃ c, 10000 = b + c := ⟨10000 - b, by omega⟩
  have hcb : 10000 - b = c := by omega
  have hcpos : 0 < c := by omega
  have h1 : post * 10000 ≤ raw * (10000 - b) := le_divCeil_mul _ (by omega)
  have h2 : raw * (10000 - b) < post * 10000 + (10000 - b) := divCeil_mul_lt _ (by omega)
  rw [hcb] at h1 h2
  have hge : post ≤ raw := by
    by_contra hlt
    have : (raw + 1) * (b + c) ≤ post * (b + c) := Nat.mul_le_mul_right _ (by omega)
    rw [hc] at h1
    nlinarith [Nat.zero_le (raw * b)]
  obtain ⟨k, hk⟩ : ∃ k, raw = post + k := ⟨raw - post, by omega⟩
  refine ⟨hge, ?_, ?_⟩
  · have hk' : raw - post = k := by omega
    rw [hk']
    apply Nat.le_antisymm
    · rw [divCeil_le_iff (by norm_num)]
      rw [hk] at h1 ⊢
      rw [hc] at h1 ⊢
      nlinarith
    · by_contra hlt
      have h3 : divCeil (raw * b) 10000 ≤ k - 1 := by omega
      rw [divCeil_le_iff (by norm_num)] at h3
      obtain ⟨j, hj⟩ : ∃ j, k = j + 1 := ⟨k - 1, by omega⟩
      have hj' : k - 1 = j := by omega
      rw [hj'] at h3
      rw [hk, hj] at h2 h3
      rw [hc] at h2 h3
      nlinarith
  · intro z hz
    rw [divCeil_le_iff (by omega), hcb]
    have h4 := le_divCeil_mul (z * b) (b := 10000) (by norm_num)
    obtain ⟨f, hf⟩ : ∃ f, f = divCeil (z * b) 10000 := ⟨_, rfl⟩
    rw [← hf] at h4 hz
    have h5 : (f + post) * (b + c) ≤ z * (b + c) := Nat.mul_le_mul_right _ hz
    rw [hc] at h4 ⊢
    nlinarith

/-- The pre-fee amount is the least gross amount delivering `post`, if it fits 64 bits. -/
theorem preFee_spec {f : TransferFee} {post : Nat} (hb0 : f.basisPoints ≠ 0)
    (hb : f.basisPoints < 10000) (hpost : post ≠ 0) :
    ∃ y, f.calculateFee y + post = y ∧
      (∀ z, f.calculateFee z + post = z → y ≤ z) ∧
      f.calculatePreFeeAmount post = if y < u64Bound then some y else none := by
  obtain ⟨hge, hfee, hmin⟩ := ceil_gross (b := f.basisPoints) (post := post) hb
  have hraw : feeCeilDiv (post * MAX_FEE_BASIS_POINTS) (MAX_FEE_BASIS_POINTS - f.basisPoints)
      = divCeil (post * 10000) (10000 - f.basisPoints) := by
    unfold feeCeilDiv MAX_FEE_BASIS_POINTS
    rw [divCeil_eq _ (by omega)]
  have hbne : f.basisPoints ≠ MAX_FEE_BASIS_POINTS := by unfold MAX_FEE_BASIS_POINTS; omega
  generalize hr : divCeil (post * 10000) (10000 - f.basisPoints) = raw at *
  by_cases hcap : raw - post ≥ f.maximumFee
  · have hstep : f.maximumFee ≤ divCeil ((post + f.maximumFee) * f.basisPoints) 10000 := by
      by_contra hlt
      have hmono : divCeil ((post + f.maximumFee - 1) * f.basisPoints) 10000 ≤
          divCeil ((post + f.maximumFee) * f.basisPoints) 10000 := by
        rw [divCeil_le_iff (by norm_num)]
        refine Nat.le_trans ?_ (le_divCeil_mul _ (by norm_num))
        exact Nat.mul_le_mul_right _ (by omega)
      have := hmin (post + f.maximumFee - 1) (by omega)
      omega
    refine ⟨post + f.maximumFee, ?_, ?_, ?_⟩
    · rw [calculateFee_pos hb0 (by omega)]; omega
    · intro z hz
      have hz0 : z ≠ 0 := by omega
      rw [calculateFee_pos hb0 hz0] at hz
      rcases Nat.le_total (divCeil (z * f.basisPoints) 10000) f.maximumFee with h | h
      · have := hmin z (by omega)
        omega
      · omega
    · unfold TransferFee.calculatePreFeeAmount
      rw [if_neg hb0, if_neg hpost, if_neg hbne]
      simp only [hraw]
      rw [if_pos hcap]
  · refine ⟨raw, ?_, ?_, ?_⟩
    · rw [calculateFee_pos hb0 (by omega), hfee]; omega
    · intro z hz
      have hz0 : z ≠ 0 := by omega
      rw [calculateFee_pos hb0 hz0] at hz
      rcases Nat.le_total (divCeil (z * f.basisPoints) 10000) f.maximumFee with h | h
      · exact hmin z (by omega)
      · omega
    · unfold TransferFee.calculatePreFeeAmount
      rw [if_neg hb0, if_neg hpost, if_neg hbne]
      simp only [hraw]
      rw [if_neg hcap]

/-- Complete description of `calculate_transfer_fee_included_amount`: it returns the least gross amount
from which the token program delivers exactly `net`, or an overflow error if that does not fit. -/
theorem feeIncluded_spec {m : MintInfo} (hm : FeeOk m) {net : Nat} (hnet : net < u64Bound) :
    ∃ y, m.transferFee y + net = y ∧ (∀ z, m.transferFee z + net = z → y ≤ z) ∧
      transferFeeIncludedAmount m net =
        if y < u64Bound then .ok y else .error (.p .mathOverflow) := by
  have hzero : m.transferFee 0 = 0 := by
    have := transferFee_le hm 0; omega
  by_cases hn : net = 0
  · refine ⟨0, by omega, fun z _ => Nat.zero_le z, ?_⟩
    unfold transferFeeIncludedAmount
    rw [if_pos hn, if_pos (by omega)]
  · cases he : m.epochFee with
    | none =>
      have h0 : ∀ z, m.transferFee z = 0 := by intro z; simp [MintInfo.transferFee, he]
      refine ⟨net, by rw [h0]; omega, ?_, ?_⟩
      · intro z hz; rw [h0] at hz; omega
      · unfold transferFeeIncludedAmount
        rw [if_neg hn, if_pos hnet, he]
    | some f =>
      have hT : ∀ z, m.transferFee z = f.calculateFee z := by intro z; simp [MintInfo.transferFee, he]
      have hfok : f.basisPoints ≤ 10000 ∧ f.maximumFee < u64Bound := by
        unfold MintInfo.epochFee at he
        cases hp : m.program with
        | splToken => simp [hp] at he
        | splToken2022 => simp [hp] at he; exact hm f he
      by_cases hmx : f.basisPoints = 10000
      · have hfee : ∀ z, z ≠ 0 → f.calculateFee z = min z f.maximumFee := by
          intro z hz
          rw [calculateFee_pos (by omega) hz, hmx]
          congr 1
          apply Nat.le_antisymm
          · rw [divCeil_le_iff (by norm_num)]
          · have := le_divCeil_mul (z * 10000) (b := 10000) (by norm_num)
            exact Nat.le_of_mul_le_mul_right this (by norm_num)
        refine ⟨net + f.maximumFee, ?_, ?_, ?_⟩
        · rw [hT, hfee _ (by omega)]; omega
        · intro z hz
          rw [hT, hfee z (by omega)] at hz
          omega
        · unfold transferFeeIncludedAmount
          rw [if_neg hn, he]
          simp only [feeToAdd, show f.basisPoints = MAX_FEE_BASIS_POINTS from hmx, if_true, ok_bind, add64]
          by_cases hlt : net + f.maximumFee < u64Bound
          · rw [if_pos hlt, ok_bind, hfee _ (by omega), if_neg (by omega), pure_eq_ok]
          · rw [if_neg hlt, error_bind]
      · have hbne : f.basisPoints ≠ MAX_FEE_BASIS_POINTS := hmx
        by_cases hb0 : f.basisPoints = 0
        · have h0 : ∀ z, f.calculateFee z = 0 := by
            intro z; unfold TransferFee.calculateFee; rw [if_pos (Or.inl hb0)]
          refine ⟨net, by rw [hT, h0]; omega, ?_, ?_⟩
          · intro z hz; rw [hT, h0] at hz; omega
          · unfold transferFeeIncludedAmount feeToAdd TransferFee.calculateInverseFee
              TransferFee.calculatePreFeeAmount
            rw [if_neg hn, he]
            simp only [hb0, if_true, h0, add64]
            rw [if_neg (by unfold MAX_FEE_BASIS_POINTS; omega), ok_bind, Nat.add_zero, if_pos hnet, ok_bind,
              if_neg (by simp), pure_eq_ok]
        · obtain ⟨y, hy, hleast, hpre⟩ := preFee_spec (f := f) (post := net) hb0 (by omega) hn
          refine ⟨y, by rw [hT]; exact hy, ?_, ?_⟩
          · intro z hz; rw [hT] at hz; exact hleast z hz
          · unfold transferFeeIncludedAmount feeToAdd TransferFee.calculateInverseFee
            rw [if_neg hn, he]
            simp only [hpre]
            rw [if_neg hbne]
            by_cases hlt : y < u64Bound
            · have e : net + f.calculateFee y = y := by omega
              simp only [if_pos hlt, ok_bind, add64, e]
              rw [if_neg (by simp), pure_eq_ok]
            · simp only [if_neg hlt, error_bind]

/-- C42: whenever the fee-included amount is computed, the token program's fee on it leaves exactly the
requested amount, and no smaller amount does. -/
theorem C42_inversion_exact {m : MintInfo} (hm : FeeOk m) {net gross : Nat} (hnet : net < u64Bound)
    (h : transferFeeIncludedAmount m net = .ok gross) :
    gross - m.transferFee gross = net ∧ m.transferFee gross ≤ gross ∧ gross < u64Bound ∧
    ∀ other, other - m.transferFee other = net → gross ≤ other := by
  obtain ⟨y, hy, hleast, heq⟩ := feeIncluded_spec hm hnet
  rw [heq] at h
  split at h
  · next hlt =>
    rw [ok_eq_ok] at h
    subst h
    refine ⟨by omega, by omega, hlt, ?_⟩
    intro z hz
    have := transferFee_le hm z
    exact hleast z (by omega)
  · simp at h

/-- C42: the internal consistency panic is unreachable, and the only failure is that no 64-bit amount
delivers the requested one. -/
theorem C42_panic_unreachable {m : MintInfo} (hm : FeeOk m) {net : Nat} (hnet : net < u64Bound) :
    transferFeeIncludedAmount m net ≠ .error .panic ∧
    ((∃ gross, transferFeeIncludedAmount m net = .ok gross) ↔
      ∃ gross, gross < u64Bound ∧ gross - m.transferFee gross = net) := by
  obtain ⟨y, hy, hleast, heq⟩ := feeIncluded_spec hm hnet
  rw [heq]
  constructor
  · split <;> simp
  · constructor
    · rintro ⟨g, hg⟩
      split at hg
      · next hlt => exact ⟨y, hlt, by omega⟩
      · simp at hg
    · rintro ⟨g, hg, hnet'⟩
      have := transferFee_le hm g
      have := hleast g (by omega)
      rw [if_pos (by omega)]
      exact ⟨y, rfl⟩

/-- Non-vacuity: a mint with a 1% transfer fee capped at 5000, uncapped and capped, and a 100% fee. -/
def sampleFeeMint (bps maxFee : Nat) : MintInfo :=
  { program := .splToken2022, isNative := false, exts := [.transferFeeConfig],
    fee := some ⟨bps, maxFee⟩, hook := none, supply := 0 }

example : transferFeeIncludedAmount (sampleFeeMint 100 5000) 1000 = .ok 1011
    ∧ transferFeeIncludedAmount (sampleFeeMint 100 5000) 1000000 = .ok 1005000
    ∧ transferFeeIncludedAmount (sampleFeeMint 10000 5000) 7 = .ok 5007 := by decide +kernel
example : FeeOk (sampleFeeMint 100 5000) := by
  intro f hf
  simp only [sampleFeeMint, Option.some.injEq] at hf
  subst hf
  rw [u64Bound_eq]; norm_num

end Verif
