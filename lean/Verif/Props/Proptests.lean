import Verif.Model.Proptests
import Verif.Lemmas.Basic
/-!
# C82: the project's own property tests, for all inputs

Below a price of one unit of quote tokens per token two of their assertions are false; the random tests draw the price
evenly from `1 .. 2^127`, so they come across such a price once in `2^63` draws.
-/

namespace Verif

open Proptests

namespace Price

/-- Tokens for an amount, and the least amount for some tokens, at scale `s`. -/
def tok (s q a : Nat) : Nat := a * s / q
def cost (s q n : Nat) : Nat := divCeil (n * q) s

variable {s q : Nat} (hs : 0 < s) (hq : 0 < q)
include hs hq

theorem galois {n a : Nat} : cost s q n ≤ a ↔ n ≤ tok s q a := by
  unfold cost tok
  rw [divCeil_le_iff hs, Nat.le_div_iff_mul_le hq]

theorem cost_tok_le (a : Nat) : cost s q (tok s q a) ≤ a := (galois hs hq).2 (Nat.le_refl _)

theorem le_tok_cost (n : Nat) : n ≤ tok s q (cost s q n) := (galois hs hq).1 (Nat.le_refl _)

theorem tok_mono {a b : Nat} (h : a ≤ b) : tok s q a ≤ tok s q b :=
  (galois hs hq).1 ((cost_tok_le hs hq a).trans h)

theorem cost_mono {a b : Nat} (h : a ≤ b) : cost s q a ≤ cost s q b :=
  (galois hs hq).2 (h.trans (le_tok_cost hs hq b))

theorem cost_tok_cost (n : Nat) : cost s q (tok s q (cost s q n)) = cost s q n :=
  Nat.le_antisymm (cost_tok_le hs hq _) (cost_mono hs hq (le_tok_cost hs hq n))

theorem tok_cost_tok (a : Nat) : tok s q (cost s q (tok s q a)) = tok s q a :=
  Nat.le_antisymm (tok_mono hs hq (cost_tok_le hs hq a)) (le_tok_cost hs hq _)

omit hq in
theorem cost_mul_lt (n : Nat) : cost s q n * s < n * q + s := divCeil_mul_lt _ hs

omit hq in
theorem le_cost_mul (n : Nat) : n * q ≤ cost s q n * s := le_divCeil_mul _ hs

omit hs in
theorem lt_tok_succ (a : Nat) : a * s < (tok s q a + 1) * q := by
  have := Nat.lt_succ_iff.2 (Nat.le_refl (tok s q a))
  exact (Nat.div_lt_iff_lt_mul hq).1 this

/-- At a price of at most one, no amount leaves a surplus. -/
theorem cost_tok_of_le (h : q ≤ s) (a : Nat) : cost s q (tok s q a) = a := by
  refine Nat.le_antisymm (cost_tok_le hs hq a) ?_
  by_contra hc
  have h1 : cost s q (tok s q a) ≤ a - 1 := by omega
  have h2 : tok s q a * q ≤ (a - 1) * s := (divCeil_le_iff hs).1 h1
  have h3 := lt_tok_succ (s := s) hq a
  have h4 : a * s = (a - 1) * s + s := by
    obtain ⟨b, rfl⟩ : ∃ b, a = b + 1 := ⟨a - 1, by omega⟩
    simp [Nat.succ_mul]
  rw [Nat.succ_mul] at h3
  omega

/-- At a price of at least one, the cost of some tokens buys exactly these. -/
theorem tok_cost_of_le (h : s ≤ q) (n : Nat) : tok s q (cost s q n) = n := by
  refine Nat.le_antisymm ?_ (le_tok_cost hs hq n)
  have h1 := cost_mul_lt (q := q) hs n
  exact Nat.lt_succ_iff.1 ((Nat.div_lt_iff_lt_mul hq).2 (by rw [Nat.succ_mul]; omega))

/-- The last two deposits at a price above one. -/
theorem last_two (h : s < q) {n : Nat} (hn : 0 < n) :
    cost s q (tok s q (cost s q n - 1)) = cost s q (n - 1) ∧ cost s q (n - 1) < cost s q n ∧
      (cost s q (tok s q (cost s q n - cost s q (n - 1))) = 0 ∨
       cost s q (tok s q (cost s q n - cost s q (n - 1))) = cost s q n - cost s q (n - 1)) := by
  obtain ⟨m, rfl⟩ : ∃ m, n = m + 1 := ⟨n - 1, by omega⟩
  simp only [Nat.add_sub_cancel]
  have a1 := cost_mul_lt (q := q) hs m
  have a2 := le_cost_mul (q := q) hs m
  have b1 := cost_mul_lt (q := q) hs (m + 1)
  have b2 := le_cost_mul (q := q) hs (m + 1)
  rw [Nat.succ_mul] at b1 b2
  have hlt : cost s q m < cost s q (m + 1) := by
    refine Nat.lt_of_mul_lt_mul_right (a := s) ?_
    omega
  refine ⟨?_, hlt, ?_⟩
  · have : tok s q (cost s q (m + 1) - 1) = m := by
      refine Nat.le_antisymm ?_ ((galois hs hq).1 (by omega))
      by_contra hc
      have := (galois hs hq).2 (show m + 1 ≤ tok s q (cost s q (m + 1) - 1) by omega)
      omega
    rw [this]
  · generalize cost s q (m + 1) = A at *
    generalize cost s q m = B at *
    obtain ⟨r, rfl⟩ : ∃ r, A = B + r := ⟨A - B, by omega⟩
    rw [Nat.add_sub_cancel_left, Nat.add_mul] at *
    rcases Nat.eq_zero_or_pos (tok s q r) with h0 | h0
    · left; rw [h0]; simp [cost, divCeil]
    · right
      have h1 : tok s q r = 1 := by
        refine Nat.le_antisymm (Nat.lt_succ_iff.1 ((Nat.div_lt_iff_lt_mul hq).2 (by omega))) h0
      rw [h1]
      have h2 := (galois hs hq).2 h0
      refine Nat.le_antisymm h2 ?_
      by_contra hc
      have h3 : cost s q 1 ≤ r - 1 := by simp only [Nat.succ_eq_add_one, Nat.zero_add] at h2; omega
      have h4 : 1 * q ≤ (r - 1) * s := (divCeil_le_iff hs).1 h3
      have h5 : r * s = (r - 1) * s + s := by
        obtain ⟨b, rfl⟩ : ∃ b, r = b + 1 := ⟨r - 1, by omega⟩
        simp [Nat.succ_mul]
      omega

end Price


open Price

theorem bought_tok {q a : Nat} (hq : 0 < q) (ha : a < u64Bound) :
    calculateTokenBought q a = .ok (tok SCALE_MULTIPLIER q a) := by
  simp only [calculateTokenBought, shl128_eq ha, ok_bind, div, tok]
  rw [if_neg (by omega)]

theorem mul_scale_lt {a : Nat} (ha : a < u64Bound) : a * SCALE_MULTIPLIER < u128Bound := by
  rw [u128_eq_sq, scale_eq_u64]
  exact Nat.mul_lt_mul_of_pos_right ha (by rw [u64Bound_eq]; decide)

theorem tok_mul_lt {q a : Nat} (ha : a < u64Bound) : tok SCALE_MULTIPLIER q a * q < u128Bound :=
  Nat.lt_of_le_of_lt (Nat.div_mul_le_self _ _) (mul_scale_lt ha)

theorem suggested_tok {q a : Nat} (hq : 0 < q) (ha : a < u64Bound) :
    calculateQuoteTokenWithoutSurplus q a = .ok (cost SCALE_MULTIPLIER q (tok SCALE_MULTIPLIER q a)) := by
  have h := cost_tok_le scale_pos hq a
  simp only [calculateQuoteTokenWithoutSurplus, bought_tok hq ha, ok_bind]
  rw [mul128, if_pos (tok_mul_lt ha)]
  simp only [ok_bind]
  rw [show divCeil (tok SCALE_MULTIPLIER q a * q) SCALE_MULTIPLIER =
    cost SCALE_MULTIPLIER q (tok SCALE_MULTIPLIER q a) from rfl, cast64, if_pos (by omega)]
  simp only [ok_bind, require, if_pos h]
  rfl


theorem unwrap_bind {α β : Type} {x : Except Err α} {a : α} (h : x = .ok a) (f : α → Option β) :
    (unwrap x >>= f) = f a := by
  rw [h]; rfl

theorem assert_pos {p : Prop} [Decidable p] (h : p) (r : Option Bool) : Proptests.assert p r = r := if_pos h

theorem assert_neg {p : Prop} [Decidable p] (h : ¬ p) (r : Option Bool) : Proptests.assert p r = some false := if_neg h

theorem div_tok {q : Nat} (hq : 0 < q) (c : Nat) : div (c * SCALE_MULTIPLIER) q = .ok (tok SCALE_MULTIPLIER q c) :=
  div_ok (Nat.pos_iff_ne_zero.1 hq)

theorem cast_cost {q n : Nat} (h : cost SCALE_MULTIPLIER q n < u64Bound) :
    cast64 (divCeil (n * q) SCALE_MULTIPLIER) = .ok (cost SCALE_MULTIPLIER q n) := cast64_ok h

/-! ## The tests -/

/-- **C82.** `test_calculate_quote_token_without_surplus_prop` passes for every price and every amount. (Prices of the
test are whole numbers.) -/
theorem C82_without_surplus {lamportPerPrice maxDepositAmount : Nat} (h1 : 0 < lamportPerPrice)
    (h2 : maxDepositAmount < 2 ^ 64) : withoutSurplus lamportPerPrice maxDepositAmount = some true := by
  have hq : 0 < lamportPerPrice * SCALE_MULTIPLIER := Nat.mul_pos h1 scale_pos
  have hm : maxDepositAmount < u64Bound := by rw [u64Bound_eq]; norm_num at h2; exact h2
  unfold withoutSurplus
  dsimp only
  rw [unwrap_bind (suggested_tok hq hm), assert_pos (cost_tok_le scale_pos hq maxDepositAmount)]

theorem cap_lt (q supply : Nat) : cap q supply < u64Bound := by
  have := u64_pos
  unfold cap; split <;> omega

theorem wideCap_cost (q supply : Nat) : wideCap q supply = cost SCALE_MULTIPLIER q supply := rfl

/-- What the cap buys is positive. -/
theorem tok_cap_pos {q supply : Nat} (hq : 0 < q) (hq' : q ≤ 2 ^ 127) (hs : 0 < supply) :
    0 < tok SCALE_MULTIPLIER q (cap q supply) := by
  by_cases h : wideCap q supply < u64Bound
  · rw [cap, if_pos h, wideCap_cost]
    exact Nat.lt_of_lt_of_le hs (le_tok_cost scale_pos hq supply)
  · rw [cap, if_neg h]
    have h1 : q ≤ (u64Bound - 1) * SCALE_MULTIPLIER := by
      rw [scale_eq, u64Bound_eq]
      norm_num at hq' ⊢
      omega
    have h2 : 1 ≤ tok SCALE_MULTIPLIER q (u64Bound - 1) := by
      rw [tok, Nat.le_div_iff_mul_le hq, one_mul]
      exact h1
    exact h2


/-- **C82.** `test_presale_min_max_gap_completion_prop` passes for every price up to `2^127` and every supply. -/
theorem C82_gap {qPrice supply : Nat} (h1 : 0 < qPrice) (h2 : qPrice ≤ 2 ^ 127) (h3 : 0 < supply) :
    gap qPrice supply = some true := by
  have hc := cap_lt qPrice supply
  have hb := tok_cap_pos h1 h2 h3
  unfold gap
  generalize cap qPrice supply = c at hc hb ⊢
  have hcost : (tok SCALE_MULTIPLIER qPrice c - 1) * qPrice < u128Bound :=
    Nat.lt_of_le_of_lt (Nat.mul_le_mul_right _ (Nat.sub_le _ _)) (tok_mul_lt hc)
  have hmin : cost SCALE_MULTIPLIER qPrice (tok SCALE_MULTIPLIER qPrice c - 1) ≤ c :=
    (cost_mono scale_pos h1 (Nat.sub_le _ _)).trans (cost_tok_le scale_pos h1 _)
  have hl := cost_tok_le scale_pos h1 (c - cost SCALE_MULTIPLIER qPrice (tok SCALE_MULTIPLIER qPrice c - 1))
  have ht : cost SCALE_MULTIPLIER qPrice (tok SCALE_MULTIPLIER qPrice c - 1) +
      cost SCALE_MULTIPLIER qPrice (tok SCALE_MULTIPLIER qPrice
        (c - cost SCALE_MULTIPLIER qPrice (tok SCALE_MULTIPLIER qPrice c - 1))) ≤ c := by omega
  rw [unwrap_bind (shl128_eq hc), unwrap_bind (div_tok h1 c), unwrap_bind (sub_ok (Nat.succ_le_of_lt hb)),
    unwrap_bind (mul128_ok hcost), unwrap_bind (cast_cost (Nat.lt_of_le_of_lt hmin hc)),
    unwrap_bind (suggested_tok h1 (Nat.lt_of_le_of_lt hmin hc)), cost_tok_cost scale_pos h1, unwrap_bind (sub_ok hmin),
    unwrap_bind (suggested_tok h1 (Nat.lt_of_le_of_lt (Nat.sub_le _ _) hc)),
    unwrap_bind (add64_ok (Nat.lt_of_le_of_lt ht hc)), assert_pos ⟨Nat.le_add_right _ _, ht⟩]

/-- The end of `lastDeposit`, once both deposits are known. -/
def lastEnd (q supply adjusted first second : Nat) : Option Bool :=
  let last := Proptests.assert (q < SCALE_MULTIPLIER → 0 < second) (some true)
  if second = 0 then
    Proptests.assert (SCALE_MULTIPLIER < q) last
  else do
    let total ← unwrap (add64 first second)
    Proptests.assert (total = adjusted) do
      let tokens ← unwrap (calculateTokenBought q total)
      let tokens ← unwrap (cast64 tokens)
      if wideCap q supply < u64Bound - 1 then
        Proptests.assert (tokens = supply) (Proptests.assert (cap q supply = adjusted) last)
      else last

theorem lastDeposit_end {q supply : Nat} (h1 : 0 < q) (h2 : q ≤ 2 ^ 127) (h3 : 0 < supply) {A s1 s2 : Nat}
    (hA : A = cost SCALE_MULTIPLIER q (tok SCALE_MULTIPLIER q (cap q supply)))
    (e1 : cost SCALE_MULTIPLIER q (tok SCALE_MULTIPLIER q (A - 1)) = s1)
    (e2 : cost SCALE_MULTIPLIER q (tok SCALE_MULTIPLIER q (A - s1)) = s2) :
    0 < A ∧ lastDeposit q supply = lastEnd q supply A s1 s2 := by
  have hc := cap_lt q supply
  have hb := tok_cap_pos h1 h2 h3
  have hAc : A ≤ cap q supply := by rw [hA]; exact cost_tok_le scale_pos h1 _
  have hA1 : 0 < A := by
    by_contra h
    have := (galois scale_pos h1 (n := tok SCALE_MULTIPLIER q (cap q supply)) (a := 0)).1 (by omega)
    simp [tok] at this hb
    omega
  have hAb : A < u64Bound := Nat.lt_of_le_of_lt hAc hc
  have hs1 := cost_tok_le scale_pos h1 (A - 1)
  rw [e1] at hs1
  refine ⟨hA1, ?_⟩
  unfold lastDeposit lastEnd
  rw [unwrap_bind (shl128_eq hc), unwrap_bind (div_tok h1 _), unwrap_bind (mul128_ok (tok_mul_lt hc)),
    unwrap_bind (cast_cost (by rw [← hA]; exact hAb)), ← hA, unwrap_bind (sub_ok (Nat.succ_le_of_lt hA1)),
    unwrap_bind (suggested_tok h1 (Nat.lt_of_le_of_lt (Nat.sub_le _ _) hAb)), e1,
    unwrap_bind (sub_ok (show s1 ≤ A by omega)),
    unwrap_bind (suggested_tok h1 (Nat.lt_of_le_of_lt (Nat.sub_le _ _) hAb)), e2]

theorem lastEnd_full {q supply A s1 s2 : Nat} (h1 : 0 < q) (hs : s2 ≠ 0) (ht : s1 + s2 = A) (hA : A < u64Bound) :
    lastEnd q supply A s1 s2 = (do
      let tokens ← unwrap (cast64 (tok SCALE_MULTIPLIER q A))
      if wideCap q supply < u64Bound - 1 then
        Proptests.assert (tokens = supply) (Proptests.assert (cap q supply = A) (some true))
      else some true) := by
  unfold lastEnd
  dsimp only
  rw [if_neg hs, unwrap_bind (add64_ok (by omega)), assert_pos ht, ht, unwrap_bind (bought_tok h1 hA),
    assert_pos (fun _ => Nat.pos_of_ne_zero hs)]

/-- **C82.** `test_suggest_deposit_amount_on_presale_maximum_cap_prop` passes exactly if the price is at least one unit
of quote tokens per token, or some whole amount of quote tokens buys exactly the supply. -/
theorem C82_last_deposit {qPrice supply : Nat} (h1 : 0 < qPrice) (h2 : qPrice ≤ 2 ^ 127) (h3 : 0 < supply)
    (h4 : supply < 2 ^ 64 - 1) :
    lastDeposit qPrice supply = some true ↔ 2 ^ 64 ≤ qPrice ∨ ∃ amount, amount * 2 ^ 64 / qPrice = supply := by
  have hS : (2 : Nat) ^ 64 = SCALE_MULTIPLIER := by rw [scale_eq]; norm_num
  have hSb : SCALE_MULTIPLIER = u64Bound := scale_eq_u64
  rw [hS] at h4 ⊢
  have hc := cap_lt qPrice supply
  have hAc := cost_tok_le scale_pos h1 (cap qPrice supply)
  obtain ⟨A, hA⟩ : ∃ A, A = cost SCALE_MULTIPLIER qPrice (tok SCALE_MULTIPLIER qPrice (cap qPrice supply)) := ⟨_, rfl⟩
  have hAb : A < u64Bound := by omega
  have htA : tok SCALE_MULTIPLIER qPrice A = tok SCALE_MULTIPLIER qPrice (cap qPrice supply) := by
    rw [hA]; exact tok_cost_tok scale_pos h1 _
  rcases Nat.lt_or_ge qPrice SCALE_MULTIPLIER with hlt | hge
  · -- below one
    have hle : qPrice ≤ SCALE_MULTIPLIER := hlt.le
    have e1 : cost SCALE_MULTIPLIER qPrice (tok SCALE_MULTIPLIER qPrice (A - 1)) = A - 1 :=
      cost_tok_of_le scale_pos h1 hle _
    have e2 : cost SCALE_MULTIPLIER qPrice (tok SCALE_MULTIPLIER qPrice (A - (A - 1))) = A - (A - 1) :=
      cost_tok_of_le scale_pos h1 hle _
    obtain ⟨hp, he⟩ := lastDeposit_end h1 h2 h3 hA e1 e2
    have hw : wideCap qPrice supply ≤ supply := by
      rw [wideCap_cost, galois scale_pos h1, tok, Nat.le_div_iff_mul_le h1]
      exact Nat.mul_le_mul_left _ hle
    have hcw : cap qPrice supply = wideCap qPrice supply := by rw [cap, if_pos (by omega)]
    rw [he, lastEnd_full h1 (by omega) (by omega) hAb, htA, hcw, wideCap_cost]
    rw [hcw, wideCap_cost] at hA
    rw [cost_tok_cost scale_pos h1] at hA
    constructor
    · intro h
      refine Or.inr ⟨cost SCALE_MULTIPLIER qPrice supply, ?_⟩
      by_cases hb : tok SCALE_MULTIPLIER qPrice (cost SCALE_MULTIPLIER qPrice supply) < u64Bound
      · rw [unwrap_bind (cast64_ok hb), if_pos (by rw [← wideCap_cost]; omega)] at h
        by_contra hne
        change ¬ tok SCALE_MULTIPLIER qPrice (cost SCALE_MULTIPLIER qPrice supply) = supply at hne
        rw [assert_neg hne] at h
        simp at h
      · rw [cast64, if_neg hb] at h
        simp [unwrap] at h
    · rintro (h | ⟨x, hx⟩)
      · omega
      · have hb : tok SCALE_MULTIPLIER qPrice (cost SCALE_MULTIPLIER qPrice supply) = supply := by
          refine Nat.le_antisymm ?_ (le_tok_cost scale_pos h1 _)
          have : cost SCALE_MULTIPLIER qPrice supply ≤ x := (galois scale_pos h1).2 (by rw [tok, hx])
          have := tok_mono scale_pos h1 this
          rwa [show tok SCALE_MULTIPLIER qPrice x = supply from hx] at this
        rw [hb, unwrap_bind (cast64_ok (by omega)), if_pos (by rw [← wideCap_cost]; omega), assert_pos rfl,
          assert_pos hA.symm]
  · refine iff_of_true ?_ (Or.inl hge)
    have hn := tok_cap_pos h1 h2 h3
    have hB : tok SCALE_MULTIPLIER qPrice (cap qPrice supply) ≤ supply := by
      by_cases hw : wideCap qPrice supply < u64Bound
      · rw [cap, if_pos hw, wideCap_cost, tok_cost_of_le scale_pos h1 hge]
      · rw [cap, if_neg hw]
        by_contra h
        have h5 := (galois scale_pos h1 (n := supply) (a := u64Bound - 1)).2 (by omega)
        rw [← wideCap_cost] at h5
        have := u64_pos
        omega
    have hend : ∀ {s1 s2 : Nat}, s2 ≠ 0 → s1 + s2 = A → lastEnd qPrice supply A s1 s2 = some true := by
      intro s1 s2 hs ht
      rw [lastEnd_full h1 hs ht hAb, htA, unwrap_bind (cast64_ok (by omega))]
      by_cases hw : wideCap qPrice supply < u64Bound - 1
      · have hcw : cap qPrice supply = cost SCALE_MULTIPLIER qPrice supply := by rw [cap, if_pos (by omega)]; rfl
        rw [if_pos hw, hcw, assert_pos (tok_cost_of_le scale_pos h1 hge _), assert_pos]
        rw [hA, hcw, cost_tok_cost scale_pos h1]
      · rw [if_neg hw]
    rcases Nat.eq_or_lt_of_le hge with heq | hgt
    · have e1 : cost SCALE_MULTIPLIER qPrice (tok SCALE_MULTIPLIER qPrice (A - 1)) = A - 1 :=
        cost_tok_of_le scale_pos h1 heq.ge _
      have e2 : cost SCALE_MULTIPLIER qPrice (tok SCALE_MULTIPLIER qPrice (A - (A - 1))) = A - (A - 1) :=
        cost_tok_of_le scale_pos h1 heq.ge _
      obtain ⟨hp, he⟩ := lastDeposit_end h1 h2 h3 hA e1 e2
      rw [he]
      exact hend (by omega) (by omega)
    · obtain ⟨f1, f2, f3⟩ := last_two scale_pos h1 hgt hn
      rw [← hA] at f1 f2 f3
      rcases f3 with f3 | f3
      · obtain ⟨hp, he⟩ := lastDeposit_end h1 h2 h3 hA f1 f3
        rw [he]
        unfold lastEnd
        dsimp only
        rw [if_pos rfl, assert_pos hgt, assert_pos (fun h => absurd h (by omega))]
      · obtain ⟨hp, he⟩ := lastDeposit_end h1 h2 h3 hA f1 f3
        rw [he]
        exact hend (by omega) (by omega)


/-- At a price of one and a half all of it passes; the inputs are in the ranges of the test. -/
example : lastDeposit (3 * 2 ^ 63) 101 = some true ∧ gap (3 * 2 ^ 63) 101 = some true ∧
    withoutSurplus 5 7 = some true := by decide +kernel

/-- At half a unit, a supply of a hundred is paid for exactly. -/
example : lastDeposit (2 ^ 63) 100 = some true := by decide +kernel

/-- **C82.** For inputs in the ranges of the test its assertions can fail (half a unit per token: fifty-one units buy
one more than the supply of 101), and a conversion can panic (the smallest price: one unit buys `2^64` tokens). -/
theorem C82_last_deposit_fails :
    ∃ q supply q' supply', (1 ≤ q ∧ q < (2 ^ 128 - 1) / 2 ∧ 100 ≤ supply ∧ supply < 100000000) ∧
      (1 ≤ q' ∧ q' < (2 ^ 128 - 1) / 2 ∧ 100 ≤ supply' ∧ supply' < 100000000) ∧
      lastDeposit q supply = some false ∧ lastDeposit q' supply' = none :=
  ⟨2 ^ 63, 101, 1, 100, by decide +kernel, by decide +kernel, by decide +kernel, by decide +kernel⟩

/-- **C82.** `test_calculate_deposit_fee_included_amount_round_up` and `_round_down` pass for every amount and every
rate below a hundred percent for which the amount with the fee fits sixty-four bits. -/
theorem C82_fee {depositAmount feeBps : Nat} (r : Rounding) (h1 : feeBps < 10000)
    (h2 : depositAmount * 10000 ≤ (2 ^ 64 - 1) * (10000 - feeBps)) :
    feeIncluded depositAmount feeBps r = some true := by
  obtain ⟨D, hD⟩ : ∃ D, 10000 = feeBps + D := ⟨10000 - feeBps, by omega⟩
  have hD0 : 0 < D := by omega
  have hDe : 10000 - feeBps = D := by omega
  rw [hDe] at h2
  have hS : (2 : Nat) ^ 64 - 1 = u64Bound - 1 := by rw [u64Bound_eq]; norm_num
  rw [hS] at h2
  have hp := u64_pos
  have hd : depositAmount ≤ u64Bound - 1 := by
    have : depositAmount * 10000 ≤ (u64Bound - 1) * 10000 := h2.trans (Nat.mul_le_mul_left _ (by omega))
    exact Nat.le_of_mul_le_mul_right this (by norm_num)
  have h128 : depositAmount * 10000 + 10000 < u128Bound := by
    have h4 : (u64Bound - 1) * 10000 + 10000 < u128Bound := by rw [u64Bound_eq, u128Bound_eq]; norm_num
    exact Nat.lt_of_le_of_lt (Nat.add_le_add_right (Nat.mul_le_mul_right _ hd) _) h4
  -- the amount with the fee
  have key : ∀ num, (r = .up → num = depositAmount * 10000 + (D - 1)) → (r = .down → num = depositAmount * 10000) →
      calculateDepositFeeIncludedAmount depositAmount feeBps r =
        .ok { fee := num / D - depositAmount, amountIncludedFee := num / D } := by
    intro num hu hdn
    have hadj : adjustForRounding (depositAmount * MAX_FEE_BASIS_POINTS) D r = .ok num := by
      cases r
      · rw [hu rfl]
        simp only [adjustForRounding, sub_ok (Nat.succ_le_of_lt hD0), ok_bind]
        exact add128_ok (by simp only [MAX_FEE_BASIS_POINTS]; omega)
      · rw [hdn rfl]; rfl
    have hnum : depositAmount * 10000 ≤ num ∧ num ≤ depositAmount * 10000 + (D - 1) := by
      cases r
      · rw [hu rfl]; omega
      · rw [hdn rfl]; omega
    have hlo : depositAmount ≤ num / D := by
      rw [Nat.le_div_iff_mul_le hD0]
      exact (Nat.mul_le_mul_left _ (by omega : D ≤ 10000)).trans hnum.1
    have hM : feeBps ≤ MAX_FEE_BASIS_POINTS := by simp only [MAX_FEE_BASIS_POINTS]; omega
    have hm : depositAmount * MAX_FEE_BASIS_POINTS < u128Bound := by
      have : depositAmount * MAX_FEE_BASIS_POINTS = depositAmount * 10000 := rfl
      omega
    have hhi : num / D < u64Bound := by
      rw [Nat.div_lt_iff_lt_mul hD0]
      have : u64Bound * D = (u64Bound - 1) * D + D := by
        obtain ⟨k, hk⟩ : ∃ k, u64Bound = k + 1 := ⟨u64Bound - 1, by omega⟩
        rw [hk, Nat.add_sub_cancel, Nat.succ_mul]
      omega
    unfold calculateDepositFeeIncludedAmount
    rw [show sub MAX_FEE_BASIS_POINTS feeBps = .ok D by
      rw [sub_ok hM, show MAX_FEE_BASIS_POINTS - feeBps = D from hDe]]
    rw [ok_bind, mul128_ok hm, ok_bind, hadj, ok_bind,
      div_ok (by omega), ok_bind, sub_ok hlo, ok_bind, cast64_ok (by omega), ok_bind, cast64_ok hhi, ok_bind]
    rfl
  unfold feeIncluded
  cases r
  · rw [unwrap_bind (key _ (fun _ => rfl) (fun h => by cases h)), assert_pos]
    dsimp only
    generalize hg : (depositAmount * 10000 + (D - 1)) / D = g
    have a1 : g * D ≤ depositAmount * 10000 + (D - 1) := by rw [← hg]; exact Nat.div_mul_le_self _ _
    have a2 : depositAmount * 10000 + (D - 1) < (g + 1) * D := by
      rw [← Nat.div_lt_iff_lt_mul hD0, hg]; omega
    have a3 : g * 10000 = g * feeBps + g * D := by rw [hD, Nat.mul_add]
    rw [Nat.succ_mul] at a2
    simp only [MAX_FEE_BASIS_POINTS]
    refine Nat.le_antisymm ?_ ((divCeil_le_iff (by decide)).2 (by omega))
    by_contra hc
    have := (divCeil_le_iff (b := 10000) (by decide)).1
      (show divCeil (g * feeBps) 10000 ≤ g - depositAmount - 1 by omega)
    omega
  · rw [unwrap_bind (key _ (fun h => by cases h) (fun _ => rfl)), assert_pos]
    dsimp only
    generalize hg : depositAmount * 10000 / D = g
    have a1 : g * D ≤ depositAmount * 10000 := by rw [← hg]; exact Nat.div_mul_le_self _ _
    have a2 : depositAmount * 10000 < (g + 1) * D := by
      rw [← Nat.div_lt_iff_lt_mul hD0, hg]; omega
    have a3 : g * 10000 = g * feeBps + g * D := by rw [hD, Nat.mul_add]
    have a4 : depositAmount ≤ g := by
      rw [← hg, Nat.le_div_iff_mul_le hD0]
      exact Nat.mul_le_mul_left _ (by omega)
    rw [Nat.succ_mul] at a2
    simp only [MAX_FEE_BASIS_POINTS]
    omega

example : feeIncluded 100000000 500 .up = some true ∧ feeIncluded 100000000 500 .down = some true := by
  decide +kernel

/-- **C82.** The least amount which the program asks a buyer for buys at least one token, and exactly one at a price of
one unit or more (`test_calculate_quote_token_for_base_lamport`, for every price). -/
theorem C82_base_lamport {qPrice : Nat} (h1 : 0 < qPrice) (h2 : qPrice ≤ (2 ^ 64 - 1) * 2 ^ 64) :
    ∃ n, baseLamport qPrice = some n ∧ 1 ≤ n ∧ (2 ^ 64 ≤ qPrice → n = 1) ∧ (qPrice ≤ 2 ^ 64 → n = 2 ^ 64 / qPrice) := by
  have hS : (2 : Nat) ^ 64 = SCALE_MULTIPLIER := by rw [scale_eq]; norm_num
  rw [hS] at h2 ⊢
  have hSb : SCALE_MULTIPLIER = u64Bound := scale_eq_u64
  have hl : cost SCALE_MULTIPLIER qPrice 1 ≤ SCALE_MULTIPLIER - 1 := by
    rw [cost, divCeil_le_iff scale_pos, one_mul]; exact h2
  have hp := scale_pos
  have hb : cost SCALE_MULTIPLIER qPrice 1 < u64Bound := by omega
  have e : calculateMinQuoteAmountForBaseLamport qPrice = .ok (cost SCALE_MULTIPLIER qPrice 1) := by
    have := cast_cost hb
    rwa [one_mul] at this
  refine ⟨tok SCALE_MULTIPLIER qPrice (cost SCALE_MULTIPLIER qPrice 1), ?_, le_tok_cost scale_pos h1 1,
    fun h => tok_cost_of_le scale_pos h1 h 1, fun h => ?_⟩
  · unfold baseLamport
    rw [unwrap_bind e, bought_tok h1 hb]
    rfl
  · have : cost SCALE_MULTIPLIER qPrice 1 = 1 := by
      refine Nat.le_antisymm ((galois scale_pos h1).2 ?_) ?_
      · rw [tok, Nat.le_div_iff_mul_le h1]; omega
      · by_contra hc
        have := (galois scale_pos h1 (n := 1) (a := 0)).1 (by omega)
        simp [tok] at this
    rw [this, tok, one_mul]

example : baseLamport (10 * 2 ^ 64) = some 1 ∧ baseLamport 1844674407370955264 = some 9 := by decide +kernel


end Verif
