import Verif.Model.Instructions
import Mathlib.Tactic.Linarith
import Mathlib.Tactic.Ring
/-!
# Helper lemmas: inversion of the error monad, checked arithmetic, division
-/

namespace Verif

theorem u8Bound_eq : u8Bound = 256 := by unfold u8Bound; rfl
theorem u16Bound_eq : u16Bound = 65536 := by unfold u16Bound; rfl
theorem u32Bound_eq : u32Bound = 4294967296 := by unfold u32Bound; rfl
theorem u64Bound_eq : u64Bound = 18446744073709551616 := by unfold u64Bound; rfl
theorem u128Bound_eq : u128Bound = 340282366920938463463374607431768211456 := by unfold u128Bound; rfl
theorem scale_eq : SCALE_MULTIPLIER = 18446744073709551616 := by unfold SCALE_MULTIPLIER; rfl
theorem scale_eq_u64 : SCALE_MULTIPLIER = u64Bound := by rw [scale_eq, u64Bound_eq]
theorem u128_eq_sq : u128Bound = u64Bound * u64Bound := by rw [u128Bound_eq, u64Bound_eq]
theorem scale_pos : 0 < SCALE_MULTIPLIER := by rw [scale_eq]; norm_num
theorem u64_pos : 0 < u64Bound := by rw [u64Bound_eq]; norm_num

theorem bind_eq_ok {α β : Type} {x : Except Err α} {f : α → Except Err β} {b : β} :
    (x >>= f) = .ok b ↔ ∃ a, x = .ok a ∧ f a = .ok b := by
  cases x with
  | error e => simp [bind, Except.bind]
  | ok a => simp [bind, Except.bind]

theorem bind_eq_error {α β : Type} {x : Except Err α} {f : α → Except Err β} {e : Err} :
    (x >>= f) = .error e ↔ x = .error e ∨ ∃ a, x = .ok a ∧ f a = .error e := by
  cases x with
  | error e => simp [bind, Except.bind]
  | ok a => simp [bind, Except.bind]

theorem pure_eq_ok {α : Type} {a b : α} : (pure a : Except Err α) = .ok b ↔ a = b := by
  simp [pure, Except.pure]

theorem ok_eq_ok {α : Type} {a b : α} : (Except.ok a : Except Err α) = .ok b ↔ a = b := by simp

theorem error_eq_ok {α : Type} {a : α} {e : Err} : (Except.error e : Except Err α) = .ok a ↔ False := by
  simp

theorem ok_bind {α β : Type} (a : α) (f : α → Except Err β) : ((.ok a : Except Err α) >>= f) = f a := id rfl

theorem pure_bind' {α β : Type} (a : α) (f : α → Except Err β) :
    ((pure a : Except Err α) >>= f) = f a := id rfl

theorem error_bind {α β : Type} (e : Err) (f : α → Except Err β) :
    ((.error e : Except Err α) >>= f) = .error e := id rfl

theorem require_eq_ok {c : Prop} [Decidable c] {e : Err} {u : Unit} : require c e = .ok u ↔ c := by
  unfold require; split <;> simp_all

theorem require_ok {c : Prop} [Decidable c] {e : Err} (h : c) : require c e = .ok () := by
  simp [require, h]

theorem require_eq_error {c : Prop} [Decidable c] {e e' : Err} :
    require c e = .error e' ↔ ¬ c ∧ e = e' := by
  unfold require; split <;> simp_all

theorem load_eq_ok {α : Type} {o : Option α} {a : α} : load o = .ok a ↔ o = some a := by
  cases o <;> simp [load]

theorem load_eq_error {α : Type} {o : Option α} {e : Err} :
    load o = .error e ↔ o = none ∧ e = .x .accountNotFound := by
  cases o <;> simp [load, eq_comm]

theorem add64_eq_ok {a b c : Nat} : add64 a b = .ok c ↔ a + b < u64Bound ∧ a + b = c := by
  unfold add64; split <;> simp_all

theorem add128_eq_ok {a b c : Nat} : add128 a b = .ok c ↔ a + b < u128Bound ∧ a + b = c := by
  unfold add128; split <;> simp_all

theorem sub_eq_ok {a b c : Nat} : sub a b = .ok c ↔ b ≤ a ∧ a - b = c := by
  unfold sub; split <;> simp_all

theorem mul128_eq_ok {a b c : Nat} : mul128 a b = .ok c ↔ a * b < u128Bound ∧ a * b = c := by
  unfold mul128; split <;> simp_all

theorem div_eq_ok {a b c : Nat} : div a b = .ok c ↔ b ≠ 0 ∧ a / b = c := by
  unfold div; split <;> simp_all

theorem cast64_eq_ok {a c : Nat} : cast64 a = .ok c ↔ a < u64Bound ∧ a = c := by
  unfold cast64; split <;> simp_all

theorem castTime_eq_ok {t : Int} {c : Nat} : castTime t = .ok c ↔ 0 ≤ t ∧ t.toNat = c := by
  unfold castTime; split <;> simp_all

theorem add64_ok {a b : Nat} (h : a + b < u64Bound) : add64 a b = .ok (a + b) := by simp [add64, h]
theorem add128_ok {a b : Nat} (h : a + b < u128Bound) : add128 a b = .ok (a + b) := by simp [add128, h]
theorem sub_ok {a b : Nat} (h : b ≤ a) : sub a b = .ok (a - b) := by simp [sub, h]
theorem mul128_ok {a b : Nat} (h : a * b < u128Bound) : mul128 a b = .ok (a * b) := by simp [mul128, h]
theorem div_ok {a b : Nat} (h : b ≠ 0) : div a b = .ok (a / b) := by simp [div, h]
theorem cast64_ok {a : Nat} (h : a < u64Bound) : cast64 a = .ok a := by simp [cast64, h]
theorem castTime_ok {t : Int} (h : 0 ≤ t) : castTime t = .ok t.toNat := by simp [castTime, h]

theorem shl128_eq {a : Nat} (h : a < u64Bound) : shl128 a SCALE_OFFSET = .ok (a * SCALE_MULTIPLIER) := by
  have h2 : (2 : Nat) ^ 64 = SCALE_MULTIPLIER := by rw [scale_eq]; norm_num
  have : a * SCALE_MULTIPLIER % u128Bound = a * SCALE_MULTIPLIER := by
    apply Nat.mod_eq_of_lt
    rw [u128_eq_sq, scale_eq_u64]
    exact Nat.mul_lt_mul_of_pos_right h u64_pos
  simp [shl128, SCALE_OFFSET, -Nat.reducePow, h2, this]

/-- Two 64-bit factors never overflow 128 bits. -/
theorem mul_lt_u128 {a b : Nat} (ha : a < u64Bound) (hb : b < u64Bound) : a * b < u128Bound := by
  rw [u128_eq_sq]
  exact Nat.mul_lt_mul'' ha hb

/-! ## Division -/

theorem divCeil_eq (a : Nat) {b : Nat} (hb : 0 < b) : divCeil a b = (a + b - 1) / b := by
  unfold divCeil
  have := Nat.div_add_mod a b
  have hm := Nat.mod_lt a hb
  split
  · next h =>
    rw [h] at this
    symm
    apply Nat.div_eq_of_lt_le
    · rw [Nat.mul_comm]; omega
    · rw [Nat.add_mul, Nat.mul_comm]; omega
  · next h =>
    symm
    apply Nat.div_eq_of_lt_le
    · rw [Nat.add_mul, Nat.mul_comm]; omega
    · rw [Nat.add_mul, Nat.add_mul, Nat.mul_comm (a / b)]; omega

/-- Ceiling division is the least `k` with `a ≤ k * b`. -/
theorem divCeil_le_iff {a b k : Nat} (hb : 0 < b) : divCeil a b ≤ k ↔ a ≤ k * b := by
  rw [divCeil_eq a hb, ← Nat.lt_succ_iff, Nat.div_lt_iff_lt_mul hb, Nat.succ_mul]
  omega

theorem le_divCeil_mul (a : Nat) {b : Nat} (hb : 0 < b) : a ≤ divCeil a b * b :=
  (divCeil_le_iff hb).1 (Nat.le_refl _)

theorem divCeil_mul_lt (a : Nat) {b : Nat} (hb : 0 < b) : divCeil a b * b < a + b := by
  rcases Nat.eq_zero_or_pos (divCeil a b) with h | h
  · rw [h]; omega
  · have : ¬ divCeil a b ≤ divCeil a b - 1 := by omega
    rw [divCeil_le_iff hb] at this
    have h2 : (divCeil a b - 1) * b + b = divCeil a b * b := by
      rw [← Nat.succ_mul]; congr 1; omega
    omega

theorem feeCeilDiv_le_iff {a b k : Nat} (hb : 0 < b) : feeCeilDiv a b ≤ k ↔ a ≤ k * b := by
  unfold feeCeilDiv; rw [← divCeil_eq a hb]; exact divCeil_le_iff hb

theorem div_mul_le (a b : Nat) : a / b * b ≤ a := Nat.div_mul_le_self a b

theorem lt_div_succ_mul (a : Nat) {b : Nat} (hb : 0 < b) : a < (a / b + 1) * b := by
  have := Nat.lt_succ_self (a / b)
  rwa [Nat.div_lt_iff_lt_mul hb] at this

/-- The floored shares of `R` never exceed `R` when the parts sum to at most the whole. -/
theorem mul_div_le_of_le {a x t : Nat} (h : x ≤ t) : a * x / t ≤ a := by
  rcases Nat.eq_zero_or_pos t with h0 | h0
  · subst h0; simp
  · apply Nat.div_le_of_le_mul
    rw [Nat.mul_comm t a]
    exact Nat.mul_le_mul_left a h

/-! ## Sums of floors -/

theorem Nat.add_div_le_add_div' (a b c : Nat) : a / c + b / c ≤ (a + b) / c := by
  rcases Nat.eq_zero_or_pos c with h | h
  · subst h; simp
  · rw [Nat.le_div_iff_mul_le h, Nat.add_mul]
    exact Nat.add_le_add (Nat.div_mul_le_self a c) (Nat.div_mul_le_self b c)

/-- `Σ ⌊R·x/T⌋ ≤ R·(Σ x)/T`. -/
theorem sum_floor_le {α : Type} (f : α → Nat) (R T : Nat) (l : List α) :
    (l.map (fun a => R * f a / T)).sum ≤ R * (l.map f).sum / T := by
  induction l with
  | nil => simp
  | cons a l ih =>
    simp only [List.map_cons, List.sum_cons]
    calc R * f a / T + (l.map (fun a => R * f a / T)).sum
        ≤ R * f a / T + R * (l.map f).sum / T := Nat.add_le_add_left ih _
      _ ≤ (R * f a + R * (l.map f).sum) / T := Nat.add_div_le_add_div' _ _ _
      _ = R * (f a + (l.map f).sum) / T := by rw [Nat.mul_add]

end Verif
