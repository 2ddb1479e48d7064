import Verif.Model.Pda
import Verif.SpecCurve
import Mathlib.NumberTheory.LucasPrimality
import Mathlib.NumberTheory.LegendreSymbol.Basic
import Mathlib.Tactic.NormNum.Prime
import Mathlib.Tactic.Ring
import Mathlib.Tactic.FieldSimp
import Mathlib.Tactic.LinearCombination
/-!
# The test for points of the curve is right

`2 ^ 255 - 19` is prime (a chain of Lucas certificates, the powers computed by the kernel), and the test of
`Model/Pda.lean` accepts exactly the encodings of points.
-/

namespace Verif

theorem powMod_eq (m : Nat) : ∀ k a n, n < 2 ^ k → powMod m k a n = a ^ n % m
  | 0, a, n, h => by
    have : n = 0 := by omega
    subst this
    rw [powMod, Nat.pow_zero]
  | k + 1, a, n, h => by
    have h2 : n / 2 < 2 ^ k := by rw [Nat.pow_succ] at h; omega
    have ih := powMod_eq m k (a * a % m) (n / 2) h2
    have e : (a * a % m) ^ (n / 2) % m = a ^ (2 * (n / 2)) % m := by
      rw [← Nat.pow_mod, Nat.pow_mul, Nat.pow_two]
    rw [powMod, ih, e]
    split
    · rename_i h1
      rw [Nat.mul_mod, Nat.mod_mod, ← Nat.mul_mod, Nat.mul_comm, ← Nat.pow_succ]
      congr 2; omega
    · congr 2; omega

theorem pow_cast (m k a n : Nat) (h : n < 2 ^ k) : ((a : ZMod m)) ^ n = ((powMod m k a n : Nat) : ZMod m) := by
  rw [powMod_eq m k a n h, ZMod.natCast_mod, Nat.cast_pow]

/-- Lucas' test with the prime factors listed. -/
theorem lucas {p : Nat} (a : Nat) (fs : List Nat) (hp : 1 < p) (hb : p < 2 ^ 256) (hfs : ∀ q ∈ fs, q.Prime)
    (hprod : fs.prod = p - 1) (h1 : powMod p 256 a (p - 1) = 1)
    (h2 : ∀ q ∈ fs, powMod p 256 a ((p - 1) / q) ≠ 1) : p.Prime := by
  have one : ∀ n, n < 2 ^ 256 → ((a : ZMod p) ^ n = 1 ↔ powMod p 256 a n = 1) := by
    intro n hn
    rw [pow_cast p 256 a n hn, ← Nat.cast_one, ZMod.natCast_eq_natCast_iff', powMod_eq p 256 a n hn, Nat.mod_mod,
      Nat.mod_eq_of_lt hp]
  refine lucas_primality p a ((one _ (by omega)).2 h1) fun q hq hd e => ?_
  rw [← hprod] at hd
  obtain ⟨f, hf, hqf⟩ := (Prime.dvd_prod_iff hq.prime).1 hd
  have : q = f := (Nat.prime_dvd_prime_iff_eq hq (hfs f hf)).1 hqf
  subst this
  exact h2 q hf ((one _ (Nat.lt_of_le_of_lt (Nat.div_le_self _ _) (by omega))).1 e)

theorem prime_8574133 : Nat.Prime 8574133 := by norm_num
theorem prime_1923133 : Nat.Prime 1923133 := by norm_num
theorem prime_2773320623 : Nat.Prime 2773320623 :=
  lucas 5 [2, 2437, 569003] (by decide) (by decide) (by intro q h; fin_cases h <;> norm_num) (by decide)
    (by decide +kernel) (by decide +kernel)
theorem prime_72106336199 : Nat.Prime 72106336199 :=
  lucas 7 [2, 13, 2773320623] (by decide) (by decide)
    (by intro q h; fin_cases h; · norm_num
        · norm_num
        · exact prime_2773320623) (by decide)
    (by decide +kernel) (by decide +kernel)

theorem prime_1919519569386763 : Nat.Prime 1919519569386763 :=
  lucas 2 [2, 3, 7, 19, 47, 47, 127, 8574133] (by decide) (by decide)
    (by simp only [List.forall_mem_cons, List.forall_mem_nil, and_true]; norm_num) (by decide)
    (by decide +kernel) (by decide +kernel)

theorem prime_31757755568855353 : Nat.Prime 31757755568855353 :=
  lucas 10 [2, 2, 2, 3, 31, 107, 223, 4153, 430751] (by decide) (by decide)
    (by simp only [List.forall_mem_cons, List.forall_mem_nil, and_true]; norm_num) (by decide)
    (by decide +kernel) (by decide +kernel)

theorem prime_75445702479781427272750846543864801 : Nat.Prime 75445702479781427272750846543864801 :=
  lucas 7 [2, 2, 2, 2, 2, 3, 3, 5, 5, 75707, 72106336199, 1919519569386763] (by decide) (by decide)
    (by
      simp only [List.forall_mem_cons, List.forall_mem_nil, and_true, prime_72106336199, prime_1919519569386763]
      norm_num) (by decide)
    (by decide +kernel) (by decide +kernel)

theorem prime_740582 : Nat.Prime 74058212732561358302231226437062788676166966415465897661863160754340907 :=
  lucas 2 [2, 3, 353, 57467, 132049, 1923133, 31757755568855353, 75445702479781427272750846543864801] (by decide)
    (by decide)
    (by
      simp only [List.forall_mem_cons, List.forall_mem_nil, and_true, prime_31757755568855353,
        prime_75445702479781427272750846543864801, prime_1923133]
      norm_num) (by decide)
    (by decide +kernel) (by decide +kernel)

/-- `2 ^ 255 - 19` is prime. -/
theorem Ed25519.prime_prime : Nat.Prime Ed25519.prime :=
  lucas 2 [2, 2, 3, 65147, 74058212732561358302231226437062788676166966415465897661863160754340907]
    (by decide +kernel) (by decide +kernel)
    (by
      simp only [List.forall_mem_cons, List.forall_mem_nil, and_true, prime_740582]
      norm_num) (by decide +kernel)
    (by decide +kernel) (by decide +kernel)

theorem Ed25519.prime_eq : Ed25519.prime = 2 ^ 255 - 19 := by decide +kernel

instance Ed25519.fact : Fact (Nat.Prime (2 ^ 255 - 19)) := ⟨Ed25519.prime_eq ▸ Ed25519.prime_prime⟩


/-- What the test computes, over any such field. -/
theorem ratio_square {p : Nat} [Fact p.Prime] (h : p % 8 = 5) (u v : ZMod p) (hv : v ≠ 0) :
    (v * (u * v ^ 3 * (u * v ^ 7) ^ ((p - 5) / 8)) ^ 2 = u ∨ v * (u * v ^ 3 * (u * v ^ 7) ^ ((p - 5) / 8)) ^ 2 = -u) ↔
      ∃ x, v * x ^ 2 = u := by
  obtain ⟨k, hk⟩ : ∃ k, p = 8 * k + 5 := ⟨p / 8, by omega⟩
  have e1 : (p - 5) / 8 = k := by omega
  have e2 : p / 2 = (2 * k + 1) * 2 := by omega
  rw [e1]
  have key : v * (u * v ^ 3 * (u * v ^ 7) ^ k) ^ 2 = u * (u * v ^ 7) ^ (2 * k + 1) := by
    have : (u * v ^ 7) ^ (2 * k + 1) = ((u * v ^ 7) ^ k) ^ 2 * (u * v ^ 7) := by
      rw [← pow_mul, Nat.mul_comm k 2, ← pow_succ]
    rw [this]; ring
  rw [key]
  by_cases hu : u = 0
  · subst hu
    exact ⟨fun _ => ⟨0, by ring⟩, fun _ => .inl (by ring)⟩
  have hw : u * v ^ 7 ≠ 0 := mul_ne_zero hu (pow_ne_zero 7 hv)
  have euler := ZMod.euler_criterion p hw
  rw [e2, pow_mul, sq_eq_one_iff] at euler
  have l1 : u * (u * v ^ 7) ^ (2 * k + 1) = u ↔ (u * v ^ 7) ^ (2 * k + 1) = 1 := mul_eq_left₀ hu
  have l2 : u * (u * v ^ 7) ^ (2 * k + 1) = -u ↔ (u * v ^ 7) ^ (2 * k + 1) = -1 := by
    rw [← mul_neg_one u]; exact mul_right_inj' hu
  rw [l1, l2, ← euler]
  constructor
  · rintro ⟨s, hs⟩
    refine ⟨s / v ^ 4, mul_right_cancel₀ (pow_ne_zero 7 hv) ?_⟩
    rw [hs, div_pow]
    field_simp
  · rintro ⟨x, rfl⟩
    exact ⟨v ^ 4 * x, by ring⟩


namespace Ed25519

open Spec (Field)

theorem cast_mod (a : Nat) : ((a % prime : Nat) : Field) = (a : Field) := by
  rw [prime_eq]; exact ZMod.natCast_mod a _

theorem mod_eq_iff (a b : Nat) : a % prime = b % prime ↔ (a : Field) = (b : Field) := by
  rw [prime_eq]; exact (ZMod.natCast_eq_natCast_iff' a b _).symm

theorem neg_mod (u : Nat) : (((prime - u % prime) % prime : Nat) : Field) = -(u : Field) := by
  have hlt : u % prime ≤ prime := Nat.le_of_lt (Nat.mod_lt _ (by decide +kernel))
  rw [cast_mod, Nat.cast_sub hlt, cast_mod, prime_eq, ZMod.natCast_self, zero_sub]

theorem ratioIsSquare_iff (u v : Nat) : ratioIsSquare u v = true ↔
    ((v : Field) * (u * v ^ 3 * (u * v ^ 7) ^ ((2 ^ 255 - 19 - 5) / 8)) ^ 2 = u ∨
      (v : Field) * (u * v ^ 3 * (u * v ^ 7) ^ ((2 ^ 255 - 19 - 5) / 8)) ^ 2 = -u) := by
  have hr : ((u * v ^ 3 * powMod prime 256 (u * v ^ 7 % prime) ((prime - 5) / 8) % prime : Nat) : Field) =
      u * v ^ 3 * (u * v ^ 7) ^ ((2 ^ 255 - 19 - 5) / 8) := by
    rw [cast_mod, powMod_eq _ _ _ _ (by decide +kernel)]
    have e : (2 ^ 255 - 19 - 5) / 8 = (prime - 5) / 8 := by decide +kernel
    rw [e]
    generalize (prime - 5) / 8 = n
    push_cast [cast_mod]
    rfl
  have hc : ((v * (u * v ^ 3 * powMod prime 256 (u * v ^ 7 % prime) ((prime - 5) / 8) % prime) ^ 2 % prime : Nat) :
      Field) = v * (u * v ^ 3 * (u * v ^ 7) ^ ((2 ^ 255 - 19 - 5) / 8)) ^ 2 := by
    rw [cast_mod, Nat.cast_mul, Nat.cast_pow, hr]
  unfold ratioIsSquare
  simp only [Bool.or_eq_true, beq_iff_eq]
  have h1 := mod_eq_iff (v * (u * v ^ 3 * powMod prime 256 (u * v ^ 7 % prime) ((prime - 5) / 8) % prime) ^ 2 % prime) u
  have h2 := mod_eq_iff (v * (u * v ^ 3 * powMod prime 256 (u * v ^ 7 % prime) ((prime - 5) / 8) % prime) ^ 2 % prime)
    ((prime - u % prime) % prime)
  rw [Nat.mod_mod] at h1 h2
  rw [Nat.mod_mod] at h2
  rw [h1, h2, hc, neg_mod]

end Ed25519


theorem leNat_sum (b : Bytes) : leNat b = ((List.range b.length).map fun i => (b.getD i 0).toNat * 256 ^ i).sum := by
  induction b with
  | nil => rfl
  | cons x b ih =>
    rw [leNat, ih, List.length_cons, List.range_succ_eq_map, List.map_cons, List.sum_cons, List.map_map,
      ← List.sum_map_mul_left]
    congr 1
    · show x.toNat = x.toNat * 256 ^ 0
      rw [Nat.pow_zero, Nat.mul_one]
    · refine congrArg List.sum (List.map_congr_left fun i _ => ?_)
      show 256 * ((b.getD i 0).toNat * 256 ^ i) = (b.getD i 0).toNat * 256 ^ (i + 1)
      rw [Nat.pow_succ]; ring

namespace Ed25519

open Spec (Field OnEdwards yCoordinate PublicKey)

theorem yOf_cast (b : Bytes) : ((yOf b : Nat) : Field) = yCoordinate b := by
  unfold yOf yCoordinate
  rw [cast_mod, leNat_sum]

theorem d_eq : (121666 : Field) * (d : Field) = -121665 := by
  have h : (121666 * d + 121665) % prime = 0 % prime := by decide +kernel
  rw [mod_eq_iff] at h
  push_cast at h
  exact eq_neg_of_add_eq_zero_left h

theorem ne_zero {a : Nat} (h : a % prime ≠ 0) : (a : Field) ≠ 0 := by
  intro e
  rw [← Nat.cast_zero, ← mod_eq_iff, Nat.zero_mod] at e
  exact h e

theorem denominator_ne (y : Field) : (d : Field) * y ^ 2 + 1 ≠ 0 := by
  intro h
  have h1 : (d : Field) * y ^ 2 = -1 := eq_neg_of_add_eq_zero_left h
  have hy : y ≠ 0 := by
    rintro rfl
    rw [zero_pow two_ne_zero, mul_zero, zero_add] at h
    exact one_ne_zero h
  obtain ⟨n, hn⟩ : ∃ n, n = (2 ^ 255 - 19) / 2 := ⟨_, rfl⟩
  have he : Even n := by
    rw [Nat.even_iff, hn]; decide +kernel
  have hn2 : 2 * n = 2 ^ 255 - 19 - 1 := by rw [hn]; decide +kernel
  have h2 : ((d : Field) * y ^ 2) ^ n = 1 := by rw [h1, he.neg_one_pow]
  rw [mul_pow, ← pow_mul, hn2, ZMod.pow_card_sub_one_eq_one hy, mul_one] at h2
  have hp : powMod prime 256 d ((2 ^ 255 - 19) / 2) % prime ≠ 1 % prime := by decide +kernel
  rw [← hn] at hp
  apply hp
  rw [mod_eq_iff, powMod_eq _ _ _ _ (by rw [hn]; decide), cast_mod, Nat.cast_pow, h2, Nat.cast_one]

theorem onCurve_iff (b : Bytes) : onCurve b = true ↔ PublicKey b := by
  have hu : (((yOf b ^ 2 + (prime - 1)) % prime : Nat) : Field) = yCoordinate b ^ 2 - 1 := by
    have : 1 ≤ prime := by decide +kernel
    rw [cast_mod, Nat.cast_add, Nat.cast_pow, yOf_cast, Nat.cast_sub this, Nat.cast_one, prime_eq, ZMod.natCast_self,
      zero_sub, sub_eq_add_neg]
  have hv : (((d * yOf b ^ 2 + 1) % prime : Nat) : Field) = (d : Field) * yCoordinate b ^ 2 + 1 := by
    rw [cast_mod, Nat.cast_add, Nat.cast_mul, Nat.cast_pow, yOf_cast, Nat.cast_one]
  unfold onCurve
  rw [ratioIsSquare_iff, hu, hv, ratio_square (by decide) _ _ (denominator_ne _)]
  have ne : (121666 : Field) ≠ 0 := by
    have := ne_zero (a := 121666) (by decide +kernel)
    rwa [Nat.cast_ofNat] at this
  have hd := d_eq
  unfold PublicKey OnEdwards
  generalize yCoordinate b = y
  refine exists_congr fun x => ⟨fun h => ?_, fun h => mul_left_cancel₀ ne ?_⟩
  · linear_combination (-121666) * h + x ^ 2 * y ^ 2 * hd
  · linear_combination (-1) * h + x ^ 2 * y ^ 2 * hd

end Ed25519

end Verif
