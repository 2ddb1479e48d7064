import Verif.Props.Readme
import Verif.Props.More
import Verif.Lemmas.Evolve
/-!
# C108: the worst price is known in advance

In sales without a fixed price nobody knows when depositing how many tokens they will get. But a completed sale never
keeps more of a deposit than the maximum cap over the supply of the registry per token due, up to rounding. Both numbers
are fixed when the sale is created.
-/

namespace Verif
open Spec

/-- What the sale keeps of the deposit of an escrow. -/
def Spec.kept (p : Presale) (r : Registry) (e : Escrow) : Nat := e.totalDeposit - refundDeposit p r e

theorem worst_now {w : World} (R : Reachable w) {a k : Addr} {p : Presale} (hp : w.presales a = some p)
    (hc : Completed p w.clock) (hm : p.presaleMode = 1 ∨ p.presaleMode = 2) {e : Escrow} {r : Registry}
    (hk : w.escrows.get? k = some e) (ha : e.presale = a) (hr : p.registries[e.registryIndex]? = some r) :
    refundDeposit p r e ≤ e.totalDeposit ∧
    kept p r e * r.presaleSupply < (entitlement p r e + 2) * p.presaleMaximumCap + 2 * r.presaleSupply := by
  have S := R.winv.core.sale a p hp
  obtain ⟨r', hr', -, -, -, hlt⟩ := C15_full_entitlement R hp hk ha
  rw [hr] at hr'; cases hr'
  have hmin := (C31_constraints R hp).2.2.2.2.1
  have hT : 0 < p.totalDeposit := by
    have := hc.2
    omega
  obtain ⟨r', hr', E⟩ := S.pinv.escBook hk ha
  rw [hr] at hr'; cases hr'
  have hS : 0 < r.presaleSupply := (S.pinv.static.reg _ r hr E.idx).1
  have hsum : surplus p + raise p = p.totalDeposit := by unfold surplus raise; omega
  have href : (refundDeposit p r e : ℚ) ≤ (surplus p : ℚ) * ((e.totalDeposit : ℚ) / p.totalDeposit) ∧
      (surplus p : ℚ) * ((e.totalDeposit : ℚ) / p.totalDeposit) < refundDeposit p r e + 2 ∧
      refundDeposit p r e ≤ e.totalDeposit := by
    rcases hm with hm | hm
    · obtain ⟨r2, hr2, -, g1, g2, -, -, g3, -⟩ := C20_exact_share R hp hc hm hk ha
      rw [hr] at hr2; cases hr2
      exact ⟨g1, g2, g3⟩
    · have hcap := S.pinv.book.cap (by omega)
      have e1 : refundDeposit p r e = 0 := by unfold refundDeposit; rw [if_neg (by omega)]
      have e2 : surplus p = 0 := by unfold surplus; omega
      rw [e1, e2]
      norm_num
  obtain ⟨f1, f2, f3⟩ := href
  refine ⟨f3, ?_⟩
  unfold kept
  have hrle : raise p ≤ p.presaleMaximumCap := by unfold raise; omega
  have hcap0 : 0 < p.presaleMaximumCap := by have := S.pinv.static.minPos; have := S.pinv.static.minLe; omega
  by_cases hd0 : e.totalDeposit = 0
  · rw [hd0, Nat.zero_sub, Nat.zero_mul]
    positivity
  obtain ⟨hdr, hrT, -⟩ := stake_le R hp hk ha hr
  have hsold : sold p r = r.presaleSupply := by
    unfold sold
    rw [if_pos hm, if_neg (by omega)]
  rw [hsold] at hlt
  have hTq : (0 : ℚ) < p.totalDeposit := by exact_mod_cast hT
  have htq : (0 : ℚ) < r.totalDeposit := by exact_mod_cast (by omega : 0 < r.totalDeposit)
  have hSq : (0 : ℚ) < r.presaleSupply := by exact_mod_cast hS
  have hsq : (surplus p : ℚ) + raise p = p.totalDeposit := by exact_mod_cast hsum
  have hraise : (0 : ℚ) ≤ raise p := Nat.cast_nonneg _
  have hshare : (e.totalDeposit : ℚ) / p.totalDeposit ≤ (e.totalDeposit : ℚ) / r.totalDeposit :=
    div_le_div_of_nonneg_left (Nat.cast_nonneg _) htq (by exact_mod_cast hrT)
  have hd : (e.totalDeposit : ℚ) = (e.totalDeposit : ℚ) / p.totalDeposit * (surplus p + raise p) := by
    rw [hsq]; field_simp
  have hrq : (raise p : ℚ) ≤ p.presaleMaximumCap := by exact_mod_cast hrle
  have : (((e.totalDeposit - refundDeposit p r e) * r.presaleSupply : Nat) : ℚ) <
      (((entitlement p r e + 2) * p.presaleMaximumCap + 2 * r.presaleSupply : Nat) : ℚ) := by
    push_cast [Nat.cast_sub f3]
    generalize (e.totalDeposit : ℚ) / p.totalDeposit = u at *
    generalize (e.totalDeposit : ℚ) / r.totalDeposit = v at *
    have hent : (0 : ℚ) ≤ (entitlement p r e : ℚ) + 2 := by positivity
    have j1 : (r.presaleSupply : ℚ) * u ≤ entitlement p r e + 2 := by
      have := mul_le_mul_of_nonneg_left hshare hSq.le
      linarith
    have j2 := mul_le_mul_of_nonneg_right j1 hraise
    have j3 := mul_le_mul_of_nonneg_left hrq hent
    have j4 : ((e.totalDeposit : ℚ) - refundDeposit p r e) * r.presaleSupply < (u * raise p + 2) * r.presaleSupply :=
      mul_lt_mul_of_pos_right (by linarith) hSq
    linarith
  exact_mod_cast this

/-- **C108.** In a sale without fixed price, whatever happens from some moment on, if the sale is completed then no
escrow pays more than the maximum cap over the supply of its registry per token due, up to two tokens and two units of
rounding; both numbers are those of that moment. -/
theorem C108_worst_price {w : World} (R : Reachable w) {a k : Addr} {p : Presale} (hp : w.presales a = some p)
    (hm : p.presaleMode = 1 ∨ p.presaleMode = 2) (ops : List Op) {p' : Presale} {e : Escrow}
    (hp' : (run w ops).presales a = some p') (hc : Completed p' (run w ops).clock)
    (hk : (run w ops).escrows.get? k = some e) (ha : e.presale = a) :
    ∃ r r', p.registries[e.registryIndex]? = some r ∧ p'.registries[e.registryIndex]? = some r' ∧
      kept p' r' e * r.presaleSupply < (entitlement p' r' e + 2) * p.presaleMaximumCap + 2 * r.presaleSupply := by
  have R' := R.run ops
  obtain ⟨q, hq, L⟩ := run_later R.winv ops hp
  rw [hp'] at hq; cases hq
  obtain ⟨r', hr', -⟩ := (R'.winv.core.sale a p' hp').pinv.escBook hk ha
  obtain ⟨r, hr, hrt⟩ := terms_reg L.terms hr'
  have e1 : p'.presaleMode = p.presaleMode := (congrArg Presale.presaleMode L.terms :)
  have e2 : p'.presaleMaximumCap = p.presaleMaximumCap := (congrArg Presale.presaleMaximumCap L.terms :)
  have e3 : r'.presaleSupply = r.presaleSupply := (congrArg Registry.presaleSupply hrt :)
  refine ⟨r, r', hr, hr', ?_⟩
  rw [← e2, ← e3]
  exact (worst_now R' hp' hc (by rw [e1]; exact hm) hk ha hr').2

/-- **C108.** In a sale with one registry there is also a best price: whatever happens, nobody gets tokens for less than
the minimum cap over the supply. -/
theorem C108_best_price {w : World} (R : Reachable w) {a k : Addr} {p : Presale} (hp : w.presales a = some p)
    (hm : p.presaleMode = 1 ∨ p.presaleMode = 2) (h1 : p.totalPresaleRegistryCount = 1) (ops : List Op)
    {p' : Presale} {e : Escrow} (hp' : (run w ops).presales a = some p') (hc : Completed p' (run w ops).clock)
    (hk : (run w ops).escrows.get? k = some e) (ha : e.presale = a) :
    ∃ r', p'.registries[e.registryIndex]? = some r' ∧
      entitlement p' r' e * p.presaleMinimumCap ≤ kept p' r' e * p.presaleSupply := by
  have R' := R.run ops
  obtain ⟨q, hq, L⟩ := run_later R.winv ops hp
  rw [hp'] at hq; cases hq
  have e1 : p'.presaleMode = p.presaleMode := (congrArg Presale.presaleMode L.terms :)
  have e2 : p'.presaleMinimumCap = p.presaleMinimumCap := (congrArg Presale.presaleMinimumCap L.terms :)
  have e3 : p'.presaleSupply = p.presaleSupply := (congrArg Presale.presaleSupply L.terms :)
  have e4 : p'.totalPresaleRegistryCount = p.totalPresaleRegistryCount :=
    (congrArg Presale.totalPresaleRegistryCount L.terms :)
  obtain ⟨r', hr', -, hle, -⟩ := C87_price R' hp' hc (by rw [e1]; exact hm) (by rw [e4]; exact h1) hk ha
  refine ⟨r', hr', ?_⟩
  rw [← e2, ← e3]
  refine le_trans (Nat.mul_le_mul_left _ ?_) hle
  have h2 := hc.2
  have h3 := (R'.winv.core.sale a p' hp').pinv.static.minLe
  unfold raise
  omega

namespace Ex

/-- Two registries, but everybody buys in the first. -/
def oneSideOps : List Op :=
  [init 2 2 0 pairRegs, .ix (tx [creator]) (.createOperator ⟨operatorKey, creator⟩), .tick 10, letIn alice 0,
   letIn bob 0, depositIn alice aliceQuote 0 500, depositIn bob bobQuote 0 500, .tick 3000]

/-- Two registries; Bob is alone in the second, with a single unit. -/
def loneOps : List Op :=
  [init 2 2 0 pairRegs, .ix (tx [creator]) (.createOperator ⟨operatorKey, creator⟩), .tick 10, letIn alice 0,
   letIn bob 1, depositIn alice aliceQuote 0 400, depositIn bob bobQuote 1 1, .tick 3000]

end Ex

/-- Reads a witness off a run: a completed sale, an escrow of it, and a property of the two. -/
theorem witness_at {ops : List Op} {k : Addr} {P : Presale → Registry → Escrow → Bool}
    (h : (match (run Ex.genesis ops).presales Ex.sale, (run Ex.genesis ops).escrows.get? k with
      | some p, some e => match p.registries[e.registryIndex]? with
        | some r => decide ((p.presaleEndTime : Int) ≤ (run Ex.genesis ops).clock ∧
            p.presaleMinimumCap ≤ p.totalDeposit ∧ e.presale = Ex.sale) && P p r e
        | none => false
      | _, _ => false) = true) :
    ∃ w a p k e r, Reachable w ∧ w.presales a = some p ∧ Completed p w.clock ∧ w.escrows.get? k = some e ∧
      e.presale = a ∧ p.registries[e.registryIndex]? = some r ∧ P p r e = true := by
  have R : Reachable (run Ex.genesis ops) := ⟨Ex.genesis, _, Ex.genesis_ok, rfl⟩
  cases hp : (run Ex.genesis ops).presales Ex.sale with
  | none => rw [hp] at h; cases h
  | some p =>
    cases hk : (run Ex.genesis ops).escrows.get? k with
    | none => rw [hp, hk] at h; cases h
    | some e =>
      rw [hp, hk] at h
      cases hr : p.registries[e.registryIndex]? with
      | none => simp only [hr] at h; cases h
      | some r =>
        simp only [hr] at h
        obtain ⟨h1, h2⟩ := Bool.and_eq_true_iff.mp h
        obtain ⟨g1, g2, g3⟩ := of_decide_eq_true h1
        exact ⟨_, _, p, _, e, r, R, hp, ⟨g1, g2⟩, hk, g3, hr, h2⟩

/-- **C108**, the worst price is attained: a completed sale without fixed price in which a buyer pays exactly the maximum
cap over the supply of the registry for every token. -/
theorem C108_worst_attained : ∃ w a p k e r, Reachable w ∧ w.presales a = some p ∧ Completed p w.clock ∧
    w.escrows.get? k = some e ∧ e.presale = a ∧ p.registries[e.registryIndex]? = some r ∧ p.presaleMode = 2 ∧
    0 < entitlement p r e ∧ kept p r e * r.presaleSupply = entitlement p r e * p.presaleMaximumCap := by
  obtain ⟨w, a, p, k, e, r, R, hp, hc, hk, ha, hr, h⟩ := witness_at (ops := Ex.oneSideOps)
    (k := .escrow Ex.sale Ex.alice 0) (P := fun p r e => decide (p.presaleMode = 2 ∧ 0 < entitlement p r e ∧
      kept p r e * r.presaleSupply = entitlement p r e * p.presaleMaximumCap)) (by decide +kernel)
  obtain ⟨h1, h2, h3⟩ := of_decide_eq_true h
  exact ⟨w, a, p, k, e, r, R, hp, hc, hk, ha, hr, h1, h2, h3⟩

/-- **C108**, no best price with several registries: somebody alone in a registry gets its whole supply for one unit,
below the minimum cap over the supply of the registry and over that of the sale. -/
theorem C108_no_best_price : ∃ w a p k e r, Reachable w ∧ w.presales a = some p ∧ Completed p w.clock ∧
    w.escrows.get? k = some e ∧ e.presale = a ∧ p.registries[e.registryIndex]? = some r ∧ p.presaleMode = 2 ∧
    p.totalPresaleRegistryCount = 2 ∧ kept p r e = 1 ∧ entitlement p r e = r.presaleSupply ∧
    kept p r e * r.presaleSupply < entitlement p r e * p.presaleMinimumCap ∧
    kept p r e * p.presaleSupply < entitlement p r e * p.presaleMinimumCap := by
  obtain ⟨w, a, p, k, e, r, R, hp, hc, hk, ha, hr, h⟩ := witness_at (ops := Ex.loneOps)
    (k := .escrow Ex.sale Ex.bob 1) (P := fun p r e => decide (p.presaleMode = 2 ∧
      p.totalPresaleRegistryCount = 2 ∧ kept p r e = 1 ∧ entitlement p r e = r.presaleSupply ∧
      kept p r e * r.presaleSupply < entitlement p r e * p.presaleMinimumCap ∧
      kept p r e * p.presaleSupply < entitlement p r e * p.presaleMinimumCap)) (by decide +kernel)
  obtain ⟨h1, h2, h3, h4, h5, h6⟩ := of_decide_eq_true h
  exact ⟨w, a, p, k, e, r, R, hp, hc, hk, ha, hr, h1, h2, h3, h4, h5, h6⟩

namespace Ex

/-- A sale of each of the two modes with one registry, before anybody deposits, and what it comes to. -/
example : (has (run genesis [init 1 0 0 wideReg]) (fun p => decide (p.presaleMode = 1 ∧
      p.totalPresaleRegistryCount = 1 ∧ p.presaleMaximumCap = 1000 ∧ p.presaleSupply = 10000))) = true ∧
    (match prorataDone.presales sale, prorataDone.escrows.get? (escrowOf alice) with
      | some p, some e => match p.registries[e.registryIndex]? with
        | some r => decide (p.presaleMode = 1 ∧ p.totalPresaleRegistryCount = 1 ∧ 0 < refundDeposit p r e ∧
            kept p r e * r.presaleSupply = entitlement p r e * p.presaleMaximumCap)
        | none => false
      | _, _ => false) = true := by
  decide +kernel

end Ex

end Verif
