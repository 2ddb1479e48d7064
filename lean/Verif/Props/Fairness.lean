import Verif.Props.Claims
import Verif.Props.Refunds
/-!
# Equal treatment (C61)
-/

namespace Verif
open Spec

/-- A larger deposit in the same registry never gets less. -/
theorem claimable_mono_deposit {bps imm sold start duration t d d' total : Nat} (h : d ≤ d') :
    claimable bps imm sold start duration t d total ≤ claimable bps imm sold start duration t d' total := by
  unfold claimable
  by_cases h0 : d = 0 ∨ total = 0
  · rw [if_pos h0]; exact Nat.zero_le _
  · have h1 : ¬ (d' = 0 ∨ total = 0) := by omega
    rw [if_neg h0, if_neg h1]
    refine Nat.add_le_add ?_ (Nat.div_le_div_right (Nat.mul_le_mul_left _ h))
    split
    · exact Nat.div_le_div_right (Nat.mul_le_mul_left _ h)
    · exact Nat.le_refl _

/-- Floored shares: a group gets at most what its sum gets, and loses less than one unit per member. -/
theorem shares_split (x total : Nat) (ht : 0 < total) (ds : List Nat) :
    (ds.map (fun d => x * d / total)).sum ≤ x * ds.sum / total ∧
    x * ds.sum / total ≤ (ds.map (fun d => x * d / total)).sum + (ds.length - 1) := by
  induction ds with
  | nil => simp
  | cons d ds ih =>
    obtain ⟨h1, h2⟩ := ih
    simp only [List.map_cons, List.sum_cons, List.length_cons, Nat.mul_add]
    have key1 : x * d / total + x * ds.sum / total ≤ (x * d + x * ds.sum) / total := by
      rw [Nat.le_div_iff_mul_le ht, Nat.add_mul]
      exact Nat.add_le_add (Nat.div_mul_le_self _ _) (Nat.div_mul_le_self _ _)
    have key2 : (x * d + x * ds.sum) / total ≤ x * d / total + x * ds.sum / total + 1 := by
      rw [Nat.div_le_iff_le_mul_add_pred ht]
      have e1 := Nat.div_add_mod (x * d) total
      have e2 := Nat.div_add_mod (x * ds.sum) total
      have m1 := Nat.mod_lt (x * d) ht
      have m2 := Nat.mod_lt (x * ds.sum) ht
      rw [Nat.mul_add, Nat.mul_add]
      omega
    cases ds with
    | nil => simp
    | cons d' ds' =>
      simp only [List.length_cons] at h2 ⊢
      omega

/-- **C61.** In an ended sale, of two escrows of the same registry the one with the larger deposit has, after
both claim at the same time, claimed at least as much, whatever happened before and in between; so equal
deposits end up with equal claims. -/
theorem C61_larger_gets_more {w : World} (R : Reachable w) {p : Presale} {tx1 tx2 : Tx} {x1 x2 : ClaimAcc}
    {e1 e2 : Escrow} (hp : w.presales x1.presale = some p) (ho : Over p w.clock) (hx : x2.presale = x1.presale)
    (h1 : w.escrows.get? x1.escrow = some e1) (h2 : w.escrows.get? x2.escrow = some e2)
    (hi : e1.registryIndex = e2.registryIndex) (hd : e1.totalDeposit ≤ e2.totalDeposit)
    (ops1 ops2 : List Op) (ht : (run w ops1).clock = (run w ops2).clock) {w1 w2 : World} {rc1 rc2 : Receipt}
    (s1 : step (run w ops1) (.ix tx1 (.claim x1)) = .ok (w1, rc1))
    (s2 : step (run w ops2) (.ix tx2 (.claim x2)) = .ok (w2, rc2)) :
    ∃ f1 f2, w1.escrows.get? x1.escrow = some f1 ∧ w2.escrows.get? x2.escrow = some f2 ∧
      f1.totalClaimedToken ≤ f2.totalClaimedToken ∧
      (e1.totalDeposit = e2.totalDeposit → f1.totalClaimedToken = f2.totalClaimedToken) := by
  obtain ⟨a1, r1, f1, g1, k1, m1, n1⟩ := C13_total R hp ho ops1 s1
  obtain ⟨a2, r2, f2, g2, k2, m2, n2⟩ := C13_total R (hx ▸ hp) ho ops2 s2
  rw [h1] at g1; cases g1
  rw [h2] at g2; cases g2
  rw [hi, k2] at k1; cases k1
  refine ⟨f1, f2, m1, m2, ?_, ?_⟩
  · rw [n1, n2, ht]; exact claimable_mono_deposit hd
  · intro he
    rw [n1, n2, ht]; unfold claimableAt; rw [he]

/-- What a group of escrows may have claimed at time `t`. -/
def Spec.groupClaim (p : Presale) (r : Registry) (t : Nat) (g : List Escrow) : Nat :=
  (g.map (fun e => claimableAt p r e t)).sum

/-- Deposits of a group. -/
def Spec.groupDeposit (g : List Escrow) : Nat := (g.map Escrow.totalDeposit).sum

theorem claimable_split (bps imm sold start duration t total : Nat) (ds : List Nat) :
    (ds.map (fun d => claimable bps imm sold start duration t d total)).sum ≤
      claimable bps imm sold start duration t ds.sum total ∧
    claimable bps imm sold start duration t ds.sum total ≤
      (ds.map (fun d => claimable bps imm sold start duration t d total)).sum + 2 * (ds.length - 1) := by
  by_cases h0 : total = 0
  · have : ∀ d, claimable bps imm sold start duration t d total = 0 := by
      intro d; unfold claimable; rw [if_pos (Or.inr h0)]
    simp only [this]
    have hz : ∀ l : List Nat, (l.map (fun _ => 0)).sum = 0 := by
      intro l; induction l with
      | nil => rfl
      | cons _ _ ih => simp [ih]
    rw [hz]
    omega
  · have hf : ∀ d, claimable bps imm sold start duration t d total =
        (if imm ≤ t then immediatePart sold bps else 0) * d / total +
          dripped (sold - immediatePart sold bps) start duration t * d / total := by
      intro d
      unfold claimable
      by_cases hd : d = 0
      · subst hd; simp
      · rw [if_neg (by omega)]
        split <;> simp
    simp only [hf]
    obtain ⟨a1, a2⟩ := shares_split (if imm ≤ t then immediatePart sold bps else 0) total (by omega) ds
    obtain ⟨b1, b2⟩ := shares_split (dripped (sold - immediatePart sold bps) start duration t) total (by omega) ds
    have e : ∀ f g : Nat → Nat, (ds.map (fun d => f d + g d)).sum = (ds.map f).sum + (ds.map g).sum := by
      intro f g
      induction ds with
      | nil => rfl
      | cons d ds ih =>
        simp only [List.map_cons, List.sum_cons]
        have := ih (shares_split _ _ (by omega) _).1 (shares_split _ _ (by omega) _).2
          (shares_split _ _ (by omega) _).1 (shares_split _ _ (by omega) _).2
        omega
    rw [e]
    omega

/-- **C61.** No gain from splitting: a group of escrows that together deposited as much as one escrow of the
same registry may never have claimed more than it, and at most two units less per additional member. -/
theorem C61_split_claims {w : World} (R : Reachable w) {a k : Addr} {p : Presale} {e : Escrow} {g : List Escrow}
    (hp : w.presales a = some p) (hk : w.escrows.get? k = some e) (ha : e.presale = a)
    (hg : ∀ x ∈ g, (∃ k', w.escrows.get? k' = some x) ∧ x.presale = a ∧ x.registryIndex = e.registryIndex)
    (hd : e.totalDeposit = groupDeposit g) (t : Nat) :
    ∃ r, p.registries[e.registryIndex]? = some r ∧
      (∀ x ∈ g, p.registries[x.registryIndex]? = some r) ∧
      groupClaim p r t g ≤ claimableAt p r e t ∧
      claimableAt p r e t ≤ groupClaim p r t g + 2 * (g.length - 1) := by
  have S := R.winv.core.sale a p hp
  obtain ⟨r, hr, _⟩ := S.pinv.escBook hk ha
  refine ⟨r, hr, fun x hx => by rw [(hg x hx).2.2]; exact hr, ?_⟩
  have := claimable_split p.immediateReleaseBps p.immediateReleaseTimestamp (sold p r) p.vestingStartTime
    p.vestDuration t r.totalDeposit (g.map Escrow.totalDeposit)
  rw [List.map_map, List.length_map] at this
  unfold claimableAt groupClaim
  rw [hd]
  exact this

/-- **C61.** The same for the refund of deposits of an oversubscribed sale: a group gets at most what one
escrow with the same total deposit gets, and loses at most a unit per additional member. -/
theorem C61_split_refunds {w : World} (R : Reachable w) {a k : Addr} {p : Presale} {e : Escrow} {g : List Escrow}
    (hp : w.presales a = some p) (hk : w.escrows.get? k = some e) (ha : e.presale = a)
    (hg : ∀ x ∈ g, (∃ k', w.escrows.get? k' = some x) ∧ x.presale = a ∧ x.registryIndex = e.registryIndex)
    (hd : e.totalDeposit = groupDeposit g) :
    ∃ r, p.registries[e.registryIndex]? = some r ∧ (∀ x ∈ g, p.registries[x.registryIndex]? = some r) ∧
      (g.map (refundDeposit p r)).sum ≤ refundDeposit p r e ∧
      refundDeposit p r e ≤ (g.map (refundDeposit p r)).sum + (g.length - 1) := by
  have S := R.winv.core.sale a p hp
  obtain ⟨r, hr, _⟩ := S.pinv.escBook hk ha
  refine ⟨r, hr, fun x hx => by rw [(hg x hx).2.2]; exact hr, ?_⟩
  have hz : ∀ l : List Escrow, (l.map (fun _ => 0)).sum = 0 := by
    intro l; induction l with
    | nil => rfl
    | cons _ _ ih => simp [ih]
  by_cases hm : p.presaleMode = 1
  · by_cases h0 : r.totalDeposit = 0
    · have : refundDeposit p r = fun _ => 0 := by
        funext x; unfold refundDeposit; rw [if_pos hm, h0, Nat.div_zero]
      rw [this, hz]; simp
    · have := shares_split (registrySurplus p r) r.totalDeposit (by omega) (g.map Escrow.totalDeposit)
      rw [List.map_map, List.length_map] at this
      have h1 : ∀ x, refundDeposit p r x = registrySurplus p r * x.totalDeposit / r.totalDeposit := by
        intro x; unfold refundDeposit; rw [if_pos hm, Nat.mul_comm]
      rw [show refundDeposit p r = fun x => registrySurplus p r * x.totalDeposit / r.totalDeposit from funext h1]
      simp only
      rw [hd]
      exact this
  · have : refundDeposit p r = fun _ => 0 := by
      funext x; unfold refundDeposit; rw [if_neg hm]
    rw [this, hz]; simp

namespace Ex

/-- Bob deposits 901 for himself; Alice 500 for herself and 401 into an escrow of a third party. -/
def splitOps : List Op :=
  [init 1 0 0 reg1, .tick 10, open' alice, open' bob, open' creator, deposit alice aliceQuote 500,
   deposit bob bobQuote 901,
   .ix (tx [alice]) (.deposit { depositAcc alice aliceQuote 401 with escrow := escrowOf creator }), .tick 1190]

def splitDone : World := run genesis splitOps

def dep (w : World) (k : Addr) : Nat := match w.escrows.get? k with | some e => e.totalDeposit | none => 0

def claimedAfter (w : World) (owner tok : Addr) : Nat :=
  match (apply w (claim owner tok)).escrows.get? (escrowOf owner) with
  | some e => e.totalClaimedToken
  | none => 0

/-- The two smaller escrows add up to the larger one; the larger one has claimed at least as much as both
together, here two tokens more (so the bound of `C61_split_claims` is attained). -/
example : dep splitDone (escrowOf bob) = dep splitDone (escrowOf alice) + dep splitDone (escrowOf creator) ∧
    works splitDone (claim bob bobBase) = true ∧ works splitDone (claim alice aliceBase) = true ∧
    works splitDone (claim creator creatorBase) = true ∧ claimedAfter splitDone bob bobBase = 3000 ∧
    claimedAfter splitDone alice aliceBase = 1663 ∧ claimedAfter splitDone creator creatorBase = 1335 := by
  decide +kernel

end Ex

end Verif
