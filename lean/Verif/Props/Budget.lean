import Verif.Lemmas.Conserve
import Verif.Props.Closing
/-!
# The budget of a sale
-/

namespace Verif
open Spec

theorem lsum_indexed_ge {α : Type} {l : List α} {F : Nat → Nat} {A B : α → Nat}
    (h : ∀ (i : Nat) r, l[i]? = some r → B r ≤ F i + A r) :
    lsum B l ≤ lsum F (List.range l.length) + lsum A l := by
  induction l generalizing F with
  | nil => simp [lsum]
  | cons x l ih =>
    have h0 := h 0 x rfl
    have h1 := ih (F := fun i => F (i + 1)) (fun i r hr => h (i + 1) r (by simpa using hr))
    have h2 : lsum F (List.range (x :: l).length) = F 0 + lsum (fun i => F (i + 1)) (List.range l.length) := by
      rw [List.length_cons, List.range_succ_eq_map]
      simp [lsum, List.map_map, Function.comp_def]
    rw [h2, lsum_cons, lsum_cons]
    omega

theorem lsum_twice {α : Type} (g : α → Nat) (l : List α) : lsum (fun x => 2 * g x) l = 2 * lsum g l := by
  have : lsum (fun x => 2 * g x) l = lsum (fun x => g x + g x) l := lsum_congr (fun _ x _ => by omega)
  rw [this, lsum_add]; omega

/-- Refunds due at the end of an oversubscribed sale fill the refundable pools up to two units per escrow. -/
theorem whole_refunds {t : Nat} {a : Addr} {p : Presale} {es : AMap Addr Escrow} (P : PInv t a p es)
    (H : Whole a p es) :
    lsum (refundPool p) p.registries ≤ saleSum es a (refundDue p) + 2 * p.totalEscrow := by
  rw [saleSum_split P.idx_lt, P.book.totEsc, ← lsum_twice]
  apply lsum_indexed_ge
  intro i r hr
  have hd := H.dep i r hr
  have hf := H.fee i r hr
  have hn := (P.book.reg i r hr).count
  have h2 : esum es a i (refundDue p) = esum es a i (owedRefund p r) := by
    apply esum_congr
    intro x hx ha hi
    rw [refundDue_eq (r := r) (by rw [hi]; exact hr)]
    unfold outstanding
    rw [if_neg (by have := (H.fresh x hx ha).1; omega)]
  show refundPool p r ≤ esum es a i (refundDue p) + 2 * r.totalEscrow
  rw [h2]
  unfold refundPool
  by_cases hc : p.totalDeposit < p.presaleMinimumCap
  · rw [if_pos hc]
    have e1 : esum es a i (owedRefund p r) = esum es a i (fun e => e.totalDeposit + e.totalDepositFee) := by
      apply esum_congr
      intro x _ _ _
      unfold owedRefund
      rw [if_pos hc]
    rw [e1, esum_add, hd, hf]
    omega
  · rw [if_neg hc]
    by_cases hm : p.presaleMode = 1
    · rw [if_pos hm]
      have e1 : esum es a i (owedRefund p r) = esum es a i (fun e =>
          e.totalDeposit * registrySurplus p r / r.totalDeposit +
          e.totalDepositFee * registryFeeRefund p r / r.totalDepositFee) := by
        apply esum_congr
        intro x _ _ _
        unfold owedRefund refundDeposit refundFee
        rw [if_neg hc, if_pos hm, if_pos hm]
      rw [e1, esum_add, hn]
      have k1 := esum_shares es a i Escrow.totalDeposit (S := registrySurplus p r)
        (fun h => by have := @registrySurplus_le p r; omega) hd
      have k2 := esum_shares es a i Escrow.totalDepositFee (S := registryFeeRefund p r)
        (fun h => by have := @registryFeeRefund_le p r; omega) hf
      omega
    · rw [if_neg hm]; exact Nat.zero_le _

theorem entitlement_shares (p : Presale) (r : Registry) (e : Escrow) : entitlement p r e =
    e.totalDeposit * immediatePart (sold p r) p.immediateReleaseBps / r.totalDeposit +
    e.totalDeposit * (sold p r - immediatePart (sold p r) p.immediateReleaseBps) / r.totalDeposit := by
  unfold entitlement
  rw [Nat.mul_comm e.totalDeposit, Nat.mul_comm e.totalDeposit]
  by_cases h : e.totalDeposit = 0 ∨ r.totalDeposit = 0
  · rw [if_pos h]
    rcases h with h | h <;> rw [h] <;> simp
  · rw [if_neg h]

theorem sold_zero (p : Presale) (r : Registry) (h : r.totalDeposit = 0) : sold p r = 0 := by
  unfold sold
  rw [h, if_pos rfl]
  split
  · rfl
  · simp [tokensAtPrice]

/-- Tokens due at the end of a completed sale make up what was sold up to two units per escrow. -/
theorem whole_claims {t : Nat} {a : Addr} {p : Presale} {es : AMap Addr Escrow} (P : PInv t a p es)
    (H : Whole a p es) : totalSold p ≤ saleSum es a (claimDue p) + 2 * p.totalEscrow := by
  rw [saleSum_split P.idx_lt, P.book.totEsc, ← lsum_twice]
  apply lsum_indexed_ge
  intro i r hr
  have hd := H.dep i r hr
  have hn := (P.book.reg i r hr).count
  have h2 : esum es a i (claimDue p) = esum es a i (fun e =>
      e.totalDeposit * immediatePart (sold p r) p.immediateReleaseBps / r.totalDeposit +
      e.totalDeposit * (sold p r - immediatePart (sold p r) p.immediateReleaseBps) / r.totalDeposit) := by
    apply esum_congr
    intro x hx ha hi
    rw [claimDue_eq (r := r) (by rw [hi]; exact hr), (H.fresh x hx ha).2, entitlement_shares, Nat.sub_zero]
  show sold p r ≤ esum es a i (claimDue p) + 2 * r.totalEscrow
  rw [h2, esum_add, hn]
  have hI := immediatePart_le (s := sold p r) P.static.bps
  have k1 := esum_shares es a i Escrow.totalDeposit (S := immediatePart (sold p r) p.immediateReleaseBps)
    (fun h => by have := sold_zero p r h; omega) hd
  have k2 := esum_shares es a i Escrow.totalDeposit
    (S := sold p r - immediatePart (sold p r) p.immediateReleaseBps)
    (fun h => by have := sold_zero p r h; omega) hd
  omega

/-- Registries with deposits. -/
theorem used_registries {t : Nat} {a : Addr} {p : Presale} {es : AMap Addr Escrow} (P : PInv t a p es) :
    lsum (fun r : Registry => if r.totalDeposit = 0 then 0 else 1) p.registries ≤
      p.totalPresaleRegistryCount := by
  have key : ∀ (l : List Registry) (n : Nat), (∀ i r, l[i]? = some r → n ≤ i → r.totalDeposit = 0) →
      lsum (fun r : Registry => if r.totalDeposit = 0 then 0 else 1) l ≤ n := by
    intro l
    induction l with
    | nil => intro n _; exact Nat.zero_le _
    | cons r l ih =>
      intro n h
      rw [lsum_cons]
      cases n with
      | zero =>
        have h1 := h 0 r rfl (Nat.le_refl _)
        have h2 := ih 0 (fun i r hr _ => h (i + 1) r hr (Nat.zero_le _))
        rw [if_pos h1]; omega
      | succ n =>
        have h2 := ih n (fun i r hr hi => h (i + 1) r hr (by omega))
        split <;> omega
  refine key _ _ (fun i r hr hi => ?_)
  rw [(P.book.reg i r hr).unused hi]; rfl

/-- Raise, collectable fees and refundable pools use up the deposits and fees of a completed sale up to less
than one unit per registry. -/
theorem budget_ge {t : Nat} {a : Addr} {p : Presale} {es : AMap Addr Escrow} (P : PInv t a p es)
    (hc : p.presaleMinimumCap ≤ p.totalDeposit) :
    p.totalDeposit + p.totalDepositFee ≤ raise p + collectableFee p + lsum (refundPool p) p.registries +
      (if p.presaleMode = 1 then p.totalPresaleRegistryCount else 0) := by
  have B := P.book
  by_cases hm : p.presaleMode = 1
  · rw [if_pos hm]
    have h1 := collectable_eq B hm
    have h3 : lsum (refundPool p) p.registries =
        lsum (registrySurplus p) p.registries + lsum (registryFeeRefund p) p.registries := by
      rw [← lsum_add]
      apply lsum_congr
      intro i r _
      unfold refundPool
      rw [if_neg (by omega), if_pos hm]
    have h4 := used_registries P
    have h5 : surplus p ≤ lsum (registrySurplus p) p.registries +
        lsum (fun r : Registry => if r.totalDeposit = 0 then 0 else 1) p.registries := by
      by_cases h0 : p.totalDeposit = 0
      · unfold surplus; rw [h0, Nat.zero_sub]; exact Nat.zero_le _
      · have hpos := Nat.pos_of_ne_zero h0
        have := lsum_floor_ge (surplus p) hpos p.registries
        rw [← B.totDep, Nat.mul_comm (surplus p)] at this
        exact Nat.le_of_mul_le_mul_left this hpos
    have h6 : raise p + surplus p = p.totalDeposit := by unfold raise surplus; omega
    omega
  · rw [if_neg hm]
    have h1 : collectableFee p = p.totalDepositFee := by unfold collectableFee; rw [if_neg hm]
    have h2 := B.cap hm
    have h3 : raise p = p.totalDeposit := by unfold raise; omega
    omega

/-- **C21.** In a completed sale the raise, the collectable fees and all refunds, paid and still due, never
exceed the deposits and fees taken in; what they leave is at most two units for each escrow that existed when
the sale ended plus one for each registry, and nothing at all unless the sale is pro-rata. -/
theorem C21_budget {w : World} (R : Reachable w) {a : Addr} {p : Presale} (hp : w.presales a = some p)
    (hc : Completed p w.clock) :
    raise p + collectableFee p + (p.totalRefundedQuoteToken + saleSum w.escrows a (refundDue p)) ≤
      p.totalDeposit + p.totalDepositFee ∧
    ∃ w1 p1 ops, JustEnded w1 a p1 ∧ w = run w1 ops ∧
      p1.totalEscrow = saleSum w1.escrows a (fun _ => 1) ∧
      p.totalDeposit + p.totalDepositFee ≤
        raise p + collectableFee p + (p.totalRefundedQuoteToken + saleSum w.escrows a (refundDue p)) +
        (if p.presaleMode = 1 then 2 * p1.totalEscrow + p.totalPresaleRegistryCount else 0) := by
  have S := R.winv.core.sale a p hp
  refine ⟨?_, ?_⟩
  · have h1 := budget S.pinv.book hc.2
    have h2 := S.pinv.refundsDue (S.over.1 hc.1)
    omega
  · obtain ⟨w1, p1, ops, J, rfl⟩ := just_ended R hp hc.1
    have S1 := J.reachable.winv.core.sale a p1 J.presale
    have hcons := run_conserve J.reachable.winv ops J.presale hp J.over
    obtain ⟨p', hp', L⟩ := run_later J.reachable.winv ops J.presale
    rw [hp] at hp'; cases hp'
    have hb := L.frozen J.over
    have hpool : lsum (refundPool p) p.registries = lsum (refundPool p1) p1.registries := by
      have key : ∀ p : Presale, lsum (refundPool p) p.registries =
          lsum (refundPool (books p)) (books p).registries := by
        intro p
        show _ = lsum _ (p.registries.map registryBooks)
        unfold lsum
        rw [List.map_map]
        rfl
      rw [key p, key p1, hb]
    have hw := whole_refunds S1.pinv J.whole
    have hbg := budget_ge S.pinv hc.2
    have h0 := J.whole.refunded
    refine ⟨w1, p1, ops, J, rfl, ?_, ?_⟩
    · rw [saleSum_split S1.pinv.idx_lt, S1.pinv.book.totEsc]
      have k1 := lsum_indexed (l := p1.registries) (F := fun i => esum w1.escrows a i (fun _ => 1)) (A := fun _ => 0)
        (B := Registry.totalEscrow) (fun i r hr => by
          have := (S1.pinv.book.reg i r hr).count
          simp only [Nat.add_zero]; exact Nat.le_of_eq this.symm)
      have k2 := lsum_indexed_ge (l := p1.registries) (F := fun i => esum w1.escrows a i (fun _ => 1))
        (A := fun _ => 0) (B := Registry.totalEscrow) (fun i r hr => by
          have := (S1.pinv.book.reg i r hr).count
          simp only [Nat.add_zero]; exact Nat.le_of_eq this)
      have k3 : lsum (fun _ : Registry => 0) p1.registries = 0 := lsum_zero (fun _ _ _ => rfl)
      omega
    · by_cases hm : p.presaleMode = 1
      · rw [if_pos hm] at hbg ⊢
        omega
      · rw [if_neg hm] at hbg ⊢
        have : lsum (refundPool p) p.registries = 0 := by
          refine lsum_zero (fun i r _ => ?_)
          unfold refundPool
          have := hc.2
          rw [if_neg (by omega), if_neg hm]
        omega

/-- **C21**, failed sale: refunds paid and still due are exactly everything taken in. -/
theorem C21_failed {w : World} (R : Reachable w) {a : Addr} {p : Presale} (hp : w.presales a = some p)
    (hf : Failed p w.clock) :
    p.totalRefundedQuoteToken + saleSum w.escrows a (refundDue p) = p.totalDeposit + p.totalDepositFee := by
  have S := R.winv.core.sale a p hp
  obtain ⟨w1, p1, ops, J, rfl⟩ := just_ended R hp hf.1
  have S1 := J.reachable.winv.core.sale a p1 J.presale
  have hcons := (run_conserve J.reachable.winv ops J.presale hp J.over).1
  obtain ⟨p', hp', L⟩ := run_later J.reachable.winv ops J.presale
  rw [hp] at hp'; cases hp'
  have hb := L.frozen J.over
  have e1 : p.presaleMinimumCap = p1.presaleMinimumCap := (congrArg Presale.presaleMinimumCap hb :)
  have e2 : p.totalDeposit = p1.totalDeposit := (congrArg Presale.totalDeposit hb :)
  have e3 : p.totalDepositFee = p1.totalDepositFee := (congrArg Presale.totalDepositFee hb :)
  have hf1 : p1.totalDeposit < p1.presaleMinimumCap := by have := hf.2; omega
  rw [hcons, J.whole.refunded, Nat.zero_add, e2, e3, saleSum_split S1.pinv.idx_lt, S1.pinv.book.totDep,
    S1.pinv.book.totFee, ← lsum_add]
  have hreg : ∀ (i : Nat) r, p1.registries[i]? = some r →
      esum w1.escrows a i (refundDue p1) = r.totalDeposit + r.totalDepositFee := by
    intro i r hr
    rw [← J.whole.dep i r hr, ← J.whole.fee i r hr, ← esum_add]
    apply esum_congr
    intro x hx ha hi
    rw [refundDue_eq (r := r) (by rw [hi]; exact hr)]
    unfold outstanding owedRefund
    rw [if_neg (by have := (J.whole.fresh x hx ha).1; omega), if_pos hf1]
  have k1 := lsum_indexed (l := p1.registries) (F := fun i => esum w1.escrows a i (refundDue p1)) (A := fun _ => 0)
    (B := fun r => r.totalDeposit + r.totalDepositFee)
    (fun i r hr => by simp only [Nat.add_zero]; exact Nat.le_of_eq (hreg i r hr))
  have k2 := lsum_indexed_ge (l := p1.registries) (F := fun i => esum w1.escrows a i (refundDue p1)) (A := fun _ => 0)
    (B := fun r => r.totalDeposit + r.totalDepositFee)
    (fun i r hr => by simp only [Nat.add_zero]; exact Nat.le_of_eq (hreg i r hr).symm)
  have k3 : lsum (fun _ : Registry => 0) p1.registries = 0 := lsum_zero (fun _ _ _ => rfl)
  omega

/-- **C55.** In a completed sale the tokens claimed and still due never exceed what was sold, and miss it by at
most two units for each escrow that existed when the sale ended. -/
theorem C55_base_budget {w : World} (R : Reachable w) {a : Addr} {p : Presale} (hp : w.presales a = some p)
    (hc : Completed p w.clock) :
    p.totalClaimedToken + saleSum w.escrows a (claimDue p) ≤ totalSold p ∧
    ∃ w1 p1 ops, JustEnded w1 a p1 ∧ w = run w1 ops ∧
      totalSold p ≤ p.totalClaimedToken + saleSum w.escrows a (claimDue p) + 2 * p1.totalEscrow := by
  have S := R.winv.core.sale a p hp
  refine ⟨?_, ?_⟩
  · have := S.pinv.claimsDue (S.over.1 hc.1) hc.2
    omega
  · obtain ⟨w1, p1, ops, J, rfl⟩ := just_ended R hp hc.1
    have S1 := J.reachable.winv.core.sale a p1 J.presale
    obtain ⟨p', hp', L⟩ := run_later J.reachable.winv ops J.presale
    rw [hp] at hp'; cases hp'
    have hb := L.frozen J.over
    have e1 : p.presaleMinimumCap = p1.presaleMinimumCap := (congrArg Presale.presaleMinimumCap hb :)
    have e2 : p.totalDeposit = p1.totalDeposit := (congrArg Presale.totalDeposit hb :)
    have hcons := (run_conserve J.reachable.winv ops J.presale hp J.over).2 (by have := hc.2; omega)
    have hw := whole_claims S1.pinv J.whole
    have h0 := J.whole.claimed
    have hs := totalSold_congr hb
    exact ⟨w1, p1, ops, J, rfl, by omega⟩

namespace Ex

/-- A sale in which rounding leaves something behind: 901 and 600 deposited against a cap of 1000. -/
def dusty : World := run genesis ([init 1 0 0 reg1, .tick 10, open' alice, open' bob,
  deposit alice aliceQuote 901, .tick 10, deposit bob bobQuote 600, .tick 2000])

/-- The worlds of `Examples` meet the hypotheses; in the oversubscribed one something does remain. -/
example : has dusty (fun p => decide ((p.presaleEndTime < dusty.clock) ∧ p.presaleMinimumCap ≤ p.totalDeposit ∧
      raise p + collectableFee p + (p.totalRefundedQuoteToken + saleSum dusty.escrows sale (refundDue p)) <
        p.totalDeposit + p.totalDepositFee ∧
      p.totalClaimedToken + saleSum dusty.escrows sale (claimDue p) < totalSold p)) = true ∧
    has failedDone (fun p => decide (p.presaleEndTime < failedDone.clock ∧
      p.totalDeposit < p.presaleMinimumCap ∧ 0 < p.totalDeposit)) = true ∧
    has fixedDone (fun p => decide (p.presaleEndTime < fixedDone.clock ∧
      p.presaleMinimumCap ≤ p.totalDeposit)) = true := by
  decide +kernel

end Ex

end Verif
