import Verif.Lemmas.Reach
/-!
# Sums over all escrows of a sale
-/

namespace Verif
open Spec

theorem lsum_ite_lt (k n c : Nat) : lsum (fun i => if k = i then c else 0) (List.range n) =
    if k < n then c else 0 := by
  induction n with
  | zero => rfl
  | succ n ih =>
    have h1 : lsum (fun i => if k = i then c else 0) (List.range (n + 1)) =
        lsum (fun i => if k = i then c else 0) (List.range n) + (if k = n then c else 0) := by
      rw [List.range_succ]; simp [lsum]
    rw [h1, ih]
    by_cases h : k < n
    · rw [if_pos h, if_neg (by omega), if_pos (by omega), Nat.add_zero]
    · rw [if_neg h]
      by_cases h2 : k = n
      · rw [if_pos h2, if_pos (by omega)]; omega
      · rw [if_neg h2, if_neg (by omega)]

theorem saleSum_cons (x : Addr × Escrow) (es : AMap Addr Escrow) (a : Addr) (f : Escrow → Nat) :
    saleSum (x :: es) a f = (if x.2.presale = a then f x.2 else 0) + saleSum es a f := by
  simp [saleSum]

/-- The escrows of a sale, registry by registry. -/
theorem saleSum_split {es : AMap Addr Escrow} {a : Addr} {f : Escrow → Nat} {n : Nat}
    (h : ∀ x ∈ es, x.2.presale = a → x.2.registryIndex < n) :
    saleSum es a f = lsum (fun i => esum es a i f) (List.range n) := by
  induction es with
  | nil => exact (lsum_zero (fun _ _ _ => rfl)).symm
  | cons x es ih =>
    rw [saleSum_cons, ih (fun y hy => h y (List.mem_cons_of_mem _ hy))]
    have : lsum (fun i => esum (x :: es) a i f) (List.range n) =
        lsum (fun i => only a i f x.2) (List.range n) + lsum (fun i => esum es a i f) (List.range n) := by
      rw [← lsum_add]
      apply lsum_congr
      intro _ i _
      exact AMap.sumBy_cons _ _ _
    rw [this]
    congr 1
    by_cases ha : x.2.presale = a
    · rw [if_pos ha]
      have hlt := h x (List.mem_cons_self) ha
      have e1 := lsum_ite_lt x.2.registryIndex n (f x.2)
      rw [if_pos hlt] at e1
      rw [← e1]
      apply lsum_congr
      intro _ i _
      simp [only, ha]
    · rw [if_neg ha]
      exact (lsum_zero (fun _ i _ => only_miss ha)).symm

/-- Index-wise inequalities add up. -/
theorem lsum_indexed {α : Type} {l : List α} {F : Nat → Nat} {A B : α → Nat}
    (h : ∀ (i : Nat) r, l[i]? = some r → F i + A r ≤ B r) :
    lsum F (List.range l.length) + lsum A l ≤ lsum B l := by
  induction l generalizing F with
  | nil => simp [lsum]
  | cons x l ih =>
    have h0 := h 0 x rfl
    have h1 := ih (F := fun i => F (i + 1)) (fun i r hr => h (i + 1) r (by simpa using hr))
    have h2 : lsum F (List.range (x :: l).length) = F 0 + lsum (fun i => F (i + 1)) (List.range l.length) := by
      rw [List.length_cons, List.range_succ_eq_map]
      simp [lsum, List.map_map, Function.comp_def]
    rw [h2, lsum_cons, lsum_cons]
    omega

theorem saleSum_congr {es : AMap Addr Escrow} {a : Addr} {f g : Escrow → Nat}
    (h : ∀ x ∈ es, x.2.presale = a → f x.2 = g x.2) : saleSum es a f = saleSum es a g := by
  unfold saleSum
  congr 1
  apply List.map_congr_left
  intro x hx
  by_cases ha : x.2.presale = a
  · simp only [ha, if_true]; exact h x hx ha
  · simp [ha]

theorem PInv.idx_lt {t : Nat} {a : Addr} {p : Presale} {es : AMap Addr Escrow} (P : PInv t a p es) :
    ∀ x ∈ es, x.2.presale = a → x.2.registryIndex < p.registries.length := by
  intro x hx ha
  obtain ⟨r, hr, _⟩ := P.book.esc x hx ha
  exact (List.getElem?_eq_some_iff.1 hr).1

theorem refundDue_eq {p : Presale} {e : Escrow} {r : Registry} (h : p.registries[e.registryIndex]? = some r) :
    refundDue p e = outstanding p r e := by
  unfold refundDue outstanding
  rw [h]

theorem claimDue_eq {p : Presale} {e : Escrow} {r : Registry} (h : p.registries[e.registryIndex]? = some r) :
    claimDue p e = entitlement p r e - e.totalClaimedToken := by
  unfold claimDue
  rw [h]

/-- After the sale: refunds paid and still due stay within the refundable pools. -/
theorem PInv.refundsDue {t : Nat} {a : Addr} {p : Presale} {es : AMap Addr Escrow} (P : PInv t a p es)
    (hend : p.presaleEndTime ≤ t) :
    saleSum es a (refundDue p) + p.totalRefundedQuoteToken ≤ lsum (refundPool p) p.registries := by
  rw [saleSum_split P.idx_lt, P.book.totRef]
  apply lsum_indexed
  intro i r hr
  have h1 := (P.book.reg i r hr).refund hend
  have h2 : esum es a i (refundDue p) = esum es a i (outstanding p r) := by
    apply esum_congr
    intro x hx ha hi
    exact refundDue_eq (by rw [hi]; exact hr)
  show esum es a i (refundDue p) + _ ≤ _
  rw [h2]; omega

/-- In a completed sale: tokens claimed and still due stay within what was sold, registry by registry. -/
theorem PInv.claimsDueReg {t : Nat} {a : Addr} {p : Presale} {es : AMap Addr Escrow} (P : PInv t a p es)
    (hend : p.presaleEndTime ≤ t) (hmin : p.presaleMinimumCap ≤ p.totalDeposit) {i : Nat} {r : Registry}
    (hr : p.registries[i]? = some r) :
    esum es a i (claimDue p) + r.totalClaimedToken ≤ sold p r := by
  have h1 := (P.book.reg i r hr).claim hend hmin
  have h2 : esum es a i (entitlement p r) = esum es a i (fun e => claimDue p e + e.totalClaimedToken) := by
    apply esum_congr
    intro x hx ha hi
    have hr' : p.registries[x.2.registryIndex]? = some r := by rw [hi]; exact hr
    rw [claimDue_eq hr']
    obtain ⟨r', hr'', E⟩ := P.book.esc x hx ha
    rw [hr'] at hr''; cases hr''
    have := E.claimed_le P.sched hend hmin
    omega
  rw [h2, esum_add] at h1
  have h3 : esum es a i (fun e => claimDue p e) = esum es a i (claimDue p) := rfl
  have h4 : esum es a i (fun e => e.totalClaimedToken) = esum es a i Escrow.totalClaimedToken := rfl
  rw [h3, h4] at h1
  omega

theorem PInv.claimsDue {t : Nat} {a : Addr} {p : Presale} {es : AMap Addr Escrow} (P : PInv t a p es)
    (hend : p.presaleEndTime ≤ t) (hmin : p.presaleMinimumCap ≤ p.totalDeposit) :
    saleSum es a (claimDue p) + p.totalClaimedToken ≤ Spec.totalSold p := by
  rw [saleSum_split P.idx_lt, P.book.totCl, totalSold_eq]
  apply lsum_indexed
  intro i r hr
  exact P.claimsDueReg hend hmin hr

/-! ## Phases -/

theorem Sale.over {c : Int} {es : AMap Addr Escrow} {k : Tokens} {a : Addr} {p : Presale}
    (S : Sale c es k a p) : Over p c ↔ p.presaleEndTime ≤ c.toNat := by
  have := S.clock
  unfold Over
  omega

theorem Sale.progress_completed {c : Int} {es : AMap Addr Escrow} {k : Tokens} {a : Addr} {p : Presale}
    (S : Sale c es k a p) : p.getPresaleProgress c.toNat = .completed ↔ Completed p c := by
  unfold Completed
  rw [S.over, Verif.progress_completed]
  have h1 := S.pinv.sched.order
  constructor
  · rintro ⟨h1, h2, h3⟩; exact ⟨h2, h3⟩
  · rintro ⟨h2, h3⟩; exact ⟨by omega, h2, h3⟩

theorem Sale.progress_failed {c : Int} {es : AMap Addr Escrow} {k : Tokens} {a : Addr} {p : Presale}
    (S : Sale c es k a p) : p.getPresaleProgress c.toNat = .failed ↔ Failed p c := by
  unfold Failed
  rw [S.over, Verif.progress_failed]
  have h1 := S.pinv.sched.order
  constructor
  · rintro ⟨h1, h2, h3⟩; exact ⟨h2, h3⟩
  · rintro ⟨h2, h3⟩; exact ⟨by omega, h2, h3⟩

theorem Sale.progress_ongoing {c : Int} {es : AMap Addr Escrow} {k : Tokens} {a : Addr} {p : Presale}
    (S : Sale c es k a p) : p.getPresaleProgress c.toNat = .ongoing ↔ Ongoing p c := by
  unfold Ongoing
  rw [Verif.progress_ongoing]
  have := S.clock
  omega

end Verif
