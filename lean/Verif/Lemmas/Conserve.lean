import Verif.Lemmas.End
/-!
# What is paid and what is due after the end of a sale
-/

namespace Verif
open Spec

/-! ## Sums over the escrows of a sale -/

/-- `f` on the escrows of sale `a`, nothing elsewhere. -/
def ofSale (a : Addr) (f : Escrow → Nat) (e : Escrow) : Nat := if e.presale = a then f e else 0

theorem saleSum_eq (es : AMap Addr Escrow) (a : Addr) (f : Escrow → Nat) :
    saleSum es a f = AMap.sumBy (ofSale a f) es := rfl

theorem ofSale_hit {a : Addr} {f : Escrow → Nat} {e : Escrow} (h : e.presale = a) : ofSale a f e = f e := by
  unfold ofSale; rw [if_pos h]

theorem ofSale_miss {a : Addr} {f : Escrow → Nat} {e : Escrow} (h : e.presale ≠ a) : ofSale a f e = 0 := by
  unfold ofSale; rw [if_neg h]

theorem saleSum_set {es : AMap Addr Escrow} {a k : Addr} {e e' : Escrow} (f : Escrow → Nat)
    (hk : es.get? k = some e) : saleSum (es.set k e') a f + ofSale a f e = saleSum es a f + ofSale a f e' :=
  AMap.sumBy_set_some (g := ofSale a f) hk

theorem saleSum_set_new {es : AMap Addr Escrow} {a k : Addr} {e' : Escrow} (f : Escrow → Nat)
    (hk : es.get? k = none) : saleSum (es.set k e') a f = saleSum es a f + ofSale a f e' :=
  AMap.sumBy_set_none (g := ofSale a f) hk

theorem saleSum_erase {es : AMap Addr Escrow} {a k : Addr} {e : Escrow} (f : Escrow → Nat)
    (hk : es.get? k = some e) : saleSum (es.erase k) a f + ofSale a f e = saleSum es a f :=
  AMap.sumBy_erase (g := ofSale a f) hk

theorem saleSum_le {es : AMap Addr Escrow} {a : Addr} {f g : Escrow → Nat}
    (h : ∀ x ∈ es, x.2.presale = a → f x.2 ≤ g x.2) : saleSum es a f ≤ saleSum es a g := by
  refine AMap.sumBy_le (g := ofSale a f) (g' := ofSale a g) (fun x hx => ?_)
  unfold ofSale
  by_cases ha : x.2.presale = a
  · rw [if_pos ha, if_pos ha]; exact h x hx ha
  · rw [if_neg ha, if_neg ha]

theorem saleSum_add (es : AMap Addr Escrow) (a : Addr) (f g : Escrow → Nat) :
    saleSum es a (fun e => f e + g e) = saleSum es a f + saleSum es a g := by
  rw [saleSum_eq, saleSum_eq, saleSum_eq, ← AMap.sumBy_add]
  apply AMap.sumBy_congr
  intro x _
  unfold ofSale
  split <;> rfl

/-- Every escrow is part of the sum. -/
theorem le_saleSum {es : AMap Addr Escrow} {a k : Addr} {e : Escrow} (f : Escrow → Nat)
    (hk : es.get? k = some e) (ha : e.presale = a) : f e ≤ saleSum es a f := by
  have := saleSum_erase (a := a) f hk
  rw [ofSale_hit ha] at this
  omega

/-- Acts on another sale leave the sum alone. -/
theorem Act.saleSum_other {w : World} {b : Addr} {p p' : Presale} {tx : Tx} {i : Ix} {es' : AMap Addr Escrow}
    (A : Act w b p tx i p' es') {a : Addr} (hab : b ≠ a) (f : Escrow → Nat) :
    saleSum es' a f = saleSum w.escrows a f := by
  have set : ∀ {k : Addr} {e e' : Escrow}, w.escrows.get? k = some e → e.presale = b → e'.presale = b →
      saleSum (w.escrows.set k e') a f = saleSum w.escrows a f := by
    intro k e e' hk h1 h2
    have := saleSum_set (a := a) (e' := e') f hk
    rw [ofSale_miss (by rw [h1]; exact hab), ofSale_miss (by rw [h2]; exact hab)] at this
    exact this
  cases A with
  | opened _ hf =>
    rw [saleSum_set_new f hf, ofSale_miss]
    · rfl
    · exact hab
  | deposit _ he hb _ F => exact set he hb (by rw [F.escrow]; exact hb)
  | withdraw _ he hb _ _ F => exact set he hb (by rw [F.escrow]; exact hb)
  | refreshed _ he hb => exact set he hb hb
  | claimed _ he hb => exact set he hb hb
  | refunded _ he hb => exact set he hb hb
  | closed _ he hb =>
    have := saleSum_erase (a := a) f he
    rw [ofSale_miss (by rw [hb]; exact hab)] at this
    exact this
  | creatorWithdrew => rfl
  | collected => rfl
  | unsold => rfl

/-! ## Paid plus due stays the same -/

theorem refundDue_congr {p p' : Presale} {e e' : Escrow} {r : Registry} (h : books p' = books p)
    (hr : p.registries[e.registryIndex]? = some r) (h0 : e'.registryIndex = e.registryIndex)
    (h1 : e'.totalDeposit = e.totalDeposit) (h2 : e'.totalDepositFee = e.totalDepositFee)
    (h3 : e'.isRemainingQuoteWithdrawn = e.isRemainingQuoteWithdrawn) : refundDue p' e' = refundDue p e := by
  obtain ⟨r', hr', hb⟩ := books_reg h hr
  rw [refundDue_eq hr, refundDue_eq (p := p') (by rw [h0]; exact hr')]
  unfold outstanding
  rw [h3, owedRefund_congr h hb h1 h2]

theorem claimDue_congr {p p' : Presale} {e e' : Escrow} {r : Registry} (h : books p' = books p)
    (hr : p.registries[e.registryIndex]? = some r) (h0 : e'.registryIndex = e.registryIndex)
    (h1 : e'.totalDeposit = e.totalDeposit)
    (h2 : e'.totalClaimedToken = e.totalClaimedToken) : claimDue p' e' = claimDue p e := by
  obtain ⟨r', hr', hb⟩ := books_reg h hr
  rw [claimDue_eq hr, claimDue_eq (p := p') (by rw [h0]; exact hr'), h2, entitlement_congr h hb h1]

/-- One act on an ended sale: refunds paid plus refunds due, and tokens claimed plus tokens due, stay. -/
theorem Act.conserve {w : World} {a : Addr} {p p' : Presale} {tx : Tx} {i : Ix} {es' : AMap Addr Escrow}
    (A : Act w a p tx i p' es') (P : PInv w.clock.toNat a p w.escrows)
    (ho : p.presaleEndTime ≤ w.clock.toNat) :
    p'.totalRefundedQuoteToken + saleSum es' a (refundDue p') =
      p.totalRefundedQuoteToken + saleSum w.escrows a (refundDue p) ∧
    (p.presaleMinimumCap ≤ p.totalDeposit →
      p'.totalClaimedToken + saleSum es' a (claimDue p') =
        p.totalClaimedToken + saleSum w.escrows a (claimDue p)) := by
  have hb : books p' = books p := by
    rcases A.books_or_open with h | ⟨_, h⟩
    · exact h
    · omega
  have hsame : ∀ x ∈ w.escrows, x.2.presale = a →
      refundDue p' x.2 = refundDue p x.2 ∧ claimDue p' x.2 = claimDue p x.2 := by
    intro x hx ha
    obtain ⟨r, hr, _⟩ := P.book.esc x hx ha
    exact ⟨refundDue_congr hb hr rfl rfl rfl rfl, claimDue_congr hb hr rfl rfl rfl⟩
  have e1 : saleSum w.escrows a (refundDue p') = saleSum w.escrows a (refundDue p) :=
    saleSum_congr (fun x hx ha => (hsame x hx ha).1)
  have e2 : saleSum w.escrows a (claimDue p') = saleSum w.escrows a (claimDue p) :=
    saleSum_congr (fun x hx ha => (hsame x hx ha).2)
  rw [← e1, ← e2]
  cases A with
  | opened _ _ _ h => omega
  | deposit _ _ _ _ F => have := F.open_; omega
  | withdraw _ _ _ _ _ F => have := F.open_; omega
  | @refreshed x e r _ he hba hr _ _ =>
    have k1 := saleSum_set (a := a) (e' := e.accrued (claimableAt p r e w.clock.toNat) w.clock.toNat) (refundDue p) he
    have k2 := saleSum_set (a := a) (e' := e.accrued (claimableAt p r e w.clock.toNat) w.clock.toNat) (claimDue p) he
    rw [ofSale_hit hba, ofSale_hit (show (e.accrued _ _).presale = a from hba)] at k1 k2
    rw [refundDue_congr (p' := p) (e' := e.accrued _ _) rfl hr rfl rfl rfl rfl] at k1
    rw [claimDue_congr (p' := p) (e' := e.accrued _ _) rfl hr rfl rfl rfl] at k2
    exact ⟨by omega, fun _ => by omega⟩
  | @claimed x e r _ he hba _ _ hr _ hmin =>
    have hbk := books_claimed (p := p) (x := claimableAt p r e w.clock.toNat - e.totalClaimedToken) hr
    generalize hp' : p.claimed e.registryIndex r (claimableAt p r e w.clock.toNat - e.totalClaimedToken) = q at *
    generalize he' : (e.accrued (claimableAt p r e w.clock.toNat) w.clock.toNat).paid = e'
    have i0 : e'.registryIndex = e.registryIndex := by rw [← he']; rfl
    have i1 : e'.totalDeposit = e.totalDeposit := by rw [← he']; rfl
    have i2 : e'.totalDepositFee = e.totalDepositFee := by rw [← he']; rfl
    have i3 : e'.isRemainingQuoteWithdrawn = e.isRemainingQuoteWithdrawn := by rw [← he']; rfl
    have i4 : e'.presale = a := by rw [← he']; exact hba
    have k1 := saleSum_set (a := a) (e' := e') (refundDue q) he
    have k2 := saleSum_set (a := a) (e' := e') (claimDue q) he
    rw [ofSale_hit hba, ofSale_hit i4] at k1 k2
    rw [refundDue_congr hbk hr i0 i1 i2 i3, refundDue_congr (e' := e) hbk hr rfl rfl rfl rfl] at k1
    have q1 : q.totalRefundedQuoteToken = p.totalRefundedQuoteToken := by rw [← hp']; rfl
    refine ⟨by omega, fun _ => ?_⟩
    obtain ⟨r1, hr1, E⟩ := P.escBook he hba
    rw [hr] at hr1; cases hr1
    have t1 := E.taken_le ho hmin
    have t2 := claimableAt_le_entitlement P.sched r e w.clock.toNat
    obtain ⟨r', hr', hrb⟩ := books_reg hbk hr
    rw [claimDue_eq (p := q) (e := e) hr', claimDue_eq (p := q) (e := e') (by rw [i0]; exact hr'),
      entitlement_congr hbk hrb i1, entitlement_congr (e' := e) hbk hrb rfl] at k2
    have q2 : q.totalClaimedToken = p.totalClaimedToken + (claimableAt p r e w.clock.toNat - e.totalClaimedToken) := by
      rw [← hp']; rfl
    have q3 : e'.totalClaimedToken = claimableAt p r e w.clock.toNat := by
      rw [← he']; simp only [Escrow.paid, Escrow.accrued]; omega
    rw [q3] at k2
    omega
  | @refunded x e r _ he hba _ _ hr hf _ _ =>
    have hbk := books_refunded (p := p) (x := owedRefund p r e) hr
    generalize hp' : p.refunded e.registryIndex r (owedRefund p r e) = q at *
    have k1 := saleSum_set (a := a) (e' := e.updateRemainingQuoteWithdrawn) (refundDue q) he
    have k2 := saleSum_set (a := a) (e' := e.updateRemainingQuoteWithdrawn) (claimDue q) he
    rw [ofSale_hit hba, ofSale_hit (show e.updateRemainingQuoteWithdrawn.presale = a from hba)] at k1 k2
    rw [claimDue_congr (e' := e.updateRemainingQuoteWithdrawn) hbk hr rfl rfl rfl,
      claimDue_congr (e' := e) hbk hr rfl rfl rfl] at k2
    obtain ⟨r', hr', hrb⟩ := books_reg hbk hr
    have j1 : refundDue q e.updateRemainingQuoteWithdrawn = 0 := by
      rw [refundDue_eq (p := q) (e := e.updateRemainingQuoteWithdrawn) hr', outstanding_zero]
      exact .inl rfl
    have j2 : refundDue q e = owedRefund p r e := by
      rw [refundDue_eq (p := q) (e := e) hr']
      unfold outstanding
      rw [if_neg (by omega), owedRefund_congr hbk hrb rfl rfl]
    rw [j1, j2] at k1
    have q1 : q.totalRefundedQuoteToken = p.totalRefundedQuoteToken + owedRefund p r e := by rw [← hp']; rfl
    have q2 : q.totalClaimedToken = p.totalClaimedToken := by rw [← hp']; rfl
    exact ⟨by omega, fun _ => by omega⟩
  | @closed x e r _ he hba _ _ hr hch =>
    have hbk := books_uncounted (p := p) hr
    have hset := (P.closeChecks_iff he hba hr).1 hch
    unfold Settled at hset
    rw [if_neg (by omega)] at hset
    generalize hp' : p.uncounted e.registryIndex r = q at *
    have k1 := saleSum_erase (a := a) (refundDue q) he
    have k2 := saleSum_erase (a := a) (claimDue q) he
    rw [ofSale_hit hba] at k1 k2
    rw [refundDue_congr (e' := e) hbk hr rfl rfl rfl rfl, refundDue_eq hr, hset.1] at k1
    rw [claimDue_congr (e' := e) hbk hr rfl rfl rfl, claimDue_eq hr] at k2
    have q1 : q.totalRefundedQuoteToken = p.totalRefundedQuoteToken := by rw [← hp']; rfl
    have q2 : q.totalClaimedToken = p.totalClaimedToken := by rw [← hp']; rfl
    exact ⟨by omega, fun h => by have := hset.2 h; omega⟩
  | creatorWithdrew => exact ⟨rfl, fun _ => rfl⟩
  | collected => exact ⟨rfl, fun _ => rfl⟩
  | unsold => exact ⟨rfl, fun _ => rfl⟩

/-- One step, whatever it is. -/
theorem step_conserve {w w' : World} {op : Op} {rc : Receipt} (W : WInv w) (hs : step w op = .ok (w', rc))
    {a : Addr} {p p' : Presale} (hp : w.presales a = some p) (hp' : w'.presales a = some p')
    (ho : Over p w.clock) :
    p'.totalRefundedQuoteToken + saleSum w'.escrows a (refundDue p') =
      p.totalRefundedQuoteToken + saleSum w.escrows a (refundDue p) ∧
    (p.presaleMinimumCap ≤ p.totalDeposit →
      p'.totalClaimedToken + saleSum w'.escrows a (claimDue p') =
        p.totalClaimedToken + saleSum w.escrows a (claimDue p)) := by
  have S := W.core.sale a p hp
  cases step_effect W hs with
  | quiet h1 h2 h3 =>
    rw [h1, hp] at hp'; cases hp'
    rw [h2]; exact ⟨rfl, fun _ => rfl⟩
  | @create tx x q h1 h2 h3 h4 h5 h6 =>
    have hne : a ≠ x.presaleKey := by rintro rfl; rw [hp] at h2; cases h2
    rw [h4, upd_other _ _ hne, hp] at hp'; cases hp'
    rw [h5]; exact ⟨rfl, fun _ => rfl⟩
  | @act tx i b q q' es' h1 h2 h3 h4 h5 h6 =>
    by_cases hab : b = a
    · subst hab
      rw [hp] at h2; cases h2
      rw [h4, upd_self] at hp'; cases hp'
      rw [h5]
      exact h3.conserve S.pinv (S.over.1 ho)
    · rw [h4, upd_other _ _ (Ne.symm hab), hp] at hp'; cases hp'
      rw [h5, h3.saleSum_other hab, h3.saleSum_other hab]
      exact ⟨rfl, fun _ => rfl⟩

/-- Any continuation of an ended sale. -/
theorem run_conserve {w : World} (W : WInv w) (ops : List Op) {a : Addr} {p p' : Presale}
    (hp : w.presales a = some p) (hp' : (run w ops).presales a = some p') (ho : Over p w.clock) :
    p'.totalRefundedQuoteToken + saleSum (run w ops).escrows a (refundDue p') =
      p.totalRefundedQuoteToken + saleSum w.escrows a (refundDue p) ∧
    (p.presaleMinimumCap ≤ p.totalDeposit →
      p'.totalClaimedToken + saleSum (run w ops).escrows a (claimDue p') =
        p.totalClaimedToken + saleSum w.escrows a (claimDue p)) := by
  induction ops generalizing w p with
  | nil =>
    rw [show run w [] = w from rfl, hp] at hp'; cases hp'
    exact ⟨rfl, fun _ => rfl⟩
  | cons op ops ih =>
    rcases apply_cases w op with h | ⟨rc, h⟩
    · rw [show run w (op :: ops) = run (apply w op) ops from rfl, h] at hp' ⊢
      exact ih W hp hp' ho
    · have W1 := W.apply op
      obtain ⟨p1, hp1, L⟩ := (step_effect W h).later W hp
      have h1 := step_conserve W h hp hp1 ho
      have h2 := ih W1 hp1 hp' (L.over ho)
      have hb := L.frozen ho
      have e1 : p1.presaleMinimumCap = p.presaleMinimumCap := (congrArg Presale.presaleMinimumCap hb :)
      have e2 : p1.totalDeposit = p.totalDeposit := (congrArg Presale.totalDeposit hb :)
      refine ⟨h2.1.trans h1.1, fun hm => ?_⟩
      exact (h2.2 (by rw [e1, e2]; exact hm)).trans (h1.2 hm)

/-! ## The moment a sale ends -/

/-- Nothing was paid out of the sale yet, and its escrows make up its totals. -/
structure Whole (a : Addr) (p : Presale) (es : AMap Addr Escrow) : Prop where
  dep : ∀ (i : Nat) r, p.registries[i]? = some r → esum es a i Escrow.totalDeposit = r.totalDeposit
  fee : ∀ (i : Nat) r, p.registries[i]? = some r → esum es a i Escrow.totalDepositFee = r.totalDepositFee
  refunded : p.totalRefundedQuoteToken = 0
  claimed : p.totalClaimedToken = 0
  fresh : ∀ x ∈ es, x.2.presale = a → x.2.isRemainingQuoteWithdrawn = 0 ∧ x.2.totalClaimedToken = 0

theorem PInv.whole {t : Nat} {a : Addr} {p : Presale} {es : AMap Addr Escrow} (P : PInv t a p es)
    (ht : t < p.presaleEndTime) : Whole a p es := by
  refine ⟨fun i r hr => (P.book.reg i r hr).depEq ht, fun i r hr => (P.book.reg i r hr).feeEq ht, ?_, ?_, ?_⟩
  · rw [P.book.totRef]
    refine lsum_zero (fun i r hr => ?_)
    exact (P.book.reg i r hr).refund0 ht
  · rw [P.book.totCl]
    refine lsum_zero (fun i r hr => ?_)
    exact (P.book.reg i r hr).claim0 (.inl ht)
  · intro x hx ha
    obtain ⟨r, _, E⟩ := P.book.esc x hx ha
    exact ⟨E.flag0 ht, (E.claim0 (.inl ht)).1⟩

/-- World `w` is the first in which sale `a` is over: one operation earlier it was not. -/
structure JustEnded (w : World) (a : Addr) (p : Presale) : Prop where
  reachable : Reachable w
  presale : w.presales a = some p
  over : Over p w.clock
  before : ∃ w0 op p0, Reachable w0 ∧ w = apply w0 op ∧ w0.presales a = some p0 ∧ ¬ Over p0 w0.clock

theorem JustEnded.whole {w : World} {a : Addr} {p : Presale} (J : JustEnded w a p) : Whole a p w.escrows := by
  obtain ⟨w0, op, p0, R0, hw, hp0, hno⟩ := J.before
  have W0 := R0.winv
  have S0 := W0.core.sale a p0 hp0
  have ht : w0.clock.toNat < p0.presaleEndTime := by
    rcases Nat.lt_or_ge w0.clock.toNat p0.presaleEndTime with h | h
    · exact h
    · exact absurd (S0.over.2 h) hno
  have hwhole := S0.pinv.whole ht
  have hp := J.presale
  have hov := J.over
  rcases apply_cases w0 op with h | ⟨rc, h⟩
  · rw [hw, h] at hp hov
    rw [hp0] at hp; cases hp
    exact absurd hov hno
  · rw [← hw] at h
    cases step_effect W0 h with
    | quiet h1 h2 h3 =>
      rw [h1, hp0] at hp; cases hp
      rw [h2]; exact hwhole
    | @create tx x q h1 h2 h3 h4 h5 h6 =>
      have hne : a ≠ x.presaleKey := by rintro rfl; rw [hp0] at h2; cases h2
      rw [h4, upd_other _ _ hne, hp0] at hp; cases hp
      rw [h5]; exact hwhole
    | @act tx i b q q' es' h1 h2 h3 h4 h5 h6 =>
      rw [h6] at hov
      by_cases hab : b = a
      · subst hab
        rw [hp0] at h2; cases h2
        rw [h4, upd_self] at hp; cases hp
        rcases h3.dates with hd | ⟨x, rfl, hx, _⟩
        · unfold Over at hov hno
          rw [hd.fin] at hov
          exact absurd hov hno
        · cases h3 with
          | @opened _ _ _ _ _ hop => exact absurd hop (by simp [Ix.opens])
          | @deposit _ e d hd quota r _ he hba _ F =>
            have S' := J.reachable.winv.core.sale _ _ (by rw [h4]; exact upd_self _ _ _ : w.presales b = some d.presale)
            have hbound := S'.pinv.book.bound
            rw [F.totals.1, F.totals.2.1] at hbound
            have hle := F.amount_le
            have P1 := S0.pinv.credited he hba F.open_ F.registry ⟨F.within.1, F.within.2⟩ hle.2.2.2.1
              hle.2.2.2.2 hbound
            have hw1 := P1.whole (show _ < _ from F.open_)
            rw [h5, F.escrow]
            rcases F.result with ⟨g, _⟩ | ⟨g, _⟩
            · rw [g]; exact ⟨hw1.dep, hw1.fee, hw1.refunded, hw1.claimed, hw1.fresh⟩
            · rw [g]; exact hw1
      · rw [h4, upd_other _ _ (Ne.symm hab), hp0] at hp; cases hp
        exact absurd hov hno

/-- Every ended sale ended at some point of the history. -/
theorem just_ended {w : World} (R : Reachable w) {a : Addr} {p : Presale} (hp : w.presales a = some p)
    (ho : Over p w.clock) : ∃ w1 p1 ops, JustEnded w1 a p1 ∧ w = run w1 ops := by
  obtain ⟨w0, ops, G, rfl⟩ := R
  induction ops using List.reverseRecOn generalizing p with
  | nil => rw [show run w0 [] = w0 from rfl, G.presales a] at hp; cases hp
  | append_singleton ops op ih =>
    have R0 : Reachable (run w0 ops) := ⟨w0, ops, G, rfl⟩
    have W := R0.winv
    rw [run_snoc] at hp ho
    have R1 : Reachable (apply (run w0 ops) op) := by rw [← run_snoc]; exact ⟨w0, _, G, rfl⟩
    cases h : (run w0 ops).presales a with
    | none =>
      exfalso
      rcases apply_cases (run w0 ops) op with h1 | ⟨rc, h1⟩
      · rw [h1, h] at hp; cases hp
      · cases step_effect W h1 with
        | quiet g1 g2 g3 => rw [g1, h] at hp; cases hp
        | @create tx x q g1 g2 g3 g4 g5 g6 =>
          rw [g4] at hp
          by_cases hx : a = x.presaleKey
          · subst hx
            rw [upd_self] at hp; cases hp
            rw [g6] at ho
            have h1 := g3.startAhead
            have h2 := g3.duration
            unfold Over at ho
            omega
          · rw [upd_other _ _ hx, h] at hp; cases hp
        | @act tx i b q q' es' g1 g2 g3 g4 g5 g6 =>
          rw [g4] at hp
          by_cases hx : a = b
          · subst hx; rw [h] at g2; cases g2
          · rw [upd_other _ _ hx, h] at hp; cases hp
    | some q =>
      by_cases hq : Over q (run w0 ops).clock
      · obtain ⟨w1, p1, ops', J, hw⟩ := ih h hq
        exact ⟨w1, p1, ops' ++ [op], J, by rw [run_snoc, run_snoc, hw]⟩
      · exact ⟨_, p, [], ⟨R1, hp, ho, run w0 ops, op, q, R0, rfl, h, hq⟩, by rw [run_snoc]; rfl⟩

/-! ## How much rounding can leave behind -/

/-- Shares rounded down miss the whole by less than one unit per share. -/
theorem esum_floor_ge (es : AMap Addr Escrow) (a : Addr) (i : Nat) (g : Escrow → Nat) (S : Nat) {T : Nat}
    (hT : 0 < T) :
    S * esum es a i g ≤ T * (esum es a i (fun e => g e * S / T) + esum es a i (fun _ => 1)) := by
  induction es with
  | nil => simp [AMap.sumBy]
  | cons x es ih =>
    have c : ∀ f : Escrow → Nat, esum (x :: es) a i f = only a i f x.2 + esum es a i f :=
      fun f => AMap.sumBy_cons _ _ _
    rw [c, c, c]
    have key : S * only a i g x.2 ≤ T * (only a i (fun e => g e * S / T) x.2 + only a i (fun _ => 1) x.2) := by
      unfold only
      by_cases h : x.2.presale = a ∧ x.2.registryIndex = i
      · rw [if_pos h, if_pos h, if_pos h, Nat.mul_comm S]
        have := Nat.div_add_mod (g x.2 * S) T
        have := Nat.mod_lt (g x.2 * S) hT
        rw [Nat.mul_add]
        show g x.2 * S ≤ T * (g x.2 * S / T) + T * 1
        omega
      · rw [if_neg h]; exact Nat.zero_le _
    have e1 := Nat.mul_add S (only a i g x.2) (esum es a i g)
    have e2 := Nat.mul_add T (only a i (fun e => g e * S / T) x.2 + only a i (fun _ => 1) x.2)
      (esum es a i (fun e => g e * S / T) + esum es a i (fun _ => 1))
    have e3 : only a i (fun e => g e * S / T) x.2 + esum es a i (fun e => g e * S / T) +
        (only a i (fun _ => 1) x.2 + esum es a i (fun _ => 1)) =
        (only a i (fun e => g e * S / T) x.2 + only a i (fun _ => 1) x.2) +
        (esum es a i (fun e => g e * S / T) + esum es a i (fun _ => 1)) := by omega
    rw [e3]
    omega

/-- Shares of the whole: `S` is split up to less than one unit per share. -/
theorem esum_shares (es : AMap Addr Escrow) (a : Addr) (i : Nat) (g : Escrow → Nat) {S T : Nat}
    (hT : T = 0 → S = 0) (hg : esum es a i g = T) :
    S ≤ esum es a i (fun e => g e * S / T) + esum es a i (fun _ => 1) := by
  by_cases h0 : T = 0
  · rw [hT h0]; exact Nat.zero_le _
  · have hpos := Nat.pos_of_ne_zero h0
    have := esum_floor_ge es a i g S hpos
    rw [hg, Nat.mul_comm S T] at this
    exact Nat.le_of_mul_le_mul_left this hpos

/-- The surplus is split among registries up to less than one unit per registry. -/
theorem lsum_floor_ge (S : Nat) {D : Nat} (hD : 0 < D) (l : List Registry) :
    S * lsum Registry.totalDeposit l ≤
      D * (lsum (fun r => S * r.totalDeposit / D) l + lsum (fun r => if r.totalDeposit = 0 then 0 else 1) l) := by
  induction l with
  | nil => simp [lsum]
  | cons r l ih =>
    rw [lsum_cons, lsum_cons, lsum_cons]
    have key : S * r.totalDeposit ≤ D * (S * r.totalDeposit / D + if r.totalDeposit = 0 then 0 else 1) := by
      by_cases h : r.totalDeposit = 0
      · rw [h, Nat.mul_zero]; exact Nat.zero_le _
      · rw [if_neg h, Nat.mul_add]
        have := Nat.div_add_mod (S * r.totalDeposit) D
        have := Nat.mod_lt (S * r.totalDeposit) hD
        omega
    have e1 := Nat.mul_add S r.totalDeposit (lsum Registry.totalDeposit l)
    have e2 := Nat.mul_add D (S * r.totalDeposit / D + if r.totalDeposit = 0 then 0 else 1)
      (lsum (fun r => S * r.totalDeposit / D) l + lsum (fun r => if r.totalDeposit = 0 then 0 else 1) l)
    have e3 : S * r.totalDeposit / D + lsum (fun r => S * r.totalDeposit / D) l +
        ((if r.totalDeposit = 0 then 0 else 1) + lsum (fun r => if r.totalDeposit = 0 then 0 else 1) l) =
        (S * r.totalDeposit / D + if r.totalDeposit = 0 then 0 else 1) +
        (lsum (fun r => S * r.totalDeposit / D) l + lsum (fun r => if r.totalDeposit = 0 then 0 else 1) l) := by
      omega
    rw [e3]
    omega

end Verif
