import Verif.Lemmas.End
import Verif.Props.Refunds
/-!
# Closing escrows
-/

namespace Verif
open Spec

/-! ## C29 -/

/-- Nothing is owed to the owner of `e`: the whole deposit left an open sale, the refund of a failed sale was
taken or empty, the whole entitlement of a completed sale was claimed and its refund taken or empty. -/
structure NothingOwed (now : Int) (p : Presale) (r : Registry) (e : Escrow) : Prop where
  open_ : ¬ Over p now → e.totalDeposit = 0 ∧ e.totalDepositFee = 0
  failed : Failed p now → e.isRemainingQuoteWithdrawn = 1 ∨ (e.totalDeposit = 0 ∧ e.totalDepositFee = 0)
  completed : Completed p now → e.totalClaimedToken = entitlement p r e ∧
    (e.isRemainingQuoteWithdrawn = 1 ∨ (refundDeposit p r e = 0 ∧ refundFee p r e = 0))

theorem settled_iff {w : World} {a : Addr} {p : Presale} {r : Registry} {e : Escrow}
    (S : Sale w.clock w.escrows w.tk a p) :
    Settled w.clock.toNat p r e ↔ NothingOwed w.clock p r e := by
  unfold Settled
  by_cases ht : w.clock.toNat < p.presaleEndTime
  · rw [if_pos ht]
    have hno : ¬ Over p w.clock := fun h => by have := S.over.1 h; omega
    exact ⟨fun h => ⟨fun _ => h, fun h' => absurd h'.1 hno, fun h' => absurd h'.1 hno⟩, fun h => h.open_ hno⟩
  · rw [if_neg ht]
    have ho : Over p w.clock := S.over.2 (by omega)
    rw [outstanding_zero]
    by_cases hmin : p.presaleMinimumCap ≤ p.totalDeposit
    · have e1 : owedRefund p r e = refundDeposit p r e + refundFee p r e := by
        unfold owedRefund; rw [if_neg (by omega)]
      rw [e1]
      constructor
      · rintro ⟨h1, h2⟩
        exact ⟨fun h => absurd ho h, fun h => by have := h.2; omega, fun _ => ⟨h2 hmin, by omega⟩⟩
      · intro h
        have := h.completed ⟨ho, hmin⟩
        exact ⟨by omega, fun _ => this.1⟩
    · have e1 : owedRefund p r e = e.totalDeposit + e.totalDepositFee := by
        unfold owedRefund; rw [if_pos (by omega)]
      rw [e1]
      constructor
      · rintro ⟨h1, h2⟩
        exact ⟨fun h => absurd ho h, fun _ => by omega, fun h => absurd h.2 hmin⟩
      · intro h
        have := h.failed ⟨ho, by omega⟩
        exact ⟨by omega, fun h => absurd h hmin⟩

/-- **C29.** An escrow is closed only by its owner and only when nothing is owed; no token moves, and nothing
but the escrow account and the two counters of its sale changes. -/
theorem C29_close {w : World} (R : Reachable w) {tx : Tx} {x : CloseEscrowAcc} {w' : World} {rc : Receipt}
    (h : step w (.ix tx (.closeEscrow x)) = .ok (w', rc)) :
    ∃ p e r, w.presales x.presale = some p ∧ w.escrows.get? x.escrow = some e ∧
      p.registries[e.registryIndex]? = some r ∧ e.presale = x.presale ∧ tx.signed e.owner = true ∧
      NothingOwed w.clock p r e ∧
      w'.escrows.get? x.escrow = none ∧ (∀ k, k ≠ x.escrow → w'.escrows.get? k = w.escrows.get? k) ∧
      w'.presales x.presale = some { p with
        registries := p.registries.set e.registryIndex { r with totalEscrow := r.totalEscrow - 1 },
        totalEscrow := p.totalEscrow - 1 } ∧
      (∀ b, b ≠ x.presale → w'.presales b = w.presales b) ∧ w'.tk = w.tk ∧ w'.clock = w.clock := by
  have W := R.winv
  obtain ⟨p, e, p', F⟩ := handleCloseEscrow_iff.1 h
  have S := W.core.sale _ _ F.presale
  obtain ⟨r, hr, _, _, rfl⟩ := decreaseEscrowCount_iff.1 F.update
  have hset := (S.pinv.closeChecks_iff F.escrow F.belongs.1 hr).1 F.checks
  obtain rfl := F.post
  refine ⟨p, e, r, F.presale, F.escrow, hr, F.belongs.1, by rw [F.belongs.2]; exact F.signed,
    (settled_iff S).1 hset, ?_, ?_, upd_self _ _ _, fun b hb => upd_other _ _ hb, rfl, rfl⟩
  · exact (AMap.get?_erase W.core.nodup x.escrow x.escrow).trans (if_pos rfl)
  · intro k hk
    exact (AMap.get?_erase W.core.nodup x.escrow k).trans (if_neg hk)

/-! ## C30 -/

/-- **C30.** The owner of an escrow to which nothing is owed can close it: no outside condition at all, except
that the rent goes to another account. -/
theorem C30_close_succeeds {w : World} (R : Reachable w) {tx : Tx} {x : CloseEscrowAcc} {p : Presale} {e : Escrow}
    {r : Registry} (hp : w.presales x.presale = some p) (hk : w.escrows.get? x.escrow = some e)
    (ha : e.presale = x.presale) (ho : x.owner = e.owner) (hs : tx.signed e.owner = true)
    (hx : x.rentReceiver ≠ x.escrow) (hr : p.registries[e.registryIndex]? = some r) (hn : NothingOwed w.clock p r e) :
    ∃ w' rc, step w (.ix tx (.closeEscrow x)) = .ok (w', rc) := by
  have S := R.winv.core.sale _ _ hp
  have hc := (S.pinv.closeChecks_iff hk ha hr).2 ((settled_iff S).2 hn)
  have h1 : 1 ≤ r.totalEscrow := by
    rw [(S.pinv.book.reg _ _ hr).count]
    exact le_esum (f := fun _ => 1) (AMap.get?_mem hk) ha rfl
  have h2 : 1 ≤ p.totalEscrow := by
    rw [S.pinv.book.totEsc]
    exact Nat.le_trans h1 (le_lsum (g := Registry.totalEscrow) hr)
  exact ⟨_, _, handleCloseEscrow_iff.2 ⟨p, e, _,
    { presale := hp, escrow := hk, belongs := ⟨ha, ho.symm⟩, receiver := hx, signed := by rw [ho]; exact hs,
      clock := S.clock, checks := hc, update := decreaseEscrowCount_iff.2 ⟨r, hr, h1, h2, rfl⟩,
      post := rfl, receipt := rfl }⟩⟩

/-- **C30.** After a claim made when vesting had ended, the escrow can be closed at any later moment, once the
refund was taken or none is due. -/
theorem C30_close_after_claim {w w1 : World} (R : Reachable w) {tx : Tx} {x : ClaimAcc} {rc : Receipt}
    (h : step w (.ix tx (.claim x)) = .ok (w1, rc)) {p : Presale} (hp : w.presales x.presale = some p)
    (hvest : ((p.vestingStartTime + p.vestDuration : Nat) : Int) ≤ w.clock) (ops : List Op) {e2 : Escrow}
    {p2 : Presale} {r2 : Registry} (hk : (run w1 ops).escrows.get? x.escrow = some e2)
    (hp2 : (run w1 ops).presales x.presale = some p2) (hr2 : p2.registries[e2.registryIndex]? = some r2)
    (href : e2.isRemainingQuoteWithdrawn = 1 ∨ owedRefund p2 r2 e2 = 0)
    {tx' : Tx} (hs : tx'.signed e2.owner = true) (rent : Addr) (hrent : rent ≠ x.escrow) :
    ∃ w' rc', step (run w1 ops) (.ix tx' (.closeEscrow ⟨x.presale, x.escrow, e2.owner, rent⟩)) =
      .ok (w', rc') := by
  have R1 := R.step h
  have R2 := R1.run ops
  obtain ⟨q, p1, e, e1, r, r1, n, D⟩ := C13_claim R h
  have h0 := D.presale
  rw [hp] at h0; cases h0
  have hclk := D.clock
  have S := R.winv.core.sale _ _ hp
  have S1 := R1.winv.core.sale _ _ D.presale'
  have S2 := R2.winv.core.sale _ _ hp2
  have hb1 : books p1 = books p := by
    rw [D.presaleNow, D.registryNow]
    exact books_claimed D.registry
  have ho1 : Over p1 w1.clock := by
    have : p1.presaleEndTime = p.presaleEndTime := by rw [D.presaleNow]
    unfold Over; rw [hclk, this]; exact D.completed.1
  have hpe : e2.presale = x.presale := by
    rw [escrow_presale R1 R2 D.escrow' hk, D.escrowNow]; exact D.owner.1
  obtain ⟨e1', he1', A⟩ := run_after R1.winv ops D.presale' ho1 hk hpe
  rw [D.escrow'] at he1'; cases he1'
  obtain ⟨p2', hp2', L⟩ := run_later R1.winv ops D.presale'
  rw [hp2] at hp2'; cases hp2'
  have hb2 : books p2 = books p := (L.frozen ho1).trans hb1
  have hid : e2.registryIndex = e.registryIndex := by
    rw [A.identity.index, D.escrowNow]
  obtain ⟨r2', hr2', hrb⟩ := books_reg hb2 D.registry
  rw [hid] at hr2
  rw [hr2] at hr2'; cases hr2'
  have hdep : e2.totalDeposit = e.totalDeposit := by rw [A.deposit, D.escrowNow]
  have hent : entitlement p2 r2 e2 = entitlement p r e := entitlement_congr hb2 hrb hdep
  have ho2 := L.over ho1
  have hmin : p2.presaleMinimumCap ≤ p2.totalDeposit := by
    have e1 : p2.presaleMinimumCap = p.presaleMinimumCap := (congrArg Presale.presaleMinimumCap hb2 :)
    have e2 : p2.totalDeposit = p.totalDeposit := (congrArg Presale.totalDeposit hb2 :)
    rw [e1, e2]; exact D.completed.2
  have hclaimed : e2.totalClaimedToken = entitlement p2 r2 e2 := by
    obtain ⟨r2', hr2', E2⟩ := S2.pinv.escBook hk hpe
    rw [hid, hr2] at hr2'; cases hr2'
    have h1 := E2.claimed_le S2.pinv.sched (S2.over.1 ho2) hmin
    have h2 := A.claimed
    rw [D.total] at h2
    have h3 := claimableAt_vestingEnd S.pinv.sched r e
    have h4 := claimableAt_mono p r e (show p.vestingStartTime + p.vestDuration ≤ w.clock.toNat by omega)
    omega
  refine C30_close_succeeds R2 hp2 hk hpe rfl hs hrent (by rw [hid]; exact hr2)
    ⟨fun h => absurd ho2 h, fun h => by have := h.2; omega, fun _ => ⟨hclaimed, ?_⟩⟩
  rcases href with h | h
  · exact .inl h
  · refine .inr ?_
    unfold owedRefund at h
    rw [if_neg (by omega)] at h
    omega

/-- **C30.** After its refund from a failed sale an escrow can be closed at any later moment. -/
theorem C30_close_after_refund {w w1 : World} (R : Reachable w) {tx : Tx} {x : RefundAcc} {rc : Receipt}
    (h : step w (.ix tx (.refund x)) = .ok (w1, rc)) {p : Presale} (hp : w.presales x.presale = some p)
    (hf : Failed p w.clock) (ops : List Op) {e2 : Escrow}
    (hk : (run w1 ops).escrows.get? x.escrow = some e2)
    {tx' : Tx} (hs : tx'.signed e2.owner = true) (rent : Addr) (hrent : rent ≠ x.escrow) :
    ∃ w' rc', step (run w1 ops) (.ix tx' (.closeEscrow ⟨x.presale, x.escrow, e2.owner, rent⟩)) =
      .ok (w', rc') := by
  have R1 := R.step h
  have R2 := R1.run ops
  obtain ⟨q, p1, e, e1, r, r1, n, D⟩ := refund_spec R h
  have h0 := D.presale
  rw [hp] at h0; cases h0
  have ho1 : Over p1 w1.clock := by
    have : p1.presaleEndTime = p.presaleEndTime := by rw [D.presaleNow]
    unfold Over; rw [D.clock, this]; exact hf.1
  have hpe : e2.presale = x.presale := by
    rw [escrow_presale R1 R2 D.escrow' hk, D.escrowNow]; exact D.owner.1
  obtain ⟨e1', he1', A⟩ := run_after R1.winv ops D.presale' ho1 hk hpe
  rw [D.escrow'] at he1'; cases he1'
  obtain ⟨p2, hp2, L⟩ := run_later R1.winv ops D.presale'
  have S2 := R2.winv.core.sale _ _ hp2
  obtain ⟨r2, hr2, E2⟩ := S2.pinv.escBook hk hpe
  have ho2 := L.over ho1
  have hb := L.frozen ho1
  have hmin : p2.totalDeposit < p2.presaleMinimumCap := by
    have e1 : p2.presaleMinimumCap = p1.presaleMinimumCap := (congrArg Presale.presaleMinimumCap hb :)
    have e2 : p2.totalDeposit = p1.totalDeposit := (congrArg Presale.totalDeposit hb :)
    rw [e1, e2, D.presaleNow]; exact hf.2
  exact C30_close_succeeds R2 hp2 hk hpe rfl hs hrent hr2
    ⟨fun h => absurd ho2 h, fun _ => .inl (A.flag (by rw [D.escrowNow])), fun h => by have := h.2; omega⟩

/-- **C30**, completed sale after vesting: claim, take the refund if one is due, close. Each step succeeds,
given usable destination accounts for the payments that are due. -/
theorem C30_windup_completed {w : World} (R : Reachable w) {tx1 tx2 tx3 : Tx} {x : ClaimAcc} {y : RefundAcc}
    {p : Presale} {e : Escrow} {r : Registry} (hp : w.presales x.presale = some p)
    (hk : w.escrows.get? x.escrow = some e) (ha : e.presale = x.presale) (ho : x.owner = e.owner)
    (hc : Completed p w.clock) (hvest : ((p.vestingStartTime + p.vestDuration : Nat) : Int) ≤ w.clock)
    (hr : p.registries[e.registryIndex]? = some r)
    (hs : tx1.signed e.owner = true ∧ tx2.signed e.owner = true ∧ tx3.signed e.owner = true)
    (hv : x.baseTokenVault = p.baseTokenVault) (hm : x.baseMint = p.baseMint)
    (hpay : Payable w.tk tx1 .transferHookBase p.baseMint p.baseTokenVault x.ownerBaseToken x.tokenProgram
      x.remaining x.slices (entitlement p r e - e.totalClaimedToken))
    (hy : y.presale = x.presale ∧ y.escrow = x.escrow ∧ y.owner = e.owner ∧
      y.quoteTokenVault = p.quoteTokenVault ∧ y.quoteMint = p.quoteMint)
    (hpay' : e.isRemainingQuoteWithdrawn = 0 → p.presaleMode = 1 → ∀ w1 rc, step w (.ix tx1 (.claim x)) = .ok (w1, rc) →
      Payable w1.tk tx2 .transferHookQuote p.quoteMint p.quoteTokenVault y.ownerQuoteToken y.tokenProgram
        y.remaining y.slices (owedRefund p r e)) (rent : Addr) (hrent : rent ≠ x.escrow) :
    ∃ w1 rc1 w2, step w (.ix tx1 (.claim x)) = .ok (w1, rc1) ∧
      ((e.isRemainingQuoteWithdrawn = 0 ∧ p.presaleMode = 1 ∧
          ∃ rc2, step w1 (.ix tx2 (.refund y)) = .ok (w2, rc2)) ∨
        ((e.isRemainingQuoteWithdrawn = 1 ∨ p.presaleMode ≠ 1) ∧ w2 = w1)) ∧
      ∃ w3 rc3, step w2 (.ix tx3 (.closeEscrow ⟨x.presale, x.escrow, e.owner, rent⟩)) = .ok (w3, rc3) ∧
        w3.escrows.get? x.escrow = none := by
  have S := R.winv.core.sale _ _ hp
  obtain ⟨r', hr', E⟩ := S.pinv.escBook hk ha
  rw [hr] at hr'; cases hr'
  have hfull : claimableAt p r e w.clock.toNat = entitlement p r e := by
    have h3 := claimableAt_vestingEnd S.pinv.sched r e
    have h4 := claimableAt_mono p r e (show p.vestingStartTime + p.vestDuration ≤ w.clock.toNat by omega)
    have h5 := claimableAt_le_entitlement S.pinv.sched r e w.clock.toNat
    omega
  obtain ⟨w1, rc1, h1⟩ := C26_claim_succeeds R hp hk ha ho hs.1 hc hr hv hm (by rw [hfull]; exact hpay)
  have R1 := R.step h1
  obtain ⟨q, p1, f, e1, r0, r1, n, D⟩ := C13_claim R h1
  have h0 := D.presale
  rw [hp] at h0; cases h0
  have h0 := D.escrow
  rw [hk] at h0; cases h0
  have h0 := D.registry
  rw [hr] at h0; cases h0
  have hb1 : books p1 = books p := by
    rw [D.presaleNow, D.registryNow]; exact books_claimed D.registry
  have hrb : registryBooks r1 = registryBooks r := by rw [D.registryNow]; rfl
  have hid : e1.registryIndex = e.registryIndex := by rw [D.escrowNow]
  have hc1 : Completed p1 w1.clock := by
    have t1 : p1.presaleEndTime = p.presaleEndTime := by rw [D.presaleNow]
    have t2 : p1.presaleMinimumCap = p.presaleMinimumCap := by rw [D.presaleNow]
    have t3 : p1.totalDeposit = p.totalDeposit := by rw [D.presaleNow]
    unfold Completed Over
    rw [D.clock, t1, t2, t3]; exact hc
  have hm1 : p1.presaleMode = p.presaleMode := by rw [D.presaleNow]
  have hf1 : e1.isRemainingQuoteWithdrawn = e.isRemainingQuoteWithdrawn := by rw [D.escrowNow]
  have ho1 : e1.owner = e.owner := by rw [D.escrowNow]
  have hp1e : e1.presale = x.presale := by rw [D.escrowNow]; exact ha
  have howe : owedRefund p1 r1 e1 = owedRefund p r e :=
    owedRefund_congr hb1 hrb (by rw [D.escrowNow]) (by rw [D.escrowNow])
  have hfl := E.flag
  by_cases hq : e.isRemainingQuoteWithdrawn = 0 ∧ p.presaleMode = 1
  · have hqv : p1.quoteTokenVault = p.quoteTokenVault := by rw [D.presaleNow]
    have hqm : p1.quoteMint = p.quoteMint := by rw [D.presaleNow]
    obtain ⟨w2, rc2, h2⟩ := C27_refund_succeeds (x := y) (tx := tx2) R1 (by rw [hy.1]; exact D.presale')
      (by rw [hy.2.1]; exact D.escrow') (by rw [hp1e, hy.1]) (by rw [hy.2.2.1, ho1])
      (by rw [ho1]; exact hs.2.1) (.inr ⟨hc1, by rw [hm1]; exact hq.2⟩) (by rw [hf1]; exact hq.1)
      (by rw [hid]; exact D.registry') (by rw [hqv]; exact hy.2.2.2.1) (by rw [hqm]; exact hy.2.2.2.2)
      (by rw [howe, hqm, hqv]; exact hpay' hq.1 hq.2 w1 rc1 h1)
    obtain ⟨q1, p2, f1, e2, r1', r2, n2, D2⟩ := refund_spec R1 h2
    have hw2 : run w1 [.ix tx2 (.refund y)] = w2 := by
      show Verif.apply w1 _ = w2
      exact apply_ok h2
    have hk2 : (run w1 [.ix tx2 (.refund y)]).escrows.get? x.escrow = some e2 := by
      rw [hw2, ← hy.2.1]; exact D2.escrow'
    have hp2 : (run w1 [.ix tx2 (.refund y)]).presales x.presale = some p2 := by
      rw [hw2, ← hy.1]; exact D2.presale'
    have h0 := D2.escrow
    rw [hy.2.1, D.escrow'] at h0; cases h0
    have ho2 : e2.owner = e.owner := by rw [D2.escrowNow]; exact ho1
    have hi2 : e2.registryIndex = e1.registryIndex := by rw [D2.escrowNow]
    obtain ⟨w3, rc3, h3⟩ := C30_close_after_claim R h1 hp hvest [.ix tx2 (.refund y)] hk2 hp2
      (by rw [hi2]; exact D2.registry') (.inl (by rw [D2.escrowNow])) (tx' := tx3)
      (by rw [ho2]; exact hs.2.2) rent hrent
    rw [hw2, ho2] at h3
    obtain ⟨_, _, _, _, _, _, _, _, _, hgone, _⟩ := C29_close (R1.step h2) h3
    exact ⟨w1, rc1, w2, h1, .inl ⟨hq.1, hq.2, rc2, h2⟩, w3, rc3, h3, hgone⟩
  · have hq' : e.isRemainingQuoteWithdrawn = 1 ∨ p.presaleMode ≠ 1 := by omega
    obtain ⟨w3, rc3, h3⟩ := C30_close_after_claim R h1 hp hvest [] (e2 := e1) (p2 := p1) (r2 := r1)
      D.escrow' D.presale' (by rw [hid]; exact D.registry')
      (by
        rcases hq' with h | h
        · exact .inl (by rw [hf1]; exact h)
        · exact .inr (by rw [howe]; exact owed_zero_of_mode h hc.2)) (tx' := tx3)
      (by rw [ho1]; exact hs.2.2) rent hrent
    have h3' : step w1 (.ix tx3 (.closeEscrow ⟨x.presale, x.escrow, e.owner, rent⟩)) = .ok (w3, rc3) := by
      rw [← ho1]; exact h3
    obtain ⟨_, _, _, _, _, _, _, _, _, hgone, _⟩ := C29_close R1 h3'
    exact ⟨w1, rc1, w1, h1, .inr ⟨hq', rfl⟩, w3, rc3, h3', hgone⟩

/-- **C30**, failed sale: refund and close. -/
theorem C30_windup_failed {w : World} (R : Reachable w) {tx1 tx2 : Tx} {x : RefundAcc}
    {p : Presale} {e : Escrow} {r : Registry} (hp : w.presales x.presale = some p)
    (hk : w.escrows.get? x.escrow = some e) (ha : e.presale = x.presale) (ho : x.owner = e.owner)
    (hs : tx1.signed e.owner = true ∧ tx2.signed e.owner = true) (hf : Failed p w.clock)
    (hfirst : e.isRemainingQuoteWithdrawn = 0) (hr : p.registries[e.registryIndex]? = some r)
    (hv : x.quoteTokenVault = p.quoteTokenVault) (hm : x.quoteMint = p.quoteMint)
    (hpay : Payable w.tk tx1 .transferHookQuote p.quoteMint p.quoteTokenVault x.ownerQuoteToken x.tokenProgram
      x.remaining x.slices (e.totalDeposit + e.totalDepositFee)) (rent : Addr) (hrent : rent ≠ x.escrow) :
    ∃ w1 rc1 w2 rc2, step w (.ix tx1 (.refund x)) = .ok (w1, rc1) ∧
      step w1 (.ix tx2 (.closeEscrow ⟨x.presale, x.escrow, e.owner, rent⟩)) = .ok (w2, rc2) ∧
      w2.escrows.get? x.escrow = none := by
  have howe : owedRefund p r e = e.totalDeposit + e.totalDepositFee := by
    unfold owedRefund; rw [if_pos hf.2]
  obtain ⟨w1, rc1, h1⟩ := C27_refund_succeeds R hp hk ha ho hs.1 (.inl hf) hfirst hr hv hm
    (by rw [howe]; exact hpay)
  obtain ⟨q, p1, f, e1, r0, r1, n, D⟩ := refund_spec R h1
  have h0 := D.escrow
  rw [hk] at h0; cases h0
  have ho1 : e1.owner = e.owner := by rw [D.escrowNow]
  obtain ⟨w2, rc2, h2⟩ := C30_close_after_refund R h1 hp hf [] D.escrow' (tx' := tx2)
    (by rw [ho1]; exact hs.2) rent hrent
  have h2' : step w1 (.ix tx2 (.closeEscrow ⟨x.presale, x.escrow, e.owner, rent⟩)) = .ok (w2, rc2) := by
    rw [← ho1]; exact h2
  obtain ⟨_, _, _, _, _, _, _, _, _, hgone, _⟩ := C29_close (R.step h1) h2'
  exact ⟨w1, rc1, w2, rc2, h1, h2', hgone⟩

namespace Ex

/-- Closing is refused before everything was taken, and possible afterwards. -/
example : works prorataVested (closeEscrow alice) = false ∧
    works (run prorataVested [claim alice aliceBase]) (closeEscrow alice) = false ∧
    works (run prorataVested [refund alice aliceQuote]) (closeEscrow alice) = false ∧
    works (run prorataVested [claim alice aliceBase, refund alice aliceQuote]) (closeEscrow alice) = true ∧
    works (run fixedVested [claim alice aliceBase]) (closeEscrow alice) = true ∧
    works failedDone (closeEscrow alice) = false ∧
    works (run failedDone [refund alice aliceQuote]) (closeEscrow alice) = true ∧
    works prorataOpen (closeEscrow alice) = false := by
  decide +kernel

end Ex

end Verif
