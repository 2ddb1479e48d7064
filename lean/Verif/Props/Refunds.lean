import Verif.Props.Claims
/-!
# Refunds
-/

namespace Verif
open Spec

/-- What a successful refund of `n` did. -/
structure Refunded (w w' : World) (tx : Tx) (x : RefundAcc) (p p' : Presale) (e e' : Escrow)
    (r r' : Registry) (n : Nat) : Prop where
  presale : w.presales x.presale = some p
  presale' : w'.presales x.presale = some p'
  escrow : w.escrows.get? x.escrow = some e
  escrow' : w'.escrows.get? x.escrow = some e'
  registry : p.registries[e.registryIndex]? = some r
  registry' : p'.registries[e.registryIndex]? = some r'
  /-- only the owner of the escrow, once, after a failed or a pro-rata sale -/
  owner : e.presale = x.presale ∧ e.owner = x.owner ∧ tx.signed e.owner = true
  first : e.isRemainingQuoteWithdrawn = 0
  phase : Failed p w.clock ∨ (Completed p w.clock ∧ p.presaleMode = 1)
  amount : n = owedRefund p r e
  /-- what is recorded -/
  escrowNow : e' = { e with isRemainingQuoteWithdrawn := 1 }
  registryNow : r' = { r with totalRefundedQuoteToken := r.totalRefundedQuoteToken + n }
  presaleNow : p' = { p with registries := p.registries.set e.registryIndex r',
                             totalRefundedQuoteToken := p.totalRefundedQuoteToken + n }
  clock : w'.clock = w.clock
  /-- what is paid -/
  moved : (n = 0 ∧ w'.tk = w.tk) ∨
    (0 < n ∧ Transferred w.tk w'.tk p.quoteMint p.quoteTokenVault x.ownerQuoteToken n)

/-- `refund_spec` from the invariant alone (see C98). -/
theorem refund_spec_of {w : World} (W : WInv w) {tx : Tx} {x : RefundAcc} {w' : World} {rc : Receipt}
    (h : step w (.ix tx (.refund x)) = .ok (w', rc)) :
    ∃ p p' e e' r r' n, Refunded w w' tx x p p' e e' r r' n := by
  obtain ⟨p, m, e, q, p', hooks, rest, ex, F⟩ := handleRefund_iff.1 h
  have S := W.core.sale _ _ F.presale
  obtain ⟨r, hr, E⟩ := S.pinv.escBook F.escrow F.belongs.1
  have htot := S.pinv.refundTotal F.escrow F.belongs.1 hr F.quote
  obtain ⟨r0, hr0, _, _, rfl⟩ := updateRefunded_iff.1 F.update
  rw [hr] at hr0
  cases hr0
  obtain ⟨_, hover, hwhy⟩ := refundQuote_phase F.quote
  have hphase : Failed p w.clock ∨ (Completed p w.clock ∧ p.presaleMode = 1) := by
    rcases hwhy with h1 | ⟨h1, h2⟩
    · exact .inl ⟨S.over.2 hover, h1⟩
    · exact .inr ⟨⟨S.over.2 hover, h1⟩, h2⟩
  have hfirst : e.isRemainingQuoteWithdrawn = 0 := by
    have h1 := F.fresh
    have h2 := E.flag
    unfold Escrow.remainingQuoteWithdrawn at h1
    have h3 : e.isRemainingQuoteWithdrawn ≠ 1 := by simpa using h1
    omega
  have hmint : p.quoteMint = x.quoteMint := F.vault.2
  have hvault : p.quoteTokenVault = x.quoteTokenVault := F.vault.1
  have hlt := (List.getElem?_eq_some_iff.1 hr).1
  have hown : e.presale = x.presale ∧ e.owner = x.owner ∧ tx.signed e.owner = true :=
    ⟨F.belongs.1, F.belongs.2, by rw [F.belongs.2]; exact F.signed⟩
  rcases F.out with ⟨hpos, tk, cpi, htr, rfl, _⟩ | ⟨hz, rfl, _⟩
  · exact ⟨p, _, e, _, r, _, q.refundDepositAmount + q.refundFeeAmount,
      { presale := F.presale, presale' := upd_self _ _ _, escrow := F.escrow,
        escrow' := (AMap.get?_set _ _ _ _).trans (if_pos rfl), registry := hr,
        registry' := List.getElem?_set_self hlt, owner := hown, first := hfirst, phase := hphase,
        amount := htot, escrowNow := rfl, registryNow := rfl, presaleNow := rfl, clock := rfl,
        moved := .inr ⟨hpos, by rw [hmint, hvault]; exact transfer_spec (W.core.feeOk _) htr⟩ }⟩
  · exact ⟨p, _, e, _, r, _, q.refundDepositAmount + q.refundFeeAmount,
      { presale := F.presale, presale' := upd_self _ _ _, escrow := F.escrow,
        escrow' := (AMap.get?_set _ _ _ _).trans (if_pos rfl), registry := hr,
        registry' := List.getElem?_set_self hlt, owner := hown, first := hfirst, phase := hphase,
        amount := htot, escrowNow := rfl, registryNow := rfl, presaleNow := rfl, clock := rfl,
        moved := .inl ⟨hz, rfl⟩ }⟩

theorem refund_spec {w : World} (R : Reachable w) {tx : Tx} {x : RefundAcc} {w' : World} {rc : Receipt}
    (h : step w (.ix tx (.refund x)) = .ok (w', rc)) :
    ∃ p p' e e' r r' n, Refunded w w' tx x p p' e e' r r' n :=
  refund_spec_of R.winv h

/-- Escrows are stored at the address derived from their presale. -/
theorem escrow_presale {w : World} (R : Reachable w) {w' : World} (R' : Reachable w') {k : Addr} {e e' : Escrow}
    (h : w.escrows.get? k = some e) (h' : w'.escrows.get? k = some e') : e'.presale = e.presale := by
  have h1 := (R.winv.core.esc (k, e) (AMap.get?_mem h)).1
  have h2 := (R'.winv.core.esc (k, e') (AMap.get?_mem h')).1
  have h3 : k = .escrow e.presale e.owner e.registryIndex := h1
  have h4 : k = .escrow e'.presale e'.owner e'.registryIndex := h2
  rw [h3] at h4
  injection h4 with h5
  exact h5.symm

/-- **C19**, **C20**: once refunded, an escrow can never be refunded again, whatever happens in between. -/
theorem C19_refund_once {w : World} (R : Reachable w) {tx : Tx} {x : RefundAcc} {w1 : World} {rc : Receipt}
    (h : step w (.ix tx (.refund x)) = .ok (w1, rc)) (ops : List Op) (tx' : Tx) (x' : RefundAcc)
    (hx : x'.escrow = x.escrow) : ∃ err, step (run w1 ops) (.ix tx' (.refund x')) = .error err := by
  cases hs : step (run w1 ops) (.ix tx' (.refund x')) with
  | error err => exact ⟨err, rfl⟩
  | ok res =>
    have R1 := R.step h
    obtain ⟨p, p', e, e', r, r', n, D⟩ := refund_spec R h
    obtain ⟨q, q', f, f', s, s', m, D'⟩ := refund_spec (R1.run ops) hs
    have hover : Over p' w1.clock := by
      have : p'.presaleEndTime = p.presaleEndTime := by rw [D.presaleNow]
      unfold Over
      rw [D.clock, this]
      rcases D.phase with h1 | h1
      · exact h1.1
      · exact h1.1.1
    have hf := D'.escrow
    rw [hx] at hf
    have hfp : f.presale = x.presale := by
      rw [escrow_presale R1 (R1.run ops) D.escrow' hf, D.escrowNow]; exact D.owner.1
    obtain ⟨e1, he1, A⟩ := run_after R1.winv ops D.presale' hover hf hfp
    rw [D.escrow'] at he1
    cases he1
    have h1 := A.flag (by rw [D.escrowNow])
    have h2 := D'.first
    omega

/-- **C19.** After a failed sale a refund pays exactly the recorded deposit plus fee. -/
theorem C19_failed_refund {w : World} (R : Reachable w) {tx : Tx} {x : RefundAcc} {w' : World} {rc : Receipt}
    {p : Presale} (hp : w.presales x.presale = some p) (hf : Failed p w.clock)
    (h : step w (.ix tx (.refund x)) = .ok (w', rc)) :
    ∃ e e' p', w.escrows.get? x.escrow = some e ∧ w'.escrows.get? x.escrow = some e' ∧
      w'.presales x.presale = some p' ∧ e.owner = x.owner ∧ tx.signed e.owner = true ∧
      e.isRemainingQuoteWithdrawn = 0 ∧ e' = { e with isRemainingQuoteWithdrawn := 1 } ∧
      p'.totalRefundedQuoteToken = p.totalRefundedQuoteToken + (e.totalDeposit + e.totalDepositFee) ∧
      ((e.totalDeposit + e.totalDepositFee = 0 ∧ w'.tk = w.tk) ∨
        Transferred w.tk w'.tk p.quoteMint p.quoteTokenVault x.ownerQuoteToken
          (e.totalDeposit + e.totalDepositFee)) := by
  obtain ⟨q, p', e, e', r, r', n, D⟩ := refund_spec R h
  have h1 := D.presale
  rw [hp] at h1
  cases h1
  have hn : n = e.totalDeposit + e.totalDepositFee := by
    rw [D.amount]; unfold owedRefund; rw [if_pos hf.2]
  refine ⟨e, e', p', D.escrow, D.escrow', D.presale', D.owner.2.1, D.owner.2.2, D.first, D.escrowNow, ?_, ?_⟩
  · rw [D.presaleNow, hn]
  · rw [← hn]
    rcases D.moved with h2 | ⟨_, h2⟩
    · exact .inl h2
    · exact .inr h2

/-! ## C20 -/

/-- Two floors of a share: at most the exact share, less than two below it. -/
theorem floor_floor {a x y u v : Nat} (hu : u ≤ v) :
    ((u * (a * x / y) / v : Nat) : ℚ) ≤ (u : ℚ) / v * (a * x / y) ∧
    (u : ℚ) / v * (a * x / y) < ((u * (a * x / y) / v : Nat) : ℚ) + 2 := by
  by_cases hv : v = 0
  · subst hv; simp
  · have hv' : (0 : ℚ) < v := by exact_mod_cast Nat.pos_of_ne_zero hv
    have s0 : (0 : ℚ) ≤ (u : ℚ) / v := by positivity
    have s1 : (u : ℚ) / v ≤ 1 := (div_le_one hv').2 (by exact_mod_cast hu)
    have e1 : (((a * x : Nat) : ℚ)) = a * x := Nat.cast_mul _ _
    have i1 := floor_le (a * x) y
    rw [e1] at i1
    have i2 : (a : ℚ) * x / y ≤ ((a * x / y : Nat) : ℚ) + 1 := by
      by_cases hy : y = 0
      · subst hy; simp
      · have := lt_floor (a * x) (Nat.pos_of_ne_zero hy)
        rw [e1] at this
        exact this.le
    generalize a * x / y = c at *
    generalize (a : ℚ) * x / y = z at *
    have j1 := floor_le (u * c) v
    have j2 := lt_floor (u * c) (Nat.pos_of_ne_zero hv)
    have e2 : (((u * c : Nat) : ℚ)) / v = (u : ℚ) / v * c := by rw [Nat.cast_mul]; ring
    rw [e2] at j1 j2
    generalize ((u * c / v : Nat) : ℚ) = f at *
    generalize (u : ℚ) / v = s at *
    constructor
    · nlinarith
    · nlinarith

/-- **C20.** What a pro-rata sale owes an escrow: deposit given back within two units below the exact part of
the surplus, fee given back within two units below the fee times the ratio of its registry, never more than
was paid in. -/
theorem C20_exact_share {w : World} (R : Reachable w) {a k : Addr} {p : Presale} {e : Escrow}
    (hp : w.presales a = some p) (hc : Completed p w.clock) (hm : p.presaleMode = 1)
    (hk : w.escrows.get? k = some e) (ha : e.presale = a) :
    ∃ r, p.registries[e.registryIndex]? = some r ∧
      owedRefund p r e = refundDeposit p r e + refundFee p r e ∧
      (refundDeposit p r e : ℚ) ≤ exactRefund p e ∧ exactRefund p e < refundDeposit p r e + 2 ∧
      (refundFee p r e : ℚ) ≤ (e.totalDepositFee : ℚ) * (registrySurplus p r / r.totalDeposit) ∧
      (e.totalDepositFee : ℚ) * (registrySurplus p r / r.totalDeposit) < refundFee p r e + 2 ∧
      refundDeposit p r e ≤ e.totalDeposit ∧ refundFee p r e ≤ e.totalDepositFee := by
  have S := R.winv.core.sale a p hp
  obtain ⟨r, hr, E⟩ := S.pinv.escBook hk ha
  have hd := S.pinv.book.dep_le hk ha hr
  have hs1 := @registrySurplus_le p r
  have hs2 := @registryFeeRefund_le p r
  have e1 : refundDeposit p r e = e.totalDeposit * registrySurplus p r / r.totalDeposit := by
    unfold refundDeposit; rw [if_pos hm]
  have e2 : refundFee p r e = e.totalDepositFee * registryFeeRefund p r / r.totalDepositFee := by
    unfold refundFee; rw [if_pos hm]
  have hx : (e.totalDeposit : ℚ) / r.totalDeposit * ((surplus p : ℚ) * r.totalDeposit / p.totalDeposit) =
      exactRefund p e := by
    unfold exactRefund
    by_cases h0 : r.totalDeposit = 0
    · have : e.totalDeposit = 0 := by omega
      rw [h0, this]; simp
    · have : (r.totalDeposit : ℚ) ≠ 0 := by exact_mod_cast h0
      field_simp
  have hy : (e.totalDepositFee : ℚ) / r.totalDepositFee *
      ((r.totalDepositFee : ℚ) * registrySurplus p r / r.totalDeposit) =
      (e.totalDepositFee : ℚ) * (registrySurplus p r / r.totalDeposit) := by
    by_cases h0 : r.totalDepositFee = 0
    · have : e.totalDepositFee = 0 := by omega
      rw [h0, this]; simp
    · have : (r.totalDepositFee : ℚ) ≠ 0 := by exact_mod_cast h0
      field_simp
  have f1 := floor_floor (a := surplus p) (x := r.totalDeposit) (y := p.totalDeposit) hd.1
  have f2 := floor_floor (a := r.totalDepositFee) (x := registrySurplus p r) (y := r.totalDeposit) hd.2
  rw [hx] at f1
  rw [hy] at f2
  refine ⟨r, hr, ?_, ?_, ?_, ?_, ?_, ?_, ?_⟩
  · unfold owedRefund; rw [if_neg (by have := hc.2; omega)]
  · rw [e1]; exact f1.1
  · rw [e1]; exact f1.2
  · rw [e2]; exact f2.1
  · rw [e2]; exact f2.2
  · rw [e1]
    exact mul_div_le_of_le (by omega)
  · rw [e2]
    exact mul_div_le_of_le (by omega)

/-- **C20.** The amount owed does not depend on anything that happens after the end of the sale. -/
theorem C20_order_independent {w : World} (R : Reachable w) {a k : Addr} {p : Presale}
    (hp : w.presales a = some p) (ho : Over p w.clock) (ops : List Op) {e' : Escrow}
    (hk : (run w ops).escrows.get? k = some e') (ha : e'.presale = a) :
    ∃ p' r' e r, (run w ops).presales a = some p' ∧ p'.registries[e'.registryIndex]? = some r' ∧
      w.escrows.get? k = some e ∧ p.registries[e.registryIndex]? = some r ∧
      owedRefund p' r' e' = owedRefund p r e := by
  obtain ⟨p', hp', L⟩ := run_later R.winv ops hp
  obtain ⟨e, he, A⟩ := run_after R.winv ops hp ho hk ha
  have hb := L.frozen ho
  have hea : e.presale = a := A.identity.presale.symm.trans ha
  obtain ⟨r, hr, _⟩ := (R.winv.core.sale a p hp).pinv.escBook he hea
  obtain ⟨r', hr', hrb⟩ := books_reg hb hr
  exact ⟨p', r', e, r, hp', by rw [A.identity.index]; exact hr', he, hr,
    owedRefund_congr hb hrb A.deposit A.fee⟩

/-- **C20.** A refund of a completed pro-rata sale pays exactly what is owed to the escrow, whoever was
refunded before. -/
theorem C20_refund {w : World} (R : Reachable w) {p : Presale} {tx : Tx} {x : RefundAcc}
    (hp : w.presales x.presale = some p) (ho : Over p w.clock) (ops : List Op) {w' : World} {rc : Receipt}
    (h : step (run w ops) (.ix tx (.refund x)) = .ok (w', rc)) :
    ∃ e r n, w.escrows.get? x.escrow = some e ∧ p.registries[e.registryIndex]? = some r ∧
      n = owedRefund p r e ∧
      ((n = 0 ∧ w'.tk = (run w ops).tk) ∨
        Transferred (run w ops).tk w'.tk p.quoteMint p.quoteTokenVault x.ownerQuoteToken n) := by
  obtain ⟨q, q', f, f', s, s', n, D⟩ := refund_spec (R.run ops) h
  obtain ⟨p', r', e, r, hp', hr', he, hr, heq⟩ := C20_order_independent R hp ho ops D.escrow D.owner.1
  obtain ⟨p2, hp2, L⟩ := run_later R.winv ops hp
  rw [D.presale] at hp' hp2
  cases hp'; cases hp2
  rw [D.registry] at hr'
  cases hr'
  have e1 : q.quoteMint = p.quoteMint := (congrArg Presale.quoteMint L.terms :)
  have e2 : q.quoteTokenVault = p.quoteTokenVault := (congrArg Presale.quoteTokenVault L.terms :)
  refine ⟨e, r, n, he, hr, by rw [D.amount, heq], ?_⟩
  rcases D.moved with h1 | ⟨_, h1⟩
  · exact .inl h1
  · exact .inr (by rw [← e1, ← e2]; exact h1)

/-! ## C27: refunds succeed -/

/-- `C27_refund_succeeds` from the invariant alone (see C98). -/
theorem refund_succeeds_of {w : World} (W : WInv w) {tx : Tx} {x : RefundAcc} {p : Presale} {e : Escrow}
    {r : Registry} (hp : w.presales x.presale = some p) (hk : w.escrows.get? x.escrow = some e)
    (ha : e.presale = x.presale) (ho : x.owner = e.owner) (hs : tx.signed e.owner = true)
    (hphase : Failed p w.clock ∨ (Completed p w.clock ∧ p.presaleMode = 1))
    (hfirst : e.isRemainingQuoteWithdrawn = 0) (hr : p.registries[e.registryIndex]? = some r)
    (hv : x.quoteTokenVault = p.quoteTokenVault) (hm : x.quoteMint = p.quoteMint)
    (hpay : Payable w.tk tx .transferHookQuote p.quoteMint p.quoteTokenVault x.ownerQuoteToken x.tokenProgram
      x.remaining x.slices (owedRefund p r e)) :
    ∃ w' rc, step w (.ix tx (.refund x)) = .ok (w', rc) := by
  have S := W.core.sale _ _ hp
  have hend : p.presaleEndTime ≤ w.clock.toNat := by
    rcases hphase with h | h
    · exact S.over.1 h.1
    · exact S.over.1 h.1.1
  have hquote := S.pinv.refundQuote hk ha hr hend (hphase.imp (fun h => h.2) And.right)
  generalize hq : (if p.totalDeposit < p.presaleMinimumCap then
    (⟨e.totalDeposit, e.totalDepositFee⟩ : EscrowRemainingQuote)
       else ⟨refundDeposit p r e, refundFee p r e⟩) = q at hquote
  have htot := S.pinv.refundTotal hk ha hr hquote
  have P' := S.pinv.refund hk ha hr hend (by omega) (x := owedRefund p r e) rfl
  have hb' : books (p.refunded e.registryIndex r (owedRefund p r e)) = books p := books_refunded hr
  -- totals stay in range
  have hT := P'.refundsDue (show p.presaleEndTime ≤ _ from hend)
  have hpool : lsum (refundPool (p.refunded e.registryIndex r (owedRefund p r e)))
      (p.refunded e.registryIndex r (owedRefund p r e)).registries ≤ p.totalDeposit + p.totalDepositFee := by
    by_cases hf : p.totalDeposit < p.presaleMinimumCap
    · have h1 := P'.book.totDep
      have h2 := P'.book.totFee
      have h3 : lsum (refundPool (p.refunded e.registryIndex r (owedRefund p r e)))
          (p.refunded e.registryIndex r (owedRefund p r e)).registries =
          lsum Registry.totalDeposit (p.refunded e.registryIndex r (owedRefund p r e)).registries +
          lsum Registry.totalDepositFee (p.refunded e.registryIndex r (owedRefund p r e)).registries := by
        rw [← lsum_add]
        apply lsum_congr
        intro i r' _
        unfold refundPool
        exact if_pos hf
      rw [h3, ← h1, ← h2]
      exact Nat.le_refl _
    · have := budget P'.book (show p.presaleMinimumCap ≤ p.totalDeposit by omega)
      have h3 : (p.refunded e.registryIndex r (owedRefund p r e)).totalDeposit = p.totalDeposit := rfl
      have h4 : (p.refunded e.registryIndex r (owedRefund p r e)).totalDepositFee = p.totalDepositFee := rfl
      omega
  have hbound := S.pinv.book.bound
  have hpt : p.totalRefundedQuoteToken + owedRefund p r e < u64Bound := by
    have : (p.refunded e.registryIndex r (owedRefund p r e)).totalRefundedQuoteToken =
      p.totalRefundedQuoteToken + owedRefund p r e := rfl
    omega
  have hrt : r.totalRefundedQuoteToken ≤ p.totalRefundedQuoteToken := by
    rw [S.pinv.book.totRef]; exact le_lsum (g := Registry.totalRefundedQuoteToken) hr
  -- the vault holds enough
  obtain ⟨qv, hqv, hqm, _, _, _, hfail, hcomp⟩ := quote_solvent_of W hp
  obtain ⟨m, hmint, _, _⟩ := S.quoteMint
  have hbal : owedRefund p r e ≤ qv.amount := by
    have key : ∀ f : Escrow → Nat, f e ≤ saleSum w.escrows x.presale f := by
      intro f
      unfold saleSum
      have hmem : (if e.presale = x.presale then f e else 0) ∈
          w.escrows.map (fun y => if y.2.presale = x.presale then f y.2 else 0) :=
        List.mem_map.2 ⟨(x.escrow, e), AMap.get?_mem hk, rfl⟩
      have := List.le_sum_of_mem hmem
      rw [if_pos ha] at this
      exact this
    rcases hphase with h | h
    · have h1 := hfail h
      have h2 := key (fun e => if e.isRemainingQuoteWithdrawn = 1 then 0 else e.totalDeposit + e.totalDepositFee)
      simp only [hfirst] at h2
      rw [if_neg (by omega)] at h2
      unfold owedRefund
      rw [if_pos h.2]
      omega
    · have h1 := hcomp h.1
      have h2 := key (refundDue p)
      have h3 : refundDue p e = owedRefund p r e := by
        unfold refundDue; rw [hr]; exact if_neg (by omega)
      omega
  have hvk := S.pinv.static.quoteVault
  rw [hvk] at hpay
  obtain ⟨hsl, hdst, hooks, rest, hparse, tk, cpi, htr⟩ := payout_ok W.core hpay rfl hqv hqm hmint hbal
  obtain ⟨ex, hex⟩ := excluded_ok (W.core.feeOk _ _ hmint) (owedRefund p r e)
  have hout : ∃ (w' : World) (rc : Receipt), (0 < q.refundDepositAmount + q.refundFeeAmount ∧ ∃ tk cpi,
      transferTokens w.tk .presaleAuthority x.quoteMint x.quoteTokenVault x.ownerQuoteToken x.tokenProgram
        (q.refundDepositAmount + q.refundFeeAmount) hooks.quote tx.accept = .ok (tk, cpi) ∧
      w' = { w with
        presales := upd w.presales x.presale (some (p.refunded e.registryIndex r (owedRefund p r e))),
        escrows := w.escrows.set x.escrow e.updateRemainingQuoteWithdrawn, tk := tk } ∧
      rc = { event := some (.withdrawRemainingQuote x.presale x.escrow x.owner ex
               (p.refunded e.registryIndex r (owedRefund p r e)).totalRefundedQuoteToken), cpis := [cpi] }) ∨
    (q.refundDepositAmount + q.refundFeeAmount = 0 ∧
      w' = { w with
        presales := upd w.presales x.presale (some (p.refunded e.registryIndex r (owedRefund p r e))),
        escrows := w.escrows.set x.escrow e.updateRemainingQuoteWithdrawn } ∧
      rc = { event := some (.withdrawRemainingQuote x.presale x.escrow x.owner ex
               (p.refunded e.registryIndex r (owedRefund p r e)).totalRefundedQuoteToken), cpis := [] }) := by
    by_cases hz : q.refundDepositAmount + q.refundFeeAmount = 0
    · exact ⟨_, _, .inr ⟨hz, rfl, rfl⟩⟩
    · exact ⟨_, _, .inl ⟨by omega, tk, cpi, by rw [htot, hm, hv, hvk]; exact htr, rfl, rfl⟩⟩
  obtain ⟨w', rc, hout⟩ := hout
  have F : RefundFacts w tx x w' rc p m e q (p.refunded e.registryIndex r (owedRefund p r e)) hooks rest ex :=
    { range := hsl, presale := hp, vault := ⟨hv.symm, hm.symm⟩, mint := by rw [hm]; exact hmint,
      escrow := hk, belongs := ⟨ha, ho.symm⟩, dest := hdst, signed := by rw [ho]; exact hs,
      fresh := by unfold Escrow.remainingQuoteWithdrawn; rw [hfirst]; rfl,
      clock := S.clock, quote := hquote, sum := by omega,
      update := by rw [htot]; exact updateRefunded_iff.2 ⟨r, hr, by omega, by omega, rfl⟩,
      parse := hparse, net := by rw [htot]; exact hex, out := hout }
  exact ⟨_, _, handleRefund_iff.2 ⟨_, _, _, _, _, _, _, _, F⟩⟩

/-- **C27.** After a failed sale, and after a completed pro-rata sale, the owner of an escrow that was not
refunded can take the refund, given a usable destination account. -/
theorem C27_refund_succeeds {w : World} (R : Reachable w) {tx : Tx} {x : RefundAcc} {p : Presale} {e : Escrow}
    {r : Registry} (hp : w.presales x.presale = some p) (hk : w.escrows.get? x.escrow = some e)
    (ha : e.presale = x.presale) (ho : x.owner = e.owner) (hs : tx.signed e.owner = true)
    (hphase : Failed p w.clock ∨ (Completed p w.clock ∧ p.presaleMode = 1))
    (hfirst : e.isRemainingQuoteWithdrawn = 0) (hr : p.registries[e.registryIndex]? = some r)
    (hv : x.quoteTokenVault = p.quoteTokenVault) (hm : x.quoteMint = p.quoteMint)
    (hpay : Payable w.tk tx .transferHookQuote p.quoteMint p.quoteTokenVault x.ownerQuoteToken x.tokenProgram
      x.remaining x.slices (owedRefund p r e)) :
    ∃ w' rc, step w (.ix tx (.refund x)) = .ok (w', rc) :=
  refund_succeeds_of R.winv hp hk ha ho hs hphase hfirst hr hv hm hpay

/-! ## The hypotheses are met -/

namespace Ex

/-- An oversubscribed sale (1500 for 1000) gives back a third of deposit and fee, in any order, once; a
failed one everything; the others nothing. -/
example : works prorataDone (refund alice aliceQuote) = true ∧
    works prorataDone (refund bob bobQuote) = true ∧
    has (run prorataDone [refund alice aliceQuote]) (fun p => decide (p.totalRefundedQuoteToken = 305)) = true ∧
    has (run prorataDone [refund bob bobQuote, refund alice aliceQuote])
      (fun p => decide (p.totalRefundedQuoteToken = 509)) = true ∧
    works (run prorataDone [refund alice aliceQuote, .tick 5]) (refund alice aliceQuote) = false ∧
    has (run failedDone [refund alice aliceQuote]) (fun p => decide (p.totalRefundedQuoteToken = 52)) = true ∧
    works (run failedDone [refund alice aliceQuote]) (refund alice aliceQuote) = false ∧
    works fixedDone (refund alice aliceQuote) = false := by
  decide +kernel

/-- Usable destinations. -/
example : Payable prorataDone.tk (tx [alice]) .transferHookQuote qm (.quoteVault sale) aliceQuote
      .splToken2022 [] [] 305 ∧
    Payable failedDone.tk (tx [alice]) .transferHookQuote qm (.quoteVault sale) aliceQuote
      .splToken2022 [] [] 52 :=
  ⟨payable_ok (by decide +kernel) _ _, payable_ok (by decide +kernel) _ _⟩

end Ex

end Verif
