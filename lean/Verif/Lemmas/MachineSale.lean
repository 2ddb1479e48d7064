import Verif.Lemmas.MachineAdmin
import Verif.Props.Liveness
import Verif.Props.Claims
import Verif.Props.Refunds
import Verif.Props.Creator
/-!
# Deposits, withdrawals and payouts in the reference semantics
-/

namespace Verif
open Spec

/-! ## What the vaults cover -/

theorem le_saleSum_of {es : AMap Addr Escrow} {k a : Addr} {e : Escrow} (hk : es.get? k = some e) (ha : e.presale = a)
    (f : Escrow → Nat) : f e ≤ saleSum es a f := by
  unfold saleSum
  have hmem : (if e.presale = a then f e else 0) ∈ es.map (fun y => if y.2.presale = a then f y.2 else 0) :=
    List.mem_map.2 ⟨(k, e), AMap.get?_mem hk, rfl⟩
  have := List.le_sum_of_mem hmem
  rw [if_pos ha] at this
  exact this

theorem deposit_covered {w : World} (R : Reachable w) {a k : Addr} {p : Presale} {e : Escrow} {r : Registry}
    (hp : w.presales a = some p) (hk : w.escrows.get? k = some e) (ha : e.presale = a)
    (hr : p.registries[e.registryIndex]? = some r) (ho : ¬ Over p w.clock) :
    ∃ v, w.tk.toks p.quoteTokenVault = some v ∧ v.mint = p.quoteMint ∧ e.totalDeposit ≤ r.totalDeposit ∧
      r.totalDeposit ≤ p.totalDeposit ∧ p.totalDeposit ≤ v.amount ∧ v.amount < u64Bound := by
  have S := R.winv.core.sale _ _ hp
  obtain ⟨q, hq, hqm, _, _, hopen, _, _⟩ := C01_quote_solvent R hp
  have hq' := hopen ho
  rw [S.pinv.static.quoteVault]
  refine ⟨q, hq, hqm, (S.pinv.book.dep_le hk ha hr).1, ?_, by omega, R.winv.core.amounts _ _ hq⟩
  rw [S.pinv.book.totDep]; exact le_lsum (g := Registry.totalDeposit) hr

theorem claim_covered {w : World} (R : Reachable w) {a k : Addr} {p : Presale} {e : Escrow} {r : Registry}
    (hp : w.presales a = some p) (hk : w.escrows.get? k = some e) (ha : e.presale = a)
    (hr : p.registries[e.registryIndex]? = some r) (hc : Completed p w.clock) :
    ∃ v, w.tk.toks p.baseTokenVault = some v ∧ v.mint = p.baseMint ∧
      claimableAt p r e w.clock.toNat - e.totalClaimedToken ≤ v.amount := by
  have S := R.winv.core.sale _ _ hp
  obtain ⟨b, hb, hbm, _, _, _, _, hsolv⟩ := C02_base_solvent R hp
  rw [S.pinv.static.baseVault]
  refine ⟨b, hb, hbm, ?_⟩
  have h1 := hsolv hc
  have h2 := le_saleSum_of hk ha (claimDue p)
  have h3 := claimDue_eq (e := e) hr
  have h4 := claimableAt_le_entitlement S.pinv.sched r e w.clock.toNat
  omega

theorem refund_covered {w : World} (R : Reachable w) {a k : Addr} {p : Presale} {e : Escrow} {r : Registry}
    (hp : w.presales a = some p) (hk : w.escrows.get? k = some e) (ha : e.presale = a)
    (hr : p.registries[e.registryIndex]? = some r)
    (hphase : Failed p w.clock ∨ (Completed p w.clock ∧ p.presaleMode = 1))
    (hfirst : e.isRemainingQuoteWithdrawn = 0) :
    ∃ v, w.tk.toks p.quoteTokenVault = some v ∧ v.mint = p.quoteMint ∧ owedRefund p r e ≤ v.amount := by
  have S := R.winv.core.sale _ _ hp
  obtain ⟨qv, hqv, hqm, _, _, _, hfail, hcomp⟩ := C01_quote_solvent R hp
  rw [S.pinv.static.quoteVault]
  refine ⟨qv, hqv, hqm, ?_⟩
  rcases hphase with h | h
  · have h1 := hfail h
    have h2 := le_saleSum_of hk ha
      (fun e => if e.isRemainingQuoteWithdrawn = 1 then 0 else e.totalDeposit + e.totalDepositFee)
    simp only [hfirst] at h2
    rw [if_neg (by omega)] at h2
    unfold owedRefund
    rw [if_pos h.2]
    omega
  · have h1 := hcomp h.1
    have h2 := le_saleSum_of hk ha (refundDue p)
    have h3 : refundDue p e = owedRefund p r e := by
      unfold refundDue; rw [hr]; exact if_neg (by omega)
    omega

/-! ## Withdrawals -/

theorem withdrawTaken_iff {h : Handler} {a : Addr} {p : Presale} {e : Escrow} {asked n : Nat} (St : Static a p)
    (hh : getPresaleModeHandler p = .ok h) (hallowed : WithdrawAllowed p) (hlt : asked < u64Bound) :
    h.suggestWithdrawAmount e asked = .ok n ↔ WithdrawTaken p e asked n := by
  unfold WithdrawTaken
  rcases handler_cases hh with ⟨hm, rfl⟩ | ⟨hm, rfl⟩ | ⟨hm, hm', rfl⟩
  · rw [if_pos (.inl hm)]
    simp only [Handler.suggestWithdrawAmount, pure_eq_ok, ok_eq_ok]
    exact ⟨Eq.symm, Eq.symm⟩
  · unfold WithdrawAllowed at hallowed; omega
  · simp only [Handler.suggestWithdrawAmount]
    by_cases heq : e.totalDeposit = asked
    · rw [if_pos heq, if_pos (.inr heq.symm)]
      simp only [pure_eq_ok, ok_eq_ok]
      exact ⟨Eq.symm, Eq.symm⟩
    · rw [if_neg heq, if_neg (by omega)]
      have hq : p.raw0 ≠ 0 := by have := (St.price hm hm').1; omega
      obtain ⟨c, hc, h1, h2, h3⟩ := C08_least_charge hlt hq
      rw [hc]
      simp only [ok_eq_ok]
      constructor
      · rintro rfl; exact ⟨h1, h2, h3⟩
      · intro L
        rcases Nat.lt_trichotomy c n with hl | hl | hl
        · have := L.least c hl; omega
        · exact hl
        · have := h3 n hl; have := L.same; omega

theorem Spec.WithdrawTaken.le {p : Presale} {e : Escrow} {asked n : Nat} (h : WithdrawTaken p e asked n) : n ≤ asked := by
  unfold WithdrawTaken at h
  split at h
  · omega
  · exact h.le

theorem does_withdraw {w : World} (R : Reachable w) {tx : Tx} {a : WithdrawAcc} {w' : World} :
    (∃ rc, handleWithdraw w tx a = .ok (w', rc)) ↔ ∃ p e r n k', DoesWithdraw w tx a w' p e r n k' := by
  have W := R.winv
  constructor
  · rintro ⟨rc, hs⟩
    obtain ⟨p, m, e, p', e', n, hooks, rest, tk, cpi, ex, F⟩ := handleWithdraw_iff.1 hs
    obtain ⟨h, r, D⟩ := withdrawCore_iff.1 F.core
    have S := W.core.sale _ _ F.presale
    have hon : Ongoing p w.clock := S.progress_ongoing.1 (progress_ongoing.2 ⟨D.started, D.open_⟩)
    have hal := (canWithdraw_iff D.handler).1 D.allowed
    obtain ⟨v, hv, hvm, _, _, hcov, _⟩ := deposit_covered R F.presale F.escrow F.belongs.1 D.registry
      (by unfold Over; have := hon.2; omega)
    have hle := D.leP
    have hpay := (payout_iff (kind := .transferHookQuote) W.core
      (by rw [S.pinv.static.quoteVault]; rfl) hv hvm (show n ≤ v.amount by omega)).1 ⟨hooks, rest, cpi, F.parse, by
        have := F.transfer; rw [← F.vault.1, ← F.vault.2] at this; exact this⟩
    refine ⟨p, e, r, n, tk, F.presale, ⟨F.escrow, F.belongs.1, F.belongs.2⟩, D.registry,
      ⟨F.vault.1.symm, F.vault.2.symm⟩, F.signed, slicesInRange_iff.1 F.range.2, hon, hal, D.within,
      ⟨D.pos, (withdrawTaken_iff S.pinv.static D.handler hal F.range.1).1 D.suggested⟩, ?_, hpay.1, hpay.2, ?_⟩
    · have := D.limits; have := D.leE; omega
    · rw [F.post, D.presale, D.escrow]; rfl
  · rintro ⟨p, e, r, n, k', D⟩
    have S := W.core.sale _ _ D.presale
    obtain ⟨h, hh⟩ := S.pinv.static.handler
    obtain ⟨v, hv, hvm, c1, c2, c3, c4⟩ := deposit_covered R D.presale D.escrow.1 D.escrow.2.1 D.registry
      (by unfold Over; have := D.ongoing.2; omega)
    have hasked := D.asked
    have hn := D.taken.2.le
    obtain ⟨hooks, rest, cpi, hparse, htr⟩ := (payout_iff (kind := .transferHookQuote) W.core
      (by rw [S.pinv.static.quoteVault]; rfl) hv hvm (by omega)).2 ⟨D.hooks, D.payment⟩
    obtain ⟨m, hmint, _, _⟩ := S.quoteMint
    obtain ⟨ex, hex⟩ := excluded_ok (W.core.feeOk _ _ hmint) n
    obtain ⟨r', hr', E⟩ := S.pinv.escBook D.escrow.1 D.escrow.2.1
    rw [D.registry] at hr'; cases hr'
    have hpo := progress_ongoing.1 (S.progress_ongoing.2 D.ongoing)
    have hpos := D.taken.1
    have hmin := D.minimum
    have hlim : e.totalDeposit ≤ r.buyerMaximumDepositCap := by
      rcases E.limits with h | h
      · omega
      · exact h.2
    have hcore : withdrawCore p e w.clock.toNat a.maxAmount =
        .ok (p.debited e.registryIndex r n, e.debited n, n) :=
      withdrawCore_iff.2 ⟨h, r,
        { started := hpo.1, open_ := hpo.2, asked := by omega, within := hasked, handler := hh,
          allowed := (canWithdraw_iff hh).2 D.allowed,
          suggested := (withdrawTaken_iff S.pinv.static hh D.allowed (by omega)).2 D.taken.2, pos := hpos,
          registry := D.registry, leE := by omega, leR := by omega, leP := by omega,
          limits := by omega, presale := rfl, escrow := rfl }⟩
    have hva := D.accounts
    exact ⟨_, handleWithdraw_iff.2 ⟨p, m, e, _, _, n, hooks, rest, k', cpi, ex,
      { range := ⟨by omega, slicesInRange_iff.2 D.fits⟩, presale := D.presale, vault := ⟨hva.1.symm, hva.2.symm⟩,
        mint := by rw [hva.2]; exact hmint, escrow := D.escrow.1, belongs := ⟨D.escrow.2.1, D.escrow.2.2⟩,
        signed := D.signed, clock := S.clock, core := hcore, parse := hparse,
        transfer := by rw [hva.1, hva.2]; exact htr, net := hex, post := D.post, receipt := rfl }⟩⟩


/-! ## Deposits -/

theorem payworthy_of {p : Presale} {r : Registry} {e : Escrow} {h : Handler} {q : Nat}
    (hh : getPresaleModeHandler p = .ok h) (hr : p.registries[e.registryIndex]? = some r)
    (hd : r.totalDeposit < u64Bound) (hq : h.getRemainingDepositQuota p e = .ok q) : Payworthy p r := by
  by_contra hw
  refine quota_blocked hh hr hd hw ?_ hq
  intro hs
  apply hw
  refine .inr (.inr ?_)
  rw [hs, Nat.sub_self]
  unfold costOf
  rw [Nat.zero_mul, Nat.zero_add]
  exact Nat.lt_of_le_of_lt (Nat.div_le_self _ _) (by norm_num)

theorem charge_of {m : MintInfo} {bps n fee gross inc : Nat} {c : DepositFeeIncluded} (hm : FeeOk m)
    (hc : calculateDepositFeeIncludedAmount n bps .up = .ok c) (hf : c.fee = fee) (hi : c.amountIncludedFee = inc)
    (hlt : inc < u64Bound) (hg : transferFeeIncludedAmount m inc = .ok gross) : Charge m bps n fee gross := by
  obtain ⟨l1, l2, l3⟩ := C07_fee_law hc
  obtain ⟨i1, _, _, i4⟩ := C42_inversion_exact hm hlt hg
  subst hf
  have e : inc = n + c.fee := by omega
  refine ⟨by rw [← l1]; exact l2, fun f g h1 h2 => by have := l3 g f h1 h2; omega, by rw [← e]; exact i1,
    fun other ho => i4 other (by rw [e]; exact ho)⟩

theorem afterDeposit_eq {p : Presale} {h : Handler} {i n fee t : Nat} {r : Registry} {p' : Presale}
    (hh : getPresaleModeHandler p = .ok h)
    (hf : h.endIfMaxCapReached (p.credited i r n fee) t = .ok p') : p' = afterDeposit p i r n fee t := by
  have he := endsEarly_iff hh
  unfold afterDeposit
  rcases endIfMaxCapReached_iff.1 hf with ⟨⟨h1, h2⟩, _, _, _, rfl⟩ | ⟨h1, rfl⟩
  · simp only
    rw [if_pos ⟨he.1 h1, h2⟩]
    rfl
  · simp only
    rw [if_neg (fun h2 => h1 ⟨he.2 h2.1, h2.2⟩)]
    rfl

theorem deposit_core {w : World} (R : Reachable w) {a k : Addr} {p : Presale} {e : Escrow} {r : Registry}
    {v : TokAcct} {n fee asked : Nat} (hp : w.presales a = some p) (hk : w.escrows.get? k = some e) (ha : e.presale = a)
    (hr : p.registries[e.registryIndex]? = some r) (ho : Ongoing p w.clock) (hmax' : asked < u64Bound) (hn : 0 < n)
    (htaken : DepositTaken p r e asked n) (hmin : r.buyerMinimumDepositCap ≤ e.totalDeposit + n)
    (hw : Payworthy p r) (hvt : w.tk.toks p.quoteTokenVault = some v) (hroom : v.amount + (n + fee) < u64Bound)
    (hrate : IsCeilDiv fee ((n + fee) * r.depositFeeBps) 10000)
    (hleast : ∀ f g, IsCeilDiv f (g * r.depositFeeBps) 10000 → n + f ≤ g → n + fee ≤ g) :
    ∃ d, depositCore p e w.clock.toNat asked = .ok d ∧ d.amount = n ∧ d.fees.fee = fee ∧
      d.fees.amountIncludedFee = n + fee ∧ d.escrow = e.credited n fee ∧
      d.presale = afterDeposit p e.registryIndex r n fee w.clock.toNat := by
  have W := R.winv
  have S := W.core.sale _ _ hp
  have P := S.pinv
  obtain ⟨h, hh⟩ := P.static.handler
  have hclock := S.clock
  obtain ⟨ho1, ho2⟩ := ho
  have hopen : w.clock.toNat < p.presaleEndTime := by omega
  have hfl := P.flags
  have hmoney : p.totalDeposit + p.totalDepositFee ≤ v.amount := by
    obtain ⟨b, q0, _, _, h1, h2, M⟩ := S.vaults
    rw [P.static.quoteVault] at hvt
    rw [hvt] at h1; cases h1
    have h3 := ((Money.open_iff (hfl.open_ hopen) (hfl.failed (Or.inl hopen)).1 (hfl.failed (Or.inl hopen)).2).1 M).1
    have h4 := P.book.refunded0 hopen
    omega
  have hrd : r.totalDeposit ≤ p.totalDeposit := by
    rw [P.book.totDep]; exact le_lsum (g := Registry.totalDeposit) hr
  have hrf : r.totalDepositFee ≤ p.totalDepositFee := by
    rw [P.book.totFee]; exact le_lsum (g := Registry.totalDepositFee) hr
  have hed : e.totalDeposit ≤ r.totalDeposit :=
    le_trans (le_esum (f := Escrow.totalDeposit) (AMap.get?_mem hk) ha rfl) (P.book.reg _ _ hr).dep
  have hef : e.totalDepositFee ≤ r.totalDepositFee :=
    le_trans (le_esum (f := Escrow.totalDepositFee) (AMap.get?_mem hk) ha rfl) (P.book.reg _ _ hr).fee
  obtain ⟨r0, hr0, E⟩ := P.escBook hk ha
  rw [hr] at hr0; cases hr0
  have hbps := (P.static.reg _ _ hr E.idx).2.2.2.2
  have hq := quota_ok P hh hr hw
  have hcomm : min asked (remainingQuota p r e) = min (remainingQuota p r e) asked := Nat.min_comm _ _
  have hsug : h.suggestDepositAmount (min (remainingQuota p r e) asked) = .ok n ∧
      n ≤ min (remainingQuota p r e) asked := by
    unfold DepositTaken at htaken
    rw [hcomm] at htaken
    rcases handler_cases hh with ⟨hm, rfl⟩ | ⟨hm, rfl⟩ | ⟨hm, hm', rfl⟩
    · rw [if_pos (.inl hm)] at htaken; subst htaken; exact ⟨rfl, Nat.le_refl _⟩
    · rw [if_pos (.inr hm)] at htaken; subst htaken; exact ⟨rfl, Nat.le_refl _⟩
    · rw [if_neg (by omega)] at htaken
      have hne : p.raw0 ≠ 0 := by have := (P.static.price hm hm').1; omega
      obtain ⟨c, hc', h1, h2, h3⟩ := C08_least_charge (q := p.raw0)
        (show min (remainingQuota p r e) asked < u64Bound by omega) hne
      have hcn : c = n := by
        rcases Nat.lt_trichotomy c n with hlt | heq | hgt
        · have := htaken.least c hlt; omega
        · exact heq
        · have := h3 n hgt; have := htaken.same; omega
      subst hcn
      exact ⟨hc', h1⟩
  have hpers : e.totalDeposit + n ≤ r.buyerMaximumDepositCap := by
    have h1 : n ≤ remainingQuota p r e := by omega
    have := (quota_le hh hr hq (by omega)).1
    omega
  -- the fee
  obtain ⟨c, hfees⟩ : ∃ c, calculateDepositFeeIncludedAmount n r.depositFeeBps .up = .ok c :=
    (C07_fee_domain (by omega)).2 ⟨by omega, n + fee, fee, by omega, hrate, Nat.le_refl _⟩
  obtain ⟨l1, l2, l3⟩ := C07_fee_law hfees
  have hcf : c.fee = fee := by
    have g1 := l3 (n + fee) fee hrate (Nat.le_refl _)
    have g2 := hleast c.fee c.amountIncludedFee l2 (by omega)
    omega
  -- the end of the sale
  obtain ⟨p', hfin⟩ : ∃ p', h.endIfMaxCapReached (p.credited e.registryIndex r n c.fee) w.clock.toNat = .ok p' := by
    have hsch := P.sched
    have s1 := hsch.range
    have s2 := hsch.immLe
    by_cases hcond : h.endsEarly = true ∧
        (p.credited e.registryIndex r n c.fee).presaleMaximumCap ≤ (p.credited e.registryIndex r n c.fee).totalDeposit
    · refine ⟨_, endIfMaxCapReached_iff.2 (.inl ⟨hcond, ?_, ?_, ?_, rfl⟩)⟩
      · show w.clock.toNat + p.lockDuration + p.vestDuration < u64Bound; omega
      · show w.clock.toNat + p.lockDuration < u64Bound; omega
      · show w.clock.toNat + (p.immediateReleaseTimestamp - p.presaleEndTime) < u64Bound; omega
    · exact ⟨_, endIfMaxCapReached_iff.2 (.inr ⟨hcond, rfl⟩)⟩
  let d : DepositResult := { presale := p', escrow := e.credited n c.fee, amount := n, fees := c }
  have D : DepositCoreFacts p e w.clock.toNat asked d h (remainingQuota p r e) r :=
    { started := by omega, open_ := hopen, handler := hh, quotaIs := hq, capped := by omega,
      suggested := hsug.1, pos := hn, registry := hr, fees := hfees,
      boundR := by show r.totalDeposit + n < _; omega, boundRF := by show r.totalDepositFee + c.fee < _; omega,
      boundE := by show e.totalDeposit + n < _; omega, boundEF := by show e.totalDepositFee + c.fee < _; omega,
      boundP := by show p.totalDeposit + n < _; omega, boundPF := by show p.totalDepositFee + c.fee < _; omega,
      within := ⟨hmin, hpers⟩, escrow := rfl, finish := hfin }
  subst hcf
  exact ⟨d, depositCore_iff.2 ⟨_, _, _, D⟩, rfl, rfl, l1, rfl, afterDeposit_eq hh hfin⟩

theorem does_deposit {w : World} (R : Reachable w) {tx : Tx} {a : DepositAcc} {w' : World} :
    (∃ rc, handleDeposit w tx a = .ok (w', rc)) ↔
      ∃ p e r m n fee gross k', DoesDeposit w tx a w' p e r m n fee gross k' := by
  have W := R.winv
  constructor
  · rintro ⟨rc, hs⟩
    obtain ⟨p, m, e, d, inc, hooks, rest, tk, cpi, F⟩ := handleDeposit_iff.1 hs
    obtain ⟨h, quota, r, D⟩ := depositCore_iff.1 F.core
    have S := W.core.sale _ _ F.presale
    have hon : Ongoing p w.clock := S.progress_ongoing.1 (progress_ongoing.2 ⟨D.started, D.open_⟩)
    have hrd : r.totalDeposit < u64Bound := by have := D.boundR; omega
    have hquota := quota_eq D.handler D.registry hrd D.quotaIs
    obtain ⟨v, hv, hvm, _⟩ := deposit_covered R F.presale F.escrow F.belongs D.registry
      (by unfold Over; have := hon.2; omega)
    have hmint : w.tk.mints p.quoteMint = some m := by rw [F.vault.2]; exact F.mint
    have hfee := W.core.feeOk _ _ hmint
    have hpay := (charge_iff (kind := .transferHookQuote) W.core
      (by rw [S.pinv.static.quoteVault]; rfl) hv hvm F.signed).1 ⟨hooks, rest, cpi, F.parse, by
        have := F.transfer; rw [← F.vault.1, ← F.vault.2] at this; exact this⟩
    obtain ⟨⟨m', hm', hho⟩, hpay⟩ := hpay
    rw [hmint] at hm'; cases hm'
    have hmax := F.range.1
    rw [u64Bound_eq] at hmax
    have hlt : d.fees.amountIncludedFee < u64Bound := (depositFee_inv D.fees).2.2.1
    refine ⟨p, e, r, m, d.amount, d.fees.fee, inc, tk, F.presale, ⟨F.escrow, F.belongs⟩, D.registry,
      ⟨F.vault.1.symm, F.vault.2.symm⟩, F.signed, ⟨hmax, slicesInRange_iff.1 F.range.2⟩, hon,
      payworthy_of D.handler D.registry hrd D.quotaIs,
      ⟨D.pos, taken_of_suggested D.handler F.range.1 (by rw [← hquota]; exact D.suggested)⟩, D.within.1, hmint,
      charge_of hfee D.fees rfl rfl hlt F.gross, hho, hpay, ?_⟩
    rw [F.post, D.escrow, afterDeposit_eq D.handler D.finish]
    rfl
  · rintro ⟨p, e, r, m, n, fee, gross, k', D⟩
    have S := W.core.sale _ _ D.presale
    obtain ⟨hacc, m1, s, v, hm1, hprog, hs, hsm, hsf, hen, hcan, hv, hvf, hroom, hk'⟩ := D.payment
    rw [D.mint] at hm1; cases hm1
    have hex := D.charge.exact
    have hvm : v.mint = p.quoteMint := by
      obtain ⟨v', hv', hvm, _⟩ := deposit_covered R D.presale D.escrow.1 D.escrow.2 D.registry
        (by unfold Over; have := D.ongoing.2; omega)
      rw [hv] at hv'; cases hv'; exact hvm
    have hroom' : v.amount + (n + fee) < u64Bound := by rw [u64Bound_eq, ← hex]; exact hroom
    have hmax : a.maxAmount < u64Bound := by rw [u64Bound_eq]; exact D.fits.1
    obtain ⟨d, hcore, d1, d2, d3, d4, d5⟩ := deposit_core R D.presale D.escrow.1 D.escrow.2 D.registry D.ongoing hmax
      D.taken.1 D.taken.2 D.minimum D.priced hv hroom' D.charge.rate D.charge.leastFee
    have hfee := W.core.feeOk _ _ D.mint
    have hsamt := W.core.amounts _ _ hs
    have hgross : transferFeeIncludedAmount m (n + fee) = .ok gross := by
      obtain ⟨g, hg⟩ := (C42_panic_unreachable hfee (show n + fee < u64Bound by omega)).2.2
        ⟨gross, by omega, hex⟩
      obtain ⟨i1, _, _, i4⟩ := C42_inversion_exact hfee (show n + fee < u64Bound by omega) hg
      have := i4 gross hex
      have := D.charge.leastGross g i1
      rw [hg, show g = gross by omega]
    obtain ⟨hooks, rest, cpi, hparse, htr⟩ := (charge_iff (kind := .transferHookQuote) W.core
      (by rw [S.pinv.static.quoteVault]; rfl) hv hvm D.signed).2 ⟨⟨m, D.mint, D.hooks⟩, D.payment⟩
    have hva := D.accounts
    exact ⟨_, handleDeposit_iff.2 ⟨p, m, e, d, gross, hooks, rest, k', cpi,
      { range := ⟨hmax, slicesInRange_iff.2 D.fits.2⟩, presale := D.presale, vault := ⟨hva.1.symm, hva.2.symm⟩,
        mint := by rw [hva.2]; exact D.mint, escrow := D.escrow.1, belongs := D.escrow.2, signed := D.signed,
        clock := S.clock, core := hcore, gross := by rw [d3]; exact hgross, parse := hparse,
        transfer := by rw [hva.1, hva.2]; exact htr, post := by rw [D.post, d4, d5]; rfl, receipt := rfl }⟩⟩


end Verif
