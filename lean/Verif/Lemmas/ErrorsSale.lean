import Verif.Lemmas.Errors
/-!
# Error codes of deposits and withdrawals
-/

namespace Verif
open Spec

/-! ## Withdrawals -/

theorem errs_withdrawCore {w : World} (R : Reachable w) {a : WithdrawAcc} {p : Presale} {e : Escrow} {r : Registry}
    {m : MintInfo} {k key : Addr} (hp : w.presales key = some p) (hk : w.escrows.get? k = some e) (ha : e.presale = key)
    (hr : p.registries[e.registryIndex]? = some r) (hlt : a.maxAmount < u64Bound) :
    Errs (WithdrawReason w a p e r m) (withdrawCore p e w.clock.toNat a.maxAmount) := by
  have S := R.winv.core.sale _ _ hp
  refine errs_req (fun h h' => h (S.progress_ongoing.2 h'.1)) fun ho => ?_
  have ho := S.progress_ongoing.1 ho
  obtain ⟨h, hh⟩ := S.pinv.static.handler
  refine errs_req (fun h => ⟨ho, .inl (by omega)⟩) fun _ => errs_req (fun h => ⟨ho, by omega⟩) fun hle =>
    errs_known hh (errs_req (fun h h' => h ((canWithdraw_iff hh).2 h'.2)) fun hcan => ?_)
  have hal := (canWithdraw_iff hh).1 hcan
  have hex : ∃ n, h.suggestWithdrawAmount e a.maxAmount = .ok n := by
    rcases handler_cases hh with ⟨hm, rfl⟩ | ⟨hm, rfl⟩ | ⟨hm, hm', rfl⟩
    · exact ⟨_, rfl⟩
    · exact ⟨_, rfl⟩
    · simp only [Handler.suggestWithdrawAmount]
      split
      · exact ⟨_, rfl⟩
      · have hq : p.raw0 ≠ 0 := by have := (S.pinv.static.price hm hm').1; omega
        obtain ⟨c, hc, _⟩ := C08_least_charge hlt hq
        exact ⟨c, hc⟩
  obtain ⟨n, hn⟩ := hex
  have ht := (withdrawTaken_iff S.pinv.static hh hal hlt).1 hn
  refine errs_known hn (errs_req (fun h => ⟨ho, .inr (by rw [show n = 0 by omega] at ht; exact ht)⟩) fun hpos => ?_)
  have hn' := ht.le
  obtain ⟨_, _, _, c1, c2, _, _⟩ := deposit_covered R hp hk ha hr (by unfold Over; have := ho.2; omega)
  have hproc : h.processWithdraw p e n = .ok (p.debited e.registryIndex r n, e.debited n) := by
    have hw : p.withdraw e n = .ok (p.debited e.registryIndex r n, e.debited n) :=
      withdraw_iff.2 ⟨r, hr, by omega, by omega, by omega, rfl, rfl⟩
    rcases handler_cases hh with ⟨hm, rfl⟩ | ⟨hm, rfl⟩ | ⟨hm, hm', rfl⟩
    · exact hw
    · cases hcan
    · exact hw
  refine errs_known hproc ?_
  have hr' : (p.debited e.registryIndex r n).registries[e.registryIndex]? =
      some { r with totalDeposit := r.totalDeposit - n } := by
    unfold Presale.debited
    exact List.getElem?_set_self (List.getElem?_eq_some_iff.1 hr).1
  refine errs_known (getRegistry_eq_ok.2 hr') (errs_bind ?_ fun _ _ => errs_pure _)
  unfold Registry.validateEscrowDeposit
  split
  · exact errs_ok _
  · next hne =>
    refine errs_require fun hlim => ?_
    have hne : e.totalDeposit - n ≠ 0 := hne
    have hlim : ¬ (e.totalDeposit - n ≥ r.buyerMinimumDepositCap ∧ e.totalDeposit - n ≤ r.buyerMaximumDepositCap) := hlim
    obtain ⟨r', hr', E⟩ := S.pinv.escBook hk ha
    rw [hr] at hr'; cases hr'
    have hmax : e.totalDeposit ≤ r.buyerMaximumDepositCap := by
      rcases E.limits with h | h
      · omega
      · exact h.2
    exact ⟨ho, hal, n, hpos, by omega, ht, by omega⟩

theorem errs_withdraw {w : World} (R : Reachable w) {tx : Tx} {a : WithdrawAcc} :
    Errs (Because w (.withdraw a)) (handleWithdraw w tx a) := by
  have W := R.winv
  refine errs_reqx fun hrange => errs_loads fun p hp => errs_reqx fun hva => errs_loads fun m hm =>
    errs_loads fun e he => errs_reqx fun hb => errs_reqx fun _ => ?_
  have S := W.core.sale _ _ hp
  obtain ⟨r, hr, E⟩ := S.pinv.escBook he hb.1
  rw [← hva.2] at hm
  refine errs_time S.clock (errs_bind ((errs_withdrawCore R hp he hb.1 hr hrange.1).mono
    fun x hx => ⟨p, e, r, m, hp, he, hr, hm, hx⟩) fun c hc => ?_)
  obtain ⟨p', e', n⟩ := c
  obtain ⟨h, r', D⟩ := withdrawCore_iff.1 hc
  have hon : Ongoing p w.clock := S.progress_ongoing.1 (progress_ongoing.2 ⟨D.started, D.open_⟩)
  have hal := (canWithdraw_iff D.handler).1 D.allowed
  have key : ∀ x, HookReason .transferHookQuote m a.remaining a.slices x → Because w (.withdraw a) x := by
    intro x hx
    refine ⟨p, e, r, m, hp, he, hr, hm, ?_⟩
    cases x <;> first | exact ⟨hon, hal, hx⟩ | exact hx.elim
  obtain ⟨ex, hex⟩ := excluded_ok (W.core.feeOk _ _ hm) n
  refine errs_bind ((errs_parse m).mono key) fun hooks hparse => errs_bind ?_ fun _ _ => errs_known hex (errs_pure _)
  rw [← hva.2]
  exact (errs_move (kind := .transferHookQuote) hm hparse).mono key

/-! ## Arithmetic fails with one code only -/

abbrev Overflows {α : Type} (x : Except Err α) : Prop := Errs (fun e => e = .mathOverflow) x

theorem over_add64 (a b : Nat) : Overflows (add64 a b) := by
  unfold add64; split
  · exact errs_ok _
  · exact errs_p rfl
theorem over_add128 (a b : Nat) : Overflows (add128 a b) := by
  unfold add128; split
  · exact errs_ok _
  · exact errs_p rfl
theorem over_sub (a b : Nat) : Overflows (sub a b) := by
  unfold sub; split
  · exact errs_ok _
  · exact errs_p rfl
theorem over_mul128 (a b : Nat) : Overflows (mul128 a b) := by
  unfold mul128; split
  · exact errs_ok _
  · exact errs_p rfl
theorem over_div (a b : Nat) : Overflows (div a b) := by
  unfold div; split
  · exact errs_p rfl
  · exact errs_ok _
theorem over_cast64 (a : Nat) : Overflows (cast64 a) := by
  unfold cast64; split
  · exact errs_ok _
  · exact errs_p rfl
theorem over_shl128 (a b : Nat) : Overflows (shl128 a b) := by
  unfold shl128; split
  · exact errs_ok _
  · exact errs_p rfl

theorem over_fee (n bps : Nat) : Overflows (calculateDepositFeeIncludedAmount n bps .up) := by
  unfold calculateDepositFeeIncludedAmount
  refine errs_bind (over_sub _ _) fun _ _ => errs_bind (over_mul128 _ _) fun _ _ => errs_bind ?_ fun _ _ =>
    errs_bind (over_div _ _) fun _ _ => errs_bind (over_sub _ _) fun _ _ => errs_bind (over_cast64 _) fun _ _ =>
    errs_bind (over_cast64 _) fun _ _ => errs_pure _
  exact errs_bind (over_sub _ _) fun _ _ => over_add128 _ _

theorem over_included (m : MintInfo) (n : Nat) : Overflows (transferFeeIncludedAmount m n) := by
  unfold transferFeeIncludedAmount
  split
  · exact errs_ok _
  · split
    · exact errs_ok _
    · refine errs_bind ?_ fun _ _ => errs_bind (over_add64 _ _) fun _ _ => ?_
      · unfold feeToAdd
        split
        · exact errs_ok _
        · split
          · exact errs_ok _
          · exact errs_p rfl
      · split
        · exact errs_panic
        · exact errs_pure _

theorem over_quota {p : Presale} {e : Escrow} {r : Registry} (h : Handler)
    (hr : p.registries[e.registryIndex]? = some r) : Overflows (h.getRemainingDepositQuota p e) := by
  have hpers : Overflows (e.getRemainingDepositQuota r.buyerMaximumDepositCap) := by
    unfold Escrow.getRemainingDepositQuota
    dsimp only
    split
    · exact errs_ok _
    · exact over_sub _ _
  cases h with
  | fixedPrice q _ _ =>
    refine errs_bind (over_sub _ _) fun _ _ => errs_known (getRegistry_eq_ok.2 hr) (errs_bind ?_ fun _ _ => ?_)
    · unfold Handler.fixedRegistrySold
      split
      · refine errs_bind (errs_bind (over_shl128 _ _) fun _ _ => over_div _ _) fun _ _ =>
          errs_bind (over_cast64 _) fun _ _ => errs_pure _
      · exact errs_ok _
    · split
      · exact errs_pure _
      · exact errs_bind (over_sub _ _) fun _ _ => errs_bind (over_mul128 _ _) fun _ _ =>
          errs_bind (over_cast64 _) fun _ _ => errs_bind hpers fun _ _ => errs_pure _
  | prorata => exact errs_known (getRegistry_eq_ok.2 hr) hpers
  | fcfs _ =>
    exact errs_bind (over_sub _ _) fun _ _ => errs_known (getRegistry_eq_ok.2 hr)
      (errs_bind hpers fun _ _ => errs_pure _)

theorem over_deposit {p : Presale} {e : Escrow} {r : Registry} {n : Nat}
    (hr : p.registries[e.registryIndex]? = some r) : Overflows (p.deposit e n) := by
  refine errs_known (getRegistry_eq_ok.2 hr) (errs_bind (over_fee _ _) fun _ _ => errs_bind ?_ fun _ _ =>
    errs_bind (over_add64 _ _) fun _ _ => errs_bind (over_add64 _ _) fun _ _ => errs_pure _)
  exact errs_bind (over_add64 _ _) fun _ _ => errs_bind (over_add64 _ _) fun _ _ =>
    errs_bind (errs_bind (over_add64 _ _) fun _ _ => errs_bind (over_add64 _ _) fun _ _ => errs_pure _)
      fun _ _ => errs_pure _

/-- An overflow that is excused by `U`. -/
theorem errs_over {α : Type} {S : PErr → Prop} {x : Except Err α} {U : Prop} (h : Overflows x)
    (hU : U → S .mathOverflow) (hok : ¬ U → ∃ a, x = .ok a) : Errs S x := by
  by_cases hu : U
  · exact h.mono fun e he => by rw [he]; exact hU hu
  · obtain ⟨a, ha⟩ := hok hu
    exact errs_of_ok ha

/-! ## Deposits -/

/-- A deposit that can be accounted for goes through the arithmetic. -/
theorem bookable_ok {w : World} (R : Reachable w) {a k : Addr} {p : Presale} {e : Escrow} {r : Registry}
    {m : MintInfo} {n : Nat} (hp : w.presales a = some p) (hk : w.escrows.get? k = some e) (ha : e.presale = a)
    (hr : p.registries[e.registryIndex]? = some r) (hm : w.tk.mints p.quoteMint = some m)
    (hu : ¬ Unbookable p r m n) :
    ∃ c, calculateDepositFeeIncludedAmount n r.depositFeeBps .up = .ok c ∧
      (∃ x, p.deposit e n = .ok x) ∧ ∃ g, transferFeeIncludedAmount m c.amountIncludedFee = .ok g := by
  have S := R.winv.core.sale _ _ hp
  have P := S.pinv
  unfold Unbookable at hu
  have hu' : ∃ fee gross, Charge m r.depositFeeBps n fee gross ∧ gross < u64Bound ∧
      p.totalDeposit + n < u64Bound ∧ p.totalDepositFee + fee < u64Bound := by
    refine Classical.byContradiction fun h => hu fun fee gross hc => ?_
    refine Classical.byContradiction fun h' => h ⟨fee, gross, hc, ?_⟩
    rw [u64Bound_eq]
    omega
  obtain ⟨fee, gross, hc, h1, h2, h3⟩ := hu'
  have hex := hc.exact
  obtain ⟨r0, hr0, E⟩ := P.escBook hk ha
  rw [hr] at hr0; cases hr0
  have hbps := (P.static.reg _ _ hr E.idx).2.2.2.2
  obtain ⟨c, hfees⟩ : ∃ c, calculateDepositFeeIncludedAmount n r.depositFeeBps .up = .ok c :=
    (C07_fee_domain (by omega)).2 ⟨by omega, n + fee, fee, by omega, hc.rate, Nat.le_refl _⟩
  obtain ⟨l1, l2, l3⟩ := C07_fee_law hfees
  have hcf : c.fee = fee := by
    have g1 := l3 (n + fee) fee hc.rate (Nat.le_refl _)
    have g2 := hc.leastFee c.fee c.amountIncludedFee l2 (by omega)
    omega
  have hrd : r.totalDeposit ≤ p.totalDeposit := by
    rw [P.book.totDep]; exact le_lsum (g := Registry.totalDeposit) hr
  have hrf : r.totalDepositFee ≤ p.totalDepositFee := by
    rw [P.book.totFee]; exact le_lsum (g := Registry.totalDepositFee) hr
  have hed : e.totalDeposit ≤ r.totalDeposit :=
    le_trans (le_esum (f := Escrow.totalDeposit) (AMap.get?_mem hk) ha rfl) (P.book.reg _ _ hr).dep
  have hef : e.totalDepositFee ≤ r.totalDepositFee :=
    le_trans (le_esum (f := Escrow.totalDepositFee) (AMap.get?_mem hk) ha rfl) (P.book.reg _ _ hr).fee
  refine ⟨c, hfees, ⟨_, deposit_iff.2 ⟨r, hr, hfees, by omega, by omega, by omega, by omega, by omega, by omega, rfl,
    rfl⟩⟩, ?_⟩
  exact (C42_panic_unreachable (R.winv.core.feeOk _ _ hm) (show c.amountIncludedFee < u64Bound by omega)).2.2
    ⟨gross, h1, by omega⟩

theorem finish_ok {t n fee i : Nat} {a : Addr} {p : Presale} {es : AMap Addr Escrow} {r : Registry} (h : Handler)
    (P : PInv t a p es) (ht : t < p.presaleEndTime) : ∃ p', h.endIfMaxCapReached (p.credited i r n fee) t = .ok p' := by
  have hsch := P.sched
  have s1 := hsch.range
  have s2 := hsch.immLe
  by_cases hcond : h.endsEarly = true ∧
      (p.credited i r n fee).presaleMaximumCap ≤ (p.credited i r n fee).totalDeposit
  · refine ⟨_, endIfMaxCapReached_iff.2 (.inl ⟨hcond, ?_, ?_, ?_, rfl⟩)⟩
    · show t + p.lockDuration + p.vestDuration < u64Bound; omega
    · show t + p.lockDuration < u64Bound; omega
    · show t + (p.immediateReleaseTimestamp - p.presaleEndTime) < u64Bound; omega
  · exact ⟨_, endIfMaxCapReached_iff.2 (.inr ⟨hcond, rfl⟩)⟩

theorem errs_depositCore {w : World} (R : Reachable w) {a : DepositAcc} {p : Presale} {e : Escrow} {r : Registry}
    {m : MintInfo} {k key : Addr} (hp : w.presales key = some p) (hk : w.escrows.get? k = some e) (ha : e.presale = key)
    (hr : p.registries[e.registryIndex]? = some r) (hm : w.tk.mints p.quoteMint = some m)
    (hlt : a.maxAmount < u64Bound) :
    Errs (DepositReason w a p e r m) (depositCore p e w.clock.toNat a.maxAmount) := by
  have S := R.winv.core.sale _ _ hp
  have P := S.pinv
  refine errs_req (fun h h' => h (S.progress_ongoing.2 h')) fun ho => ?_
  have hopen := (progress_ongoing.1 ho).2
  have ho := S.progress_ongoing.1 ho
  obtain ⟨h, hh⟩ := P.static.handler
  refine errs_known hh ?_
  have hrd : r.totalDeposit < u64Bound := by
    have : r.totalDeposit ≤ p.totalDeposit := by
      rw [P.book.totDep]; exact le_lsum (g := Registry.totalDeposit) hr
    have := P.book.bound
    omega
  by_cases hw : Payworthy p r
  · have hq := quota_ok P hh hr hw
    have hex : ∃ n, h.suggestDepositAmount (min (remainingQuota p r e) a.maxAmount) = .ok n ∧
        n ≤ min (remainingQuota p r e) a.maxAmount := by
      rcases handler_cases hh with ⟨hm, rfl⟩ | ⟨hm, rfl⟩ | ⟨hm, hm', rfl⟩
      · exact ⟨_, rfl, Nat.le_refl _⟩
      · exact ⟨_, rfl, Nat.le_refl _⟩
      · have hne : p.raw0 ≠ 0 := by have := (P.static.price hm hm').1; omega
        obtain ⟨c, hc, h1, _⟩ := C08_least_charge (q := p.raw0)
          (show min (remainingQuota p r e) a.maxAmount < u64Bound by omega) hne
        exact ⟨c, hc, h1⟩
    obtain ⟨n, hn, hle⟩ := hex
    have htaken := taken_of_suggested (r := r) (e := e) hh hlt hn
    refine errs_known hq ?_
    refine errs_req (fun h => ⟨ho, by rw [show n = 0 by omega] at htaken; exact htaken⟩) fun _ => errs_known hn
      (errs_req (fun h => ⟨ho, by rw [show n = 0 by omega] at htaken; exact htaken⟩) fun hpos => ?_)
    refine errs_bind (errs_over (U := Unbookable p r m n) (over_deposit hr)
      (fun hu => ⟨ho, .inr ⟨n, hpos, htaken, hu⟩⟩)
      (fun hu => (bookable_ok R hp hk ha hr hm hu).choose_spec.2.1)) fun x hx => ?_
    obtain ⟨p1, e1, c⟩ := x
    obtain ⟨r0, hr0, _, _, _, _, _, _, _, rfl, rfl⟩ := deposit_iff.1 hx
    rw [hr] at hr0; cases hr0
    have hr' : (p.credited e.registryIndex r n c.fee).registries[(e.credited n c.fee).registryIndex]? =
        some { r with totalDeposit := r.totalDeposit + n, totalDepositFee := r.totalDepositFee + c.fee } := by
      unfold Presale.credited
      exact List.getElem?_set_self (List.getElem?_eq_some_iff.1 hr).1
    obtain ⟨p', hfin⟩ := finish_ok (n := n) (fee := c.fee) (i := e.registryIndex) (r := r) h P hopen
    refine errs_known (getRegistry_eq_ok.2 hr') (errs_bind ?_ fun _ _ => errs_known hfin (errs_pure _))
    unfold Registry.validateEscrowDeposit
    split
    · exact errs_ok _
    · refine errs_require fun hlim => ?_
      have hlim : ¬ (e.totalDeposit + n ≥ r.buyerMinimumDepositCap ∧ e.totalDeposit + n ≤ r.buyerMaximumDepositCap) :=
        hlim
      have hmax := (quota_le hh hr hq (by omega)).1
      exact ⟨ho, n, hpos, htaken, by omega⟩
  · refine errs_bind ((over_quota h hr).mono fun x hx => by rw [hx]; exact ⟨ho, .inl hw⟩) fun q hq => ?_
    exact absurd (payworthy_of hh hr hrd hq) hw

theorem errs_deposit {w : World} (R : Reachable w) {tx : Tx} {a : DepositAcc} :
    Errs (Because w (.deposit a)) (handleDeposit w tx a) := by
  have W := R.winv
  refine errs_reqx fun hrange => errs_loads fun p hp => errs_reqx fun hva => errs_loads fun m hm =>
    errs_loads fun e he => errs_reqx fun hb => errs_reqx fun _ => ?_
  have S := W.core.sale _ _ hp
  obtain ⟨r, hr, E⟩ := S.pinv.escBook he hb
  rw [← hva.2] at hm
  refine errs_time S.clock (errs_bind ((errs_depositCore R hp he hb hr hm hrange.1).mono
    fun x hx => ⟨p, e, r, m, hp, he, hr, hm, hx⟩) fun d hd => ?_)
  obtain ⟨h, quota, r', D⟩ := depositCore_iff.1 hd
  have hr' := D.registry
  rw [hr] at hr'; cases hr'
  have hon : Ongoing p w.clock := S.progress_ongoing.1 (progress_ongoing.2 ⟨D.started, D.open_⟩)
  have hrd : r.totalDeposit < u64Bound := by have := D.boundR; omega
  have hquota := quota_eq D.handler hr hrd D.quotaIs
  have htaken : DepositTaken p r e a.maxAmount d.amount :=
    taken_of_suggested D.handler hrange.1 (by rw [← hquota]; exact D.suggested)
  have key : ∀ x, HookReason .transferHookQuote m a.remaining a.slices x → Because w (.deposit a) x := by
    intro x hx
    refine ⟨p, e, r, m, hp, he, hr, hm, ?_⟩
    cases x <;> first | exact ⟨hon, hx⟩ | exact hx.elim
  refine errs_bind (errs_over (U := Unbookable p r m d.amount) (over_included _ _)
    (fun hu => ⟨p, e, r, m, hp, he, hr, hm, hon, .inr ⟨d.amount, D.pos, htaken, hu⟩⟩) (fun hu => ?_)) fun g hg =>
      errs_bind ((errs_parse m).mono key) fun hooks hparse => errs_bind ?_ fun _ _ => errs_pure _
  · obtain ⟨c, hc, _, hg⟩ := bookable_ok R hp he hb hr hm hu
    have := D.fees
    rw [hc] at this
    cases this
    exact hg
  · rw [← hva.2]
    exact (errs_move (kind := .transferHookQuote) hm hparse).mono key


end Verif
