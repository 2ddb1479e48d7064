import Verif.Props.Deposit
import Verif.Props.Creation
/-!
# C48: deposits succeed whenever there is room; C47: reaching the minimum cap
-/

namespace Verif
open Spec

/-- `who` may spend `amount` from the account: as owner who did not delegate to itself, or as delegate with a
sufficient allowance. -/
def Spec.MaySpend (t : TokAcct) (who : Addr) (amount : Nat) : Prop :=
  (∃ n, t.delegate = some (who, n) ∧ amount ≤ n) ∨
  (t.owner = who ∧ ∀ d, t.delegate = some d → d.1 ≠ who)

/-- Nothing outside the program stands in the way of the payment: right token program and hook accounts, hooks
accept, no account is frozen, the payer may spend and has `gross`, the vault has room for `net`. -/
structure Spec.Collectable (k : Tokens) (tx : Tx) (mint vault src payer : Addr) (prog : TokenProgram)
    (remaining : List Addr) (slices : List RemSlice) (m : MintInfo) (gross net : Nat) : Prop where
  accepted : tx.accept = true
  mintIs : k.mints mint = some m
  program : m.program = prog
  hooks : HooksFit .transferHookQuote m remaining slices
  source : ∃ s, k.toks src = some s ∧ s.mint = mint ∧ s.frozen = false ∧ gross ≤ s.amount ∧ MaySpend s payer gross
  vault : ∃ v, k.toks vault = some v ∧ v.frozen = false ∧ v.amount + net < 2 ^ 64

theorem authorize_ok {t : TokAcct} {who : Addr} {n : Nat} (h : MaySpend t who n) :
    ∃ dlg, authorizeSpend t who n = .ok dlg := by
  unfold authorizeSpend
  rcases h with ⟨k, hd, hk⟩ | ⟨ho, hd⟩
  · rw [hd]; simp only [if_true]; rw [if_neg (by omega)]; exact ⟨_, rfl⟩
  · cases h : t.delegate with
    | none => simp only [ho, if_true]; exact ⟨_, rfl⟩
    | some d =>
      obtain ⟨a, k⟩ := d
      have := hd _ h
      simp only [ho, if_true]
      rw [if_neg this]; exact ⟨_, rfl⟩

theorem tokensAtPrice_fits {q a s : Nat} (h : tokensAtPrice q a ≤ s) (hs : s < u64Bound) :
    tokensAtPrice q a < u64Bound := by omega

/-- The quota is computed exactly when what is left can be paid for. -/
theorem quota_ok {a : Addr} {p : Presale} {t : Nat} {es : AMap Addr Escrow} {e : Escrow} {r : Registry} {h : Handler}
    (P : PInv t a p es) (hh : getPresaleModeHandler p = .ok h) (hr : p.registries[e.registryIndex]? = some r)
    (hw : Payworthy p r) : h.getRemainingDepositQuota p e = .ok (remainingQuota p r e) := by
  have hcap := P.book.cap
  have hrt : r.totalDeposit ≤ p.totalDeposit := by
    rw [P.book.totDep]; exact le_lsum (g := Registry.totalDeposit) hr
  have hbound := P.book.bound
  suffices hs : ∃ q, h.getRemainingDepositQuota p e = .ok q by
    obtain ⟨q, hq⟩ := hs
    rw [hq, quota_eq hh hr (by omega) hq]
  rcases handler_cases hh with ⟨hm, rfl⟩ | ⟨hm, rfl⟩ | ⟨hm, hm', rfl⟩
  · simp only [Handler.getRemainingDepositQuota, getRegistry_eq_ok.2 hr, ok_bind, personalQuota_eq]
    exact ⟨_, rfl⟩
  · simp only [Handler.getRemainingDepositQuota, Presale.getRemainingDepositQuota, sub_ok (hcap (by omega)),
      getRegistry_eq_ok.2 hr, ok_bind, personalQuota_eq]
    exact ⟨_, rfl⟩
  · obtain ⟨hq0, _, hsup⟩ := P.static.price hm hm'
    have hne : p.raw0 ≠ 0 := by omega
    have hsl := P.static.supplyLt
    have hsold : Handler.fixedRegistrySold p.raw0 r = .ok (sold p r) := by
      unfold Handler.fixedRegistrySold sold
      rw [if_neg (show ¬(p.presaleMode = 1 ∨ p.presaleMode = 2) by omega)]
      by_cases hz : r.totalDeposit > 0
      · have hb : tokensAtPrice p.raw0 r.totalDeposit < u64Bound := by
          have := tokensAtPrice_mono (q := p.raw0) (le_trans hrt (hcap hm))
          omega
        rw [if_pos hz, tokenBought_eq (by omega) hne, ok_bind, cast64_ok hb, ok_bind, pure_eq_ok]
      · rw [if_neg hz]
        have hz' : r.totalDeposit = 0 := by omega
        rw [hz', tokensAtPrice_def, Nat.zero_mul, Nat.zero_div, Nat.zero_min]
    have hle : sold p r ≤ r.presaleSupply := by
      unfold sold; rw [if_neg (show ¬(p.presaleMode = 1 ∨ p.presaleMode = 2) by omega)]; exact Nat.min_le_right _ _
    simp only [Handler.getRemainingDepositQuota, Presale.getRemainingDepositQuota, sub_ok (hcap hm),
      getRegistry_eq_ok.2 hr, ok_bind, hsold]
    by_cases hfull : sold p r = r.presaleSupply
    · rw [if_pos hfull]; exact ⟨_, rfl⟩
    · have hc : costOf p.raw0 (r.presaleSupply - sold p r) < 2 ^ 64 := by
        rcases hw with h | h | h
        · exact (hm h).elim
        · exact (hm' h).elim
        · exact h
      rw [costOf_eq] at hc
      have hc' : divCeil ((r.presaleSupply - sold p r) * p.raw0) SCALE_MULTIPLIER < u64Bound := by
        rw [u64Bound_eq]; omega
      have hx : (r.presaleSupply - sold p r) * p.raw0 < u128Bound := by
        have h1 := le_divCeil_mul ((r.presaleSupply - sold p r) * p.raw0) scale_pos
        have h2 := Nat.mul_lt_mul_of_pos_right hc' scale_pos
        rw [u128_eq_sq]
        rw [scale_eq_u64] at h1 h2
        omega
      rw [if_neg hfull, sub_ok hle, ok_bind, mul128_ok hx, ok_bind, cast64_ok hc', ok_bind, personalQuota_eq]
      exact ⟨_, rfl⟩

/-- And if it cannot be paid for, no deposit into the registry is possible, whatever the amount. -/
theorem quota_blocked {p : Presale} {e : Escrow} {r : Registry} {h : Handler} {q : Nat}
    (hh : getPresaleModeHandler p = .ok h) (hr : p.registries[e.registryIndex]? = some r)
    (hd : r.totalDeposit < u64Bound) (hw : ¬ Payworthy p r) (hs : sold p r ≠ r.presaleSupply) :
    h.getRemainingDepositQuota p e ≠ .ok q := by
  intro hq
  have hq' := hq
  rcases handler_cases hh with ⟨hm, rfl⟩ | ⟨hm, rfl⟩ | ⟨hm, hm', rfl⟩
  · exact hw (.inl hm)
  · exact hw (.inr (.inl hm))
  · simp only [Handler.getRemainingDepositQuota, bind_eq_ok, getRegistry_eq_ok, hr] at hq
    obtain ⟨_, _, _, h1, s, hs', hq⟩ := hq
    cases h1
    have hsold : s = sold p r := by
      unfold sold
      rw [if_neg (by omega)]
      unfold Handler.fixedRegistrySold at hs'
      by_cases hz : r.totalDeposit > 0
      · rw [if_pos hz] at hs'
        simp only [bind_eq_ok, cast64_eq_ok, pure_eq_ok] at hs'
        obtain ⟨b, hb, c, ⟨_, rfl⟩, rfl⟩ := hs'
        have hne : p.raw0 ≠ 0 := by
          simp only [calculateTokenBought, bind_eq_ok, div_eq_ok] at hb
          obtain ⟨_, _, hb, _⟩ := hb
          exact hb
        rw [tokenBought_eq hd hne] at hb
        cases hb; rfl
      · rw [if_neg hz] at hs'
        have hz' : r.totalDeposit = 0 := by omega
        cases hs'
        rw [hz', tokensAtPrice_def, Nat.zero_mul, Nat.zero_div]; omega
    rw [if_neg (by rw [hsold]; exact hs)] at hq
    simp only [bind_eq_ok, pure_eq_ok, sub_eq_ok, mul128_eq_ok, cast64_eq_ok] at hq
    obtain ⟨_, ⟨_, rfl⟩, _, ⟨_, rfl⟩, g, ⟨hg, rfl⟩, _⟩ := hq
    apply hw
    refine .inr (.inr ?_)
    rw [costOf_eq, ← hsold]
    rw [u64Bound_eq] at hg
    omega

/-- **C48**, **C58** (partial for C48, whose full statement has no condition on the price: `C48_room_but_blocked`
refutes it). In an open sale, if the amount the terms prescribe is positive and brings the escrow above the minimum of
its registry, the deposit succeeds unless the payment is impossible: no counter overflows, in any reachable state.
The one condition on the sale itself is that what is left of a fixed-price registry costs less than `2^64`. -/
theorem C48_deposit_succeeds_partial {w : World} (R : Reachable w) {tx : Tx} {x : DepositAcc} {p : Presale} {e : Escrow}
    {r : Registry} {m : MintInfo} {n fee gross : Nat} (hp : w.presales x.presale = some p)
    (hk : w.escrows.get? x.escrow = some e)
    (ha : e.presale = x.presale) (hr : p.registries[e.registryIndex]? = some r) (ho : Ongoing p w.clock)
    (hmax : x.maxAmount < 2 ^ 64) (hn : 0 < n) (htaken : DepositTaken p r e x.maxAmount n)
    (hmin : r.buyerMinimumDepositCap ≤ e.totalDeposit + n) (hw : Payworthy p r)
    (hs : tx.signed x.payer = true) (hv : x.quoteTokenVault = p.quoteTokenVault) (hm : x.quoteMint = p.quoteMint)
    (hc : Charge m r.depositFeeBps n fee gross)
    (hpay : Collectable w.tk tx p.quoteMint p.quoteTokenVault x.payerQuoteToken x.payer x.tokenProgram
      x.remaining x.slices m gross (n + fee)) :
    ∃ w' rc, step w (.ix tx (.deposit x)) = .ok (w', rc) := by
  have W := R.winv
  have S := W.core.sale _ _ hp
  have P := S.pinv
  obtain ⟨h, hh⟩ := P.static.handler
  have hclock := S.clock
  obtain ⟨ho1, ho2⟩ := ho
  have hopen : w.clock.toNat < p.presaleEndTime := by omega
  have hfl := P.flags
  -- room in the vault bounds every counter
  obtain ⟨v, hvt, hvf, hroom⟩ := hpay.vault
  have hroom : v.amount + (n + fee) < u64Bound := by rw [u64Bound_eq]; omega
  have hmoney : p.totalDeposit + p.totalDepositFee ≤ v.amount ∧ v.mint = p.quoteMint := by
    obtain ⟨b, q0, _, _, h1, h2, M⟩ := S.vaults
    rw [P.static.quoteVault] at hvt
    rw [hvt] at h1; cases h1
    have h3 := ((Money.open_iff (hfl.open_ hopen) (hfl.failed (Or.inl hopen)).1 (hfl.failed (Or.inl hopen)).2).1 M).1
    have h4 := P.book.refunded0 hopen
    exact ⟨by omega, h2⟩
  have hrd : r.totalDeposit ≤ p.totalDeposit := by
    rw [P.book.totDep]; exact le_lsum (g := Registry.totalDeposit) hr
  have hrf : r.totalDepositFee ≤ p.totalDepositFee := by
    rw [P.book.totFee]; exact le_lsum (g := Registry.totalDepositFee) hr
  have hed : e.totalDeposit ≤ r.totalDeposit :=
    le_trans (le_esum (f := Escrow.totalDeposit) (AMap.get?_mem hk) ha rfl) (P.book.reg _ _ hr).dep
  have hef : e.totalDepositFee ≤ r.totalDepositFee :=
    le_trans (le_esum (f := Escrow.totalDepositFee) (AMap.get?_mem hk) ha rfl) (P.book.reg _ _ hr).fee
  obtain ⟨r0, hr0, E⟩ := P.escBook hk ha
  rw [hr] at hr0; cases hr0
  have hbps := (P.static.reg _ _ hr E.idx).2.2.2.2
  -- the amount
  have hmax' : x.maxAmount < u64Bound := by rw [u64Bound_eq]; omega
  have hq := quota_ok P hh hr hw
  have hcomm : min x.maxAmount (remainingQuota p r e) = min (remainingQuota p r e) x.maxAmount := Nat.min_comm _ _
  have hsug : h.suggestDepositAmount (min (remainingQuota p r e) x.maxAmount) = .ok n ∧
      n ≤ min (remainingQuota p r e) x.maxAmount := by
    unfold DepositTaken at htaken
    rw [hcomm] at htaken
    rcases handler_cases hh with ⟨hm, rfl⟩ | ⟨hm, rfl⟩ | ⟨hm, hm', rfl⟩
    · rw [if_pos (.inl hm)] at htaken; subst htaken; exact ⟨rfl, Nat.le_refl _⟩
    · rw [if_pos (.inr hm)] at htaken; subst htaken; exact ⟨rfl, Nat.le_refl _⟩
    · rw [if_neg (by omega)] at htaken
      have hne : p.raw0 ≠ 0 := by have := (P.static.price hm hm').1; omega
      obtain ⟨c, hc', h1, h2, h3⟩ := C08_least_charge (q := p.raw0)
        (show min (remainingQuota p r e) x.maxAmount < u64Bound by omega) hne
      have hcn : c = n := by
        rcases Nat.lt_trichotomy c n with hlt | heq | hgt
        · have := htaken.least c hlt; omega
        · exact heq
        · have := h3 n hgt; have := htaken.same; omega
      subst hcn
      exact ⟨hc', h1⟩
  have hpers : e.totalDeposit + n ≤ r.buyerMaximumDepositCap := by
    have h1 : n ≤ remainingQuota p r e := by omega
    have := (quota_le hh hr hq (by omega)).1
    omega
  -- the fee
  obtain ⟨c, hfees⟩ : ∃ c, calculateDepositFeeIncludedAmount n r.depositFeeBps .up = .ok c :=
    (C07_fee_domain (by omega)).2 ⟨by omega, n + fee, fee, by omega, hc.rate, Nat.le_refl _⟩
  obtain ⟨l1, l2, l3⟩ := C07_fee_law hfees
  have hcf : c.fee = fee := by
    have g1 := l3 (n + fee) fee hc.rate (Nat.le_refl _)
    have g2 := hc.leastFee c.fee c.amountIncludedFee l2 (by omega)
    omega
  -- the end of the sale
  obtain ⟨p', hfin⟩ : ∃ p', h.endIfMaxCapReached (p.credited e.registryIndex r n c.fee) w.clock.toNat = .ok p' := by
    have hsch := P.sched
    have s1 := hsch.range
    have s2 := hsch.immLe
    by_cases hcond : h.endsEarly = true ∧
        (p.credited e.registryIndex r n c.fee).presaleMaximumCap ≤ (p.credited e.registryIndex r n c.fee).totalDeposit
    · refine ⟨_, endIfMaxCapReached_iff.2 (.inl ⟨hcond, ?_, ?_, ?_, rfl⟩)⟩
      · show w.clock.toNat + p.lockDuration + p.vestDuration < u64Bound; omega
      · show w.clock.toNat + p.lockDuration < u64Bound; omega
      · show w.clock.toNat + (p.immediateReleaseTimestamp - p.presaleEndTime) < u64Bound; omega
    · exact ⟨_, endIfMaxCapReached_iff.2 (.inr ⟨hcond, rfl⟩)⟩
  let d : DepositResult := { presale := p', escrow := e.credited n c.fee, amount := n, fees := c }
  have D : DepositCoreFacts p e w.clock.toNat x.maxAmount d h (remainingQuota p r e) r :=
    { started := by omega, open_ := hopen, handler := hh, quotaIs := hq, capped := by omega,
      suggested := hsug.1, pos := hn, registry := hr, fees := hfees,
      boundR := by show r.totalDeposit + n < _; omega, boundRF := by show r.totalDepositFee + c.fee < _; omega,
      boundE := by show e.totalDeposit + n < _; omega, boundEF := by show e.totalDepositFee + c.fee < _; omega,
      boundP := by show p.totalDeposit + n < _; omega, boundPF := by show p.totalDepositFee + c.fee < _; omega,
      within := ⟨hmin, hpers⟩, escrow := rfl, finish := hfin }
  -- the payment
  obtain ⟨s, hst, hsm, hsf, hsa, hsp⟩ := hpay.source
  have hfeeOk := W.core.feeOk _ _ hpay.mintIs
  have hsamt := W.core.amounts _ _ hst
  have hgross : transferFeeIncludedAmount m c.amountIncludedFee = .ok gross := by
    have hnet : c.amountIncludedFee = n + fee := by omega
    rw [hnet]
    obtain ⟨g, hg⟩ := (C42_panic_unreachable hfeeOk (show n + fee < u64Bound by omega)).2.2
      ⟨gross, by omega, hc.exact⟩
    obtain ⟨i1, _, _, i4⟩ := C42_inversion_exact hfeeOk (show n + fee < u64Bound by omega) hg
    have := i4 gross hc.exact
    have := hc.leastGross g i1
    rw [hg, show g = gross by omega]
  obtain ⟨hsl, hooks, rest, hparse, hhook⟩ := parse_fits hpay.hooks
  obtain ⟨dlg, hauth⟩ := authorize_ok hsp
  have hex := hc.exact
  have T : TransferFacts w.tk x.payer p.quoteMint x.payerQuoteToken p.quoteTokenVault x.tokenProgram gross hooks.quote
      tx.accept _ _ s v m dlg :=
    { hs := hst, hm := hpay.mintIs, hd := hvt, hook := hhook, prog := hpay.program, smint := hsm, dmint := hmoney.2,
      sfrozen := hsf, dfrozen := hvf, enough := hsa, auth := hauth, acc := hpay.accepted,
      room := fun _ => by omega, cpi := rfl, post := rfl }
  have T' := transferTokens_iff.2 ⟨s, v, m, dlg, T⟩
  have F : DepositFacts w tx x _ _ p m e d gross hooks rest _ _ :=
    { range := ⟨hmax', hsl⟩, presale := hp, vault := ⟨hv.symm, hm.symm⟩, mint := by rw [hm]; exact hpay.mintIs,
      escrow := hk, belongs := ha, signed := hs, clock := hclock, core := depositCore_iff.2 ⟨_, _, _, D⟩,
      gross := hgross, parse := hparse, transfer := by rw [hv, hm]; exact T', post := rfl, receipt := rfl }
  exact ⟨_, _, handleDeposit_iff.2 ⟨_, _, _, _, _, _, _, _, _, F⟩⟩

/-- **C58**, the exception: while what is left of a fixed-price registry costs `2^64` or more, nobody can deposit
into it, although the terms leave room. -/
theorem C58_blocked {w : World} (R : Reachable w) {tx : Tx} {x : DepositAcc} {p : Presale} {e : Escrow}
    {r : Registry} (hp : w.presales x.presale = some p) (hk : w.escrows.get? x.escrow = some e)
    (hr : p.registries[e.registryIndex]? = some r) (hw : ¬ Payworthy p r) (hs : sold p r ≠ r.presaleSupply) :
    ∃ err, step w (.ix tx (.deposit x)) = .error err := by
  cases hst : step w (.ix tx (.deposit x)) with
  | error err => exact ⟨err, rfl⟩
  | ok res =>
    obtain ⟨w', rc⟩ := res
    obtain ⟨p1, m, e1, d, inc, hooks, rest, tk, cpi, F⟩ := handleDeposit_iff.1 hst
    have h1 := F.presale; rw [hp] at h1; cases h1
    have h2 := F.escrow; rw [hk] at h2; cases h2
    obtain ⟨h, quota, r1, D⟩ := depositCore_iff.1 F.core
    have h3 := D.registry; rw [hr] at h3; cases h3
    exact (quota_blocked D.handler hr (by have := D.boundR; omega) hw hs D.quotaIs).elim

/-- **C58**: a condition on the terms under which the exception never occurs. -/
theorem C58_terms_suffice {p : Presale} {r : Registry} (h : costOf p.raw0 r.presaleSupply < 2 ^ 64) :
    Payworthy p r := by
  refine .inr (.inr (lt_of_le_of_lt ?_ h))
  unfold costOf
  exact Nat.div_le_div_right (Nat.add_le_add_right (Nat.mul_le_mul_right _ (Nat.sub_le _ _)) _)

/-! ## C47 -/

/-- **C47** in a running sale: if one registry sells everything and an escrow may deposit the whole maximum cap, a
deposit of the maximum cap into the empty sale is charged more than the minimum cap. -/
theorem C47_first_deposit_reaches {w : World} (R : Reachable w) {a : Addr} {p : Presale} {e : Escrow} {r : Registry}
    {n : Nat} (hp : w.presales a = some p) (hm : p.presaleMode ≠ 1) (hm' : p.presaleMode ≠ 2)
    (hempty : p.totalDeposit = 0) (hone : p.totalPresaleRegistryCount = 1) (hr : p.registries[0]? = some r)
    (hpers : personalQuota r e = p.presaleMaximumCap) (h : DepositTaken p r e p.presaleMaximumCap n) :
    p.presaleMinimumCap < n ∧ n ≤ p.presaleMaximumCap := by
  have S := R.winv.core.sale _ _ hp
  have P := S.pinv
  obtain ⟨hq0, _, hsup⟩ := P.static.price hm hm'
  obtain ⟨p0, D, ht, _⟩ := S.origin
  have t1 : p.presaleMode = p0.presaleMode := (congrArg Presale.presaleMode ht :)
  have t2 : p.raw0 = p0.raw0 := (congrArg Presale.raw0 ht :)
  have t3 : p.presaleMinimumCap = p0.presaleMinimumCap := (congrArg Presale.presaleMinimumCap ht :)
  have t4 : p.presaleMaximumCap = p0.presaleMaximumCap := (congrArg Presale.presaleMaximumCap ht :)
  have hgap := (D.price (t1 ▸ hm) (t1 ▸ hm')).2.2.2
  rw [← t2, ← t3, ← t4] at hgap
  have hrd : r.totalDeposit = 0 := by
    have : r.totalDeposit ≤ p.totalDeposit := by
      rw [P.book.totDep]; exact le_lsum (g := Registry.totalDeposit) hr
    omega
  have hrs : r.presaleSupply = p.presaleSupply := by
    obtain ⟨l, hl⟩ : ∃ l, p.registries = r :: l := by
      cases hl : p.registries with
      | nil => rw [hl] at hr; simp at hr
      | cons y l => rw [hl] at hr; simp at hr; exact ⟨l, by rw [hr]⟩
    have hz : lsum Registry.presaleSupply l = 0 := by
      have : ∀ (i : Nat) (s : Registry), l[i]? = some s → s.presaleSupply = 0 := by
        intro i s hs
        have := P.static.unused (i + 1) s (by rw [hl]; exact hs) (by omega)
        exact (congrArg Registry.presaleSupply this :)
      rw [lsum_congr (g' := fun _ => 0) this]
      clear hl this
      induction l with
      | nil => rfl
      | cons y l ih => simpa [lsum] using ih
    have h1 := P.static.supply
    rw [hl] at h1
    have h2 : lsum Registry.presaleSupply (r :: l) = r.presaleSupply + lsum Registry.presaleSupply l := by
      simp [lsum]
    omega
  have hsold : sold p r = 0 := by
    unfold sold
    rw [if_neg (by omega), hrd, tokensAtPrice_def, Nat.zero_mul, Nat.zero_div, Nat.zero_min]
  have hpos : 0 < r.presaleSupply := (P.static.reg 0 r hr (by omega)).1
  unfold DepositTaken at h
  rw [if_neg (by omega)] at h
  -- the quota buys as much as the maximum cap
  have hbuy : tokensAtPrice p.raw0 p.presaleMaximumCap ≤
      tokensAtPrice p.raw0 (min p.presaleMaximumCap (remainingQuota p r e)) := by
    unfold remainingQuota
    rw [if_neg hm, if_neg hm', hsold, if_neg (by omega), hpers, hempty, Nat.sub_zero, Nat.sub_zero, Nat.min_self]
    rcases Nat.le_total p.presaleMaximumCap (costOf p.raw0 r.presaleSupply) with hc | hc
    · rw [Nat.min_eq_left hc, Nat.min_self]
    · rw [Nat.min_eq_right hc, Nat.min_eq_right hc]
      refine le_trans hsup ?_
      rw [← hrs, tokensAtPrice_def, costOf_eq, Nat.le_div_iff_mul_le hq0]
      exact le_divCeil_mul _ scale_pos
  refine ⟨?_, le_trans h.le (Nat.min_le_left _ _)⟩
  by_contra hlt
  have := tokensAtPrice_mono (q := p.raw0) (show n ≤ p.presaleMinimumCap by omega)
  have := h.same
  omega

/-- The rest up to the maximum cap buys nothing and nobody may withdraw. -/
structure Stuck (p : Presale) : Prop where
  fixed : p.presaleMode ≠ 1 ∧ p.presaleMode ≠ 2
  rest : tokensAtPrice p.raw0 (p.presaleMaximumCap - p.totalDeposit) = 0
  locked : ¬ WithdrawAllowed p

theorem Stuck.no_deposit {w : World} (R : Reachable w) {a : Addr} {p : Presale} (hp : w.presales a = some p)
    (hs : Stuck p) {tx : Tx} {x : DepositAcc} (hx : x.presale = a) :
    ∃ err, step w (.ix tx (.deposit x)) = .error err := by
  cases h : step w (.ix tx (.deposit x)) with
  | error err => exact ⟨err, rfl⟩
  | ok res =>
    obtain ⟨w', rc⟩ := res
    obtain ⟨q, q', e, e', r, r', n, fee, gross, D⟩ := C06_deposit R h
    have h1 := D.presale
    rw [hx, hp] at h1; cases h1
    obtain ⟨hm, hm'⟩ := hs.fixed
    have ht := D.taken
    unfold DepositTaken at ht
    rw [if_neg (by omega)] at ht
    have hle : min x.maxAmount (remainingQuota p r e) ≤ p.presaleMaximumCap - p.totalDeposit := by
      unfold remainingQuota
      rw [if_neg hm, if_neg hm']
      by_cases hf : sold p r = r.presaleSupply
      · rw [if_pos hf]; omega
      · rw [if_neg hf]; omega
    have h2 := tokensAtPrice_mono (q := p.raw0) hle
    have h3 := ht.least 0 D.positive
    have h4 := hs.rest
    omega

/-- **C47**, the other part: a fixed-price sale without withdrawals whose rest buys nothing stays where it is for
ever, so if it is below its minimum cap it fails, whatever anybody does. -/
theorem C47_stuck_forever {w : World} (R : Reachable w) {a : Addr} {p : Presale} (hp : w.presales a = some p)
    (hs : Stuck p) (ops : List Op) :
    ∃ p', (run w ops).presales a = some p' ∧ p'.totalDeposit = p.totalDeposit ∧ Stuck p' := by
  induction ops generalizing w p with
  | nil => exact ⟨p, hp, rfl, hs⟩
  | cons op ops ih =>
    have W := R.winv
    obtain ⟨p1, hp1, L⟩ := run_later W [op] hp
    have hp1 : (apply w op).presales a = some p1 := hp1
    have ht := L.terms
    have htot : p1.totalDeposit = p.totalDeposit := by
      rcases apply_cases w op with h | ⟨rc, h⟩
      · rw [h, hp] at hp1; cases hp1; rfl
      · cases step_effect W h with
        | quiet h1 => rw [h1, hp] at hp1; cases hp1; rfl
        | @create tx x q h1 h2 h3 h4 =>
          rw [h4] at hp1
          by_cases hx : a = x.presaleKey
          · rw [← hx, hp] at h2; cases h2
          · rw [upd_other _ _ hx, hp] at hp1; cases hp1; rfl
        | @act tx i b q q' es' h1 h2 A h4 =>
          rw [h4] at hp1
          by_cases hb : a = b
          · subst hb
            rw [hp] at h2; cases h2
            rw [upd_self] at hp1; cases hp1
            subst h1
            cases A with
            | deposit here => 
              obtain ⟨err, he⟩ := hs.no_deposit R hp (tx := tx) here
              rw [he] at h; cases h
            | withdraw _ _ _ _ _ F =>
              exact (hs.locked ((canWithdraw_iff F.handler).1 F.allowed)).elim
            | _ => rfl
          · rw [upd_other _ _ hb, hp] at hp1; cases hp1; rfl
    have t1 : p1.presaleMode = p.presaleMode := (congrArg Presale.presaleMode ht :)
    have t2 : p1.raw0 = p.raw0 := (congrArg Presale.raw0 ht :)
    have t3 : p1.raw1 = p.raw1 := (congrArg Presale.raw1 ht :)
    have t4 : p1.presaleMaximumCap = p.presaleMaximumCap := (congrArg Presale.presaleMaximumCap ht :)
    have hs1 : Stuck p1 := by
      refine ⟨by rw [t1]; exact hs.fixed, by rw [t2, t4, htot]; exact hs.rest, ?_⟩
      have := hs.locked
      unfold WithdrawAllowed at this ⊢
      rw [t1, t3]; exact this
    obtain ⟨p2, hp2, e2, s2⟩ := ih (R.run [op]) hp1 hs1
    exact ⟨p2, hp2, e2.trans htot, s2⟩

namespace Ex

/-- A fixed-price sale of one registry with its own caps, price and withdrawal flag. -/
def customOps (price disableWithdraw minCap maxCap buyerMin supply : Nat) : List Op :=
  [.ix (tx [creator]) (.initFixedArgs ⟨creator, creator, sale, disableWithdraw, price⟩),
   .ix (tx [creator, baseKey]) (.initPresale
     { initArgs 0 0 0 [{ buyerMinimumDepositCap := buyerMin, buyerMaximumDepositCap := maxCap,
                         presaleSupply := supply, depositFeeBps := 200 }] with
       args := { presaleParams := { params 0 0 0 with presaleMinimumCap := minCap, presaleMaximumCap := maxCap },
                 lockedVestingParams := vesting,
                 presaleRegistries := [{ buyerMinimumDepositCap := buyerMin, buyerMaximumDepositCap := maxCap,
                                         presaleSupply := supply, depositFeeBps := 200 }] } }),
   .tick 10, open' alice]

/-- 10/3 quote units per base unit, caps 6 and 7, no withdrawals: alice buys one base unit for 4. -/
def stuckWorld : World := run genesis (customOps (10 * 2 ^ 64 / 3) 1 6 7 4 10 ++ [deposit alice aliceQuote 4])

/-- The same sale before the deposit. -/
def emptyWorld : World := run genesis (customOps (10 * 2 ^ 64 / 3) 1 6 7 4 10)

/-- `2^45` quote units per base unit, caps `2^46` and `2^50`, a million base units for sale, of which the maximum cap
buys 32; alice holds `2^60` quote units. -/
def blockedWorld : World :=
  run genesis (customOps (2 ^ 109) 0 (2 ^ 46) (2 ^ 50) (2 ^ 45) 1000000 ++
    [.setTok aliceQuote (some (acct qm alice (2 ^ 60)))])

/-- The same terms with 32 base units for sale. -/
def unblockedWorld : World :=
  run genesis (customOps (2 ^ 109) 0 (2 ^ 46) (2 ^ 50) (2 ^ 45) 32 ++
    [.setTok aliceQuote (some (acct qm alice (2 ^ 60)))])

/-- The conditions of `C48_deposit_succeeds_partial` other than `Payworthy` hold in both worlds; the deposit succeeds in the
second only. Before the deposit of 4 a deposit of 7 would have worked in the sale of `stuckWorld`. -/
example : works unblockedWorld (deposit alice aliceQuote (2 ^ 47)) = true ∧
    works blockedWorld (deposit alice aliceQuote (2 ^ 47)) = false ∧
    works emptyWorld (deposit alice aliceQuote 7) = true ∧
    works stuckWorld (deposit alice aliceQuote 3) = false := by decide +kernel

def quoteInfo : MintInfo :=
  { program := .splToken2022, isNative := false, exts := [.transferFeeConfig],
    fee := some { basisPoints := 100, maximumFee := 50 }, hook := none, supply := 200000 }

/-- The conditions of `C48_deposit_succeeds_partial` on the payment hold for alice depositing 7 into `emptyWorld`: 1 goes to
the fee and the mint withholds another. -/
theorem charge_seven : Charge quoteInfo 200 7 1 9 := by
  refine ⟨⟨by decide, by decide⟩, ?_, by decide, ?_⟩
  · intro f g h1 h2
    have := h1.1
    omega
  · intro other h
    by_contra hlt
    have hlt : other < 9 := by omega
    have key : ∀ o < 9, o - quoteInfo.transferFee o ≠ 8 := by decide
    exact key other hlt h

example : Collectable emptyWorld.tk (tx [alice]) qm (.quoteVault sale) aliceQuote alice .splToken2022 [] [] quoteInfo
    9 8 := by
  refine ⟨rfl, by decide +kernel, rfl, (by unfold HooksFit; rw [if_pos (show quoteInfo.hookProgram = none from rfl)]), ⟨acct qm alice 100000, by decide +kernel, rfl, rfl, by decide, ?_⟩,
    ⟨acct qm .presaleAuthority 0, by decide +kernel, rfl, by decide⟩⟩
  exact .inr ⟨rfl, fun d hd => by cases hd⟩

example : has emptyWorld (fun p => (p.registries[0]?).any fun r => decide (p.presaleMode = 0 ∧ p.totalDeposit = 0 ∧
      p.totalPresaleRegistryCount = 1 ∧ costOf p.raw0 (r.presaleSupply - sold p r) < 2 ^ 64 ∧
      r.depositFeeBps = 200 ∧ r.buyerMinimumDepositCap = 4 ∧ p.presaleMaximumCap = 7 ∧
      r.buyerMaximumDepositCap = 7)) = true ∧
    hasEsc emptyWorld (escrowOf alice) (fun e => decide (e.presale = sale ∧ e.registryIndex = 0 ∧
      e.depositMaxCap = 7 ∧ e.totalDeposit = 0)) = true := by decide +kernel

end Ex

/-- **C47**, settled: a validated sale can be driven into a state below its minimum cap from which it cannot reach
it any more, so that it fails whatever anybody does. -/
theorem C47_can_get_stuck : ∃ (w : World) (a : Addr) (p : Presale), Reachable w ∧ w.presales a = some p ∧
    Ongoing p w.clock ∧ 0 < p.totalDeposit ∧
    ∀ ops, ∃ p', (run w ops).presales a = some p' ∧ p'.totalDeposit < p'.presaleMinimumCap := by
  have R : Reachable Ex.stuckWorld := ⟨Ex.genesis, _, Ex.genesis_ok, rfl⟩
  have h : Ex.has Ex.stuckWorld (fun p => decide (p.totalDeposit = 4 ∧ p.presaleMode = 0 ∧
      p.raw0 = 10 * 2 ^ 64 / 3 ∧ p.raw1 % 256 = 1 ∧ p.presaleMinimumCap = 6 ∧ p.presaleMaximumCap = 7 ∧
      (p.presaleStartTime : Int) ≤ Ex.stuckWorld.clock ∧ Ex.stuckWorld.clock < (p.presaleEndTime : Int))) = true := by
    decide +kernel
  unfold Ex.has at h
  cases hp : Ex.stuckWorld.presales Ex.sale with
  | none => rw [hp] at h; cases h
  | some p =>
    rw [hp] at h
    obtain ⟨h1, h2, h3, h4, h5, h6, h7, h8⟩ := of_decide_eq_true h
    have hs : Stuck p := by
      refine ⟨by omega, ?_, ?_⟩
      · rw [h3, h6, h1]; decide +kernel
      · unfold WithdrawAllowed; omega
    refine ⟨_, _, p, R, hp, ⟨h7, h8⟩, by omega, fun ops => ?_⟩
    obtain ⟨p', hp', ht, _⟩ := C47_stuck_forever R hp hs ops
    obtain ⟨p2, hp2, L⟩ := run_later R.winv ops hp
    rw [hp'] at hp2; cases hp2
    have : p'.presaleMinimumCap = p.presaleMinimumCap := (congrArg Presale.presaleMinimumCap L.terms :)
    exact ⟨p', hp', by omega⟩

/-- **C48** is false as stated: there is an open validated sale with room for a deposit (the quota is positive and one escrow may
use it) in which nevertheless no deposit by anybody succeeds, whatever the amount. -/
theorem C48_room_but_blocked : ∃ (w : World) (a k : Addr) (p : Presale) (e : Escrow) (r : Registry), Reachable w ∧
    w.presales a = some p ∧ Ongoing p w.clock ∧ w.escrows.get? k = some e ∧ e.presale = a ∧
    p.registries[e.registryIndex]? = some r ∧ r.buyerMinimumDepositCap ≤ remainingQuota p r e ∧
    ∀ tx (x : DepositAcc), x.presale = a → ∃ err, step w (.ix tx (.deposit x)) = .error err := by
  have R : Reachable Ex.blockedWorld := ⟨Ex.genesis, _, Ex.genesis_ok, rfl⟩
  have h : Ex.has Ex.blockedWorld (fun p => decide (p.presaleMode = 0 ∧ p.totalDeposit = 0 ∧ p.raw0 = 2 ^ 109 ∧
      p.totalPresaleRegistryCount = 1 ∧ p.presaleMaximumCap = 2 ^ 50 ∧ (p.registries[0]?.map fun r =>
        (r.totalDeposit, r.presaleSupply, r.buyerMinimumDepositCap, r.buyerMaximumDepositCap)) =
        some (0, 1000000, 2 ^ 45, 2 ^ 50) ∧
      (p.presaleStartTime : Int) ≤ Ex.blockedWorld.clock ∧
      Ex.blockedWorld.clock < (p.presaleEndTime : Int))) = true := by decide +kernel
  have he : Ex.hasEsc Ex.blockedWorld (Ex.escrowOf Ex.alice) (fun e => decide (e.presale = Ex.sale ∧
      e.registryIndex = 0 ∧ e.totalDeposit = 0 ∧ e.depositMaxCap = 2 ^ 50)) = true := by decide +kernel
  unfold Ex.has at h
  unfold Ex.hasEsc at he
  cases hp : Ex.blockedWorld.presales Ex.sale with
  | none => rw [hp] at h; cases h
  | some p =>
    cases hk : Ex.blockedWorld.escrows.get? (Ex.escrowOf Ex.alice) with
    | none => rw [hk] at he; cases he
    | some e =>
      rw [hp] at h
      rw [hk] at he
      obtain ⟨h1, h2, h3, h0, h4, h5, h6, h7⟩ := of_decide_eq_true h
      obtain ⟨g1, g2, g3, g4⟩ := of_decide_eq_true he
      cases hr : p.registries[0]? with
      | none => rw [hr] at h5; cases h5
      | some r =>
        rw [hr] at h5
        simp only [Option.map_some, Option.some.injEq, Prod.mk.injEq] at h5
        obtain ⟨r1, r2, r3, r4⟩ := h5
        have hsold : sold p r = 0 := by
          unfold sold
          rw [if_neg (by omega), r1, tokensAtPrice_def, Nat.zero_mul, Nat.zero_div, Nat.zero_min]
        have hcost : costOf p.raw0 (r.presaleSupply - sold p r) = 1000000 * 2 ^ 45 := by
          rw [h3, r2, hsold]; decide +kernel
        refine ⟨_, _, _, p, e, r, R, hp, ⟨h6, h7⟩, hk, g1, by rw [g2]; exact hr, ?_, fun tx x hx => ?_⟩
        · unfold remainingQuota personalQuota
          rw [if_neg (by omega), if_neg (by omega), if_neg (by omega), hcost, h2, h4, r3, r4, g3, g4]
          decide +kernel
        · cases hst : step Ex.blockedWorld (.ix tx (.deposit x)) with
          | error err => exact ⟨err, rfl⟩
          | ok res =>
            obtain ⟨w', rc⟩ := res
            obtain ⟨p1, _, e1, _, _, _, _, _, _, F⟩ := handleDeposit_iff.1 hst
            obtain ⟨_, _, E⟩ := (R.winv.core.sale _ _ hp).pinv.escBook F.escrow (F.belongs.trans hx)
            have hi : e1.registryIndex = 0 := by have := E.idx; omega
            have hw : ¬ Payworthy p r := by unfold Payworthy; rw [hcost]; omega
            obtain ⟨err, herr⟩ := C58_blocked R (tx := tx) (by rw [hx]; exact hp) F.escrow
              (by rw [hi]; exact hr) hw (by omega)
            rw [hst] at herr; cases herr

end Verif
