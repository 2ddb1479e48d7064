import Verif.Lemmas.Moves
import Verif.Props.Lifecycle
/-!
# C06: what a deposit charges; C25: leaving an open sale
-/

namespace Verif
open Spec

theorem costOf_eq (q n : Nat) : costOf q n = divCeil (n * q) SCALE_MULTIPLIER := by
  rw [divCeil_eq _ scale_pos, scale_eq]
  unfold costOf
  have e1 : n * q + (2 ^ 64 - 1) = n * q + 18446744073709551616 - 1 := by omega
  have e2 : (2 : Nat) ^ 64 = 18446744073709551616 := by norm_num
  rw [e1, e2]

theorem personalQuota_eq {r : Registry} {e : Escrow} :
    e.getRemainingDepositQuota r.buyerMaximumDepositCap = .ok (personalQuota r e) := by
  unfold Escrow.getRemainingDepositQuota personalQuota
  simp only
  by_cases h : e.totalDeposit ≥ min r.buyerMaximumDepositCap e.depositMaxCap
  · rw [if_pos h]; congr 1; omega
  · rw [if_neg h, sub_ok (by omega)]

/-- What the handlers call quota is the documented one, whenever it is computed at all. -/
theorem quota_eq {h : Handler} {p : Presale} {e : Escrow} {q : Nat} {r : Registry}
    (hh : getPresaleModeHandler p = .ok h) (hr : p.registries[e.registryIndex]? = some r)
    (hd : r.totalDeposit < u64Bound) (hq : h.getRemainingDepositQuota p e = .ok q) :
    q = remainingQuota p r e := by
  rcases handler_cases hh with ⟨hm, rfl⟩ | ⟨hm, rfl⟩ | ⟨hm, hm', rfl⟩
  · simp only [Handler.getRemainingDepositQuota, bind_eq_ok, getRegistry_eq_ok, hr] at hq
    obtain ⟨_, h1, hq⟩ := hq
    cases h1
    rw [personalQuota_eq] at hq
    cases hq
    unfold remainingQuota; rw [if_pos hm]
  · simp only [Handler.getRemainingDepositQuota, bind_eq_ok, getRegistry_eq_ok, hr,
      Presale.getRemainingDepositQuota, sub_eq_ok, pure_eq_ok] at hq
    obtain ⟨_, ⟨h0, rfl⟩, _, h1, x, hx, rfl⟩ := hq
    cases h1
    rw [personalQuota_eq] at hx
    cases hx
    unfold remainingQuota; rw [if_neg (by omega), if_pos hm]
  · simp only [Handler.getRemainingDepositQuota, bind_eq_ok, getRegistry_eq_ok, hr,
      Presale.getRemainingDepositQuota, sub_eq_ok] at hq
    obtain ⟨_, ⟨h0, rfl⟩, _, h1, s, hs, hq⟩ := hq
    cases h1
    have hsold : s = sold p r := by
      unfold sold
      rw [if_neg (by omega)]
      unfold Handler.fixedRegistrySold at hs
      by_cases hz : r.totalDeposit > 0
      · rw [if_pos hz] at hs
        simp only [bind_eq_ok, cast64_eq_ok, pure_eq_ok] at hs
        obtain ⟨b, hb, c, ⟨_, rfl⟩, rfl⟩ := hs
        have hne : p.raw0 ≠ 0 := by
          simp only [calculateTokenBought, bind_eq_ok, div_eq_ok] at hb
          obtain ⟨_, _, hb, _⟩ := hb
          exact hb
        rw [tokenBought_eq hd hne] at hb
        cases hb; rfl
      · rw [if_neg hz] at hs
        have hz' : r.totalDeposit = 0 := by omega
        cases hs
        rw [hz', tokensAtPrice_def, Nat.zero_mul, Nat.zero_div]; omega
    unfold remainingQuota
    rw [if_neg hm, if_neg hm', ← hsold]
    by_cases hfull : s = r.presaleSupply
    · rw [if_pos hfull] at hq ⊢
      simp only [pure_eq_ok] at hq; exact hq.symm
    · rw [if_neg hfull] at hq ⊢
      simp only [bind_eq_ok, pure_eq_ok, sub_eq_ok, mul128_eq_ok, cast64_eq_ok] at hq
      obtain ⟨_, ⟨_, rfl⟩, _, ⟨_, rfl⟩, g, ⟨_, rfl⟩, x, hx, rfl⟩ := hq
      rw [personalQuota_eq] at hx
      cases hx
      rw [costOf_eq]

theorem taken_of_suggested {h : Handler} {p : Presale} {r : Registry} {e : Escrow} {asked n : Nat}
    (hh : getPresaleModeHandler p = .ok h) (ha : asked < u64Bound)
    (hs : h.suggestDepositAmount (min (remainingQuota p r e) asked) = .ok n) :
    DepositTaken p r e asked n := by
  have hmin : min asked (remainingQuota p r e) = min (remainingQuota p r e) asked := Nat.min_comm _ _
  unfold DepositTaken
  rw [hmin]
  rcases handler_cases hh with ⟨hm, rfl⟩ | ⟨hm, rfl⟩ | ⟨hm, hm', rfl⟩
  · rw [if_pos (.inl hm)]; cases hs; rfl
  · rw [if_pos (.inr hm)]; cases hs; rfl
  · rw [if_neg (by omega)]
    have hlt : min (remainingQuota p r e) asked < u64Bound := by omega
    have hq : p.raw0 ≠ 0 := by
      simp only [Handler.suggestDepositAmount, calculateQuoteTokenWithoutSurplus, calculateTokenBought,
        bind_eq_ok, div_eq_ok] at hs
      obtain ⟨_, ⟨_, _, hs, _⟩, _⟩ := hs
      exact hs
    obtain ⟨c, hc, h1, h2, h3⟩ := C08_least_charge hlt hq
    have hs' : calculateQuoteTokenWithoutSurplus p.raw0 (min (remainingQuota p r e) asked) = .ok n := hs
    rw [hc] at hs'
    cases hs'
    exact ⟨h1, h2, h3⟩

/-- What a successful deposit of `n` with fee `fee` did: `gross` is what the payer was charged. -/
structure Deposited (w w' : World) (tx : Tx) (x : DepositAcc) (p p' : Presale) (e e' : Escrow)
    (r r' : Registry) (n fee gross : Nat) : Prop where
  presale : w.presales x.presale = some p
  presale' : w'.presales x.presale = some p'
  escrow : w.escrows.get? x.escrow = some e
  escrow' : w'.escrows.get? x.escrow = some e'
  belongs : e.presale = x.presale
  registry : p.registries[e.registryIndex]? = some r
  registry' : p'.registries[e.registryIndex]? = some r'
  ongoing : Ongoing p w.clock
  /-- a positive principal within the request and the remaining quota -/
  positive : 0 < n
  asked : n ≤ x.maxAmount
  quota : n ≤ remainingQuota p r e
  taken : DepositTaken p r e x.maxAmount n
  /-- the fee of the registry, on top -/
  feeLaw : IsCeilDiv fee ((n + fee) * r.depositFeeBps) 10000
  /-- what is recorded -/
  escrowDeposit : e'.totalDeposit = e.totalDeposit + n ∧ e'.totalDepositFee = e.totalDepositFee + fee
  registryDeposit : r'.totalDeposit = r.totalDeposit + n ∧ r'.totalDepositFee = r.totalDepositFee + fee
  presaleDeposit : p'.totalDeposit = p.totalDeposit + n ∧ p'.totalDepositFee = p.totalDepositFee + fee
  /-- what is paid: `gross` leaves the payer's account, and exactly principal and fee arrive in the vault -/
  signed : tx.signed x.payer = true
  moved : Transferred w.tk w'.tk p.quoteMint x.payerQuoteToken p.quoteTokenVault gross
  distinct : x.payerQuoteToken ≠ p.quoteTokenVault
  arrives : ∃ q q', w.tk.toks p.quoteTokenVault = some q ∧ w'.tk.toks p.quoteTokenVault = some q' ∧
    q'.amount = q.amount + (n + fee)
  /-- and `gross` is the least amount for which that is so -/
  least : ∀ m, w.tk.mints p.quoteMint = some m → gross - m.transferFee gross = n + fee ∧
    ∀ other, other - m.transferFee other = n + fee → gross ≤ other

/-- **C06.** A successful deposit takes a positive principal, at most what was asked for and at most the
remaining quota, records it with the fee of the registry, and increases the quote vault by exactly
principal plus fee whatever the mint withholds. -/
theorem C06_deposit {w : World} (R : Reachable w) {tx : Tx} {x : DepositAcc} {w' : World} {rc : Receipt}
    (h : step w (.ix tx (.deposit x)) = .ok (w', rc)) :
    ∃ p p' e e' r r' n fee gross, Deposited w w' tx x p p' e e' r r' n fee gross := by
  have W := R.winv
  obtain ⟨p, m, e, d, included, hooks, rest, tk, cpi, F⟩ := handleDeposit_iff.1 h
  obtain ⟨hd, quota, r, D⟩ := depositCore_iff.1 F.core
  have S := W.core.sale _ _ F.presale
  obtain ⟨hsrc, hv, _, _, s, q, dlg, _, _, hq, _, hq', _⟩ := F.vaultGain W.core
  have hvault : p.quoteTokenVault = x.quoteTokenVault := F.vault.1
  have hmint : p.quoteMint = x.quoteMint := F.vault.2
  have hlt := List.getElem?_eq_some_iff.1 D.registry
  have hquota := quota_eq D.handler D.registry (by have := D.boundR; omega) D.quotaIs
  have hle := D.amount_le
  have htot := D.totals
  have hfee := C07_fee_law D.fees
  have hsug := D.suggested
  rw [hquota] at hsug
  have hcr : d.presale.registries[e.registryIndex]? =
      some { r with totalDeposit := r.totalDeposit + d.amount,
                    totalDepositFee := r.totalDepositFee + d.fees.fee } := by
    have : d.presale.registries = (p.credited e.registryIndex r d.amount d.fees.fee).registries := by
      rcases D.result with ⟨h1, _⟩ | ⟨h1, _⟩ <;> rw [h1] <;> rfl
    rw [this]
    simp only [Presale.credited]
    rw [List.getElem?_set_self hlt.1]
  have hpost := F.post
  refine ⟨p, d.presale, e, d.escrow, r,
    { r with totalDeposit := r.totalDeposit + d.amount, totalDepositFee := r.totalDepositFee + d.fees.fee },
    d.amount, d.fees.fee, included, ?_⟩
  have hne : x.payerQuoteToken ≠ p.quoteTokenVault := by
    rw [hvault, hv]
    rintro h; rw [h] at hsrc; cases hsrc
  have htk : w'.tk = tk := by rw [hpost]
  refine
    { presale := F.presale, presale' := by rw [hpost]; exact upd_self _ _ _, escrow := F.escrow,
      escrow' := by rw [hpost]; exact by rw [AMap.get?_set, if_pos rfl],
      belongs := F.belongs, registry := D.registry, registry' := hcr,
      ongoing := ?_, positive := D.pos, asked := hle.1, quota := by rw [← hquota]; exact hle.2.1,
      taken := taken_of_suggested D.handler F.range.1 hsug, feeLaw := ?_,
      escrowDeposit := by rw [D.escrow]; exact ⟨rfl, rfl⟩,
      registryDeposit := ⟨rfl, rfl⟩, presaleDeposit := ⟨htot.1, htot.2.1⟩,
      signed := F.signed, moved := ?_, distinct := hne, arrives := ?_, least := ?_ }
  · have h1 := D.started; have h2 := D.open_; have := F.clock
    constructor <;> omega
  · rw [← hfee.1]; exact hfee.2.1
  · rw [htk, hmint, hvault]
    exact transfer_spec (W.core.feeOk _) F.transfer
  · rw [htk, hvault]
    exact ⟨q, _, hq, hq', rfl⟩
  · intro m' hm'
    rw [hmint, F.mint] at hm'
    cases hm'
    have hb := depositFee_inv D.fees
    have := C42_inversion_exact (W.core.feeOk _ _ F.mint) hb.2.2.1 F.gross
    rw [← hfee.1]
    exact ⟨this.1, this.2.2.2⟩

/-! ## C25 -/

theorem canWithdraw_iff {p : Presale} {h : Handler} (hh : getPresaleModeHandler p = .ok h) :
    h.canWithdraw = true ↔ WithdrawAllowed p := by
  unfold WithdrawAllowed
  rcases handler_cases hh with ⟨h1, rfl⟩ | ⟨h1, rfl⟩ | ⟨h1, h2, rfl⟩
  · simp [Handler.canWithdraw, h1]
  · simp [Handler.canWithdraw, h1]
  · simp [Handler.canWithdraw, h1, h2]

/-- What a successful withdrawal of `n` did. -/
structure Withdrawn (w w' : World) (tx : Tx) (x : WithdrawAcc) (p p' : Presale) (e e' : Escrow)
    (r r' : Registry) (n : Nat) : Prop where
  presale : w.presales x.presale = some p
  presale' : w'.presales x.presale = some p'
  escrow : w.escrows.get? x.escrow = some e
  escrow' : w'.escrows.get? x.escrow = some e'
  registry : p.registries[e.registryIndex]? = some r
  registry' : p'.registries[e.registryIndex]? = some r'
  /-- only the owner of the escrow, only while the sale is open, only where the terms allow it -/
  owner : e.presale = x.presale ∧ e.owner = x.owner ∧ tx.signed e.owner = true
  ongoing : Ongoing p w.clock
  allowed : WithdrawAllowed p
  /-- never more than requested nor than deposited -/
  positive : 0 < n
  asked : n ≤ x.maxAmount
  deposited : x.maxAmount ≤ e.totalDeposit
  exact : n = x.maxAmount ∨ (p.presaleMode ≠ 1 ∧ x.maxAmount < e.totalDeposit ∧ LeastCharge p.raw0 x.maxAmount n)
  /-- what is recorded: the principal shrinks, the fee stays -/
  escrowDeposit : e'.totalDeposit + n = e.totalDeposit ∧ e'.totalDepositFee = e.totalDepositFee
  registryDeposit : r'.totalDeposit + n = r.totalDeposit ∧ r'.totalDepositFee = r.totalDepositFee
  presaleDeposit : p'.totalDeposit + n = p.totalDeposit ∧ p'.totalDepositFee = p.totalDepositFee
  /-- what is left in the escrow respects the limits of the registry -/
  left : e'.totalDeposit = 0 ∨
    (r.buyerMinimumDepositCap ≤ e'.totalDeposit ∧ e'.totalDeposit ≤ r.buyerMaximumDepositCap)
  /-- what is paid -/
  moved : Transferred w.tk w'.tk p.quoteMint p.quoteTokenVault x.ownerQuoteToken n

/-- **C25.** A successful withdrawal pays the owner of the escrow exactly what it takes off the records, at
most what was requested and deposited, only in an open sale whose terms allow it, and returns no fee. -/
theorem C25_withdraw {w : World} (R : Reachable w) {tx : Tx} {x : WithdrawAcc} {w' : World} {rc : Receipt}
    (h : step w (.ix tx (.withdraw x)) = .ok (w', rc)) :
    ∃ p p' e e' r r' n, Withdrawn w w' tx x p p' e e' r r' n := by
  have W := R.winv
  obtain ⟨p, m, e, p', e', n, hooks, rest, tk, cpi, ex, F⟩ := handleWithdraw_iff.1 h
  obtain ⟨hd, r, D⟩ := withdrawCore_iff.1 F.core
  have hlt := List.getElem?_eq_some_iff.1 D.registry
  have hpost := F.post
  have htk : w'.tk = tk := by rw [hpost]
  have hvault : p.quoteTokenVault = x.quoteTokenVault := F.vault.1
  have hmint : p.quoteMint = x.quoteMint := F.vault.2
  have hcr : p'.registries[e.registryIndex]? = some { r with totalDeposit := r.totalDeposit - n } := by
    rw [D.presale]
    simp only [Presale.debited]
    rw [List.getElem?_set_self hlt.1]
  have hle : n ≤ x.maxAmount ∧ (n = x.maxAmount ∨
      (p.presaleMode ≠ 1 ∧ x.maxAmount < e.totalDeposit ∧ LeastCharge p.raw0 x.maxAmount n)) := by
    have hs := D.suggested
    have hpos := D.pos
    rcases handler_cases D.handler with ⟨hm, rfl⟩ | ⟨hm, rfl⟩ | ⟨hm, hm', rfl⟩
    · cases hs; exact ⟨le_refl _, .inl rfl⟩
    · cases hs; omega
    · simp only [Handler.suggestWithdrawAmount] at hs
      by_cases heq : e.totalDeposit = x.maxAmount
      · rw [if_pos heq] at hs; cases hs; exact ⟨le_refl _, .inl rfl⟩
      · rw [if_neg heq] at hs
        have hq : p.raw0 ≠ 0 := by
          have hs' := hs
          simp only [calculateQuoteTokenWithoutSurplus, calculateTokenBought, bind_eq_ok, div_eq_ok] at hs'
          obtain ⟨_, ⟨_, _, hs', _⟩, _⟩ := hs'
          exact hs'
        obtain ⟨c, hc, h1, h2, h3⟩ := C08_least_charge F.range.1 hq
        rw [hc] at hs
        cases hs
        have := D.within
        exact ⟨h1, .inr ⟨hm, by omega, ⟨h1, h2, h3⟩⟩⟩
  have g1 := D.leE
  have g2 := D.leR
  have g3 := D.leP
  refine ⟨p, p', e, e', r, { r with totalDeposit := r.totalDeposit - n }, n, ?_⟩
  refine
    { presale := F.presale, presale' := by rw [hpost]; exact upd_self _ _ _, escrow := F.escrow,
      escrow' := by rw [hpost]; exact by rw [AMap.get?_set, if_pos rfl],
      registry := D.registry, registry' := hcr,
      owner := ⟨F.belongs.1, F.belongs.2, by rw [F.belongs.2]; exact F.signed⟩,
      ongoing := ?_, allowed := (canWithdraw_iff D.handler).1 D.allowed, positive := D.pos, asked := hle.1,
      deposited := D.within, exact := hle.2, escrowDeposit := ?_, registryDeposit := ?_,
      presaleDeposit := ?_, left := ?_, moved := ?_ }
  · have h1 := D.started; have h2 := D.open_; have := F.clock
    constructor <;> omega
  · rw [D.escrow]; exact ⟨by show e.totalDeposit - n + n = _; omega, rfl⟩
  · exact ⟨by show r.totalDeposit - n + n = _; omega, rfl⟩
  · rw [D.presale]; exact ⟨by show p.totalDeposit - n + n = _; omega, rfl⟩
  · rw [D.escrow]; exact D.limits
  · rw [htk, hmint, hvault]
    exact transfer_spec (W.core.feeOk _) F.transfer

/-- **C25**, negative part: sales that do not allow it never pay a withdrawal. -/
theorem C25_never {w : World} (R : Reachable w) {a : Addr} {p : Presale} (hp : w.presales a = some p)
    (hn : p.presaleMode = 2 ∨ (p.presaleMode ≠ 1 ∧ p.raw1 % 256 ≠ 0)) {tx : Tx} {x : WithdrawAcc}
    (hx : x.presale = a) : ∃ err, step w (.ix tx (.withdraw x)) = .error err := by
  cases hs : step w (.ix tx (.withdraw x)) with
  | error err => exact ⟨err, rfl⟩
  | ok res =>
    obtain ⟨w', rc⟩ := res
    obtain ⟨p1, _, _, _, _, _, _, D⟩ := C25_withdraw R hs
    have h1 := D.presale
    rw [hx, hp] at h1
    cases h1
    have := D.allowed
    unfold WithdrawAllowed at this
    omega

/-- **C25**, the exit is always open: where the terms allow it the owner of an escrow can take out its whole
deposit at any time during the sale. -/
theorem C25_exit {w : World} (R : Reachable w) {tx : Tx} {x : WithdrawAcc} {p : Presale} {e : Escrow}
    (hp : w.presales x.presale = some p) (he : w.escrows.get? x.escrow = some e)
    (hb : e.presale = x.presale) (ho : x.owner = e.owner) (hs : tx.signed e.owner = true)
    (hongoing : Ongoing p w.clock) (hallowed : WithdrawAllowed p)
    (hpos : 0 < e.totalDeposit) (hall : x.maxAmount = e.totalDeposit)
    (hv : x.quoteTokenVault = p.quoteTokenVault) (hm : x.quoteMint = p.quoteMint)
    (hpay : Payable w.tk tx .transferHookQuote p.quoteMint p.quoteTokenVault x.ownerQuoteToken x.tokenProgram
      x.remaining x.slices e.totalDeposit) :
    ∃ w' rc e', step w (.ix tx (.withdraw x)) = .ok (w', rc) ∧ w'.escrows.get? x.escrow = some e' ∧
      e'.totalDeposit = 0 ∧
      Transferred w.tk w'.tk p.quoteMint p.quoteTokenVault x.ownerQuoteToken e.totalDeposit := by
  have W := R.winv
  have S := W.core.sale _ _ hp
  obtain ⟨q, hq, hqm, _, _, hopen, _, _⟩ := C01_quote_solvent R hp
  obtain ⟨m, hmint, _, _⟩ := S.quoteMint
  obtain ⟨r, hr, E⟩ := S.pinv.escBook he hb
  obtain ⟨h, hh⟩ := S.pinv.static.handler
  have hvk := S.pinv.static.quoteVault
  have hnot : ¬ Over p w.clock := by unfold Over; have := hongoing.2; omega
  have hq' := hopen hnot
  have hc := S.clock
  have hleR : e.totalDeposit ≤ r.totalDeposit :=
    le_trans (le_esum (f := Escrow.totalDeposit) (AMap.get?_mem he) hb rfl) (S.pinv.book.reg _ _ hr).dep
  have hleP : e.totalDeposit ≤ p.totalDeposit := by
    have h1 := S.pinv.book.totDep
    have h2 := le_lsum (g := Registry.totalDeposit) hr
    omega
  have hu : e.totalDeposit < u64Bound := by
    have := W.core.amounts _ _ hq
    omega
  have hsug : h.suggestWithdrawAmount e x.maxAmount = .ok e.totalDeposit := by
    have hall' := (canWithdraw_iff hh).2 hallowed
    cases h with
    | fixedPrice a b c => simp only [Handler.suggestWithdrawAmount]; rw [if_pos hall.symm, hall]
    | prorata => simp only [Handler.suggestWithdrawAmount, hall]
    | fcfs a => cases hall'
  have hcore : withdrawCore p e w.clock.toNat x.maxAmount =
      .ok (p.debited e.registryIndex r e.totalDeposit, e.debited e.totalDeposit, e.totalDeposit) := by
    rw [withdrawCore_iff]
    refine ⟨h, r, ?_⟩
    exact
      { started := by have := hongoing.1; omega, open_ := by have := hongoing.2; omega,
        asked := by omega, within := by omega, handler := hh,
        allowed := (canWithdraw_iff hh).2 hallowed, suggested := hsug,
        pos := hpos, registry := hr, leE := le_refl _, leR := hleR, leP := hleP,
        limits := .inl (Nat.sub_self _), presale := rfl, escrow := rfl }
  rw [hvk] at hpay
  obtain ⟨hsl, _, hooks, rest, hparse, tk, cpi, htr⟩ :=
    payout_ok W.core hpay rfl hq hqm hmint (by omega)
  obtain ⟨ex, hex⟩ := excluded_ok (W.core.feeOk _ _ hmint) e.totalDeposit
  have F : WithdrawFacts w tx x _ _ p m e (p.debited e.registryIndex r e.totalDeposit)
      (e.debited e.totalDeposit) e.totalDeposit hooks rest tk cpi ex :=
    { range := ⟨by omega, hsl⟩, presale := hp, vault := ⟨hv.symm, hm.symm⟩, mint := by rw [hm]; exact hmint,
      escrow := he, belongs := ⟨hb, ho.symm⟩, signed := by rw [ho]; exact hs, clock := hc, core := hcore,
      parse := hparse, transfer := by rw [hm, hv, hvk]; exact htr, net := hex, post := rfl, receipt := rfl }
  have hstep := handleWithdraw_iff.2 ⟨_, _, _, _, _, _, _, _, _, _, _, F⟩
  refine ⟨_, _, _, hstep, by rw [AMap.get?_set, if_pos rfl], Nat.sub_self _, ?_⟩
  rw [hvk]
  exact transfer_spec (W.core.feeOk _) htr

/-! ## The hypotheses are met -/

namespace Ex

/-- Deposits succeed in all modes: 302 offered at a price of 2.5 is cut to 300 (120 tokens); 600 offered in
a sale with room for 100 is cut to 100. -/
example : works (run genesis (fixedOps.take 5)) (deposit alice aliceQuote 302) = true ∧
    hasEsc fixedOpen (escrowOf alice) (fun e => decide (e.totalDeposit = 300 ∧ e.totalDepositFee = 7)) = true ∧
    works fcfsOpen (deposit bob bobQuote 600) = true ∧
    hasEsc fcfsEarly (escrowOf bob) (fun e => decide (e.totalDeposit = 100)) = true := by
  decide +kernel

/-- Withdrawals: in part and in full where allowed, not in first-come-first-served sales. -/
example : works prorataOpen (withdraw alice aliceQuote 900) = true ∧
    hasEsc (apply fixedOpen (withdraw alice aliceQuote 9)) (escrowOf alice)
      (fun e => decide (e.totalDeposit = 292 ∧ e.totalDepositFee = 7)) = true ∧
    works fcfsOpen (withdraw alice aliceQuote 900) = false ∧
    has prorataOpen (fun p => decide (p.presaleMode = 1 ∧ (p.presaleStartTime : Int) ≤ prorataOpen.clock ∧
      prorataOpen.clock < p.presaleEndTime)) = true := by
  decide +kernel

end Ex

end Verif
