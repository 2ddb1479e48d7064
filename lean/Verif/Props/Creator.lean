import Verif.Props.Closing
import Verif.Lemmas.Flow
/-!
# What the creator takes out of a sale (C22, C23, C24, C28)
-/

namespace Verif
open Spec

/-- A creator withdrawal: which vault pays which amount of which mint in the phase the sale is in. -/
def WithdrawalOf (a : Addr) (p : Presale) (now : Int) (mint vault : Addr) (amount : Nat) (kind : AccountsType) :
    Prop :=
  (Completed p now ∧ mint = p.quoteMint ∧ vault = .quoteVault a ∧
    amount = min p.totalDeposit p.presaleMaximumCap ∧ kind = .transferHookQuote) ∨
  (Failed p now ∧ mint = p.baseMint ∧ vault = .baseVault a ∧ amount = p.presaleSupply ∧
    kind = .transferHookBase)

theorem takeVaultAndMint_ok {w : World} {vault mint : Addr} {rest : List Addr} {err : PErr}
    (hv : (w.tk.toks vault).isSome = true) (hm : (w.tk.mints mint).isSome = true) :
    takeVaultAndMint w (vault :: mint :: rest) vault mint err = .ok rest := by
  unfold takeVaultAndMint
  show (require _ _ >>= _) = _
  rw [require_ok ⟨hv, hm⟩, ok_bind, require_ok rfl, ok_bind, require_ok rfl, ok_bind]
  rfl

/-! ## C22 -/

/-- **C22.** A successful creator withdrawal is signed by the creator, happens after the sale, for the first
time, and moves exactly the raise (completed) or the whole supply (failed) out of the vault; besides it only
sets the flag. -/
theorem C22_withdraw {w : World} (R : Reachable w) {tx : Tx} {x : CreatorWithdrawAcc} {w' : World} {rc : Receipt}
    (h : step w (.ix tx (.creatorWithdraw x)) = .ok (w', rc)) :
    ∃ p mint vault amount kind, w.presales x.presale = some p ∧ x.owner = p.owner ∧ tx.signed p.owner = true ∧
      p.hasCreatorWithdrawn = 0 ∧ WithdrawalOf x.presale p w.clock mint vault amount kind ∧
      Transferred w.tk w'.tk mint vault x.ownerToken amount ∧
      w' = { w with presales := upd w.presales x.presale (some { p with hasCreatorWithdrawn := 1 }),
                    tk := w'.tk } := by
  obtain ⟨p, c, hooks, rest, tk, cpi, m, ex, F⟩ := handleCreatorWithdraw_iff.1 h
  have S := R.winv.core.sale _ _ F.presale
  have hpost := F.post
  have hT := transfer_spec (R.winv.core.feeOk _) F.transfer
  refine ⟨p, c.mint, c.vault, c.amount, c.hookType, F.presale, F.owner.symm, by rw [F.owner]; exact F.signed,
    creatorWithdrawn_false F.first, ?_, ?_, ?_⟩
  · rcases F.progress with h1 | h1
    · have hp := F.payout
      rw [h1] at hp
      obtain ⟨c1, c2, c3, c4, _⟩ := creatorPayout_completed hp
      exact .inl ⟨S.progress_completed.1 h1, c3, by rw [c2]; exact S.pinv.static.quoteVault, c1, c4⟩
    · have hp := F.payout
      rw [h1] at hp
      obtain ⟨c1, c2, c3, c4, _⟩ := creatorPayout_failed hp
      exact .inr ⟨S.progress_failed.1 h1, c3, by rw [c2]; exact S.pinv.static.baseVault, c1, c4⟩
  · rw [hpost]; exact hT
  · rw [hpost]; rfl

/-- **C22**, at most once: after a creator withdrawal no other one of that presale ever succeeds. -/
theorem C22_once {w : World} (R : Reachable w) {tx : Tx} {x : CreatorWithdrawAcc} {w1 : World} {rc : Receipt}
    (h : step w (.ix tx (.creatorWithdraw x)) = .ok (w1, rc)) (ops : List Op) (tx' : Tx) (x' : CreatorWithdrawAcc)
    (hx : x'.presale = x.presale) : ∃ err, step (run w1 ops) (.ix tx' (.creatorWithdraw x')) = .error err := by
  cases hs : step (run w1 ops) (.ix tx' (.creatorWithdraw x')) with
  | error err => exact ⟨err, rfl⟩
  | ok res =>
    exfalso
    obtain ⟨p, _, _, _, _, _, _, _, _, _, _, hw1⟩ := C22_withdraw R h
    have R1 := R.step h
    obtain ⟨q, _, _, _, _, hq, _, _, h0, _⟩ := C22_withdraw (w' := res.1) (rc := res.2) (R1.run ops) hs
    have hp1 : w1.presales x.presale = some { p with hasCreatorWithdrawn := 1 } := by
      rw [hw1]; exact upd_self _ _ _
    obtain ⟨q', hq', L⟩ := run_later R1.winv ops hp1
    rw [hx, hq'] at hq
    cases hq
    have := L.grows.w rfl
    omega

/-! ## C23 -/

/-- **C23.** A successful fee collection is signed by the creator, happens in a completed sale, for the first
time, and moves exactly the collectable fees out of the quote vault; besides it only sets the flag. -/
theorem C23_collect {w : World} (R : Reachable w) {tx : Tx} {x : CollectFeeAcc} {w' : World} {rc : Receipt}
    (h : step w (.ix tx (.collectFee x)) = .ok (w', rc)) :
    ∃ p, w.presales x.presale = some p ∧ x.owner = p.owner ∧ tx.signed p.owner = true ∧
      p.depositFeeCollected = 0 ∧ Completed p w.clock ∧
      (collectableFee p = 0 ∧ w'.tk = w.tk ∨ 0 < collectableFee p ∧
        Transferred w.tk w'.tk p.quoteMint (.quoteVault x.presale) x.feeReceivingAccount (collectableFee p)) ∧
      w' = { w with presales := upd w.presales x.presale (some { p with depositFeeCollected := 1 }),
                    tk := w'.tk } := by
  obtain ⟨p, m, fee, ex, F⟩ := handleCollectFee_iff.1 h
  have S := R.winv.core.sale _ _ F.presale
  have hfee := S.pinv.collectedFee
  rw [F.amount] at hfee
  cases hfee
  obtain ⟨o1, o2, o3⟩ := F.owner
  refine ⟨p, F.presale, o1.symm, by rw [o1]; exact F.signed,
    by have := feeCollected_false F.progress.2; have := S.pinv.flags.f; omega,
    S.progress_completed.1 F.progress.1, ?_, ?_⟩
  · rcases F.out with ⟨h0, hooks, rest, tk, cpi, _, g3, g4, _⟩ | ⟨h0, g4, _⟩
    · have hT := transfer_spec (R.winv.core.feeOk _) g3
      rw [← o2, ← o3, S.pinv.static.quoteVault] at hT
      exact .inr ⟨h0, by rw [g4]; exact hT⟩
    · exact .inl ⟨h0, by rw [g4]⟩
  · rcases F.out with ⟨h0, hooks, rest, tk, cpi, _, g3, g4, _⟩ | ⟨h0, g4, _⟩
    · rw [g4]; rfl
    · rw [g4]; rfl

/-- **C23**, at most once. -/
theorem C23_once {w : World} (R : Reachable w) {tx : Tx} {x : CollectFeeAcc} {w1 : World} {rc : Receipt}
    (h : step w (.ix tx (.collectFee x)) = .ok (w1, rc)) (ops : List Op) (tx' : Tx) (x' : CollectFeeAcc)
    (hx : x'.presale = x.presale) : ∃ err, step (run w1 ops) (.ix tx' (.collectFee x')) = .error err := by
  cases hs : step (run w1 ops) (.ix tx' (.collectFee x')) with
  | error err => exact ⟨err, rfl⟩
  | ok res =>
    exfalso
    obtain ⟨p, _, _, _, _, _, _, hw1⟩ := C23_collect R h
    have R1 := R.step h
    obtain ⟨q, hq, _, _, h0, _⟩ := C23_collect (w' := res.1) (rc := res.2) (R1.run ops) hs
    have hp1 : w1.presales x.presale = some { p with depositFeeCollected := 1 } := by
      rw [hw1]; exact upd_self _ _ _
    obtain ⟨q', hq', L⟩ := run_later R1.winv ops hp1
    rw [hx, hq'] at hq
    cases hq
    have := L.grows.f rfl
    omega

/-- **C23**: the fees kept back are those reserved for refunds, registry by registry. -/
theorem C23_reserved {w : World} (R : Reachable w) {a : Addr} {p : Presale} (hp : w.presales a = some p) :
    collectableFee p + (if p.presaleMode = 1 then (p.registries.map (registryFeeRefund p)).sum else 0) =
      p.totalDepositFee := by
  have S := R.winv.core.sale a p hp
  by_cases hm : p.presaleMode = 1
  · rw [if_pos hm]; exact collectable_eq S.pinv.book hm
  · rw [if_neg hm]; unfold collectableFee; rw [if_neg hm]; rfl

/-! ## C24 -/

/-- **C24.** A successful unsold-token action happens in a completed sale, for the first time, whoever
signs, and removes exactly supply minus sold from the base vault: burnt if the stored choice is 1, otherwise
sent to the creator's associated token account; besides it only sets the flag. -/
theorem C24_unsold {w : World} (R : Reachable w) {tx : Tx} {x : UnsoldAcc} {w' : World} {rc : Receipt}
    (h : step w (.ix tx (.unsold x)) = .ok (w', rc)) :
    ∃ p, w.presales x.presale = some p ∧ p.isUnsoldTokenActionPerformed = 0 ∧ Completed p w.clock ∧
      0 < p.presaleSupply - totalSold p ∧
      (p.unsoldTokenAction ≠ 1 → Transferred w.tk w'.tk p.baseMint (.baseVault x.presale)
        (.ata p.owner p.baseMint x.tokenProgram) (p.presaleSupply - totalSold p)) ∧
      (p.unsoldTokenAction = 1 → Burnt w.tk w'.tk p.baseMint (.baseVault x.presale)
        (p.presaleSupply - totalSold p)) ∧
      w' = { w with presales := upd w.presales x.presale (some { p with isUnsoldTokenActionPerformed := 1 }),
                    tk := w'.tk } := by
  obtain ⟨p, c, hd, n, tk, cpi, F⟩ := handleUnsold_iff.1 h
  have S := R.winv.core.sale _ _ F.presale
  have hx := S.pinv.unsold F.handler
  rw [F.amount] at hx
  cases hx
  obtain ⟨v1, v2⟩ := F.vault
  have hperf := F.perform
  refine ⟨p, F.presale, unsoldPerformed_false F.first, S.progress_completed.1 F.progress, F.pos, ?_, ?_, ?_⟩
  · intro ha
    rw [show UnsoldTokenAction.ofByte p.unsoldTokenAction = .refund from if_neg ha] at hperf
    simp only [performUnsold, bind_eq_ok, Prod.exists] at hperf
    obtain ⟨hooks, rest, _, h2⟩ := hperf
    have hT := transfer_spec (R.winv.core.feeOk _) h2
    rw [F.ata.1, ← v2, ← v1, S.pinv.static.baseVault] at hT
    rw [F.post]; exact hT
  · intro ha
    rw [ha] at hperf
    have hT := burn_spec hperf
    rw [← v2, ← v1, S.pinv.static.baseVault] at hT
    rw [F.post]; exact hT
  · rw [F.post]; rfl

/-- **C24**, at most once. -/
theorem C24_once {w : World} (R : Reachable w) {tx : Tx} {x : UnsoldAcc} {w1 : World} {rc : Receipt}
    (h : step w (.ix tx (.unsold x)) = .ok (w1, rc)) (ops : List Op) (tx' : Tx) (x' : UnsoldAcc)
    (hx : x'.presale = x.presale) : ∃ err, step (run w1 ops) (.ix tx' (.unsold x')) = .error err := by
  cases hs : step (run w1 ops) (.ix tx' (.unsold x')) with
  | error err => exact ⟨err, rfl⟩
  | ok res =>
    exfalso
    obtain ⟨p, _, _, _, _, _, _, hw1⟩ := C24_unsold R h
    have R1 := R.step h
    obtain ⟨q, hq, h0, _⟩ := C24_unsold (w' := res.1) (rc := res.2) (R1.run ops) hs
    have hp1 : w1.presales x.presale = some { p with isUnsoldTokenActionPerformed := 1 } := by
      rw [hw1]; exact upd_self _ _ _
    obtain ⟨q', hq', L⟩ := run_later R1.winv ops hp1
    rw [hx, hq'] at hq
    cases hq
    have := L.grows.u rfl
    omega

/-- **C24**: who signs makes no difference. -/
theorem C24_anybody (w : World) (tx tx' : Tx) (x : UnsoldAcc) (h : tx'.accept = tx.accept) :
    step w (.ix tx' (.unsold x)) = step w (.ix tx (.unsold x)) := by
  show handleUnsold w tx' x = handleUnsold w tx x
  have e : performUnsold w tx' = performUnsold w tx := by
    funext a action n
    unfold performUnsold
    rw [h]
  unfold handleUnsold
  rw [e]

/-! ## C28 -/

/-- **C28.** The creator of an ended sale who has not withdrawn can withdraw, given a usable destination. -/
theorem C28_withdraw_succeeds {w : World} (R : Reachable w) {tx : Tx} {x : CreatorWithdrawAcc} {p : Presale}
    {mint vault : Addr} {amount : Nat} {rest : List Addr} (hp : w.presales x.presale = some p)
    (ho : x.owner = p.owner) (hs : tx.signed p.owner = true) (hfirst : p.hasCreatorWithdrawn = 0)
    {kind : AccountsType}
    (hW : WithdrawalOf x.presale p w.clock mint vault amount kind) (hrem : x.remaining = vault :: mint :: rest)
    (hpay : Payable w.tk tx kind mint vault x.ownerToken x.tokenProgram rest x.slices amount) :
    ∃ w' rc, step w (.ix tx (.creatorWithdraw x)) = .ok (w', rc) := by
  have W := R.winv
  have S := W.core.sale _ _ hp
  have hfst : p.creatorWithdrawn = false := by unfold Presale.creatorWithdrawn; rw [hfirst]; rfl
  rcases hW with ⟨hc, rfl, rfl, rfl, rfl⟩ | ⟨hf, rfl, rfl, rfl, rfl⟩
  · have hprog := S.progress_completed.2 hc
    obtain ⟨qv, hqv, hqm, _, _, _, _, hcomp⟩ := C01_quote_solvent R hp
    obtain ⟨m, hmint, _, _⟩ := S.quoteMint
    have hbal : min p.totalDeposit p.presaleMaximumCap ≤ qv.amount := by
      have := hcomp hc
      unfold creatorDue at this
      rw [if_neg (by omega)] at this
      unfold raise at this
      omega
    obtain ⟨hsl, hdst, hooks, rest', hparse, tk, cpi, htr⟩ := payout_ok W.core hpay rfl hqv hqm hmint hbal
    obtain ⟨ex, hex⟩ := excluded_ok (W.core.feeOk _ _ hmint) (min p.totalDeposit p.presaleMaximumCap)
    have F : CreatorWithdrawFacts w tx x _ _ p
        ⟨min p.totalDeposit p.presaleMaximumCap, p.quoteTokenVault, p.quoteMint, .transferHookQuote, rest⟩
        hooks rest' tk cpi m ex :=
      { range := hsl, presale := hp, owner := ho.symm, signed := by rw [ho]; exact hs, clock := S.clock,
        progress := .inl hprog, first := hfst,
        payout := by
          rw [hprog, hrem]
          unfold creatorPayout
          simp only []
          rw [S.pinv.static.quoteVault, takeVaultAndMint_ok (by rw [hqv]; rfl) (by rw [hmint]; rfl)]
          rfl
        parse := hparse,
        transfer := by
          rw [if_pos hprog, S.pinv.static.quoteVault]; exact htr
        mint := hmint, net := hex, post := rfl, receipt := rfl }
    exact ⟨_, _, handleCreatorWithdraw_iff.2 ⟨_, _, _, _, _, _, _, _, F⟩⟩
  · have hprog := S.progress_failed.2 hf
    obtain ⟨bv, hbv, hbm, _, _, _, hfail, _⟩ := C02_base_solvent R hp
    obtain ⟨m, hmint, _, _⟩ := S.baseMint
    have hbal : p.presaleSupply ≤ bv.amount := hfail hf hfirst
    obtain ⟨hsl, hdst, hooks, rest', hparse, tk, cpi, htr⟩ := payout_ok W.core hpay rfl hbv hbm hmint hbal
    obtain ⟨ex, hex⟩ := excluded_ok (W.core.feeOk _ _ hmint) p.presaleSupply
    have F : CreatorWithdrawFacts w tx x _ _ p
        ⟨p.presaleSupply, p.baseTokenVault, p.baseMint, .transferHookBase, rest⟩
        hooks rest' tk cpi m ex :=
      { range := hsl, presale := hp, owner := ho.symm, signed := by rw [ho]; exact hs, clock := S.clock,
        progress := .inr hprog, first := hfst,
        payout := by
          rw [hprog, hrem]
          unfold creatorPayout
          simp only []
          rw [S.pinv.static.baseVault, takeVaultAndMint_ok (by rw [hbv]; rfl) (by rw [hmint]; rfl)]
          rfl
        parse := hparse,
        transfer := by
          rw [if_neg (by rw [hprog]; simp), S.pinv.static.baseVault]; exact htr
        mint := hmint, net := hex, post := rfl, receipt := rfl }
    exact ⟨_, _, handleCreatorWithdraw_iff.2 ⟨_, _, _, _, _, _, _, _, F⟩⟩

/-- **C28.** The creator of a completed sale who has not collected the fees can collect them. -/
theorem C28_collect_succeeds {w : World} (R : Reachable w) {tx : Tx} {x : CollectFeeAcc} {p : Presale}
    (hp : w.presales x.presale = some p) (ho : x.owner = p.owner) (hs : tx.signed p.owner = true)
    (hfirst : p.depositFeeCollected = 0) (hc : Completed p w.clock) (hv : x.quoteTokenVault = .quoteVault x.presale)
    (hm : x.quoteMint = p.quoteMint)
    (hpay : Payable w.tk tx .transferHookQuote p.quoteMint (.quoteVault x.presale) x.feeReceivingAccount
      x.tokenProgram x.remaining x.slices (collectableFee p)) :
    ∃ w' rc, step w (.ix tx (.collectFee x)) = .ok (w', rc) := by
  have W := R.winv
  have S := W.core.sale _ _ hp
  obtain ⟨qv, hqv, hqm, _, _, _, _, hcomp⟩ := C01_quote_solvent R hp
  obtain ⟨m, hmint, _, _⟩ := S.quoteMint
  have hbal : collectableFee p ≤ qv.amount := by
    have := hcomp hc
    unfold creatorDue at this
    rw [if_neg (c := p.depositFeeCollected = 1) (by omega)] at this
    omega
  obtain ⟨hsl, hdst, hooks, rest', hparse, tk, cpi, htr⟩ := payout_ok W.core hpay rfl hqv hqm hmint hbal
  obtain ⟨ex, hex⟩ := excluded_ok (W.core.feeOk _ _ hmint) (collectableFee p)
  have hout : ∃ (w' : World) (rc : Receipt), (0 < collectableFee p ∧ ∃ hooks rest tk cpi,
      parseHooks x.remaining x.slices [.transferHookQuote] = .ok (hooks, rest) ∧
      transferTokens w.tk .presaleAuthority x.quoteMint x.quoteTokenVault x.feeReceivingAccount
        x.tokenProgram (collectableFee p) hooks.quote tx.accept = .ok (tk, cpi) ∧
      w' = { w with presales := upd w.presales x.presale (some p.setDepositFeeCollected), tk := tk } ∧
      rc = { event := some (.creatorCollectFee x.presale x.owner ex), cpis := [cpi] }) ∨
    (collectableFee p = 0 ∧
      w' = { w with presales := upd w.presales x.presale (some p.setDepositFeeCollected) } ∧
      rc = { event := some (.creatorCollectFee x.presale x.owner ex), cpis := [] }) := by
    by_cases hz : collectableFee p = 0
    · exact ⟨_, _, .inr ⟨hz, rfl, rfl⟩⟩
    · exact ⟨_, _, .inl ⟨by omega, hooks, rest', tk, cpi, hparse, by rw [hm, hv]; exact htr, rfl, rfl⟩⟩
  obtain ⟨w', rc, hout⟩ := hout
  have F : CollectFeeFacts w tx x w' rc p m (collectableFee p) ex :=
    { range := hsl, presale := hp, owner := ⟨ho.symm, hm.symm, by rw [hv]; exact S.pinv.static.quoteVault⟩,
      mint := by rw [hm]; exact hmint, dest := hdst, signed := by rw [ho]; exact hs, clock := S.clock,
      progress := ⟨S.progress_completed.2 hc, by unfold Presale.feeCollected; rw [hfirst]; rfl⟩,
      amount := S.pinv.collectedFee, net := hex, out := hout }
  exact ⟨_, _, handleCollectFee_iff.2 ⟨_, _, _, _, F⟩⟩

/-- What the unsold-token action needs from outside: the creator's associated account exists and, if the
tokens go there, it can receive them; if they are burnt, the vault is not frozen and the mint is not the native
one and has that supply. -/
structure UnsoldPossible (k : Tokens) (tx : Tx) (x : UnsoldAcc) (p : Presale) (amount : Nat) : Prop where
  account : ∃ c, k.toks (.ata p.owner p.baseMint x.tokenProgram) = some c ∧ c.owner = p.owner ∧ c.mint = p.baseMint
  refund : p.unsoldTokenAction ≠ 1 → Payable k tx .transferHookBase p.baseMint (.baseVault x.presale)
    (.ata p.owner p.baseMint x.tokenProgram) x.tokenProgram x.remaining x.slices amount
  burn : p.unsoldTokenAction = 1 → slicesInRange x.slices = true ∧
    (∀ v, k.toks (.baseVault x.presale) = some v → v.frozen = false) ∧
    ∀ m, k.mints p.baseMint = some m → m.program = x.tokenProgram ∧ m.isNative = false ∧ amount ≤ m.supply

/-- **C28.** In a completed sale with unsold tokens the unsold-token action can be performed by anybody. -/
theorem C28_unsold_succeeds {w : World} (R : Reachable w) {tx : Tx} {x : UnsoldAcc} {p : Presale}
    (hp : w.presales x.presale = some p) (hc : Completed p w.clock)
    (hfirst : p.isUnsoldTokenActionPerformed = 0) (hpos : totalSold p < p.presaleSupply)
    (hv : x.baseTokenVault = .baseVault x.presale) (hm : x.baseMint = p.baseMint)
    (ha : x.creatorBaseToken = .ata p.owner p.baseMint x.tokenProgram)
    (hpay : UnsoldPossible w.tk tx x p (p.presaleSupply - totalSold p)) :
    ∃ w' rc, step w (.ix tx (.unsold x)) = .ok (w', rc) := by
  have W := R.winv
  have S := W.core.sale _ _ hp
  obtain ⟨bv, hbv, hbm, hown, hdel, _, _, hcomp⟩ := C02_base_solvent R hp
  obtain ⟨m, hmint, _, _⟩ := S.baseMint
  obtain ⟨hd, hhd⟩ := S.pinv.static.handler
  obtain ⟨c, hcx, hco, hcm⟩ := hpay.account
  have hbal : p.presaleSupply - totalSold p ≤ bv.amount := by
    have := hcomp hc
    rw [if_neg (by omega)] at this
    omega
  have hperf : slicesInRange x.slices = true ∧ ∃ tk cpi, performUnsold w tx x
      (UnsoldTokenAction.ofByte p.unsoldTokenAction) (p.presaleSupply - totalSold p) = .ok (tk, cpi) := by
    by_cases hact : p.unsoldTokenAction = 1
    · obtain ⟨h1, h2, h3⟩ := hpay.burn hact
      obtain ⟨g1, g2, g3⟩ := h3 m hmint
      rw [hact]
      have B : BurnFacts w.tk x.tokenProgram x.baseTokenVault x.baseMint .presaleAuthority
          (p.presaleSupply - totalSold p) _ _ bv m none :=
        { hs := by rw [hv]; exact hbv, hm := by rw [hm]; exact hmint, prog := g1, smint := by rw [hm]; exact hbm,
          sfrozen := h2 bv hbv, native := g2, enough := hbal,
          auth := by unfold authorizeSpend; rw [hdel]; simp [hown],
          supply := g3, cpi := rfl, post := rfl }
      exact ⟨h1, _, _, burnTokens_iff.2 ⟨_, _, _, B⟩⟩
    · rw [show UnsoldTokenAction.ofByte p.unsoldTokenAction = .refund from if_neg hact]
      obtain ⟨hsl, hdst, hooks, rest', hparse, tk, cpi, htr⟩ :=
        payout_ok W.core (hpay.refund hact) rfl hbv hbm hmint hbal
      refine ⟨hsl, tk, cpi, ?_⟩
      show (parseHooks x.remaining x.slices [.transferHookBase] >>= _) = _
      rw [hparse, ok_bind, hm, hv, ha]
      exact htr
  obtain ⟨hsl, tk, cpi, hperf⟩ := hperf
  have F : UnsoldFacts w tx x _ _ p c hd (p.presaleSupply - totalSold p) tk cpi :=
    { range := hsl, presale := hp, vault := ⟨by rw [hv]; exact S.pinv.static.baseVault, hm.symm⟩,
      dest := by rw [ha]; exact hcx, ata := ⟨by rw [ha, hm], hco, by rw [hm]; exact hcm⟩, clock := S.clock,
      progress := S.progress_completed.2 hc,
      first := by unfold Presale.unsoldActionPerformed; rw [hfirst]; rfl,
      handler := hhd, amount := S.pinv.unsold hhd, pos := by omega, perform := hperf, post := rfl,
      receipt := rfl }
  exact ⟨_, _, handleUnsold_iff.2 ⟨_, _, _, _, _, _, F⟩⟩

/-- **C56.** The program accepts the native mint (wrapped SOL) of SPL Token as base mint. If the
creator also chose to burn what is not sold, the unsold-token action can never succeed, whatever happens. -/
theorem C56_native_never_burnt {w : World} (R : Reachable w) {a : Addr} {p : Presale} {m : MintInfo}
    (hp : w.presales a = some p) (hact : p.unsoldTokenAction = 1) (hm : w.tk.mints p.baseMint = some m)
    (hn : m.isNative = true) (ops : List Op) (tx : Tx) (x : UnsoldAcc) (hx : x.presale = a) :
    ∃ err, step (run w ops) (.ix tx (.unsold x)) = .error err := by
  cases hs : step (run w ops) (.ix tx (.unsold x)) with
  | error err => exact ⟨err, rfl⟩
  | ok res =>
    exfalso
    have S := R.winv.core.sale a p hp
    obtain ⟨m0, hm0, hsup, _⟩ := S.baseMint
    rw [hm] at hm0; cases hm0
    obtain ⟨m', hm', _, hn', _⟩ := run_sameMint R.winv ops _ _ hm hsup
    obtain ⟨p', hp', L⟩ := run_later R.winv ops hp
    obtain ⟨q, c, hd, n, tk, cpi, F⟩ := (handleUnsold_iff (w' := res.1) (rc := res.2)).1 hs
    have hq := F.presale
    rw [hx, hp'] at hq; cases hq
    have e1 : p'.unsoldTokenAction = p.unsoldTokenAction := (congrArg Presale.unsoldTokenAction L.terms :)
    have e2 : p'.baseMint = p.baseMint := (congrArg Presale.baseMint L.terms :)
    have hperf := F.perform
    rw [e1, hact] at hperf
    obtain ⟨s, m2, dlg, B⟩ := burnTokens_iff.1 hperf
    have h1 := B.hm
    rw [← F.vault.2, e2, hm'] at h1
    cases h1
    rw [B.native] at hn'
    rw [hn] at hn'
    cases hn'

namespace Ex

/-- The creator takes the raise, the fees and the unsold tokens once each, after the sale only. -/
example : works prorataOpen (creatorWithdraw creatorWithdrawAcc) = false ∧
    works prorataDone (creatorWithdraw creatorWithdrawAcc) = true ∧
    works (run prorataDone [creatorWithdraw creatorWithdrawAcc]) (creatorWithdraw creatorWithdrawAcc) = false ∧
    works failedDone (creatorWithdraw creatorWithdrawBaseAcc) = true ∧
    works failedDone (creatorWithdraw creatorWithdrawAcc) = false ∧
    works prorataDone collectFee = true ∧ works failedDone collectFee = false ∧
    works (run prorataDone [collectFee]) collectFee = false ∧
    works prorataDone unsold = false ∧ works fixedDone unsold = true ∧
    works (run fixedDone [unsold]) unsold = false := by
  decide +kernel

/-- Usable destinations for the liveness theorems. -/
example : Payable prorataDone.tk (tx [creator]) .transferHookQuote qm (.quoteVault sale) creatorQuote
      .splToken2022 [] [] 1000 ∧
    Payable failedDone.tk (tx [creator]) .transferHookBase bm (.baseVault sale) creatorBase .splToken [] [] 10000 ∧
    Payable prorataDone.tk (tx [creator]) .transferHookQuote qm (.quoteVault sale) creatorQuote
      .splToken2022 [] [] 22 :=
  ⟨payable_ok (by decide +kernel) _ _, payable_ok (by decide +kernel) _ _, payable_ok (by decide +kernel) _ _⟩

/-- The same deployment with wrapped SOL as base mint. -/
def nativeMint : MintInfo :=
  { program := .splToken, isNative := true, exts := [], fee := none, hook := none, supply := 1000000 }

def nativeGenesis : World :=
  { genesis with tk := ⟨genesisToks, upd genesisMints bm (some nativeMint)⟩ }

theorem nativeGenesis_ok : Genesis nativeGenesis := by
  have G := genesis_ok
  refine ⟨G.presales, G.escrows, G.merkleRoots, G.operators, G.metadata, G.fixedArgs, G.vaults, G.amounts, ?_⟩
  intro a m h
  rcases upd_cases h with ⟨rfl, h1⟩ | h1
  · cases h1; decide +kernel
  · exact G.mints a m h1

/-- A fixed-price sale of wrapped SOL that burns what is not sold. -/
def nativeDone : World :=
  run nativeGenesis ([fixedArgsOp, init 0 0 1 reg1, .tick 10, open' alice, open' bob, deposit alice aliceQuote 301,
    .tick 1180])

example : Reachable nativeDone ∧
    has nativeDone (fun p => decide (p.unsoldTokenAction = 1 ∧ totalSold p < p.presaleSupply ∧
      p.presaleEndTime < nativeDone.clock ∧ p.presaleMinimumCap ≤ p.totalDeposit)) = true ∧
    works nativeDone unsold = false ∧ works nativeDone collectFee = true :=
  ⟨⟨_, _, nativeGenesis_ok, rfl⟩, by decide +kernel⟩

end Ex

end Verif
