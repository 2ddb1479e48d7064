import Verif.Props.Lifecycle
/-!
# Creation of a presale

C33 (the supply is in the vault), C53 (the stored terms are the requested ones).
-/

namespace Verif
open Spec

theorem suppliesOf_eq (rs : List RegistryArgs) : suppliesOf rs = (rs.map RegistryArgs.presaleSupply).sum := rfl

/-! ## C33 -/

/-- **C33.** A successful initialisation makes two fresh vaults controlled by the program alone. The base
vault holds exactly the sum of the registry supplies, whatever transfer fee the base mint levies; the payer's
account, which is not a vault, is debited by what it takes to deliver that. Nobody could have deposited
before: the presale did not exist and had no escrow. -/
theorem C33_supply_in_vault {w w' : World} (R : Reachable w) {tx : Tx} {x : InitPresaleAcc} {rc : Receipt}
    (hs : step w (.ix tx (.initPresale x)) = .ok (w', rc)) :
    ∃ p m b q s s' gross, w.presales x.presaleKey = none ∧ w'.presales x.presaleKey = some p ∧
      (∀ k e, w'.escrows.get? k = some e → e.presale ≠ x.presaleKey) ∧
      p.presaleSupply = (x.args.presaleRegistries.map RegistryArgs.presaleSupply).sum ∧
      w'.tk.toks (.baseVault x.presaleKey) = some b ∧ b.amount = p.presaleSupply ∧
      b.mint = x.presaleMint ∧ b.owner = .presaleAuthority ∧ b.delegate = none ∧ b.frozen = false ∧
      w'.tk.toks (.quoteVault x.presaleKey) = some q ∧ q.amount = 0 ∧ q.mint = x.quoteTokenMint ∧
      q.owner = .presaleAuthority ∧ q.delegate = none ∧ q.frozen = false ∧
      x.payerPresaleToken.isVault = false ∧ w.tk.mints x.presaleMint = some m ∧
      w.tk.toks x.payerPresaleToken = some s ∧ w'.tk.toks x.payerPresaleToken = some s' ∧
      s.amount = s'.amount + gross ∧ gross = p.presaleSupply + m.transferFee gross ∧
      (s.owner = x.payer ∨ ∃ n, s.delegate = some (x.payer, n)) ∧ tx.signed x.payer = true := by
  have W := R.winv
  obtain ⟨bm, qm, p, rem, supply, inc, hooks, rest, tk, cpi, F⟩ := handleInitPresale_iff.1 hs
  have K := F.created W
  obtain ⟨hsrc, hb, hq, hmints, ⟨s, dlg, h1, hen, h1', hdlg⟩, hother⟩ := F.vaults W
  have hsum : supply = (x.args.presaleRegistries.map RegistryArgs.presaleSupply).sum := by
    have := sumSupplies_eq F.sumSupply
    rw [← suppliesOf_eq]; omega
  have hlt : supply < u64Bound := by
    rw [K.supply]; exact K.pinv.static.supplyLt
  have hex := (C42_inversion_exact (wellFormed_feeOk (W.core.mints _ _ F.baseMint)) hlt F.gross).1
  have hfee := transferFee_le (wellFormed_feeOk (W.core.mints _ _ F.baseMint)) inc
  refine ⟨p, bm, _, _, s, _, inc, F.fresh.1, by rw [F.post]; exact upd_self _ _ _, ?_, by rw [← K.supply, hsum],
    by rw [F.post]; exact hb, K.supply, rfl, rfl, rfl, rfl, by rw [F.post]; exact hq, rfl, rfl, rfl, rfl, rfl,
    hsrc, F.baseMint, h1, by rw [F.post]; exact h1', ?_, ?_, ?_, F.signed.2⟩
  · intro k e he hk
    have he' : w.escrows.get? k = some e := by rw [F.post] at he; exact he
    obtain ⟨_, p', hp'⟩ := W.core.esc _ (AMap.get?_mem he')
    have : w.presales x.presaleKey = some p' := by rw [← hk]; exact hp'
    rw [F.fresh.1] at this; cases this
  · simp only; omega
  · rw [← K.supply]; omega
  · obtain ⟨s0, d, m, dl, T⟩ := transferTokens_iff.1 F.transfer
    have hb' : x.payerPresaleToken ≠ .baseVault x.presaleKey := by intro h; rw [h] at hsrc; cases hsrc
    have hq' : x.payerPresaleToken ≠ .quoteVault x.presaleKey := by intro h; rw [h] at hsrc; cases hsrc
    have hs0 := T.hs
    simp only [upd_other _ _ hq', upd_other _ _ hb', h1] at hs0
    cases hs0
    rcases (authorizeSpend_ok T.auth).1 with h | ⟨n, h, _⟩
    · exact .inl h
    · exact .inr ⟨n, h⟩

/-! ## C53 -/

/-- **C53.** The terms stored by a successful initialisation are the requested ones: nothing is defaulted,
scaled or swapped. A start time in the past becomes the present. -/
theorem C53_created_as_asked {w w' : World} (R : Reachable w) {tx : Tx} {x : InitPresaleAcc} {rc : Receipt}
    (hs : step w (.ix tx (.initPresale x)) = .ok (w', rc)) :
    ∃ p, w'.presales x.presaleKey = some p ∧
      x.presaleKey = .presale x.base x.presaleMint x.quoteTokenMint ∧ tx.signed x.base = true ∧
      p.owner = x.creator ∧ p.base = x.base ∧ p.baseMint = x.presaleMint ∧ p.quoteMint = x.quoteTokenMint ∧
      p.baseTokenVault = .baseVault x.presaleKey ∧ p.quoteTokenVault = .quoteVault x.presaleKey ∧
      p.presaleMaximumCap = x.args.presaleParams.presaleMaximumCap ∧
      p.presaleMinimumCap = x.args.presaleParams.presaleMinimumCap ∧
      (p.presaleStartTime : Int) = max (x.args.presaleParams.presaleStartTime : Int) w.clock ∧
      p.presaleEndTime = x.args.presaleParams.presaleEndTime ∧
      p.whitelistMode = x.args.presaleParams.whitelistMode ∧
      p.presaleMode = x.args.presaleParams.presaleMode ∧
      p.unsoldTokenAction = x.args.presaleParams.unsoldTokenAction ∧ (p.createdAt : Int) = w.clock ∧
      p.lockDuration = x.args.lockedVestingParams.lockDuration ∧
      p.vestDuration = x.args.lockedVestingParams.vestDuration ∧
      p.immediateReleaseBps = x.args.lockedVestingParams.immediatelyReleaseBps ∧
      p.immediateReleaseTimestamp = x.args.lockedVestingParams.immediateReleaseTimestamp ∧
      p.totalPresaleRegistryCount = x.args.presaleRegistries.length ∧
      (p.registries.take p.totalPresaleRegistryCount).map (fun r => (r.presaleSupply, r.buyerMinimumDepositCap,
          r.buyerMaximumDepositCap, r.depositFeeBps)) =
        x.args.presaleRegistries.map (fun r => (r.presaleSupply, r.buyerMinimumDepositCap,
          r.buyerMaximumDepositCap, r.depositFeeBps)) := by
  obtain ⟨bm, qm, p, rem, supply, inc, hooks, rest, tk, cpi, F⟩ := handleInitPresale_iff.1 hs
  obtain ⟨k', hk', hlen, hsup, hC⟩ := processCreate_ok F.create
  have hS := (hC.shape rfl rfl).shape
  have h0 := F.clock
  have hl : k'.lockDuration = x.args.lockedVestingParams.lockDuration ∧
      k'.vestDuration = x.args.lockedVestingParams.vestDuration ∧
      k'.immediateReleaseBps = x.args.lockedVestingParams.immediatelyReleaseBps ∧
      k'.immediateReleaseTimestamp = x.args.lockedVestingParams.immediateReleaseTimestamp := by
    rcases lockTermsOf_eq hk' with ⟨h, rfl⟩ | ⟨l, h, _, rfl⟩
    · unfold LockedVestingArgs.option at h
      split at h
      · next hz => exact ⟨hz.2.1.symm, hz.2.2.1.symm, hz.1.symm, hz.2.2.2.1.symm⟩
      · cases h
    · unfold LockedVestingArgs.option at h
      split at h
      · cases h
      · cases h; exact ⟨rfl, rfl, rfl, rfl⟩
  refine ⟨p, by rw [F.post]; exact upd_self _ _ _, rfl, F.signed.1, ?_⟩
  rw [hS]
  refine ⟨rfl, rfl, rfl, rfl, rfl, rfl, rfl, rfl, ?_, rfl, rfl, rfl, rfl, ?_, hl.1, hl.2.1, hl.2.2.1, hl.2.2.2,
    rfl, ?_⟩
  · show ((max _ _ : Nat) : Int) = _; omega
  · show ((w.clock.toNat : Nat) : Int) = _; omega
  · show ((x.args.presaleRegistries.map RegistryArgs.slot ++ _).take x.args.presaleRegistries.length).map _ = _
    rw [List.take_left' (by simp)]
    simp [Function.comp_def, RegistryArgs.slot, Registry.init]

/-! ## The hypotheses are met -/

namespace Ex

/-- Selling a mint with a transfer fee: 10050 leave the payer's account, 10000 arrive. -/
example : Reachable genesis ∧ works genesis feeInit = true ∧
    ((apply genesis feeInit).tk.toks (.baseVault (.presale baseKey qm bm))).map TokAcct.amount = some 10000 ∧
    ((apply genesis feeInit).tk.toks aliceQuote).map TokAcct.amount = some (100000 - 10050) :=
  ⟨reachable [], by decide +kernel⟩

end Ex

end Verif
