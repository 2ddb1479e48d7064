import Verif.SpecDonate
import Verif.Lemmas.MachineAfter
/-!
# Vault balances beyond what is owed influence nothing
-/

namespace Verif
open Spec

/-- The token part of `SameBut`. -/
structure SameToks (d : Addr → Int) (k1 k2 : Tokens) : Prop where
  mints : k2.mints = k1.mints
  none_ : ∀ a, k1.toks a = none → k2.toks a = none
  some_ : ∀ a t1, k1.toks a = some t1 → ∃ n : Nat, (n : Int) = t1.amount + d a ∧ k2.toks a = some (holding t1 n)
  only : ∀ a, d a ≠ 0 → a.isVault = true ∧ k1.toks a ≠ none

theorem Spec.SameBut.toks {d : Addr → Int} {w1 w2 : World} (S : SameBut d w1 w2) : SameToks d w1.tk w2.tk :=
  ⟨S.mints, S.none_, S.some_, S.only⟩

theorem Spec.SameBut.eq {d : Addr → Int} {w1 w2 : World} (S : SameBut d w1 w2) :
    w2 = { w1 with tk := w2.tk } := by
  have h := S.rest
  cases w2
  rw [← h]

theorem SameToks.but {d : Addr → Int} {w : World} {k2 : Tokens} (T : SameToks d w.tk k2) :
    SameBut d w { w with tk := k2 } :=
  ⟨rfl, T.mints, T.none_, T.some_, T.only⟩

theorem SameToks.plain {d : Addr → Int} {k1 k2 : Tokens} (T : SameToks d k1 k2) {a : Addr} (h : a.isVault = false) :
    d a = 0 ∧ k2.toks a = k1.toks a := by
  have hd : d a = 0 := by
    apply Decidable.byContradiction
    intro h0
    have := (T.only a h0).1
    rw [h] at this; cases this
  refine ⟨hd, ?_⟩
  cases e : k1.toks a with
  | none => exact T.none_ a e
  | some t =>
    obtain ⟨n, hn, e2⟩ := T.some_ a t e
    rw [hd] at hn
    have : n = t.amount := by omega
    rw [e2, this]; rfl

theorem SameToks.isSome {d : Addr → Int} {k1 k2 : Tokens} (T : SameToks d k1 k2) (a : Addr) :
    (k2.toks a).isSome = (k1.toks a).isSome := by
  cases e : k1.toks a with
  | none => rw [T.none_ a e]
  | some t => obtain ⟨n, _, e2⟩ := T.some_ a t e; rw [e2]; rfl

/-- Replacing one account on both sides by accounts that differ by `d`. -/
theorem SameToks.set {d : Addr → Int} {k1 k2 : Tokens} (T : SameToks d k1 k2) {a : Addr} {t1 : TokAcct} {n : Nat}
    (h : (n : Int) = t1.amount + d a) :
    SameToks d { k1 with toks := upd k1.toks a (some t1) }
      { k2 with toks := upd k2.toks a (some (holding t1 n)) } := by
  refine ⟨T.mints, ?_, ?_, ?_⟩
  · intro x hx
    simp only at hx ⊢
    by_cases e : x = a
    · subst e; rw [upd_self] at hx; cases hx
    · rw [upd_other _ _ e] at hx ⊢; exact T.none_ x hx
  · intro x t hx
    simp only at hx ⊢
    by_cases e : x = a
    · subst e
      rw [upd_self] at hx ⊢
      cases hx
      exact ⟨n, h, rfl⟩
    · rw [upd_other _ _ e] at hx ⊢; exact T.some_ x t hx
  · intro x hx
    obtain ⟨h1, h2⟩ := T.only x hx
    refine ⟨h1, ?_⟩
    simp only
    by_cases e : x = a
    · subst e; rw [upd_self]; simp
    · rw [upd_other _ _ e]; exact h2

/-- Setting an account where nothing was added. -/
theorem SameToks.setPlain {d : Addr → Int} {k1 k2 : Tokens} (T : SameToks d k1 k2) {a : Addr} (o : Option TokAcct)
    (h : d a = 0) :
    SameToks d { k1 with toks := upd k1.toks a o } { k2 with toks := upd k2.toks a o } := by
  refine ⟨T.mints, ?_, ?_, ?_⟩
  · intro x hx
    simp only at hx ⊢
    by_cases e : x = a
    · subst e; rw [upd_self] at hx ⊢; exact hx
    · rw [upd_other _ _ e] at hx ⊢; exact T.none_ x hx
  · intro x t hx
    simp only at hx ⊢
    by_cases e : x = a
    · subst e
      rw [upd_self] at hx ⊢
      exact ⟨t.amount, by rw [h]; omega, hx⟩
    · rw [upd_other _ _ e] at hx ⊢; exact T.some_ x t hx
  · intro x hx
    obtain ⟨h1, h2⟩ := T.only x hx
    have e : x ≠ a := by rintro rfl; exact hx h
    refine ⟨h1, ?_⟩
    simp only
    rw [upd_other _ _ e]; exact h2

theorem SameToks.setMint {d : Addr → Int} {k1 k2 : Tokens} (T : SameToks d k1 k2) (a : Addr) (o : Option MintInfo) :
    SameToks d { k1 with mints := upd k1.mints a o } { k2 with mints := upd k2.mints a o } :=
  ⟨by simp only [T.mints], T.none_, T.some_, T.only⟩

/-- The balances of `k`, shifted by `d`, still fit an unsigned 64-bit integer. -/
def FitsWith (d : Addr → Int) (k : Tokens) : Prop :=
  ∀ a t, k.toks a = some t → (t.amount : Int) + d a < u64Bound

theorem authorizeSpend_holding (t : TokAcct) (n : Nat) (authority : Addr) (x : Nat) :
    authorizeSpend (holding t n) authority x = authorizeSpend t authority x := rfl

theorem SameToks.transfer {d : Addr → Int} {k1 k2 k1' : Tokens} {authority mint src dst : Addr} {prog : TokenProgram}
    {amount : Nat} {hooks : Option (List Addr)} {accept : Bool} {cpi : Cpi} (T : SameToks d k1 k2)
    (h : transferTokens k1 authority mint src dst prog amount hooks accept = .ok (k1', cpi))
    (hen : src.isVault = true → ∃ v, k2.toks src = some v ∧ amount ≤ v.amount) (hfit : FitsWith d k1') :
    ∃ k2', transferTokens k2 authority mint src dst prog amount hooks accept = .ok (k2', cpi) ∧
      SameToks d k1' k2' := by
  obtain ⟨s, t, m, dlg, F⟩ := transferTokens_iff.1 h
  obtain ⟨ns, hns, es⟩ := T.some_ _ _ F.hs
  obtain ⟨nd, hnd, ed⟩ := T.some_ _ _ F.hd
  have henough : amount ≤ ns := by
    cases hv : src.isVault with
    | true =>
      obtain ⟨v, hv1, hv2⟩ := hen hv
      rw [es] at hv1
      cases hv1
      exact hv2
    | false =>
      have := (T.plain hv).1
      have := F.enough
      omega
  have hsF := F.enough
  by_cases hne : src = dst
  · have hp := F.post
    rw [if_pos hne] at hp
    subst hp
    refine ⟨k2, transferTokens_iff.2 ⟨holding s ns, holding t nd, m, dlg, ?_⟩, T⟩
    exact
      { hs := es, hm := by rw [T.mints]; exact F.hm, hd := ed, hook := F.hook, prog := F.prog, smint := F.smint
        dmint := F.dmint, sfrozen := F.sfrozen, dfrozen := F.dfrozen, enough := henough, auth := F.auth, acc := F.acc
        room := fun h => absurd hne h, cpi := F.cpi, post := by rw [if_pos hne] }
  · have hp := F.post
    rw [if_neg hne] at hp
    have hroom : nd + (amount - m.transferFee amount) < u64Bound := by
      have := hfit dst { t with amount := t.amount + (amount - m.transferFee amount) }
        (by rw [hp]; exact upd_self _ _ _)
      simp only at this
      omega
    refine ⟨_, transferTokens_iff.2 ⟨holding s ns, holding t nd, m, dlg,
      { hs := es, hm := by rw [T.mints]; exact F.hm, hd := ed, hook := F.hook, prog := F.prog, smint := F.smint
        dmint := F.dmint, sfrozen := F.sfrozen, dfrozen := F.dfrozen, enough := henough, auth := F.auth, acc := F.acc
        room := fun _ => hroom, cpi := F.cpi, post := by rw [if_neg hne] }⟩, ?_⟩
    rw [hp]
    have T1 := T.set (a := src) (t1 := { s with amount := s.amount - amount, delegate := dlg }) (n := ns - amount)
      (by simp only; omega)
    exact T1.set (a := dst) (t1 := { t with amount := t.amount + (amount - m.transferFee amount) })
      (n := nd + (amount - m.transferFee amount)) (by simp only; omega)

theorem SameToks.burn {d : Addr → Int} {k1 k2 k1' : Tokens} {authority mint src : Addr} {prog : TokenProgram}
    {amount : Nat} {cpi : Cpi} (T : SameToks d k1 k2)
    (h : burnTokens k1 prog src mint authority amount = .ok (k1', cpi))
    (hen : ∃ v, k2.toks src = some v ∧ amount ≤ v.amount) :
    ∃ k2', burnTokens k2 prog src mint authority amount = .ok (k2', cpi) ∧ SameToks d k1' k2' := by
  obtain ⟨s, m, dlg, F⟩ := burnTokens_iff.1 h
  obtain ⟨ns, hns, es⟩ := T.some_ _ _ F.hs
  obtain ⟨v, hv1, hv2⟩ := hen
  rw [es] at hv1
  cases hv1
  have henough : amount ≤ ns := hv2
  have hsF := F.enough
  refine ⟨_, burnTokens_iff.2 ⟨holding s ns, m, dlg,
    { F with hs := es, hm := by rw [T.mints]; exact F.hm, enough := henough, post := rfl }⟩, ?_⟩
  rw [F.post, T.mints]
  have T1 := T.set (a := src) (t1 := { s with amount := s.amount - amount, delegate := dlg }) (n := ns - amount)
    (by simp only; omega)
  have T2 := T1.setMint mint (some { m with supply := m.supply - amount })
  simp only [T.mints] at T2
  exact T2

/-- A payment by a user leaves no vault. -/
theorem SameToks.userSrc {d : Addr → Int} {k1 k2 k1' : Tokens} {authority mint src dst : Addr} {prog : TokenProgram}
    {amount : Nat} {hooks : Option (List Addr)} {accept : Bool} {cpi : Cpi} (T : SameToks d k1 k2)
    (hv : ∀ a t, a.isVault = true → k2.toks a = some t → t.owner = .presaleAuthority ∧ t.delegate = none)
    (hk : ∃ n, authority = .key n)
    (h : transferTokens k1 authority mint src dst prog amount hooks accept = .ok (k1', cpi)) :
    src.isVault = false := by
  obtain ⟨s, t, m, dlg, F⟩ := transferTokens_iff.1 h
  refine user_src F ?_ hk
  intro a t ha ht
  obtain ⟨n, _, e⟩ := T.some_ a t ht
  exact hv a (holding t n) ha e

section handlers
variable {d : Addr → Int} {w w' : World} {k : Tokens} {tx : Tx} {rc : Receipt}

theorem same_deposit {a : DepositAcc} (R : Reachable { w with tk := k }) (T : SameToks d w.tk k)
    (h : handleDeposit w tx a = .ok (w', rc)) (hfit : FitsWith d w'.tk) :
    ∃ k', handleDeposit { w with tk := k } tx a = .ok ({ w' with tk := k' }, rc) ∧ SameToks d w'.tk k' := by
  obtain ⟨p, m, e, r, included, hooks, rest, tk, cpi, F⟩ := handleDeposit_iff.1 h
  have hsrc := T.userSrc R.winv.core.vaults (signed_isKey F.signed) F.transfer
  have hp := F.post
  subst hp
  obtain ⟨k', h1, h2⟩ := T.transfer F.transfer (fun h => by rw [hsrc] at h; cases h) hfit
  exact ⟨k', handleDeposit_iff.2 ⟨p, m, e, r, included, hooks, rest, k', cpi,
    { F with mint := by rw [T.mints]; exact F.mint, transfer := h1, post := rfl }⟩, h2⟩

theorem same_withdraw {a : WithdrawAcc} (R : Reachable { w with tk := k }) (T : SameToks d w.tk k)
    (h : handleWithdraw w tx a = .ok (w', rc)) (hfit : FitsWith d w'.tk) :
    ∃ k', handleWithdraw { w with tk := k } tx a = .ok ({ w' with tk := k' }, rc) ∧ SameToks d w'.tk k' := by
  obtain ⟨p, m, e, p', e', n, hooks, rest, tk, cpi, ex, F⟩ := handleWithdraw_iff.1 h
  obtain ⟨hd, r, D⟩ := withdrawCore_iff.1 F.core
  have S := R.winv.core.sale _ _ F.presale
  have hon : Ongoing p w.clock := S.progress_ongoing.1 (progress_ongoing.2 ⟨D.started, D.open_⟩)
  obtain ⟨v, hv, _, _, _, hcov, _⟩ := deposit_covered R F.presale F.escrow F.belongs.1 D.registry
    (by unfold Over; have := hon.2; simp only; omega)
  have hle := D.leP
  rw [F.vault.1] at hv
  have hp := F.post
  subst hp
  obtain ⟨k', h1, h2⟩ := T.transfer F.transfer (fun _ => ⟨v, hv, by omega⟩) hfit
  exact ⟨k', handleWithdraw_iff.2 ⟨p, m, e, p', e', n, hooks, rest, k', cpi, ex,
    { F with mint := by rw [T.mints]; exact F.mint, transfer := h1, post := rfl }⟩, h2⟩

theorem same_claim {a : ClaimAcc} (R : Reachable { w with tk := k }) (T : SameToks d w.tk k)
    (h : handleClaim w tx a = .ok (w', rc)) (hfit : FitsWith d w'.tk) :
    ∃ k', handleClaim { w with tk := k } tx a = .ok ({ w' with tk := k' }, rc) ∧ SameToks d w'.tk k' := by
  obtain ⟨p, m, e, hd, e1, ex, F⟩ := handleClaim_iff.1 h
  have hmint : k.mints a.baseMint = some m := by rw [T.mints]; exact F.mint
  have hdest : (k.toks a.ownerBaseToken).isSome = true := by rw [T.isSome]; exact F.dest
  rcases F.out with ⟨hpos, p', e', hooks, rest, tk, cpi, g1, g2, g3, g4, g5⟩ | ⟨hz, g4, g5⟩
  · subst g4
    have S := R.winv.core.sale _ _ F.presale
    obtain ⟨r, hr, E⟩ := S.pinv.escBook F.escrow F.belongs.1
    obtain ⟨_, h2, h3⟩ := progress_completed.1 F.progress
    have hacc := S.pinv.accrue F.escrow F.belongs.1 hr F.handler h2 h3
    have hrf := F.refresh
    rw [hacc] at hrf
    cases hrf
    obtain ⟨v, hv, _, hcov⟩ := claim_covered R F.presale F.escrow F.belongs.1 hr (S.progress_completed.1 F.progress)
    obtain ⟨hn, _⟩ := claim_room R F.presale F.escrow F.belongs.1 hr (S.progress_completed.1 F.progress)
    rw [F.vault.1] at hv
    obtain ⟨k', h1, h2⟩ := T.transfer g3 (fun _ => ⟨v, hv, by rw [hn]; exact hcov⟩) hfit
    exact ⟨k', handleClaim_iff.2 ⟨p, m, e, hd, _, ex,
      { F with
        mint := hmint
        dest := hdest
        out := .inl ⟨hpos, p', e', hooks, rest, k', cpi, g1, g2, h1, rfl, g5⟩ }⟩, h2⟩
  · subst g4
    exact ⟨k, handleClaim_iff.2 ⟨p, m, e, hd, e1, ex,
      { F with
        mint := hmint
        dest := hdest
        out := .inr ⟨hz, rfl, g5⟩ }⟩, T⟩

theorem same_refund {a : RefundAcc} (R : Reachable { w with tk := k }) (T : SameToks d w.tk k)
    (h : handleRefund w tx a = .ok (w', rc)) (hfit : FitsWith d w'.tk) :
    ∃ k', handleRefund { w with tk := k } tx a = .ok ({ w' with tk := k' }, rc) ∧ SameToks d w'.tk k' := by
  obtain ⟨p, m, e, q, p', hooks, rest, ex, F⟩ := handleRefund_iff.1 h
  have hmint : k.mints a.quoteMint = some m := by rw [T.mints]; exact F.mint
  have hdest : (k.toks a.ownerQuoteToken).isSome = true := by rw [T.isSome]; exact F.dest
  rcases F.out with ⟨hpos, tk, cpi, g3, g4, g5⟩ | ⟨hz, g4, g5⟩
  · subst g4
    have S := R.winv.core.sale _ _ F.presale
    obtain ⟨r, hr, E⟩ := S.pinv.escBook F.escrow F.belongs.1
    have htot := S.pinv.refundTotal F.escrow F.belongs.1 hr F.quote
    obtain ⟨_, hend, hph⟩ := refundQuote_phase F.quote
    have hover := S.over.2 hend
    have hphase : Failed p w.clock ∨ (Completed p w.clock ∧ p.presaleMode = 1) :=
      hph.imp (fun h => ⟨hover, h⟩) (fun h => ⟨⟨hover, h.1⟩, h.2⟩)
    have hfirst : e.isRemainingQuoteWithdrawn = 0 := by
      have h1 : e.isRemainingQuoteWithdrawn ≠ 1 := by
        rw [Ne, ← taken_iff, F.fresh]; decide
      have := E.flag
      omega
    obtain ⟨v, hv, _, hcov⟩ := refund_covered R F.presale F.escrow F.belongs.1 hr hphase hfirst
    rw [F.vault.1] at hv
    obtain ⟨k', h1, h2⟩ := T.transfer g3 (fun _ => ⟨v, hv, by rw [htot]; exact hcov⟩) hfit
    exact ⟨k', handleRefund_iff.2 ⟨p, m, e, q, p', hooks, rest, ex,
      { F with
        mint := hmint
        dest := hdest
        out := .inl ⟨hpos, k', cpi, h1, rfl, g5⟩ }⟩, h2⟩
  · subst g4
    exact ⟨k, handleRefund_iff.2 ⟨p, m, e, q, p', hooks, rest, ex,
      { F with
        mint := hmint
        dest := hdest
        out := .inr ⟨hz, rfl, g5⟩ }⟩, T⟩

theorem same_payout (T : SameToks d w.tk k) (p : Presale) (s : PresaleProgress) (rem : List Addr) :
    creatorPayout { w with tk := k } p s rem = creatorPayout w p s rem := by
  have key : ∀ v m e, takeVaultAndMint { w with tk := k } rem v m e = takeVaultAndMint w rem v m e := by
    intro v m e
    unfold takeVaultAndMint
    split
    · simp only [T.isSome, T.mints]
    · rfl
  unfold creatorPayout
  cases s <;> simp only [key]

theorem same_creatorWithdraw {a : CreatorWithdrawAcc} (R : Reachable { w with tk := k }) (T : SameToks d w.tk k)
    (h : handleCreatorWithdraw w tx a = .ok (w', rc)) (hfit : FitsWith d w'.tk) :
    ∃ k', handleCreatorWithdraw { w with tk := k } tx a = .ok ({ w' with tk := k' }, rc) ∧ SameToks d w'.tk k' := by
  obtain ⟨p, c, hooks, rest, tk, cpi, m, ex, F⟩ := handleCreatorWithdraw_iff.1 h
  have S := R.winv.core.sale _ _ F.presale
  have hfirst : p.hasCreatorWithdrawn = 0 := by
    have := F.first
    unfold Presale.creatorWithdrawn at this
    simpa using this
  have hpayout := F.payout
  have hg : CreatorGets p w.clock c.hookType c.mint c.vault c.amount := by
    rcases F.progress with h | h
    · rw [h] at hpayout
      obtain ⟨c1, c2, c3, c4, _⟩ := creatorPayout_completed hpayout
      exact .inl ⟨S.progress_completed.1 h, c4, c3, c2, c1⟩
    · rw [h] at hpayout
      obtain ⟨c1, c2, c3, c4, _⟩ := creatorPayout_failed hpayout
      exact .inr ⟨S.progress_failed.1 h, c4, c3, c2, c1⟩
  obtain ⟨_, v, _, hv, _, hcov, _⟩ := creator_covered R F.presale hg hfirst
  have hp := F.post
  subst hp
  obtain ⟨k', h1, h2⟩ := T.transfer F.transfer (fun _ => ⟨v, hv, hcov⟩) hfit
  exact ⟨k', handleCreatorWithdraw_iff.2 ⟨p, c, hooks, rest, k', cpi, m, ex,
    { F with
      payout := by rw [same_payout T]; exact F.payout
      transfer := h1
      mint := by rw [T.mints]; exact F.mint
      post := rfl }⟩, h2⟩

theorem same_collectFee {a : CollectFeeAcc} (R : Reachable { w with tk := k }) (T : SameToks d w.tk k)
    (h : handleCollectFee w tx a = .ok (w', rc)) (hfit : FitsWith d w'.tk) :
    ∃ k', handleCollectFee { w with tk := k } tx a = .ok ({ w' with tk := k' }, rc) ∧ SameToks d w'.tk k' := by
  obtain ⟨p, m, fee, ex, F⟩ := handleCollectFee_iff.1 h
  have hmint : k.mints a.quoteMint = some m := by rw [T.mints]; exact F.mint
  have hdest : (k.toks a.feeReceivingAccount).isSome = true := by rw [T.isSome]; exact F.dest
  rcases F.out with ⟨hpos, hooks, rest, tk, cpi, g2, g3, g4, g5⟩ | ⟨hz, g4, g5⟩
  · subst g4
    have S := R.winv.core.sale _ _ F.presale
    have hc := S.progress_completed.1 F.progress.1
    have hfirst : p.depositFeeCollected = 0 := by
      have h1 := F.progress.2
      unfold Presale.feeCollected at h1
      have h2 : p.depositFeeCollected ≠ 1 := by simpa using h1
      have := S.pinv.flags.f
      omega
    have hfee := F.amount
    rw [S.pinv.collectedFee] at hfee; cases hfee
    obtain ⟨v, hv, _, _, _, _, _, hcomp⟩ := C01_quote_solvent R F.presale
    have hcov := hcomp hc
    unfold creatorDue at hcov
    rw [if_neg (c := p.depositFeeCollected = 1) (by omega)] at hcov
    rw [← S.pinv.static.quoteVault, F.owner.2.2] at hv
    obtain ⟨k', h1, h2⟩ := T.transfer g3 (fun _ => ⟨v, hv, by omega⟩) hfit
    exact ⟨k', handleCollectFee_iff.2 ⟨p, m, _, ex,
      { F with
        mint := hmint
        dest := hdest
        out := .inl ⟨hpos, hooks, rest, k', cpi, g2, h1, rfl, g5⟩ }⟩, h2⟩
  · subst g4
    exact ⟨k, handleCollectFee_iff.2 ⟨p, m, fee, ex,
      { F with
        mint := hmint
        dest := hdest
        out := .inr ⟨hz, rfl, g5⟩ }⟩, T⟩

theorem same_unsold {a : UnsoldAcc} (R : Reachable { w with tk := k }) (T : SameToks d w.tk k)
    (h : handleUnsold w tx a = .ok (w', rc)) (hfit : FitsWith d w'.tk) :
    ∃ k', handleUnsold { w with tk := k } tx a = .ok ({ w' with tk := k' }, rc) ∧ SameToks d w'.tk k' := by
  obtain ⟨p, c, hd, n, tk, cpi, F⟩ := handleUnsold_iff.1 h
  have S := R.winv.core.sale _ _ F.presale
  have hc := S.progress_completed.1 F.progress
  have hfirst : p.isUnsoldTokenActionPerformed = 0 := by
    have := F.first
    unfold Presale.unsoldActionPerformed at this
    simpa using this
  have hn := F.amount
  rw [S.pinv.unsold F.handler] at hn; cases hn
  obtain ⟨v, hv, _, _, _, _, _, hcomp⟩ := C02_base_solvent R F.presale
  have hcov := hcomp hc
  rw [if_neg (by omega)] at hcov
  rw [← S.pinv.static.baseVault, F.vault.1] at hv
  have hdest : k.toks a.creatorBaseToken = some c := by
    rw [(T.plain (by rw [F.ata.1]; rfl)).2]; exact F.dest
  have hp := F.post
  subst hp
  have : ∃ k', performUnsold { w with tk := k } tx a (UnsoldTokenAction.ofByte p.unsoldTokenAction)
      (p.presaleSupply - totalSold p) = .ok (k', cpi) ∧ SameToks d tk k' := by
    have hperf := F.perform
    cases hact : UnsoldTokenAction.ofByte p.unsoldTokenAction with
    | burn =>
      rw [hact] at hperf
      exact T.burn hperf ⟨v, hv, by omega⟩
    | refund =>
      rw [hact] at hperf
      simp only [performUnsold, bind_eq_ok, Prod.exists] at hperf ⊢
      obtain ⟨hooks, rest, g1, g2⟩ := hperf
      obtain ⟨k', h1, h2⟩ := T.transfer g2 (fun _ => ⟨v, hv, by omega⟩) hfit
      exact ⟨k', ⟨hooks, rest, g1, h1⟩, h2⟩
  obtain ⟨k', h1, h2⟩ := this
  exact ⟨k', handleUnsold_iff.2 ⟨p, c, hd, _, k', cpi, { F with dest := hdest, perform := h1, post := rfl }⟩, h2⟩

theorem same_initPresale {a : InitPresaleAcc} (R : Reachable { w with tk := k }) (T : SameToks d w.tk k)
    (h : handleInitPresale w tx a = .ok (w', rc)) (hfit : FitsWith d w'.tk) :
    ∃ k', handleInitPresale { w with tk := k } tx a = .ok ({ w' with tk := k' }, rc) ∧ SameToks d w'.tk k' := by
  obtain ⟨bm, qm, p, remaining, supply, included, hooks, rest, tk, cpi, F⟩ := handleInitPresale_iff.1 h
  have zero : ∀ x, w.tk.toks x = none → d x = 0 := by
    intro x hx
    apply Decidable.byContradiction
    intro h0
    exact (T.only x h0).2 hx
  have hp := F.post
  subst hp
  have T1 := (T.setPlain (a := .baseVault a.presaleKey) (some (freshVault a.presaleMint))
    (zero _ F.fresh.2.1)).setPlain (a := .quoteVault a.presaleKey) (some (freshVault a.quoteTokenMint))
    (zero _ F.fresh.2.2)
  have hsrc := T1.userSrc (by
    intro x t hv hx
    simp only [upd_apply] at hx
    split at hx
    · cases hx; exact ⟨rfl, rfl⟩
    · split at hx
      · cases hx; exact ⟨rfl, rfl⟩
      · exact R.winv.core.vaults x t hv hx) (signed_isKey F.signed.2) F.transfer
  obtain ⟨k', h1, h2⟩ := T1.transfer F.transfer (fun h => by rw [hsrc] at h; cases h) hfit
  exact ⟨k', handleInitPresale_iff.2 ⟨bm, qm, p, remaining, supply, included, hooks, rest, k', cpi,
    { F with
      baseMint := by rw [T.mints]; exact F.baseMint
      quoteMint := by rw [T.mints]; exact F.quoteMint
      fresh := ⟨F.fresh.1, T.none_ _ F.fresh.2.1, T.none_ _ F.fresh.2.2⟩
      transfer := h1
      post := rfl }⟩, h2⟩

theorem same_createAt {p : Presale} {key owner : Addr} {i : Nat} {cap? : Option Nat} {r : Registry} {p' : Presale}
    (F : CreateEscrowFacts w p key owner i cap? w' rc r p') :
    w'.tk = w.tk ∧ CreateEscrowFacts { w with tk := k } p key owner i cap? { w' with tk := k } rc r p' := by
  refine ⟨by rw [F.post], { F with post := by rw [F.post] }⟩

/-- Whatever an instruction does, it does in a ledger whose vaults hold more or less, as long as all that is owed is
there and no balance overflows. -/
theorem same_execIx {i : Ix} (R : Reachable { w with tk := k }) (T : SameToks d w.tk k)
    (h : execIx w tx i = .ok (w', rc)) (hfit : FitsWith d w'.tk) :
    ∃ k', execIx { w with tk := k } tx i = .ok ({ w' with tk := k' }, rc) ∧ SameToks d w'.tk k' := by
  cases i with
  | initFixedArgs a =>
    have F := handleInitFixedArgs_iff.1 h
    have hp := F.post; subst hp
    exact ⟨k, handleInitFixedArgs_iff.2 { F with post := rfl }, T⟩
  | closeFixedArgs a =>
    obtain ⟨x, F⟩ := handleCloseFixedArgs_iff.1 h
    have hp := F.post; subst hp
    exact ⟨k, handleCloseFixedArgs_iff.2 ⟨x, { F with post := rfl }⟩, T⟩
  | initPresale a => exact same_initPresale R T h hfit
  | createMerkle a =>
    obtain ⟨x, F⟩ := handleCreateMerkle_iff.1 h
    have hp := F.post; subst hp
    exact ⟨k, handleCreateMerkle_iff.2 ⟨x, { F with post := rfl }⟩, T⟩
  | closeMerkle a =>
    obtain ⟨x, y, F⟩ := handleCloseMerkle_iff.1 h
    have hp := F.post; subst hp
    exact ⟨k, handleCloseMerkle_iff.2 ⟨x, y, { F with post := rfl }⟩, T⟩
  | createEscrow a =>
    obtain ⟨p, r, p', F, G⟩ := handleCreateEscrow_iff.1 h
    obtain ⟨e, G'⟩ := same_createAt (k := k) G
    exact ⟨k, handleCreateEscrow_iff.2 ⟨p, r, p', { F with }, G'⟩, by rw [e]; exact T⟩
  | createEscrowCreator a =>
    obtain ⟨p, o, r, p', F, G⟩ := handleCreateEscrowCreator_iff.1 h
    obtain ⟨e, G'⟩ := same_createAt (k := k) G
    exact ⟨k, handleCreateEscrowCreator_iff.2 ⟨p, o, r, p', { F with }, G'⟩, by rw [e]; exact T⟩
  | createEscrowMerkle a =>
    obtain ⟨p, c, r, p', F, G⟩ := handleCreateEscrowMerkle_iff.1 h
    obtain ⟨e, G'⟩ := same_createAt (k := k) G
    exact ⟨k, handleCreateEscrowMerkle_iff.2 ⟨p, c, r, p', { F with }, G'⟩, by rw [e]; exact T⟩
  | createOperator a =>
    have F := handleCreateOperator_iff.1 h
    have hp := F.post; subst hp
    exact ⟨k, handleCreateOperator_iff.2 { F with post := rfl }, T⟩
  | revokeOperator a =>
    obtain ⟨x, F⟩ := handleRevokeOperator_iff.1 h
    have hp := F.post; subst hp
    exact ⟨k, handleRevokeOperator_iff.2 ⟨x, { F with post := rfl }⟩, T⟩
  | deposit a => exact same_deposit R T h hfit
  | withdraw a => exact same_withdraw R T h hfit
  | claim a => exact same_claim R T h hfit
  | refund a => exact same_refund R T h hfit
  | unsold a => exact same_unsold R T h hfit
  | closeEscrow a =>
    obtain ⟨p, e, p', F⟩ := handleCloseEscrow_iff.1 h
    have hp := F.post; subst hp
    exact ⟨k, handleCloseEscrow_iff.2 ⟨p, e, p', { F with post := rfl }⟩, T⟩
  | creatorWithdraw a => exact same_creatorWithdraw R T h hfit
  | refresh a =>
    obtain ⟨p, e, e', F⟩ := (handleRefresh_iff (tx := tx)).1 h
    have hp := F.post; subst hp
    exact ⟨k, (handleRefresh_iff (tx := tx)).2 ⟨p, e, e', { F with post := rfl }⟩, T⟩
  | createMetadata a =>
    obtain ⟨x, F⟩ := handleCreateMetadata_iff.1 h
    have hp := F.post; subst hp
    exact ⟨k, handleCreateMetadata_iff.2 ⟨x, { F with post := rfl }⟩, T⟩
  | closeMetadata a =>
    obtain ⟨x, y, F⟩ := handleCloseMetadata_iff.1 h
    have hp := F.post; subst hp
    exact ⟨k, handleCloseMetadata_iff.2 ⟨x, y, { F with post := rfl }⟩, T⟩
  | collectFee a => exact same_collectFee R T h hfit

/-- One step. -/
theorem same_step {op : Op} (R : Reachable { w with tk := k }) (T : SameToks d w.tk k)
    (h : Verif.step w op = .ok (w', rc)) (hfit : FitsWith d w'.tk) :
    ∃ k', Verif.step { w with tk := k } op = .ok ({ w' with tk := k' }, rc) ∧ SameToks d w'.tk k' := by
  cases op with
  | tick s =>
    simp only [Verif.step, ok_eq_ok, Prod.mk.injEq] at h ⊢
    obtain ⟨rfl, rfl⟩ := h
    exact ⟨k, ⟨rfl, rfl⟩, T⟩
  | setTok b t =>
    simp only [Verif.step, bind_eq_ok, require_eq_ok, pure_eq_ok, exists_const, Prod.mk.injEq] at h ⊢
    obtain ⟨h1, h2, rfl, rfl⟩ := h
    exact ⟨_, ⟨h1, h2, rfl, rfl⟩, T.setPlain t (T.plain h1).1⟩
  | donate v n =>
    simp only [Verif.step, bind_eq_ok, load_eq_ok, require_eq_ok, pure_eq_ok, exists_const, Prod.mk.injEq] at h ⊢
    obtain ⟨t, h1, h2, rfl, rfl⟩ := h
    obtain ⟨x, hx, e⟩ := T.some_ v t h1
    have := hfit v _ (upd_self _ _ _)
    simp only at this
    have hlt : x + n < u64Bound := by omega
    exact ⟨_, ⟨_, e, hlt, rfl, rfl⟩, T.set (a := v) (t1 := { t with amount := t.amount + n }) (n := x + n)
      (by simp only; omega)⟩
  | freezeVault v b =>
    simp only [Verif.step, bind_eq_ok, load_eq_ok, pure_eq_ok, Prod.mk.injEq] at h ⊢
    obtain ⟨t, h1, rfl, rfl⟩ := h
    obtain ⟨x, hx, e⟩ := T.some_ v t h1
    exact ⟨_, ⟨_, e, rfl, rfl⟩, T.set (a := v) (t1 := { t with frozen := b }) (n := x) (by simp only; omega)⟩
  | setMint a m =>
    simp only [Verif.step, bind_eq_ok, require_eq_ok, pure_eq_ok, exists_const, Prod.mk.injEq] at h ⊢
    obtain ⟨h1, h2, rfl, rfl⟩ := h
    exact ⟨_, ⟨h1, by rw [T.mints]; exact h2, rfl, rfl⟩, T.setMint a (some m)⟩
  | ix tx i => exact same_execIx R T h hfit

end handlers

end Verif
