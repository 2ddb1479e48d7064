import Verif.Lemmas.MachineAfter
import Verif.Props.Accepting
/-!
# Creating a presale follows the reference semantics
-/

namespace Verif
open Spec

theorem slots_eq (rs : List RegistryArgs) :
    slots rs = rs.map RegistryArgs.slot ++ List.replicate (5 - rs.length) Registry.fresh := rfl

theorem option_eq (l : LockedVestingArgs) : l.option = if Unreleased l then none else some l := rfl

theorem blank_eq {a : InitPresaleAcc} {k' : LockTerms} {t : Nat}
    (hk : lockTermsOf a.args.presaleParams.presaleEndTime a.args.lockedVestingParams.option = .ok k') :
    Presale.blank a.keys a.args.presaleParams a.args.presaleRegistries k' t =
      { newSale a none t with raw0 := 0 } := by
  have hk' : k' = ⟨a.args.lockedVestingParams.lockDuration, a.args.lockedVestingParams.vestDuration,
      a.args.lockedVestingParams.immediatelyReleaseBps, a.args.lockedVestingParams.immediateReleaseTimestamp,
      if Unreleased a.args.lockedVestingParams then 0
        else a.args.presaleParams.presaleEndTime + a.args.lockedVestingParams.lockDuration,
      if Unreleased a.args.lockedVestingParams then 0
        else a.args.presaleParams.presaleEndTime + a.args.lockedVestingParams.lockDuration +
          a.args.lockedVestingParams.vestDuration⟩ := by
    by_cases hu : Unreleased a.args.lockedVestingParams
    · rw [option_eq, if_pos hu] at hk
      rcases lockTermsOf_eq hk with ⟨_, h⟩ | ⟨x, h, _⟩
      · rw [if_pos hu, if_pos hu, h]
        obtain ⟨u1, u2, u3, u4, _⟩ := hu
        rw [u1, u2, u3, u4]
      · cases h
    · rw [option_eq, if_neg hu] at hk
      rcases lockTermsOf_eq hk with ⟨h, _⟩ | ⟨x, h, _, h2⟩
      · cases h
      · cases h
        rw [h2, if_neg hu, if_neg hu]
  subst hk'
  unfold Presale.blank newSale
  rw [offered_eq]
  cases hb : a.baseTokenProgram <;> cases hq : a.quoteTokenProgram <;>
    simp only [InitPresaleAcc.keys, hb, hq] <;> rfl


/-- The new account is the one the reference semantics describes. -/
theorem created_eq {w : World} {a : InitPresaleAcc} {t : Nat} {p : Presale} {left : List Addr}
    (h : processCreatePresaleVault w.fixedArgs a.presaleKey a.keys a.args t a.remaining = .ok (p, left)) :
    ∃ c : Option FixedPriceArgs, p = newSale a c t ∧
      (∀ x, c = some x → ∃ acc, a.remaining = acc :: left ∧ w.fixedArgs acc = some x) ∧
      (c = none ↔ a.args.presaleParams.presaleMode = 1 ∨ a.args.presaleParams.presaleMode = 2) := by
  obtain ⟨k', hk, _, _, C⟩ := processCreate_ok h
  rw [blank_eq hk] at C
  generalize hb : ({ newSale a none t with raw0 := 0 } : Presale) = b at C
  have hmode : b.presaleMode = a.args.presaleParams.presaleMode := by rw [← hb]; rfl
  cases C with
  | prorata hm hc =>
    rw [hmode] at hm
    refine ⟨none, ?_, fun x hx => (by cases hx), by simp [hm]⟩
    rw [← hb]
    unfold newSale
    simp only [if_neg (show ¬ a.args.presaleParams.presaleMode = 2 by omega)]
  | fcfs hm hc =>
    rw [hmode] at hm
    refine ⟨none, ?_, fun x hx => (by cases hx), by simp [hm]⟩
    rw [← hb]
    unfold newSale Presale.writeFcfsData
    simp only [if_pos hm, Nat.zero_sub, Nat.zero_mod, Nat.zero_add]
  | @fixed acc _ x wm hm hm' hrem hx hk hw hc hs hg =>
    rw [hmode] at hm hm'
    refine ⟨some x, ?_, fun y hy => ?_, by simp [hm, hm']⟩
    · rw [← hb]
      unfold newSale Presale.writeFixedPriceData
      simp only [Nat.zero_sub, Nat.zero_mod, Nat.zero_add]
    · cases hy; exact ⟨_, hrem, hx⟩

theorem does_initPresale_forward {w : World} (R : Reachable w) {tx : Tx} {a : InitPresaleAcc} {w' : World} {rc : Receipt}
    (hs : handleInitPresale w tx a = .ok (w', rc)) :
    ∃ c left bm qm src gross, DoesInitPresale w tx a w' c left bm qm src gross := by
  have W := R.winv
  have hB := u64Bound_eq
  have hL : ∀ acc x, w.fixedArgs acc = some x → 0 < x.qPrice := fun acc x h => (W.aux.fixed acc x h).2.1
  obtain ⟨bm, qm, p, rem, supply, inc, hooks, rest, tk, cpi, F⟩ := handleInitPresale_iff.1 hs
  obtain ⟨price, hP, T⟩ := (terms_iff hL).1 ⟨F.range.1, F.valid, p, F.create⟩
  obtain ⟨c, hp, hc1, hc2⟩ := created_eq F.create
  have hprice : price = c.map FixedPriceArgs.qPrice := by
    rcases hP with ⟨h1, h2, _⟩ | ⟨h1, h2, acc, x, h3, h4, _, h5⟩
    · rw [h2, hc2.2 h1]; rfl
    · cases c with
      | none => rcases hc2.1 rfl with h | h
                · exact absurd h h1
                · exact absurd h h2
      | some y =>
        obtain ⟨acc', g1, g2⟩ := hc1 y rfl
        rw [h3] at g1; cases g1
        rw [h4] at g2; cases g2
        exact h5
  subst hprice
  obtain ⟨hsrc, -, -, -, -, -⟩ := F.vaults W
  have hb' : a.payerPresaleToken ≠ .baseVault a.presaleKey := by intro h; rw [h] at hsrc; cases hsrc
  have hq' : a.payerPresaleToken ≠ .quoteVault a.presaleKey := by intro h; rw [h] at hsrc; cases hsrc
  have hbq : (Addr.baseVault a.presaleKey) ≠ .quoteVault a.presaleKey := by intro h; cases h
  obtain ⟨s, d, m, dlg, G⟩ := transferTokens_iff.1 F.transfer
  obtain ⟨a1, a2⟩ := allowance_iff.1 G.auth
  have g1 := G.hs
  have g2 := G.hd
  simp only [upd_other _ _ hq', upd_other _ _ hb'] at g1
  simp only [upd_other _ _ hbq] at g2
  rw [upd_self] at g2
  cases g2
  have e : m = bm := by have := F.baseMint; have h := G.hm; rw [show w.tk.mints a.presaleMint = some m from h] at this; cases this; rfl
  subst e
  have hsum : supply = offered a.args := by
    have := sumSupplies_eq F.sumSupply; rw [offered_eq]; omega
  have hT := T.supply
  obtain ⟨hex, _, _, hleast⟩ := C42_inversion_exact (W.core.feeOk _ _ F.baseMint) (show supply < u64Bound by omega) F.gross
  refine ⟨c, rem, m, qm, s, inc, ?_, hc1, ?_, ?_⟩
  · exact {
      signed := F.signed, fresh := F.fresh, clock := F.clock
      baseMint := ⟨F.baseMint, F.programs.1, supported_iff.1 F.supportedBase⟩
      quoteMint := ⟨F.quoteMint, F.programs.2, supported_iff.1 F.supportedQuote⟩
      priced := hP, terms := T
      source := ⟨g1, G.smint, G.sfrozen⟩
      gross := ⟨by omega, G.enough, a1⟩
      accepted := G.acc
      slices := slicesInRange_iff.1 F.range.2
      hooks := hooks_iff.1 ⟨hooks, rest, F.parse, G.hook⟩ }
  · intro other ho
    exact hleast other (by omega)
  · have hpost := G.post
    rw [if_neg hb'] at hpost
    have hnet : inc - m.transferFee inc = offered a.args := by omega
    subst a2
    have htk : tk = { w.tk with
        toks := upd (upd (upd w.tk.toks
          a.payerPresaleToken (some { s with amount := s.amount - inc, delegate := allowanceLeft s a.payer inc }))
          (.baseVault a.presaleKey) (some (vaultWith a.presaleMint (offered a.args))))
          (.quoteVault a.presaleKey) (some (vaultWith a.quoteTokenMint 0)) } := by
      rw [hpost, hnet]
      congr 1
      funext k
      simp only [upd_apply]
      by_cases k1 : k = .quoteVault a.presaleKey
      · subst k1
        rw [if_neg hbq.symm, if_neg hq'.symm, if_pos rfl, if_pos rfl]
        rfl
      · rw [if_neg k1]
        by_cases k2 : k = .baseVault a.presaleKey
        · subst k2
          rw [if_pos rfl, if_neg k1, if_pos rfl]
          simp only [freshVault, vaultWith, Nat.zero_add]
        · rw [if_neg k2, if_neg k2, if_neg k1, if_neg k2]
    rw [F.post, hp, htk]
    rfl

theorem does_initPresale {w : World} (R : Reachable w) {tx : Tx} {a : InitPresaleAcc} {w' : World} :
    (∃ rc, handleInitPresale w tx a = .ok (w', rc)) ↔
      ∃ c left bm qm src gross, DoesInitPresale w tx a w' c left bm qm src gross := by
  constructor
  · rintro ⟨rc, hs⟩; exact does_initPresale_forward R hs
  · rintro ⟨c, left, bm, qm, src, gross, D⟩
    obtain ⟨w2, rc, hs⟩ := (C71_created_iff R tx a).2 ⟨_, _, _, _, _, _, D.creatable⟩
    obtain ⟨c2, left2, bm2, qm2, src2, gross2, D2⟩ := does_initPresale_forward R hs
    have C := D.creatable
    have C2 := D2.creatable
    have hbm : bm = bm2 := by have h := C.baseMint.1; rw [C2.baseMint.1] at h; cases h; rfl
    have hsrc : src = src2 := by have h := C.source.1; rw [C2.source.1] at h; cases h; rfl
    subst hbm hsrc
    have hg : gross = gross2 := by
      have h1 := D.least gross2 C2.gross.1
      have h2 := D2.least gross C.gross.1
      omega
    subst hg
    have hc : c = c2 := by
      have none_of : ∀ {c : Option FixedPriceArgs} {l : List Addr},
          PricedBy w.fixedArgs (.presale a.base a.presaleMint a.quoteTokenMint) a.args.presaleParams.presaleMode
            a.remaining (c.map FixedPriceArgs.qPrice) l →
          (c = none ↔ a.args.presaleParams.presaleMode = 1 ∨ a.args.presaleParams.presaleMode = 2) := by
        intro c l h
        rcases h with ⟨h1, h2, _⟩ | ⟨h1, h2, acc, x, _, _, _, h5⟩
        · exact ⟨fun _ => h1, fun _ => by cases c with | none => rfl | some y => cases h2⟩
        · refine ⟨fun h => (by rw [h] at h5; cases h5), fun h => ?_⟩
          rcases h with h | h
          · exact absurd h h1
          · exact absurd h h2
      cases c with
      | none => exact ((none_of C2.priced).2 ((none_of C.priced).1 rfl)).symm
      | some x =>
        cases c2 with
        | none => cases (none_of C.priced).2 ((none_of C2.priced).1 rfl)
        | some y =>
          obtain ⟨acc, h1, h2⟩ := D.priced x rfl
          obtain ⟨acc', h3, h4⟩ := D2.priced y rfl
          rw [h1] at h3; cases h3
          rw [h2] at h4; exact h4
    subst hc
    exact ⟨rc, by rw [D.post, ← D2.post]; exact hs⟩

end Verif
