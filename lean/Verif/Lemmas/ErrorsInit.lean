import Verif.Lemmas.ErrorsSale
import Verif.Lemmas.MachineInit
/-!
# Error codes of the creation of a presale
-/

namespace Verif
open Spec

section args
variable {S : PErr → Prop} {a : InitializePresaleArgs} {t : Nat}

theorem errs_presaleArgs (hbad : BadInfo t a → S .invalidPresaleInfo)
    (hflag : 1 < a.presaleParams.disableEarlierPresaleEndOnceCapReached → S .invalidType) :
    Errs S (a.presaleParams.validate t) := by
  unfold PresaleArgs.validate PresaleArgs.startTimeWithoutGoingBackwards
  refine errs_req (fun h => hbad (.inl (by omega))) fun h1 =>
    errs_req (fun h => hbad (.inr (.inl (by omega)))) fun h2 => ?_
  refine errs_req (fun h => hbad (.inr (.inr (.inl (by omega))))) fun h3 => ?_
  refine errs_known (sub_eq_ok.2 ⟨Nat.le_of_lt h3, rfl⟩) ?_
  have c1 : MINIMUM_PRESALE_DURATION = 60 := rfl
  have c2 : MAXIMUM_PRESALE_DURATION = 30 * 24 * 3600 := rfl
  have c3 : MAXIMUM_DURATION_UNTIL_PRESALE = 30 * 24 * 3600 := rfl
  rw [c1, c2, c3]
  refine errs_req (fun h => hbad ?_) fun h4 => ?_
  · unfold BadInfo; omega
  refine errs_known (sub_eq_ok.2 ⟨Nat.le_max_right _ _, rfl⟩) ?_
  refine errs_req (fun h => hbad ?_) fun h5 => ?_
  · unfold BadInfo; omega
  refine errs_req (fun h => hbad (.inr (.inr (.inr (.inr (.inr (.inl ?_))))))) fun h6 => ?_
  · rw [whitelist_some] at h
    have h' := not_or.1 h
    exact ⟨by omega, by simpa using h'.2⟩
  refine errs_req (fun h => hbad (.inr (.inr (.inr (.inr (.inr (.inr (.inl ?_)))))))) fun h7 => ?_
  · rw [mode_some] at h
    have h' := not_or.1 h
    exact ⟨by omega, by simpa using h'.2⟩
  exact errs_require fun h => hflag (by rw [boolType_iff] at h; omega)

theorem errs_registryArgs {r : RegistryArgs} (hr : r ∈ a.presaleRegistries)
    (hbad : BadInfo t a → S .invalidPresaleInfo)
    (hsup : (∃ r ∈ a.presaleRegistries, r.presaleSupply = 0) → S .invalidTokenSupply) :
    Errs S (r.validate a.presaleParams) := by
  have hb : (r.buyerMaximumDepositCap < r.buyerMinimumDepositCap ∨ r.buyerMaximumDepositCap = 0 ∨
      a.presaleParams.presaleMaximumCap < r.buyerMaximumDepositCap ∨ 5000 < r.depositFeeBps) →
      S .invalidPresaleInfo :=
    fun h => hbad (.inr (.inr (.inr (.inr (.inr (.inr (.inr (.inr (.inr ⟨r, hr, h⟩)))))))))
  unfold RegistryArgs.validate
  have c : MAX_DEPOSIT_FEE_BPS = 5000 := rfl
  rw [c]
  exact errs_req (fun h => hb (by omega)) fun _ => errs_req (fun h => hb (by omega)) fun _ =>
    errs_req (fun h => hb (by omega)) fun _ => errs_req (fun h => hsup ⟨r, hr, by omega⟩) fun _ =>
    errs_require fun h => hb (by omega)

theorem errs_registryLoop (hbad : BadInfo t a → S .invalidPresaleInfo)
    (hsup : (∃ r ∈ a.presaleRegistries, r.presaleSupply = 0) → S .invalidTokenSupply)
    {rs : List RegistryArgs} (hrs : ∀ r ∈ rs, r ∈ a.presaleRegistries) :
    ∀ {acc : Nat}, acc + suppliesOf rs < u128Bound → Errs S (validateRegistriesLoop a.presaleParams rs acc) := by
  induction rs with
  | nil => intro acc _; exact errs_ok _
  | cons r rs ih =>
    intro acc hacc
    have e : suppliesOf (r :: rs) = r.presaleSupply + suppliesOf rs := by simp [suppliesOf, lsum_cons]
    rw [e] at hacc
    exact errs_bind (errs_registryArgs (hrs r (by simp)) hbad hsup) fun _ _ =>
      errs_known (add128_eq_ok.2 ⟨by omega, rfl⟩) (ih (fun x hx => hrs x (by simp [hx])) (by omega))

theorem errs_registries (hbad : BadInfo t a → S .invalidPresaleInfo)
    (hsup : (∃ r ∈ a.presaleRegistries, r.presaleSupply = 0) ∨ 2 ^ 64 ≤ offered a → S .invalidTokenSupply)
    (hmany : 1 < a.presaleRegistries.length ∧ ¬ Whitelisted a.presaleParams →
      S .multiplePresaleRegistriesNotAllowed)
    (hwl : (WhitelistMode.tryFrom a.presaleParams.whitelistMode).isSome = true)
    (hfit : ∀ r ∈ a.presaleRegistries, r.presaleSupply < u64Bound) :
    Errs S (validatePresaleRegistries a.presaleRegistries a.presaleParams) := by
  unfold validatePresaleRegistries
  refine errs_req (fun h => hbad ?_) fun h1 => ?_
  · have c : MAX_PRESALE_REGISTRY_COUNT = 5 := rfl
    rw [c] at h
    by_cases h0 : a.presaleRegistries = []
    · exact .inr (.inr (.inr (.inr (.inr (.inr (.inr (.inl h0)))))))
    · have := List.length_pos_iff.2 h0
      exact .inr (.inr (.inr (.inr (.inr (.inr (.inr (.inr (.inl (by omega)))))))))
  have hle : suppliesOf a.presaleRegistries ≤ a.presaleRegistries.length * u64Bound := by
    unfold suppliesOf
    generalize a.presaleRegistries = l at hfit
    clear * - hfit
    induction l with
    | nil => simp [lsum]
    | cons r l ih =>
      have h2 := ih (fun x hx => hfit x (by simp [hx]))
      have h1 := hfit r (by simp)
      rw [lsum_cons, List.length_cons, Nat.add_mul]
      omega
  have h128 : suppliesOf a.presaleRegistries < u128Bound := by
    have h5 : a.presaleRegistries.length ≤ 5 := h1.2
    have hm : a.presaleRegistries.length * u64Bound ≤ 5 * u64Bound := Nat.mul_le_mul_right _ h5
    rw [u64Bound_eq] at hm hle
    rw [u128Bound_eq]
    omega
  refine errs_bind (errs_registryLoop hbad (fun h => hsup (.inl h)) (fun _ h => h) (by omega)) fun s hs => ?_
  obtain ⟨g1, g2⟩ := validateRegistriesLoop_ok hs
  have hB := u64Bound_eq
  refine errs_req (fun h => hsup (.inr (by rw [offered_eq]; omega))) fun _ =>
    errs_req (fun h => ?_) fun _ => ?_
  · obtain ⟨r, hr⟩ := List.exists_mem_of_length_pos (l := a.presaleRegistries) h1.1
    obtain ⟨i, hi⟩ := List.mem_iff_getElem?.1 hr
    have : r.presaleSupply ≤ suppliesOf a.presaleRegistries := le_lsum (g := RegistryArgs.presaleSupply) hi
    have := (g1 r hr).supply
    omega
  unfold checkMultipleRegistries
  split
  · next hl =>
    obtain ⟨⟨wm, hwm⟩, _⟩ := castWhitelist_of_some hwl
    exact errs_known hwm (errs_require fun h => hmany ⟨hl, fun hw => h ((castWhitelist_permissioned hwm).1.2 hw)⟩)
  · exact errs_ok _

/-- The release terms leave the range of times. -/
def LateRelease (a : InitializePresaleArgs) : Prop :=
  2 ^ 64 ≤ a.lockedVestingParams.lockDuration + a.lockedVestingParams.vestDuration ∨
  2 ^ 64 ≤ a.presaleParams.presaleEndTime + a.lockedVestingParams.lockDuration + a.lockedVestingParams.vestDuration

theorem errs_timings (hov : LateRelease a → S .mathOverflow) :
    Errs S (vestAndLockTimings a.presaleParams.presaleEndTime a.lockedVestingParams.lockDuration
      a.lockedVestingParams.vestDuration) := by
  have hB := u64Bound_eq
  unfold vestAndLockTimings
  refine errs_bind ?_ fun x hx => errs_bind ?_ fun _ _ => errs_pure _
  · exact errs_over (U := LateRelease a) (over_add64 _ _) hov fun h => by
      have := not_or.1 h
      exact ⟨_, add64_eq_ok.2 ⟨by omega, rfl⟩⟩
  · obtain ⟨_, rfl⟩ := add64_eq_ok.1 hx
    exact errs_over (U := LateRelease a) (over_add64 _ _) hov fun h => by
      have := not_or.1 h
      exact ⟨_, add64_eq_ok.2 ⟨by omega, rfl⟩⟩

theorem errs_release (hend : a.presaleParams.presaleEndTime < 2 ^ 64) (hov : LateRelease a → S .mathOverflow)
    (hbad : ¬ ReleaseTerms a.lockedVestingParams a.presaleParams.presaleEndTime → S .invalidLockVestingInfo)
    {l : LockedVestingArgs} (hl : a.lockedVestingParams.option = some l) :
    Errs S (l.validate a.presaleParams.presaleEndTime) := by
  by_cases hr : ReleaseTerms a.lockedVestingParams a.presaleParams.presaleEndTime
  · exact errs_of_ok ((lockValidate_iff hend).2 hr l hl).1
  have hb := hbad hr
  have e : l = a.lockedVestingParams := by
    rw [option_eq] at hl; split at hl
    · cases hl
    · cases hl; rfl
  subst e
  have hB := u64Bound_eq
  unfold LockedVestingArgs.validate
  refine errs_bind ?_ fun x hx => errs_req (fun _ => hb) fun _ => errs_req (fun _ => hb) fun _ => ?_
  · exact errs_over (U := LateRelease a) (over_add64 _ _) hov fun h => by
      have := not_or.1 h
      exact ⟨_, add64_eq_ok.2 ⟨by omega, rfl⟩⟩
  split
  · exact errs_req (fun _ => hb) fun _ => errs_require fun _ => hb
  · refine errs_req (fun _ => hb) fun _ => errs_bind (errs_timings hov) fun _ _ => ?_
    dsimp only
    split
    · split
      · exact errs_require fun _ => hb
      · exact errs_require fun _ => hb
    · exact errs_ok _

theorem errs_lockTerms (hov : LateRelease a → S .mathOverflow) :
    Errs S (lockTermsOf a.presaleParams.presaleEndTime a.lockedVestingParams.option) := by
  rw [option_eq]
  split
  · exact errs_pure _
  · exact errs_bind (errs_timings hov) fun _ _ => errs_pure _

end args

/-! ## Prices -/

section price
variable {S : PErr → Prop} {a : InitializePresaleArgs} {q : Nat}

/-- What the error codes about a fixed price must mean. -/
structure PriceCodes (S : PErr → Prop) (a : InitializePresaleArgs) (q : Nat) : Prop where
  zero : ∀ r ∈ a.presaleRegistries, tokensAtPrice q r.buyerMinimumDepositCap = 0 → S .zeroTokenAmount
  big : ∀ r ∈ a.presaleRegistries, 2 ^ 64 ≤ tokensAtPrice q r.buyerMaximumDepositCap → S .invalidTokenPrice
  supply : offered a < tokensAtPrice q a.presaleParams.presaleMaximumCap → S .invalidTokenPrice
  gap : tokensAtPrice q a.presaleParams.presaleMinimumCap = tokensAtPrice q a.presaleParams.presaleMaximumCap →
    S .presaleMinMaxCapGapTooSmall
  range : Whitelisted a.presaleParams → ∀ r ∈ a.presaleRegistries, ¬ ListedLimits a.presaleParams (some q) r →
    S .invalidBuyerCapRange

theorem errs_fixedCheck (P : PriceCodes S a q) (hq : q ≠ 0) {b : Bool} (hb : b = true → Whitelisted a.presaleParams)
    (hcap : a.presaleParams.presaleMaximumCap < u64Bound) {x : RegistryArgs} (hx : x ∈ a.presaleRegistries)
    (V : ValidRegistry a.presaleParams x) :
    Errs S (fixedPriceRegistryCheck q a.presaleParams.presaleMaximumCap b x.slot) := by
  have hB := u64Bound_eq
  have v1 := V.within
  have v2 := V.order
  have h1 : x.slot.buyerMinimumDepositCap = x.buyerMinimumDepositCap := rfl
  have h2 : x.slot.buyerMaximumDepositCap = x.buyerMaximumDepositCap := rfl
  have hm := tokensAtPrice_mono (q := q) v2
  unfold fixedPriceRegistryCheck ensureTokenBuyable
  rw [if_neg (by rw [slot_isUninitialized V.supply]; decide), h1, h2]
  refine errs_bind (errs_known (tokenBought_eq (show x.buyerMinimumDepositCap < u64Bound by omega) hq)
    (errs_req (fun h => P.zero x hx (by omega)) fun _ => errs_require fun h => P.big x hx (by omega))) fun _ hmin =>
    errs_bind (errs_known (tokenBought_eq (show x.buyerMaximumDepositCap < u64Bound by omega) hq)
    (errs_req (fun h => P.zero x hx (by omega)) fun _ => errs_require fun h => P.big x hx (by omega))) fun _ _ => ?_
  have hpos := (ensureBuyable_ok (show x.buyerMinimumDepositCap < u64Bound by omega) hq hmin).1
  cases b with
  | false => exact errs_ok _
  | true =>
    rw [if_pos rfl]
    have hle : divCeil q SCALE_MULTIPLIER ≤ x.buyerMinimumDepositCap := by
      have h1 := tokensAtPrice_mul_le q x.buyerMinimumDepositCap
      rw [scale_eq] at h1 ⊢
      rw [divCeil_le_iff (by decide)]
      exact Nat.le_trans (Nat.le_mul_of_pos_left q hpos) h1
    refine errs_known (a := divCeil q SCALE_MULTIPLIER) (cast64_eq_ok.2 ⟨by omega, rfl⟩) ?_
    refine errs_req (fun h => P.range (hb rfl) x hx fun L => h (isCeilDiv_iff.1 (L.2.2 q rfl))) fun _ =>
      errs_require fun h => P.range (hb rfl) x hx fun L => h L.1

theorem errs_fixedChecks (P : PriceCodes S a q) (hq : q ≠ 0) {b : Bool} (hb : b = true → Whitelisted a.presaleParams)
    (hcap : a.presaleParams.presaleMaximumCap < u64Bound)
    (hV : ∀ x ∈ a.presaleRegistries, ValidRegistry a.presaleParams x) {rs : List Registry}
    (hrs : ∀ r ∈ rs, r = Registry.fresh ∨ ∃ x ∈ a.presaleRegistries, r = x.slot) :
    Errs S (fixedPriceRegistryChecks q a.presaleParams.presaleMaximumCap b rs) := by
  induction rs with
  | nil => exact errs_ok _
  | cons r rs ih =>
    refine errs_bind ?_ fun _ _ => ih fun r hr => hrs r (by simp [hr])
    rcases hrs r (by simp) with rfl | ⟨x, hx, rfl⟩
    · unfold fixedPriceRegistryCheck; rw [if_pos fresh_isUninitialized]; exact errs_ok _
    · exact errs_fixedCheck P hq hb hcap hx (hV x hx)

theorem errs_enforce (hrange : ∀ r ∈ a.presaleRegistries, ¬ ListedLimits a.presaleParams none r →
      S .invalidBuyerCapRange) {rs : List Registry}
    (hrs : ∀ r ∈ rs, r = Registry.fresh ∨ ∃ x ∈ a.presaleRegistries, r = x.slot) :
    Errs S (enforceDynamicPriceRegistriesMaxBuyerCapRange a.presaleParams.presaleMaximumCap rs) := by
  induction rs with
  | nil => exact errs_ok _
  | cons r rs ih =>
    refine errs_req (fun h => ?_) fun _ => ih fun r hr => hrs r (by simp [hr])
    rcases hrs r (by simp) with rfl | ⟨x, hx, rfl⟩
    · exact absurd (Or.inl fresh_isUninitialized) h
    · exact hrange x hx fun L => h (Or.inr ⟨L.2.1 rfl, L.1⟩)

end price

theorem errs_create {w : World} {a : InitPresaleAcc} {S : PErr → Prop} {t : Nat}
    (hL : ∀ acc x, w.fixedArgs acc = some x → 0 < x.qPrice)
    (hV : ValidArgs a.args t) (hcap : a.args.presaleParams.presaleMaximumCap < u64Bound)
    (hsup : offered a.args < u64Bound)
    (hov : LateRelease a.args → S .mathOverflow)
    (hmiss : (a.args.presaleParams.presaleMode ≠ 1 ∧ a.args.presaleParams.presaleMode ≠ 2 ∧
      (a.remaining = [] ∨ ∃ acc rest x, a.remaining = acc :: rest ∧ w.fixedArgs acc = some x ∧
        x.presale ≠ .presale a.base a.presaleMint a.quoteTokenMint)) → S .missingPresaleExtraParams)
    (hrange : Whitelisted a.args.presaleParams → ∀ left, Priced w a none left →
      ∀ r ∈ a.args.presaleRegistries, ¬ ListedLimits a.args.presaleParams none r → S .invalidBuyerCapRange)
    (hP : ∀ q left, Priced w a (some q) left → PriceCodes S a.args q) :
    Errs S (processCreatePresaleVault w.fixedArgs a.presaleKey a.keys a.args t a.remaining) := by
  have hB := u64Bound_eq
  rw [offered_eq] at hsup
  unfold processCreatePresaleVault
  refine errs_bind ?_ fun b hb => ?_
  · unfold Presale.initialized
    obtain ⟨rg, hrg⟩ := initRegistriesLoop_succeeds (as := a.args.presaleRegistries) (idx := 0)
      (regs := List.replicate MAX_PRESALE_REGISTRY_COUNT Registry.fresh) (supply := 0)
      (by simp [MAX_PRESALE_REGISTRY_COUNT]; exact hV.count.2) (by omega)
    exact errs_known hrg (errs_bind (errs_lockTerms hov) fun _ _ => errs_pure _)
  obtain ⟨k', hk', hbl, _, _⟩ := initialized_eq hb
  have hmode : b.presaleMode = a.args.presaleParams.presaleMode := by rw [hbl]; rfl
  have hwl : b.whitelistMode = a.args.presaleParams.whitelistMode := by rw [hbl]; rfl
  have hmax : b.presaleMaximumCap = a.args.presaleParams.presaleMaximumCap := by rw [hbl]; rfl
  have hmin : b.presaleMinimumCap = a.args.presaleParams.presaleMinimumCap := by rw [hbl]; rfl
  have hsu : b.presaleSupply = offered a.args := by rw [hbl]; rfl
  have hre : ∀ r ∈ b.registries, r = Registry.fresh ∨ ∃ x ∈ a.args.presaleRegistries, r = x.slot := by
    intro r hr
    have e : b.registries = a.args.presaleRegistries.map RegistryArgs.slot ++
      List.replicate (5 - a.args.presaleRegistries.length) Registry.fresh := by rw [hbl]; rfl
    rw [e] at hr
    rcases List.mem_append.1 hr with hr | hr
    · obtain ⟨x, hx, rfl⟩ := List.mem_map.1 hr
      exact .inr ⟨x, hx, rfl⟩
    · exact .inl (List.eq_of_mem_replicate hr)
  obtain ⟨⟨wm, hwm⟩, _⟩ := castWhitelist_of_some hV.sale.whitelist
  have hperm : wm.isPermissioned = true ↔ Whitelisted a.args.presaleParams := (castWhitelist_permissioned hwm).1
  obtain ⟨hd, hh⟩ : ∃ hd, getPresaleModeHandler b = .ok hd := by
    obtain ⟨⟨m, hm⟩, _⟩ := castMode_of_some hV.sale.mode
    simp only [getPresaleModeHandler, hmode, hm, ok_bind]
    cases m <;> exact ⟨_, rfl⟩
  refine errs_known hh ?_
  have hdyn : (a.args.presaleParams.presaleMode = 1 ∨ a.args.presaleParams.presaleMode = 2) →
      Errs S (checkDynamicPriceRegistries b) := by
    intro hm
    unfold checkDynamicPriceRegistries
    rw [hwl, hmax]
    refine errs_known hwm ?_
    split
    · next hp => exact errs_enforce (hrange (hperm.1 hp) a.remaining (.inl ⟨hm, rfl, rfl⟩)) hre
    · exact errs_ok _
  have hcases := handler_cases hh
  rw [hmode] at hcases
  unfold Handler.initializePresale
  rcases hcases with ⟨hm, rfl⟩ | ⟨hm, rfl⟩ | ⟨hm, hm', rfl⟩
  · exact errs_bind (hdyn (.inl hm)) fun _ _ => errs_pure _
  · exact errs_bind (hdyn (.inr hm)) fun _ _ => errs_pure _
  dsimp only
  cases hrem : a.remaining with
  | nil => exact errs_p (hmiss ⟨hm, hm', .inl hrem⟩)
  | cons acc rest =>
    dsimp only
    cases hx : w.fixedArgs acc with
    | none => exact errs_x _
    | some x =>
      dsimp only
      refine errs_req (fun h => hmiss ⟨hm, hm', .inr ⟨acc, rest, x, hrem, hx, h⟩⟩) fun hk => ?_
      have hq : x.qPrice ≠ 0 := Nat.pos_iff_ne_zero.1 (hL _ _ hx)
      have P := hP x.qPrice rest (.inr ⟨hm, hm', acc, x, hrem, hx, hk, rfl⟩)
      rw [hwl, hmax, hmin, hsu]
      refine errs_known hwm (errs_bind (errs_fixedChecks P hq hperm.1 hcap hV.regs hre) fun _ _ =>
        errs_bind ?_ fun _ _ => errs_bind ?_ fun _ _ => errs_pure _)
      · exact errs_known (tokenBought_eq hcap hq) (errs_require fun h => P.supply (by omega))
      · have hord := hV.sale.order
        have hm := tokensAtPrice_mono (q := x.qPrice) hord
        exact errs_known (tokenBought_eq (show a.args.presaleParams.presaleMinimumCap < u64Bound by omega) hq)
          (errs_known (tokenBought_eq hcap hq) (errs_known (sub_eq_ok.2 ⟨hm, rfl⟩)
            (errs_require fun h => P.gap (by omega))))

theorem errs_initPresale {w : World} (R : Reachable w) {tx : Tx} {a : InitPresaleAcc} :
    Errs (Because w (.initPresale a)) (handleInitPresale w tx a) := by
  have W := R.winv
  have hB := u64Bound_eq
  have hL : ∀ acc x, w.fixedArgs acc = some x → 0 < x.qPrice := fun acc x h => (W.aux.fixed acc x h).2.1
  unfold handleInitPresale
  refine errs_reqx fun hr => errs_loads fun bm hbm => errs_loads fun qm hqm => errs_reqx fun _ => errs_reqx fun hf =>
    errs_reqx fun _ => ?_
  obtain ⟨r1, r2, r3⟩ := inRange_ok hr.1
  have hfit : ∀ r ∈ a.args.presaleRegistries, r.presaleSupply < u64Bound := by
    have h := hr.1
    unfold InitializePresaleArgs.inRange at h
    simp only [Bool.and_eq_true, decide_eq_true_eq, List.all_eq_true] at h
    exact fun r h' => (h.2 r h').1.2
  have here : ∀ e, InitPresaleReason w a bm qm e → Because w (.initPresale a) e := fun e h => ⟨bm, qm, hbm, hqm, h⟩
  have hov : LateRelease a.args → Because w (.initPresale a) .mathOverflow := fun h =>
    here .mathOverflow (.inr (h.elim .inl fun h => .inr (.inl h)))
  by_cases hc : 0 ≤ w.clock
  rotate_left
  · refine errs_bind ?_ fun _ h => absurd (castTime_eq_ok.1 h).1 hc
    unfold castTime
    rw [if_neg hc]
    exact errs_p (here .mathOverflow (.inl (by omega)))
  refine errs_time hc (errs_bind ?_ fun _ hval => ?_)
  · unfold InitializePresaleArgs.validate
    refine errs_bind (errs_presaleArgs (here .invalidPresaleInfo) (here .invalidType)) fun _ hv => ?_
    refine errs_bind (errs_registries (here .invalidPresaleInfo) (here .invalidTokenSupply)
      (here .multiplePresaleRegistriesNotAllowed) (presaleValidate_ok hv).whitelist hfit) fun _ _ => ?_
    cases hl : a.args.lockedVestingParams.option with
    | none => exact errs_pure _
    | some l => exact errs_release (by omega) hov (here .invalidLockVestingInfo) hl
  have hV := validate_ok hval
  have hsup : offered a.args < u64Bound := by
    simp only [InitializePresaleArgs.validate, bind_eq_ok, validatePresaleRegistries, require_eq_ok] at hval
    obtain ⟨_, _, _, ⟨_, _, s, h3, _, h4, _⟩, _⟩ := hval
    have := (validateRegistriesLoop_ok h3).2
    rw [offered_eq]; omega
  refine errs_req (fun h => here .unsupportedToken2022MintOrExtension fun h' => h (supported_iff.2 h'.2)) fun _ =>
    errs_req (fun h => here .unsupportedToken2022MintOrExtension fun h' => h (supported_iff.2 h'.1)) fun _ => ?_
  refine errs_bind (errs_create hL hV r1 hsup hov (here .missingPresaleExtraParams) ?_ ?_) fun pr hpr => ?_
  · intro hw left hp r hr hl
    exact here .invalidBuyerCapRange ⟨hw, none, left, hp, r, hr, hl⟩
  · intro q left hp
    exact {
      zero := fun r hr h => here .zeroTokenAmount ⟨q, left, hp, r, hr, h⟩
      big := fun r hr h => here .invalidTokenPrice ⟨q, left, hp, .inl ⟨r, hr, h⟩⟩
      supply := fun h => here .invalidTokenPrice ⟨q, left, hp, .inr h⟩
      gap := fun h => here .presaleMinMaxCapGapTooSmall ⟨q, left, hp, h⟩
      range := fun hw r hr h => here .invalidBuyerCapRange ⟨hw, _, left, hp, r, hr, h⟩ }
  obtain ⟨p, left⟩ := pr
  dsimp only
  obtain ⟨price, hp, _⟩ := (terms_iff hL).1 ⟨hr.1, hval, p, hpr⟩
  have hsum : sumSupplies a.args.presaleRegistries 0 = .ok (offered a.args) := by
    rw [sumSupplies_succeeds (by rw [← offered_eq]; omega), offered_eq, Nat.zero_add]
  refine errs_known hsum ?_
  have key : ∀ x, HookReason .transferHookBase bm left a.slices x → Because w (.initPresale a) x := by
    intro x hx
    refine ⟨bm, qm, hbm, hqm, ?_⟩
    cases x <;> first | exact ⟨price, left, hp, hx⟩ | exact hx.elim
  refine errs_bind (errs_over (U := ∀ g, g < 2 ^ 64 → g - bm.transferFee g ≠ offered a.args) (over_included _ _)
    (fun h => here .mathOverflow (.inr (.inr (.inr h)))) fun h => ?_) fun g hg =>
      errs_bind ((errs_parse bm).mono key) fun hooks hparse => errs_bind ?_ fun _ _ => errs_pure _
  · refine ((C42_panic_unreachable (W.core.feeOk _ _ hbm) hsup).2).2 ?_
    simp only [not_forall, not_not] at h
    obtain ⟨g, h1, h2⟩ := h
    exact ⟨g, by omega, h2⟩
  · refine Errs.mono (errs_move (kind := .transferHookBase) (m := bm) ?_ hparse) key
    exact hbm

end Verif
