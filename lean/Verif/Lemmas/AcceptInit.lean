import Verif.Lemmas.Accept
/-!
# Exactly when the terms of a sale are accepted
-/

namespace Verif
open Spec

theorem validateRegistriesLoop_succeeds {a : PresaleArgs} {rs : List RegistryArgs} {acc : Nat}
    (h : ∀ r ∈ rs, ValidRegistry a r) (hb : acc + suppliesOf rs < u128Bound) :
    validateRegistriesLoop a rs acc = .ok (acc + suppliesOf rs) := by
  induction rs generalizing acc with
  | nil => rfl
  | cons r rs ih =>
    have e : suppliesOf (r :: rs) = r.presaleSupply + suppliesOf rs := by simp [suppliesOf, lsum_cons]
    rw [e] at hb ⊢
    have h1 : add128 acc r.presaleSupply = .ok (acc + r.presaleSupply) := add128_eq_ok.2 ⟨by omega, rfl⟩
    simp only [validateRegistriesLoop, registryValidate_iff.2 (h r (by simp)), ok_bind, h1]
    rw [ih (fun x hx => h x (by simp [hx])) (by omega)]
    congr 1; omega

theorem sumSupplies_succeeds {rs : List RegistryArgs} {acc : Nat} (hb : acc + suppliesOf rs < u64Bound) :
    sumSupplies rs acc = .ok (acc + suppliesOf rs) := by
  induction rs generalizing acc with
  | nil => rfl
  | cons r rs ih =>
    have e : suppliesOf (r :: rs) = r.presaleSupply + suppliesOf rs := by simp [suppliesOf, lsum_cons]
    rw [e] at hb ⊢
    have h1 : add64 acc r.presaleSupply = .ok (acc + r.presaleSupply) := add64_eq_ok.2 ⟨by omega, rfl⟩
    simp only [sumSupplies, h1, ok_bind]
    rw [ih (by omega)]
    congr 1; omega

theorem initRegistriesLoop_succeeds {as : List RegistryArgs} {idx : Nat} {regs : List Registry} {supply : Nat}
    (hl : idx + as.length ≤ regs.length) (hb : supply + suppliesOf as < u64Bound) :
    ∃ r, initRegistriesLoop as idx regs supply = .ok r := by
  induction as generalizing idx regs supply with
  | nil => exact ⟨_, rfl⟩
  | cons a as ih =>
    have e : suppliesOf (a :: as) = a.presaleSupply + suppliesOf as := by simp [suppliesOf, lsum_cons]
    rw [e] at hb
    simp only [List.length_cons] at hl
    have h1 : add64 supply a.presaleSupply = .ok (supply + a.presaleSupply) := add64_eq_ok.2 ⟨by omega, rfl⟩
    have h2 : regs[idx]? = some regs[idx] := List.getElem?_eq_getElem (by omega)
    simp only [initRegistriesLoop, h2, h1, ok_bind]
    exact ih (by simp; omega) (by omega)

theorem whitelist_some {b : Nat} : (WhitelistMode.tryFrom b).isSome = true ↔
    (b ≤ 2 ∨ unknownWhitelistIsDefault = true) := by
  refine ⟨fun h => (castWhitelist_of_some h).2, ?_⟩
  intro h
  unfold WhitelistMode.tryFrom
  split
  · rfl
  · rfl
  · rfl
  · next h0 h1 h2 =>
    rcases h with h | h
    · exfalso
      have a0 : b ≠ 0 := fun h => h0 h
      have a1 : b ≠ 1 := fun h => h1 h
      have a2 : b ≠ 2 := fun h => h2 h
      omega
    · rw [h]; rfl

theorem mode_some {b : Nat} : (PresaleMode.tryFrom b).isSome = true ↔
    (b ≤ 2 ∨ unknownModeIsDefault = true) := by
  refine ⟨fun h => (castMode_of_some h).2, ?_⟩
  intro h
  unfold PresaleMode.tryFrom
  split
  · rfl
  · rfl
  · rfl
  · next h0 h1 h2 =>
    rcases h with h | h
    · exfalso
      have a0 : b ≠ 0 := fun h => h0 h
      have a1 : b ≠ 1 := fun h => h1 h
      have a2 : b ≠ 2 := fun h => h2 h
      omega
    · rw [h]; rfl

theorem boolType_iff {b : Nat} : (boolTypeTryFrom b).isSome = true ↔ b ≤ 1 := by
  refine ⟨boolType_some, ?_⟩
  intro h
  have : b = 0 ∨ b = 1 := by omega
  rcases this with rfl | rfl <;> rfl

theorem presaleValidate_iff {a : PresaleArgs} {t : Nat} : a.validate t = .ok () ↔ ValidPresale a t := by
  refine ⟨presaleValidate_ok, ?_⟩
  rintro ⟨h1, h2, ⟨h3, h4⟩, h5, h6, h7, h8⟩
  simp only [PresaleArgs.validate, PresaleArgs.startTimeWithoutGoingBackwards, bind_eq_ok, require_eq_ok,
    sub_eq_ok, exists_const]
  refine ⟨h1, h2, (), require_ok (by omega), _, ⟨by omega, rfl⟩, ⟨?_, ?_⟩, _, ⟨by omega, rfl⟩, ?_, h6, h7, boolType_iff.2 h8⟩
  · unfold MINIMUM_PRESALE_DURATION; omega
  · unfold MAXIMUM_PRESALE_DURATION; omega
  · unfold MAXIMUM_DURATION_UNTIL_PRESALE; omega

/-- Release terms are accepted exactly when they are acceptable. -/
theorem lockValidate_iff {l : LockedVestingArgs} {e : Nat} (he : e < 2 ^ 64) :
    (∀ x, l.option = some x → x.validate e = .ok () ∧ ∃ k, lockTermsOf e (some x) = .ok k) ↔ ReleaseTerms l e := by
  have hB := u64Bound_eq
  unfold LockedVestingArgs.option ReleaseTerms
  by_cases h0 : l.immediatelyReleaseBps = 0 ∧ l.lockDuration = 0 ∧ l.vestDuration = 0
      ∧ l.immediateReleaseTimestamp = 0 ∧ l.paddingIsZero = true
  · rw [if_pos h0]
    exact ⟨fun _ => Or.inl h0, fun _ x hx => by cases hx⟩
  · rw [if_neg h0]
    constructor
    · intro h
      obtain ⟨hv, k, hk⟩ := h l rfl
      right
      obtain ⟨V1, V2, V3, V4, V5, V6⟩ := lockValidate_ok hv
      rcases lockTermsOf_eq hk with ⟨h, _⟩ | ⟨x, hx, hf, _⟩
      · cases h
      cases hx
      refine ⟨by omega, by omega, ?_⟩
      by_cases hb : l.immediatelyReleaseBps = 10000
      · left
        have := V3 hb
        exact ⟨hb, this.1, this.2, by omega⟩
      · right
        refine ⟨by omega, V4 (by omega), ?_⟩
        by_cases hz : l.immediatelyReleaseBps = 0
        · have := V6 hz; omega
        · omega
    · rintro (h | ⟨h1, h2, h⟩)
      · exact absurd h h0
      intro x hx
      cases hx
      have ht : ∃ k, lockTermsOf e (some l) = .ok k := by
        have a1 : add64 e l.lockDuration = .ok (e + l.lockDuration) := add64_eq_ok.2 ⟨by omega, rfl⟩
        have a2 : add64 (e + l.lockDuration) l.vestDuration = .ok (e + l.lockDuration + l.vestDuration) :=
          add64_eq_ok.2 ⟨by omega, rfl⟩
        simp only [lockTermsOf, vestAndLockTimings, a1, a2, ok_bind]
        exact ⟨_, rfl⟩
      refine ⟨?_, ht⟩
      have e1 : MAX_FEE_BASIS_POINTS = 10000 := rfl
      have e2 : MAXIMUM_LOCK_AND_VEST_DURATION = 315360000 := rfl
      simp only [LockedVestingArgs.validate, bind_eq_ok, add64_eq_ok, require_eq_ok]
      rw [e1, e2]
      refine ⟨_, ⟨by omega, rfl⟩, (), by omega, (), by omega, ?_⟩
      split
      · next hb =>
        simp only [bind_eq_ok, require_eq_ok]
        exact ⟨(), by omega, by omega⟩
      · next hb =>
        simp only [bind_eq_ok, require_eq_ok, vestAndLockTimings, add64_eq_ok, pure_eq_ok]
        refine ⟨(), by omega, ⟨_, _⟩, ⟨_, ⟨by omega, rfl⟩, _, ⟨by omega, rfl⟩, rfl⟩, ?_⟩
        dsimp only
        split
        · split
          · simp only [require_eq_ok]; omega
          · simp only [require_eq_ok]; omega
        · rfl

/-! ## Mode-specific checks -/

theorem forChecks_iff {q m : Nat} {b : Bool} {rs : List Registry} :
    fixedPriceRegistryChecks q m b rs = .ok () ↔ ∀ r ∈ rs, fixedPriceRegistryCheck q m b r = .ok () := by
  refine ⟨fixedChecks_ok, ?_⟩
  induction rs with
  | nil => intro _; rfl
  | cons r rs ih =>
    intro h
    simp only [fixedPriceRegistryChecks, h r (by simp), ok_bind]
    exact ih (fun x hx => h x (by simp [hx]))

theorem enforce_iff {m : Nat} {rs : List Registry} :
    enforceDynamicPriceRegistriesMaxBuyerCapRange m rs = .ok () ↔
    ∀ r ∈ rs, r.isUninitialized = true ∨ (r.buyerMinimumDepositCap = 1 ∧ r.buyerMaximumDepositCap = m) := by
  refine ⟨enforceDynamic_ok, ?_⟩
  induction rs with
  | nil => intro _; rfl
  | cons r rs ih =>
    intro h
    simp only [enforceDynamicPriceRegistriesMaxBuyerCapRange, require_ok (h r (by simp)), ok_bind]
    exact ih (fun x hx => h x (by simp [hx]))

theorem buyable_iff {q x : Nat} (hx : x < u64Bound) (hq : q ≠ 0) :
    ensureTokenBuyable q x = .ok () ↔ 0 < tokensAtPrice q x ∧ tokensAtPrice q x < u64Bound := by
  refine ⟨ensureBuyable_ok hx hq, ?_⟩
  rintro ⟨h1, h2⟩
  simp only [ensureTokenBuyable, tokenBought_eq hx hq, ok_bind]
  rw [require_ok h1, ok_bind, require_ok (by omega)]

theorem isCeilDiv_divCeil {k a b : Nat} (hp : 0 < b) : IsCeilDiv k a b ↔ k = divCeil a b := by
  unfold IsCeilDiv
  constructor
  · rintro ⟨h1, h2⟩
    have h3 := (divCeil_le_iff hp).2 h1
    have h4 := le_divCeil_mul a hp
    have h5 : k < divCeil a b + 1 := by
      apply Nat.lt_of_mul_lt_mul_right (a := b)
      rw [Nat.add_mul]
      omega
    omega
  · rintro rfl
    exact ⟨le_divCeil_mul a hp, divCeil_mul_lt a hp⟩

theorem isCeilDiv_iff {k a : Nat} : IsCeilDiv k a (2 ^ 64) ↔ k = divCeil a SCALE_MULTIPLIER := by
  rw [scale_eq]
  exact isCeilDiv_divCeil (by decide)

theorem fixedCheck_iff {q m : Nat} {b : Bool} {r : Registry} (hr : r.isUninitialized = false)
    (h1 : r.buyerMinimumDepositCap < u64Bound) (h2 : r.buyerMaximumDepositCap < u64Bound) (hq : q ≠ 0)
    (ho : r.buyerMinimumDepositCap ≤ r.buyerMaximumDepositCap) :
    fixedPriceRegistryCheck q m b r = .ok () ↔
    (0 < tokensAtPrice q r.buyerMinimumDepositCap ∧ tokensAtPrice q r.buyerMaximumDepositCap < u64Bound ∧
      (b = true → IsCeilDiv r.buyerMinimumDepositCap q (2 ^ 64) ∧ r.buyerMaximumDepositCap = m)) := by
  rw [isCeilDiv_iff]
  refine ⟨fixedCheck_ok hr h1 h2 hq, ?_⟩
  rintro ⟨g1, g2, g3⟩
  have hm := tokensAtPrice_mono (q := q) ho
  unfold fixedPriceRegistryCheck
  rw [if_neg (by rw [hr]; decide), (buyable_iff h1 hq).2 ⟨g1, by omega⟩, (buyable_iff h2 hq).2 ⟨by omega, g2⟩]
  simp only [ok_bind]
  cases b with
  | false => rfl
  | true =>
    obtain ⟨g4, g5⟩ := g3 rfl
    simp only [if_true, bind_eq_ok, require_eq_ok, calculateMinQuoteAmountForBaseLamport, cast64_eq_ok]
    exact ⟨_, ⟨by omega, rfl⟩, (), g4, g5⟩

theorem blank_all {regs : List RegistryArgs} {P : Registry → Prop} (hf : P Registry.fresh) (n : Nat) :
    (∀ r ∈ regs.map RegistryArgs.slot ++ List.replicate n Registry.fresh, P r) ↔ ∀ x ∈ regs, P x.slot := by
  constructor
  · intro h x hx; exact h _ (by simp; exact Or.inl ⟨x, hx, rfl⟩)
  · intro h r hr
    rcases List.mem_append.1 hr with hr | hr
    · obtain ⟨x, hx, rfl⟩ := List.mem_map.1 hr
      exact h x hx
    · rw [List.eq_of_mem_replicate hr]; exact hf

theorem offered_eq (a : InitializePresaleArgs) : offered a = suppliesOf a.presaleRegistries := rfl

/-- The part of the terms that depends on how the price is formed. -/
structure PriceTerms (price : Option Nat) (a : InitializePresaleArgs) : Prop where
  dynamicWhitelisted : price = none → Whitelisted a.presaleParams → ∀ r ∈ a.presaleRegistries,
    r.buyerMinimumDepositCap = 1 ∧ r.buyerMaximumDepositCap = a.presaleParams.presaleMaximumCap
  fixedWhitelisted : ∀ q, price = some q → Whitelisted a.presaleParams → ∀ r ∈ a.presaleRegistries,
    IsCeilDiv r.buyerMinimumDepositCap q (2 ^ 64) ∧ r.buyerMaximumDepositCap = a.presaleParams.presaleMaximumCap
  buyable : ∀ q, price = some q → ∀ r ∈ a.presaleRegistries,
    0 < tokensAtPrice q r.buyerMinimumDepositCap ∧ tokensAtPrice q r.buyerMaximumDepositCap < 2 ^ 64
  price : ∀ q, price = some q →
    tokensAtPrice q a.presaleParams.presaleMaximumCap ≤ offered a ∧
    tokensAtPrice q a.presaleParams.presaleMinimumCap < tokensAtPrice q a.presaleParams.presaleMaximumCap

/-- The mode handler accepts a new sale exactly when its price terms are acceptable. -/
theorem create_iff {lookup : Addr → Option FixedPriceArgs} {key : Addr} {k : InitKeys}
    {a : InitializePresaleArgs} {t : Nat} {remaining rest : List Addr}
    (hL : ∀ acc x, lookup acc = some x → 0 < x.qPrice)
    (hV : ValidArgs a t) (hcap : a.presaleParams.presaleMaximumCap < u64Bound)
    (hsup : suppliesOf a.presaleRegistries < u64Bound)
    (hlock : ∃ k', lockTermsOf a.presaleParams.presaleEndTime a.lockedVestingParams.option = .ok k') :
    (∃ p, processCreatePresaleVault lookup key k a t remaining = .ok (p, rest)) ↔
    ∃ price, PricedBy lookup key a.presaleParams.presaleMode remaining price rest ∧ PriceTerms price a := by
  obtain ⟨k', hk'⟩ := hlock
  obtain ⟨rg, hrg⟩ := initRegistriesLoop_succeeds (as := a.presaleRegistries) (idx := 0)
    (regs := List.replicate MAX_PRESALE_REGISTRY_COUNT Registry.fresh) (supply := 0)
    (by simp [MAX_PRESALE_REGISTRY_COUNT]; exact hV.count.2) (by omega)
  obtain ⟨b, hb⟩ : ∃ b, Presale.initialized k a.presaleParams a.presaleRegistries a.lockedVestingParams.option t
      = .ok b := by
    simp only [Presale.initialized, hrg, hk', ok_bind]; exact ⟨_, rfl⟩
  obtain ⟨k'', hk'', hbl, _, _⟩ := initialized_eq hb
  have hmode : b.presaleMode = a.presaleParams.presaleMode := by rw [hbl]; rfl
  have hwl : b.whitelistMode = a.presaleParams.whitelistMode := by rw [hbl]; rfl
  have hmax : b.presaleMaximumCap = a.presaleParams.presaleMaximumCap := by rw [hbl]; rfl
  have hmin : b.presaleMinimumCap = a.presaleParams.presaleMinimumCap := by rw [hbl]; rfl
  have hsu : b.presaleSupply = offered a := by rw [hbl]; rfl
  have hre : b.registries = a.presaleRegistries.map RegistryArgs.slot ++
      List.replicate (5 - a.presaleRegistries.length) Registry.fresh := by rw [hbl]; rfl
  obtain ⟨⟨wm, hwm⟩, _⟩ := castWhitelist_of_some hV.sale.whitelist
  have hperm : wm.isPermissioned = true ↔ Whitelisted a.presaleParams := (castWhitelist_permissioned hwm).1
  have hord := hV.sale.order
  have slotf : ∀ x ∈ a.presaleRegistries, x.slot.isUninitialized = false :=
    fun x hx => slot_isUninitialized (hV.regs x hx).supply
  have hdyn : checkDynamicPriceRegistries b = .ok () ↔
      (Whitelisted a.presaleParams → ∀ r ∈ a.presaleRegistries,
        r.buyerMinimumDepositCap = 1 ∧ r.buyerMaximumDepositCap = a.presaleParams.presaleMaximumCap) := by
    simp only [checkDynamicPriceRegistries, hwl, hwm, ok_bind]
    by_cases hp : wm.isPermissioned = true
    · rw [if_pos hp, enforce_iff, hre, blank_all (Or.inl fresh_isUninitialized)]
      simp only [hperm.1 hp, forall_const]
      constructor
      · intro h x hx
        rcases h x hx with h | h
        · rw [slotf x hx] at h; cases h
        · rw [hmax] at h; exact h
      · intro h x hx
        right; rw [hmax]; exact h x hx
    · rw [if_neg hp]
      exact ⟨fun _ h => absurd (hperm.2 h) hp, fun _ => rfl⟩
  have hfix : ∀ q, q ≠ 0 →
      ((fixedPriceRegistryChecks q b.presaleMaximumCap wm.isPermissioned b.registries = .ok () ∧
        ensureEnoughPresaleSupply q b.presaleSupply b.presaleMaximumCap = .ok () ∧
        ensureGapBetweenMinAndMaxPresaleCap q b.presaleMinimumCap b.presaleMaximumCap = .ok ()) ↔
      PriceTerms (some q) a) := by
    intro q hq
    have c1 : fixedPriceRegistryChecks q b.presaleMaximumCap wm.isPermissioned b.registries = .ok () ↔
        ∀ x ∈ a.presaleRegistries, (0 < tokensAtPrice q x.buyerMinimumDepositCap ∧
          tokensAtPrice q x.buyerMaximumDepositCap < u64Bound ∧
          (wm.isPermissioned = true → IsCeilDiv x.buyerMinimumDepositCap q (2 ^ 64) ∧
            x.buyerMaximumDepositCap = a.presaleParams.presaleMaximumCap)) := by
      rw [forChecks_iff, hre, blank_all (by unfold fixedPriceRegistryCheck; rw [if_pos fresh_isUninitialized]), hmax]
      refine forall_congr' fun x => forall_congr' fun hx => ?_
      have V := hV.regs x hx
      have v1 := V.within
      have v2 := V.order
      exact fixedCheck_iff (slotf x hx) (show x.buyerMinimumDepositCap < u64Bound by omega)
        (show x.buyerMaximumDepositCap < u64Bound by omega) hq V.order
    have c2 : ensureEnoughPresaleSupply q b.presaleSupply b.presaleMaximumCap = .ok () ↔
        tokensAtPrice q a.presaleParams.presaleMaximumCap ≤ offered a := by
      rw [hmax, hsu]
      simp only [ensureEnoughPresaleSupply, tokenBought_eq hcap hq, ok_bind, require_eq_ok]
    have c3 : ensureGapBetweenMinAndMaxPresaleCap q b.presaleMinimumCap b.presaleMaximumCap = .ok () ↔
        tokensAtPrice q a.presaleParams.presaleMinimumCap < tokensAtPrice q a.presaleParams.presaleMaximumCap := by
      rw [hmax, hmin]
      have := tokensAtPrice_mono (q := q) hord
      simp only [ensureGapBetweenMinAndMaxPresaleCap, tokenBought_eq hcap hq,
        tokenBought_eq (show a.presaleParams.presaleMinimumCap < u64Bound by omega) hq, ok_bind, bind_eq_ok,
        sub_eq_ok, require_eq_ok]
      constructor
      · rintro ⟨_, ⟨_, rfl⟩, h⟩; omega
      · intro h; exact ⟨_, ⟨this, rfl⟩, by omega⟩
    rw [c1, c2, c3, u64Bound_eq]
    constructor
    · rintro ⟨h1, h2, h3⟩
      refine ⟨fun h => (by cases h), ?_, ?_, ?_⟩
      · intro q' hq' hw r hr; cases hq'; exact (h1 r hr).2.2 (hperm.2 hw)
      · intro q' hq' r hr; cases hq'; exact ⟨(h1 r hr).1, (h1 r hr).2.1⟩
      · intro q' hq'; cases hq'; exact ⟨h2, h3⟩
    · rintro ⟨_, h2, h3, h4⟩
      exact ⟨fun x hx => ⟨(h3 q rfl x hx).1, (h3 q rfl x hx).2, fun hp => h2 q rfl (hperm.1 hp) x hx⟩, h4 q rfl⟩
  have hdynT : PriceTerms none a ↔ checkDynamicPriceRegistries b = .ok () := by
    rw [hdyn]
    constructor
    · intro h; exact h.dynamicWhitelisted rfl
    · intro h; exact ⟨fun _ => h, fun q hq => (by cases hq), fun q hq => (by cases hq), fun q hq => (by cases hq)⟩
  constructor
  · rintro ⟨p, h⟩
    obtain ⟨k3, hk3, _, _, hC⟩ := processCreate_ok h
    have e3 : k3 = k'' := by rw [hk''] at hk3; cases hk3; rfl
    subst e3
    rw [← hbl] at hC
    cases hC with
    | prorata hm hc =>
      exact ⟨none, Or.inl ⟨Or.inl (hmode ▸ hm), rfl, rfl⟩, hdynT.2 hc⟩
    | fcfs hm hc =>
      exact ⟨none, Or.inl ⟨Or.inr (hmode ▸ hm), rfl, rfl⟩, hdynT.2 hc⟩
    | fixed hm hm' hrem hx hk hw hc hs hg =>
      rw [hmode] at hm hm'
      rw [hwl, hwm] at hw
      cases hw
      exact ⟨_, Or.inr ⟨hm, hm', _, _, hrem, hx, hk, rfl⟩,
        (hfix _ (Nat.pos_iff_ne_zero.1 (hL _ _ hx))).1 ⟨hc, hs, hg⟩⟩
  · rintro ⟨price, hP, hT⟩
    obtain ⟨hd, hh⟩ : ∃ hd, getPresaleModeHandler b = .ok hd := by
      obtain ⟨⟨m, hm⟩, _⟩ := castMode_of_some hV.sale.mode
      simp only [getPresaleModeHandler, hmode, hm, ok_bind]
      cases m <;> exact ⟨_, rfl⟩
    simp only [processCreatePresaleVault, hb, hh, ok_bind]
    have hcases := handler_cases hh
    rw [hmode] at hcases
    rcases hP with ⟨hm, rfl, rfl⟩ | ⟨hm, hm', acc, x, rfl, hx, hk, rfl⟩
    · have hc := hdynT.1 hT
      rcases hcases with ⟨_, rfl⟩ | ⟨_, rfl⟩ | ⟨h1, h2, _⟩
      · simp only [Handler.initializePresale, hc, ok_bind]; exact ⟨_, rfl⟩
      · simp only [Handler.initializePresale, hc, ok_bind]; exact ⟨_, rfl⟩
      · omega
    · rcases hcases with ⟨h1, rfl⟩ | ⟨h1, rfl⟩ | ⟨_, _, rfl⟩
      · exact absurd h1 hm
      · exact absurd h1 hm'
      · obtain ⟨h1, h2, h3⟩ := (hfix _ (Nat.pos_iff_ne_zero.1 (hL _ _ hx))).2 hT
        simp only [Handler.initializePresale, hx, require_ok hk, hwl, hwm, h1, h2, h3, ok_bind]
        exact ⟨_, rfl⟩

end Verif
