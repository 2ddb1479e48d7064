import Verif.Lemmas.PInv
/-!
# The state a presale is created in
-/

namespace Verif
open Spec

/-- A registry slot filled from its arguments. -/
def RegistryArgs.slot (a : RegistryArgs) : Registry :=
  Registry.fresh.init a.presaleSupply a.buyerMinimumDepositCap a.buyerMaximumDepositCap a.depositFeeBps

/-- Sum of the registry supplies. -/
def suppliesOf (rs : List RegistryArgs) : Nat := lsum RegistryArgs.presaleSupply rs

theorem initRegistriesLoop_eq {as : List RegistryArgs} {idx : Nat} {pre : List Registry} {n supply : Nat}
    {regs' : List Registry} {s' : Nat} (hpre : pre.length = idx)
    (h : initRegistriesLoop as idx (pre ++ List.replicate n Registry.fresh) supply = .ok (regs', s'))
    (hs : supply < u64Bound) :
    as.length ≤ n ∧ regs' = pre ++ as.map RegistryArgs.slot ++ List.replicate (n - as.length) Registry.fresh ∧
      s' = supply + suppliesOf as ∧ s' < u64Bound := by
  induction as generalizing idx pre n supply with
  | nil =>
    simp only [initRegistriesLoop, ok_eq_ok, Prod.mk.injEq] at h
    obtain ⟨rfl, rfl⟩ := h
    exact ⟨Nat.zero_le _, by simp, by simp [suppliesOf, lsum], hs⟩
  | cons a as ih =>
    cases n with
    | zero =>
      simp only [initRegistriesLoop] at h
      rw [List.getElem?_eq_none (by simp; omega)] at h
      simp at h
    | succ n =>
      have h1 : (pre ++ List.replicate (n + 1) Registry.fresh)[idx]? = some Registry.fresh := by
        rw [List.getElem?_append_right (by omega), hpre, Nat.sub_self]
        simp [List.replicate_succ]
      simp only [initRegistriesLoop, h1, bind_eq_ok, add64_eq_ok] at h
      obtain ⟨_, ⟨hb, rfl⟩, h⟩ := h
      have h2 : (pre ++ List.replicate (n + 1) Registry.fresh).set idx a.slot =
          (pre ++ [a.slot]) ++ List.replicate n Registry.fresh := by
        rw [List.set_append_right _ _ (by omega), hpre, Nat.sub_self, List.replicate_succ]
        simp
      have h3 : Registry.fresh.init a.presaleSupply a.buyerMinimumDepositCap a.buyerMaximumDepositCap
        a.depositFeeBps = a.slot := rfl
      rw [h3, h2] at h
      obtain ⟨g1, g2, g3, g4⟩ := ih (by simp [hpre]) h hb
      refine ⟨by simp; omega, ?_, ?_, g4⟩
      · rw [g2]; simp
      · rw [g3]; simp [suppliesOf, lsum_cons]; omega

theorem sumSupplies_eq {rs : List RegistryArgs} {acc s : Nat} (h : sumSupplies rs acc = .ok s) :
    s = acc + suppliesOf rs := by
  induction rs generalizing acc with
  | nil => simp [sumSupplies] at h; simp [suppliesOf, lsum, h]
  | cons r rs ih =>
    simp only [sumSupplies, bind_eq_ok, add64_eq_ok] at h
    obtain ⟨_, ⟨_, rfl⟩, h⟩ := h
    rw [ih h]; simp [suppliesOf, lsum_cons]; omega

/-- What `validate` establishes for one registry. -/
structure ValidRegistry (a : PresaleArgs) (r : RegistryArgs) : Prop where
  order : r.buyerMinimumDepositCap ≤ r.buyerMaximumDepositCap
  positive : 0 < r.buyerMaximumDepositCap
  within : r.buyerMaximumDepositCap ≤ a.presaleMaximumCap
  supply : 0 < r.presaleSupply
  fee : r.depositFeeBps ≤ 5000

theorem registryValidate_iff {a : PresaleArgs} {r : RegistryArgs} :
    r.validate a = .ok () ↔ ValidRegistry a r := by
  simp only [RegistryArgs.validate, bind_eq_ok, require_eq_ok, exists_const]
  constructor
  · rintro ⟨h1, h2, h3, h4, h5⟩; exact ⟨h1, h2, h3, h4, h5⟩
  · rintro ⟨h1, h2, h3, h4, h5⟩; exact ⟨h1, h2, h3, h4, h5⟩

theorem validateRegistriesLoop_ok {a : PresaleArgs} {rs : List RegistryArgs} {acc s : Nat}
    (h : validateRegistriesLoop a rs acc = .ok s) :
    (∀ r ∈ rs, ValidRegistry a r) ∧ s = acc + suppliesOf rs := by
  induction rs generalizing acc with
  | nil => simp [validateRegistriesLoop] at h; simp [suppliesOf, lsum, h]
  | cons r rs ih =>
    simp only [validateRegistriesLoop, bind_eq_ok, add128_eq_ok] at h
    obtain ⟨_, h1, _, ⟨_, rfl⟩, h⟩ := h
    have h1 := registryValidate_iff.1 h1
    obtain ⟨g1, g2⟩ := ih h
    refine ⟨?_, by rw [g2]; simp [suppliesOf, lsum_cons]; omega⟩
    intro x hx
    rcases List.mem_cons.1 hx with rfl | hx
    · exact h1
    · exact g1 x hx

theorem castWhitelist_permissioned {b : Nat} {m : WhitelistMode} (h : castWhitelistMode b = .ok m) :
    (m.isPermissioned = true ↔ b = 1 ∨ b = 2) ∧ (m = .permissionless ↔ b ≠ 1 ∧ b ≠ 2) := by
  unfold castWhitelistMode WhitelistMode.tryFrom at h
  split at h
  · next hx =>
    cases h
    split at hx
    · cases hx; simp [WhitelistMode.isPermissioned]
    · cases hx; simp [WhitelistMode.isPermissioned]
    · cases hx; simp [WhitelistMode.isPermissioned]
    · next h0 h1 h2 =>
      split at hx
      · cases hx
        have g1 : b ≠ 1 := fun h => h1 h
        have g2 : b ≠ 2 := fun h => h2 h
        simp [WhitelistMode.isPermissioned, g1, g2]
      · cases hx
  · cases h

theorem castWhitelist_of_some {b : Nat} (h : (WhitelistMode.tryFrom b).isSome = true) :
    (∃ m, castWhitelistMode b = .ok m) ∧ (b ≤ 2 ∨ unknownWhitelistIsDefault = true) := by
  constructor
  · unfold castWhitelistMode
    cases hx : WhitelistMode.tryFrom b with
    | none => rw [hx] at h; cases h
    | some m => exact ⟨m, rfl⟩
  · unfold WhitelistMode.tryFrom at h
    split at h
    · omega
    · omega
    · omega
    · split at h
      · exact Or.inr (by assumption)
      · cases h

theorem castMode_of_some {b : Nat} (h : (PresaleMode.tryFrom b).isSome = true) :
    (∃ m, castPresaleMode b = .ok m) ∧ (b ≤ 2 ∨ unknownModeIsDefault = true) := by
  constructor
  · unfold castPresaleMode
    cases hx : PresaleMode.tryFrom b with
    | none => rw [hx] at h; cases h
    | some m => exact ⟨m, rfl⟩
  · unfold PresaleMode.tryFrom at h
    split at h
    · omega
    · omega
    · omega
    · split at h
      · exact Or.inr (by assumption)
      · cases h

theorem boolType_some {b : Nat} (h : (boolTypeTryFrom b).isSome = true) : b ≤ 1 := by
  unfold boolTypeTryFrom at h
  split at h
  · omega
  · omega
  · cases h

/-- What `validate` establishes for the sale parameters. -/
structure ValidPresale (a : PresaleArgs) (t : Nat) : Prop where
  order : a.presaleMinimumCap ≤ a.presaleMaximumCap
  positive : 0 < a.presaleMinimumCap
  duration : max a.presaleStartTime t + 60 ≤ a.presaleEndTime ∧
    a.presaleEndTime ≤ max a.presaleStartTime t + 2592000
  ahead : max a.presaleStartTime t ≤ t + 2592000
  whitelist : (WhitelistMode.tryFrom a.whitelistMode).isSome = true
  mode : (PresaleMode.tryFrom a.presaleMode).isSome = true
  early : a.disableEarlierPresaleEndOnceCapReached ≤ 1

theorem presaleValidate_ok {a : PresaleArgs} {t : Nat} (h : a.validate t = .ok ()) : ValidPresale a t := by
  simp only [PresaleArgs.validate, PresaleArgs.startTimeWithoutGoingBackwards, bind_eq_ok, require_eq_ok,
    sub_eq_ok, exists_const] at h
  obtain ⟨h1, h2, _, h3, d, ⟨h4, rfl⟩, ⟨h5, h5'⟩, u, ⟨h6, rfl⟩, h7, h8, h9, h10⟩ := h
  unfold MINIMUM_PRESALE_DURATION at h5
  unfold MAXIMUM_PRESALE_DURATION at h5'
  unfold MAXIMUM_DURATION_UNTIL_PRESALE at h7
  exact ⟨h1, h2, ⟨by omega, by omega⟩, by omega, h8, h9, boolType_some h10⟩

/-- What `validate` establishes for release terms. -/
structure ValidLock (l : LockedVestingArgs) (e : Nat) : Prop where
  delays : l.lockDuration + l.vestDuration < 315360000
  rate : l.immediatelyReleaseBps ≤ 10000
  full : l.immediatelyReleaseBps = 10000 → l.lockDuration = 0 ∧ l.vestDuration = 0
  part : l.immediatelyReleaseBps < 10000 → 0 < l.lockDuration ∨ 0 < l.vestDuration
  imm : l.immediateReleaseTimestamp = 0 ∨
    (e ≤ l.immediateReleaseTimestamp ∧ l.immediateReleaseTimestamp ≤ e + l.lockDuration + l.vestDuration)
  none : l.immediatelyReleaseBps = 0 → l.immediateReleaseTimestamp = 0 ∨ l.immediateReleaseTimestamp = e

theorem lockValidate_ok {l : LockedVestingArgs} {e : Nat} (h : l.validate e = .ok ()) : ValidLock l e := by
  simp only [LockedVestingArgs.validate, bind_eq_ok, add64_eq_ok, require_eq_ok] at h
  obtain ⟨_, ⟨_, rfl⟩, _, h1, _, h2, h⟩ := h
  have e1 : MAX_FEE_BASIS_POINTS = 10000 := rfl
  have e2 : MAXIMUM_LOCK_AND_VEST_DURATION = 315360000 := rfl
  rw [e1] at h2
  rw [e2] at h1
  rw [e1] at h
  split at h
  · next hb =>
    simp only [bind_eq_ok, require_eq_ok] at h
    obtain ⟨_, ⟨h3, h4⟩, h5⟩ := h
    refine ⟨by omega, h2, fun _ => ⟨h3, h4⟩, fun h => by omega, ?_, fun h => by omega⟩
    by_cases h0 : l.immediateReleaseTimestamp = 0
    · exact Or.inl h0
    · have := h5 (by omega)
      exact Or.inr (by omega)
  · next hb =>
    simp only [bind_eq_ok, require_eq_ok, vestAndLockTimings, add64_eq_ok, pure_eq_ok] at h
    obtain ⟨_, h3, ⟨vs, ve⟩, ⟨_, ⟨_, rfl⟩, _, ⟨_, rfl⟩, hp⟩, h⟩ := h
    cases hp
    refine ⟨by omega, h2, fun h => absurd h hb, fun _ => h3, ?_, ?_⟩
    · by_cases h0 : l.immediateReleaseTimestamp = 0
      · exact Or.inl h0
      · rw [if_pos (by omega)] at h
        right
        split at h
        · simp only [require_eq_ok] at h; omega
        · simp only [require_eq_ok] at h; omega
    · intro hz
      by_cases h0 : l.immediateReleaseTimestamp = 0
      · exact Or.inl h0
      · rw [if_pos (by omega), if_pos hz] at h
        simp only [require_eq_ok] at h
        exact Or.inr h

theorem lockTermsOf_eq {e : Nat} {l : Option LockedVestingArgs} {k : LockTerms} (h : lockTermsOf e l = .ok k) :
    (l = none ∧ k = ⟨0, 0, 0, 0, 0, 0⟩) ∨
    (∃ x, l = some x ∧ e + x.lockDuration + x.vestDuration < u64Bound ∧
      k = ⟨x.lockDuration, x.vestDuration, x.immediatelyReleaseBps, x.immediateReleaseTimestamp,
        e + x.lockDuration, e + x.lockDuration + x.vestDuration⟩) := by
  cases l with
  | none => simp only [lockTermsOf, pure_eq_ok] at h; exact Or.inl ⟨rfl, h.symm⟩
  | some x =>
    simp only [lockTermsOf, bind_eq_ok, vestAndLockTimings, add64_eq_ok, pure_eq_ok] at h
    obtain ⟨⟨vs, ve⟩, ⟨_, ⟨_, rfl⟩, _, ⟨h1, rfl⟩, hp⟩, h⟩ := h
    cases hp
    exact Or.inr ⟨x, rfl, h1, h.symm⟩

/-- A presale as `Presale::initialize` leaves it. -/
def Presale.blank (k : InitKeys) (a : PresaleArgs) (regs : List RegistryArgs) (k' : LockTerms) (t : Nat) :
    Presale :=
  { owner := k.owner, quoteMint := k.quoteMint, baseMint := k.baseMint,
    baseTokenVault := k.baseTokenVault, quoteTokenVault := k.quoteTokenVault, base := k.base,
    presaleMode := a.presaleMode, whitelistMode := a.whitelistMode,
    presaleMaximumCap := a.presaleMaximumCap, presaleMinimumCap := a.presaleMinimumCap,
    presaleStartTime := max a.presaleStartTime t, presaleEndTime := a.presaleEndTime,
    presaleSupply := suppliesOf regs, totalDeposit := 0, totalEscrow := 0, createdAt := t,
    lockDuration := k'.lockDuration, vestDuration := k'.vestDuration,
    immediateReleaseTimestamp := k'.immediateReleaseTimestamp,
    vestingStartTime := k'.vestingStartTime, vestingEndTime := k'.vestingEndTime,
    totalClaimedToken := 0, totalRefundedQuoteToken := 0, totalDepositFee := 0,
    depositFeeCollected := 0, hasCreatorWithdrawn := 0,
    baseTokenProgramFlag := k.baseTokenProgram.flag,
    quoteTokenProgramFlag := k.quoteTokenProgram.flag,
    totalPresaleRegistryCount := regs.length, unsoldTokenAction := a.unsoldTokenAction,
    isUnsoldTokenActionPerformed := 0, immediateReleaseBps := k'.immediateReleaseBps,
    raw0 := 0, raw1 := 0, raw2 := 0,
    registries := regs.map RegistryArgs.slot ++ List.replicate (5 - regs.length) Registry.fresh }

theorem initialized_eq {k : InitKeys} {a : PresaleArgs} {regs : List RegistryArgs}
    {l : Option LockedVestingArgs} {t : Nat} {p : Presale} (h : Presale.initialized k a regs l t = .ok p) :
    ∃ k', lockTermsOf a.presaleEndTime l = .ok k' ∧ p = Presale.blank k a regs k' t ∧ regs.length ≤ 5 ∧
      suppliesOf regs < u64Bound := by
  simp only [Presale.initialized, bind_eq_ok, pure_eq_ok] at h
  obtain ⟨⟨rg, s⟩, h1, k', h2, h3⟩ := h
  have h4 : initRegistriesLoop regs 0 ([] ++ List.replicate 5 Registry.fresh) 0 = .ok (rg, s) := h1
  obtain ⟨g1, g2, g3, g4⟩ := initRegistriesLoop_eq (pre := []) (n := 5) rfl h4 u64_pos
  refine ⟨k', h2, ?_, g1, by omega⟩
  rw [← h3]
  simp only [List.nil_append] at g2
  simp only [Nat.zero_add] at g3
  subst g2 g3
  rfl

/-! ## Mode-specific checks -/

theorem fresh_isUninitialized : Registry.fresh.isUninitialized = true := rfl

theorem slot_isUninitialized {a : RegistryArgs} (h : 0 < a.presaleSupply) : a.slot.isUninitialized = false := by
  have h2 : a.slot.presaleSupply = a.presaleSupply := rfl
  have : (a.presaleSupply == 0) = false := by
    rw [beq_eq_false_iff_ne]; omega
  unfold Registry.isUninitialized
  rw [h2, this]; rfl

theorem enforceDynamic_ok {m : Nat} {rs : List Registry}
    (h : enforceDynamicPriceRegistriesMaxBuyerCapRange m rs = .ok ()) :
    ∀ r ∈ rs, r.isUninitialized = true ∨ (r.buyerMinimumDepositCap = 1 ∧ r.buyerMaximumDepositCap = m) := by
  induction rs with
  | nil => intro r hr; cases hr
  | cons r rs ih =>
    simp only [enforceDynamicPriceRegistriesMaxBuyerCapRange, bind_eq_ok, require_eq_ok] at h
    obtain ⟨_, h1, h2⟩ := h
    intro x hx
    rcases List.mem_cons.1 hx with rfl | hx
    · exact h1
    · exact ih h2 x hx

theorem fixedChecks_ok {q m : Nat} {b : Bool} {rs : List Registry}
    (h : fixedPriceRegistryChecks q m b rs = .ok ()) :
    ∀ r ∈ rs, fixedPriceRegistryCheck q m b r = .ok () := by
  induction rs with
  | nil => intro r hr; cases hr
  | cons r rs ih =>
    simp only [fixedPriceRegistryChecks, bind_eq_ok] at h
    obtain ⟨_, h1, h2⟩ := h
    intro x hx
    rcases List.mem_cons.1 hx with rfl | hx
    · exact h1
    · exact ih h2 x hx

theorem ensureBuyable_ok {q x : Nat} (hx : x < u64Bound) (hq : q ≠ 0) (h : ensureTokenBuyable q x = .ok ()) :
    0 < tokensAtPrice q x ∧ tokensAtPrice q x < u64Bound := by
  simp only [ensureTokenBuyable, tokenBought_eq hx hq, ok_bind, bind_eq_ok, require_eq_ok] at h
  obtain ⟨_, h1, h2⟩ := h
  have := u64_pos
  omega

theorem fixedCheck_ok {q m : Nat} {b : Bool} {r : Registry} (hr : r.isUninitialized = false)
    (h1 : r.buyerMinimumDepositCap < u64Bound) (h2 : r.buyerMaximumDepositCap < u64Bound) (hq : q ≠ 0)
    (h : fixedPriceRegistryCheck q m b r = .ok ()) :
    0 < tokensAtPrice q r.buyerMinimumDepositCap ∧ tokensAtPrice q r.buyerMaximumDepositCap < u64Bound ∧
      (b = true → r.buyerMinimumDepositCap = divCeil q SCALE_MULTIPLIER ∧ r.buyerMaximumDepositCap = m) := by
  unfold fixedPriceRegistryCheck at h
  rw [if_neg (by rw [hr]; decide)] at h
  simp only [bind_eq_ok] at h
  obtain ⟨_, g1, _, g2, g3⟩ := h
  refine ⟨(ensureBuyable_ok h1 hq g1).1, (ensureBuyable_ok h2 hq g2).2, ?_⟩
  intro hb
  rw [if_pos hb] at g3
  simp only [bind_eq_ok, require_eq_ok, calculateMinQuoteAmountForBaseLamport, cast64_eq_ok] at g3
  obtain ⟨_, ⟨_, rfl⟩, _, g4, g5⟩ := g3
  exact ⟨g4, g5⟩

/-- How the mode handler completes a new presale. -/
inductive Completion (lookup : Addr → Option FixedPriceArgs) (key : Addr) (b : Presale) (a : PresaleArgs)
    (remaining : List Addr) : Presale → List Addr → Prop
  | prorata (hm : b.presaleMode = 1) (hc : checkDynamicPriceRegistries b = .ok ()) :
      Completion lookup key b a remaining b remaining
  | fcfs (hm : b.presaleMode = 2) (hc : checkDynamicPriceRegistries b = .ok ()) :
      Completion lookup key b a remaining
        (b.writeFcfsData a.disableEarlierPresaleEndOnceCapReached) remaining
  | fixed {acc : Addr} {rest : List Addr} {x : FixedPriceArgs} {wm : WhitelistMode}
      (hm : b.presaleMode ≠ 1) (hm' : b.presaleMode ≠ 2) (hrem : remaining = acc :: rest)
      (hx : lookup acc = some x) (hk : x.presale = key) (hw : castWhitelistMode b.whitelistMode = .ok wm)
      (hc : fixedPriceRegistryChecks x.qPrice b.presaleMaximumCap wm.isPermissioned b.registries = .ok ())
      (hs : ensureEnoughPresaleSupply x.qPrice b.presaleSupply b.presaleMaximumCap = .ok ())
      (hg : ensureGapBetweenMinAndMaxPresaleCap x.qPrice b.presaleMinimumCap b.presaleMaximumCap = .ok ()) :
      Completion lookup key b a remaining
        (b.writeFixedPriceData x.qPrice a.disableEarlierPresaleEndOnceCapReached x.disableWithdraw) rest

theorem processCreate_ok {lookup : Addr → Option FixedPriceArgs} {key : Addr} {k : InitKeys}
    {a : InitializePresaleArgs} {t : Nat} {remaining rest : List Addr} {p : Presale}
    (h : processCreatePresaleVault lookup key k a t remaining = .ok (p, rest)) :
    ∃ k', lockTermsOf a.presaleParams.presaleEndTime a.lockedVestingParams.option = .ok k' ∧
      a.presaleRegistries.length ≤ 5 ∧ suppliesOf a.presaleRegistries < u64Bound ∧
      Completion lookup key (Presale.blank k a.presaleParams a.presaleRegistries k' t) a.presaleParams
        remaining p rest := by
  simp only [processCreatePresaleVault, bind_eq_ok] at h
  obtain ⟨b, h1, hd, h2, h3⟩ := h
  obtain ⟨k', g1, g2, g3, g4⟩ := initialized_eq h1
  refine ⟨k', g1, g3, g4, ?_⟩
  rw [← g2]
  rcases handler_cases h2 with ⟨hm, rfl⟩ | ⟨hm, rfl⟩ | ⟨hm, hm', rfl⟩
  · simp only [Handler.initializePresale, bind_eq_ok, pure_eq_ok, Prod.mk.injEq] at h3
    obtain ⟨_, hc, rfl, rfl⟩ := h3
    exact .prorata hm hc
  · simp only [Handler.initializePresale, bind_eq_ok, pure_eq_ok, Prod.mk.injEq] at h3
    obtain ⟨_, hc, rfl, rfl⟩ := h3
    exact .fcfs hm hc
  · simp only [Handler.initializePresale] at h3
    split at h3
    · simp at h3
    · split at h3
      · simp at h3
      · next hx =>
        simp only [bind_eq_ok, require_eq_ok, pure_eq_ok, Prod.mk.injEq] at h3
        obtain ⟨_, hk, wm, hw, _, hc, _, hs, _, hg, rfl, rfl⟩ := h3
        exact .fixed hm hm' rfl hx hk hw hc hs hg

/-! ## A new presale meets the documented constraints -/

/-- What `validate` establishes. -/
structure ValidArgs (a : InitializePresaleArgs) (t : Nat) : Prop where
  sale : ValidPresale a.presaleParams t
  count : 0 < a.presaleRegistries.length ∧ a.presaleRegistries.length ≤ 5
  regs : ∀ r ∈ a.presaleRegistries, ValidRegistry a.presaleParams r
  several : 1 < a.presaleRegistries.length →
    a.presaleParams.whitelistMode = 1 ∨ a.presaleParams.whitelistMode = 2
  lock : ∀ l, a.lockedVestingParams.option = some l → ValidLock l a.presaleParams.presaleEndTime

theorem validate_ok {a : InitializePresaleArgs} {t : Nat} (h : a.validate t = .ok ()) : ValidArgs a t := by
  simp only [InitializePresaleArgs.validate, bind_eq_ok, validatePresaleRegistries, require_eq_ok] at h
  obtain ⟨_, h1, _, ⟨_, ⟨h2, h2'⟩, s, h3, _, h4, _, h5, h6⟩, h7⟩ := h
  refine ⟨presaleValidate_ok h1, ⟨h2, h2'⟩, (validateRegistriesLoop_ok h3).1, ?_, ?_⟩
  · intro hl
    unfold checkMultipleRegistries at h6
    rw [if_pos hl] at h6
    simp only [bind_eq_ok, require_eq_ok] at h6
    obtain ⟨m, g1, g2⟩ := h6
    exact (castWhitelist_permissioned g1).1.1 g2
  · intro l hl
    rw [hl] at h7
    exact lockValidate_ok h7

theorem blank_regs {regs : List RegistryArgs} {i : Nat} {r : Registry}
    (h : (regs.map RegistryArgs.slot ++ List.replicate (5 - regs.length) Registry.fresh)[i]? = some r) :
    (∃ x ∈ regs, i < regs.length ∧ r = x.slot) ∨ (regs.length ≤ i ∧ r = Registry.fresh) := by
  by_cases hi : i < regs.length
  · rw [List.getElem?_append_left (by simpa using hi), List.getElem?_map, List.getElem?_eq_getElem hi] at h
    simp at h
    exact Or.inl ⟨regs[i], List.getElem_mem hi, hi, h.symm⟩
  · rw [List.getElem?_append_right (by simp; omega)] at h
    right
    refine ⟨by omega, ?_⟩
    rw [List.getElem?_replicate] at h
    split at h
    · simpa using h.symm
    · cases h

theorem lsum_append {α : Type} (g : α → Nat) (l l' : List α) : lsum g (l ++ l') = lsum g l + lsum g l' := by
  simp [lsum]

theorem lsum_fresh {g : Registry → Nat} (hg : g Registry.fresh = 0) (n : Nat) :
    lsum g (List.replicate n Registry.fresh) = 0 := by
  induction n with
  | zero => rfl
  | succ n ih => rw [List.replicate_succ, lsum_cons, ih, hg]

theorem lsum_blank {g : Registry → Nat} (hg : g Registry.fresh = 0) (regs : List RegistryArgs) (n : Nat) :
    lsum g (regs.map RegistryArgs.slot ++ List.replicate n Registry.fresh) =
      lsum (fun a => g a.slot) regs := by
  rw [lsum_append, lsum_fresh hg]
  simp [lsum, List.map_map, Function.comp_def]

/-- Shape of the created presale, and the mode-specific facts. -/
structure Completed' (lookup : Addr → Option FixedPriceArgs) (key : Addr) (b : Presale) (a : PresaleArgs)
    (remaining : List Addr) (p : Presale) (rest : List Addr) : Prop where
  shape : p = { b with raw0 := p.raw0, raw1 := p.raw1 }
  modeData : (b.presaleMode = 1 ∧ p.raw0 = 0 ∧ p.raw1 = 0 ∧ rest = remaining) ∨
    (b.presaleMode = 2 ∧ p.raw0 = a.disableEarlierPresaleEndOnceCapReached ∧ p.raw1 = 0 ∧ rest = remaining) ∨
    (b.presaleMode ≠ 1 ∧ b.presaleMode ≠ 2 ∧ ∃ acc x, remaining = acc :: rest ∧ lookup acc = some x ∧
      x.presale = key ∧ p.raw0 = x.qPrice ∧
      p.raw1 = x.disableWithdraw + 256 * a.disableEarlierPresaleEndOnceCapReached)

theorem Completion.shape {lookup : Addr → Option FixedPriceArgs} {key : Addr} {b : Presale} {a : PresaleArgs}
    {remaining rest : List Addr} {p : Presale} (h0 : b.raw0 = 0) (h1 : b.raw1 = 0)
    (h : Completion lookup key b a remaining p rest) : Completed' lookup key b a remaining p rest := by
  cases h with
  | prorata hm hc => exact ⟨rfl, Or.inl ⟨hm, h0, h1, rfl⟩⟩
  | fcfs hm hc =>
    refine ⟨rfl, Or.inr (Or.inl ⟨hm, ?_, h1, rfl⟩)⟩
    simp [Presale.writeFcfsData, h0]
  | fixed hm hm' hrem hx hk hw hc hs hg =>
    refine ⟨rfl, Or.inr (Or.inr ⟨hm, hm', _, _, hrem, hx, hk, rfl, ?_⟩)⟩
    simp [Presale.writeFixedPriceData, h1]

theorem inRange_ok {a : InitializePresaleArgs} (h : a.inRange = true) :
    a.presaleParams.presaleMaximumCap < u64Bound ∧ a.presaleParams.presaleMinimumCap < u64Bound ∧
    a.presaleParams.presaleEndTime < u64Bound := by
  unfold InitializePresaleArgs.inRange at h
  simp only [Bool.and_eq_true, decide_eq_true_eq] at h
  exact ⟨by simp [h], by simp [h], by simp [h]⟩

theorem checkDynamic_ok {b : Presale} (h : checkDynamicPriceRegistries b = .ok ()) :
    (b.whitelistMode = 1 ∨ b.whitelistMode = 2) → ∀ r ∈ b.registries, r.isUninitialized = true ∨
      (r.buyerMinimumDepositCap = 1 ∧ r.buyerMaximumDepositCap = b.presaleMaximumCap) := by
  intro hw
  simp only [checkDynamicPriceRegistries, bind_eq_ok] at h
  obtain ⟨m, h1, h2⟩ := h
  rw [if_pos ((castWhitelist_permissioned h1).1.2 hw)] at h2
  exact enforceDynamic_ok h2

/-- Every created presale is documented. -/
theorem created_documented {lookup : Addr → Option FixedPriceArgs} {key : Addr} {k : InitKeys}
    {a : InitializePresaleArgs} {t : Nat} {remaining rest : List Addr} {p : Presale}
    (hL : ∀ acc x, lookup acc = some x → 0 < x.qPrice ∧ x.qPrice < u128Bound ∧ x.disableWithdraw ≤ 1)
    (hr : a.inRange = true) (hv : a.validate t = .ok ())
    (h : processCreatePresaleVault lookup key k a t remaining = .ok (p, rest)) : Documented t p := by
  obtain ⟨k', hk', hlen, hsup, hC⟩ := processCreate_ok h
  have hR := inRange_ok hr
  have hV := validate_ok hv
  have hS := hC.shape rfl rfl
  have hsh := hS.shape
  generalize hb : Presale.blank k a.presaleParams a.presaleRegistries k' t = b at *
  have e64 : (2 : Nat) ^ 64 = u64Bound := by rw [u64Bound_eq]; norm_num
  have e128 : (2 : Nat) ^ 128 = u128Bound := by rw [u128Bound_eq]; norm_num
  have hmem : ∀ x ∈ a.presaleRegistries, x.slot ∈ b.registries := by
    intro x hx
    rw [← hb]
    exact List.mem_append_left _ (List.mem_map.2 ⟨x, hx, rfl⟩)
  have hreg : ∀ (i : Nat) r, p.registries[i]? = some r →
      (∃ x ∈ a.presaleRegistries, i < a.presaleRegistries.length ∧ r = x.slot) ∨
        (a.presaleRegistries.length ≤ i ∧ r = Registry.fresh) := by
    intro i r hir
    rw [hsh, ← hb] at hir
    exact blank_regs hir
  have hmode : p.presaleMode = b.presaleMode := by rw [hsh]
  have hwl : p.whitelistMode = b.whitelistMode := by rw [hsh]
  have hmax : p.presaleMaximumCap = b.presaleMaximumCap := by rw [hsh]
  have hmin : p.presaleMinimumCap = b.presaleMinimumCap := by rw [hsh]
  have hsupp : p.presaleSupply = b.presaleSupply := by rw [hsh]
  have bmax : b.presaleMaximumCap = a.presaleParams.presaleMaximumCap := by rw [← hb]; rfl
  have bmin : b.presaleMinimumCap = a.presaleParams.presaleMinimumCap := by rw [← hb]; rfl
  have bsup : b.presaleSupply = suppliesOf a.presaleRegistries := by rw [← hb]; rfl
  have bwl : b.whitelistMode = a.presaleParams.whitelistMode := by rw [← hb]; rfl
  have bmode : b.presaleMode = a.presaleParams.presaleMode := by rw [← hb]; rfl
  have hcnt : p.totalPresaleRegistryCount = a.presaleRegistries.length := by rw [hsh, ← hb]; rfl
  have hfixed : p.presaleMode ≠ 1 → p.presaleMode ≠ 2 → ∃ x : FixedPriceArgs, ∃ wm,
      0 < x.qPrice ∧ x.qPrice < u128Bound ∧ p.raw0 = x.qPrice ∧
      castWhitelistMode b.whitelistMode = .ok wm ∧
      fixedPriceRegistryChecks x.qPrice b.presaleMaximumCap wm.isPermissioned b.registries = .ok () ∧
      ensureEnoughPresaleSupply x.qPrice b.presaleSupply b.presaleMaximumCap = .ok () ∧
      ensureGapBetweenMinAndMaxPresaleCap x.qPrice b.presaleMinimumCap b.presaleMaximumCap = .ok () := by
    intro h1 h2
    cases hC with
    | prorata hm hc => exact absurd hm h1
    | fcfs hm hc => exact absurd hm h2
    | fixed hm hm' hrem hx hk hw hc hs hg =>
      have := hL _ _ hx
      exact ⟨_, _, this.1, this.2.1, rfl, hw, hc, hs, hg⟩
  have hdyn : (p.presaleMode = 1 ∨ p.presaleMode = 2) → checkDynamicPriceRegistries b = .ok () := by
    intro h1
    cases hC with
    | prorata hm hc => exact hc
    | fcfs hm hc => exact hc
    | fixed hm hm' hrem hx hk hw hc hs hg =>
      rcases h1 with h1 | h1
      · exact absurd h1 hm
      · exact absurd h1 hm'
  refine ⟨?_, ?_, ?_, ?_, ?_, ?_, ?_, ?_, ?_, ?_, ?_, ?_, ?_, ?_, ?_, ?_, ?_, ?_, ?_⟩
  · rw [hsh, ← hb]; simp [Presale.blank]; omega
  · rw [hcnt]; exact hV.count
  · rw [hcnt, hwl, bwl]; exact hV.several
  · intro i r hir hi
    rcases hreg i r hir with ⟨x, hx, _, rfl⟩ | ⟨h1, _⟩
    · have hx' := hV.regs x hx
      have f1 : x.slot.buyerMinimumDepositCap = x.buyerMinimumDepositCap := rfl
      have f2 : x.slot.buyerMaximumDepositCap = x.buyerMaximumDepositCap := rfl
      have hun := slot_isUninitialized hx'.supply
      have hb1 : x.slot.buyerMaximumDepositCap < u64Bound := by
        have := hx'.within; rw [f2]; omega
      have hb2 : x.slot.buyerMinimumDepositCap < u64Bound := by
        have := hx'.order; rw [f1]; rw [f2] at hb1; omega
      refine ⟨hx'.supply, hx'.order, hx'.positive, ?_, hx'.fee, ?_, ?_, ?_⟩
      · rw [hmax, bmax]; exact hx'.within
      · intro g1 g2
        rw [hwl] at g1
        rcases checkDynamic_ok (hdyn g2) g1 _ (hmem x hx) with g3 | g3
        · rw [hun] at g3; cases g3
        · rw [hmax]; exact g3
      · intro g1 g2 g3
        obtain ⟨y, wm, y1, y2, y3, y4, y5, y6, y7⟩ := hfixed g2 g3
        rw [hwl] at g1
        have := (fixedCheck_ok hun hb2 hb1 (by omega) (fixedChecks_ok y5 _ (hmem x hx))).2.2
          ((castWhitelist_permissioned y4).1.2 g1)
        rw [hmax, y3, this.1]
        refine ⟨⟨?_, ?_⟩, this.2⟩
        · have := le_divCeil_mul y.qPrice scale_pos
          rw [scale_eq] at this ⊢
          exact this
        · have := divCeil_mul_lt y.qPrice scale_pos
          rw [scale_eq] at this ⊢
          exact this
      · intro g2 g3
        obtain ⟨y, wm, y1, y2, y3, y4, y5, y6, y7⟩ := hfixed g2 g3
        have := fixedCheck_ok hun hb2 hb1 (by omega) (fixedChecks_ok y5 _ (hmem x hx))
        rw [y3, e64]; exact ⟨this.1, this.2.1⟩
    · omega
  · intro i r hir hi
    rcases hreg i r hir with ⟨x, hx, h1, rfl⟩ | ⟨_, h1⟩
    · omega
    · exact h1
  · have : p.registries = a.presaleRegistries.map RegistryArgs.slot ++
        List.replicate (5 - a.presaleRegistries.length) Registry.fresh := by rw [hsh, ← hb]; rfl
    rw [hsupp, bsup, this]
    exact (lsum_blank (g := Registry.presaleSupply) rfl _ _).symm
  · rw [hsupp, bsup, e64]; exact hsup
  · rw [hmax, hmin, bmax, bmin, e64]
    exact ⟨hV.sale.positive, hV.sale.order, hR.1⟩
  · rw [hsh, ← hb]; rfl
  · have e : p.presaleStartTime = max a.presaleParams.presaleStartTime t := by rw [hsh, ← hb]; rfl
    rw [e]
    have := hV.sale.ahead
    omega
  · have e : p.presaleStartTime = max a.presaleParams.presaleStartTime t := by rw [hsh, ← hb]; rfl
    have e' : p.presaleEndTime = a.presaleParams.presaleEndTime := by rw [hsh, ← hb]; rfl
    rw [e, e']
    have := hV.sale.duration
    omega
  · have e : p.lockDuration = k'.lockDuration := by rw [hsh, ← hb]; rfl
    have e' : p.vestDuration = k'.vestDuration := by rw [hsh, ← hb]; rfl
    rw [e, e']
    rcases lockTermsOf_eq hk' with ⟨_, rfl⟩ | ⟨x, hx, _, rfl⟩
    · simp
    · have := (hV.lock x hx).delays
      simp only; omega
  · have e : p.immediateReleaseBps = k'.immediateReleaseBps := by rw [hsh, ← hb]; rfl
    rw [e]
    rcases lockTermsOf_eq hk' with ⟨_, rfl⟩ | ⟨x, hx, _, rfl⟩
    · simp
    · exact (hV.lock x hx).rate
  · have e1 : p.lockDuration = k'.lockDuration := by rw [hsh, ← hb]; rfl
    have e2 : p.vestDuration = k'.vestDuration := by rw [hsh, ← hb]; rfl
    have e3 : p.immediateReleaseBps = k'.immediateReleaseBps := by rw [hsh, ← hb]; rfl
    have e4 : p.immediateReleaseTimestamp = k'.immediateReleaseTimestamp := by rw [hsh, ← hb]; rfl
    have e5 : p.vestingStartTime = k'.vestingStartTime := by rw [hsh, ← hb]; rfl
    have e6 : p.vestingEndTime = k'.vestingEndTime := by rw [hsh, ← hb]; rfl
    have e7 : p.presaleEndTime = a.presaleParams.presaleEndTime := by rw [hsh, ← hb]; rfl
    rw [e1, e2, e3, e4, e5, e6, e7]
    rcases lockTermsOf_eq hk' with ⟨_, rfl⟩ | ⟨x, hx, _, rfl⟩
    · exact Or.inl ⟨rfl, rfl, rfl, rfl, rfl, rfl⟩
    · have := hV.lock x hx
      exact Or.inr ⟨rfl, rfl, this.imm, this.full, this.part, this.none⟩
  · rw [hmode, bmode]; exact (castMode_of_some hV.sale.mode).2
  · rw [hwl, bwl]; exact (castWhitelist_of_some hV.sale.whitelist).2
  · intro g2 g3
    obtain ⟨y, wm, y1, y2, y3, y4, y5, y6, y7⟩ := hfixed g2 g3
    have hy : y.qPrice ≠ 0 := by omega
    have m1 : b.presaleMaximumCap < u64Bound := by rw [bmax]; exact hR.1
    have m2 : b.presaleMinimumCap < u64Bound := by rw [bmin]; exact hR.2.1
    simp only [ensureEnoughPresaleSupply, tokenBought_eq m1 hy, ok_bind, require_eq_ok] at y6
    simp only [ensureGapBetweenMinAndMaxPresaleCap, tokenBought_eq m1 hy, tokenBought_eq m2 hy, ok_bind,
      bind_eq_ok, sub_eq_ok, require_eq_ok] at y7
    obtain ⟨_, ⟨_, rfl⟩, y7⟩ := y7
    rw [y3, hmax, hmin, hsupp, e128]
    exact ⟨y1, y2, y6, by omega⟩
  · rw [hsh, ← hb]; exact ⟨rfl, rfl, rfl, rfl, rfl, rfl, rfl, rfl⟩
  · intro r hr
    obtain ⟨i, hi⟩ := List.getElem?_of_mem hr
    rcases hreg i r hi with ⟨x, _, _, rfl⟩ | ⟨_, rfl⟩
    · rfl
    · rfl

/-- A documented presale at its own address, without escrows, satisfies the invariant. -/
theorem Documented.pinv {t : Nat} {key : Addr} {p : Presale} {es : AMap Addr Escrow} (D : Documented t p)
    (hk : key = .presale p.base p.baseMint p.quoteMint) (hb : p.baseTokenVault = .baseVault key)
    (hq : p.quoteTokenVault = .quoteVault key) (hm : ∃ m, castPresaleMode p.presaleMode = .ok m)
    (hw : ∃ m, castWhitelistMode p.whitelistMode = .ok m)
    (hend : p.presaleEndTime + p.lockDuration + p.vestDuration < u64Bound)
    (hes : ∀ x ∈ es, x.2.presale ≠ key) : PInv t key p es := by
  have e64 : (2 : Nat) ^ 64 = u64Bound := by rw [u64Bound_eq]; norm_num
  have e128 : (2 : Nat) ^ 128 = u128Bound := by rw [u128Bound_eq]; norm_num
  obtain ⟨c1, c2, c3, c4, c5, c6, c7, c8⟩ := D.counters
  have hz : ∀ i f, esum es key i f = 0 := by
    intro i f
    apply esum_zero
    intro x hx hxa _
    exact absurd hxa (hes x hx)
  have hblank : ∀ (i : Nat) r, p.registries[i]? = some r → r = registryTerms r :=
    fun i r h => D.blank r (List.mem_of_getElem? h)
  have hd := D.duration
  have ha := D.startAhead
  refine ⟨?_, ?_, ?_, ?_⟩
  · refine ⟨hk, hb, hq, D.slots, D.count.1, D.count.2, ?_, ?_, D.supply, by rw [← e64]; exact D.supplyFits,
      D.caps.1, D.caps.2.1, by rw [← e64]; exact D.caps.2.2, hm, hw, ?_, D.rate, ?_⟩
    · intro i r hr hi
      have := D.used i r hr hi
      exact ⟨this.supply, this.order, this.positive, this.within, this.fee⟩
    · intro i r hr hi
      rw [D.unused i r hr hi]; rfl
    · intro h1 h2
      have := D.price h1 h2
      rw [← e128]
      exact ⟨this.1, this.2.1, this.2.2.1⟩
    · rw [D.createdAt]; omega
  · refine ⟨by rw [D.createdAt], by omega, ?_, hend, ?_, ?_⟩
    · rcases D.schedule with h | ⟨h1, h2, _⟩
      · exact Or.inr h
      · exact Or.inl ⟨h1, h2⟩
    · rcases D.schedule with h | ⟨h1, h2, h3, _⟩
      · omega
      · omega
    · rcases D.schedule with h | ⟨h1, h2, h3, _⟩
      · exact Or.inl h.2.2.2.1
      · omega
  · exact ⟨by omega, by omega, by omega, fun _ => c7, fun _ => ⟨c6, c8⟩⟩
  · have htot : ∀ g : Registry → Nat, (∀ r, g (registryTerms r) = 0) → lsum g p.registries = 0 := by
      intro g hg
      apply lsum_zero
      intro i r hr
      rw [hblank i r hr]; exact hg r
    refine ⟨?_, ?_, ?_, ?_, ?_, ?_, ?_, ?_, ?_⟩
    · rw [c1, htot _ (fun _ => rfl)]
    · rw [c5, htot _ (fun _ => rfl)]
    · rw [c2, htot _ (fun _ => rfl)]
    · rw [c3, htot _ (fun _ => rfl)]
    · rw [c4, htot _ (fun _ => rfl)]
    · intro _; rw [c1]; exact Nat.zero_le _
    · rw [c1, c5]; exact u64_pos
    · intro i r hr
      have hbl := hblank i r hr
      have d1 : r.totalEscrow = 0 := by rw [hbl]; rfl
      have d2 : r.totalDeposit = 0 := by rw [hbl]; rfl
      have d3 : r.totalDepositFee = 0 := by rw [hbl]; rfl
      have d4 : r.totalRefundedQuoteToken = 0 := by rw [hbl]; rfl
      have d5 : r.totalClaimedToken = 0 := by rw [hbl]; rfl
      refine ⟨?_, ?_, ?_, ?_, ?_, fun _ => d4, fun _ => d5, ?_, ?_, D.unused i r hr⟩
      · rw [hz, d1]
      · rw [hz]; exact Nat.zero_le _
      · rw [hz]; exact Nat.zero_le _
      · intro _; rw [hz, d2]
      · intro _; rw [hz, d3]
      · intro _; rw [hz, d4]; exact Nat.zero_le _
      · intro _ _; rw [hz, d5]; exact Nat.zero_le _
    · intro x hx hxa
      exact absurd hxa (hes x hx)

end Verif
