import Verif.Model.Handlers
/-!
# Initialisation parameters (`instructions/initialize_presale/params.rs`), `Presale::initialize`
(`state/presale.rs:213-298`) and the handlers' `initialize_presale`.
-/

namespace Verif

/-- `PresaleRegistryArgs` (`params.rs:79-86`), padding omitted. -/
structure RegistryArgs where
  buyerMinimumDepositCap : Nat
  buyerMaximumDepositCap : Nat
  presaleSupply : Nat
  depositFeeBps : Nat
  deriving DecidableEq, Repr

/-- `PresaleArgs` (`params.rs:123-136`), padding omitted. -/
structure PresaleArgs where
  presaleMaximumCap : Nat
  presaleMinimumCap : Nat
  presaleStartTime : Nat
  presaleEndTime : Nat
  whitelistMode : Nat
  presaleMode : Nat
  unsoldTokenAction : Nat
  disableEarlierPresaleEndOnceCapReached : Nat
  deriving DecidableEq, Repr

/-- `LockedVestingArgs` (`params.rs:202-214`). Of the padding only whether it is all zero matters
(it takes part in the comparison of `option()`). -/
structure LockedVestingArgs where
  immediatelyReleaseBps : Nat
  lockDuration : Nat
  vestDuration : Nat
  immediateReleaseTimestamp : Nat
  paddingIsZero : Bool
  deriving DecidableEq, Repr

/-- `InitializePresaleArgs` (`params.rs:43-49`). -/
structure InitializePresaleArgs where
  presaleParams : PresaleArgs
  lockedVestingParams : LockedVestingArgs
  presaleRegistries : List RegistryArgs
  deriving DecidableEq, Repr

/-- `PresaleRegistryArgs::validate` (`params.rs:96-120`). -/
def RegistryArgs.validate (r : RegistryArgs) (a : PresaleArgs) : Except Err Unit := do
  require (r.buyerMaximumDepositCap ≥ r.buyerMinimumDepositCap) (.p .invalidPresaleInfo)
  require (r.buyerMaximumDepositCap > 0) (.p .invalidPresaleInfo)
  require (r.buyerMaximumDepositCap ≤ a.presaleMaximumCap) (.p .invalidPresaleInfo)
  require (r.presaleSupply > 0) (.p .invalidTokenSupply)
  require (r.depositFeeBps ≤ MAX_DEPOSIT_FEE_BPS) (.p .invalidPresaleInfo)

/-- Loop of `validate_presale_registries` (`params.rs:14-19`), accumulating the supply in `u128`. -/
def validateRegistriesLoop (a : PresaleArgs) : List RegistryArgs → Nat → Except Err Nat
  | [], acc => .ok acc
  | r :: rs, acc => do
    r.validate a
    let acc' ← add128 acc r.presaleSupply
    validateRegistriesLoop a rs acc'

/-- Last check of `validate_presale_registries` (`params.rs:32-38`). -/
def checkMultipleRegistries (rs : List RegistryArgs) (a : PresaleArgs) : Except Err Unit :=
  if rs.length > 1 then do
    let m ← castWhitelistMode a.whitelistMode
    require (m.isPermissioned = true) (.p .multiplePresaleRegistriesNotAllowed)
  else .ok ()

/-- `validate_presale_registries` (`params.rs:5-41`). -/
def validatePresaleRegistries (rs : List RegistryArgs) (a : PresaleArgs) : Except Err Unit := do
  require (rs.length > 0 ∧ rs.length ≤ MAX_PRESALE_REGISTRY_COUNT) (.p .invalidPresaleInfo)
  let supply ← validateRegistriesLoop a rs 0
  require (supply ≤ u64Bound - 1) (.p .invalidTokenSupply)
  require (supply > 0) (.p .invalidTokenSupply)
  checkMultipleRegistries rs a

/-- `get_presale_start_time_without_going_backwards` (`params.rs:139-141`). -/
def PresaleArgs.startTimeWithoutGoingBackwards (a : PresaleArgs) (t : Nat) : Nat :=
  max a.presaleStartTime t

/-- `PresaleArgs::validate` (`params.rs:143-199`). `UnsoldTokenAction::try_from` cannot fail, since the
type implements `From<u8>` (`FromPrimitive`), so that check is always passed. -/
def PresaleArgs.validate (a : PresaleArgs) (t : Nat) : Except Err Unit := do
  require (a.presaleMaximumCap ≥ a.presaleMinimumCap) (.p .invalidPresaleInfo)
  require (a.presaleMinimumCap > 0) (.p .invalidPresaleInfo)
  let start := a.startTimeWithoutGoingBackwards t
  require (a.presaleEndTime > start) (.p .invalidPresaleInfo)
  let duration ← sub a.presaleEndTime start
  require (duration ≥ MINIMUM_PRESALE_DURATION ∧ duration ≤ MAXIMUM_PRESALE_DURATION)
    (.p .invalidPresaleInfo)
  let untilPresale ← sub start t
  require (untilPresale ≤ MAXIMUM_DURATION_UNTIL_PRESALE) (.p .invalidPresaleInfo)
  require ((WhitelistMode.tryFrom a.whitelistMode).isSome = true) (.p .invalidPresaleInfo)
  require ((PresaleMode.tryFrom a.presaleMode).isSome = true) (.p .invalidPresaleInfo)
  require ((boolTypeTryFrom a.disableEarlierPresaleEndOnceCapReached).isSome = true) (.p .invalidType)

/-- `LockedVestingArgs::validate` (`params.rs:217-277`). -/
def LockedVestingArgs.validate (l : LockedVestingArgs) (presaleEndTime : Nat) : Except Err Unit := do
  let total ← add64 l.vestDuration l.lockDuration
  require (total < MAXIMUM_LOCK_AND_VEST_DURATION) (.p .invalidLockVestingInfo)
  require (l.immediatelyReleaseBps ≤ MAX_FEE_BASIS_POINTS) (.p .invalidLockVestingInfo)
  if l.immediatelyReleaseBps = MAX_FEE_BASIS_POINTS then do
    require (l.lockDuration = 0 ∧ l.vestDuration = 0) (.p .invalidLockVestingInfo)
    require (l.immediateReleaseTimestamp > 0 → l.immediateReleaseTimestamp = presaleEndTime)
      (.p .invalidLockVestingInfo)
  else do
    require (l.lockDuration > 0 ∨ l.vestDuration > 0) (.p .invalidLockVestingInfo)
    let (_, ve) ← vestAndLockTimings presaleEndTime l.lockDuration l.vestDuration
    if l.immediateReleaseTimestamp > 0 then
      if l.immediatelyReleaseBps = 0 then
        require (l.immediateReleaseTimestamp = presaleEndTime) (.p .invalidLockVestingInfo)
      else
        require (l.immediateReleaseTimestamp ≥ presaleEndTime ∧ l.immediateReleaseTimestamp ≤ ve)
          (.p .invalidLockVestingInfo)
    else .ok ()

/-- `OptionalNonZeroLockedVestingArgs::option` (`params.rs:282-290`). -/
def LockedVestingArgs.option (l : LockedVestingArgs) : Option LockedVestingArgs :=
  if l.immediatelyReleaseBps = 0 ∧ l.lockDuration = 0 ∧ l.vestDuration = 0
      ∧ l.immediateReleaseTimestamp = 0 ∧ l.paddingIsZero = true then none
  else some l

/-- `InitializePresaleArgs::validate` (`params.rs:52-76`), `t` being the current timestamp. -/
def InitializePresaleArgs.validate (a : InitializePresaleArgs) (t : Nat) : Except Err Unit := do
  a.presaleParams.validate t
  validatePresaleRegistries a.presaleRegistries a.presaleParams
  match a.lockedVestingParams.option with
  | some l => l.validate a.presaleParams.presaleEndTime
  | none => pure ()

/-! ## `Presale::initialize` -/

/-- Registry loop of `Presale::initialize` (`state/presale.rs:238-247`): fill slot `idx`, add to the
supply. Indexing beyond the five slots panics. -/
def initRegistriesLoop : List RegistryArgs → Nat → List Registry → Nat →
    Except Err (List Registry × Nat)
  | [], _, regs, supply => .ok (regs, supply)
  | a :: as, idx, regs, supply =>
    match regs[idx]? with
    | none => .error .panic
    | some r => do
      let regs' := regs.set idx
        (r.init a.presaleSupply a.buyerMinimumDepositCap a.buyerMaximumDepositCap a.depositFeeBps)
      let supply' ← add64 supply a.presaleSupply
      initRegistriesLoop as (idx + 1) regs' supply'

/-- Keys passed to `Presale::initialize` (`state/presale.rs:162-175`). -/
structure InitKeys where
  baseMint : Addr
  quoteMint : Addr
  baseTokenVault : Addr
  quoteTokenVault : Addr
  owner : Addr
  base : Addr
  baseTokenProgram : TokenProgram
  quoteTokenProgram : TokenProgram
  deriving DecidableEq, Repr

/-- Release terms stored in a presale. -/
structure LockTerms where
  lockDuration : Nat
  vestDuration : Nat
  immediateReleaseBps : Nat
  immediateReleaseTimestamp : Nat
  vestingStartTime : Nat
  vestingEndTime : Nat
  deriving DecidableEq, Repr

/-- The part of `Presale::initialize` storing the release terms (`state/presale.rs:271-295`); all zero
if none are given. -/
def lockTermsOf (presaleEndTime : Nat) : Option LockedVestingArgs → Except Err LockTerms
  | some l => do
    let (vs, ve) ← vestAndLockTimings presaleEndTime l.lockDuration l.vestDuration
    return { lockDuration := l.lockDuration, vestDuration := l.vestDuration,
             immediateReleaseBps := l.immediatelyReleaseBps,
             immediateReleaseTimestamp := l.immediateReleaseTimestamp,
             vestingStartTime := vs, vestingEndTime := ve }
  | none => return { lockDuration := 0, vestDuration := 0, immediateReleaseBps := 0,
                     immediateReleaseTimestamp := 0, vestingStartTime := 0, vestingEndTime := 0 }

/-- `Presale::initialize` on a zeroed account (`state/presale.rs:213-298`). `len() as u8` is exact
because at most five registries are accepted. -/
def Presale.initialized (k : InitKeys) (a : PresaleArgs) (regs : List RegistryArgs)
    (l : Option LockedVestingArgs) (t : Nat) : Except Err Presale := do
  let (registries, supply) ←
    initRegistriesLoop regs 0 (List.replicate MAX_PRESALE_REGISTRY_COUNT Registry.fresh) 0
  let k' ← lockTermsOf a.presaleEndTime l
  return {
    owner := k.owner, quoteMint := k.quoteMint, baseMint := k.baseMint,
    baseTokenVault := k.baseTokenVault, quoteTokenVault := k.quoteTokenVault, base := k.base,
    presaleMode := a.presaleMode, whitelistMode := a.whitelistMode,
    presaleMaximumCap := a.presaleMaximumCap, presaleMinimumCap := a.presaleMinimumCap,
    presaleStartTime := a.startTimeWithoutGoingBackwards t, presaleEndTime := a.presaleEndTime,
    presaleSupply := supply, totalDeposit := 0, totalEscrow := 0, createdAt := t,
    lockDuration := k'.lockDuration, vestDuration := k'.vestDuration,
    immediateReleaseTimestamp := k'.immediateReleaseTimestamp,
    vestingStartTime := k'.vestingStartTime, vestingEndTime := k'.vestingEndTime,
    totalClaimedToken := 0, totalRefundedQuoteToken := 0, totalDepositFee := 0,
    depositFeeCollected := 0, hasCreatorWithdrawn := 0,
    baseTokenProgramFlag := k.baseTokenProgram.flag,
    quoteTokenProgramFlag := k.quoteTokenProgram.flag,
    totalPresaleRegistryCount := regs.length, unsoldTokenAction := a.unsoldTokenAction,
    isUnsoldTokenActionPerformed := 0, immediateReleaseBps := k'.immediateReleaseBps,
    raw0 := 0, raw1 := 0, raw2 := 0, registries := registries }

/-- Body of the registry loop of the fixed-price `initialize_presale`
(`fixed_price_presale.rs:148-177`). -/
def fixedPriceRegistryCheck (qPrice maxCap : Nat) (permissioned : Bool) (r : Registry) :
    Except Err Unit :=
  if r.isUninitialized then .ok ()
  else do
    ensureTokenBuyable qPrice r.buyerMinimumDepositCap
    ensureTokenBuyable qPrice r.buyerMaximumDepositCap
    if permissioned then do
      let minQuote ← calculateMinQuoteAmountForBaseLamport qPrice
      require (r.buyerMinimumDepositCap = minQuote) (.p .invalidBuyerCapRange)
      require (r.buyerMaximumDepositCap = maxCap) (.p .invalidBuyerCapRange)
    else .ok ()

/-- Registry loop of the fixed-price `initialize_presale` (`fixed_price_presale.rs:148-177`). -/
def fixedPriceRegistryChecks (qPrice maxCap : Nat) (permissioned : Bool) :
    List Registry → Except Err Unit
  | [] => .ok ()
  | r :: rs => do
    fixedPriceRegistryCheck qPrice maxCap permissioned r
    fixedPriceRegistryChecks qPrice maxCap permissioned rs

/-- Buyer-cap check of the pro-rata and FCFS handlers (`prorata_presale.rs:14-17`,
`fcfs_presale.rs:41-44`). -/
def checkDynamicPriceRegistries (p : Presale) : Except Err Unit := do
  let wm ← castWhitelistMode p.whitelistMode
  if wm.isPermissioned then
    enforceDynamicPriceRegistriesMaxBuyerCapRange p.presaleMaximumCap p.registries
  else .ok ()

/-- `initialize_presale` of the handlers: `fixed_price_presale.rs:116-202`, `prorata_presale.rs:7-20`,
`fcfs_presale.rs:34-52`. `lookup` reads a `FixedPricePresaleExtraArgs` account (Anchor's
`AccountLoader::try_from`). Returns the presale and the remaining accounts that are left. -/
def Handler.initializePresale (h : Handler) (lookup : Addr → Option FixedPriceArgs)
    (presaleKey : Addr) (p : Presale) (a : PresaleArgs) (remaining : List Addr) :
    Except Err (Presale × List Addr) :=
  match h with
  | .fixedPrice _ _ _ =>
    match remaining with
    | [] => .error (.p .missingPresaleExtraParams)
    | acc :: rest =>
      match lookup acc with
      | none => .error (.x .accountNotFound)
      | some x => do
        require (x.presale = presaleKey) (.p .missingPresaleExtraParams)
        let wm ← castWhitelistMode p.whitelistMode
        fixedPriceRegistryChecks x.qPrice p.presaleMaximumCap wm.isPermissioned p.registries
        ensureEnoughPresaleSupply x.qPrice p.presaleSupply p.presaleMaximumCap
        ensureGapBetweenMinAndMaxPresaleCap x.qPrice p.presaleMinimumCap p.presaleMaximumCap
        return (p.writeFixedPriceData x.qPrice a.disableEarlierPresaleEndOnceCapReached
          x.disableWithdraw, rest)
  | .prorata => do
    checkDynamicPriceRegistries p
    return (p, remaining)
  | .fcfs _ => do
    checkDynamicPriceRegistries p
    return (p.writeFcfsData a.disableEarlierPresaleEndOnceCapReached, remaining)

/-- `process_create_presale_vault` (`initialize_presale/process_create_presale_vault.rs:12-62`). -/
def processCreatePresaleVault (lookup : Addr → Option FixedPriceArgs) (presaleKey : Addr)
    (k : InitKeys) (a : InitializePresaleArgs) (t : Nat) (remaining : List Addr) :
    Except Err (Presale × List Addr) := do
  let p ← Presale.initialized k a.presaleParams a.presaleRegistries a.lockedVestingParams.option t
  let h ← getPresaleModeHandler p
  h.initializePresale lookup presaleKey p a.presaleParams remaining

end Verif
