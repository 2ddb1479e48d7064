import Verif.Spec
/-!
# When a presale can be created

Written against the argument lists and the ledger only; nothing here refers to a function of
`Model/Params.lean`, to a handler or to `isSupportedMint`.
-/

namespace Verif.Spec

/-! ## Token accounts -/

/-- `who` may move `amount` out of `t`: as its delegate within the allowance, or as its owner. (An account
that names `who` as delegate is bound by the allowance even if `who` owns it.) -/
def CanSpend (t : TokAcct) (who : Addr) (amount : Nat) : Prop :=
  (∃ n, t.delegate = some (who, n) ∧ amount ≤ n) ∨ (t.owner = who ∧ ∀ n, t.delegate ≠ some (who, n))

/-- The slices can be written on the wire: a `u32` count of `u8` lengths. -/
def SlicesFit (slices : List RemSlice) : Prop :=
  slices.length < 2 ^ 32 ∧ ∀ s ∈ slices, s.length < 2 ^ 8

/-- The slices announce hook accounts of kind `kind` only and no more than are passed, and exactly one of
them is non-empty if mint `m` has a transfer hook, none otherwise. -/
structure HooksExact (kind : AccountsType) (m : MintInfo) (passed : List Addr) (slices : List RemSlice) :
    Prop where
  kinds : ∀ s ∈ slices, s.accountsType = kind
  enough : announced slices ≤ passed.length
  count : (slices.filter (fun s => s.length ≠ 0)).length = if m.hookProgram = none then 0 else 1

/-- Mints the program deals with: every SPL Token mint, and Token-2022 mints other than the wrapped native
one whose extensions are among fees, metadata (two kinds) and transfer hooks. -/
def Admitted (m : MintInfo) : Prop :=
  m.program = .splToken ∨
  (m.isNative = false ∧ ∀ e ∈ m.exts, e = .transferFeeConfig ∨ e = .metadataPointer ∨ e = .tokenMetadata ∨
    e = .transferHook)

/-! ## Terms -/

/-- The sale accepts only buyers on a list (1: Merkle proofs, 2: operators). -/
def Whitelisted (a : PresaleArgs) : Prop := a.whitelistMode = 1 ∨ a.whitelistMode = 2

/-- Acceptable terms of one registry, in a sale at fixed price `q` (`some q`) or with the price formed by the
deposits (`none`). -/
structure RegistryTerms (a : PresaleArgs) (price : Option Nat) (r : RegistryArgs) : Prop where
  fits : r.buyerMinimumDepositCap < 2 ^ 64 ∧ r.buyerMaximumDepositCap < 2 ^ 64 ∧ r.presaleSupply < 2 ^ 64 ∧
    r.depositFeeBps < 2 ^ 16
  supply : 0 < r.presaleSupply
  order : r.buyerMinimumDepositCap ≤ r.buyerMaximumDepositCap
  positive : 0 < r.buyerMaximumDepositCap
  within : r.buyerMaximumDepositCap ≤ a.presaleMaximumCap
  fee : r.depositFeeBps ≤ 5000
  dynamicWhitelisted : price = none → Whitelisted a →
    r.buyerMinimumDepositCap = 1 ∧ r.buyerMaximumDepositCap = a.presaleMaximumCap
  fixedWhitelisted : ∀ q, price = some q → Whitelisted a →
    IsCeilDiv r.buyerMinimumDepositCap q (2 ^ 64) ∧ r.buyerMaximumDepositCap = a.presaleMaximumCap
  buyable : ∀ q, price = some q →
    0 < tokensAtPrice q r.buyerMinimumDepositCap ∧ tokensAtPrice q r.buyerMaximumDepositCap < 2 ^ 64

/-- Acceptable release terms for a sale ending at `e`: none at all, or a schedule. -/
def ReleaseTerms (l : LockedVestingArgs) (e : Nat) : Prop :=
  (l.immediatelyReleaseBps = 0 ∧ l.lockDuration = 0 ∧ l.vestDuration = 0 ∧ l.immediateReleaseTimestamp = 0 ∧
    l.paddingIsZero = true) ∨
  (l.lockDuration + l.vestDuration < 10 * 365 * 24 * 3600 ∧ e + l.lockDuration + l.vestDuration < 2 ^ 64 ∧
    ((l.immediatelyReleaseBps = 10000 ∧ l.lockDuration = 0 ∧ l.vestDuration = 0 ∧
        (l.immediateReleaseTimestamp = 0 ∨ l.immediateReleaseTimestamp = e)) ∨
     (l.immediatelyReleaseBps < 10000 ∧ (0 < l.lockDuration ∨ 0 < l.vestDuration) ∧
        (l.immediateReleaseTimestamp = 0 ∨ l.immediateReleaseTimestamp = e ∨
          (0 < l.immediatelyReleaseBps ∧ e ≤ l.immediateReleaseTimestamp ∧
            l.immediateReleaseTimestamp ≤ e + l.lockDuration + l.vestDuration)))))

/-- Tokens put up for sale. -/
def offered (a : InitializePresaleArgs) : Nat := (a.presaleRegistries.map RegistryArgs.presaleSupply).sum

/-- Acceptable terms of a sale created at time `now`. -/
structure Terms (now : Nat) (price : Option Nat) (a : InitializePresaleArgs) : Prop where
  capsFit : a.presaleParams.presaleMaximumCap < 2 ^ 64
  timesFit : a.presaleParams.presaleStartTime < 2 ^ 64 ∧ a.presaleParams.presaleEndTime < 2 ^ 64
  bytesFit : a.presaleParams.whitelistMode < 2 ^ 8 ∧ a.presaleParams.presaleMode < 2 ^ 8 ∧
    a.presaleParams.unsoldTokenAction < 2 ^ 8
  releaseFit : a.lockedVestingParams.lockDuration < 2 ^ 64 ∧ a.lockedVestingParams.vestDuration < 2 ^ 64 ∧
    a.lockedVestingParams.immediateReleaseTimestamp < 2 ^ 64
  caps : 0 < a.presaleParams.presaleMinimumCap ∧
    a.presaleParams.presaleMinimumCap ≤ a.presaleParams.presaleMaximumCap
  /-- the sale begins now or within 30 days, and lasts between a minute and 30 days -/
  ahead : a.presaleParams.presaleStartTime ≤ now + 30 * 24 * 3600
  duration : max a.presaleParams.presaleStartTime now + 60 ≤ a.presaleParams.presaleEndTime ∧
    a.presaleParams.presaleEndTime ≤ max a.presaleParams.presaleStartTime now + 30 * 24 * 3600
  whitelist : a.presaleParams.whitelistMode ≤ 2 ∨ unknownWhitelistIsDefault = true
  mode : a.presaleParams.presaleMode ≤ 2 ∨ unknownModeIsDefault = true
  flag : a.presaleParams.disableEarlierPresaleEndOnceCapReached ≤ 1
  count : 1 ≤ a.presaleRegistries.length ∧ a.presaleRegistries.length ≤ 5
  several : 1 < a.presaleRegistries.length → Whitelisted a.presaleParams
  registries : ∀ r ∈ a.presaleRegistries, RegistryTerms a.presaleParams price r
  supply : offered a < 2 ^ 64
  release : ReleaseTerms a.lockedVestingParams a.presaleParams.presaleEndTime
  /-- at a fixed price the supply covers the largest amount raised, and the caps differ by a token -/
  price : ∀ q, price = some q →
    tokensAtPrice q a.presaleParams.presaleMaximumCap ≤ offered a ∧
    tokensAtPrice q a.presaleParams.presaleMinimumCap < tokensAtPrice q a.presaleParams.presaleMaximumCap

/-- The price the sale is created with, and the accounts left for the transfer hook: with mode 1 (pro rata)
and 2 (first come first served) there is no price; otherwise the first extra account holds it. -/
def PricedBy (fixedArgs : Addr → Option FixedPriceArgs) (key : Addr) (mode : Nat) (passed : List Addr)
    (price : Option Nat) (left : List Addr) : Prop :=
  ((mode = 1 ∨ mode = 2) ∧ price = none ∧ left = passed) ∨
  (mode ≠ 1 ∧ mode ≠ 2 ∧ ∃ acc x, passed = acc :: left ∧ fixedArgs acc = some x ∧ x.presale = key ∧
    price = some x.qPrice)

/-- The conditions under which the presale of `x` can be created in ledger `w`. -/
structure Creatable (w : World) (tx : Tx) (x : InitPresaleAcc) (price : Option Nat) (left : List Addr)
    (bm qm : MintInfo) (src : TokAcct) (gross : Nat) : Prop where
  signed : tx.signed x.base = true ∧ tx.signed x.payer = true
  fresh : w.presales (.presale x.base x.presaleMint x.quoteTokenMint) = none ∧
    w.tk.toks (.baseVault (.presale x.base x.presaleMint x.quoteTokenMint)) = none ∧
    w.tk.toks (.quoteVault (.presale x.base x.presaleMint x.quoteTokenMint)) = none
  clock : 0 ≤ w.clock
  baseMint : w.tk.mints x.presaleMint = some bm ∧ bm.program = x.baseTokenProgram ∧ Admitted bm
  quoteMint : w.tk.mints x.quoteTokenMint = some qm ∧ qm.program = x.quoteTokenProgram ∧ Admitted qm
  priced : PricedBy w.fixedArgs (.presale x.base x.presaleMint x.quoteTokenMint)
    x.args.presaleParams.presaleMode x.remaining price left
  terms : Terms w.clock.toNat price x.args
  /-- the payer's account can be charged an amount of which the whole supply arrives -/
  source : w.tk.toks x.payerPresaleToken = some src ∧ src.mint = x.presaleMint ∧ src.frozen = false
  gross : gross - bm.transferFee gross = offered x.args ∧ gross ≤ src.amount ∧ CanSpend src x.payer gross
  accepted : tx.accept = true
  slices : SlicesFit x.slices
  hooks : HooksExact .transferHookBase bm left x.slices

end Verif.Spec
