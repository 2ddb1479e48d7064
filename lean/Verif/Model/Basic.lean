/-!
# Errors, checked arithmetic, constants, addresses, finite maps

Models `programs/presale/src/errors.rs`, `constants.rs` and `math/safe_math.rs`.
All paths in this development are relative to `/repo/programs/presale/src` unless they start with
`merkle-tree/`.
-/

namespace Verif

/-! ## Errors -/

/-- `errors.rs:5-140`: the program's own error codes (those some modelled code path can return). -/
inductive PErr where
  | invalidTokenSupply
  | invalidPresaleInfo
  | invalidLockVestingInfo
  | invalidTokenPrice
  | missingPresaleExtraParams
  | zeroTokenAmount
  | unsupportedToken2022MintOrExtension
  | invalidCreatorAccount
  | presaleNotOpenForDeposit
  | presaleNotOpenForWithdraw
  | presaleNotOpenForWithdrawRemainingQuote
  | invalidPresaleWhitelistMode
  | presaleEnded
  | presaleNotOpenForClaim
  | invalidMerkleProof
  | depositAmountOutOfCap
  | mathOverflow
  | insufficientEscrowBalance
  | remainingQuoteAlreadyWithdrawn
  | presaleNotCompleted
  | escrowNotEmpty
  | invalidUnsoldTokenAction
  | creatorAlreadyWithdrawn
  | undeterminedError
  | invalidTokenVault
  | invalidQuoteMint
  | invalidBaseMint
  | invalidRemainingAccountSlice
  | duplicatedRemainingAccountTypes
  | missingRemainingAccountForTransferHook
  | noTransferHookProgram
  | invalidOperator
  | noUnsoldBaseTokens
  | unsoldBaseTokenActionAlreadyPerformed
  | invalidPresaleRegistryIndex
  | multiplePresaleRegistriesNotAllowed
  | invalidDepositCap
  | presaleNotOpenForCollectFee
  | invalidType
  | invalidBuyerCapRange
  | presaleOngoing
  | presaleMinMaxCapGapTooSmall
  deriving DecidableEq, Repr

/-- Failures raised outside the program's own code: Anchor account validation and the SPL token
programs. Only the distinction success/failure and the coarse reason are modelled. -/
inductive XErr where
  /-- instruction data or account data does not deserialise -/
  | deserialize
  /-- a required signature is missing -/
  | missingSignature
  /-- account missing, or owned by the wrong program / wrong discriminator -/
  | accountNotFound
  /-- `init` on an account that already exists -/
  | accountInUse
  /-- `has_one`, `constraint`, `address`, `seeds` or `associated_token` check failed -/
  | constraint
  /-- token program: wrong token program for the account -/
  | incorrectProgram
  /-- token program: the two accounts and the mint do not agree -/
  | mintMismatch
  /-- token program: authority is not the owner of the source account -/
  | ownerMismatch
  /-- token program: frozen account -/
  | frozen
  /-- token program: not enough tokens in the source account -/
  | insufficientFunds
  /-- token program: balance or supply overflow -/
  | tokenOverflow
  /-- token program: native mints cannot be burnt -/
  | nativeNotSupported
  /-- the transfer-hook program rejected the transfer -/
  | hookRejected
  deriving DecidableEq, Repr

/-- Everything an instruction can fail with. `panic` stands for `unreachable!`, failed `unwrap` and
out-of-range indexing. -/
inductive Err where
  | p (e : PErr)
  | x (e : XErr)
  | panic
  deriving DecidableEq, Repr

/-- `require!` (Anchor macro). -/
def require (c : Prop) [Decidable c] (e : Err) : Except Err Unit :=
  if c then .ok () else .error e

/-! ## Machine integers -/

/-- 2^16 -/
@[irreducible] def u16Bound : Nat := 65536
@[irreducible] def u32Bound : Nat := 4294967296
/-- 2^8 -/
@[irreducible] def u8Bound : Nat := 256
/-- 2^64 -/
@[irreducible] def u64Bound : Nat := 18446744073709551616
/-- 2^63: exclusive upper bound of `i64` -/
@[irreducible] def i64Bound : Nat := 9223372036854775808
/-- 2^128 -/
@[irreducible] def u128Bound : Nat := 340282366920938463463374607431768211456

/-- `safe_add` on `u64` (`math/safe_math.rs:18-28`). -/
def add64 (a b : Nat) : Except Err Nat :=
  if a + b < u64Bound then .ok (a + b) else .error (.p .mathOverflow)

/-- `safe_add` on `u128` (`math/safe_math.rs:18-28`). -/
def add128 (a b : Nat) : Except Err Nat :=
  if a + b < u128Bound then .ok (a + b) else .error (.p .mathOverflow)

/-- `safe_sub` on unsigned integers (`math/safe_math.rs:30-40`). -/
def sub (a b : Nat) : Except Err Nat :=
  if b ≤ a then .ok (a - b) else .error (.p .mathOverflow)

/-- `safe_mul` on `u128` (`math/safe_math.rs:42-52`). -/
def mul128 (a b : Nat) : Except Err Nat :=
  if a * b < u128Bound then .ok (a * b) else .error (.p .mathOverflow)

/-- `safe_div` (`math/safe_math.rs:54-64`). -/
def div (a b : Nat) : Except Err Nat :=
  if b = 0 then .error (.p .mathOverflow) else .ok (a / b)

/-- `safe_shl` on `u128` (`math/safe_math.rs:78-88`): `checked_shl` only checks the shift amount;
bits shifted out are lost. -/
def shl128 (a off : Nat) : Except Err Nat :=
  if off < 128 then .ok (a * 2 ^ off % u128Bound) else .error (.p .mathOverflow)

/-- `safe_cast` from `u128` to `u64` (`math/safe_math.rs:119-137`). -/
def cast64 (a : Nat) : Except Err Nat :=
  if a < u64Bound then .ok a else .error (.p .mathOverflow)

/-- `safe_cast` from `i64` to `u64` (`math/safe_math.rs:119-138`), used on `Clock::unix_timestamp`. -/
def castTime (t : Int) : Except Err Nat :=
  if 0 ≤ t then .ok t.toNat else .error (.p .mathOverflow)

/-- `u128::div_ceil` (Rust standard library). -/
def divCeil (a b : Nat) : Nat := if a % b = 0 then a / b else a / b + 1

/-! ## Constants (`constants.rs:1-23`) -/

/-- `constants.rs:2` -/
def MINIMUM_PRESALE_DURATION : Nat := 60
/-- `constants.rs:5` -/
def MAXIMUM_PRESALE_DURATION : Nat := 2592000
/-- `constants.rs:7` -/
def MAXIMUM_DURATION_UNTIL_PRESALE : Nat := 2592000
/-- `constants.rs:9` -/
def MAXIMUM_LOCK_AND_VEST_DURATION : Nat := 315360000
/-- `constants.rs:11` -/
def SCALE_OFFSET : Nat := 64
/-- `constants.rs:13` -/
@[irreducible] def SCALE_MULTIPLIER : Nat := 18446744073709551616
/-- `constants.rs:15` -/
def MAX_PRESALE_REGISTRY_COUNT : Nat := 5
/-- `constants.rs:17` -/
def MAX_DEPOSIT_FEE_BPS : Nat := 5000
/-- `constants.rs:20` -/
def DEFAULT_PERMISSIONLESS_REGISTRY_INDEX : Nat := 0
/-- `spl_token_2022::extension::transfer_fee::MAX_FEE_BASIS_POINTS` (dependency). -/
def MAX_FEE_BASIS_POINTS : Nat := 10000

/-! ## Addresses -/

/-- Token program owning a mint or token account: `spl_token::ID` or `spl_token_2022::ID`. -/
inductive TokenProgram where
  | splToken
  | splToken2022
  deriving DecidableEq, Repr

/-- Account addresses. Program-derived addresses are free constructors over their seeds
(`constants.rs:25-36` and the `seeds = [...]` attributes of the instruction contexts): the model
assumes that different seeds give different addresses. `key n` is any other address: wallets,
mints, ordinary token accounts, PDAs of other programs. -/
inductive Addr where
  | key (n : Nat)
  /-- `[PRESALE_AUTHORITY_PREFIX]`, `const_pda.rs` -/
  | presaleAuthority
  /-- `[PRESALE_PREFIX, base, presale_mint, quote_mint]` -/
  | presale (base baseMint quoteMint : Addr)
  /-- `[BASE_VAULT_PREFIX, presale]` -/
  | baseVault (presale : Addr)
  /-- `[QUOTE_VAULT_PREFIX, presale]` -/
  | quoteVault (presale : Addr)
  /-- `[FIXED_PRICE_PRESALE_PARAM_PREFIX, presale]` -/
  | fixedPriceArgs (presale : Addr)
  /-- `[ESCROW_PREFIX, presale, owner, registry_index]` -/
  | escrow (presale owner : Addr) (registryIndex : Nat)
  /-- `[MERKLE_ROOT_CONFIG_PREFIX, presale, version]` -/
  | merkleRoot (presale : Addr) (version : Nat)
  /-- `[OPERATOR_PREFIX, creator, operator_owner]` -/
  | operator (creator owner : Addr)
  /-- `[PERMISSIONED_SERVER_METADATA_PREFIX, presale]` -/
  | serverMetadata (presale : Addr)
  /-- associated token account of `owner` for `mint` under `program` (ATA program PDA) -/
  | ata (owner mint : Addr) (program : TokenProgram)
  deriving DecidableEq, Repr

/-! ## Finite maps

Accounts that must be summed over are kept in an association list. -/

/-- Association list used as a finite map. -/
abbrev AMap (K V : Type) := List (K × V)

namespace AMap
variable {K V : Type} [DecidableEq K]

/-- Value stored under `k`, if any. -/
def get? : AMap K V → K → Option V
  | [], _ => none
  | (k', v) :: m, k => if k' = k then some v else get? m k

/-- Overwrite the value of `k` in place, or append a new entry. -/
def set : AMap K V → K → V → AMap K V
  | [], k, v => [(k, v)]
  | (k', v') :: m, k, v => if k' = k then (k, v) :: m else (k', v') :: set m k v

/-- Remove the entry of `k`. -/
def erase : AMap K V → K → AMap K V
  | [], _ => []
  | (k', v') :: m, k => if k' = k then m else (k', v') :: erase m k

end AMap

/-- Point update of a function-represented map. -/
def upd {K V : Type} [DecidableEq K] (f : K → V) (k : K) (v : V) : K → V :=
  fun x => if x = k then v else f x

end Verif
