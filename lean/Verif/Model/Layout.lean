import Verif.Model.Codec
import Verif.Model.Instructions
/-!
# Accounts as bytes

The zero-copy accounts are `repr(C)` structures read in place (`bytemuck`); their padding fields are
written as zero and never read. `PermissionedServerMetadata` is written with Borsh.
-/

namespace Verif

namespace Codec

/-- One byte. -/
def byte : Codec UInt8 := (raw 1).map (fun b => b.headD 0) (fun b => [b]) (fun _ => True)

/-- `u8`. -/
abbrev u8 : Codec Nat := uint 1
/-- `u16`. -/
abbrev u16 : Codec Nat := uint 2
/-- `u64`. -/
abbrev u64 : Codec Nat := uint 8
/-- `u128`. -/
abbrev u128 : Codec Nat := uint 16

/-- Borsh `String`: a vector of bytes that must be UTF-8. -/
def str : Codec Bytes := (vec byte).guard utf8

end Codec

open Codec (u8 u16 u64 u128)

local infixr:67 " ⊗ " => Codec.pair

/-! ## Records -/

/-- Fields of `Registry` in order, padding included (`state/presale_registry.rs:3-26`). -/
abbrev RegistryWire : Type :=
    Nat × Nat × Nat × Nat × Nat × Nat × Nat × Nat × Nat × Unit × Unit

/-- Layout of `Registry` (`state/presale_registry.rs:3-26`). -/
def registryWire : Codec RegistryWire :=
    u64 ⊗ u64 ⊗ u64 ⊗ u64 ⊗ u64 ⊗ u64 ⊗ u64 ⊗ u64 ⊗ u16 ⊗ (.pad 14) ⊗ (.pad 80)

/-- The account value of a record. -/
def RegistryWire.value : RegistryWire → Registry
  | (x0, x1, x2, x3, x4, x5, x6, x7, x8, _, _) =>
    { presaleSupply := x0, totalDeposit := x1, totalEscrow := x2, totalClaimedToken := x3,
      totalRefundedQuoteToken := x4, buyerMinimumDepositCap := x5, buyerMaximumDepositCap := x6,
      totalDepositFee := x7, depositFeeBps := x8 }

/-- The record of an account value. -/
def Registry.wire (v : Registry) : RegistryWire :=
    (v.presaleSupply, v.totalDeposit, v.totalEscrow, v.totalClaimedToken, v.totalRefundedQuoteToken,
    v.buyerMinimumDepositCap, v.buyerMaximumDepositCap, v.totalDepositFee, v.depositFeeBps, (), ())

/-- `PresaleRegistry`. -/
def registryCodec : Codec Registry :=
  registryWire.map RegistryWire.value Registry.wire (fun v => registryWire.valid v.wire)

/-- Fields of `Presale` in order, padding included (`state/presale.rs:80-155`). -/
abbrev PresaleWire : Type :=
    Addr × Addr × Addr × Addr × Addr × Addr × Unit × Nat × Nat × Unit × Nat × Nat × Nat × Nat × Nat ×
    Nat × Nat × Nat × Nat × Nat × Nat × Unit × Nat × Nat × Nat × Nat × Nat × Nat × Unit × Nat × Nat ×
    Nat × Nat × Nat × Nat × Nat × Nat × Nat × Nat × Unit × List Registry

/-- Layout of `Presale` (`state/presale.rs:80-155`). -/
def presaleWire (K : Keys) : Codec PresaleWire :=
    K.codec ⊗ K.codec ⊗ K.codec ⊗ K.codec ⊗ K.codec ⊗ K.codec ⊗ (.pad 1) ⊗ u8 ⊗ u8 ⊗ (.pad 5) ⊗ u64 ⊗
    u64 ⊗ u64 ⊗ u64 ⊗ u64 ⊗ u64 ⊗ u64 ⊗ u64 ⊗ u64 ⊗ u64 ⊗ u64 ⊗ (.pad 8) ⊗ u64 ⊗ u64 ⊗ u64 ⊗ u64 ⊗ u64
    ⊗ u8 ⊗ (.pad 7) ⊗ u8 ⊗ u8 ⊗ u8 ⊗ u8 ⊗ u8 ⊗ u8 ⊗ u16 ⊗ u128 ⊗ u128 ⊗ u128 ⊗ (.pad 64) ⊗
    .array 5 registryCodec

/-- The account value of a record. -/
def PresaleWire.value : PresaleWire → Presale
  | (x0, x1, x2, x3, x4, x5, _, x7, x8, _, x10, x11, x12, x13, x14, x15, x16, x17, x18, x19, x20, _,
    x22, x23, x24, x25, x26, x27, _, x29, x30, x31, x32, x33, x34, x35, x36, x37, x38, _, x40) =>
    { owner := x0, quoteMint := x1, baseMint := x2, baseTokenVault := x3, quoteTokenVault := x4, base
      := x5, presaleMode := x7, whitelistMode := x8, presaleMaximumCap := x10, presaleMinimumCap := x11,
      presaleStartTime := x12, presaleEndTime := x13, presaleSupply := x14, totalDeposit := x15,
      totalEscrow := x16, createdAt := x17, lockDuration := x18, vestDuration := x19,
      immediateReleaseTimestamp := x20, vestingStartTime := x22, vestingEndTime := x23, totalClaimedToken
      := x24, totalRefundedQuoteToken := x25, totalDepositFee := x26, depositFeeCollected := x27,
      hasCreatorWithdrawn := x29, baseTokenProgramFlag := x30, quoteTokenProgramFlag := x31,
      totalPresaleRegistryCount := x32, unsoldTokenAction := x33, isUnsoldTokenActionPerformed := x34,
      immediateReleaseBps := x35, raw0 := x36, raw1 := x37, raw2 := x38, registries := x40 }

/-- The record of an account value. -/
def Presale.wire (v : Presale) : PresaleWire :=
    (v.owner, v.quoteMint, v.baseMint, v.baseTokenVault, v.quoteTokenVault, v.base, (), v.presaleMode,
    v.whitelistMode, (), v.presaleMaximumCap, v.presaleMinimumCap, v.presaleStartTime,
    v.presaleEndTime, v.presaleSupply, v.totalDeposit, v.totalEscrow, v.createdAt, v.lockDuration,
    v.vestDuration, v.immediateReleaseTimestamp, (), v.vestingStartTime, v.vestingEndTime,
    v.totalClaimedToken, v.totalRefundedQuoteToken, v.totalDepositFee, v.depositFeeCollected, (),
    v.hasCreatorWithdrawn, v.baseTokenProgramFlag, v.quoteTokenProgramFlag,
    v.totalPresaleRegistryCount, v.unsoldTokenAction, v.isUnsoldTokenActionPerformed,
    v.immediateReleaseBps, v.raw0, v.raw1, v.raw2, (), v.registries)

/-- Fields of `Escrow` in order, padding included (`state/escrow.rs:3-30`). -/
abbrev EscrowWire : Type :=
    Addr × Addr × Nat × Nat × Nat × Nat × Unit × Nat × Nat × Nat × Nat × Nat × Unit

/-- Layout of `Escrow` (`state/escrow.rs:3-30`). -/
def escrowWire (K : Keys) : Codec EscrowWire :=
    K.codec ⊗ K.codec ⊗ u64 ⊗ u64 ⊗ u8 ⊗ u8 ⊗ (.pad 6) ⊗ u64 ⊗ u64 ⊗ u64 ⊗ u64 ⊗ u64 ⊗ (.pad 64)

/-- The account value of a record. -/
def EscrowWire.value : EscrowWire → Escrow
  | (x0, x1, x2, x3, x4, x5, _, x7, x8, x9, x10, x11, _) =>
    { presale := x0, owner := x1, totalDeposit := x2, totalClaimedToken := x3,
      isRemainingQuoteWithdrawn := x4, registryIndex := x5, pendingClaimToken := x7, depositMaxCap := x8,
      createdAt := x9, totalDepositFee := x10, lastRefreshedAt := x11 }

/-- The record of an account value. -/
def Escrow.wire (v : Escrow) : EscrowWire :=
    (v.presale, v.owner, v.totalDeposit, v.totalClaimedToken, v.isRemainingQuoteWithdrawn,
    v.registryIndex, (), v.pendingClaimToken, v.depositMaxCap, v.createdAt, v.totalDepositFee,
    v.lastRefreshedAt, ())

/-- Fields of `FixedPriceArgs` in order, padding included (`state/fixed_price_presale_params.rs:3-12`). -/
abbrev FixedPriceArgsWire : Type :=
    Unit × Nat × Nat × Addr × Addr × Unit

/-- Layout of `FixedPriceArgs` (`state/fixed_price_presale_params.rs:3-12`). -/
def fixedPriceArgsWire (K : Keys) : Codec FixedPriceArgsWire :=
    (.pad 15) ⊗ u8 ⊗ u128 ⊗ K.codec ⊗ K.codec ⊗ (.pad 64)

/-- The account value of a record. -/
def FixedPriceArgsWire.value : FixedPriceArgsWire → FixedPriceArgs
  | (_, x1, x2, x3, x4, _) =>
    { disableWithdraw := x1, qPrice := x2, owner := x3, presale := x4 }

/-- The record of an account value. -/
def FixedPriceArgs.wire (v : FixedPriceArgs) : FixedPriceArgsWire :=
    ((), v.disableWithdraw, v.qPrice, v.owner, v.presale, ())

/-- Fields of `MerkleRootConfig` in order, padding included (`state/merkle_root_config.rs:4-17`). -/
abbrev MerkleRootConfigWire : Type :=
    Bytes × Unit × Addr × Nat × Unit

/-- Layout of `MerkleRootConfig` (`state/merkle_root_config.rs:4-17`). -/
def merkleRootConfigWire (K : Keys) : Codec MerkleRootConfigWire :=
    (.raw 32) ⊗ (.pad 8) ⊗ K.codec ⊗ u64 ⊗ (.pad 64)

/-- The account value of a record. -/
def MerkleRootConfigWire.value : MerkleRootConfigWire → MerkleRootConfig
  | (x0, _, x2, x3, _) =>
    { root := x0, presale := x2, version := x3 }

/-- The record of an account value. -/
def MerkleRootConfig.wire (v : MerkleRootConfig) : MerkleRootConfigWire :=
    (v.root, (), v.presale, v.version, ())

/-- Fields of `Operator` in order, padding included (`state/operator.rs:3-9`). -/
abbrev OperatorWire : Type :=
    Addr × Addr × Unit

/-- Layout of `Operator` (`state/operator.rs:3-9`). -/
def operatorWire (K : Keys) : Codec OperatorWire :=
    K.codec ⊗ K.codec ⊗ (.pad 64)

/-- The account value of a record. -/
def OperatorWire.value : OperatorWire → Operator
  | (x0, x1, _) =>
    { owner := x0, creator := x1 }

/-- The record of an account value. -/
def Operator.wire (v : Operator) : OperatorWire :=
    (v.owner, v.creator, ())

/-- Fields of `ServerMetadata` in order, padding included (`state/permissioned_server_metadata.rs:3-11`). -/
abbrev ServerMetadataWire : Type :=
    Addr × Unit × Bytes

/-- Layout of `ServerMetadata` (`state/permissioned_server_metadata.rs:3-11`). -/
def serverMetadataWire (K : Keys) : Codec ServerMetadataWire :=
    K.codec ⊗ (.pad 128) ⊗ .str

/-- The account value of a record. -/
def ServerMetadataWire.value : ServerMetadataWire → ServerMetadata
  | (x0, _, x2) =>
    { presale := x0, serverUrl := x2 }

/-- The record of an account value. -/
def ServerMetadata.wire (v : ServerMetadata) : ServerMetadataWire :=
    (v.presale, (), v.serverUrl)

/-! ## Accounts as they lie in memory -/

/-- `Presale`. -/
def presaleCodec (K : Keys) : Codec Presale :=
  (presaleWire K).map PresaleWire.value Presale.wire (fun v => (presaleWire K).valid v.wire)

/-- `Escrow`. -/
def escrowCodec (K : Keys) : Codec Escrow :=
  (escrowWire K).map EscrowWire.value Escrow.wire (fun v => (escrowWire K).valid v.wire)

/-- `FixedPricePresaleExtraArgs`. -/
def fixedPriceArgsCodec (K : Keys) : Codec FixedPriceArgs :=
  (fixedPriceArgsWire K).map FixedPriceArgsWire.value FixedPriceArgs.wire
    (fun v => (fixedPriceArgsWire K).valid v.wire)

/-- `MerkleRootConfig`. -/
def merkleRootConfigCodec (K : Keys) : Codec MerkleRootConfig :=
  (merkleRootConfigWire K).map MerkleRootConfigWire.value MerkleRootConfig.wire
    (fun v => (merkleRootConfigWire K).valid v.wire)

/-- `Operator`. -/
def operatorCodec (K : Keys) : Codec Operator :=
  (operatorWire K).map OperatorWire.value Operator.wire (fun v => (operatorWire K).valid v.wire)

/-- `PermissionedServerMetadata` (a Borsh account, not zero-copy). -/
def serverMetadataCodec (K : Keys) : Codec ServerMetadata :=
  (serverMetadataWire K).map ServerMetadataWire.value ServerMetadata.wire
    (fun v => (serverMetadataWire K).valid v.wire)

/-- The account types of the program. -/
inductive Kind where
  | presale | escrow | fixedArgs | merkleRoot | operator | metadata
  deriving DecidableEq, Repr

/-- The values an account of each type holds. -/
def Kind.Value : Kind → Type
  | .presale => Presale
  | .escrow => Escrow
  | .fixedArgs => FixedPriceArgs
  | .merkleRoot => MerkleRootConfig
  | .operator => Operator
  | .metadata => ServerMetadata

/-- The format of each account type. -/
def Kind.codec (K : Keys) : (k : Kind) → Codec k.Value
  | .presale => presaleCodec K
  | .escrow => escrowCodec K
  | .fixedArgs => fixedPriceArgsCodec K
  | .merkleRoot => merkleRootConfigCodec K
  | .operator => operatorCodec K
  | .metadata => serverMetadataCodec K

/-- Anchor's account discriminators: eight bytes, different for different types (they are the first
bytes of the SHA-256 of the type's name; the values are in `Model/Selectors.lean`). -/
structure Discs (ι : Type) where
  of : ι → Bytes
  len : ∀ k, (of k).length = 8
  inj : ∀ k k', of k = of k' → k = k'

/-- Account data: discriminator, then the value (`#[account(zero_copy)]`, `#[account]`). -/
def writeAccount (D : Discs Kind) (K : Keys) (k : Kind) (v : k.Value) : Bytes :=
  D.of k ++ (k.codec K).enc v

/-- `AccountLoader::load` and `Account::try_from`: the discriminator must be that of the expected
type; further bytes are ignored. -/
def readAccount (D : Discs Kind) (K : Keys) (k : Kind) (data : Bytes) : Option k.Value :=
  if data.take 8 = D.of k then ((k.codec K).dec (data.drop 8)).map Prod.fst else none

/-! ## `repr(C)` -/

/-- A field's size and alignment. -/
abbrev Shape := Nat × Nat

/-- The next multiple of `a` not below `n`. -/
def alignUp (n a : Nat) : Nat := (n + a - 1) / a * a

/-- Offsets of the fields by the rules of `repr(C)`, and the end of the last. -/
def reprC : List Shape → Nat → List Nat × Nat
  | [], o => ([], o)
  | (size, align) :: fs, o =>
    let o' := alignUp o align
    let r := reprC fs (o' + size)
    (o' :: r.1, r.2)

/-- Offsets when nothing is inserted between the fields. -/
def packed : List Shape → Nat → List Nat × Nat
  | [], o => ([], o)
  | (size, _) :: fs, o =>
    let r := packed fs (o + size)
    (o :: r.1, r.2)

/-- Fields of `PresaleRegistry` (`state/presale_registry.rs:3-26`) when `u128` is aligned to `a`. -/
def registryShape (a : Nat) : List Shape :=
  List.replicate 8 (8, 8) ++ [(2, 2), (14, 1), (80, a)]

/-- Fields of `Presale` (`state/presale.rs:80-155`). -/
def presaleShape (a : Nat) : List Shape :=
  List.replicate 6 (32, 1) ++ [(1, 1), (1, 1), (1, 1), (5, 1)] ++ List.replicate 17 (8, 8) ++
  [(1, 1), (7, 1)] ++ List.replicate 6 (1, 1) ++ [(2, 2), (48, a), (64, a), (5 * 160, a)]

/-- Fields of `Escrow` (`state/escrow.rs:3-30`). -/
def escrowShape : List Shape :=
  [(32, 1), (32, 1), (8, 8), (8, 8), (1, 1), (1, 1), (6, 1)] ++ List.replicate 5 (8, 8) ++ [(64, 8)]

/-- Fields of `FixedPricePresaleExtraArgs` (`state/fixed_price_presale_params.rs:3-12`). -/
def fixedArgsShape (a : Nat) : List Shape :=
  [(15, 1), (1, 1), (16, a), (32, 1), (32, 1), (64, a)]

/-- Fields of `MerkleRootConfig` (`state/merkle_root_config.rs:4-17`). -/
def merkleShape (a : Nat) : List Shape := [(32, 1), (8, 8), (32, 1), (8, 8), (64, a)]

/-- Fields of `Operator` (`state/operator.rs:3-9`). -/
def operatorShape : List Shape := [(32, 1), (32, 1), (64, 8)]

end Verif
