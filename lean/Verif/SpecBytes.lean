import Verif.Model.Data
import Verif.SpecMachine
/-!
# Specification: where each field lies

Accounts and instruction data given by byte offsets, as a client reads them, written from the declarations in `/repo`
without the formats of `Model/Layout.lean` and `Model/Data.lean` (only the names of accounts, instructions and
arguments come from there).
-/

namespace Verif.Spec

/-- Byte `i`, zero beyond the end. -/
def byteAt (d : Bytes) (i : Nat) : UInt8 := d.getD i 0

/-- `n` bytes from offset `o`. -/
def bytesAt (d : Bytes) (o n : Nat) : Bytes := (List.range n).map fun i => byteAt d (o + i)

/-- The number in `n` bytes from offset `o`, least significant byte first. -/
def numAt (d : Bytes) (o n : Nat) : Nat :=
  ((List.range n).map fun i => (byteAt d (o + i)).toNat * 256 ^ i).sum

/-- Whether `n` bytes from offset `o` are all zero. -/
def zeroAt (d : Bytes) (o n : Nat) : Bool := decide (∀ b ∈ bytesAt d o n, b = 0)

/-- The address at offset `o`. -/
def keyAt (K : Keys) (d : Bytes) (o : Nat) : Addr := K.dec (bytesAt d o 32)

/-- `k` items of `s` bytes each from offset `o`. -/
def itemsAt {α : Type} (f : Bytes → Nat → α) (s : Nat) (d : Bytes) (o k : Nat) : List α :=
  (List.range k).map fun i => f d (o + s * i)

/-! ## Accounts -/

/-- A registry (`state/presale_registry.rs:3-26`), 160 bytes. -/
def registryAt (d : Bytes) (o : Nat) : Registry :=
  { presaleSupply := numAt d o 8, totalDeposit := numAt d (o + 8) 8, totalEscrow := numAt d (o + 16) 8,
    totalClaimedToken := numAt d (o + 24) 8, totalRefundedQuoteToken := numAt d (o + 32) 8,
    buyerMinimumDepositCap := numAt d (o + 40) 8, buyerMaximumDepositCap := numAt d (o + 48) 8,
    totalDepositFee := numAt d (o + 56) 8, depositFeeBps := numAt d (o + 64) 2 }

/-- A presale account (`state/presale.rs:80-155`), 1272 bytes with the discriminator. -/
def presaleAt (K : Keys) (d : Bytes) : Presale :=
  { owner := keyAt K d 8, quoteMint := keyAt K d 40, baseMint := keyAt K d 72, baseTokenVault := keyAt K d 104,
    quoteTokenVault := keyAt K d 136, base := keyAt K d 168, presaleMode := numAt d 201 1,
    whitelistMode := numAt d 202 1, presaleMaximumCap := numAt d 208 8, presaleMinimumCap := numAt d 216 8,
    presaleStartTime := numAt d 224 8, presaleEndTime := numAt d 232 8, presaleSupply := numAt d 240 8,
    totalDeposit := numAt d 248 8, totalEscrow := numAt d 256 8, createdAt := numAt d 264 8,
    lockDuration := numAt d 272 8, vestDuration := numAt d 280 8, immediateReleaseTimestamp := numAt d 288 8,
    vestingStartTime := numAt d 304 8, vestingEndTime := numAt d 312 8, totalClaimedToken := numAt d 320 8,
    totalRefundedQuoteToken := numAt d 328 8, totalDepositFee := numAt d 336 8, depositFeeCollected := numAt d 344 1,
    hasCreatorWithdrawn := numAt d 352 1, baseTokenProgramFlag := numAt d 353 1, quoteTokenProgramFlag := numAt d 354 1,
    totalPresaleRegistryCount := numAt d 355 1, unsoldTokenAction := numAt d 356 1,
    isUnsoldTokenActionPerformed := numAt d 357 1, immediateReleaseBps := numAt d 358 2,
    raw0 := numAt d 360 16, raw1 := numAt d 376 16, raw2 := numAt d 392 16,
    registries := itemsAt registryAt 160 d 472 5 }

/-- An escrow account (`state/escrow.rs:3-30`), 200 bytes with the discriminator. -/
def escrowAt (K : Keys) (d : Bytes) : Escrow :=
  { presale := keyAt K d 8, owner := keyAt K d 40, totalDeposit := numAt d 72 8, totalClaimedToken := numAt d 80 8,
    isRemainingQuoteWithdrawn := numAt d 88 1, registryIndex := numAt d 89 1, pendingClaimToken := numAt d 96 8,
    depositMaxCap := numAt d 104 8, createdAt := numAt d 112 8, totalDepositFee := numAt d 120 8,
    lastRefreshedAt := numAt d 128 8 }

/-- Fixed-price parameters (`state/fixed_price_presale_params.rs:3-12`), 168 bytes. -/
def fixedArgsAt (K : Keys) (d : Bytes) : FixedPriceArgs :=
  { disableWithdraw := numAt d 23 1, qPrice := numAt d 24 16, owner := keyAt K d 40, presale := keyAt K d 72 }

/-- A merkle root (`state/merkle_root_config.rs:4-17`), 152 bytes. -/
def merkleRootAt (K : Keys) (d : Bytes) : MerkleRootConfig :=
  { root := bytesAt d 8 32, presale := keyAt K d 48, version := numAt d 80 8 }

/-- An operator (`state/operator.rs:3-9`), 136 bytes. -/
def operatorAt (K : Keys) (d : Bytes) : Operator := { owner := keyAt K d 8, creator := keyAt K d 40 }

/-- Server metadata (`state/permissioned_server_metadata.rs:3-11`): the text begins at byte 172. -/
def metadataAt (K : Keys) (d : Bytes) : ServerMetadata :=
  { presale := keyAt K d 8, serverUrl := bytesAt d 172 (numAt d 168 4) }

/-- The bytes from `o` on hold a text with its length before it. -/
def TextFits (d : Bytes) (o : Nat) : Prop :=
  o + 4 + numAt d o 4 ≤ d.length ∧ Text (bytesAt d (o + 4) (numAt d o 4))

/-- The data is long enough for an account of the kind; the metadata's text is text. -/
def AccountFits (d : Bytes) : Kind → Prop
  | .presale => 1272 ≤ d.length
  | .escrow => 200 ≤ d.length
  | .fixedArgs => 168 ≤ d.length
  | .merkleRoot => 152 ≤ d.length
  | .operator => 136 ≤ d.length
  | .metadata => TextFits d 168

/-- The account that data holds. -/
def accountAt (K : Keys) (d : Bytes) : (k : Kind) → k.Value
  | .presale => presaleAt K d
  | .escrow => escrowAt K d
  | .fixedArgs => fixedArgsAt K d
  | .merkleRoot => merkleRootAt K d
  | .operator => operatorAt K d
  | .metadata => metadataAt K d

/-! ## Instruction data -/

/-- `RemainingAccountsSlice` (`token2022.rs:159-169`), 2 bytes. -/
def sliceAt (d : Bytes) (o : Nat) : RemSlice :=
  { accountsType := if numAt d o 1 = 0 then .transferHookBase else .transferHookQuote, length := numAt d (o + 1) 1 }

/-- A list of slices at `o` is complete and names no unknown account type. -/
def SlicesLie (d : Bytes) (o : Nat) : Prop :=
  o + 4 + 2 * numAt d o 4 ≤ d.length ∧ ∀ i < numAt d o 4, numAt d (o + 4 + 2 * i) 1 ≤ 1

/-- The list of slices at `o`. -/
def slicesAt (d : Bytes) (o : Nat) : List RemSlice := itemsAt sliceAt 2 d (o + 4) (numAt d o 4)

/-- `PresaleRegistryArgs` (`params.rs:79-86`), 58 bytes. -/
def registryArgsAt (d : Bytes) (o : Nat) : RegistryArgs :=
  { buyerMinimumDepositCap := numAt d o 8, buyerMaximumDepositCap := numAt d (o + 8) 8,
    presaleSupply := numAt d (o + 16) 8, depositFeeBps := numAt d (o + 24) 2 }

/-- `InitializePresaleArgs` (`params.rs:43-49`): the presale's parameters at 8, release terms at 74, registries counted
at 156. -/
def initArgsAt (d : Bytes) : InitializePresaleArgs :=
  { presaleParams :=
      { presaleMaximumCap := numAt d 8 8, presaleMinimumCap := numAt d 16 8, presaleStartTime := numAt d 24 8,
        presaleEndTime := numAt d 32 8, whitelistMode := numAt d 40 1, presaleMode := numAt d 41 1,
        unsoldTokenAction := numAt d 42 1, disableEarlierPresaleEndOnceCapReached := numAt d 43 1 }
    lockedVestingParams :=
      { immediatelyReleaseBps := numAt d 74 2, lockDuration := numAt d 76 8, vestDuration := numAt d 84 8,
        immediateReleaseTimestamp := numAt d 92 8, paddingIsZero := zeroAt d 100 24 }
    presaleRegistries := itemsAt registryArgsAt 58 d 160 (numAt d 156 4) }

/-- Where the registries of `initialize_presale` end. -/
def registriesEnd (d : Bytes) : Nat := 160 + 58 * numAt d 156 4

/-- Where the proof of `create_permissioned_escrow_with_merkle_proof` ends. -/
def proofEnd (d : Bytes) : Nat := 12 + 32 * numAt d 8 4

/-- The data holds the arguments of the instruction (`lib.rs:55-184` and the structures named there). -/
def ArgsFit (d : Bytes) : IxName → Prop
  | .initFixedArgs => 121 ≤ d.length
  | .initPresale => registriesEnd d ≤ d.length ∧ SlicesLie d (registriesEnd d)
  | .createMerkle => 48 ≤ d.length
  | .createEscrowCreator => 49 ≤ d.length
  | .createEscrowMerkle => proofEnd d + 41 ≤ d.length
  | .deposit | .withdraw => SlicesLie d 16
  | .claim | .refund | .unsold | .creatorWithdraw | .collectFee => SlicesLie d 8
  | .createMetadata => TextFits d 8
  | .closeFixedArgs | .closeMerkle | .createEscrow | .createOperator | .revokeOperator | .closeEscrow | .refresh
  | .closeMetadata => True

/-- The arguments that data holds. -/
def argsAt (K : Keys) (d : Bytes) : (n : IxName) → n.Args
  | .initFixedArgs => ((keyAt K d 8, numAt d 40 1, numAt d 41 16, ()) : Addr × Nat × Nat × Unit)
  | .initPresale => ((initArgsAt d, slicesAt d (registriesEnd d)) : InitializePresaleArgs × List RemSlice)
  | .createMerkle => ((bytesAt d 8 32, numAt d 40 8) : Bytes × Nat)
  | .createEscrowCreator => ((numAt d 8 1, numAt d 9 8, ()) : Nat × Nat × Unit)
  | .createEscrowMerkle =>
    ((itemsAt (fun d o => bytesAt d o 32) 32 d 12 (numAt d 8 4), numAt d (proofEnd d) 1, numAt d (proofEnd d + 1) 8, ()) :
      List Bytes × Nat × Nat × Unit)
  | .deposit | .withdraw => ((numAt d 8 8, slicesAt d 16) : Nat × List RemSlice)
  | .claim | .refund | .unsold | .creatorWithdraw | .collectFee => (slicesAt d 8 : List RemSlice)
  | .createMetadata => (bytesAt d 12 (numAt d 8 4) : Bytes)
  | .closeFixedArgs | .closeMerkle | .createEscrow | .createOperator | .revokeOperator | .closeEscrow | .refresh
  | .closeMetadata => ()

end Verif.Spec
