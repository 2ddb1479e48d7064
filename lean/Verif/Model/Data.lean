import Verif.Model.Layout
/-!
# Instruction data as bytes

An instruction is called with eight bytes that select it and its arguments in Borsh (`lib.rs:51-184`; dispatch and
decoding are generated by Anchor). Anchor ignores bytes that follow the arguments. Here the selectors
are any that differ; their byte values are in `Model/Selectors.lean`.
-/

namespace Verif

open Codec (u8 u16 u64 u128)

local infixr:67 " ⊗ " => Codec.pair

/-- The instructions (`lib.rs:55-184`). -/
inductive IxName where
  | initFixedArgs | closeFixedArgs | initPresale | createMerkle | closeMerkle | createEscrow | createEscrowCreator
  | createEscrowMerkle | createOperator | revokeOperator | deposit | withdraw | claim | refund | unsold | closeEscrow
  | creatorWithdraw | refresh | createMetadata | closeMetadata | collectFee
  deriving DecidableEq, Repr

/-- `AccountsType` (`token2022.rs:159-163`): one byte, 0 or 1; Borsh refuses others. -/
def accountsTypeCodec : Codec AccountsType :=
  (u8.guard fun b => decide (b < 2)).map (fun b => if b = 0 then .transferHookBase else .transferHookQuote)
    (fun t => match t with | .transferHookBase => 0 | .transferHookQuote => 1) (fun _ => True)

/-- `RemainingAccountsSlice` (`token2022.rs:165-169`). -/
def sliceCodec : Codec RemSlice :=
  (accountsTypeCodec ⊗ u8).map (fun x => { accountsType := x.1, length := x.2 })
    (fun s => (s.accountsType, s.length)) (fun s => s.length < 256 ^ 1)

/-- `RemainingAccountsInfo` (`token2022.rs:171-174`). -/
def slicesCodec : Codec (List RemSlice) := .vec sliceCodec

/-- `PresaleArgs` (`params.rs:123-136`). -/
def presaleArgsCodec : Codec PresaleArgs :=
  (u64 ⊗ u64 ⊗ u64 ⊗ u64 ⊗ u8 ⊗ u8 ⊗ u8 ⊗ u8 ⊗ (.pad 30)).map
    (fun (x0, x1, x2, x3, x4, x5, x6, x7, _) =>
      { presaleMaximumCap := x0, presaleMinimumCap := x1, presaleStartTime := x2, presaleEndTime := x3,
        whitelistMode := x4, presaleMode := x5, unsoldTokenAction := x6,
        disableEarlierPresaleEndOnceCapReached := x7 })
    (fun a => (a.presaleMaximumCap, a.presaleMinimumCap, a.presaleStartTime, a.presaleEndTime, a.whitelistMode,
      a.presaleMode, a.unsoldTokenAction, a.disableEarlierPresaleEndOnceCapReached, ()))
    (fun a => a.presaleMaximumCap < 256 ^ 8 ∧ a.presaleMinimumCap < 256 ^ 8 ∧ a.presaleStartTime < 256 ^ 8 ∧
      a.presaleEndTime < 256 ^ 8 ∧ a.whitelistMode < 256 ^ 1 ∧ a.presaleMode < 256 ^ 1 ∧
      a.unsoldTokenAction < 256 ^ 1 ∧ a.disableEarlierPresaleEndOnceCapReached < 256 ^ 1)

/-- Padding of which the program observes whether it is zero. -/
def watchedPad (n : Nat) : Codec Bool :=
  (Codec.raw (n + 1)).map (fun b => b.all (· == 0))
    (fun z => if z then List.replicate (n + 1) 0 else 1 :: List.replicate n 0) (fun _ => True)

/-- `LockedVestingArgs` (`params.rs:202-214`). -/
def vestingArgsCodec : Codec LockedVestingArgs :=
  (u16 ⊗ u64 ⊗ u64 ⊗ u64 ⊗ watchedPad 23).map
    (fun (x0, x1, x2, x3, x4) =>
      { immediatelyReleaseBps := x0, lockDuration := x1, vestDuration := x2, immediateReleaseTimestamp := x3,
        paddingIsZero := x4 })
    (fun a => (a.immediatelyReleaseBps, a.lockDuration, a.vestDuration, a.immediateReleaseTimestamp, a.paddingIsZero))
    (fun a => a.immediatelyReleaseBps < 256 ^ 2 ∧ a.lockDuration < 256 ^ 8 ∧ a.vestDuration < 256 ^ 8 ∧
      a.immediateReleaseTimestamp < 256 ^ 8)

/-- `PresaleRegistryArgs` (`params.rs:79-86`). -/
def registryArgsCodec : Codec RegistryArgs :=
  (u64 ⊗ u64 ⊗ u64 ⊗ u16 ⊗ (.pad 32)).map
    (fun (x0, x1, x2, x3, _) =>
      { buyerMinimumDepositCap := x0, buyerMaximumDepositCap := x1, presaleSupply := x2, depositFeeBps := x3 })
    (fun a => (a.buyerMinimumDepositCap, a.buyerMaximumDepositCap, a.presaleSupply, a.depositFeeBps, ()))
    (fun a => a.buyerMinimumDepositCap < 256 ^ 8 ∧ a.buyerMaximumDepositCap < 256 ^ 8 ∧ a.presaleSupply < 256 ^ 8 ∧
      a.depositFeeBps < 256 ^ 2)

/-- `InitializePresaleArgs` (`params.rs:43-49`). -/
def initArgsCodec : Codec InitializePresaleArgs :=
  (presaleArgsCodec ⊗ vestingArgsCodec ⊗ (.pad 32) ⊗ .vec registryArgsCodec).map
    (fun (x0, x1, _, x3) => { presaleParams := x0, lockedVestingParams := x1, presaleRegistries := x3 })
    (fun a => (a.presaleParams, a.lockedVestingParams, (), a.presaleRegistries))
    (fun a => presaleArgsCodec.valid a.presaleParams ∧ vestingArgsCodec.valid a.lockedVestingParams ∧
      (Codec.vec registryArgsCodec).valid a.presaleRegistries)

/-- The arguments of each instruction. -/
def IxName.Args : IxName → Type
  | .initFixedArgs => Addr × Nat × Nat × Unit
  | .initPresale => InitializePresaleArgs × List RemSlice
  | .createMerkle => Bytes × Nat
  | .createEscrowCreator => Nat × Nat × Unit
  | .createEscrowMerkle => List Bytes × Nat × Nat × Unit
  | .deposit | .withdraw => Nat × List RemSlice
  | .claim | .refund | .unsold | .creatorWithdraw | .collectFee => List RemSlice
  | .createMetadata => Bytes
  | .closeFixedArgs | .closeMerkle | .createEscrow | .createOperator | .revokeOperator | .closeEscrow | .refresh
  | .closeMetadata => Unit

/-- Their formats. `InitializeFixedPricePresaleExtraArgs` (`process_initialize_extra_presale_params.rs:27-33`),
`CreateMerkleRootConfigParams` (`process_create_merkle_root_config.rs:3-9`),
`CreatePermissionedEscrowWithCreatorParams` (`process_create_permissioned_escrow_with_creator.rs:8-13`),
`CreatePermissionedEscrowWithMerkleProofParams` (`process_create_permissioned_escrow_with_merkle_proof.rs:14-20`), and
the parameter lists in `lib.rs:55-184`. -/
def IxName.codec (K : Keys) : (n : IxName) → Codec n.Args
  | .initFixedArgs => (K.codec ⊗ u8 ⊗ u128 ⊗ .pad 64 : Codec (Addr × Nat × Nat × Unit))
  | .initPresale => (initArgsCodec ⊗ slicesCodec : Codec (InitializePresaleArgs × List RemSlice))
  | .createMerkle => (.raw 32 ⊗ u64 : Codec (Bytes × Nat))
  | .createEscrowCreator => (u8 ⊗ u64 ⊗ .pad 32 : Codec (Nat × Nat × Unit))
  | .createEscrowMerkle => (.vec (.raw 32) ⊗ u8 ⊗ u64 ⊗ .pad 32 : Codec (List Bytes × Nat × Nat × Unit))
  | .deposit | .withdraw => (u64 ⊗ slicesCodec : Codec (Nat × List RemSlice))
  | .claim | .refund | .unsold | .creatorWithdraw | .collectFee => (slicesCodec : Codec (List RemSlice))
  | .createMetadata => (.str : Codec Bytes)
  | .closeFixedArgs | .closeMerkle | .createEscrow | .createOperator | .revokeOperator | .closeEscrow | .refresh
  | .closeMetadata => (.nothing : Codec Unit)

/-- An instruction with its arguments, without its accounts. -/
abbrev Call := (n : IxName) × n.Args

/-- Which instruction is called and with what arguments. -/
def Ix.call : Ix → Call
  | .initFixedArgs a => ⟨.initFixedArgs, (a.presale, a.disableWithdraw, a.qPrice, ())⟩
  | .closeFixedArgs _ => ⟨.closeFixedArgs, ()⟩
  | .initPresale a => ⟨.initPresale, (a.args, a.slices)⟩
  | .createMerkle a => ⟨.createMerkle, (a.root, a.version)⟩
  | .closeMerkle _ => ⟨.closeMerkle, ()⟩
  | .createEscrow _ => ⟨.createEscrow, ()⟩
  | .createEscrowCreator a => ⟨.createEscrowCreator, (a.registryIndex, a.depositCap, ())⟩
  | .createEscrowMerkle a => ⟨.createEscrowMerkle, (a.proof, a.registryIndex, a.depositCap, ())⟩
  | .createOperator _ => ⟨.createOperator, ()⟩
  | .revokeOperator _ => ⟨.revokeOperator, ()⟩
  | .deposit a => ⟨.deposit, (a.maxAmount, a.slices)⟩
  | .withdraw a => ⟨.withdraw, (a.maxAmount, a.slices)⟩
  | .claim a => ⟨.claim, a.slices⟩
  | .refund a => ⟨.refund, a.slices⟩
  | .unsold a => ⟨.unsold, a.slices⟩
  | .closeEscrow _ => ⟨.closeEscrow, ()⟩
  | .creatorWithdraw a => ⟨.creatorWithdraw, a.slices⟩
  | .refresh _ => ⟨.refresh, ()⟩
  | .createMetadata a => ⟨.createMetadata, a.serverUrl⟩
  | .closeMetadata _ => ⟨.closeMetadata, ()⟩
  | .collectFee a => ⟨.collectFee, a.slices⟩

/-- Instruction data of a call. -/
def encodeCall (D : Discs IxName) (K : Keys) (c : Call) : Bytes := D.of c.1 ++ (c.1.codec K).enc c.2

/-- All instructions, in the order of `lib.rs`. -/
def IxName.all : List IxName :=
  [.initFixedArgs, .closeFixedArgs, .initPresale, .createMerkle, .closeMerkle, .createEscrow, .createEscrowCreator,
    .createEscrowMerkle, .createOperator, .revokeOperator, .deposit, .withdraw, .claim, .refund, .unsold, .closeEscrow,
    .creatorWithdraw, .refresh, .createMetadata, .closeMetadata, .collectFee]

/-- Dispatch: the first eight bytes select the instruction, the rest must hold its arguments. -/
def decodeCall (D : Discs IxName) (K : Keys) (data : Bytes) : Option Call :=
  match IxName.all.find? (fun n => D.of n == data.take 8) with
  | none => none
  | some n => ((n.codec K).dec (data.drop 8)).map fun x => ⟨n, x.1⟩

end Verif
