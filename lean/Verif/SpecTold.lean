import Verif.SpecEventBytes
/-!
# Specification: the event an observer reconstructs, and the arguments data carries

`SpecEventBytes.lean` says where the fields of an event lie; here each of them gets its meaning, as in `events.rs`:
which field of which event it is, and which byte stands for which action and which progress. Nothing of
`Event.record` or of the bytes of `Model/EventData.lean` is used.
-/

namespace Verif.Spec

/-- What the byte of an action means (`state/presale.rs:46-54`: refund, then burn). -/
def actionOf : Nat → Option UnsoldTokenAction
  | 0 => some .refund
  | 1 => some .burn
  | _ => none

/-- What the byte of a progress means (`state/presale.rs:56-69`: not started, ongoing, completed, failed). -/
def progressOf : Nat → Option PresaleProgress
  | 0 => some .notStarted
  | 1 => some .ongoing
  | 2 => some .completed
  | 3 => some .failed
  | _ => none

/-- The event that an observer reads from data with the discriminator of `n`. `EvtFixedPricePresaleArgsClose` is
declared in `events.rs` but emitted by no instruction. -/
def eventAt (K : Keys) (d : Bytes) : EventName → Option Event
  | .fixedArgsCreate => some (.fixedPricePresaleArgsCreate (presale := keyAt K d 16) (qPrice := numAt d 48 16))
  | .fixedArgsClose => none
  | .presaleCreate =>
    let t := eventRegistriesEnd d
    some (.presaleVaultCreate (baseMint := keyAt K d 16) (quoteMint := keyAt K d 48)
      (registries := itemsAt registryArgsAt 58 d 84 (numAt d 80 4)) (lockDuration := numAt d t 8)
      (vestDuration := numAt d (t + 8) 8) (whitelistMode := numAt d (t + 16) 1) (presaleMode := numAt d (t + 17) 1)
      (startTime := numAt d (t + 18) 8) (endTime := numAt d (t + 26) 8) (maxCap := numAt d (t + 34) 8)
      (minCap := numAt d (t + 42) 8))
  | .escrowCreate =>
    some (.escrowCreate (presale := keyAt K d 16) (owner := keyAt K d 48) (whitelistMode := numAt d 80 1)
      (totalEscrowCount := numAt d 81 8))
  | .merkleCreate =>
    some (.merkleRootConfigCreate (owner := keyAt K d 16) (config := keyAt K d 48) (presale := keyAt K d 80)
      (version := numAt d 112 8) (root := bytesAt d 120 32))
  | .deposit =>
    some (.deposit (presale := keyAt K d 16) (escrow := keyAt K d 48) (depositAmount := numAt d 80 8)
      (escrowTotal := numAt d 88 8) (presaleTotal := numAt d 96 8) (owner := keyAt K d 104) (depositFee := numAt d 136 8))
  | .withdraw =>
    some (.withdraw (presale := keyAt K d 16) (escrow := keyAt K d 48) (withdrawAmount := numAt d 80 8)
      (escrowTotal := numAt d 88 8) (presaleTotal := numAt d 96 8) (owner := keyAt K d 104))
  | .claim =>
    some (.claim (presale := keyAt K d 16) (escrow := keyAt K d 48) (claimAmount := numAt d 80 8)
      (escrowTotal := numAt d 88 8) (presaleTotal := numAt d 96 8) (owner := keyAt K d 104))
  | .refund =>
    some (.withdrawRemainingQuote (presale := keyAt K d 16) (escrow := keyAt K d 48) (owner := keyAt K d 80)
      (amountRefunded := numAt d 112 8) (presaleTotalRefunded := numAt d 120 8))
  | .unsold =>
    (actionOf (numAt d 56 1)).map fun a =>
      .performUnsoldBaseTokenAction (presale := keyAt K d 16) (totalTokenUnsold := numAt d 48 8) (action := a)
  | .escrowClose =>
    some (.escrowClose (presale := keyAt K d 16) (escrow := keyAt K d 48) (owner := keyAt K d 80)
      (rentReceiver := keyAt K d 112))
  | .creatorWithdraw =>
    (progressOf (numAt d 88 1)).map fun g =>
      .creatorWithdraw (presale := keyAt K d 16) (amount := numAt d 48 8) (creator := keyAt K d 56) (progress := g)
  | .refresh =>
    some (.escrowRefresh (presale := keyAt K d 16) (escrow := keyAt K d 48) (owner := keyAt K d 80)
      (currentTimestamp := numAt d 112 8) (pendingClaimToken := numAt d 120 8))
  | .operatorCreate =>
    some (.operatorCreate (creator := keyAt K d 16) (operator := keyAt K d 48) (operatorOwner := keyAt K d 80))
  | .metadataCreate =>
    some (.permissionedServerMetadataCreate (presale := keyAt K d 16) (metadata := keyAt K d 48)
      (serverUrl := bytesAt d 84 (numAt d 80 4)))
  | .metadataClose => some (.permissionedServerMetadataClose (presale := keyAt K d 16) (metadata := keyAt K d 48))
  | .collectFee =>
    some (.creatorCollectFee (presale := keyAt K d 16) (owner := keyAt K d 48) (totalCollectedFee := numAt d 80 8))
  | .merkleClose =>
    some (.closeMerkleRootConfig (presale := keyAt K d 16) (config := keyAt K d 48) (owner := keyAt K d 80))

/-- The data tells an observer of the event `e`: tag, discriminator, and fields. -/
def Tells (K : Keys) (d : Bytes) (e : Event) : Prop :=
  d.take 8 = eventTagBytes ∧ ∃ n, (d.drop 8).take 8 = eventBytes n ∧ EventFits d n ∧ eventAt K d n = some e

/-- The function of `lib.rs:55-184` that an instruction calls. -/
def calledName : Ix → IxName
  | .initFixedArgs _ => .initFixedArgs
  | .closeFixedArgs _ => .closeFixedArgs
  | .initPresale _ => .initPresale
  | .createMerkle _ => .createMerkle
  | .closeMerkle _ => .closeMerkle
  | .createEscrow _ => .createEscrow
  | .createEscrowCreator _ => .createEscrowCreator
  | .createEscrowMerkle _ => .createEscrowMerkle
  | .createOperator _ => .createOperator
  | .revokeOperator _ => .revokeOperator
  | .deposit _ => .deposit
  | .withdraw _ => .withdraw
  | .claim _ => .claim
  | .refund _ => .refund
  | .unsold _ => .unsold
  | .closeEscrow _ => .closeEscrow
  | .creatorWithdraw _ => .creatorWithdraw
  | .refresh _ => .refresh
  | .createMetadata _ => .createMetadata
  | .closeMetadata _ => .closeMetadata
  | .collectFee _ => .collectFee

/-- The data carries the arguments of the instruction, each at its offset. -/
def Carries (K : Keys) (d : Bytes) : Ix → Prop
  | .initFixedArgs a => a.presale = keyAt K d 8 ∧ a.disableWithdraw = numAt d 40 1 ∧ a.qPrice = numAt d 41 16
  | .initPresale a => a.args = initArgsAt d ∧ a.slices = slicesAt d (registriesEnd d)
  | .createMerkle a => a.root = bytesAt d 8 32 ∧ a.version = numAt d 40 8
  | .createEscrowCreator a => a.registryIndex = numAt d 8 1 ∧ a.depositCap = numAt d 9 8
  | .createEscrowMerkle a =>
    a.proof = itemsAt (fun d o => bytesAt d o 32) 32 d 12 (numAt d 8 4) ∧ a.registryIndex = numAt d (proofEnd d) 1 ∧
    a.depositCap = numAt d (proofEnd d + 1) 8
  | .deposit a => a.maxAmount = numAt d 8 8 ∧ a.slices = slicesAt d 16
  | .withdraw a => a.maxAmount = numAt d 8 8 ∧ a.slices = slicesAt d 16
  | .claim a => a.slices = slicesAt d 8
  | .refund a => a.slices = slicesAt d 8
  | .unsold a => a.slices = slicesAt d 8
  | .creatorWithdraw a => a.slices = slicesAt d 8
  | .collectFee a => a.slices = slicesAt d 8
  | .createMetadata a => a.serverUrl = bytesAt d 12 (numAt d 8 4)
  | .closeFixedArgs _ | .closeMerkle _ | .createEscrow _ | .createOperator _ | .revokeOperator _ | .closeEscrow _
  | .refresh _ | .closeMetadata _ => True

end Verif.Spec
