import Verif.SpecBytes
import Verif.SpecSelectors
import Verif.Model.EventData
/-!
# Specification: where the fields of events lie

Offsets within the data of the instruction that carries an event, as an indexer reads them, written from `events.rs`
without the formats of `Model/EventData.lean`.
-/

namespace Verif.Spec

/-- Where the registries of the event of `initialize_presale` end. -/
def eventRegistriesEnd (d : Bytes) : Nat := 84 + 58 * numAt d 80 4

/-- The data holds the fields of the event. -/
def EventFits (d : Bytes) : EventName → Prop
  | .fixedArgsCreate => 64 ≤ d.length
  | .fixedArgsClose | .operatorCreate | .merkleClose => 112 ≤ d.length
  | .presaleCreate => eventRegistriesEnd d + 50 ≤ d.length
  | .escrowCreate => 89 ≤ d.length
  | .merkleCreate => 152 ≤ d.length
  | .deposit => 144 ≤ d.length
  | .withdraw | .claim => 136 ≤ d.length
  | .refund | .refresh => 128 ≤ d.length
  | .unsold => 57 ≤ d.length
  | .escrowClose => 144 ≤ d.length
  | .creatorWithdraw => 89 ≤ d.length
  | .metadataCreate => TextFits d 80
  | .metadataClose => 80 ≤ d.length
  | .collectFee => 88 ≤ d.length

/-- The fields that data holds. -/
def fieldsAt (K : Keys) (d : Bytes) : (n : EventName) → n.Fields
  | .fixedArgsCreate => ((keyAt K d 16, numAt d 48 16) : Addr × Nat)
  | .fixedArgsClose | .operatorCreate | .merkleClose =>
    ((keyAt K d 16, keyAt K d 48, keyAt K d 80) : Addr × Addr × Addr)
  | .presaleCreate =>
    ((keyAt K d 16, keyAt K d 48, itemsAt registryArgsAt 58 d 84 (numAt d 80 4), numAt d (eventRegistriesEnd d) 8,
      numAt d (eventRegistriesEnd d + 8) 8, numAt d (eventRegistriesEnd d + 16) 1, numAt d (eventRegistriesEnd d + 17) 1,
      numAt d (eventRegistriesEnd d + 18) 8, numAt d (eventRegistriesEnd d + 26) 8, numAt d (eventRegistriesEnd d + 34) 8,
      numAt d (eventRegistriesEnd d + 42) 8) :
      Addr × Addr × List RegistryArgs × Nat × Nat × Nat × Nat × Nat × Nat × Nat × Nat)
  | .escrowCreate => ((keyAt K d 16, keyAt K d 48, numAt d 80 1, numAt d 81 8) : Addr × Addr × Nat × Nat)
  | .merkleCreate =>
    ((keyAt K d 16, keyAt K d 48, keyAt K d 80, numAt d 112 8, bytesAt d 120 32) : Addr × Addr × Addr × Nat × Bytes)
  | .deposit =>
    ((keyAt K d 16, keyAt K d 48, numAt d 80 8, numAt d 88 8, numAt d 96 8, keyAt K d 104, numAt d 136 8) :
      Addr × Addr × Nat × Nat × Nat × Addr × Nat)
  | .withdraw | .claim =>
    ((keyAt K d 16, keyAt K d 48, numAt d 80 8, numAt d 88 8, numAt d 96 8, keyAt K d 104) :
      Addr × Addr × Nat × Nat × Nat × Addr)
  | .refund | .refresh =>
    ((keyAt K d 16, keyAt K d 48, keyAt K d 80, numAt d 112 8, numAt d 120 8) : Addr × Addr × Addr × Nat × Nat)
  | .unsold => ((keyAt K d 16, numAt d 48 8, numAt d 56 1) : Addr × Nat × Nat)
  | .escrowClose => ((keyAt K d 16, keyAt K d 48, keyAt K d 80, keyAt K d 112) : Addr × Addr × Addr × Addr)
  | .creatorWithdraw => ((keyAt K d 16, numAt d 48 8, keyAt K d 56, numAt d 88 1) : Addr × Nat × Addr × Nat)
  | .metadataCreate => ((keyAt K d 16, keyAt K d 48, bytesAt d 84 (numAt d 80 4)) : Addr × Addr × Bytes)
  | .metadataClose => ((keyAt K d 16, keyAt K d 48) : Addr × Addr)
  | .collectFee => ((keyAt K d 16, keyAt K d 48, numAt d 80 8) : Addr × Addr × Nat)

/-- The addresses an event mentions. -/
def Mentions : Event → List Addr
  | .fixedPricePresaleArgsCreate p _ => [p]
  | .presaleVaultCreate b q _ _ _ _ _ _ _ _ _ => [b, q]
  | .escrowCreate p o _ _ => [p, o]
  | .merkleRootConfigCreate o c p _ _ => [o, c, p]
  | .deposit p e _ _ _ o _ => [p, e, o]
  | .withdraw p e _ _ _ o => [p, e, o]
  | .claim p e _ _ _ o => [p, e, o]
  | .withdrawRemainingQuote p e o _ _ => [p, e, o]
  | .performUnsoldBaseTokenAction p _ _ => [p]
  | .escrowClose p e o r => [p, e, o, r]
  | .creatorWithdraw p _ c _ => [p, c]
  | .escrowRefresh p e o _ _ => [p, e, o]
  | .operatorCreate c o x => [c, o, x]
  | .permissionedServerMetadataCreate p m _ => [p, m]
  | .permissionedServerMetadataClose p m => [p, m]
  | .creatorCollectFee p o _ => [p, o]
  | .closeMerkleRootConfig p c o => [p, c, o]

end Verif.Spec
