import Verif.Model.Selectors
import Verif.Model.World
/-!
# Events as bytes

`emit_cpi!` calls the program itself with an instruction whose data is a tag, the event's discriminator and its fields
in Borsh (`anchor-lang` 0.31.1, not in `/repo`). The instruction does nothing but appear in the record.
-/

namespace Verif

open Codec (u8 u64 u128)

local infixr:67 " ⊗ " => Codec.pair

/-- The fields of each event in order (`events.rs:3-152`). -/
def EventName.Fields : EventName → Type
  | .fixedArgsCreate => Addr × Nat
  | .fixedArgsClose | .operatorCreate | .merkleClose => Addr × Addr × Addr
  | .presaleCreate => Addr × Addr × List RegistryArgs × Nat × Nat × Nat × Nat × Nat × Nat × Nat × Nat
  | .escrowCreate => Addr × Addr × Nat × Nat
  | .merkleCreate => Addr × Addr × Addr × Nat × Bytes
  | .deposit => Addr × Addr × Nat × Nat × Nat × Addr × Nat
  | .withdraw | .claim => Addr × Addr × Nat × Nat × Nat × Addr
  | .refund | .refresh => Addr × Addr × Addr × Nat × Nat
  | .unsold => Addr × Nat × Nat
  | .escrowClose => Addr × Addr × Addr × Addr
  | .creatorWithdraw => Addr × Nat × Addr × Nat
  | .metadataCreate => Addr × Addr × Bytes
  | .metadataClose => Addr × Addr
  | .collectFee => Addr × Addr × Nat

/-- Their formats (`events.rs:3-152`). The registries of `EvtPresaleVaultCreate` are those of the arguments; their
padding is whatever the caller sent, and zero here. -/
def EventName.codec (K : Keys) : (n : EventName) → Codec n.Fields
  | .fixedArgsCreate => (K.codec ⊗ u128 : Codec (Addr × Nat))
  | .fixedArgsClose | .operatorCreate | .merkleClose => (K.codec ⊗ K.codec ⊗ K.codec : Codec (Addr × Addr × Addr))
  | .presaleCreate =>
    (K.codec ⊗ K.codec ⊗ .vec registryArgsCodec ⊗ u64 ⊗ u64 ⊗ u8 ⊗ u8 ⊗ u64 ⊗ u64 ⊗ u64 ⊗ u64 :
      Codec (Addr × Addr × List RegistryArgs × Nat × Nat × Nat × Nat × Nat × Nat × Nat × Nat))
  | .escrowCreate => (K.codec ⊗ K.codec ⊗ u8 ⊗ u64 : Codec (Addr × Addr × Nat × Nat))
  | .merkleCreate =>
    (K.codec ⊗ K.codec ⊗ K.codec ⊗ u64 ⊗ .raw 32 : Codec (Addr × Addr × Addr × Nat × Bytes))
  | .deposit =>
    (K.codec ⊗ K.codec ⊗ u64 ⊗ u64 ⊗ u64 ⊗ K.codec ⊗ u64 : Codec (Addr × Addr × Nat × Nat × Nat × Addr × Nat))
  | .withdraw | .claim =>
    (K.codec ⊗ K.codec ⊗ u64 ⊗ u64 ⊗ u64 ⊗ K.codec : Codec (Addr × Addr × Nat × Nat × Nat × Addr))
  | .refund | .refresh => (K.codec ⊗ K.codec ⊗ K.codec ⊗ u64 ⊗ u64 : Codec (Addr × Addr × Addr × Nat × Nat))
  | .unsold => (K.codec ⊗ u64 ⊗ u8 : Codec (Addr × Nat × Nat))
  | .escrowClose => (K.codec ⊗ K.codec ⊗ K.codec ⊗ K.codec : Codec (Addr × Addr × Addr × Addr))
  | .creatorWithdraw => (K.codec ⊗ u64 ⊗ K.codec ⊗ u8 : Codec (Addr × Nat × Addr × Nat))
  | .metadataCreate => (K.codec ⊗ K.codec ⊗ .str : Codec (Addr × Addr × Bytes))
  | .metadataClose => (K.codec ⊗ K.codec : Codec (Addr × Addr))
  | .collectFee => (K.codec ⊗ K.codec ⊗ u64 : Codec (Addr × Addr × Nat))

/-- `UnsoldTokenAction` as a byte (`state/presale.rs:34-54`). -/
def UnsoldTokenAction.byte : UnsoldTokenAction → Nat
  | .refund => 0
  | .burn => 1

/-- `PresaleProgress` as a byte (`state/presale.rs:56-69`). -/
def PresaleProgress.byte : PresaleProgress → Nat
  | .notStarted => 0
  | .ongoing => 1
  | .completed => 2
  | .failed => 3

/-- An event's name and fields. -/
abbrev EventRecord := (n : EventName) × n.Fields

/-- Which event it is and its fields in order. -/
def Event.record : Event → EventRecord
  | .fixedPricePresaleArgsCreate p q => ⟨.fixedArgsCreate, (p, q)⟩
  | .presaleVaultCreate b q r l v w m s e mx mn => ⟨.presaleCreate, (b, q, r, l, v, w, m, s, e, mx, mn)⟩
  | .escrowCreate p o w n => ⟨.escrowCreate, (p, o, w, n)⟩
  | .merkleRootConfigCreate o c p v r => ⟨.merkleCreate, (o, c, p, v, r)⟩
  | .deposit p e d et pt o f => ⟨.deposit, (p, e, d, et, pt, o, f)⟩
  | .withdraw p e d et pt o => ⟨.withdraw, (p, e, d, et, pt, o)⟩
  | .claim p e d et pt o => ⟨.claim, (p, e, d, et, pt, o)⟩
  | .withdrawRemainingQuote p e o a t => ⟨.refund, (p, e, o, a, t)⟩
  | .performUnsoldBaseTokenAction p t a => ⟨.unsold, (p, t, a.byte)⟩
  | .escrowClose p e o r => ⟨.escrowClose, (p, e, o, r)⟩
  | .creatorWithdraw p a c g => ⟨.creatorWithdraw, (p, a, c, g.byte)⟩
  | .escrowRefresh p e o t c => ⟨.refresh, (p, e, o, t, c)⟩
  | .operatorCreate c o x => ⟨.operatorCreate, (c, o, x)⟩
  | .permissionedServerMetadataCreate p m u => ⟨.metadataCreate, (p, m, u)⟩
  | .permissionedServerMetadataClose p m => ⟨.metadataClose, (p, m)⟩
  | .creatorCollectFee p o f => ⟨.collectFee, (p, o, f)⟩
  | .closeMerkleRootConfig p c o => ⟨.merkleClose, (p, c, o)⟩

/-- Data of the instruction that carries an event. -/
def encodeEvent (K : Keys) (e : EventRecord) : Bytes := eventTag ++ (eventDisc e.1 ++ (e.1.codec K).enc e.2)

/-- All events, in the order of `events.rs`. -/
def EventName.all : List EventName :=
  [.fixedArgsCreate, .fixedArgsClose, .presaleCreate, .escrowCreate, .merkleCreate, .deposit, .withdraw, .claim, .refund,
    .unsold, .escrowClose, .creatorWithdraw, .refresh, .operatorCreate, .metadataCreate, .metadataClose, .collectFee,
    .merkleClose]

/-- How a client reads an event back from the record. -/
def decodeEvent (K : Keys) (data : Bytes) : Option EventRecord :=
  if data.take 8 = eventTag then
    match EventName.all.find? (fun n => eventDisc n == (data.drop 8).take 8) with
    | none => none
    | some n => ((n.codec K).dec (data.drop 16)).map fun x => ⟨n, x.1⟩
  else none

end Verif
