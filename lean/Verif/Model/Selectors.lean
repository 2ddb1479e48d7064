import Verif.Model.Data
import Verif.Model.Sha256
/-!
# Anchor's discriminators

The eight bytes in front of account data, instruction data and events: the beginning of the SHA-256 of a name space and
the Rust name (`anchor-lang` 0.31.1, not in `/repo`; `idls/transfer_hook_counter.json` shows the rule at work).
-/

namespace Verif

/-- Anchor's discriminator of a name in a name space. -/
def anchorDisc (space name : String) : Bytes := (sha256 (ascii (space ++ ":" ++ name))).take 8

/-- Names of the account types (`state/*.rs`). -/
def Kind.typeName : Kind → String
  | .presale => "Presale"
  | .escrow => "Escrow"
  | .fixedArgs => "FixedPricePresaleExtraArgs"
  | .merkleRoot => "MerkleRootConfig"
  | .operator => "Operator"
  | .metadata => "PermissionedServerMetadata"

/-- Names of the instructions (`lib.rs:55-184`). -/
def IxName.fnName : IxName → String
  | .initFixedArgs => "initialize_fixed_price_presale_args"
  | .closeFixedArgs => "close_fixed_price_presale_args"
  | .initPresale => "initialize_presale"
  | .createMerkle => "create_merkle_root_config"
  | .closeMerkle => "close_merkle_root_config"
  | .createEscrow => "create_permissionless_escrow"
  | .createEscrowCreator => "create_permissioned_escrow_with_creator"
  | .createEscrowMerkle => "create_permissioned_escrow_with_merkle_proof"
  | .createOperator => "create_operator"
  | .revokeOperator => "revoke_operator"
  | .deposit => "deposit"
  | .withdraw => "withdraw"
  | .claim => "claim"
  | .refund => "withdraw_remaining_quote"
  | .unsold => "perform_unsold_base_token_action"
  | .closeEscrow => "close_escrow"
  | .creatorWithdraw => "creator_withdraw"
  | .refresh => "refresh_escrow"
  | .createMetadata => "create_permissioned_server_metadata"
  | .closeMetadata => "close_permissioned_server_metadata"
  | .collectFee => "creator_collect_fee"

/-- The events (`events.rs:3-152`). -/
inductive EventName where
  | fixedArgsCreate | fixedArgsClose | presaleCreate | escrowCreate | merkleCreate | deposit | withdraw | claim | refund
  | unsold | escrowClose | creatorWithdraw | refresh | operatorCreate | metadataCreate | metadataClose | collectFee | merkleClose
  deriving DecidableEq, Repr

/-- Names of the events (`events.rs:3-152`). -/
def EventName.typeName : EventName → String
  | .fixedArgsCreate => "EvtFixedPricePresaleArgsCreate"
  | .fixedArgsClose => "EvtFixedPricePresaleArgsClose"
  | .presaleCreate => "EvtPresaleVaultCreate"
  | .escrowCreate => "EvtEscrowCreate"
  | .merkleCreate => "EvtMerkleRootConfigCreate"
  | .deposit => "EvtDeposit"
  | .withdraw => "EvtWithdraw"
  | .claim => "EvtClaim"
  | .refund => "EvtWithdrawRemainingQuote"
  | .unsold => "EvtPerformUnsoldBaseTokenAction"
  | .escrowClose => "EvtEscrowClose"
  | .creatorWithdraw => "EvtCreatorWithdraw"
  | .refresh => "EvtEscrowRefresh"
  | .operatorCreate => "EvtOperatorCreate"
  | .metadataCreate => "EvtPermissionedServerMetadataCreate"
  | .metadataClose => "EvtPermissionedServerMetadataClose"
  | .collectFee => "EvtCreatorCollectFee"
  | .merkleClose => "EvtCloseMerkleRootConfig"

/-- Discriminators of the account types. -/
def accountDisc (k : Kind) : Bytes := anchorDisc "account" k.typeName

/-- Selectors of the instructions. -/
def ixDisc (n : IxName) : Bytes := anchorDisc "global" n.fnName

/-- Discriminators of the events. -/
def eventDisc (n : EventName) : Bytes := anchorDisc "event" n.typeName

/-- Selector of the instruction that carries events (`EVENT_IX_TAG_LE`): the hash of `anchor:event` reversed. -/
def eventTag : Bytes := (anchorDisc "anchor" "event").reverse

/-- Selector of Anchor's instructions on the interface description (`IDL_IX_TAG_LE`). -/
def idlTag : Bytes := (anchorDisc "anchor" "idl").reverse

end Verif
