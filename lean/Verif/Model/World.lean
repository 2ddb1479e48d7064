import Verif.Model.Token
import Verif.Model.Merkle
/-!
# The ledger
-/

namespace Verif

/-- Fixed features of the environment: the hash function (`hashv`) and the 32 bytes of an address. -/
structure Env where
  hash : Bytes → Bytes
  keyBytes : Addr → Bytes

/-- The ledger: clock, all accounts owned by the presale program, token accounts, mints. -/
structure World where
  env : Env
  clock : Int
  presales : Addr → Option Presale
  escrows : AMap Addr Escrow
  merkleRoots : Addr → Option MerkleRootConfig
  operators : Addr → Option Operator
  metadata : Addr → Option ServerMetadata
  fixedArgs : Addr → Option FixedPriceArgs
  tk : Tokens

/-- Load an account; a missing account or one of another type is rejected by Anchor. -/
def load {α : Type} (o : Option α) : Except Err α :=
  match o with
  | some a => .ok a
  | none => .error (.x .accountNotFound)

/-- Signatures and token-program acceptance accompanying an instruction. -/
structure Tx where
  /-- addresses that signed the transaction -/
  signers : List Addr
  /-- whether transfer hooks and account-level token extensions let the transfers pass -/
  accept : Bool
  deriving Repr

/-- Only ordinary keys (and PDAs of other programs, which are `Addr.key` too) can sign. -/
def Addr.isKey : Addr → Bool
  | .key _ => true
  | _ => false

/-- `Signer<'info>`. -/
def Tx.signed (tx : Tx) (a : Addr) : Bool := decide (a ∈ tx.signers) && a.isKey

/-- Whether an address is one of the program's vault PDAs. -/
def Addr.isVault : Addr → Bool
  | .baseVault _ => true
  | .quoteVault _ => true
  | _ => false

/-- Events (`events.rs:3-152`). -/
inductive Event where
  | fixedPricePresaleArgsCreate (presale : Addr) (qPrice : Nat)
  | presaleVaultCreate (baseMint quoteMint : Addr) (registries : List RegistryArgs)
      (lockDuration vestDuration whitelistMode presaleMode startTime endTime maxCap minCap : Nat)
  | escrowCreate (presale owner : Addr) (whitelistMode totalEscrowCount : Nat)
  | merkleRootConfigCreate (owner config presale : Addr) (version : Nat) (root : Bytes)
  | deposit (presale escrow : Addr) (depositAmount escrowTotal presaleTotal : Nat) (owner : Addr)
      (depositFee : Nat)
  | withdraw (presale escrow : Addr) (withdrawAmount escrowTotal presaleTotal : Nat) (owner : Addr)
  | claim (presale escrow : Addr) (claimAmount escrowTotal presaleTotal : Nat) (owner : Addr)
  | withdrawRemainingQuote (presale escrow owner : Addr) (amountRefunded presaleTotalRefunded : Nat)
  | performUnsoldBaseTokenAction (presale : Addr) (totalTokenUnsold : Nat) (action : UnsoldTokenAction)
  | escrowClose (presale escrow owner rentReceiver : Addr)
  | creatorWithdraw (presale : Addr) (amount : Nat) (creator : Addr) (progress : PresaleProgress)
  | escrowRefresh (presale escrow owner : Addr) (currentTimestamp pendingClaimToken : Nat)
  | operatorCreate (creator operator operatorOwner : Addr)
  | permissionedServerMetadataCreate (presale metadata : Addr) (serverUrl : Bytes)
  | permissionedServerMetadataClose (presale metadata : Addr)
  | creatorCollectFee (presale owner : Addr) (totalCollectedFee : Nat)
  | closeMerkleRootConfig (presale config owner : Addr)
  deriving DecidableEq, Repr

/-- What an executed instruction leaves in the transaction record: its event and its calls into the
token programs. -/
structure Receipt where
  event : Option Event
  cpis : List Cpi
  deriving DecidableEq, Repr

end Verif
