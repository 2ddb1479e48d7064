import Verif.SpecMachine
import Mathlib.Logic.Equiv.Defs
/-!
# Other names for the same people

A permutation `s` of the ordinary keys renames everybody: buyers, creators, operators, mints, token accounts, hook
programs. Derived addresses follow, since they are derived from the keys. Amounts, dates and everything else stay.
-/

namespace Verif

/-- An address after renaming. -/
def Addr.ren (s : Equiv.Perm Nat) : Addr → Addr
  | .key n => .key (s n)
  | .presaleAuthority => .presaleAuthority
  | .presale a b c => .presale (a.ren s) (b.ren s) (c.ren s)
  | .baseVault a => .baseVault (a.ren s)
  | .quoteVault a => .quoteVault (a.ren s)
  | .fixedPriceArgs a => .fixedPriceArgs (a.ren s)
  | .escrow a b i => .escrow (a.ren s) (b.ren s) i
  | .merkleRoot a n => .merkleRoot (a.ren s) n
  | .operator a b => .operator (a.ren s) (b.ren s)
  | .serverMetadata a => .serverMetadata (a.ren s)
  | .ata a b program => .ata (a.ren s) (b.ren s) program

/-! ## Accounts -/

def Escrow.ren (s : Equiv.Perm Nat) (x : Escrow) : Escrow :=
  { x with
    presale := x.presale.ren s
    owner := x.owner.ren s }

def Presale.ren (s : Equiv.Perm Nat) (x : Presale) : Presale :=
  { x with
    owner := x.owner.ren s
    quoteMint := x.quoteMint.ren s
    baseMint := x.baseMint.ren s
    baseTokenVault := x.baseTokenVault.ren s
    quoteTokenVault := x.quoteTokenVault.ren s
    base := x.base.ren s }

def MerkleRootConfig.ren (s : Equiv.Perm Nat) (x : MerkleRootConfig) : MerkleRootConfig :=
  { x with
    presale := x.presale.ren s }

def Operator.ren (s : Equiv.Perm Nat) (x : Operator) : Operator :=
  { x with
    owner := x.owner.ren s
    creator := x.creator.ren s }

def ServerMetadata.ren (s : Equiv.Perm Nat) (x : ServerMetadata) : ServerMetadata :=
  { x with
    presale := x.presale.ren s }

def FixedPriceArgs.ren (s : Equiv.Perm Nat) (x : FixedPriceArgs) : FixedPriceArgs :=
  { x with
    owner := x.owner.ren s
    presale := x.presale.ren s }

def TokAcct.ren (s : Equiv.Perm Nat) (x : TokAcct) : TokAcct :=
  { x with
    mint := x.mint.ren s
    owner := x.owner.ren s
    delegate := x.delegate.map fun d => (d.1.ren s, d.2) }

def MintInfo.ren (s : Equiv.Perm Nat) (x : MintInfo) : MintInfo :=
  { x with
    hook := x.hook.map (Addr.ren s) }

/-- A table of accounts after renaming: what was at an address is now at its new name. -/
def renTable {V : Type} (s : Equiv.Perm Nat) (g : V → V) (f : Addr → Option V) : Addr → Option V :=
  fun a => (f (a.ren s.symm)).map g

def Tokens.ren (s : Equiv.Perm Nat) (k : Tokens) : Tokens :=
  { toks := renTable s (TokAcct.ren s) k.toks
    mints := renTable s (MintInfo.ren s) k.mints }

/-- The ledger after renaming. The new name of a key is written with the bytes of the old one, so that whitelists
name the same people. -/
def World.ren (s : Equiv.Perm Nat) (w : World) : World :=
  { env := { hash := w.env.hash, keyBytes := fun a => w.env.keyBytes (a.ren s.symm) }
    clock := w.clock
    presales := renTable s (Presale.ren s) w.presales
    escrows := w.escrows.map fun y => (y.1.ren s, y.2.ren s)
    merkleRoots := renTable s (MerkleRootConfig.ren s) w.merkleRoots
    operators := renTable s (Operator.ren s) w.operators
    metadata := renTable s (ServerMetadata.ren s) w.metadata
    fixedArgs := renTable s (FixedPriceArgs.ren s) w.fixedArgs
    tk := w.tk.ren s }

/-! ## Requests -/

def Tx.ren (s : Equiv.Perm Nat) (x : Tx) : Tx :=
  { x with
    signers := x.signers.map (Addr.ren s) }

def InitFixedArgsAcc.ren (s : Equiv.Perm Nat) (x : InitFixedArgsAcc) : InitFixedArgsAcc :=
  { x with
    owner := x.owner.ren s
    payer := x.payer.ren s
    presale := x.presale.ren s }

def CloseFixedArgsAcc.ren (s : Equiv.Perm Nat) (x : CloseFixedArgsAcc) : CloseFixedArgsAcc :=
  { x with
    account := x.account.ren s
    owner := x.owner.ren s }

def InitPresaleAcc.ren (s : Equiv.Perm Nat) (x : InitPresaleAcc) : InitPresaleAcc :=
  { x with
    presaleMint := x.presaleMint.ren s
    quoteTokenMint := x.quoteTokenMint.ren s
    payerPresaleToken := x.payerPresaleToken.ren s
    creator := x.creator.ren s
    base := x.base.ren s
    payer := x.payer.ren s
    remaining := x.remaining.map (Addr.ren s) }

def CreateMerkleAcc.ren (s : Equiv.Perm Nat) (x : CreateMerkleAcc) : CreateMerkleAcc :=
  { x with
    presale := x.presale.ren s
    creator := x.creator.ren s }

def CloseMerkleAcc.ren (s : Equiv.Perm Nat) (x : CloseMerkleAcc) : CloseMerkleAcc :=
  { x with
    presale := x.presale.ren s
    config := x.config.ren s
    creator := x.creator.ren s
    rentReceiver := x.rentReceiver.ren s }

def CreateOperatorAcc.ren (s : Equiv.Perm Nat) (x : CreateOperatorAcc) : CreateOperatorAcc :=
  { x with
    operatorOwner := x.operatorOwner.ren s
    creator := x.creator.ren s }

def RevokeOperatorAcc.ren (s : Equiv.Perm Nat) (x : RevokeOperatorAcc) : RevokeOperatorAcc :=
  { x with
    operator := x.operator.ren s
    creator := x.creator.ren s }

def CreateMetadataAcc.ren (s : Equiv.Perm Nat) (x : CreateMetadataAcc) : CreateMetadataAcc :=
  { x with
    presale := x.presale.ren s
    owner := x.owner.ren s }

def CloseMetadataAcc.ren (s : Equiv.Perm Nat) (x : CloseMetadataAcc) : CloseMetadataAcc :=
  { x with
    presale := x.presale.ren s
    account := x.account.ren s
    owner := x.owner.ren s
    rentReceiver := x.rentReceiver.ren s }

def CreateEscrowAcc.ren (s : Equiv.Perm Nat) (x : CreateEscrowAcc) : CreateEscrowAcc :=
  { x with
    presale := x.presale.ren s
    owner := x.owner.ren s
    payer := x.payer.ren s }

def CreateEscrowCreatorAcc.ren (s : Equiv.Perm Nat) (x : CreateEscrowCreatorAcc) : CreateEscrowCreatorAcc :=
  { x with
    presale := x.presale.ren s
    owner := x.owner.ren s
    operator := x.operator.ren s
    operatorOwner := x.operatorOwner.ren s
    payer := x.payer.ren s }

def CreateEscrowMerkleAcc.ren (s : Equiv.Perm Nat) (x : CreateEscrowMerkleAcc) : CreateEscrowMerkleAcc :=
  { x with
    presale := x.presale.ren s
    owner := x.owner.ren s
    config := x.config.ren s
    payer := x.payer.ren s }

def DepositAcc.ren (s : Equiv.Perm Nat) (x : DepositAcc) : DepositAcc :=
  { x with
    presale := x.presale.ren s
    quoteTokenVault := x.quoteTokenVault.ren s
    quoteMint := x.quoteMint.ren s
    escrow := x.escrow.ren s
    payerQuoteToken := x.payerQuoteToken.ren s
    payer := x.payer.ren s
    remaining := x.remaining.map (Addr.ren s) }

def WithdrawAcc.ren (s : Equiv.Perm Nat) (x : WithdrawAcc) : WithdrawAcc :=
  { x with
    presale := x.presale.ren s
    quoteTokenVault := x.quoteTokenVault.ren s
    quoteMint := x.quoteMint.ren s
    escrow := x.escrow.ren s
    ownerQuoteToken := x.ownerQuoteToken.ren s
    owner := x.owner.ren s
    remaining := x.remaining.map (Addr.ren s) }

def ClaimAcc.ren (s : Equiv.Perm Nat) (x : ClaimAcc) : ClaimAcc :=
  { x with
    presale := x.presale.ren s
    baseTokenVault := x.baseTokenVault.ren s
    baseMint := x.baseMint.ren s
    escrow := x.escrow.ren s
    ownerBaseToken := x.ownerBaseToken.ren s
    owner := x.owner.ren s
    remaining := x.remaining.map (Addr.ren s) }

def RefreshAcc.ren (s : Equiv.Perm Nat) (x : RefreshAcc) : RefreshAcc :=
  { x with
    presale := x.presale.ren s
    escrow := x.escrow.ren s }

def RefundAcc.ren (s : Equiv.Perm Nat) (x : RefundAcc) : RefundAcc :=
  { x with
    presale := x.presale.ren s
    quoteTokenVault := x.quoteTokenVault.ren s
    quoteMint := x.quoteMint.ren s
    escrow := x.escrow.ren s
    ownerQuoteToken := x.ownerQuoteToken.ren s
    owner := x.owner.ren s
    remaining := x.remaining.map (Addr.ren s) }

def CloseEscrowAcc.ren (s : Equiv.Perm Nat) (x : CloseEscrowAcc) : CloseEscrowAcc :=
  { x with
    presale := x.presale.ren s
    escrow := x.escrow.ren s
    owner := x.owner.ren s
    rentReceiver := x.rentReceiver.ren s }

def CreatorWithdrawAcc.ren (s : Equiv.Perm Nat) (x : CreatorWithdrawAcc) : CreatorWithdrawAcc :=
  { x with
    presale := x.presale.ren s
    ownerToken := x.ownerToken.ren s
    owner := x.owner.ren s
    remaining := x.remaining.map (Addr.ren s) }

def CollectFeeAcc.ren (s : Equiv.Perm Nat) (x : CollectFeeAcc) : CollectFeeAcc :=
  { x with
    presale := x.presale.ren s
    quoteTokenVault := x.quoteTokenVault.ren s
    quoteMint := x.quoteMint.ren s
    feeReceivingAccount := x.feeReceivingAccount.ren s
    owner := x.owner.ren s
    remaining := x.remaining.map (Addr.ren s) }

def UnsoldAcc.ren (s : Equiv.Perm Nat) (x : UnsoldAcc) : UnsoldAcc :=
  { x with
    presale := x.presale.ren s
    baseTokenVault := x.baseTokenVault.ren s
    baseMint := x.baseMint.ren s
    creatorBaseToken := x.creatorBaseToken.ren s
    remaining := x.remaining.map (Addr.ren s) }

def Ix.ren (s : Equiv.Perm Nat) : Ix → Ix
  | .initFixedArgs a => .initFixedArgs (a.ren s)
  | .closeFixedArgs a => .closeFixedArgs (a.ren s)
  | .initPresale a => .initPresale (a.ren s)
  | .createMerkle a => .createMerkle (a.ren s)
  | .closeMerkle a => .closeMerkle (a.ren s)
  | .createEscrow a => .createEscrow (a.ren s)
  | .createEscrowCreator a => .createEscrowCreator (a.ren s)
  | .createEscrowMerkle a => .createEscrowMerkle (a.ren s)
  | .createOperator a => .createOperator (a.ren s)
  | .revokeOperator a => .revokeOperator (a.ren s)
  | .deposit a => .deposit (a.ren s)
  | .withdraw a => .withdraw (a.ren s)
  | .claim a => .claim (a.ren s)
  | .refund a => .refund (a.ren s)
  | .unsold a => .unsold (a.ren s)
  | .closeEscrow a => .closeEscrow (a.ren s)
  | .creatorWithdraw a => .creatorWithdraw (a.ren s)
  | .refresh a => .refresh (a.ren s)
  | .createMetadata a => .createMetadata (a.ren s)
  | .closeMetadata a => .closeMetadata (a.ren s)
  | .collectFee a => .collectFee (a.ren s)

def Op.ren (s : Equiv.Perm Nat) : Op → Op
  | .tick n => .tick n
  | .setTok a t => .setTok (a.ren s) (t.map (TokAcct.ren s))
  | .donate a n => .donate (a.ren s) n
  | .freezeVault a b => .freezeVault (a.ren s) b
  | .setMint a m => .setMint (a.ren s) (m.ren s)
  | .ix tx i => .ix (tx.ren s) (i.ren s)

/-! ## Strangers -/

/-- Under the other names the ledger reads the same, apart from the bytes of the keys: the people renamed by `s` are
interchangeable in it, for instance because it does not mention them. -/
def LooksSame (s : Equiv.Perm Nat) (w : World) : Prop :=
  w.ren s = { w with env := (w.ren s).env }

/-- The only instruction that reads the bytes of a key: entering a sale by a Merkle proof. -/
def Ix.readsBytes : Ix → Bool
  | .createEscrowMerkle _ => true
  | _ => false

def Op.readsBytes : Op → Bool
  | .ix _ i => i.readsBytes
  | _ => false

end Verif
