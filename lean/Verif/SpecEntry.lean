import Mathlib.Data.List.Forall2
import Verif.Model.Entry
/-!
# What a client sends

The account list of every instruction as the interface description of the program gives it to clients: address, signer
flag, writable flag. Stated per instruction from the names of its accounts, without the binding code.
-/

namespace Verif.Spec
open Verif

/-- read only -/
def r (a : Addr) : Meta := ⟨a, false, false⟩
/-- writable -/
def wr (a : Addr) : Meta := ⟨a, false, true⟩
/-- signer -/
def s (a : Addr) : Meta := ⟨a, true, false⟩
/-- writable signer -/
def sw (a : Addr) : Meta := ⟨a, true, true⟩

/-- The token program as an account. -/
def programKey (P : ProgIds) : TokenProgram → Addr
  | .splToken => P.token
  | .splToken2022 => P.token2022

/-- Accounts of an instruction before the remaining accounts. -/
def own (P : ProgIds) : Ix → List Meta
  | .initFixedArgs a => [wr (.fixedPriceArgs a.presale), r a.owner, sw a.payer, r P.system]
  | .closeFixedArgs a => [wr a.account, sw a.owner]
  | .initPresale a =>
    [r a.presaleMint, wr a.presaleKey, r .presaleAuthority, r a.quoteTokenMint, wr (.baseVault a.presaleKey),
      wr (.quoteVault a.presaleKey), wr a.payerPresaleToken, r a.creator, s a.base, sw a.payer,
      r (programKey P a.baseTokenProgram), r (programKey P a.quoteTokenProgram), r P.system]
  | .createMerkle a => [r a.presale, wr (.merkleRoot a.presale a.version), sw a.creator, r P.system]
  | .closeMerkle a => [r a.presale, wr a.config, wr a.rentReceiver, s a.creator]
  | .createEscrow a =>
    [wr a.presale, wr (.escrow a.presale a.owner 0), r a.owner, sw a.payer, r P.system]
  | .createEscrowCreator a =>
    [wr a.presale, wr (.escrow a.presale a.owner a.registryIndex), r a.owner, r a.operator, s a.operatorOwner,
      sw a.payer, r P.system]
  | .createEscrowMerkle a =>
    [wr a.presale, wr (.escrow a.presale a.owner a.registryIndex), r a.owner, r a.config, sw a.payer, r P.system]
  | .createOperator a => [wr (.operator a.creator a.operatorOwner), r a.operatorOwner, sw a.creator, r P.system]
  | .revokeOperator a => [wr a.operator, sw a.creator]
  | .deposit a =>
    [wr a.presale, wr a.quoteTokenVault, r a.quoteMint, wr a.escrow, wr a.payerQuoteToken, s a.payer,
      r (programKey P a.tokenProgram)]
  | .withdraw a =>
    [wr a.presale, wr a.quoteTokenVault, r a.quoteMint, r .presaleAuthority, wr a.escrow, wr a.ownerQuoteToken,
      s a.owner, r (programKey P a.tokenProgram), r P.memo]
  | .claim a =>
    [wr a.presale, wr a.baseTokenVault, r a.baseMint, r .presaleAuthority, wr a.escrow, wr a.ownerBaseToken,
      s a.owner, r (programKey P a.tokenProgram), r P.memo]
  | .refund a =>
    [wr a.presale, wr a.quoteTokenVault, r a.quoteMint, r .presaleAuthority, wr a.escrow, wr a.ownerQuoteToken,
      s a.owner, r (programKey P a.tokenProgram), r P.memo]
  | .unsold a =>
    [wr a.presale, wr a.baseTokenVault, wr a.baseMint, r .presaleAuthority, wr a.creatorBaseToken,
      r (programKey P a.tokenProgram), r P.memo]
  | .closeEscrow a => [wr a.presale, wr a.escrow, s a.owner, wr a.rentReceiver]
  | .creatorWithdraw a =>
    [wr a.presale, r .presaleAuthority, wr a.ownerToken, s a.owner, r (programKey P a.tokenProgram), r P.memo]
  | .refresh a => [r a.presale, wr a.escrow]
  | .createMetadata a => [r a.presale, wr (.serverMetadata a.presale), sw a.owner, r P.system]
  | .closeMetadata a => [r a.presale, wr a.account, wr a.rentReceiver, s a.owner]
  | .collectFee a =>
    [wr a.presale, r .presaleAuthority, wr a.quoteTokenVault, r a.quoteMint, wr a.feeReceivingAccount, s a.owner,
      r (programKey P a.tokenProgram), r P.memo]

/-- Accounts after them. Instructions without remaining accounts need none. The creator's withdrawal starts with the
vault, which is written. -/
def extra : Ix → List Meta
  | .initPresale a => a.remaining.map r
  | .deposit a => a.remaining.map r
  | .withdraw a => a.remaining.map r
  | .claim a => a.remaining.map r
  | .refund a => a.remaining.map r
  | .unsold a => a.remaining.map r
  | .collectFee a => a.remaining.map r
  | .creatorWithdraw a => (a.remaining.take 1).map wr ++ (a.remaining.drop 1).map r
  | _ => []

/-- Whether an instruction uses accounts after the declared ones. -/
def usesExtra : Ix → Bool
  | .initPresale _ | .deposit _ | .withdraw _ | .claim _ | .refund _ | .unsold _ | .collectFee _
  | .creatorWithdraw _ => true
  | _ => false

/-- The accounts named by the declaration. -/
def declared (P : ProgIds) (i : Ix) : List Meta := own P i ++ [r P.eventAuthority, r P.self]

/-- The whole account list. -/
def metas (P : ProgIds) (i : Ix) : List Meta := declared P i ++ extra i

/-- An account in a call stands for one in the list: same address, at least its privileges. -/
def Covers (want got : Meta) : Prop :=
  got.key = want.key ∧ (want.signer = true → got.signer = true) ∧ (want.writable = true → got.writable = true)

/-- An account list is good for an instruction: the declared accounts in order, then exactly its remaining accounts
(or anything at all, if it uses none). -/
def GoodFor (P : ProgIds) (i : Ix) (accounts : List Meta) : Prop :=
  ∃ front back, accounts = front ++ back ∧ List.Forall₂ Covers (declared P i) front ∧
    (usesExtra i = true → List.Forall₂ Covers (extra i) back)

/-- Nothing stored under an address differs. -/
structure Untouched (w w' : World) (a : Addr) : Prop where
  presale : w'.presales a = w.presales a
  escrow : w'.escrows.get? a = w.escrows.get? a
  merkle : w'.merkleRoots a = w.merkleRoots a
  operator : w'.operators a = w.operators a
  metadata : w'.metadata a = w.metadata a
  fixedArgs : w'.fixedArgs a = w.fixedArgs a
  token : w'.tk.toks a = w.tk.toks a
  mint : w'.tk.mints a = w.tk.mints a

/-- Two ledgers hold the same under the given addresses, and have the same clock and environment. -/
structure AgreeOn (keys : List Addr) (w w' : World) : Prop where
  env : w'.env = w.env
  clock : w'.clock = w.clock
  same : ∀ a ∈ keys, Untouched w w' a

end Verif.Spec
