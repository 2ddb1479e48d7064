import Verif.Spec
/-!
# What an instruction leaves in the transaction record

The event and the calls into the token programs of every instruction, as a function of the accounts it names and of
the ledger before and after.
-/

namespace Verif.Spec

/-- `gross` is the least amount to send so that `net` arrives. -/
def Sends (m : MintInfo) (net gross : Nat) : Prop :=
  gross - m.transferFee gross = net ∧ ∀ other, other - m.transferFee other = net → gross ≤ other

/-- A payment of `n` out of the vault `src`; what arrives is `n - m.transferFee n`. -/
def paidOut (m : MintInfo) (mint src dst : Addr) (n : Nat) : List Cpi :=
  [.transfer mint src dst .presaleAuthority n (m.transferFee n)]

/-- A payment that is left out if there is nothing to pay. -/
def paidIfAny (m : MintInfo) (mint src dst : Addr) (n : Nat) : List Cpi :=
  if n = 0 then [] else paidOut m mint src dst n

/-- The record of opening an escrow in sale `P`. -/
def OpenRecorded (w' : World) (P owner : Addr) (rc : Receipt) : Prop :=
  ∃ p', w'.presales P = some p' ∧
    rc = { event := some (.escrowCreate P owner p'.whitelistMode p'.totalEscrow), cpis := [] }

/-- The record of creating a sale. -/
def CreateRecorded (w : World) (a : InitPresaleAcc) (w' : World) (rc : Receipt) : Prop :=
  ∃ p' m gross, w'.presales (.presale a.base a.presaleMint a.quoteTokenMint) = some p' ∧
    w.tk.mints a.presaleMint = some m ∧ Sends m p'.presaleSupply gross ∧
    rc = { event := some (.presaleVaultCreate a.presaleMint a.quoteTokenMint a.args.presaleRegistries p'.lockDuration
             p'.vestDuration p'.whitelistMode p'.presaleMode a.args.presaleParams.presaleStartTime p'.presaleEndTime
             p'.presaleMaximumCap p'.presaleMinimumCap),
           cpis := [.transfer a.presaleMint a.payerPresaleToken p'.baseTokenVault a.payer gross (m.transferFee gross)] }

/-- The record of a deposit: the amounts are the changes of the escrow. -/
def DepositRecorded (w : World) (a : DepositAcc) (w' : World) (rc : Receipt) : Prop :=
  ∃ p p' e e' m gross, w.presales a.presale = some p ∧ w'.presales a.presale = some p' ∧
    w.escrows.get? a.escrow = some e ∧ w'.escrows.get? a.escrow = some e' ∧ w.tk.mints p.quoteMint = some m ∧
    Sends m ((e'.totalDeposit - e.totalDeposit) + (e'.totalDepositFee - e.totalDepositFee)) gross ∧
    rc = { event := some (.deposit a.presale a.escrow (e'.totalDeposit - e.totalDeposit) e'.totalDeposit
             p'.totalDeposit a.payer (e'.totalDepositFee - e.totalDepositFee)),
           cpis := [.transfer p.quoteMint a.payerQuoteToken p.quoteTokenVault a.payer gross (m.transferFee gross)] }

/-- The record of a withdrawal: the event reports what arrives. -/
def WithdrawRecorded (w : World) (a : WithdrawAcc) (w' : World) (rc : Receipt) : Prop :=
  ∃ p p' e e' m n, w.presales a.presale = some p ∧ w'.presales a.presale = some p' ∧
    w.escrows.get? a.escrow = some e ∧ w'.escrows.get? a.escrow = some e' ∧ w.tk.mints p.quoteMint = some m ∧
    n = e.totalDeposit - e'.totalDeposit ∧
    rc = { event := some (.withdraw a.presale a.escrow (n - m.transferFee n) e'.totalDeposit p'.totalDeposit a.owner),
           cpis := paidOut m p.quoteMint p.quoteTokenVault a.ownerQuoteToken n }

/-- The record of a claim. -/
def ClaimRecorded (w : World) (a : ClaimAcc) (w' : World) (rc : Receipt) : Prop :=
  ∃ p p' e e' m n, w.presales a.presale = some p ∧ w'.presales a.presale = some p' ∧
    w.escrows.get? a.escrow = some e ∧ w'.escrows.get? a.escrow = some e' ∧ w.tk.mints p.baseMint = some m ∧
    n = e'.totalClaimedToken - e.totalClaimedToken ∧
    rc = { event := some (.claim a.presale a.escrow (n - m.transferFee n) e'.totalClaimedToken p'.totalClaimedToken
             a.owner),
           cpis := paidIfAny m p.baseMint p.baseTokenVault a.ownerBaseToken n }

/-- The record of a refund. -/
def RefundRecorded (w : World) (a : RefundAcc) (w' : World) (rc : Receipt) : Prop :=
  ∃ p p' m n, w.presales a.presale = some p ∧ w'.presales a.presale = some p' ∧ w.tk.mints p.quoteMint = some m ∧
    n = p'.totalRefundedQuoteToken - p.totalRefundedQuoteToken ∧
    rc = { event := some (.withdrawRemainingQuote a.presale a.escrow a.owner (n - m.transferFee n)
             p'.totalRefundedQuoteToken),
           cpis := paidIfAny m p.quoteMint p.quoteTokenVault a.ownerQuoteToken n }

/-- The record of dealing with unsold tokens. -/
def UnsoldRecorded (w : World) (a : UnsoldAcc) (rc : Receipt) : Prop :=
  ∃ p m n, w.presales a.presale = some p ∧ w.tk.mints p.baseMint = some m ∧ n = p.presaleSupply - totalSold p ∧
    rc = if p.unsoldTokenAction = 1 then
        { event := some (.performUnsoldBaseTokenAction a.presale n .burn),
          cpis := [.burn p.baseMint p.baseTokenVault n] }
      else
        { event := some (.performUnsoldBaseTokenAction a.presale n .refund),
          cpis := paidOut m p.baseMint p.baseTokenVault (.ata p.owner p.baseMint a.tokenProgram) n }

/-- The record of the creator's withdrawal. -/
def CreatorRecorded (w : World) (a : CreatorWithdrawAcc) (rc : Receipt) : Prop :=
  ∃ p mint vault n m progress, w.presales a.presale = some p ∧ w.tk.mints mint = some m ∧
    ((Completed p w.clock ∧ progress = .completed ∧ mint = p.quoteMint ∧ vault = p.quoteTokenVault ∧
        n = min p.totalDeposit p.presaleMaximumCap) ∨
     (Failed p w.clock ∧ progress = .failed ∧ mint = p.baseMint ∧ vault = p.baseTokenVault ∧ n = p.presaleSupply)) ∧
    rc = { event := some (.creatorWithdraw a.presale (n - m.transferFee n) a.owner progress),
           cpis := paidOut m mint vault a.ownerToken n }

/-- The record of collecting the fees. -/
def CollectRecorded (w : World) (a : CollectFeeAcc) (rc : Receipt) : Prop :=
  ∃ p m, w.presales a.presale = some p ∧ w.tk.mints p.quoteMint = some m ∧
    rc = { event := some (.creatorCollectFee a.presale a.owner (collectableFee p - m.transferFee (collectableFee p))),
           cpis := paidIfAny m p.quoteMint p.quoteTokenVault a.feeReceivingAccount (collectableFee p) }

/-- The record of an instruction that turns `w` into `w'`. -/
def Recorded (w : World) (i : Ix) (w' : World) (rc : Receipt) : Prop :=
  match i with
  | .initFixedArgs a => rc = { event := some (.fixedPricePresaleArgsCreate a.presale a.qPrice), cpis := [] }
  | .closeFixedArgs _ => rc = { event := none, cpis := [] }
  | .initPresale a => CreateRecorded w a w' rc
  | .createMerkle a => rc =
      { event := some (.merkleRootConfigCreate a.creator (.merkleRoot a.presale a.version) a.presale a.version a.root),
        cpis := [] }
  | .closeMerkle a => rc = { event := some (.closeMerkleRootConfig a.presale a.config a.creator), cpis := [] }
  | .createEscrow a => OpenRecorded w' a.presale a.owner rc
  | .createEscrowCreator a => OpenRecorded w' a.presale a.owner rc
  | .createEscrowMerkle a => OpenRecorded w' a.presale a.owner rc
  | .createOperator a => rc =
      { event := some (.operatorCreate a.creator (.operator a.creator a.operatorOwner) a.operatorOwner), cpis := [] }
  | .revokeOperator _ => rc = { event := none, cpis := [] }
  | .deposit a => DepositRecorded w a w' rc
  | .withdraw a => WithdrawRecorded w a w' rc
  | .claim a => ClaimRecorded w a w' rc
  | .refund a => RefundRecorded w a w' rc
  | .unsold a => UnsoldRecorded w a rc
  | .closeEscrow a => rc = { event := some (.escrowClose a.presale a.escrow a.owner a.rentReceiver), cpis := [] }
  | .creatorWithdraw a => CreatorRecorded w a rc
  | .refresh a => ∃ e', w'.escrows.get? a.escrow = some e' ∧
      rc = { event := some (.escrowRefresh a.presale a.escrow e'.owner w.clock.toNat e'.pendingClaimToken),
             cpis := [] }
  | .createMetadata a => rc =
      { event := some (.permissionedServerMetadataCreate a.presale (.serverMetadata a.presale) a.serverUrl),
        cpis := [] }
  | .closeMetadata a => rc = { event := some (.permissionedServerMetadataClose a.presale a.account), cpis := [] }
  | .collectFee a => CollectRecorded w a rc

end Verif.Spec
