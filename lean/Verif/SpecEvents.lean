import Verif.Spec
/-!
# What events say

Each event of `events.rs` is read as a statement about the ledger before and after the instruction that
emitted it.
-/

namespace Verif.Spec

/-- `gross` units of `mint` were paid from `src` to `dst`, which received `net` of them, the rest being
withheld by the token program; a payment of nothing may be left out. -/
def Paid (k k' : Tokens) (mint src dst : Addr) (gross net : Nat) : Prop :=
  (gross = 0 ∧ net = 0 ∧ k' = k) ∨
  (Transferred k k' mint src dst gross ∧ ∃ m, k.mints mint = some m ∧ net + m.transferFee gross = gross)

/-- The sale `P` before and after. -/
structure SaleChange (w w' : World) (P : Addr) (p p' : Presale) : Prop where
  before : w.presales P = some p
  after : w'.presales P = some p'

/-- The escrow `E` of sale `P` before and after. -/
structure EscrowChange (w w' : World) (P E : Addr) (e e' : Escrow) : Prop where
  before : w.escrows.get? E = some e
  after : w'.escrows.get? E = some e'
  belongs : e.presale = P ∧ e'.presale = P ∧ e'.owner = e.owner

/-- `EvtDeposit`: `n` was added to the deposits and `fee` to the fees of escrow and sale, the totals are
the new ones, and the quote vault received `n + fee`. The address called `owner` in the event is the one
that paid. -/
def DepositSaid (w : World) (tx : Tx) (w' : World) (P E : Addr) (n eTotal pTotal : Nat) (payer : Addr)
    (fee : Nat) : Prop :=
  ∃ p p' e e' v v', SaleChange w w' P p p' ∧ EscrowChange w w' P E e e' ∧ tx.signed payer = true ∧ 0 < n ∧
    e'.totalDeposit = e.totalDeposit + n ∧ e'.totalDepositFee = e.totalDepositFee + fee ∧
    p'.totalDeposit = p.totalDeposit + n ∧ p'.totalDepositFee = p.totalDepositFee + fee ∧
    eTotal = e'.totalDeposit ∧ pTotal = p'.totalDeposit ∧
    w.tk.toks p.quoteTokenVault = some v ∧ w'.tk.toks p.quoteTokenVault = some v' ∧
    v'.amount = v.amount + n + fee

/-- `EvtWithdraw`: the owner took `gross` out of the deposits, of which `n` arrived. -/
def WithdrawSaid (w : World) (tx : Tx) (w' : World) (P E : Addr) (n eTotal pTotal : Nat) (owner : Addr) : Prop :=
  ∃ p p' e e' dst gross, SaleChange w w' P p p' ∧ EscrowChange w w' P E e e' ∧ e.owner = owner ∧ tx.signed owner = true ∧
    0 < gross ∧ e.totalDeposit = e'.totalDeposit + gross ∧ p.totalDeposit = p'.totalDeposit + gross ∧
    eTotal = e'.totalDeposit ∧ pTotal = p'.totalDeposit ∧
    Paid w.tk w'.tk p.quoteMint p.quoteTokenVault dst gross n

/-- `EvtClaim`: the owner claimed `gross` tokens, of which `n` arrived; nothing is left pending. -/
def ClaimSaid (w : World) (tx : Tx) (w' : World) (P E : Addr) (n eTotal pTotal : Nat) (owner : Addr) : Prop :=
  ∃ p p' e e' dst gross, SaleChange w w' P p p' ∧ EscrowChange w w' P E e e' ∧ e.owner = owner ∧ tx.signed owner = true ∧
    e'.totalClaimedToken = e.totalClaimedToken + gross ∧ p'.totalClaimedToken = p.totalClaimedToken + gross ∧
    e'.pendingClaimToken = 0 ∧ eTotal = e'.totalClaimedToken ∧ pTotal = p'.totalClaimedToken ∧
    Paid w.tk w'.tk p.baseMint p.baseTokenVault dst gross n

/-- `EvtWithdrawRemainingQuote`: the owner got back `gross`, of which `n` arrived, for the first and only
time. -/
def RefundSaid (w : World) (tx : Tx) (w' : World) (P E owner : Addr) (n pTotal : Nat) : Prop :=
  ∃ p p' e e' dst gross, SaleChange w w' P p p' ∧ EscrowChange w w' P E e e' ∧ e.owner = owner ∧ tx.signed owner = true ∧
    e.isRemainingQuoteWithdrawn = 0 ∧ e'.isRemainingQuoteWithdrawn = 1 ∧
    p'.totalRefundedQuoteToken = p.totalRefundedQuoteToken + gross ∧ pTotal = p'.totalRefundedQuoteToken ∧
    Paid w.tk w'.tk p.quoteMint p.quoteTokenVault dst gross n

/-- `EvtPerformUnsoldBaseTokenAction`: the `n` unsold tokens were burnt, or returned to the creator's
associated token account, for the first and only time. -/
def UnsoldSaid (w w' : World) (P : Addr) (n : Nat) (action : UnsoldTokenAction) : Prop :=
  ∃ p p', SaleChange w w' P p p' ∧ p.isUnsoldTokenActionPerformed = 0 ∧ p'.isUnsoldTokenActionPerformed = 1 ∧
    0 < n ∧ n + totalSold p = p.presaleSupply ∧
    ((action = .burn ∧ p.unsoldTokenAction = 1 ∧ Burnt w.tk w'.tk p.baseMint p.baseTokenVault n) ∨
     (action = .refund ∧ p.unsoldTokenAction ≠ 1 ∧ ∃ prog,
        Transferred w.tk w'.tk p.baseMint p.baseTokenVault (.ata p.owner p.baseMint prog) n))

/-- `EvtCreatorWithdraw`: the creator took, for the first and only time, the raised quote tokens of a
completed sale or the supply of a failed one; `n` arrived. -/
def CreatorSaid (w : World) (tx : Tx) (w' : World) (P : Addr) (n : Nat) (creator : Addr)
    (progress : PresaleProgress) : Prop :=
  ∃ p p' dst, SaleChange w w' P p p' ∧ p.owner = creator ∧ tx.signed creator = true ∧
    p.hasCreatorWithdrawn = 0 ∧ p'.hasCreatorWithdrawn = 1 ∧
    ((progress = .completed ∧ Completed p w.clock ∧
        Paid w.tk w'.tk p.quoteMint p.quoteTokenVault dst (min p.totalDeposit p.presaleMaximumCap) n) ∨
     (progress = .failed ∧ Failed p w.clock ∧
        Paid w.tk w'.tk p.baseMint p.baseTokenVault dst p.presaleSupply n))

/-- `EvtCreatorCollectFee`: the creator took the collectable fees, for the first and only time; `n`
arrived. -/
def CollectSaid (w : World) (tx : Tx) (w' : World) (P owner : Addr) (n : Nat) : Prop :=
  ∃ p p' dst, SaleChange w w' P p p' ∧ p.owner = owner ∧ tx.signed owner = true ∧
    p.depositFeeCollected = 0 ∧ p'.depositFeeCollected = 1 ∧
    Paid w.tk w'.tk p.quoteMint p.quoteTokenVault dst (collectableFee p) n

/-- `EvtPresaleVaultCreate`: a sale with these terms was created. The start time in the event is the one
asked for; the sale starts no earlier than now. -/
def CreateSaid (w w' : World) (baseMint quoteMint : Addr) (registries : List RegistryArgs)
    (lock vest whitelistMode mode start stop maxCap minCap : Nat) : Prop :=
  ∃ P p, w.presales P = none ∧ w'.presales P = some p ∧ p.baseMint = baseMint ∧ p.quoteMint = quoteMint ∧
    p.totalPresaleRegistryCount = registries.length ∧
    (∀ (i : Nat) (x : RegistryArgs), registries[i]? = some x → ∃ r : Registry, p.registries[i]? = some r ∧
      r.presaleSupply = x.presaleSupply ∧ r.buyerMinimumDepositCap = x.buyerMinimumDepositCap ∧
      r.buyerMaximumDepositCap = x.buyerMaximumDepositCap ∧ r.depositFeeBps = x.depositFeeBps) ∧
    p.lockDuration = lock ∧ p.vestDuration = vest ∧ p.whitelistMode = whitelistMode ∧ p.presaleMode = mode ∧
    p.presaleStartTime = max start w.clock.toNat ∧ p.presaleEndTime = stop ∧
    p.presaleMaximumCap = maxCap ∧ p.presaleMinimumCap = minCap ∧ p.totalDeposit = 0

/-- What an event states about the instruction that emitted it. -/
def Says (w : World) (tx : Tx) (w' : World) : Event → Prop
  | .fixedPricePresaleArgsCreate P price =>
    w.fixedArgs (.fixedPriceArgs P) = none ∧
    ∃ x, w'.fixedArgs (.fixedPriceArgs P) = some x ∧ x.presale = P ∧ x.qPrice = price
  | .presaleVaultCreate bm qm rs lock vest wm pm start stop mx mn =>
    CreateSaid w w' bm qm rs lock vest wm pm start stop mx mn
  | .escrowCreate P owner wm count => ∃ p p' i e, SaleChange w w' P p p' ∧ p'.whitelistMode = wm ∧
      p'.totalEscrow = p.totalEscrow + 1 ∧ count = p'.totalEscrow ∧
      w.escrows.get? (.escrow P owner i) = none ∧ w'.escrows.get? (.escrow P owner i) = some e ∧
      e.presale = P ∧ e.owner = owner ∧ e.registryIndex = i ∧ e.totalDeposit = 0
  | .merkleRootConfigCreate owner config P version root => ∃ p, w.presales P = some p ∧ p.owner = owner ∧
      tx.signed owner = true ∧ w.merkleRoots config = none ∧
      w'.merkleRoots config = some { root := root, presale := P, version := version }
  | .deposit P E n eTotal pTotal payer fee => DepositSaid w tx w' P E n eTotal pTotal payer fee
  | .withdraw P E n eTotal pTotal owner => WithdrawSaid w tx w' P E n eTotal pTotal owner
  | .claim P E n eTotal pTotal owner => ClaimSaid w tx w' P E n eTotal pTotal owner
  | .withdrawRemainingQuote P E owner n pTotal => RefundSaid w tx w' P E owner n pTotal
  | .performUnsoldBaseTokenAction P n action => UnsoldSaid w w' P n action
  | .escrowClose P E owner _ => ∃ p p' e, SaleChange w w' P p p' ∧ w.escrows.get? E = some e ∧ e.presale = P ∧
      e.owner = owner ∧ tx.signed owner = true ∧ w'.escrows.get? E = none ∧ p.totalEscrow = p'.totalEscrow + 1
  | .creatorWithdraw P n creator progress => CreatorSaid w tx w' P n creator progress
  | .escrowRefresh P E owner now pending => ∃ e e', EscrowChange w w' P E e e' ∧ e.owner = owner ∧
      e'.pendingClaimToken = pending ∧ e.pendingClaimToken ≤ pending ∧ w.clock = (now : Int)
  | .operatorCreate creator operator operatorOwner => tx.signed creator = true ∧ w.operators operator = none ∧
      w'.operators operator = some { owner := operatorOwner, creator := creator }
  | .permissionedServerMetadataCreate P account url => w.metadata account = none ∧
      w'.metadata account = some { presale := P, serverUrl := url } ∧
      ∃ p, w.presales P = some p ∧ tx.signed p.owner = true
  | .permissionedServerMetadataClose P account => w'.metadata account = none ∧
      (∃ x, w.metadata account = some x ∧ x.presale = P) ∧ ∃ p, w.presales P = some p ∧ tx.signed p.owner = true
  | .creatorCollectFee P owner n => CollectSaid w tx w' P owner n
  | .closeMerkleRootConfig P config owner => w'.merkleRoots config = none ∧
      (∃ c, w.merkleRoots config = some c ∧ c.presale = P) ∧
      ∃ p, w.presales P = some p ∧ p.owner = owner ∧ tx.signed owner = true

/-! ## Reading the log -/

/-- What a reader of the log knows about a sale. -/
structure SaleView where
  deposits : Nat := 0
  fees : Nat := 0
  escrows : Nat := 0
  claimed : Nat := 0
  refunded : Nat := 0
  creatorPaid : Bool := false
  feesPaid : Bool := false
  unsoldDone : Bool := false
  deriving DecidableEq, Repr

/-- Update the view of sale `a` by an event. -/
def SaleView.read (a : Addr) (s : SaleView) : Event → SaleView
  | .escrowCreate P _ _ count => if P = a then { s with escrows := count } else s
  | .escrowClose P _ _ _ => if P = a then { s with escrows := s.escrows - 1 } else s
  | .deposit P _ _ _ total _ fee => if P = a then { s with deposits := total, fees := s.fees + fee } else s
  | .withdraw P _ _ _ total _ => if P = a then { s with deposits := total } else s
  | .claim P _ _ _ total _ => if P = a then { s with claimed := total } else s
  | .withdrawRemainingQuote P _ _ _ total => if P = a then { s with refunded := total } else s
  | .performUnsoldBaseTokenAction P _ _ => if P = a then { s with unsoldDone := true } else s
  | .creatorWithdraw P _ _ _ => if P = a then { s with creatorPaid := true } else s
  | .creatorCollectFee P _ _ => if P = a then { s with feesPaid := true } else s
  | _ => s

/-- What a reader of the log knows about an escrow. -/
structure EscrowView where
  deposits : Nat := 0
  fees : Nat := 0
  claimed : Nat := 0
  pending : Nat := 0
  refundTaken : Bool := false
  deriving DecidableEq, Repr

/-- Update the view of escrow `k` by an event; closing it starts afresh. -/
def EscrowView.read (k : Addr) (s : EscrowView) : Event → EscrowView
  | .escrowClose _ E _ _ => if E = k then {} else s
  | .deposit _ E _ total _ _ fee => if E = k then { s with deposits := total, fees := s.fees + fee } else s
  | .withdraw _ E _ total _ _ => if E = k then { s with deposits := total } else s
  | .claim _ E _ total _ _ => if E = k then { s with claimed := total, pending := 0 } else s
  | .escrowRefresh _ E _ _ pending => if E = k then { s with pending := pending } else s
  | .withdrawRemainingQuote _ E _ _ _ => if E = k then { s with refundTaken := true } else s
  | _ => s

/-- The events of a history, in order. -/
def log (tr : List StepRec) : List Event := tr.filterMap (fun s => s.receipt.event)

end Verif.Spec
