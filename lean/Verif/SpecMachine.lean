import Verif.SpecCreate
/-!
# Reference semantics

For each instruction, a relation between the ledgers before and after it, written with the quantities of
`Spec.lean` and `SpecCreate.lean` only. Nothing here refers to a handler or to a computation of the model: no
checked arithmetic, no parsing loop, no order of checks. Conditions that every reachable ledger meets anyway
(that counters do not overflow, that vaults hold what they pay) do not appear.
-/

namespace Verif.Spec

instance (p : Presale) : Decidable (EarlyEndAllowed p) := by unfold EarlyEndAllowed; infer_instance

/-! ## Payments -/

/-- What is left of the allowance in `t` after `who` moved `amount`. -/
def allowanceLeft (t : TokAcct) (who : Addr) (amount : Nat) : Option (Addr × Nat) :=
  match t.delegate with
  | none => none
  | some (d, n) => if d = who then (if amount = n then none else some (d, n - amount)) else some (d, n)

/-- `amount` of `mint` is charged to `src`, on the authority of `who`; the vault `dst` receives it less the fee of
the mint. -/
def Charged (k : Tokens) (tx : Tx) (who mint src dst : Addr) (prog : TokenProgram) (amount : Nat)
    (k' : Tokens) : Prop :=
  tx.accept = true ∧ ∃ m s d, k.mints mint = some m ∧ m.program = prog ∧
    k.toks src = some s ∧ s.mint = mint ∧ s.frozen = false ∧ amount ≤ s.amount ∧ CanSpend s who amount ∧
    k.toks dst = some d ∧ d.frozen = false ∧ d.amount + (amount - m.transferFee amount) < 2 ^ 64 ∧
    k' = { k with
      toks := upd
        (upd k.toks src (some { s with amount := s.amount - amount, delegate := allowanceLeft s who amount })) dst
        (some { d with amount := d.amount + (amount - m.transferFee amount) }) }

/-- The vault pays `amount` of `mint` to `dst`, which receives it less the fee of the mint. That the vault holds
enough is not a condition. -/
def PaidOut (k : Tokens) (tx : Tx) (mint vault dst : Addr) (prog : TokenProgram) (amount : Nat)
    (k' : Tokens) : Prop :=
  tx.accept = true ∧ ∃ m v d, k.mints mint = some m ∧ m.program = prog ∧
    k.toks vault = some v ∧ v.frozen = false ∧
    k.toks dst = some d ∧ d.mint = mint ∧ d.frozen = false ∧
    ((vault = dst ∧ k' = k) ∨
     (vault ≠ dst ∧ d.amount + (amount - m.transferFee amount) < 2 ^ 64 ∧
      k' = { k with
        toks := upd (upd k.toks vault (some { v with amount := v.amount - amount }))
          dst (some { d with amount := d.amount + (amount - m.transferFee amount) }) }))

/-- `amount` of `mint` in the vault is burnt. -/
def BurntOut (k : Tokens) (mint vault : Addr) (prog : TokenProgram) (amount : Nat) (k' : Tokens) : Prop :=
  ∃ m v, k.mints mint = some m ∧ m.program = prog ∧ m.isNative = false ∧ amount ≤ m.supply ∧
    k.toks vault = some v ∧ v.frozen = false ∧
    k' = { toks := upd k.toks vault (some { v with amount := v.amount - amount }),
           mints := upd k.mints mint (some { m with supply := m.supply - amount }) }

/-- The hook accounts are the ones mint `mint` calls for. -/
def HooksRight (k : Tokens) (kind : AccountsType) (mint : Addr) (passed : List Addr) (slices : List RemSlice) :
    Prop :=
  ∃ m, k.mints mint = some m ∧ HooksExact kind m passed slices

/-- The hook accounts are at least readable: one kind, no more than are passed, at most one non-empty slice. -/
structure HooksReadable (kind : AccountsType) (passed : List Addr) (slices : List RemSlice) : Prop where
  kinds : ∀ s ∈ slices, s.accountsType = kind
  enough : announced slices ≤ passed.length
  count : (slices.filter (fun s => s.length ≠ 0)).length ≤ 1

/-! ## Prices -/

structure DoesInitFixedArgs (w : World) (tx : Tx) (a : InitFixedArgsAcc) (w' : World) : Prop where
  signed : tx.signed a.payer = true
  price : 0 < a.qPrice ∧ a.qPrice < 2 ^ 128
  flag : a.disableWithdraw = 0 ∨ a.disableWithdraw = 1
  fresh : w.fixedArgs (.fixedPriceArgs a.presale) = none
  post : w' = { w with
    fixedArgs := upd w.fixedArgs (.fixedPriceArgs a.presale)
      (some { disableWithdraw := a.disableWithdraw, qPrice := a.qPrice, owner := a.owner, presale := a.presale }) }

structure DoesCloseFixedArgs (w : World) (tx : Tx) (a : CloseFixedArgsAcc) (w' : World) (c : FixedPriceArgs) :
    Prop where
  account : w.fixedArgs a.account = some c ∧ c.owner = a.owner
  signed : tx.signed a.owner = true
  post : w' = { w with fixedArgs := upd w.fixedArgs a.account none }

/-! ## Creation -/

/-- The registry slots of a new sale: the requested ones, then unused ones, five in all. -/
def slots (rs : List RegistryArgs) : List Registry :=
  let unused : Registry :=
    { presaleSupply := 0, totalDeposit := 0, totalEscrow := 0, totalClaimedToken := 0, totalRefundedQuoteToken := 0,
      buyerMinimumDepositCap := 0, buyerMaximumDepositCap := 0, totalDepositFee := 0, depositFeeBps := 0 }
  let used (r : RegistryArgs) : Registry :=
    { unused with
      presaleSupply := r.presaleSupply, buyerMinimumDepositCap := r.buyerMinimumDepositCap,
      buyerMaximumDepositCap := r.buyerMaximumDepositCap, depositFeeBps := r.depositFeeBps }
  rs.map used ++ List.replicate (5 - rs.length) unused

/-- A sale without release terms. -/
def Unreleased (l : LockedVestingArgs) : Prop :=
  l.immediatelyReleaseBps = 0 ∧ l.lockDuration = 0 ∧ l.vestDuration = 0 ∧ l.immediateReleaseTimestamp = 0 ∧
    l.paddingIsZero = true

instance (l : LockedVestingArgs) : Decidable (Unreleased l) := by unfold Unreleased; infer_instance

/-- The account of a sale created at time `now` with the price in `c` (if any). -/
def newSale (a : InitPresaleAcc) (c : Option FixedPriceArgs) (now : Nat) : Presale :=
  let key : Addr := .presale a.base a.presaleMint a.quoteTokenMint
  let s := a.args.presaleParams
  let l := a.args.lockedVestingParams
  { owner := a.creator, quoteMint := a.quoteTokenMint, baseMint := a.presaleMint,
    baseTokenVault := .baseVault key, quoteTokenVault := .quoteVault key, base := a.base,
    presaleMode := s.presaleMode, whitelistMode := s.whitelistMode,
    presaleMaximumCap := s.presaleMaximumCap, presaleMinimumCap := s.presaleMinimumCap,
    presaleStartTime := max s.presaleStartTime now, presaleEndTime := s.presaleEndTime,
    presaleSupply := offered a.args, totalDeposit := 0, totalEscrow := 0, createdAt := now,
    lockDuration := l.lockDuration, vestDuration := l.vestDuration,
    immediateReleaseTimestamp := l.immediateReleaseTimestamp,
    vestingStartTime := if Unreleased l then 0 else s.presaleEndTime + l.lockDuration,
    vestingEndTime := if Unreleased l then 0 else s.presaleEndTime + l.lockDuration + l.vestDuration,
    totalClaimedToken := 0, totalRefundedQuoteToken := 0, totalDepositFee := 0,
    depositFeeCollected := 0, hasCreatorWithdrawn := 0,
    baseTokenProgramFlag := if a.baseTokenProgram = .splToken then 0 else 1,
    quoteTokenProgramFlag := if a.quoteTokenProgram = .splToken then 0 else 1,
    totalPresaleRegistryCount := a.args.presaleRegistries.length, unsoldTokenAction := s.unsoldTokenAction,
    isUnsoldTokenActionPerformed := 0, immediateReleaseBps := l.immediatelyReleaseBps,
    raw0 := match c with
      | some x => x.qPrice
      | none => if s.presaleMode = 2 then s.disableEarlierPresaleEndOnceCapReached else 0,
    raw1 := match c with
      | some x => x.disableWithdraw + 256 * s.disableEarlierPresaleEndOnceCapReached
      | none => 0,
    raw2 := 0, registries := slots a.args.presaleRegistries }

/-- A vault holding `n`. -/
def vaultWith (mint : Addr) (n : Nat) : TokAcct :=
  { mint := mint, owner := .presaleAuthority, amount := n, frozen := false, delegate := none }

structure DoesInitPresale (w : World) (tx : Tx) (a : InitPresaleAcc) (w' : World) (c : Option FixedPriceArgs)
    (left : List Addr) (bm qm : MintInfo) (src : TokAcct) (gross : Nat) : Prop where
  creatable : Creatable w tx a (c.map FixedPriceArgs.qPrice) left bm qm src gross
  priced : ∀ x, c = some x → ∃ acc, a.remaining = acc :: left ∧ w.fixedArgs acc = some x
  least : ∀ other, other - bm.transferFee other = offered a.args → gross ≤ other
  post : w' = { w with
    presales := upd w.presales (.presale a.base a.presaleMint a.quoteTokenMint) (some (newSale a c w.clock.toNat)),
    tk := { w.tk with
      toks := upd (upd (upd w.tk.toks
        a.payerPresaleToken (some { src with amount := src.amount - gross, delegate := allowanceLeft src a.payer gross }))
        (.baseVault (.presale a.base a.presaleMint a.quoteTokenMint)) (some (vaultWith a.presaleMint (offered a.args))))
        (.quoteVault (.presale a.base a.presaleMint a.quoteTokenMint)) (some (vaultWith a.quoteTokenMint 0)) } }

/-! ## Whitelists and notices -/

structure DoesCreateMerkle (w : World) (tx : Tx) (a : CreateMerkleAcc) (w' : World) (p : Presale) : Prop where
  presale : w.presales a.presale = some p ∧ p.owner = a.creator
  signed : tx.signed a.creator = true
  fits : a.root.length = 32 ∧ a.version < 2 ^ 64
  fresh : w.merkleRoots (.merkleRoot a.presale a.version) = none
  notOver : ¬ Over p w.clock
  mode : p.whitelistMode = 1
  post : w' = { w with
    merkleRoots := upd w.merkleRoots (.merkleRoot a.presale a.version)
      (some { root := a.root, presale := a.presale, version := a.version }) }

structure DoesCloseMerkle (w : World) (tx : Tx) (a : CloseMerkleAcc) (w' : World) (p : Presale)
    (c : MerkleRootConfig) : Prop where
  presale : w.presales a.presale = some p ∧ p.owner = a.creator
  account : w.merkleRoots a.config = some c ∧ c.presale = a.presale
  receiver : a.rentReceiver ≠ a.config
  signed : tx.signed a.creator = true
  phase : ¬ Ongoing p w.clock
  post : w' = { w with merkleRoots := upd w.merkleRoots a.config none }

structure DoesCreateOperator (w : World) (tx : Tx) (a : CreateOperatorAcc) (w' : World) : Prop where
  signed : tx.signed a.creator = true
  fresh : w.operators (.operator a.creator a.operatorOwner) = none
  post : w' = { w with
    operators := upd w.operators (.operator a.creator a.operatorOwner)
      (some { owner := a.operatorOwner, creator := a.creator }) }

structure DoesRevokeOperator (w : World) (tx : Tx) (a : RevokeOperatorAcc) (w' : World) (o : Operator) : Prop where
  account : w.operators a.operator = some o ∧ o.creator = a.creator
  signed : tx.signed a.creator = true
  post : w' = { w with operators := upd w.operators a.operator none }

/-- The bytes are the UTF-8 encoding of some text. -/
def Text (b : Bytes) : Prop := ∃ chars : List Char, b = chars.flatMap String.utf8EncodeChar

structure DoesCreateMetadata (w : World) (tx : Tx) (a : CreateMetadataAcc) (w' : World) (p : Presale) : Prop where
  presale : w.presales a.presale = some p ∧ p.owner = a.owner
  signed : tx.signed a.owner = true
  text : a.serverUrl.length < 2 ^ 32 ∧ Text a.serverUrl
  fresh : w.metadata (.serverMetadata a.presale) = none
  mode : p.whitelistMode = 1 ∨ p.whitelistMode = 2
  notOver : ¬ Over p w.clock
  post : w' = { w with
    metadata := upd w.metadata (.serverMetadata a.presale)
      (some { presale := a.presale, serverUrl := a.serverUrl }) }

structure DoesCloseMetadata (w : World) (tx : Tx) (a : CloseMetadataAcc) (w' : World) (p : Presale)
    (c : ServerMetadata) : Prop where
  presale : w.presales a.presale = some p ∧ p.owner = a.owner
  account : w.metadata a.account = some c ∧ c.presale = a.presale
  receiver : a.rentReceiver ≠ a.account
  signed : tx.signed a.owner = true
  post : w' = { w with metadata := upd w.metadata a.account none }

/-! ## Escrows -/

/-- An escrow of `owner` in registry `i` of the open sale `key` is opened with deposit cap `cap`. -/
structure Opens (w : World) (key owner : Addr) (i cap : Nat) (w' : World) (p : Presale) (r : Registry) : Prop where
  presale : w.presales key = some p
  registry : p.registries[i]? = some r ∧ i < p.totalPresaleRegistryCount
  ongoing : Ongoing p w.clock
  fresh : w.escrows.get? (.escrow key owner i) = none
  countable : p.totalEscrow + 1 < 2 ^ 64
  post : w' = { w with
    presales := upd w.presales key (some { p with
      registries := p.registries.set i { r with totalEscrow := r.totalEscrow + 1 },
      totalEscrow := p.totalEscrow + 1 }),
    escrows := w.escrows.set (.escrow key owner i)
      { presale := key, owner := owner, totalDeposit := 0, totalClaimedToken := 0, isRemainingQuoteWithdrawn := 0,
        registryIndex := i, pendingClaimToken := 0, depositMaxCap := cap, createdAt := w.clock.toNat,
        totalDepositFee := 0, lastRefreshedAt := w.clock.toNat } }

/-- `cap` is an individual cap the registry allows. -/
def CapAllowed (r : Registry) (cap : Nat) : Prop :=
  0 < cap ∧ r.buyerMinimumDepositCap ≤ cap ∧ cap ≤ r.buyerMaximumDepositCap

/-- Hashing from an entry up to the root along a proof. -/
def climb (H : Bytes → Bytes) (proof : List Bytes) (start : Bytes) : Bytes :=
  proof.foldl (fun h sibling => H (innerString h sibling)) start

structure DoesCreateEscrow (w : World) (tx : Tx) (a : CreateEscrowAcc) (w' : World) (p : Presale) (r : Registry) :
    Prop where
  signed : tx.signed a.payer = true
  mode : ¬ (p.whitelistMode = 1 ∨ p.whitelistMode = 2)
  opens : Opens w a.presale a.owner 0 r.buyerMaximumDepositCap w' p r

structure DoesCreateEscrowCreator (w : World) (tx : Tx) (a : CreateEscrowCreatorAcc) (w' : World) (p : Presale)
    (r : Registry) (o : Operator) : Prop where
  signed : tx.signed a.operatorOwner = true ∧ tx.signed a.payer = true
  mode : p.whitelistMode = 2
  operator : w.operators a.operator = some o ∧ o.owner = a.operatorOwner ∧ o.creator = p.owner
  cap : CapAllowed r a.depositCap
  opens : Opens w a.presale a.owner a.registryIndex a.depositCap w' p r

structure DoesCreateEscrowMerkle (w : World) (tx : Tx) (a : CreateEscrowMerkleAcc) (w' : World) (p : Presale)
    (r : Registry) (c : MerkleRootConfig) : Prop where
  signed : tx.signed a.payer = true
  mode : p.whitelistMode = 1
  root : w.merkleRoots a.config = some c ∧ c.presale = a.presale
  fits : a.proof.length < 2 ^ 32 ∧ ∀ x ∈ a.proof, x.length = 32
  listed : climb w.env.hash a.proof (w.env.hash (0 :: w.env.hash
    (entryString (w.env.keyBytes a.owner) a.registryIndex a.depositCap))) = c.root
  cap : CapAllowed r a.depositCap
  opens : Opens w a.presale a.owner a.registryIndex a.depositCap w' p r

/-! ## Deposits and withdrawals -/

/-- The sale after a deposit of `n` with fee `fee` into registry `i` at time `now`; it ends there if the cap is
reached and the terms say so, and the release schedule moves with the end. -/
def afterDeposit (p : Presale) (i : Nat) (r : Registry) (n fee now : Nat) : Presale :=
  let p1 := { p with
    registries := p.registries.set i
      { r with totalDeposit := r.totalDeposit + n, totalDepositFee := r.totalDepositFee + fee },
    totalDeposit := p.totalDeposit + n, totalDepositFee := p.totalDepositFee + fee }
  if EarlyEndAllowed p ∧ p.presaleMaximumCap ≤ p.totalDeposit + n then
    { p1 with presaleEndTime := now, vestingStartTime := now + p.lockDuration,
              vestingEndTime := now + p.lockDuration + p.vestDuration,
              immediateReleaseTimestamp := now + (p.immediateReleaseTimestamp - p.presaleEndTime) }
  else p1

structure DoesDeposit (w : World) (tx : Tx) (a : DepositAcc) (w' : World) (p : Presale) (e : Escrow) (r : Registry)
    (m : MintInfo) (n fee gross : Nat) (k' : Tokens) : Prop where
  presale : w.presales a.presale = some p
  escrow : w.escrows.get? a.escrow = some e ∧ e.presale = a.presale
  registry : p.registries[e.registryIndex]? = some r
  accounts : a.quoteTokenVault = p.quoteTokenVault ∧ a.quoteMint = p.quoteMint
  signed : tx.signed a.payer = true
  fits : a.maxAmount < 2 ^ 64 ∧ SlicesFit a.slices
  ongoing : Ongoing p w.clock
  priced : Payworthy p r
  taken : 0 < n ∧ DepositTaken p r e a.maxAmount n
  minimum : r.buyerMinimumDepositCap ≤ e.totalDeposit + n
  mint : w.tk.mints p.quoteMint = some m
  charge : Charge m r.depositFeeBps n fee gross
  hooks : HooksExact .transferHookQuote m a.remaining a.slices
  payment : Charged w.tk tx a.payer p.quoteMint a.payerQuoteToken p.quoteTokenVault a.tokenProgram gross k'
  post : w' = { w with
    presales := upd w.presales a.presale (some (afterDeposit p e.registryIndex r n fee w.clock.toNat)),
    escrows := w.escrows.set a.escrow { e with totalDeposit := e.totalDeposit + n,
                                               totalDepositFee := e.totalDepositFee + fee },
    tk := k' }

/-- The principal given back when `asked` is requested. -/
def WithdrawTaken (p : Presale) (e : Escrow) (asked n : Nat) : Prop :=
  if p.presaleMode = 1 ∨ asked = e.totalDeposit then n = asked else LeastCharge p.raw0 asked n

structure DoesWithdraw (w : World) (tx : Tx) (a : WithdrawAcc) (w' : World) (p : Presale) (e : Escrow) (r : Registry)
    (n : Nat) (k' : Tokens) : Prop where
  presale : w.presales a.presale = some p
  escrow : w.escrows.get? a.escrow = some e ∧ e.presale = a.presale ∧ e.owner = a.owner
  registry : p.registries[e.registryIndex]? = some r
  accounts : a.quoteTokenVault = p.quoteTokenVault ∧ a.quoteMint = p.quoteMint
  signed : tx.signed a.owner = true
  fits : SlicesFit a.slices
  ongoing : Ongoing p w.clock
  allowed : WithdrawAllowed p
  asked : a.maxAmount ≤ e.totalDeposit
  taken : 0 < n ∧ WithdrawTaken p e a.maxAmount n
  minimum : n = e.totalDeposit ∨ r.buyerMinimumDepositCap ≤ e.totalDeposit - n
  hooks : HooksRight w.tk .transferHookQuote p.quoteMint a.remaining a.slices
  payment : PaidOut w.tk tx p.quoteMint p.quoteTokenVault a.ownerQuoteToken a.tokenProgram n k'
  post : w' = { w with
    presales := upd w.presales a.presale (some { p with
      registries := p.registries.set e.registryIndex { r with totalDeposit := r.totalDeposit - n },
      totalDeposit := p.totalDeposit - n }),
    escrows := w.escrows.set a.escrow { e with totalDeposit := e.totalDeposit - n },
    tk := k' }

/-! ## After the sale -/

structure DoesClaim (w : World) (tx : Tx) (a : ClaimAcc) (w' : World) (p : Presale) (e : Escrow) (r : Registry)
    (n : Nat) (k' : Tokens) : Prop where
  presale : w.presales a.presale = some p
  escrow : w.escrows.get? a.escrow = some e ∧ e.presale = a.presale ∧ e.owner = a.owner
  registry : p.registries[e.registryIndex]? = some r
  accounts : a.baseTokenVault = p.baseTokenVault ∧ a.baseMint = p.baseMint
  signed : tx.signed a.owner = true
  fits : SlicesFit a.slices
  completed : Completed p w.clock
  account : ∃ d, w.tk.toks a.ownerBaseToken = some d
  due : n = claimableAt p r e w.clock.toNat - e.totalClaimedToken
  nothing : n = 0 → k' = w.tk
  payment : 0 < n → HooksRight w.tk .transferHookBase p.baseMint a.remaining a.slices ∧
    PaidOut w.tk tx p.baseMint p.baseTokenVault a.ownerBaseToken a.tokenProgram n k'
  post : w' = { w with
    presales := upd w.presales a.presale (some { p with
      registries := p.registries.set e.registryIndex { r with totalClaimedToken := r.totalClaimedToken + n },
      totalClaimedToken := p.totalClaimedToken + n }),
    escrows := w.escrows.set a.escrow { e with totalClaimedToken := e.totalClaimedToken + n, pendingClaimToken := 0,
                                               lastRefreshedAt := w.clock.toNat },
    tk := k' }

structure DoesRefresh (w : World) (a : RefreshAcc) (w' : World) (p : Presale) (e : Escrow) (r : Registry)
    (e' : Escrow) : Prop where
  presale : w.presales a.presale = some p
  escrow : w.escrows.get? a.escrow = some e ∧ e.presale = a.presale
  registry : p.registries[e.registryIndex]? = some r
  early : ¬ Completed p w.clock → e' = e
  completed : Completed p w.clock → e' = { e with
    pendingClaimToken := claimableAt p r e w.clock.toNat - e.totalClaimedToken, lastRefreshedAt := w.clock.toNat }
  post : w' = { w with escrows := w.escrows.set a.escrow e' }

structure DoesRefund (w : World) (tx : Tx) (a : RefundAcc) (w' : World) (p : Presale) (e : Escrow) (r : Registry)
    (n : Nat) (k' : Tokens) : Prop where
  presale : w.presales a.presale = some p
  escrow : w.escrows.get? a.escrow = some e ∧ e.presale = a.presale ∧ e.owner = a.owner
  registry : p.registries[e.registryIndex]? = some r
  accounts : a.quoteTokenVault = p.quoteTokenVault ∧ a.quoteMint = p.quoteMint
  signed : tx.signed a.owner = true
  fits : SlicesFit a.slices
  phase : Failed p w.clock ∨ (Completed p w.clock ∧ p.presaleMode = 1)
  first : e.isRemainingQuoteWithdrawn = 0
  account : ∃ d, w.tk.toks a.ownerQuoteToken = some d
  due : n = owedRefund p r e
  readable : HooksReadable .transferHookQuote a.remaining a.slices
  nothing : n = 0 → k' = w.tk
  payment : 0 < n → HooksRight w.tk .transferHookQuote p.quoteMint a.remaining a.slices ∧
    PaidOut w.tk tx p.quoteMint p.quoteTokenVault a.ownerQuoteToken a.tokenProgram n k'
  post : w' = { w with
    presales := upd w.presales a.presale (some { p with
      registries := p.registries.set e.registryIndex
        { r with totalRefundedQuoteToken := r.totalRefundedQuoteToken + n },
      totalRefundedQuoteToken := p.totalRefundedQuoteToken + n }),
    escrows := w.escrows.set a.escrow { e with isRemainingQuoteWithdrawn := 1 },
    tk := k' }

structure DoesCloseEscrow (w : World) (tx : Tx) (a : CloseEscrowAcc) (w' : World) (p : Presale) (e : Escrow)
    (r : Registry) : Prop where
  presale : w.presales a.presale = some p
  escrow : w.escrows.get? a.escrow = some e ∧ e.presale = a.presale ∧ e.owner = a.owner
  registry : p.registries[e.registryIndex]? = some r
  receiver : a.rentReceiver ≠ a.escrow
  signed : tx.signed a.owner = true
  /-- during the sale nothing may have been deposited -/
  empty : ¬ Over p w.clock → e.totalDeposit = 0 ∧ e.totalDepositFee = 0
  /-- after it nothing may be due, now or later -/
  settled : Over p w.clock → refundDue p e = 0
  claimed : Completed p w.clock → claimDue p e = 0
  post : w' = { w with
    presales := upd w.presales a.presale (some { p with
      registries := p.registries.set e.registryIndex { r with totalEscrow := r.totalEscrow - 1 },
      totalEscrow := p.totalEscrow - 1 }),
    escrows := w.escrows.erase a.escrow }

/-! ## The creator -/

/-- What the creator withdraws after the sale: the raise, or the supply if the sale failed. -/
def CreatorGets (p : Presale) (now : Int) (kind : AccountsType) (mint vault : Addr) (n : Nat) : Prop :=
  (Completed p now ∧ kind = .transferHookQuote ∧ mint = p.quoteMint ∧ vault = p.quoteTokenVault ∧ n = raise p) ∨
  (Failed p now ∧ kind = .transferHookBase ∧ mint = p.baseMint ∧ vault = p.baseTokenVault ∧ n = p.presaleSupply)

structure DoesCreatorWithdraw (w : World) (tx : Tx) (a : CreatorWithdrawAcc) (w' : World) (p : Presale)
    (kind : AccountsType) (mint vault : Addr) (n : Nat) (left : List Addr) (k' : Tokens) : Prop where
  presale : w.presales a.presale = some p ∧ p.owner = a.owner
  signed : tx.signed a.owner = true
  fits : SlicesFit a.slices
  gets : CreatorGets p w.clock kind mint vault n
  first : p.hasCreatorWithdrawn = 0
  accounts : a.remaining = vault :: mint :: left
  hooks : HooksRight w.tk kind mint left a.slices
  payment : PaidOut w.tk tx mint vault a.ownerToken a.tokenProgram n k'
  post : w' = { w with presales := upd w.presales a.presale (some { p with hasCreatorWithdrawn := 1 }), tk := k' }

structure DoesCollectFee (w : World) (tx : Tx) (a : CollectFeeAcc) (w' : World) (p : Presale) (k' : Tokens) :
    Prop where
  presale : w.presales a.presale = some p ∧ p.owner = a.owner
  signed : tx.signed a.owner = true
  fits : SlicesFit a.slices
  accounts : a.quoteTokenVault = p.quoteTokenVault ∧ a.quoteMint = p.quoteMint
  account : ∃ d, w.tk.toks a.feeReceivingAccount = some d
  completed : Completed p w.clock
  first : p.depositFeeCollected = 0
  nothing : collectableFee p = 0 → k' = w.tk
  payment : 0 < collectableFee p → HooksRight w.tk .transferHookQuote p.quoteMint a.remaining a.slices ∧
    PaidOut w.tk tx p.quoteMint p.quoteTokenVault a.feeReceivingAccount a.tokenProgram (collectableFee p) k'
  post : w' = { w with presales := upd w.presales a.presale (some { p with depositFeeCollected := 1 }), tk := k' }

structure DoesUnsold (w : World) (tx : Tx) (a : UnsoldAcc) (w' : World) (p : Presale) (d : TokAcct) (k' : Tokens) :
    Prop where
  presale : w.presales a.presale = some p
  fits : SlicesFit a.slices
  accounts : a.baseTokenVault = p.baseTokenVault ∧ a.baseMint = p.baseMint ∧
    a.creatorBaseToken = .ata p.owner p.baseMint a.tokenProgram
  account : w.tk.toks a.creatorBaseToken = some d ∧ d.owner = p.owner ∧ d.mint = p.baseMint
  completed : Completed p w.clock
  first : p.isUnsoldTokenActionPerformed = 0
  left : totalSold p < p.presaleSupply
  burn : p.unsoldTokenAction = 1 →
    BurntOut w.tk p.baseMint p.baseTokenVault a.tokenProgram (p.presaleSupply - totalSold p) k'
  refund : p.unsoldTokenAction ≠ 1 → HooksRight w.tk .transferHookBase p.baseMint a.remaining a.slices ∧
    PaidOut w.tk tx p.baseMint p.baseTokenVault a.creatorBaseToken a.tokenProgram (p.presaleSupply - totalSold p) k'
  post : w' = { w with
    presales := upd w.presales a.presale (some { p with isUnsoldTokenActionPerformed := 1 }), tk := k' }

/-! ## All instructions -/

/-- The instruction `i` in transaction `tx` turns ledger `w` into `w'`. -/
def Does (w : World) (tx : Tx) (i : Ix) (w' : World) : Prop :=
  match i with
  | .initFixedArgs a => DoesInitFixedArgs w tx a w'
  | .closeFixedArgs a => ∃ c, DoesCloseFixedArgs w tx a w' c
  | .initPresale a => ∃ c left bm qm src gross, DoesInitPresale w tx a w' c left bm qm src gross
  | .createMerkle a => ∃ p, DoesCreateMerkle w tx a w' p
  | .closeMerkle a => ∃ p c, DoesCloseMerkle w tx a w' p c
  | .createEscrow a => ∃ p r, DoesCreateEscrow w tx a w' p r
  | .createEscrowCreator a => ∃ p r o, DoesCreateEscrowCreator w tx a w' p r o
  | .createEscrowMerkle a => ∃ p r c, DoesCreateEscrowMerkle w tx a w' p r c
  | .createOperator a => DoesCreateOperator w tx a w'
  | .revokeOperator a => ∃ o, DoesRevokeOperator w tx a w' o
  | .deposit a => ∃ p e r m n fee gross k', DoesDeposit w tx a w' p e r m n fee gross k'
  | .withdraw a => ∃ p e r n k', DoesWithdraw w tx a w' p e r n k'
  | .claim a => ∃ p e r n k', DoesClaim w tx a w' p e r n k'
  | .refund a => ∃ p e r n k', DoesRefund w tx a w' p e r n k'
  | .unsold a => ∃ p d k', DoesUnsold w tx a w' p d k'
  | .closeEscrow a => ∃ p e r, DoesCloseEscrow w tx a w' p e r
  | .creatorWithdraw a => ∃ p kind mint vault n left k', DoesCreatorWithdraw w tx a w' p kind mint vault n left k'
  | .refresh a => ∃ p e r e', DoesRefresh w a w' p e r e'
  | .createMetadata a => ∃ p, DoesCreateMetadata w tx a w' p
  | .closeMetadata a => ∃ p c, DoesCloseMetadata w tx a w' p c
  | .collectFee a => ∃ p k', DoesCollectFee w tx a w' p k'


/-! ## Histories -/

/-- What happens outside the program: time passes, foreign token accounts change, a token account is credited,
frozen or thawed, a mint is created or changed within the rules of its token program. -/
inductive Outside (w : World) : World → Prop
  | time (s : Nat) : Outside w { w with clock := w.clock + s }
  | account (a : Addr) (t : Option TokAcct) (foreign : a.isVault = false) (fits : ∀ x, t = some x → x.amount < 2 ^ 64) :
      Outside w { w with tk := { w.tk with toks := upd w.tk.toks a t } }
  | gift (a : Addr) (t : TokAcct) (n : Nat) (there : w.tk.toks a = some t) (fits : t.amount + n < 2 ^ 64) :
      Outside w { w with tk := { w.tk with toks := upd w.tk.toks a (some { t with amount := t.amount + n }) } }
  | freeze (a : Addr) (t : TokAcct) (b : Bool) (there : w.tk.toks a = some t) :
      Outside w { w with tk := { w.tk with toks := upd w.tk.toks a (some { t with frozen := b }) } }
  | mint (a : Addr) (m : MintInfo) (supply : m.supply < 2 ^ 64)
      (fee : ∀ f, m.fee = some f → f.basisPoints ≤ 10000 ∧ f.maximumFee < 2 ^ 64)
      (kept : ∀ old, w.tk.mints a = some old → Admitted old →
        m.program = old.program ∧ m.isNative = old.isNative ∧ (∀ e ∈ old.exts, e ∈ m.exts) ∧
          ∀ e ∈ m.exts, e ∈ old.exts ∨ e = .tokenMetadata) :
      Outside w { w with tk := { w.tk with mints := upd w.tk.mints a (some m) } }

/-- The ledgers that can arise: from an empty one by events outside the program and by instructions. -/
inductive Arises : World → Prop
  | empty {w : World} (g : Genesis w) : Arises w
  | outside {w w' : World} (h : Arises w) (o : Outside w w') : Arises w'
  | instruction {w w' : World} {tx : Tx} {i : Ix} (h : Arises w) (d : Does w tx i w') : Arises w'

end Verif.Spec
