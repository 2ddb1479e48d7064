import Verif.Model.World
/-!
# Instructions (`lib.rs:51-184`, `instructions/**`)

Each `handle…` function is one instruction: Anchor's account checks of its context struct, then the
handler body. Accounts that Anchor pins to a fixed address (system, memo and event-CPI programs, the
presale authority) are not passed explicitly: any other value is rejected. Accounts created with
`init` at a PDA are computed from their seeds, any other address being rejected. Rent payers only
contribute a required signature; the lamports themselves are added in `Model/Lamports.lean`. Integer arguments outside the range of their Rust type are
rejected, as they have no encoding. Anchor's `close = receiver` rejects a receiver that is the closed account.
-/

namespace Verif

/-- `[u8; 32]` -/
def isHash32 (b : Bytes) : Bool := b.length == 32

/-- Range of `RemainingAccountsInfo.slices : Vec<_>` and `RemainingAccountsSlice.length : u8`. -/
def slicesInRange (ss : List RemSlice) : Bool :=
  decide (ss.length < u32Bound) && ss.all (fun s => decide (s.length < u8Bound))

/-- Range of `proof : Vec<[u8; 32]>`. -/
def proofInRange (proof : List Bytes) : Bool :=
  decide (proof.length < u32Bound) && proof.all isHash32

/-- A continuation byte of UTF-8. -/
def utf8Tail (b : UInt8) : Bool := 0x80 ≤ b && b ≤ 0xBF

/-- The first two bytes of a three-byte UTF-8 sequence: no overlong form, no surrogate. -/
def utf8Head3 (a b : UInt8) : Bool :=
  (a == 0xE0 && 0xA0 ≤ b && b ≤ 0xBF) || (0xE1 ≤ a && a ≤ 0xEC && utf8Tail b) ||
  (a == 0xED && 0x80 ≤ b && b ≤ 0x9F) || (0xEE ≤ a && a ≤ 0xEF && utf8Tail b)

/-- The first two bytes of a four-byte UTF-8 sequence: no overlong form, at most `U+10FFFF`. -/
def utf8Head4 (a b : UInt8) : Bool :=
  (a == 0xF0 && 0x90 ≤ b && b ≤ 0xBF) || (0xF1 ≤ a && a ≤ 0xF3 && utf8Tail b) ||
  (a == 0xF4 && 0x80 ≤ b && b ≤ 0x8F)

/-- Well-formed UTF-8 (RFC 3629, `core::str::from_utf8`): what Borsh accepts as a `String`. -/
def utf8 : Bytes → Bool
  | [] => true
  | [a] => a ≤ 0x7F
  | a :: b :: bs =>
    if a ≤ 0x7F then utf8 (b :: bs)
    else if 0xC2 ≤ a && a ≤ 0xDF then utf8Tail b && utf8 bs
    else match bs with
      | [] => false
      | c :: cs =>
        if a ≤ 0xEF then utf8Head3 a b && utf8Tail c && utf8 cs
        else match cs with
          | [] => false
          | d :: ds => utf8Head4 a b && utf8Tail c && utf8Tail d && utf8 ds

/-- Range of `server_url : String`. -/
def urlInRange (url : Bytes) : Bool := decide (url.length < u32Bound) && utf8 url

/-! ## Fixed-price parameter accounts -/

/-- Accounts and arguments of `initialize_fixed_price_presale_args`
(`process_initialize_extra_presale_params.rs:3-33`). -/
structure InitFixedArgsAcc where
  owner : Addr
  payer : Addr
  presale : Addr
  disableWithdraw : Nat
  qPrice : Nat
  deriving Repr

/-- `handle_initialize_fixed_price_presale_args` (`process_initialize_extra_presale_params.rs:35-70`)
with `FixedPricePresaleExtraArgs::initialize` (`state/fixed_price_presale_params.rs:16-30`). -/
def handleInitFixedArgs (w : World) (tx : Tx) (a : InitFixedArgsAcc) :
    Except Err (World × Receipt) := do
  require (a.disableWithdraw < u8Bound ∧ a.qPrice < u128Bound) (.x .deserialize)
  require (tx.signed a.payer = true) (.x .missingSignature)
  require ((w.fixedArgs (.fixedPriceArgs a.presale)).isNone = true) (.x .accountInUse)
  require (a.qPrice > 0) (.p .invalidTokenPrice)
  require ((boolTypeTryFrom a.disableWithdraw).isSome = true) (.p .invalidType)
  let x : FixedPriceArgs :=
    { disableWithdraw := a.disableWithdraw, qPrice := a.qPrice, owner := a.owner, presale := a.presale }
  return ({ w with fixedArgs := upd w.fixedArgs (.fixedPriceArgs a.presale) (some x) },
    { event := some (.fixedPricePresaleArgsCreate a.presale a.qPrice), cpis := [] })

/-- Accounts of `close_fixed_price_presale_args` (`process_close_extra_presale_params.rs:3-15`). -/
structure CloseFixedArgsAcc where
  account : Addr
  owner : Addr
  deriving Repr

/-- `close_fixed_price_presale_args` (`lib.rs:62-66`): the body is `Ok(())`; the handler
`handle_close_fixed_price_presale_args` is never called, so no event is emitted. -/
def handleCloseFixedArgs (w : World) (tx : Tx) (a : CloseFixedArgsAcc) :
    Except Err (World × Receipt) := do
  let x ← load (w.fixedArgs a.account)
  require (x.owner = a.owner) (.x .constraint)
  require (tx.signed a.owner = true) (.x .missingSignature)
  return ({ w with fixedArgs := upd w.fixedArgs a.account none }, { event := none, cpis := [] })

/-! ## Presale creation -/

/-- Accounts and arguments of `initialize_presale`
(`initialize_presale/process_initialize_presale.rs:9-87`). -/
structure InitPresaleAcc where
  presaleMint : Addr
  quoteTokenMint : Addr
  payerPresaleToken : Addr
  creator : Addr
  base : Addr
  payer : Addr
  baseTokenProgram : TokenProgram
  quoteTokenProgram : TokenProgram
  args : InitializePresaleArgs
  remaining : List Addr
  slices : List RemSlice
  deriving Repr

/-- Whether all integers of the arguments fit their types. -/
def InitializePresaleArgs.inRange (a : InitializePresaleArgs) : Bool :=
  decide (a.presaleParams.presaleMaximumCap < u64Bound) &&
  decide (a.presaleParams.presaleMinimumCap < u64Bound) &&
  decide (a.presaleParams.presaleStartTime < u64Bound) &&
  decide (a.presaleParams.presaleEndTime < u64Bound) &&
  decide (a.presaleParams.whitelistMode < u8Bound) &&
  decide (a.presaleParams.presaleMode < u8Bound) &&
  decide (a.presaleParams.unsoldTokenAction < u8Bound) &&
  decide (a.presaleParams.disableEarlierPresaleEndOnceCapReached < u8Bound) &&
  decide (a.lockedVestingParams.immediatelyReleaseBps < u16Bound) &&
  decide (a.lockedVestingParams.lockDuration < u64Bound) &&
  decide (a.lockedVestingParams.vestDuration < u64Bound) &&
  decide (a.lockedVestingParams.immediateReleaseTimestamp < u64Bound) &&
  decide (a.presaleRegistries.length < u32Bound) &&
  a.presaleRegistries.all (fun r =>
    decide (r.buyerMinimumDepositCap < u64Bound) && decide (r.buyerMaximumDepositCap < u64Bound) &&
    decide (r.presaleSupply < u64Bound) && decide (r.depositFeeBps < u16Bound))

/-- The presale PDA (`process_initialize_presale.rs:16-27`). -/
def InitPresaleAcc.presaleKey (a : InitPresaleAcc) : Addr :=
  .presale a.base a.presaleMint a.quoteTokenMint

/-- The keys handed to `Presale::initialize` (`process_initialize_presale.rs:105-114`). -/
def InitPresaleAcc.keys (a : InitPresaleAcc) : InitKeys :=
  { baseMint := a.presaleMint, quoteMint := a.quoteTokenMint,
    baseTokenVault := .baseVault a.presaleKey, quoteTokenVault := .quoteVault a.presaleKey,
    owner := a.creator, base := a.base, baseTokenProgram := a.baseTokenProgram,
    quoteTokenProgram := a.quoteTokenProgram }

/-- A freshly initialised vault token account (`process_initialize_presale.rs:38-64`). -/
def freshVault (mint : Addr) : TokAcct :=
  { mint := mint, owner := .presaleAuthority, amount := 0, frozen := false, delegate := none }

/-- `try_fold(0u64, safe_add)` over the registry supplies (`process_initialize_presale.rs:127-129`). -/
def sumSupplies : List RegistryArgs → Nat → Except Err Nat
  | [], acc => .ok acc
  | r :: rs, acc => do
    let acc' ← add64 acc r.presaleSupply
    sumSupplies rs acc'

/-- `handle_initialize_presale` (`process_initialize_presale.rs:83-174`). -/
def handleInitPresale (w : World) (tx : Tx) (a : InitPresaleAcc) : Except Err (World × Receipt) := do
  require (a.args.inRange = true ∧ slicesInRange a.slices = true) (.x .deserialize)
  let baseMint ← load (w.tk.mints a.presaleMint)
  let quoteMint ← load (w.tk.mints a.quoteTokenMint)
  require (tx.signed a.base = true ∧ tx.signed a.payer = true) (.x .missingSignature)
  require ((w.presales a.presaleKey).isNone = true
    ∧ (w.tk.toks (.baseVault a.presaleKey)).isNone = true
    ∧ (w.tk.toks (.quoteVault a.presaleKey)).isNone = true) (.x .accountInUse)
  require (baseMint.program = a.baseTokenProgram ∧ quoteMint.program = a.quoteTokenProgram)
    (.x .incorrectProgram)
  let t ← castTime w.clock
  a.args.validate t
  ensureSupportedMint quoteMint
  ensureSupportedMint baseMint
  let (p, remaining) ← processCreatePresaleVault w.fixedArgs a.presaleKey a.keys a.args t a.remaining
  let supply ← sumSupplies a.args.presaleRegistries 0
  let included ← transferFeeIncludedAmount baseMint supply
  let (hooks, _) ← parseHooks remaining a.slices [.transferHookBase]
  let tk0 : Tokens :=
    { w.tk with toks := upd (upd w.tk.toks (.baseVault a.presaleKey) (some (freshVault a.presaleMint)))
                          (.quoteVault a.presaleKey) (some (freshVault a.quoteTokenMint)) }
  let (tk, cpi) ← transferTokens tk0 a.payer a.presaleMint a.payerPresaleToken (.baseVault a.presaleKey)
    a.baseTokenProgram included hooks.base tx.accept
  let pp := a.args.presaleParams
  let l := a.args.lockedVestingParams.option
  return ({ w with presales := upd w.presales a.presaleKey (some p), tk := tk },
    { event := some (.presaleVaultCreate a.presaleMint a.quoteTokenMint a.args.presaleRegistries
        ((l.map LockedVestingArgs.lockDuration).getD 0) ((l.map LockedVestingArgs.vestDuration).getD 0)
        pp.whitelistMode pp.presaleMode pp.presaleStartTime pp.presaleEndTime pp.presaleMaximumCap
        pp.presaleMinimumCap),
      cpis := [cpi] })

/-! ## Whitelist administration -/

/-- Accounts and arguments of `create_merkle_root_config`
(`process_create_merkle_root_config.rs:3-37`). -/
structure CreateMerkleAcc where
  presale : Addr
  creator : Addr
  root : Bytes
  version : Nat
  deriving Repr

/-- `handle_create_merkle_root_config` (`process_create_merkle_root_config.rs:39-74`) with
`MerkleRootConfig::initialize` (`state/merkle_root_config.rs`). -/
def handleCreateMerkle (w : World) (tx : Tx) (a : CreateMerkleAcc) : Except Err (World × Receipt) := do
  require (isHash32 a.root = true ∧ a.version < u64Bound) (.x .deserialize)
  let p ← load (w.presales a.presale)
  require ((w.merkleRoots (.merkleRoot a.presale a.version)).isNone = true) (.x .accountInUse)
  require (tx.signed a.creator = true) (.x .missingSignature)
  require (p.owner = a.creator) (.p .invalidCreatorAccount)
  let t ← castTime w.clock
  let progress := p.getPresaleProgress t
  require (progress = .notStarted ∨ progress = .ongoing) (.p .presaleEnded)
  let mode ← castWhitelistMode p.whitelistMode
  require (mode = .permissionWithMerkleProof) (.p .invalidPresaleWhitelistMode)
  let c : MerkleRootConfig := { root := a.root, presale := a.presale, version := a.version }
  return ({ w with merkleRoots := upd w.merkleRoots (.merkleRoot a.presale a.version) (some c) },
    { event := some (.merkleRootConfigCreate a.creator (.merkleRoot a.presale a.version) a.presale
        a.version a.root), cpis := [] })

/-- Accounts of `close_merkle_root_config` (`process_close_merkle_root_config.rs:3-23`). -/
structure CloseMerkleAcc where
  presale : Addr
  config : Addr
  creator : Addr
  rentReceiver : Addr
  deriving Repr

/-- `handle_close_merkle_root_config` (`process_close_merkle_root_config.rs:25-47`). -/
def handleCloseMerkle (w : World) (tx : Tx) (a : CloseMerkleAcc) : Except Err (World × Receipt) := do
  let p ← load (w.presales a.presale)
  let c ← load (w.merkleRoots a.config)
  require (c.presale = a.presale) (.x .constraint)
  require (a.rentReceiver ≠ a.config) (.x .constraint)
  require (tx.signed a.creator = true) (.x .missingSignature)
  require (p.owner = a.creator) (.p .invalidCreatorAccount)
  let t ← castTime w.clock
  require (p.getPresaleProgress t ≠ .ongoing) (.p .presaleOngoing)
  return ({ w with merkleRoots := upd w.merkleRoots a.config none },
    { event := some (.closeMerkleRootConfig a.presale a.config a.creator), cpis := [] })

/-- Accounts of `create_operator` (`process_create_operator.rs:3-26`). -/
structure CreateOperatorAcc where
  operatorOwner : Addr
  creator : Addr
  deriving Repr

/-- `handle_create_operator` (`process_create_operator.rs:28-44`) with `Operator::initialize`
(`state/operator.rs`). -/
def handleCreateOperator (w : World) (tx : Tx) (a : CreateOperatorAcc) :
    Except Err (World × Receipt) := do
  require ((w.operators (.operator a.creator a.operatorOwner)).isNone = true) (.x .accountInUse)
  require (tx.signed a.creator = true) (.x .missingSignature)
  let o : Operator := { owner := a.operatorOwner, creator := a.creator }
  return ({ w with operators := upd w.operators (.operator a.creator a.operatorOwner) (some o) },
    { event := some (.operatorCreate a.creator (.operator a.creator a.operatorOwner) a.operatorOwner),
      cpis := [] })

/-- Accounts of `revoke_operator` (`process_revoke_operator.rs:3-15`). -/
structure RevokeOperatorAcc where
  operator : Addr
  creator : Addr
  deriving Repr

/-- `revoke_operator` (`lib.rs:109-111`); the account is closed by Anchor. -/
def handleRevokeOperator (w : World) (tx : Tx) (a : RevokeOperatorAcc) :
    Except Err (World × Receipt) := do
  let o ← load (w.operators a.operator)
  require (o.creator = a.creator) (.x .constraint)
  require (tx.signed a.creator = true) (.x .missingSignature)
  return ({ w with operators := upd w.operators a.operator none }, { event := none, cpis := [] })

/-- Accounts and arguments of `create_permissioned_server_metadata`
(`process_create_permissioned_server_metadata.rs:3-27`). -/
structure CreateMetadataAcc where
  presale : Addr
  owner : Addr
  serverUrl : Bytes
  deriving Repr

/-- `handle_create_permissioned_server_metadata`
(`process_create_permissioned_server_metadata.rs:29-61`). -/
def handleCreateMetadata (w : World) (tx : Tx) (a : CreateMetadataAcc) :
    Except Err (World × Receipt) := do
  require (urlInRange a.serverUrl = true) (.x .deserialize)
  let p ← load (w.presales a.presale)
  require (p.owner = a.owner) (.x .constraint)
  require ((w.metadata (.serverMetadata a.presale)).isNone = true) (.x .accountInUse)
  require (tx.signed a.owner = true) (.x .missingSignature)
  let mode ← castWhitelistMode p.whitelistMode
  require (mode = .permissionWithMerkleProof ∨ mode = .permissionWithAuthority)
    (.p .invalidPresaleWhitelistMode)
  let t ← castTime w.clock
  let progress := p.getPresaleProgress t
  require (progress = .ongoing ∨ progress = .notStarted) (.p .presaleEnded)
  let m : ServerMetadata := { presale := a.presale, serverUrl := a.serverUrl }
  return ({ w with metadata := upd w.metadata (.serverMetadata a.presale) (some m) },
    { event := some (.permissionedServerMetadataCreate a.presale (.serverMetadata a.presale)
        a.serverUrl), cpis := [] })

/-- Accounts of `close_permissioned_server_metadata` (`process_close_merkle_proof_metadata.rs:3-23`). -/
structure CloseMetadataAcc where
  presale : Addr
  account : Addr
  owner : Addr
  rentReceiver : Addr
  deriving Repr

/-- `handle_close_permissioned_server_metadata` (`process_close_merkle_proof_metadata.rs:25-39`). -/
def handleCloseMetadata (w : World) (tx : Tx) (a : CloseMetadataAcc) :
    Except Err (World × Receipt) := do
  let p ← load (w.presales a.presale)
  require (p.owner = a.owner) (.x .constraint)
  let m ← load (w.metadata a.account)
  require (m.presale = a.presale) (.x .constraint)
  require (a.rentReceiver ≠ a.account) (.x .constraint)
  require (tx.signed a.owner = true) (.x .missingSignature)
  return ({ w with metadata := upd w.metadata a.account none },
    { event := some (.permissionedServerMetadataClose a.presale a.account), cpis := [] })

/-! ## Escrow creation -/

/-- Check of an explicit deposit cap (`create_escrow/process_create_escrow.rs:40-48`). -/
def checkDepositCap (r : Registry) : Option Nat → Except Err Unit
  | some cap => do
    require (cap > 0) (.p .invalidDepositCap)
    require (cap ≥ r.buyerMinimumDepositCap ∧ cap ≤ r.buyerMaximumDepositCap) (.p .invalidDepositCap)
  | none => .ok ()

/-- `process_create_escrow` (`create_escrow/process_create_escrow.rs:12-66`): new presale and escrow. -/
def processCreateEscrow (p : Presale) (presaleKey owner : Addr) (t registryIndex : Nat)
    (depositCap : Option Nat) : Except Err (Presale × Escrow) := do
  require (p.getPresaleProgress t = .ongoing) (.p .presaleNotOpenForDeposit)
  require (registryIndex < p.totalPresaleRegistryCount) (.p .invalidPresaleRegistryIndex)
  let r ← p.getRegistry registryIndex
  checkDepositCap r depositCap
  let cap := depositCap.getD r.buyerMaximumDepositCap
  let e := Escrow.initialized presaleKey owner t registryIndex cap
  let p' ← p.increaseEscrowCount registryIndex
  return (p', e)

/-- Common part of the three escrow-creating instructions: the `init` check of the escrow PDA,
`process_create_escrow`, and the event (`create_escrow/*.rs`). -/
def createEscrowAt (w : World) (p : Presale) (presaleKey owner : Addr) (registryIndex : Nat)
    (depositCap : Option Nat) : Except Err (World × Receipt) := do
  require ((w.escrows.get? (.escrow presaleKey owner registryIndex)).isNone = true) (.x .accountInUse)
  let t ← castTime w.clock
  let (p', e) ← processCreateEscrow p presaleKey owner t registryIndex depositCap
  return ({ w with presales := upd w.presales presaleKey (some p'),
                   escrows := w.escrows.set (.escrow presaleKey owner registryIndex) e },
    { event := some (.escrowCreate presaleKey owner p'.whitelistMode p'.totalEscrow), cpis := [] })

/-- Accounts of `create_permissionless_escrow` (`process_create_permissionless_escrow.rs:8-35`). -/
structure CreateEscrowAcc where
  presale : Addr
  owner : Addr
  payer : Addr
  deriving Repr

/-- `handle_create_permissionless_escrow` (`process_create_permissionless_escrow.rs:37-66`). -/
def handleCreateEscrow (w : World) (tx : Tx) (a : CreateEscrowAcc) : Except Err (World × Receipt) := do
  let p ← load (w.presales a.presale)
  require (tx.signed a.payer = true) (.x .missingSignature)
  let mode ← castWhitelistMode p.whitelistMode
  require (mode.isPermissioned = false) (.p .invalidPresaleWhitelistMode)
  createEscrowAt w p a.presale a.owner DEFAULT_PERMISSIONLESS_REGISTRY_INDEX none

/-- Accounts and arguments of `create_permissioned_escrow_with_creator`
(`process_create_permissioned_escrow_with_creator.rs:8-47`). -/
structure CreateEscrowCreatorAcc where
  presale : Addr
  owner : Addr
  operator : Addr
  operatorOwner : Addr
  payer : Addr
  registryIndex : Nat
  depositCap : Nat
  deriving Repr

/-- `handle_create_permissioned_escrow_with_creator`
(`process_create_permissioned_escrow_with_creator.rs:49-110`). -/
def handleCreateEscrowCreator (w : World) (tx : Tx) (a : CreateEscrowCreatorAcc) :
    Except Err (World × Receipt) := do
  require (a.registryIndex < u8Bound ∧ a.depositCap < u64Bound) (.x .deserialize)
  let p ← load (w.presales a.presale)
  let o ← load (w.operators a.operator)
  require (tx.signed a.operatorOwner = true ∧ tx.signed a.payer = true) (.x .missingSignature)
  let mode ← castWhitelistMode p.whitelistMode
  require (mode = .permissionWithAuthority) (.p .invalidPresaleWhitelistMode)
  require (o.owner = a.operatorOwner) (.p .invalidOperator)
  require (o.creator = p.owner) (.p .invalidOperator)
  createEscrowAt w p a.presale a.owner a.registryIndex (some a.depositCap)

/-- Accounts and arguments of `create_permissioned_escrow_with_merkle_proof`
(`process_create_permissioned_escrow_with_merkle_proof.rs:14-53`). -/
structure CreateEscrowMerkleAcc where
  presale : Addr
  owner : Addr
  config : Addr
  payer : Addr
  proof : List Bytes
  registryIndex : Nat
  depositCap : Nat
  deriving Repr

/-- `handle_create_permissioned_escrow_with_merkle_proof`
(`process_create_permissioned_escrow_with_merkle_proof.rs:55-105`). -/
def handleCreateEscrowMerkle (w : World) (tx : Tx) (a : CreateEscrowMerkleAcc) :
    Except Err (World × Receipt) := do
  require (a.registryIndex < u8Bound ∧ a.depositCap < u64Bound ∧ proofInRange a.proof = true)
    (.x .deserialize)
  let p ← load (w.presales a.presale)
  let c ← load (w.merkleRoots a.config)
  require (c.presale = a.presale) (.x .constraint)
  require (tx.signed a.payer = true) (.x .missingSignature)
  let mode ← castWhitelistMode p.whitelistMode
  require (mode = .permissionWithMerkleProof) (.p .invalidPresaleWhitelistMode)
  let node := nodeHash w.env.hash (w.env.keyBytes a.owner) a.registryIndex a.depositCap
  let leaf := leafHash w.env.hash node
  require (merkleVerify w.env.hash a.proof c.root leaf = true) (.p .invalidMerkleProof)
  createEscrowAt w p a.presale a.owner a.registryIndex (some a.depositCap)

/-! ## Deposit and withdraw -/

/-- Accounts and arguments of `deposit` (`process_deposit.rs:5-37`). -/
structure DepositAcc where
  presale : Addr
  quoteTokenVault : Addr
  quoteMint : Addr
  escrow : Addr
  payerQuoteToken : Addr
  payer : Addr
  tokenProgram : TokenProgram
  maxAmount : Nat
  remaining : List Addr
  slices : List RemSlice
  deriving Repr

/-- State changes of a deposit. -/
structure DepositResult where
  presale : Presale
  escrow : Escrow
  amount : Nat
  fees : DepositFeeIncluded
  deriving DecidableEq, Repr

/-- Steps 1 to 3 of `handle_deposit` (`process_deposit.rs:41-70`). -/
def depositCore (p : Presale) (e : Escrow) (t maxAmount : Nat) : Except Err DepositResult := do
  require (p.getPresaleProgress t = .ongoing) (.p .presaleNotOpenForDeposit)
  let h ← getPresaleModeHandler p
  let quota ← h.getRemainingDepositQuota p e
  let capped := min quota maxAmount
  require (capped > 0) (.p .zeroTokenAmount)
  let suggested ← h.suggestDepositAmount capped
  require (suggested > 0) (.p .zeroTokenAmount)
  let (p1, e1, fees) ← p.deposit e suggested
  let r ← p1.getRegistry e1.registryIndex
  r.validateEscrowDeposit e1
  let p2 ← h.endIfMaxCapReached p1 t
  return { presale := p2, escrow := e1, amount := suggested, fees := fees }

/-- `handle_deposit` (`process_deposit.rs:33-107`). -/
def handleDeposit (w : World) (tx : Tx) (a : DepositAcc) : Except Err (World × Receipt) := do
  require (a.maxAmount < u64Bound ∧ slicesInRange a.slices = true) (.x .deserialize)
  let p ← load (w.presales a.presale)
  require (p.quoteTokenVault = a.quoteTokenVault ∧ p.quoteMint = a.quoteMint) (.x .constraint)
  let m ← load (w.tk.mints a.quoteMint)
  let e ← load (w.escrows.get? a.escrow)
  require (e.presale = a.presale) (.x .constraint)
  require (tx.signed a.payer = true) (.x .missingSignature)
  let t ← castTime w.clock
  let d ← depositCore p e t a.maxAmount
  let included ← transferFeeIncludedAmount m d.fees.amountIncludedFee
  let (hooks, _) ← parseHooks a.remaining a.slices [.transferHookQuote]
  let (tk, cpi) ← transferTokens w.tk a.payer a.quoteMint a.payerQuoteToken a.quoteTokenVault
    a.tokenProgram included hooks.quote tx.accept
  return ({ w with presales := upd w.presales a.presale (some d.presale),
                   escrows := w.escrows.set a.escrow d.escrow, tk := tk },
    { event := some (.deposit a.presale a.escrow d.amount d.escrow.totalDeposit d.presale.totalDeposit
        a.payer d.fees.fee),
      cpis := [cpi] })

/-- Accounts and arguments of `withdraw` (`process_withdraw.rs:8-47`). -/
structure WithdrawAcc where
  presale : Addr
  quoteTokenVault : Addr
  quoteMint : Addr
  escrow : Addr
  ownerQuoteToken : Addr
  owner : Addr
  tokenProgram : TokenProgram
  maxAmount : Nat
  remaining : List Addr
  slices : List RemSlice
  deriving Repr

/-- Steps 1 to 5 of `handle_withdraw` (`process_withdraw.rs:51-83`): new presale, new escrow, amount. -/
def withdrawCore (p : Presale) (e : Escrow) (t maxAmount : Nat) :
    Except Err (Presale × Escrow × Nat) := do
  require (p.getPresaleProgress t = .ongoing) (.p .presaleNotOpenForWithdraw)
  require (maxAmount > 0) (.p .zeroTokenAmount)
  require (e.totalDeposit ≥ maxAmount) (.p .insufficientEscrowBalance)
  let h ← getPresaleModeHandler p
  require (h.canWithdraw = true) (.p .presaleNotOpenForWithdraw)
  let suggested ← h.suggestWithdrawAmount e maxAmount
  require (suggested > 0) (.p .zeroTokenAmount)
  let (p1, e1) ← h.processWithdraw p e suggested
  let r ← p1.getRegistry e1.registryIndex
  r.validateEscrowDeposit e1
  return (p1, e1, suggested)

/-- `handle_withdraw` (`process_withdraw.rs:43-121`). -/
def handleWithdraw (w : World) (tx : Tx) (a : WithdrawAcc) : Except Err (World × Receipt) := do
  require (a.maxAmount < u64Bound ∧ slicesInRange a.slices = true) (.x .deserialize)
  let p ← load (w.presales a.presale)
  require (p.quoteTokenVault = a.quoteTokenVault ∧ p.quoteMint = a.quoteMint) (.x .constraint)
  let m ← load (w.tk.mints a.quoteMint)
  let e ← load (w.escrows.get? a.escrow)
  require (e.presale = a.presale ∧ e.owner = a.owner) (.x .constraint)
  require (tx.signed a.owner = true) (.x .missingSignature)
  let t ← castTime w.clock
  let (p', e', amount) ← withdrawCore p e t a.maxAmount
  let (hooks, _) ← parseHooks a.remaining a.slices [.transferHookQuote]
  let (tk, cpi) ← transferTokens w.tk .presaleAuthority a.quoteMint a.quoteTokenVault a.ownerQuoteToken
    a.tokenProgram amount hooks.quote tx.accept
  let excluded ← transferFeeExcludedAmount m amount
  return ({ w with presales := upd w.presales a.presale (some p'),
                   escrows := w.escrows.set a.escrow e', tk := tk },
    { event := some (.withdraw a.presale a.escrow excluded e'.totalDeposit p'.totalDeposit a.owner),
      cpis := [cpi] })

/-! ## Claim, refresh, refund, close -/

/-- Accounts of `claim` (`process_claim.rs:8-49`). -/
structure ClaimAcc where
  presale : Addr
  baseTokenVault : Addr
  baseMint : Addr
  escrow : Addr
  ownerBaseToken : Addr
  owner : Addr
  tokenProgram : TokenProgram
  remaining : List Addr
  slices : List RemSlice
  deriving Repr

/-- `handle_claim` (`process_claim.rs:46-107`). -/
def handleClaim (w : World) (tx : Tx) (a : ClaimAcc) : Except Err (World × Receipt) := do
  require (slicesInRange a.slices = true) (.x .deserialize)
  let p ← load (w.presales a.presale)
  require (p.baseTokenVault = a.baseTokenVault ∧ p.baseMint = a.baseMint) (.x .constraint)
  let m ← load (w.tk.mints a.baseMint)
  let e ← load (w.escrows.get? a.escrow)
  require (e.presale = a.presale ∧ e.owner = a.owner) (.x .constraint)
  require ((w.tk.toks a.ownerBaseToken).isSome = true) (.x .accountNotFound)
  require (tx.signed a.owner = true) (.x .missingSignature)
  let t ← castTime w.clock
  require (p.getPresaleProgress t = .completed) (.p .presaleNotOpenForClaim)
  let h ← getPresaleModeHandler p
  let e1 ← h.updatePendingClaimAmount p e t
  let pending := e1.pendingClaimToken
  let excluded ← transferFeeExcludedAmount m pending
  if pending > 0 then do
    let (p', e') ← p.claim e1
    let (hooks, _) ← parseHooks a.remaining a.slices [.transferHookBase]
    let (tk, cpi) ← transferTokens w.tk .presaleAuthority a.baseMint a.baseTokenVault a.ownerBaseToken
      a.tokenProgram pending hooks.base tx.accept
    return ({ w with presales := upd w.presales a.presale (some p'),
                     escrows := w.escrows.set a.escrow e', tk := tk },
      { event := some (.claim a.presale a.escrow excluded e'.totalClaimedToken p'.totalClaimedToken
          a.owner), cpis := [cpi] })
  else
    return ({ w with escrows := w.escrows.set a.escrow e1 },
      { event := some (.claim a.presale a.escrow excluded e1.totalClaimedToken p.totalClaimedToken
          a.owner), cpis := [] })

/-- Accounts of `refresh_escrow` (`process_refresh_escrow.rs:3-13`). -/
structure RefreshAcc where
  presale : Addr
  escrow : Addr
  deriving Repr

/-- Conditional update of `handle_refresh_escrow` (`process_refresh_escrow.rs:23-27`). -/
def refreshed (p : Presale) (e : Escrow) (t : Nat) : Except Err Escrow :=
  if p.getPresaleProgress t = .completed then do
    let h ← getPresaleModeHandler p
    h.updatePendingClaimAmount p e t
  else .ok e

/-- `handle_refresh_escrow` (`process_refresh_escrow.rs:15-38`). -/
def handleRefresh (w : World) (_tx : Tx) (a : RefreshAcc) : Except Err (World × Receipt) := do
  let p ← load (w.presales a.presale)
  let e ← load (w.escrows.get? a.escrow)
  require (e.presale = a.presale) (.x .constraint)
  let t ← castTime w.clock
  let e' ← refreshed p e t
  return ({ w with escrows := w.escrows.set a.escrow e' },
    { event := some (.escrowRefresh a.presale a.escrow e'.owner t e'.pendingClaimToken), cpis := [] })

/-- Accounts of `withdraw_remaining_quote` (`process_withdraw_remaining_quote.rs:7-47`). -/
structure RefundAcc where
  presale : Addr
  quoteTokenVault : Addr
  quoteMint : Addr
  escrow : Addr
  ownerQuoteToken : Addr
  owner : Addr
  tokenProgram : TokenProgram
  remaining : List Addr
  slices : List RemSlice
  deriving Repr

/-- `handle_withdraw_remaining_quote` (`process_withdraw_remaining_quote.rs:44-106`). -/
def handleRefund (w : World) (tx : Tx) (a : RefundAcc) : Except Err (World × Receipt) := do
  require (slicesInRange a.slices = true) (.x .deserialize)
  let p ← load (w.presales a.presale)
  require (p.quoteTokenVault = a.quoteTokenVault ∧ p.quoteMint = a.quoteMint) (.x .constraint)
  let m ← load (w.tk.mints a.quoteMint)
  let e ← load (w.escrows.get? a.escrow)
  require (e.presale = a.presale ∧ e.owner = a.owner) (.x .constraint)
  require ((w.tk.toks a.ownerQuoteToken).isSome = true) (.x .accountNotFound)
  require (tx.signed a.owner = true) (.x .missingSignature)
  require (e.remainingQuoteWithdrawn = false) (.p .remainingQuoteAlreadyWithdrawn)
  let t ← castTime w.clock
  let q ← p.validateAndGetEscrowRemainingQuote e t
  let total ← add64 q.refundDepositAmount q.refundFeeAmount
  let p' ← p.updateTotalRefundedQuoteToken total e.registryIndex
  let e' := e.updateRemainingQuoteWithdrawn
  let (hooks, _) ← parseHooks a.remaining a.slices [.transferHookQuote]
  let excluded ← transferFeeExcludedAmount m total
  let event : Event := .withdrawRemainingQuote a.presale a.escrow a.owner excluded p'.totalRefundedQuoteToken
  if total > 0 then do
    let (tk, cpi) ← transferTokens w.tk .presaleAuthority a.quoteMint a.quoteTokenVault a.ownerQuoteToken
      a.tokenProgram total hooks.quote tx.accept
    return ({ w with presales := upd w.presales a.presale (some p'),
                     escrows := w.escrows.set a.escrow e', tk := tk },
      { event := some event, cpis := [cpi] })
  else
    return ({ w with presales := upd w.presales a.presale (some p'),
                     escrows := w.escrows.set a.escrow e' },
      { event := some event, cpis := [] })

/-- Refund part of `ensure_escrow_done_claim_and_withdraw_remaining_quote`
(`process_close_escrow.rs:71-92`). -/
def ensureRefundTaken (e : Escrow) : Except Err EscrowRemainingQuote → Except Err Unit
  | .ok q =>
    if q.refundDepositAmount > 0 ∨ q.refundFeeAmount > 0 then
      require (e.remainingQuoteWithdrawn = true) (.p .escrowNotEmpty)
    else .ok ()
  | .error err =>
    if err ≠ .p .presaleNotOpenForWithdrawRemainingQuote then .error err else .ok ()

/-- `ensure_escrow_done_claim_and_withdraw_remaining_quote` (`process_close_escrow.rs:65-109`). -/
def ensureDoneClaimAndRefund (p : Presale) (e : Escrow) (t : Nat) : Except Err Unit := do
  ensureRefundTaken e (p.validateAndGetEscrowRemainingQuote e t)
  let h ← getPresaleModeHandler p
  let vestingEnd ← add64 p.vestingStartTime p.vestDuration
  let total ← h.cumulativeClaimable p e vestingEnd
  require (e.totalClaimedToken = total) (.p .escrowNotEmpty)

/-- Phase checks of `handle_close_escrow` (`process_close_escrow.rs:31-51`, `111-128`). -/
def closeChecks (p : Presale) (e : Escrow) (t : Nat) : Except Err Unit :=
  match p.getPresaleProgress t with
  | .ongoing => require (e.totalDeposit = 0 ∧ e.totalDepositFee = 0) (.p .escrowNotEmpty)
  | .failed =>
    require (e.remainingQuoteWithdrawn = true ∨ (e.totalDeposit = 0 ∧ e.totalDepositFee = 0))
      (.p .escrowNotEmpty)
  | .completed => ensureDoneClaimAndRefund p e t
  | .notStarted => .error .panic

/-- Accounts of `close_escrow` (`process_close_escrow.rs:3-22`). -/
structure CloseEscrowAcc where
  presale : Addr
  escrow : Addr
  owner : Addr
  rentReceiver : Addr
  deriving Repr

/-- `handle_close_escrow` (`process_close_escrow.rs:24-63`); Anchor then closes the account. -/
def handleCloseEscrow (w : World) (tx : Tx) (a : CloseEscrowAcc) : Except Err (World × Receipt) := do
  let p ← load (w.presales a.presale)
  let e ← load (w.escrows.get? a.escrow)
  require (e.presale = a.presale ∧ e.owner = a.owner) (.x .constraint)
  require (a.rentReceiver ≠ a.escrow) (.x .constraint)
  require (tx.signed a.owner = true) (.x .missingSignature)
  let t ← castTime w.clock
  closeChecks p e t
  let p' ← p.decreaseEscrowCount e.registryIndex
  return ({ w with presales := upd w.presales a.presale (some p'), escrows := w.escrows.erase a.escrow },
    { event := some (.escrowClose a.presale a.escrow a.owner a.rentReceiver), cpis := [] })

/-! ## Creator payouts and unsold tokens -/

/-- Accounts of `creator_withdraw` (`process_creator_withdraw.rs:10-32`). -/
structure CreatorWithdrawAcc where
  presale : Addr
  ownerToken : Addr
  owner : Addr
  tokenProgram : TokenProgram
  remaining : List Addr
  slices : List RemSlice
  deriving Repr

/-- `CreatorWithdrawQuoteCtx::try_accounts_and_validate` (`process_creator_withdraw.rs:41-66`) and
`CreatorWithdrawBaseCtx::try_accounts_and_validate` (`75-100`): the first two remaining accounts must be
the expected vault and mint. Returns the accounts left. -/
def takeVaultAndMint (w : World) (remaining : List Addr) (vault mint : Addr) (mintErr : PErr) :
    Except Err (List Addr) :=
  match remaining with
  | v :: m :: rest => do
    require ((w.tk.toks v).isSome = true ∧ (w.tk.mints m).isSome = true) (.x .accountNotFound)
    require (v = vault) (.p .invalidTokenVault)
    require (m = mint) (.p mintErr)
    return rest
  | _ => .error (.x .accountNotFound)

/-- What a creator withdrawal pays out. -/
structure CreatorPayout where
  amount : Nat
  vault : Addr
  mint : Addr
  hookType : AccountsType
  rest : List Addr
  deriving DecidableEq, Repr

/-- Choice of the payout by progress in `handle_creator_withdraw`
(`process_creator_withdraw.rs:128-167`). -/
def creatorPayout (w : World) (p : Presale) (progress : PresaleProgress) (remaining : List Addr) :
    Except Err CreatorPayout :=
  match progress with
  | .completed => do
    let rest ← takeVaultAndMint w remaining p.quoteTokenVault p.quoteMint .invalidQuoteMint
    return { amount := min p.totalDeposit p.presaleMaximumCap, vault := p.quoteTokenVault,
             mint := p.quoteMint, hookType := .transferHookQuote, rest := rest }
  | .failed => do
    let rest ← takeVaultAndMint w remaining p.baseTokenVault p.baseMint .invalidBaseMint
    return { amount := p.presaleSupply, vault := p.baseTokenVault, mint := p.baseMint,
             hookType := .transferHookBase, rest := rest }
  | _ => .error (.p .undeterminedError)

/-- `handle_creator_withdraw` (`process_creator_withdraw.rs:102-205`). -/
def handleCreatorWithdraw (w : World) (tx : Tx) (a : CreatorWithdrawAcc) :
    Except Err (World × Receipt) := do
  require (slicesInRange a.slices = true) (.x .deserialize)
  let p ← load (w.presales a.presale)
  require (p.owner = a.owner) (.x .constraint)
  require (tx.signed a.owner = true) (.x .missingSignature)
  let t ← castTime w.clock
  let progress := p.getPresaleProgress t
  require (progress = .completed ∨ progress = .failed) (.p .presaleNotOpenForWithdraw)
  require (p.creatorWithdrawn = false) (.p .creatorAlreadyWithdrawn)
  let p' := p.updateCreatorWithdrawn
  let c ← creatorPayout w p progress a.remaining
  let (hooks, _) ← parseHooks c.rest a.slices [c.hookType]
  let hookAccounts := if progress = .completed then hooks.quote else hooks.base
  let (tk, cpi) ← transferTokens w.tk .presaleAuthority c.mint c.vault a.ownerToken a.tokenProgram
    c.amount hookAccounts tx.accept
  let m ← load (w.tk.mints c.mint)
  let excluded ← transferFeeExcludedAmount m c.amount
  return ({ w with presales := upd w.presales a.presale (some p'), tk := tk },
    { event := some (.creatorWithdraw a.presale excluded a.owner progress), cpis := [cpi] })

/-- Accounts of `creator_collect_fee` (`process_creator_collect_fee.rs:7-36`). -/
structure CollectFeeAcc where
  presale : Addr
  quoteTokenVault : Addr
  quoteMint : Addr
  feeReceivingAccount : Addr
  owner : Addr
  tokenProgram : TokenProgram
  remaining : List Addr
  slices : List RemSlice
  deriving Repr

/-- `handle_creator_collect_fee` (`process_creator_collect_fee.rs:38-94`). -/
def handleCollectFee (w : World) (tx : Tx) (a : CollectFeeAcc) : Except Err (World × Receipt) := do
  require (slicesInRange a.slices = true) (.x .deserialize)
  let p ← load (w.presales a.presale)
  require (p.owner = a.owner ∧ p.quoteMint = a.quoteMint ∧ p.quoteTokenVault = a.quoteTokenVault)
    (.x .constraint)
  let m ← load (w.tk.mints a.quoteMint)
  require ((w.tk.toks a.feeReceivingAccount).isSome = true) (.x .accountNotFound)
  require (tx.signed a.owner = true) (.x .missingSignature)
  let t ← castTime w.clock
  require (p.getPresaleProgress t = .completed ∧ p.feeCollected = false)
    (.p .presaleNotOpenForCollectFee)
  let fee ← p.getTotalCollectedFee
  let p' := p.setDepositFeeCollected
  let excluded ← transferFeeExcludedAmount m fee
  let event : Event := .creatorCollectFee a.presale a.owner excluded
  if fee > 0 then do
    let (hooks, _) ← parseHooks a.remaining a.slices [.transferHookQuote]
    let (tk, cpi) ← transferTokens w.tk .presaleAuthority a.quoteMint a.quoteTokenVault
      a.feeReceivingAccount a.tokenProgram fee hooks.quote tx.accept
    return ({ w with presales := upd w.presales a.presale (some p'), tk := tk },
      { event := some event, cpis := [cpi] })
  else
    return ({ w with presales := upd w.presales a.presale (some p') },
      { event := some event, cpis := [] })

/-- Accounts of `perform_unsold_base_token_action` (`process_perform_unsold_base_token_action.rs:8-40`).
The creator's token account is the associated token account of the presale's owner
(`associated_token::…`), with the owner recorded in the account itself. -/
structure UnsoldAcc where
  presale : Addr
  baseTokenVault : Addr
  baseMint : Addr
  creatorBaseToken : Addr
  tokenProgram : TokenProgram
  remaining : List Addr
  slices : List RemSlice
  deriving Repr

/-- Burn or refund of the unsold tokens (`process_perform_unsold_base_token_action.rs:75-109`). -/
def performUnsold (w : World) (tx : Tx) (a : UnsoldAcc) (action : UnsoldTokenAction) (unsold : Nat) :
    Except Err (Tokens × Cpi) :=
  match action with
  | .burn => burnTokens w.tk a.tokenProgram a.baseTokenVault a.baseMint .presaleAuthority unsold
  | .refund => do
    let (hooks, _) ← parseHooks a.remaining a.slices [.transferHookBase]
    transferTokens w.tk .presaleAuthority a.baseMint a.baseTokenVault a.creatorBaseToken
      a.tokenProgram unsold hooks.base tx.accept

/-- `handle_perform_unsold_base_token_action` (`process_perform_unsold_base_token_action.rs:42-118`). -/
def handleUnsold (w : World) (tx : Tx) (a : UnsoldAcc) : Except Err (World × Receipt) := do
  require (slicesInRange a.slices = true) (.x .deserialize)
  let p ← load (w.presales a.presale)
  require (p.baseTokenVault = a.baseTokenVault ∧ p.baseMint = a.baseMint) (.x .constraint)
  let c ← load (w.tk.toks a.creatorBaseToken)
  require (a.creatorBaseToken = .ata p.owner a.baseMint a.tokenProgram ∧ c.owner = p.owner
    ∧ c.mint = a.baseMint) (.x .constraint)
  let t ← castTime w.clock
  require (p.getPresaleProgress t = .completed) (.p .presaleNotCompleted)
  require (p.unsoldActionPerformed = false) (.p .unsoldBaseTokenActionAlreadyPerformed)
  let h ← getPresaleModeHandler p
  let unsold ← p.getTotalUnsoldToken h
  require (unsold > 0) (.p .noUnsoldBaseTokens)
  let p' := p.setUnsoldTokenActionPerformed
  let action := UnsoldTokenAction.ofByte p.unsoldTokenAction
  let (tk, cpi) ← performUnsold w tx a action unsold
  return ({ w with presales := upd w.presales a.presale (some p'), tk := tk },
    { event := some (.performUnsoldBaseTokenAction a.presale unsold action), cpis := [cpi] })

/-! ## Dispatch -/

/-- The instructions of the program (`lib.rs:51-184`). -/
inductive Ix where
  | initFixedArgs (a : InitFixedArgsAcc)
  | closeFixedArgs (a : CloseFixedArgsAcc)
  | initPresale (a : InitPresaleAcc)
  | createMerkle (a : CreateMerkleAcc)
  | closeMerkle (a : CloseMerkleAcc)
  | createEscrow (a : CreateEscrowAcc)
  | createEscrowCreator (a : CreateEscrowCreatorAcc)
  | createEscrowMerkle (a : CreateEscrowMerkleAcc)
  | createOperator (a : CreateOperatorAcc)
  | revokeOperator (a : RevokeOperatorAcc)
  | deposit (a : DepositAcc)
  | withdraw (a : WithdrawAcc)
  | claim (a : ClaimAcc)
  | refund (a : RefundAcc)
  | unsold (a : UnsoldAcc)
  | closeEscrow (a : CloseEscrowAcc)
  | creatorWithdraw (a : CreatorWithdrawAcc)
  | refresh (a : RefreshAcc)
  | createMetadata (a : CreateMetadataAcc)
  | closeMetadata (a : CloseMetadataAcc)
  | collectFee (a : CollectFeeAcc)
  deriving Repr

/-- Program entry point (`lib.rs:51-184`). -/
def execIx (w : World) (tx : Tx) : Ix → Except Err (World × Receipt)
  | .initFixedArgs a => handleInitFixedArgs w tx a
  | .closeFixedArgs a => handleCloseFixedArgs w tx a
  | .initPresale a => handleInitPresale w tx a
  | .createMerkle a => handleCreateMerkle w tx a
  | .closeMerkle a => handleCloseMerkle w tx a
  | .createEscrow a => handleCreateEscrow w tx a
  | .createEscrowCreator a => handleCreateEscrowCreator w tx a
  | .createEscrowMerkle a => handleCreateEscrowMerkle w tx a
  | .createOperator a => handleCreateOperator w tx a
  | .revokeOperator a => handleRevokeOperator w tx a
  | .deposit a => handleDeposit w tx a
  | .withdraw a => handleWithdraw w tx a
  | .claim a => handleClaim w tx a
  | .refund a => handleRefund w tx a
  | .unsold a => handleUnsold w tx a
  | .closeEscrow a => handleCloseEscrow w tx a
  | .creatorWithdraw a => handleCreatorWithdraw w tx a
  | .refresh a => handleRefresh w tx a
  | .createMetadata a => handleCreateMetadata w tx a
  | .closeMetadata a => handleCloseMetadata w tx a
  | .collectFee a => handleCollectFee w tx a

/-! ## The environment -/

/-- A mint as the token programs allow it: fee rate at most 100%, integers in range. -/
def MintInfo.wellFormed (m : MintInfo) : Bool :=
  decide (m.supply < u64Bound) &&
  match m.fee with
  | none => true
  | some f => decide (f.basisPoints ≤ MAX_FEE_BASIS_POINTS) && decide (f.maximumFee < u64Bound)

/-- Everything that can happen: the clock advances, anybody changes token accounts the program does
not control, tokens are sent to a vault, a freeze authority freezes or thaws a vault, a mint
authority changes a mint, or an instruction of the program is executed. -/
inductive Op where
  | tick (seconds : Nat)
  | setTok (a : Addr) (t : Option TokAcct)
  | donate (vault : Addr) (amount : Nat)
  | freezeVault (vault : Addr) (frozen : Bool)
  | setMint (a : Addr) (m : MintInfo)
  | ix (tx : Tx) (i : Ix)
  deriving Repr

/-- Environment steps carry no receipt. -/
def noReceipt : Receipt := { event := none, cpis := [] }

/-- One step. Environment rules: token accounts other than the program's vault PDAs may change
arbitrarily; vaults can only be credited, frozen and thawed from outside; mints may change
arbitrarily except that the program and native flag of a mint the program would accept are fixed and
that it gets no other extension than metadata (`Ext.grown`); without a close authority a mint cannot
disappear. -/
def step (w : World) : Op → Except Err (World × Receipt)
  | .tick s => .ok ({ w with clock := w.clock + s }, noReceipt)
  | .setTok a t => do
    require (a.isVault = false) (.x .constraint)
    require (∀ x ∈ t, x.amount < u64Bound) (.x .tokenOverflow)
    return ({ w with tk := { w.tk with toks := upd w.tk.toks a t } }, noReceipt)
  | .donate v n => do
    let t ← load (w.tk.toks v)
    require (t.amount + n < u64Bound) (.x .tokenOverflow)
    return ({ w with tk := { w.tk with toks := upd w.tk.toks v (some { t with amount := t.amount + n }) } },
      noReceipt)
  | .freezeVault v b => do
    let t ← load (w.tk.toks v)
    return ({ w with tk := { w.tk with toks := upd w.tk.toks v (some { t with frozen := b }) } },
      noReceipt)
  | .setMint a m => do
    require (m.wellFormed = true) (.x .constraint)
    require (∀ old ∈ w.tk.mints a, isSupportedMint old = true →
      m.program = old.program ∧ m.isNative = old.isNative ∧ Ext.grown m.exts old.exts) (.x .constraint)
    return ({ w with tk := { w.tk with mints := upd w.tk.mints a (some m) } }, noReceipt)
  | .ix tx i => execIx w tx i

/-- A failed step changes nothing. -/
def apply (w : World) (op : Op) : World :=
  match step w op with
  | .ok (w', _) => w'
  | .error _ => w

/-- Execute a history. -/
def run (w : World) : List Op → World
  | [] => w
  | op :: ops => run (apply w op) ops

/-- An empty deployment: no account of the program and no vault exists yet; everything else is
arbitrary within the integer ranges. -/
structure Genesis (w : World) : Prop where
  presales : ∀ a, w.presales a = none
  escrows : w.escrows = []
  merkleRoots : ∀ a, w.merkleRoots a = none
  operators : ∀ a, w.operators a = none
  metadata : ∀ a, w.metadata a = none
  fixedArgs : ∀ a, w.fixedArgs a = none
  vaults : ∀ a, a.isVault = true → w.tk.toks a = none
  amounts : ∀ a t, w.tk.toks a = some t → t.amount < u64Bound
  mints : ∀ a m, w.tk.mints a = some m → m.wellFormed = true

/-- States reachable from an empty deployment. -/
def Reachable (w : World) : Prop := ∃ w0 ops, Genesis w0 ∧ w = run w0 ops

/-- A successful step in the history of `ops` from `w`: state before, operation, receipt, state
after. -/
structure StepRec where
  pre : World
  op : Op
  receipt : Receipt
  post : World

/-- The successful steps of a history, in order. -/
def trace (w : World) : List Op → List StepRec
  | [] => []
  | op :: ops =>
    match step w op with
    | .ok (w', r) => ⟨w, op, r, w'⟩ :: trace w' ops
    | .error _ => trace w ops

end Verif
