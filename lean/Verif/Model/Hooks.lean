import Verif.Model.Instructions
/-!
# Transfer hooks as programs

In `Model/Instructions.lean` a hook is a yes or no. Here it is a program that runs in the middle of an instruction, after
the tokens moved and before the handler goes on. It has its own state, sees what moved, may refuse, and may call other
programs. Instructions are cut at that point: `prepare` is what a handler does before its token operation, the
continuation what it does afterwards, with whatever the token accounts then hold.
-/

namespace Verif

/-- A token operation a handler asks for. Arguments of `transfer_from_user` and `transfer_from_presale_to_user`
(`token2022.rs:271-405`). -/
structure Wanted where
  authority : Addr
  mint : Addr
  src : Addr
  dst : Addr
  program : TokenProgram
  amount : Nat
  hooks : Option (List Addr)

/-- An instruction up to its token operation. `go` is the rest of the handler, given the token accounts and mints as it
then finds them. -/
inductive Prepared where
  | done (w : World) (rc : Receipt)
  | transfer (k : Tokens) (t : Wanted) (go : Tokens → Cpi → Except Err (World × Receipt))
  | burn (k : Tokens) (program : TokenProgram) (src mint : Addr) (amount : Nat)
      (go : Tokens → Cpi → Except Err (World × Receipt))

/-- `handle_initialize_presale` up to the transfer (`process_initialize_presale.rs:8-145`). -/
def prepareInit (w : World) (tx : Tx) (a : InitPresaleAcc) : Except Err Prepared := do
  require (a.args.inRange = true ∧ slicesInRange a.slices = true) (.x .deserialize)
  let baseMint ← load (w.tk.mints a.presaleMint)
  let quoteMint ← load (w.tk.mints a.quoteTokenMint)
  require (tx.signed a.base = true ∧ tx.signed a.payer = true) (.x .missingSignature)
  require ((w.presales a.presaleKey).isNone = true
    ∧ (w.tk.toks (.baseVault a.presaleKey)).isNone = true
    ∧ (w.tk.toks (.quoteVault a.presaleKey)).isNone = true) (.x .accountInUse)
  require (baseMint.program = a.baseTokenProgram ∧ quoteMint.program = a.quoteTokenProgram)
    (.x .incorrectProgram)
  let t ← castTime w.clock
  a.args.validate t
  ensureSupportedMint quoteMint
  ensureSupportedMint baseMint
  let (p, remaining) ← processCreatePresaleVault w.fixedArgs a.presaleKey a.keys a.args t a.remaining
  let supply ← sumSupplies a.args.presaleRegistries 0
  let included ← transferFeeIncludedAmount baseMint supply
  let (hooks, _) ← parseHooks remaining a.slices [.transferHookBase]
  let tk0 : Tokens :=
    { w.tk with toks := upd (upd w.tk.toks (.baseVault a.presaleKey) (some (freshVault a.presaleMint)))
                          (.quoteVault a.presaleKey) (some (freshVault a.quoteTokenMint)) }
  let pp := a.args.presaleParams
  let l := a.args.lockedVestingParams.option
  return .transfer tk0 ⟨a.payer, a.presaleMint, a.payerPresaleToken, .baseVault a.presaleKey, a.baseTokenProgram,
      included, hooks.base⟩ fun tk cpi =>
    .ok ({ w with presales := upd w.presales a.presaleKey (some p), tk := tk },
      { event := some (.presaleVaultCreate a.presaleMint a.quoteTokenMint a.args.presaleRegistries
          ((l.map LockedVestingArgs.lockDuration).getD 0) ((l.map LockedVestingArgs.vestDuration).getD 0)
          pp.whitelistMode pp.presaleMode pp.presaleStartTime pp.presaleEndTime pp.presaleMaximumCap
          pp.presaleMinimumCap),
        cpis := [cpi] })

/-- `handle_deposit` up to the transfer (`process_deposit.rs:33-97`). -/
def prepareDeposit (w : World) (tx : Tx) (a : DepositAcc) : Except Err Prepared := do
  require (a.maxAmount < u64Bound ∧ slicesInRange a.slices = true) (.x .deserialize)
  let p ← load (w.presales a.presale)
  require (p.quoteTokenVault = a.quoteTokenVault ∧ p.quoteMint = a.quoteMint) (.x .constraint)
  let m ← load (w.tk.mints a.quoteMint)
  let e ← load (w.escrows.get? a.escrow)
  require (e.presale = a.presale) (.x .constraint)
  require (tx.signed a.payer = true) (.x .missingSignature)
  let t ← castTime w.clock
  let d ← depositCore p e t a.maxAmount
  let included ← transferFeeIncludedAmount m d.fees.amountIncludedFee
  let (hooks, _) ← parseHooks a.remaining a.slices [.transferHookQuote]
  return .transfer w.tk ⟨a.payer, a.quoteMint, a.payerQuoteToken, a.quoteTokenVault, a.tokenProgram, included,
      hooks.quote⟩ fun tk cpi =>
    .ok ({ w with presales := upd w.presales a.presale (some d.presale),
                  escrows := w.escrows.set a.escrow d.escrow, tk := tk },
      { event := some (.deposit a.presale a.escrow d.amount d.escrow.totalDeposit d.presale.totalDeposit
          a.payer d.fees.fee),
        cpis := [cpi] })

/-- `handle_withdraw` up to the transfer (`process_withdraw.rs:43-103`). The event reports what arrives; the fee is
read from the mint after the transfer (`process_withdraw.rs:105-109`). -/
def prepareWithdraw (w : World) (tx : Tx) (a : WithdrawAcc) : Except Err Prepared := do
  require (a.maxAmount < u64Bound ∧ slicesInRange a.slices = true) (.x .deserialize)
  let p ← load (w.presales a.presale)
  require (p.quoteTokenVault = a.quoteTokenVault ∧ p.quoteMint = a.quoteMint) (.x .constraint)
  let _ ← load (w.tk.mints a.quoteMint)
  let e ← load (w.escrows.get? a.escrow)
  require (e.presale = a.presale ∧ e.owner = a.owner) (.x .constraint)
  require (tx.signed a.owner = true) (.x .missingSignature)
  let t ← castTime w.clock
  let (p', e', amount) ← withdrawCore p e t a.maxAmount
  let (hooks, _) ← parseHooks a.remaining a.slices [.transferHookQuote]
  return .transfer w.tk ⟨.presaleAuthority, a.quoteMint, a.quoteTokenVault, a.ownerQuoteToken, a.tokenProgram, amount,
      hooks.quote⟩ fun tk cpi => do
    let m ← load (tk.mints a.quoteMint)
    let excluded ← transferFeeExcludedAmount m amount
    return ({ w with presales := upd w.presales a.presale (some p'),
                     escrows := w.escrows.set a.escrow e', tk := tk },
      { event := some (.withdraw a.presale a.escrow excluded e'.totalDeposit p'.totalDeposit a.owner),
        cpis := [cpi] })

/-- `handle_claim` up to the transfer (`process_claim.rs:46-90`); the fee reported is read afterwards
(`process_claim.rs:93-95`), as it is in the next four. -/
def prepareClaim (w : World) (tx : Tx) (a : ClaimAcc) : Except Err Prepared := do
  require (slicesInRange a.slices = true) (.x .deserialize)
  let p ← load (w.presales a.presale)
  require (p.baseTokenVault = a.baseTokenVault ∧ p.baseMint = a.baseMint) (.x .constraint)
  let _ ← load (w.tk.mints a.baseMint)
  let e ← load (w.escrows.get? a.escrow)
  require (e.presale = a.presale ∧ e.owner = a.owner) (.x .constraint)
  require ((w.tk.toks a.ownerBaseToken).isSome = true) (.x .accountNotFound)
  require (tx.signed a.owner = true) (.x .missingSignature)
  let t ← castTime w.clock
  require (p.getPresaleProgress t = .completed) (.p .presaleNotOpenForClaim)
  let h ← getPresaleModeHandler p
  let e1 ← h.updatePendingClaimAmount p e t
  let pending := e1.pendingClaimToken
  if pending > 0 then do
    let (p', e') ← p.claim e1
    let (hooks, _) ← parseHooks a.remaining a.slices [.transferHookBase]
    return .transfer w.tk ⟨.presaleAuthority, a.baseMint, a.baseTokenVault, a.ownerBaseToken, a.tokenProgram, pending,
        hooks.base⟩ fun tk cpi => do
      let m ← load (tk.mints a.baseMint)
      let excluded ← transferFeeExcludedAmount m pending
      return ({ w with presales := upd w.presales a.presale (some p'),
                       escrows := w.escrows.set a.escrow e', tk := tk },
        { event := some (.claim a.presale a.escrow excluded e'.totalClaimedToken p'.totalClaimedToken
            a.owner), cpis := [cpi] })
  else do
    let m ← load (w.tk.mints a.baseMint)
    let excluded ← transferFeeExcludedAmount m pending
    return .done { w with escrows := w.escrows.set a.escrow e1 }
      { event := some (.claim a.presale a.escrow excluded e1.totalClaimedToken p.totalClaimedToken
          a.owner), cpis := [] }

/-- `handle_withdraw_remaining_quote` up to the transfer (`process_withdraw_remaining_quote.rs:44-91`). -/
def prepareRefund (w : World) (tx : Tx) (a : RefundAcc) : Except Err Prepared := do
  require (slicesInRange a.slices = true) (.x .deserialize)
  let p ← load (w.presales a.presale)
  require (p.quoteTokenVault = a.quoteTokenVault ∧ p.quoteMint = a.quoteMint) (.x .constraint)
  let _ ← load (w.tk.mints a.quoteMint)
  let e ← load (w.escrows.get? a.escrow)
  require (e.presale = a.presale ∧ e.owner = a.owner) (.x .constraint)
  require ((w.tk.toks a.ownerQuoteToken).isSome = true) (.x .accountNotFound)
  require (tx.signed a.owner = true) (.x .missingSignature)
  require (e.remainingQuoteWithdrawn = false) (.p .remainingQuoteAlreadyWithdrawn)
  let t ← castTime w.clock
  let q ← p.validateAndGetEscrowRemainingQuote e t
  let total ← add64 q.refundDepositAmount q.refundFeeAmount
  let p' ← p.updateTotalRefundedQuoteToken total e.registryIndex
  let e' := e.updateRemainingQuoteWithdrawn
  let (hooks, _) ← parseHooks a.remaining a.slices [.transferHookQuote]
  let event : Nat → Event := fun excluded =>
    .withdrawRemainingQuote a.presale a.escrow a.owner excluded p'.totalRefundedQuoteToken
  if total > 0 then
    return .transfer w.tk ⟨.presaleAuthority, a.quoteMint, a.quoteTokenVault, a.ownerQuoteToken, a.tokenProgram, total,
        hooks.quote⟩ fun tk cpi => do
      let m ← load (tk.mints a.quoteMint)
      let excluded ← transferFeeExcludedAmount m total
      return ({ w with presales := upd w.presales a.presale (some p'),
                       escrows := w.escrows.set a.escrow e', tk := tk },
        { event := some (event excluded), cpis := [cpi] })
  else do
    let m ← load (w.tk.mints a.quoteMint)
    let excluded ← transferFeeExcludedAmount m total
    return .done { w with presales := upd w.presales a.presale (some p'), escrows := w.escrows.set a.escrow e' }
      { event := some (event excluded), cpis := [] }

/-- `handle_perform_unsold_base_token_action` up to the burn or transfer
(`process_perform_unsold_base_token_action.rs:42-109`). -/
def prepareUnsold (w : World) (_tx : Tx) (a : UnsoldAcc) : Except Err Prepared := do
  require (slicesInRange a.slices = true) (.x .deserialize)
  let p ← load (w.presales a.presale)
  require (p.baseTokenVault = a.baseTokenVault ∧ p.baseMint = a.baseMint) (.x .constraint)
  let c ← load (w.tk.toks a.creatorBaseToken)
  require (a.creatorBaseToken = .ata p.owner a.baseMint a.tokenProgram ∧ c.owner = p.owner
    ∧ c.mint = a.baseMint) (.x .constraint)
  let t ← castTime w.clock
  require (p.getPresaleProgress t = .completed) (.p .presaleNotCompleted)
  require (p.unsoldActionPerformed = false) (.p .unsoldBaseTokenActionAlreadyPerformed)
  let h ← getPresaleModeHandler p
  let unsold ← p.getTotalUnsoldToken h
  require (unsold > 0) (.p .noUnsoldBaseTokens)
  let p' := p.setUnsoldTokenActionPerformed
  let action := UnsoldTokenAction.ofByte p.unsoldTokenAction
  let go : Tokens → Cpi → Except Err (World × Receipt) := fun tk cpi =>
    .ok ({ w with presales := upd w.presales a.presale (some p'), tk := tk },
      { event := some (.performUnsoldBaseTokenAction a.presale unsold action), cpis := [cpi] })
  match action with
  | .burn => return .burn w.tk a.tokenProgram a.baseTokenVault a.baseMint unsold go
  | .refund => do
    let (hooks, _) ← parseHooks a.remaining a.slices [.transferHookBase]
    return .transfer w.tk ⟨.presaleAuthority, a.baseMint, a.baseTokenVault, a.creatorBaseToken, a.tokenProgram, unsold,
      hooks.base⟩ go

/-- `handle_creator_withdraw` up to the transfer (`process_creator_withdraw.rs:102-193`); the fee reported is read from
the mint after the transfer (`process_creator_withdraw.rs:195`). -/
def prepareCreatorWithdraw (w : World) (tx : Tx) (a : CreatorWithdrawAcc) : Except Err Prepared := do
  require (slicesInRange a.slices = true) (.x .deserialize)
  let p ← load (w.presales a.presale)
  require (p.owner = a.owner) (.x .constraint)
  require (tx.signed a.owner = true) (.x .missingSignature)
  let t ← castTime w.clock
  let progress := p.getPresaleProgress t
  require (progress = .completed ∨ progress = .failed) (.p .presaleNotOpenForWithdraw)
  require (p.creatorWithdrawn = false) (.p .creatorAlreadyWithdrawn)
  let p' := p.updateCreatorWithdrawn
  let c ← creatorPayout w p progress a.remaining
  let (hooks, _) ← parseHooks c.rest a.slices [c.hookType]
  let hookAccounts := if progress = .completed then hooks.quote else hooks.base
  return .transfer w.tk ⟨.presaleAuthority, c.mint, c.vault, a.ownerToken, a.tokenProgram, c.amount, hookAccounts⟩
    fun tk cpi => do
      let m ← load (tk.mints c.mint)
      let excluded ← transferFeeExcludedAmount m c.amount
      return ({ w with presales := upd w.presales a.presale (some p'), tk := tk },
        { event := some (.creatorWithdraw a.presale excluded a.owner progress), cpis := [cpi] })

/-- `handle_creator_collect_fee` up to the transfer (`process_creator_collect_fee.rs:38-77`). -/
def prepareCollectFee (w : World) (tx : Tx) (a : CollectFeeAcc) : Except Err Prepared := do
  require (slicesInRange a.slices = true) (.x .deserialize)
  let p ← load (w.presales a.presale)
  require (p.owner = a.owner ∧ p.quoteMint = a.quoteMint ∧ p.quoteTokenVault = a.quoteTokenVault)
    (.x .constraint)
  let _ ← load (w.tk.mints a.quoteMint)
  require ((w.tk.toks a.feeReceivingAccount).isSome = true) (.x .accountNotFound)
  require (tx.signed a.owner = true) (.x .missingSignature)
  let t ← castTime w.clock
  require (p.getPresaleProgress t = .completed ∧ p.feeCollected = false)
    (.p .presaleNotOpenForCollectFee)
  let fee ← p.getTotalCollectedFee
  let p' := p.setDepositFeeCollected
  let event : Nat → Event := fun excluded => .creatorCollectFee a.presale a.owner excluded
  if fee > 0 then do
    let (hooks, _) ← parseHooks a.remaining a.slices [.transferHookQuote]
    return .transfer w.tk ⟨.presaleAuthority, a.quoteMint, a.quoteTokenVault, a.feeReceivingAccount, a.tokenProgram,
        fee, hooks.quote⟩ fun tk cpi => do
      let m ← load (tk.mints a.quoteMint)
      let excluded ← transferFeeExcludedAmount m fee
      return ({ w with presales := upd w.presales a.presale (some p'), tk := tk },
        { event := some (event excluded), cpis := [cpi] })
  else do
    let m ← load (w.tk.mints a.quoteMint)
    let excluded ← transferFeeExcludedAmount m fee
    return .done { w with presales := upd w.presales a.presale (some p') }
      { event := some (event excluded), cpis := [] }

/-- Entry point; instructions that move no tokens are done at once. -/
def prepare (w : World) (tx : Tx) (i : Ix) : Except Err Prepared :=
  match i with
  | .initPresale a => prepareInit w tx a
  | .deposit a => prepareDeposit w tx a
  | .withdraw a => prepareWithdraw w tx a
  | .claim a => prepareClaim w tx a
  | .refund a => prepareRefund w tx a
  | .unsold a => prepareUnsold w tx a
  | .creatorWithdraw a => prepareCreatorWithdraw w tx a
  | .collectFee a => prepareCollectFee w tx a
  | i => do
    let (w', rc) ← execIx w tx i
    return .done w' rc

/-! ## Hook programs -/

/-- What a hook program can bring about by calling other programs: changes of token accounts that are not vaults, tokens
sent to a vault, freezing by a freeze authority, and changes of mints of SPL Token. Token-2022 and the presale program
are on the call stack when it runs, so a call of either (`reenter`) is refused by the runtime. -/
inductive HookCall where
  | setTok (a : Addr) (t : Option TokAcct)
  | donate (vault : Addr) (amount : Nat)
  | freezeVault (vault : Addr) (frozen : Bool)
  | setMint (a : Addr) (m : MintInfo)
  | reenter
  deriving Repr

/-- One call of a hook program, on the same conditions as in `step`. -/
def HookCall.exec (k : Tokens) : HookCall → Except Err Tokens
  | .setTok a t => do
    require (a.isVault = false) (.x .constraint)
    require (∀ x ∈ t, x.amount < u64Bound) (.x .tokenOverflow)
    return { k with toks := upd k.toks a t }
  | .donate v n => do
    let t ← load (k.toks v)
    require (t.amount + n < u64Bound) (.x .tokenOverflow)
    return { k with toks := upd k.toks v (some { t with amount := t.amount + n }) }
  | .freezeVault v b => do
    let t ← load (k.toks v)
    return { k with toks := upd k.toks v (some { t with frozen := b }) }
  | .setMint a m => do
    require (m.wellFormed = true ∧ m.program = .splToken ∧ ∀ old ∈ k.mints a, old.program = .splToken)
      (.x .constraint)
    require (∀ old ∈ k.mints a, isSupportedMint old = true →
      m.program = old.program ∧ m.isNative = old.isNative ∧ Ext.grown m.exts old.exts) (.x .constraint)
    return { k with mints := upd k.mints a (some m) }
  | .reenter => .error (.x .hookRejected)

/-- Calls in order; the first that fails makes everything fail. -/
def execCalls (k : Tokens) : List HookCall → Except Err Tokens
  | [] => .ok k
  | c :: cs => do
    let k' ← c.exec k
    execCalls k' cs

/-- A hook program with states `σ`: given its state, what is being transferred and the token accounts, it refuses or
goes to a new state and makes some calls. -/
def HookProgram (σ : Type) : Type := σ → Cpi → Tokens → Option (σ × List HookCall)

/-- What `transfer_checked` of Token-2022 does about a hook after moving the tokens: nothing for mints without one and
for transfers of an account to itself. -/
def runHook {σ : Type} (H : Addr → HookProgram σ) (s : σ) (t : Wanted) (k : Tokens) (cpi : Cpi) :
    Except Err (σ × Tokens) :=
  match (k.mints t.mint).bind MintInfo.hookProgram with
  | none => .ok (s, k)
  | some prog =>
    if t.src = t.dst then .ok (s, k)
    else
      match H prog s cpi k with
      | none => .error (.x .hookRejected)
      | some (s', calls) => do
        let k' ← execCalls k calls
        return (s', k')

/-- An instruction with its hook, if there is one. `tx.accept` is left for the other reasons for which a token program
may refuse. -/
def execHooked {σ : Type} (H : Addr → HookProgram σ) (s : σ) (w : World) (tx : Tx) (i : Ix) :
    Except Err (σ × World × Receipt) := do
  match ← prepare w tx i with
  | .done w' rc => return (s, w', rc)
  | .burn k prog src mint amount go =>
    let (k', cpi) ← burnTokens k prog src mint .presaleAuthority amount
    let (w', rc) ← go k' cpi
    return (s, w', rc)
  | .transfer k t go =>
    let (k', cpi) ← transferTokens k t.authority t.mint t.src t.dst t.program t.amount t.hooks tx.accept
    let (s', k'') ← runHook H s t k' cpi
    let (w', rc) ← go k'' cpi
    return (s', w', rc)

/-! ## Histories -/

/-- A ledger and the states of the hook programs. -/
structure HWorld (σ : Type) where
  w : World
  s : σ

/-- Everything that can happen: a step of the environment, an instruction, or somebody calling a hook program. -/
inductive HOp (σ : Type) where
  | env (op : Op)
  | ix (tx : Tx) (i : Ix)
  | poke (s : σ)

def hstep {σ : Type} (H : Addr → HookProgram σ) (h : HWorld σ) : HOp σ → Except Err (HWorld σ × Receipt)
  | .env (.ix _ _) => .error (.x .constraint)
  | .env op => do
    let (w', rc) ← step h.w op
    return ({ h with w := w' }, rc)
  | .ix tx i => do
    let (s', w', rc) ← execHooked H h.s h.w tx i
    return ({ w := w', s := s' }, rc)
  | .poke s => .ok ({ h with s := s }, noReceipt)

def happly {σ : Type} (H : Addr → HookProgram σ) (h : HWorld σ) (op : HOp σ) : HWorld σ :=
  match hstep H h op with
  | .ok (h', _) => h'
  | .error _ => h

def hrun {σ : Type} (H : Addr → HookProgram σ) (h : HWorld σ) : List (HOp σ) → HWorld σ
  | [] => h
  | op :: ops => hrun H (happly H h op) ops

/-- States that come about from an empty deployment. -/
def HReachable {σ : Type} (H : Addr → HookProgram σ) (h : HWorld σ) : Prop :=
  ∃ w0 s0 ops, Genesis w0 ∧ h = hrun H ⟨w0, s0⟩ ops

end Verif
