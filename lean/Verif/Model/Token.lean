import Verif.Model.Params
/-!
# Token layer

`token2022.rs`, and the part of SPL Token / Token-2022 the program calls (`transfer_checked`, `burn`,
fee formulas). The token programs are not in `/repo`; their behaviour is part of the trusted base.
-/

namespace Verif

/-! ## Mints and token accounts -/

/-- Mint extensions of Token-2022: the four the program accepts (`token2022.rs:32-35`), and any
other one. -/
inductive Ext where
  | transferFeeConfig
  | metadataPointer
  | tokenMetadata
  | transferHook
  | other (n : Nat)
  deriving DecidableEq, Repr

/-- How the list of extensions of an existing mint may change: Token-2022 removes none, and adds only the metadata
(`process_initialize` of the token-metadata interface); all others are chosen before the mint is initialised. -/
def Ext.grown (new old : List Ext) : Prop :=
  (∀ e ∈ old, e ∈ new) ∧ ∀ e ∈ new, e ∈ old ∨ e = .tokenMetadata

instance (new old : List Ext) : Decidable (Ext.grown new old) := by unfold Ext.grown; infer_instance

/-- `TransferFee` of the current epoch (`token2022.rs:138-157` picks it from the mint). -/
structure TransferFee where
  basisPoints : Nat
  maximumFee : Nat
  deriving DecidableEq, Repr

/-- What the program and the token programs read from a mint account. `fee` is the transfer fee of
the current epoch, `hook` the transfer-hook program. Decimals are omitted: the program always
passes the mint's own decimals to `transfer_checked`. -/
structure MintInfo where
  program : TokenProgram
  isNative : Bool
  exts : List Ext
  fee : Option TransferFee
  hook : Option Addr
  supply : Nat
  deriving DecidableEq, Repr

/-- A token account. Its token program is that of its mint. `delegate` is the approved delegate and
the delegated amount. -/
structure TokAcct where
  mint : Addr
  owner : Addr
  amount : Nat
  frozen : Bool
  delegate : Option (Addr × Nat)
  deriving DecidableEq, Repr

/-! ## Admitted mints -/

/-- Extension test of `is_supported_mint` (`token2022.rs:31-39`). -/
def extSupported (e : Ext) : Bool :=
  !(e != .transferFeeConfig && e != .metadataPointer && e != .tokenMetadata && e != .transferHook)

/-- `is_supported_mint` (`token2022.rs:18-41`). -/
def isSupportedMint (m : MintInfo) : Bool :=
  if m.program = .splToken then true
  else if m.isNative then false
  else m.exts.all extSupported

/-- `ensure_supported_token2022_extensions` (`token2022.rs:43-49`). -/
def ensureSupportedMint (m : MintInfo) : Except Err Unit :=
  require (isSupportedMint m = true) (.p .unsupportedToken2022MintOrExtension)

/-! ## Transfer fee arithmetic -/

/-- `TransferFee::ceil_div` (spl-token-2022). -/
def feeCeilDiv (a b : Nat) : Nat := (a + b - 1) / b

/-- `TransferFee::calculate_fee` (spl-token-2022). -/
def TransferFee.calculateFee (f : TransferFee) (amount : Nat) : Nat :=
  if f.basisPoints = 0 ∨ amount = 0 then 0
  else min (feeCeilDiv (amount * f.basisPoints) MAX_FEE_BASIS_POINTS) f.maximumFee

/-- `TransferFee::calculate_pre_fee_amount` (spl-token-2022). -/
def TransferFee.calculatePreFeeAmount (f : TransferFee) (post : Nat) : Option Nat :=
  if f.basisPoints = 0 then some post
  else if post = 0 then some 0
  else if f.basisPoints = MAX_FEE_BASIS_POINTS then
    if f.maximumFee + post < u64Bound then some (f.maximumFee + post) else none
  else
    let raw := feeCeilDiv (post * MAX_FEE_BASIS_POINTS) (MAX_FEE_BASIS_POINTS - f.basisPoints)
    if raw - post ≥ f.maximumFee then
      if post + f.maximumFee < u64Bound then some (post + f.maximumFee) else none
    else if raw < u64Bound then some raw else none

/-- `TransferFee::calculate_inverse_fee` (spl-token-2022). -/
def TransferFee.calculateInverseFee (f : TransferFee) (post : Nat) : Option Nat :=
  match f.calculatePreFeeAmount post with
  | none => none
  | some pre => some (f.calculateFee pre)

/-- `get_epoch_transfer_fee` (`token2022.rs:138-157`). -/
def MintInfo.epochFee (m : MintInfo) : Option TransferFee :=
  match m.program with
  | .splToken => none
  | .splToken2022 => m.fee

/-- `get_transfer_hook_program_id` (`token2022.rs:249-263`). -/
def MintInfo.hookProgram (m : MintInfo) : Option Addr :=
  match m.program with
  | .splToken => none
  | .splToken2022 => m.hook

/-- Fee the token program withholds from a transfer of `amount`. -/
def MintInfo.transferFee (m : MintInfo) (amount : Nat) : Nat :=
  match m.epochFee with
  | none => 0
  | some f => f.calculateFee amount

/-- `calculate_transfer_fee_excluded_amount` (`token2022.rs:64-85`). -/
def transferFeeExcludedAmount (m : MintInfo) (included : Nat) : Except Err Nat :=
  match m.epochFee with
  | none => .ok included
  | some f => sub included (f.calculateFee included)

/-- The fee to add (`token2022.rs:99-111`). -/
def feeToAdd (f : TransferFee) (excluded : Nat) : Except Err Nat :=
  if f.basisPoints = MAX_FEE_BASIS_POINTS then .ok f.maximumFee
  else
    match f.calculateInverseFee excluded with
    | some x => .ok x
    | none => .error (.p .mathOverflow)

/-- `calculate_transfer_fee_included_amount` (`token2022.rs:87-136`); the `unreachable!` is a panic. -/
def transferFeeIncludedAmount (m : MintInfo) (excluded : Nat) : Except Err Nat :=
  if excluded = 0 then .ok 0
  else
    match m.epochFee with
    | none => .ok excluded
    | some f => do
      let fee ← feeToAdd f excluded
      let included ← add64 excluded fee
      if fee ≠ f.calculateFee included then .error .panic
      else return included

/-! ## Remaining accounts -/

/-- `AccountsType` (`token2022.rs:159-163`). -/
inductive AccountsType where
  | transferHookBase
  | transferHookQuote
  deriving DecidableEq, Repr

/-- `RemainingAccountsSlice` (`token2022.rs:165-169`). -/
structure RemSlice where
  accountsType : AccountsType
  length : Nat
  deriving DecidableEq, Repr

/-- `ParsedRemainingTransferHookAccounts` (`token2022.rs:176-180`). -/
structure ParsedHooks where
  base : Option (List Addr)
  quote : Option (List Addr)
  deriving DecidableEq, Repr

/-- Loop of `parse_remaining_accounts_for_transfer_hook` (`token2022.rs:194-225`). -/
def parseHooksLoop (valid : List AccountsType) :
    List RemSlice → List Addr → ParsedHooks → Except Err (ParsedHooks × List Addr)
  | [], rem, acc => .ok (acc, rem)
  | s :: ss, rem, acc =>
    if ¬ (s.accountsType ∈ valid) then .error (.p .invalidRemainingAccountSlice)
    else if s.length = 0 then parseHooksLoop valid ss rem acc
    else if rem.length < s.length then .error (.p .invalidRemainingAccountSlice)
    else
      let accounts := rem.take s.length
      let rem' := rem.drop s.length
      match s.accountsType with
      | .transferHookBase =>
        if acc.base.isSome then .error (.p .duplicatedRemainingAccountTypes)
        else parseHooksLoop valid ss rem' { acc with base := some accounts }
      | .transferHookQuote =>
        if acc.quote.isSome then .error (.p .duplicatedRemainingAccountTypes)
        else parseHooksLoop valid ss rem' { acc with quote := some accounts }

/-- `parse_remaining_accounts_for_transfer_hook` (`token2022.rs:183-228`): parsed slices and the
accounts left over. The early return for an empty slice list is the loop's base case. -/
def parseHooks (rem : List Addr) (slices : List RemSlice) (valid : List AccountsType) :
    Except Err (ParsedHooks × List Addr) :=
  parseHooksLoop valid slices rem { base := none, quote := none }

/-! ## Token program instructions -/

/-- A call the program made into a token program (visible in the transaction record). `amount` is
what the source is debited; `fee` is withheld from the recipient. -/
inductive Cpi where
  | transfer (mint src dst authority : Addr) (amount fee : Nat)
  | burn (mint src : Addr) (amount : Nat)
  deriving DecidableEq, Repr

/-- The token accounts and mints of the ledger. -/
structure Tokens where
  toks : Addr → Option TokAcct
  mints : Addr → Option MintInfo

/-- Authority check and delegate bookkeeping of `transfer_checked` (SPL Token, Token-2022): a delegate
may move up to the delegated amount, otherwise the authority must be the owner. Returns the new
delegate field. -/
def authorizeSpend (t : TokAcct) (authority : Addr) (amount : Nat) :
    Except Err (Option (Addr × Nat)) :=
  match t.delegate with
  | some (d, n) =>
    if d = authority then
      if n < amount then .error (.x .insufficientFunds)
      else .ok (if n - amount = 0 then none else some (d, n - amount))
    else if t.owner = authority then .ok t.delegate
    else .error (.x .ownerMismatch)
  | none => if t.owner = authority then .ok none else .error (.x .ownerMismatch)

/-- `transfer_checked` of SPL Token / Token-2022 under token program `prog`. `accept` is false when the
transfer-hook program, a CPI guard or another account-level extension of a user account refuses
the transfer. A self-transfer changes nothing. -/
def transferChecked (k : Tokens) (prog : TokenProgram) (src mint dst authority : Addr)
    (amount : Nat) (accept : Bool) : Except Err (Tokens × Cpi) :=
  match k.toks src, k.mints mint, k.toks dst with
  | some s, some m, some d => do
    require (m.program = prog) (.x .incorrectProgram)
    require (s.mint = mint ∧ d.mint = mint) (.x .mintMismatch)
    require (s.frozen = false ∧ d.frozen = false) (.x .frozen)
    require (amount ≤ s.amount) (.x .insufficientFunds)
    let dlg ← authorizeSpend s authority amount
    require (accept = true) (.x .hookRejected)
    let fee := m.transferFee amount
    if src = dst then
      return (k, .transfer mint src dst authority amount fee)
    else do
      require (d.amount + (amount - fee) < u64Bound) (.x .tokenOverflow)
      let s' : TokAcct := { s with amount := s.amount - amount, delegate := dlg }
      let d' : TokAcct := { d with amount := d.amount + (amount - fee) }
      return ({ k with toks := upd (upd k.toks src (some s')) dst (some d') },
        .transfer mint src dst authority amount fee)
  | _, _, _ => .error (.x .accountNotFound)

/-- `burn` of SPL Token / Token-2022, by the owner of the account. Native mints cannot be burnt. -/
def burnTokens (k : Tokens) (prog : TokenProgram) (src mint authority : Addr) (amount : Nat) :
    Except Err (Tokens × Cpi) :=
  match k.toks src, k.mints mint with
  | some s, some m => do
    require (m.program = prog) (.x .incorrectProgram)
    require (s.mint = mint) (.x .mintMismatch)
    require (s.frozen = false) (.x .frozen)
    require (m.isNative = false) (.x .nativeNotSupported)
    require (amount ≤ s.amount) (.x .insufficientFunds)
    let dlg ← authorizeSpend s authority amount
    require (amount ≤ m.supply) (.x .tokenOverflow)
    let s' : TokAcct := { s with amount := s.amount - amount, delegate := dlg }
    let m' : MintInfo := { m with supply := m.supply - amount }
    return ({ toks := upd k.toks src (some s'), mints := upd k.mints mint (some m') },
      .burn mint src amount)
  | _, _ => .error (.x .accountNotFound)

/-- Hook-account part shared by `transfer_from_user` (`token2022.rs:308-329`) and
`transfer_from_presale_to_user` (`token2022.rs:375-396`). -/
def checkHookAccounts (m : MintInfo) (hookAccounts : Option (List Addr)) : Except Err Unit :=
  match m.hookProgram with
  | some _ => require (hookAccounts.isSome = true) (.p .missingRemainingAccountForTransferHook)
  | none => require (hookAccounts.isNone = true) (.p .noTransferHookProgram)

/-- `transfer_from_user` (`token2022.rs:271-334`) and `transfer_from_presale_to_user`
(`token2022.rs:336-405`): the two differ only in who signs the CPI (`authority`: the user, resp. the
presale authority PDA) and in the memo, which is not modelled. -/
def transferTokens (k : Tokens) (authority mint src dst : Addr) (prog : TokenProgram) (amount : Nat)
    (hookAccounts : Option (List Addr)) (accept : Bool) : Except Err (Tokens × Cpi) :=
  match k.mints mint with
  | none => .error (.x .accountNotFound)
  | some m => do
    checkHookAccounts m hookAccounts
    transferChecked k prog src mint dst authority amount accept

end Verif
