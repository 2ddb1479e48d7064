import Verif.Model.Data
import Verif.Model.Instructions
/-!
# The program entry point: account lists and bytes

A call as the runtime delivers it: instruction data and an ordered list of accounts, each with its `is_signer` and
`is_writable` flag. Anchor decodes the data (`Model/Data.lean`), matches the accounts with the fields of the context in
declaration order, checks flags and fixed addresses, and leaves the accounts that follow as `remaining_accounts`.

Simplifications: the order in which Anchor reports failing checks is not kept (all of them make the instruction fail);
`executable` flags of programs are not modelled; `Signer` is checked here as a flag and again by the handlers.
-/

namespace Verif

/-- Addresses of programs named by the contexts. -/
structure ProgIds where
  /-- `System` -/
  system : Addr
  /-- `Memo` (`constants.rs`, `token2022.rs`) -/
  memo : Addr
  /-- SPL Token -/
  token : Addr
  /-- Token-2022 -/
  token2022 : Addr
  /-- PDA `["__event_authority"]` of the program, added by `#[event_cpi]` -/
  eventAuthority : Addr
  /-- the program itself, added by `#[event_cpi]` -/
  self : Addr
  distinct : token ≠ token2022

/-- `AccountInfo`: address and flags. -/
structure Meta where
  key : Addr
  signer : Bool
  writable : Bool
  deriving DecidableEq, Repr

/-- A call as delivered by the runtime. -/
structure Raw where
  accounts : List Meta
  data : Bytes
  deriving Repr

/-- Flags a context field demands: `Signer<'info>`, and `mut` or `init`. -/
structure Field where
  signer : Bool
  writable : Bool
  deriving DecidableEq, Repr

/-- neither `mut` nor `Signer` -/
def Field.ro : Field := ⟨false, false⟩
/-- `#[account(mut)]` or `#[account(init)]` -/
def Field.mu : Field := ⟨false, true⟩
/-- `Signer<'info>` -/
def Field.sg : Field := ⟨true, false⟩
/-- `#[account(mut)] Signer<'info>` -/
def Field.ms : Field := ⟨true, true⟩

open Field in
/-- The fields of every context in declaration order (without the two of `#[event_cpi]`):
`process_initialize_extra_presale_params.rs:6-25`, `process_close_extra_presale_params.rs:5-15`,
`process_initialize_presale.rs:12-81`, `process_create_merkle_root_config.rs:14-37`,
`process_close_merkle_root_config.rs:5-23`, `process_create_permissionless_escrow.rs:10-35`,
`process_create_permissioned_escrow_with_creator.rs:18-47`,
`process_create_permissioned_escrow_with_merkle_proof.rs:25-53`, `process_create_operator.rs:5-26`,
`process_revoke_operator.rs:5-15`, `process_deposit.rs:7-30`, `process_withdraw.rs:10-41`, `process_claim.rs:10-44`,
`process_withdraw_remaining_quote.rs:9-42`, `process_perform_unsold_base_token_action.rs:10-40`,
`process_close_escrow.rs:5-22`, `process_creator_withdraw.rs:12-32`, `process_refresh_escrow.rs:5-13`,
`process_create_permissioned_server_metadata.rs:6-27`, `process_close_merkle_proof_metadata.rs:5-23`,
`process_creator_collect_fee.rs:9-36`. -/
def contextFields : IxName → List Field
  | .initFixedArgs => [mu, ro, ms, ro]
  | .closeFixedArgs => [mu, ms]
  | .initPresale => [ro, mu, ro, ro, mu, mu, mu, ro, sg, ms, ro, ro, ro]
  | .createMerkle => [ro, mu, ms, ro]
  | .closeMerkle => [ro, mu, mu, sg]
  | .createEscrow => [mu, mu, ro, ms, ro]
  | .createEscrowCreator => [mu, mu, ro, ro, sg, ms, ro]
  | .createEscrowMerkle => [mu, mu, ro, ro, ms, ro]
  | .createOperator => [mu, ro, ms, ro]
  | .revokeOperator => [mu, ms]
  | .deposit => [mu, mu, ro, mu, mu, sg, ro]
  | .withdraw => [mu, mu, ro, ro, mu, mu, sg, ro, ro]
  | .claim => [mu, mu, ro, ro, mu, mu, sg, ro, ro]
  | .refund => [mu, mu, ro, ro, mu, mu, sg, ro, ro]
  | .unsold => [mu, mu, mu, ro, mu, ro, ro]
  | .closeEscrow => [mu, mu, sg, mu]
  | .creatorWithdraw => [mu, ro, mu, sg, ro, ro]
  | .refresh => [ro, mu]
  | .createMetadata => [ro, mu, ms, ro]
  | .closeMetadata => [ro, mu, mu, sg]
  | .collectFee => [mu, ro, mu, ro, mu, sg, ro, ro]

/-- Anchor takes one account per field from the front of the list and checks its flags. -/
def takeAccounts : List Field → List Meta → Except Err (List Addr × List Meta)
  | [], ms => .ok ([], ms)
  | _ :: _, [] => .error (.x .accountNotFound)
  | f :: fs, m :: ms => do
    require (f.signer = true → m.signer = true) (.x .missingSignature)
    require (f.writable = true → m.writable = true) (.x .constraint)
    let (as, rest) ← takeAccounts fs ms
    return (m.key :: as, rest)

/-- `Interface<'info, TokenInterface>`: one of the two token programs. -/
def ProgIds.tokenProgram (P : ProgIds) (a : Addr) : Except Err TokenProgram :=
  if a = P.token then .ok .splToken
  else if a = P.token2022 then .ok .splToken2022
  else .error (.x .incorrectProgram)

/-- The accounts of a context and the arguments of the call, as the handlers of `Model/Instructions.lean` take them.
Checks here: `address = …`, `seeds = …` of `init` accounts, and the addresses of programs. For `creator_withdraw` the
vault, first of the remaining accounts, must be writable (`process_creator_withdraw.rs:36,70`). -/
def buildIx (P : ProgIds) : (n : IxName) → n.Args → List Addr → List Meta → Except Err Ix
  | .initFixedArgs, (x : Addr × Nat × Nat × Unit), [args, owner, payer, sys], _ => do
    require (args = .fixedPriceArgs x.1 ∧ sys = P.system) (.x .constraint)
    return .initFixedArgs { owner := owner, payer := payer, presale := x.1, disableWithdraw := x.2.1,
                            qPrice := x.2.2.1 }
  | .closeFixedArgs, _, [args, owner], _ => .ok (.closeFixedArgs { account := args, owner := owner })
  | .initPresale, (x : InitializePresaleArgs × List RemSlice),
      [mint, presale, auth, quote, vault, quoteVault, src, creator, base, payer, bp, qp, sys], rest => do
    require (presale = .presale base mint quote ∧ auth = .presaleAuthority ∧ vault = .baseVault presale ∧
      quoteVault = .quoteVault presale ∧ sys = P.system) (.x .constraint)
    let bp ← P.tokenProgram bp
    let qp ← P.tokenProgram qp
    return .initPresale { presaleMint := mint, quoteTokenMint := quote, payerPresaleToken := src, creator := creator,
                          base := base, payer := payer, baseTokenProgram := bp, quoteTokenProgram := qp, args := x.1,
                          remaining := rest.map Meta.key, slices := x.2 }
  | .createMerkle, (x : Bytes × Nat), [presale, config, creator, sys], _ => do
    require (config = .merkleRoot presale x.2 ∧ sys = P.system) (.x .constraint)
    return .createMerkle { presale := presale, creator := creator, root := x.1, version := x.2 }
  | .closeMerkle, _, [presale, config, rent, creator], _ =>
    .ok (.closeMerkle { presale := presale, config := config, creator := creator, rentReceiver := rent })
  | .createEscrow, _, [presale, escrow, owner, payer, sys], _ => do
    require (escrow = .escrow presale owner DEFAULT_PERMISSIONLESS_REGISTRY_INDEX ∧ sys = P.system) (.x .constraint)
    return .createEscrow { presale := presale, owner := owner, payer := payer }
  | .createEscrowCreator, (x : Nat × Nat × Unit), [presale, escrow, owner, operator, operatorOwner, payer, sys], _ => do
    require (escrow = .escrow presale owner x.1 ∧ sys = P.system) (.x .constraint)
    return .createEscrowCreator { presale := presale, owner := owner, operator := operator,
                                  operatorOwner := operatorOwner, payer := payer, registryIndex := x.1,
                                  depositCap := x.2.1 }
  | .createEscrowMerkle, (x : List Bytes × Nat × Nat × Unit), [presale, escrow, owner, config, payer, sys], _ => do
    require (escrow = .escrow presale owner x.2.1 ∧ sys = P.system) (.x .constraint)
    return .createEscrowMerkle { presale := presale, owner := owner, config := config, payer := payer, proof := x.1,
                                 registryIndex := x.2.1, depositCap := x.2.2.1 }
  | .createOperator, _, [operator, operatorOwner, creator, sys], _ => do
    require (operator = .operator creator operatorOwner ∧ sys = P.system) (.x .constraint)
    return .createOperator { operatorOwner := operatorOwner, creator := creator }
  | .revokeOperator, _, [operator, creator], _ => .ok (.revokeOperator { operator := operator, creator := creator })
  | .deposit, (x : Nat × List RemSlice), [presale, vault, mint, escrow, src, payer, tp], rest => do
    let tp ← P.tokenProgram tp
    return .deposit { presale := presale, quoteTokenVault := vault, quoteMint := mint, escrow := escrow,
                      payerQuoteToken := src, payer := payer, tokenProgram := tp, maxAmount := x.1,
                      remaining := rest.map Meta.key, slices := x.2 }
  | .withdraw, (x : Nat × List RemSlice), [presale, vault, mint, auth, escrow, dst, owner, tp, memo], rest => do
    require (auth = .presaleAuthority ∧ memo = P.memo) (.x .constraint)
    let tp ← P.tokenProgram tp
    return .withdraw { presale := presale, quoteTokenVault := vault, quoteMint := mint, escrow := escrow,
                       ownerQuoteToken := dst, owner := owner, tokenProgram := tp, maxAmount := x.1,
                       remaining := rest.map Meta.key, slices := x.2 }
  | .claim, (x : List RemSlice), [presale, vault, mint, auth, escrow, dst, owner, tp, memo], rest => do
    require (auth = .presaleAuthority ∧ memo = P.memo) (.x .constraint)
    let tp ← P.tokenProgram tp
    return .claim { presale := presale, baseTokenVault := vault, baseMint := mint, escrow := escrow,
                    ownerBaseToken := dst, owner := owner, tokenProgram := tp,
                    remaining := rest.map Meta.key, slices := x }
  | .refund, (x : List RemSlice), [presale, vault, mint, auth, escrow, dst, owner, tp, memo], rest => do
    require (auth = .presaleAuthority ∧ memo = P.memo) (.x .constraint)
    let tp ← P.tokenProgram tp
    return .refund { presale := presale, quoteTokenVault := vault, quoteMint := mint, escrow := escrow,
                     ownerQuoteToken := dst, owner := owner, tokenProgram := tp,
                     remaining := rest.map Meta.key, slices := x }
  | .unsold, (x : List RemSlice), [presale, vault, mint, auth, dst, tp, memo], rest => do
    require (auth = .presaleAuthority ∧ memo = P.memo) (.x .constraint)
    let tp ← P.tokenProgram tp
    return .unsold { presale := presale, baseTokenVault := vault, baseMint := mint, creatorBaseToken := dst,
                     tokenProgram := tp, remaining := rest.map Meta.key, slices := x }
  | .closeEscrow, _, [presale, escrow, owner, rent], _ =>
    .ok (.closeEscrow { presale := presale, escrow := escrow, owner := owner, rentReceiver := rent })
  | .creatorWithdraw, (x : List RemSlice), [presale, auth, dst, owner, tp, memo], rest => do
    require (auth = .presaleAuthority ∧ memo = P.memo) (.x .constraint)
    require (∀ m ∈ rest.take 1, m.writable = true) (.x .constraint)
    let tp ← P.tokenProgram tp
    return .creatorWithdraw { presale := presale, ownerToken := dst, owner := owner, tokenProgram := tp,
                              remaining := rest.map Meta.key, slices := x }
  | .refresh, _, [presale, escrow], _ => .ok (.refresh { presale := presale, escrow := escrow })
  | .createMetadata, (x : Bytes), [presale, metadata, owner, sys], _ => do
    require (metadata = .serverMetadata presale ∧ sys = P.system) (.x .constraint)
    return .createMetadata { presale := presale, owner := owner, serverUrl := x }
  | .closeMetadata, _, [presale, metadata, rent, owner], _ =>
    .ok (.closeMetadata { presale := presale, account := metadata, owner := owner, rentReceiver := rent })
  | .collectFee, (x : List RemSlice), [presale, auth, vault, mint, dst, owner, tp, memo], rest => do
    require (auth = .presaleAuthority ∧ memo = P.memo) (.x .constraint)
    let tp ← P.tokenProgram tp
    return .collectFee { presale := presale, quoteTokenVault := vault, quoteMint := mint, feeReceivingAccount := dst,
                         owner := owner, tokenProgram := tp, remaining := rest.map Meta.key, slices := x }
  | _, _, _, _ => .error (.x .accountNotFound)

/-- Accounts of a call matched with its context; `#[event_cpi]` adds two fields at the end. -/
def bindAccounts (P : ProgIds) (c : Call) (accounts : List Meta) : Except Err Ix := do
  let (as, rest) ← takeAccounts (contextFields c.1) accounts
  let (ev, rest) ← takeAccounts [Field.ro, Field.ro] rest
  require (ev = [P.eventAuthority, P.self]) (.x .constraint)
  buildIx P c.1 c.2 as rest

/-- Instruction data decoded, or refused. -/
def readCall (D : Discs IxName) (K : Keys) (data : Bytes) : Except Err Call :=
  match decodeCall D K data with
  | some c => .ok c
  | none => .error (.x .deserialize)

/-- The signatures a call comes with. -/
def Raw.tx (r : Raw) (accept : Bool) : Tx :=
  { signers := (r.accounts.filter (fun m => m.signer)).map Meta.key, accept := accept }

/-- The program entry point. -/
def execRaw (P : ProgIds) (D : Discs IxName) (K : Keys) (w : World) (accept : Bool) (r : Raw) :
    Except Err (World × Receipt) := do
  let c ← readCall D K r.data
  let i ← bindAccounts P c r.accounts
  execIx w (r.tx accept) i

end Verif
