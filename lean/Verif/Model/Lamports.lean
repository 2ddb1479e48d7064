import Verif.Model.Instructions
/-!
# Lamports: rent of the accounts the program creates and closes

The ledger of `Model/World.lean` together with the lamports of every address. Instructions that create accounts
(`init` in an Anchor context) charge the rent-exempt minimum to the payer; instructions that close accounts
(`close = …`) pay the whole balance to the receiver. No other instruction moves lamports.

Simplifications: wrapped native tokens count as tokens (`TokAcct.amount`), not as lamports, so token transfers do
not show here; lamports sent to a vault of the native mint are `Op.donate`. Transaction fees and all other outside
movements are `COp.setLam`. The runtime also rejects a transaction leaving a payer with a positive balance below
its own rent-exempt minimum; that check is added in `Model/RentCheck.lean`.
-/

namespace Verif

/-- Rent parameters: the rent-exempt minimum for a size (`Rent::minimum_balance`) and the size of a token account
for a mint the program accepts, which depends on the token program and on whether the mint has a transfer fee and a
transfer hook (`get_required_init_account_extensions` of spl-token-2022: of the accepted extensions these two need
one in every token account). -/
structure RentEnv where
  minimum : Nat → Nat
  vaultSize : TokenProgram → (fee hook : Bool) → Nat

/-- Size of a token account for a mint. -/
def RentEnv.vault (r : RentEnv) (m : MintInfo) : Nat := 
  r.vaultSize m.program (m.exts.contains .transferFeeConfig) (m.exts.contains .transferHook)

/-- `8 + Presale::INIT_SPACE` (`state/presale.rs:159`, `process_initialize_presale.rs:26`) -/
def PRESALE_SPACE : Nat := 8 + 1264
/-- `8 + Escrow::INIT_SPACE` (`state/escrow.rs:32`) -/
def ESCROW_SPACE : Nat := 8 + 192
/-- `8 + FixedPricePresaleExtraArgs::INIT_SPACE` (`state/fixed_price_presale_params.rs:14`) -/
def FIXED_ARGS_SPACE : Nat := 8 + 160
/-- `8 + Operator::INIT_SPACE` (`state/operator.rs:11`) -/
def OPERATOR_SPACE : Nat := 8 + 128
/-- `8 + MerkleRootConfig::INIT_SPACE` (`state/merkle_root_config.rs:19`) -/
def MERKLE_SPACE : Nat := 8 + 144
/-- `8 + PermissionedServerMetadata::space(url)` (`state/permissioned_server_metadata.rs:21-26`) -/
def metadataSpace (url : Bytes) : Nat := 8 + (32 + 16 * 8 + 4 + url.length)

/-- The ledger with lamports. -/
structure Chain where
  w : World
  rent : RentEnv
  lam : Addr → Nat

/-- Size of the account the program has created at an address, if any. -/
def accountSize (r : RentEnv) (w : World) : Addr → Option Nat
  | .presale b m q => (w.presales (.presale b m q)).map fun _ => PRESALE_SPACE
  | .baseVault a => (w.presales a).bind fun p => (w.tk.mints p.baseMint).map r.vault
  | .quoteVault a => (w.presales a).bind fun p => (w.tk.mints p.quoteMint).map r.vault
  | .fixedPriceArgs a => (w.fixedArgs (.fixedPriceArgs a)).map fun _ => FIXED_ARGS_SPACE
  | .escrow a o i => (w.escrows.get? (.escrow a o i)).map fun _ => ESCROW_SPACE
  | .merkleRoot a v => (w.merkleRoots (.merkleRoot a v)).map fun _ => MERKLE_SPACE
  | .operator c o => (w.operators (.operator c o)).map fun _ => OPERATOR_SPACE
  | .serverMetadata a => (w.metadata (.serverMetadata a)).map fun m => metadataSpace m.serverUrl
  | _ => none

/-- Who pays for new accounts (`payer = …` of the contexts: `process_initialize_extra_presale_params.rs:13`,
`process_initialize_presale.rs:25,45,59`, `process_create_merkle_root_config.rs:25`,
`process_create_permissionless_escrow.rs:23`, `process_create_permissioned_escrow_with_creator.rs:31`,
`process_create_permissioned_escrow_with_merkle_proof.rs:38`, `process_create_operator.rs:14`,
`process_create_permissioned_server_metadata.rs:18`). -/
def rentPayer : Ix → Option Addr
  | .initFixedArgs a => some a.payer
  | .initPresale a => some a.payer
  | .createMerkle a => some a.creator
  | .createEscrow a => some a.payer
  | .createEscrowCreator a => some a.payer
  | .createEscrowMerkle a => some a.payer
  | .createOperator a => some a.creator
  | .createMetadata a => some a.owner
  | _ => none

/-- Accounts created (`init`), in order, with their sizes; same places. -/
def creations (r : RentEnv) (w : World) : Ix → List (Addr × Nat)
  | .initFixedArgs a => [(.fixedPriceArgs a.presale, FIXED_ARGS_SPACE)]
  | .initPresale a =>
    [(a.presaleKey, PRESALE_SPACE),
     (.baseVault a.presaleKey, ((w.tk.mints a.presaleMint).map r.vault).getD 0),
     (.quoteVault a.presaleKey, ((w.tk.mints a.quoteTokenMint).map r.vault).getD 0)]
  | .createMerkle a => [(.merkleRoot a.presale a.version, MERKLE_SPACE)]
  | .createEscrow a => [(.escrow a.presale a.owner DEFAULT_PERMISSIONLESS_REGISTRY_INDEX, ESCROW_SPACE)]
  | .createEscrowCreator a => [(.escrow a.presale a.owner a.registryIndex, ESCROW_SPACE)]
  | .createEscrowMerkle a => [(.escrow a.presale a.owner a.registryIndex, ESCROW_SPACE)]
  | .createOperator a => [(.operator a.creator a.operatorOwner, OPERATOR_SPACE)]
  | .createMetadata a => [(.serverMetadata a.presale, metadataSpace a.serverUrl)]
  | _ => []

/-- The account closed and the receiver of its lamports (`close = …`:
`process_close_extra_presale_params.rs:8`, `process_close_merkle_root_config.rs:11`,
`process_revoke_operator.rs:9`, `process_close_escrow.rs:13`, `process_close_merkle_proof_metadata.rs:14`). -/
def closing : Ix → Option (Addr × Addr)
  | .closeFixedArgs a => some (a.account, a.owner)
  | .closeMerkle a => some (a.config, a.rentReceiver)
  | .revokeOperator a => some (a.operator, a.creator)
  | .closeEscrow a => some (a.escrow, a.rentReceiver)
  | .closeMetadata a => some (a.account, a.rentReceiver)
  | _ => none

/-- System-program transfer; the source must have the amount. -/
def moveLam (lam : Addr → Nat) (src dst : Addr) (n : Nat) : Except Err (Addr → Nat) := do
  require (src ≠ dst) (.x .constraint)
  require (n ≤ lam src) (.x .insufficientFunds)
  return upd (upd lam src (lam src - n)) dst (lam dst + n)

/-- Anchor's `init`: the payer tops the new address up to the rent-exempt minimum. -/
def payRent (r : RentEnv) (payer : Addr) : List (Addr × Nat) → (Addr → Nat) → Except Err (Addr → Nat)
  | [], lam => .ok lam
  | (a, n) :: rest, lam => do
    let lam ← moveLam lam payer a (r.minimum n - lam a)
    payRent r payer rest lam

/-- Rent for the accounts an instruction creates. -/
def chargeRent (r : RentEnv) (w : World) (i : Ix) (lam : Addr → Nat) : Except Err (Addr → Nat) :=
  match rentPayer i with
  | some p => payRent r p (creations r w i) lam
  | none => .ok lam

/-- Lamports of the account an instruction closes. -/
def payOut (i : Ix) (lam : Addr → Nat) : Except Err (Addr → Nat) :=
  match closing i with
  | some (a, dst) => moveLam lam a dst (lam a)
  | none => .ok lam

/-- Lamports moved by an instruction executed in ledger `w`. -/
def lamports (r : RentEnv) (w : World) (i : Ix) (lam : Addr → Nat) : Except Err (Addr → Nat) := do
  let lam ← chargeRent r w i lam
  payOut i lam

/-- Only instructions of the program move lamports here. -/
def opLamports (r : RentEnv) (w : World) (o : Op) (lam : Addr → Nat) : Except Err (Addr → Nat) :=
  match o with
  | .ix _ i => lamports r w i lam
  | _ => .ok lam

/-- What can happen: anything of `Op`, or an outside change of lamports. -/
inductive COp where
  | op (o : Op)
  | setLam (a : Addr) (n : Nat)
  deriving Repr

/-- One step. From outside, the lamports of an account of the program can only grow: only its owner, the presale
program or the token program, may debit an account. -/
def cstep (c : Chain) : COp → Except Err (Chain × Receipt)
  | .op o => do
    let (w', rc) ← step c.w o
    let lam ← opLamports c.rent c.w o c.lam
    return ({ c with w := w', lam := lam }, rc)
  | .setLam a n => do
    require ((accountSize c.rent c.w a).isSome = true → c.lam a ≤ n) (.x .constraint)
    return ({ c with lam := upd c.lam a n }, noReceipt)

/-- A failed step changes nothing. -/
def capply (c : Chain) (o : COp) : Chain :=
  match cstep c o with
  | .ok (c', _) => c'
  | .error _ => c

/-- Execute a history. -/
def crun (c : Chain) : List COp → Chain
  | [] => c
  | o :: os => crun (capply c o) os

/-- States reachable from an empty deployment with any balances. -/
def CReachable (c : Chain) : Prop := ∃ c0 os, Genesis c0.w ∧ c = crun c0 os

end Verif
