import Verif.Model.Instructions
import Verif.Model.Merkle
/-!
# Replaying the project's own tests

The project tests its program with `litesvm` (`programs/presale/tests`). These files replay the tests'
transactions in the model and check what the tests assert: the amounts they expect and the error numbers they
expect. Nothing here is a proof of a property: the replays are evidence that the model is the program.

This file has the set-up of the tests (`tests/helpers`).

The tests wrap the native mint when it is the quote mint; here every user has a token account holding enough
of both mints. The clock of the tests is the machine's; here it starts at 1 000 000 000.
-/

namespace Verif.Replay

/-- The creator, the payer and the base key of nearly all tests. -/
def user : Addr := .key 1
def user1 : Addr := .key 2
def user2 : Addr := .key 3
def operator : Addr := .key 4
def base : Addr := .key 10
def quote : Addr := .key 11

/-- `derive_presale` (`helpers/pda.rs`). -/
def sale : Addr := .presale user base quote

def SOL : Nat := 1000000000
def now : Nat := 1000000000

/-! ## Mints (`helpers/commons.rs:132-394`) -/

/-- `setup_mint` -/
def spl : MintInfo :=
  { program := .splToken, isNative := false, exts := [], fee := none, hook := none, supply := 10 ^ 15 }
def native : MintInfo := { spl with isNative := true, supply := 0 }
/-- `setup_token_2022_mint`: Token-2022 with immutable metadata. -/
def t22 : MintInfo :=
  { program := .splToken2022, isNative := false, exts := [.metadataPointer, .tokenMetadata], fee := none,
    hook := none, supply := 5 * 10 ^ 15 }
/-- `setup_token_2022_mint_with_transfer_hook` -/
def t22Hook : MintInfo :=
  { t22 with exts := [.metadataPointer, .transferHook, .tokenMetadata], hook := some (.key 900) }
/-- `setup_token_2022_mint_with_transfer_fee`: 1%, at most 1 000 000. -/
def t22Fee : MintInfo :=
  { t22 with
    exts := [.metadataPointer, .transferFeeConfig, .tokenMetadata],
    fee := some { basisPoints := 100, maximumFee := 1000000 } }
/-- `setup_token_2022_mint_with_transfer_hook_and_fee` -/
def t22HookFee : MintInfo :=
  { t22Hook with
    exts := [.metadataPointer, .transferHook, .transferFeeConfig, .tokenMetadata],
    fee := some { basisPoints := 100, maximumFee := 1000000 } }

/-- The accounts a transfer of the hook mints needs (`get_extra_account_metas_for_transfer_hook`). -/
def hookAccounts (m : MintInfo) : List Addr :=
  match m.hook with
  | some h => [h, .key 901, .key 902]
  | none => []

/-- Two mints and a token account of each for each user. -/
def start (b q : MintInfo) : World :=
  { env := { hash := fun b => List.replicate 31 0 ++ [b.foldl (fun x y => 31 * x + y) 7],
             keyBytes := fun a => match a with
               | .key n => List.replicate 31 0 ++ [UInt8.ofNat n]
               | _ => List.replicate 32 255 },
    clock := now, presales := fun _ => none, escrows := [], merkleRoots := fun _ => none,
    operators := fun _ => none, metadata := fun _ => none, fixedArgs := fun _ => none,
    tk := { toks := fun a => match a with
              | .ata (.key n) m pr =>
                if m = base ∧ pr = b.program then
                  some { mint := base, owner := .key n, amount := if n = 1 then 5 * 10 ^ 15 else 10 ^ 14,
                         frozen := false, delegate := none }
                else if m = quote ∧ pr = q.program then
                  some { mint := quote, owner := .key n, amount := 10 ^ 17, frozen := false, delegate := none }
                else none
              | _ => none,
            mints := fun a => if a = base then some b else if a = quote then some q else none } }

/-! ## Creation arguments (`helpers/process_initialize_presale.rs`) -/

inductive Mode where
  | fixedPrice | prorata | fcfs
  deriving DecidableEq

def Mode.byte : Mode → Nat
  | .fixedPrice => 0
  | .prorata => 1
  | .fcfs => 2

inductive Access where
  | permissionless | merkle | authority
  deriving DecidableEq

def Access.byte : Access → Nat
  | .permissionless => 0
  | .merkle => 1
  | .authority => 2

/-- `create_default_presale_args` (`:82-97`) -/
def presaleArgs (m : Mode) (a : Access) : PresaleArgs :=
  { presaleMaximumCap := SOL, presaleMinimumCap := 1000000, presaleStartTime := now,
    presaleEndTime := now + 120, whitelistMode := a.byte, presaleMode := m.byte, unsoldTokenAction := 0,
    disableEarlierPresaleEndOnceCapReached := 0 }

/-- `create_default_locked_vesting_args` (`:99-105`) -/
def vesting : LockedVestingArgs :=
  { immediatelyReleaseBps := 0, lockDuration := 3600, vestDuration := 86400, immediateReleaseTimestamp := 0,
    paddingIsZero := true }
/-- `LockedVestingArgs::default()` -/
def noVesting : LockedVestingArgs :=
  { immediatelyReleaseBps := 0, lockDuration := 0, vestDuration := 0, immediateReleaseTimestamp := 0,
    paddingIsZero := true }

/-- `calculate_q_price_from_ui_price(0.01, 6, 9)`: ten quote units for one base unit. -/
def price : Nat := 10 * 2 ^ 64

/-- `create_default_presale_registries` (`:42-80`) -/
def registry (m : Mode) (a : Access) (bps : Nat) : RegistryArgs :=
  { buyerMinimumDepositCap :=
      if a = .permissionless then 1000 else match m with | .fixedPrice => 10 | _ => 1,
    buyerMaximumDepositCap := SOL, presaleSupply := 10 ^ 15 * bps / 10000, depositFeeBps := 0 }
/-- `PRESALE_REGISTRIES_DEFAULT_BASIS_POINTS` -/
def oneRegistry (m : Mode) (a : Access) : List RegistryArgs := [registry m a 10000]
/-- `PRESALE_MULTIPLE_REGISTRIES_DEFAULT_BASIS_POINTS` -/
def fiveRegistries (m : Mode) (a : Access) : List RegistryArgs := List.replicate 5 (registry m a 2000)
/-- `update_presale_registries_with_default_deposit_fee` (`:107-116`) -/
def withFee (rs : List RegistryArgs) : List RegistryArgs := rs.map fun r => { r with depositFeeBps := 500 }

def args (m : Mode) (a : Access) : InitializePresaleArgs :=
  { presaleParams := presaleArgs m a, lockedVestingParams := vesting, presaleRegistries := oneRegistry m a }

def tx (signers : List Addr) : Tx := { signers := signers, accept := true }

/-- `handle_initialize_fixed_token_price_presale_params` -/
def fixedArgs (qPrice disableWithdraw : Nat) : Op :=
  .ix (tx [user]) (.initFixedArgs ⟨user, user, sale, disableWithdraw, qPrice⟩)

/-- The programs and the hook accounts of the mints of a world. -/
def mint (w : World) (a : Addr) : MintInfo := (w.tk.mints a).getD spl

/-- `initialize_presale` with the given remaining accounts in front. -/
def createWith (w : World) (front : List Addr) (x : InitializePresaleArgs) : Op :=
  .ix (tx [user]) (.initPresale
    { presaleMint := base, quoteTokenMint := quote,
      payerPresaleToken := .ata user base (mint w base).program, creator := user, base := user, payer := user,
      baseTokenProgram := (mint w base).program, quoteTokenProgram := (mint w quote).program, args := x,
      remaining := front ++ hookAccounts (mint w base),
      slices := [⟨.transferHookBase, (hookAccounts (mint w base)).length⟩] })

/-- The transactions of the `create_default_*_presale_args_wrapper`s. -/
def create (w : World) (x : InitializePresaleArgs) : List Op :=
  if x.presaleParams.presaleMode = 0 then
    [fixedArgs price 0, createWith w [.fixedPriceArgs sale] x]
  else [createWith w [] x]

/-! ## The other instructions -/

def escrowOf (owner : Addr) (i : Nat) : Addr := .escrow sale owner i
def quoteOf (w : World) (owner : Addr) : Addr := .ata owner quote (mint w quote).program
def baseOf (w : World) (owner : Addr) : Addr := .ata owner base (mint w base).program
def quoteSlices (w : World) : List RemSlice := [⟨.transferHookQuote, (hookAccounts (mint w quote)).length⟩]
def baseSlices (w : World) : List RemSlice := [⟨.transferHookBase, (hookAccounts (mint w base)).length⟩]

def openEscrow (owner : Addr) : Op :=
  .ix (tx [owner]) (.createEscrow { presale := sale, owner := owner, payer := owner })

def depositOnly (w : World) (owner : Addr) (i amount : Nat) : Op :=
  .ix (tx [owner]) (.deposit
    { presale := sale, quoteTokenVault := .quoteVault sale, quoteMint := quote, escrow := escrowOf owner i,
      payerQuoteToken := quoteOf w owner, payer := owner, tokenProgram := (mint w quote).program,
      maxAmount := amount, remaining := hookAccounts (mint w quote), slices := quoteSlices w })

/-- `create_deposit_ix` (`helpers/process_deposit.rs:28-131`): a permissionless escrow is opened if needed. -/
def deposit (w : World) (owner : Addr) (i amount : Nat) : List Op :=
  (if (w.escrows.get? (escrowOf owner i)).isSome then [] else [openEscrow owner]) ++ [depositOnly w owner i amount]

def withdraw (w : World) (owner : Addr) (i amount : Nat) : Op :=
  .ix (tx [owner]) (.withdraw
    { presale := sale, quoteTokenVault := .quoteVault sale, quoteMint := quote, escrow := escrowOf owner i,
      ownerQuoteToken := quoteOf w owner, owner := owner, tokenProgram := (mint w quote).program,
      maxAmount := amount, remaining := hookAccounts (mint w quote), slices := quoteSlices w })

def refresh (owner : Addr) (i : Nat) : Op :=
  .ix (tx []) (.refresh { presale := sale, escrow := escrowOf owner i })

/-- Only the claim instruction. -/
def claimOnly (w : World) (owner : Addr) (i : Nat) : Op :=
  .ix (tx [owner]) (.claim
    { presale := sale, baseTokenVault := .baseVault sale, baseMint := base, escrow := escrowOf owner i,
      ownerBaseToken := baseOf w owner, owner := owner, tokenProgram := (mint w base).program,
      remaining := hookAccounts (mint w base), slices := baseSlices w })

def refund (w : World) (owner : Addr) (i : Nat) : Op :=
  .ix (tx [owner]) (.refund
    { presale := sale, quoteTokenVault := .quoteVault sale, quoteMint := quote, escrow := escrowOf owner i,
      ownerQuoteToken := quoteOf w owner, owner := owner, tokenProgram := (mint w quote).program,
      remaining := hookAccounts (mint w quote), slices := quoteSlices w })

def closeEscrow (owner : Addr) (i : Nat) : Op :=
  .ix (tx [owner]) (.closeEscrow ⟨sale, escrowOf owner i, owner, owner⟩)

/-- The creator takes quote tokens (`quoteSide`) or base tokens. -/
def creatorWithdraw (w : World) (quoteSide : Bool) : Op :=
  .ix (tx [user]) (.creatorWithdraw
    { presale := sale, ownerToken := if quoteSide then quoteOf w user else baseOf w user, owner := user,
      tokenProgram := (mint w (if quoteSide then quote else base)).program,
      remaining := (if quoteSide then [.quoteVault sale, quote] else [.baseVault sale, base]) ++
        hookAccounts (mint w (if quoteSide then quote else base)),
      slices := if quoteSide then quoteSlices w else baseSlices w })

def collectFee (w : World) : Op :=
  .ix (tx [user]) (.collectFee
    { presale := sale, quoteTokenVault := .quoteVault sale, quoteMint := quote,
      feeReceivingAccount := quoteOf w user, owner := user, tokenProgram := (mint w quote).program,
      remaining := hookAccounts (mint w quote), slices := quoteSlices w })

def unsold (w : World) : Op :=
  .ix (tx [user]) (.unsold
    { presale := sale, baseTokenVault := .baseVault sale, baseMint := base, creatorBaseToken := baseOf w user,
      tokenProgram := (mint w base).program, remaining := hookAccounts (mint w base), slices := baseSlices w })

/-! ## Running -/

/-- Transactions which all succeed. -/
def after (w : World) : List Op → Option World
  | [] => some w
  | o :: os =>
    match step w o with
    | .ok r => after r.1 os
    | .error _ => none

/-- Instructions of which all but the last succeed and the last is refused with the error. -/
def refused (w : World) (e : Err) : List Op → Bool
  | [] => false
  | [o] =>
    match step w o with
    | .ok _ => false
    | .error x => decide (x = e)
  | o :: os =>
    match step w o with
    | .ok r => refused r.1 e os
    | .error _ => false

/-- `warp_time` to a later moment. -/
def warp (w : World) (t : Nat) : World := { w with clock := t }

def presale? (w : World) : Option Presale := w.presales sale
def escrow? (w : World) (owner : Addr) (i : Nat) : Option Escrow := w.escrows.get? (escrowOf owner i)
/-- Balance of a token account, 0 if there is none. -/
def bal (w : World) (a : Addr) : Nat :=
  match w.tk.toks a with
  | some t => t.amount
  | none => 0


/-! ## Whitelists (`helpers/process_create_merkle_root_config.rs`) -/

/-- `build_merkle_tree` (`:19-36`) -/
def tree (rows : List (Addr × Nat × Nat)) (version : Nat) : Option ConfigMerkleTree :=
  let w := start spl native
  match ConfigMerkleTree.new w.env.hash
      (rows.map fun r => { escrowOwner := w.env.keyBytes r.1, registryIndex := r.2.1, depositCap := r.2.2,
                           proof := none }) version with
  | .ok t => some t
  | .error _ => none

/-- `get_node` -/
def node (t : ConfigMerkleTree) (owner : Addr) : Option TreeNode :=
  match t.getNode ((start spl native).env.keyBytes owner) with
  | .ok n => some n
  | .error _ => none

def createMerkle (t : ConfigMerkleTree) : Op :=
  .ix (tx [user]) (.createMerkle ⟨sale, user, t.merkleRoot, t.version⟩)

/-- `create_permissioned_escrow_with_merkle_proof` -/
def openMerkle (t : ConfigMerkleTree) (owner : Addr) (i cap : Nat) (proof : List Bytes) : Op :=
  .ix (tx [owner]) (.createEscrowMerkle ⟨sale, owner, .merkleRoot sale t.version, owner, proof, i, cap⟩)

end Verif.Replay
