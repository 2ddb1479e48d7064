import Verif.Model.Instructions
/-!
# Concrete histories

Small deployments on which the hypotheses of the theorems are met. The quote mint levies a transfer fee
of 1%, at most 50 units.
-/

namespace Verif.Ex

def creator : Addr := .key 1
def baseKey : Addr := .key 2
def alice : Addr := .key 3
def bob : Addr := .key 4
def operatorKey : Addr := .key 5
def bm : Addr := .key 10
def qm : Addr := .key 11
def creatorBase : Addr := .ata creator bm .splToken
def creatorQuote : Addr := .key 21
def aliceQuote : Addr := .key 22
def bobQuote : Addr := .key 23
def aliceBase : Addr := .key 24
def bobBase : Addr := .key 25

/-- The presale. -/
def sale : Addr := .presale baseKey bm qm

def acct (mint owner : Addr) (amount : Nat) : TokAcct :=
  { mint := mint, owner := owner, amount := amount, frozen := false, delegate := none }

def genesisToks : Addr → Option TokAcct := fun a =>
  if a = creatorBase then some (acct bm creator 1000000)
  else if a = creatorQuote then some (acct qm creator 0)
  else if a = aliceQuote then some (acct qm alice 100000)
  else if a = bobQuote then some (acct qm bob 100000)
  else if a = aliceBase then some (acct bm alice 0)
  else if a = bobBase then some (acct bm bob 0)
  else none

def genesisMints : Addr → Option MintInfo := fun a =>
  if a = bm then some { program := .splToken, isNative := false, exts := [], fee := none, hook := none,
                        supply := 1000000 }
  else if a = qm then some { program := .splToken2022, isNative := false, exts := [.transferFeeConfig],
                             fee := some { basisPoints := 100, maximumFee := 50 }, hook := none,
                             supply := 200000 }
  else none

/-- An empty deployment. -/
def genesis : World :=
  { env := { hash := fun b => List.replicate 31 0 ++ [b.foldl (fun x y => 31 * x + y) 7],
             keyBytes := fun a => match a with
               | .key n => List.replicate 31 0 ++ [UInt8.ofNat n]
               | _ => List.replicate 32 255 },
    clock := 1000, presales := fun _ => none, escrows := [], merkleRoots := fun _ => none,
    operators := fun _ => none, metadata := fun _ => none, fixedArgs := fun _ => none,
    tk := { toks := genesisToks, mints := genesisMints } }

theorem genesis_ok : Genesis genesis := by
  refine ⟨fun _ => rfl, rfl, fun _ => rfl, fun _ => rfl, fun _ => rfl, fun _ => rfl, ?_, ?_, ?_⟩
  · intro a ha
    cases a <;> first | rfl | (simp [Addr.isVault] at ha)
  · intro a t h
    have : ∀ x ∈ [1000000, 0, 100000], x < u64Bound := by decide +kernel
    simp only [genesis, genesisToks] at h
    repeat' split at h
    all_goals first
      | (cases h; exact this _ (by simp [acct]))
      | cases h
  · intro a m h
    simp only [genesis, genesisMints] at h
    repeat' split at h
    all_goals first
      | (cases h; decide +kernel)
      | cases h

def tx (signers : List Addr) : Tx := { signers := signers, accept := true }

def params (mode whitelist action : Nat) : PresaleArgs :=
  { presaleMaximumCap := 1000, presaleMinimumCap := 100, presaleStartTime := 1000, presaleEndTime := 1600,
    whitelistMode := whitelist, presaleMode := mode, unsoldTokenAction := action,
    disableEarlierPresaleEndOnceCapReached := 0 }

def vesting : LockedVestingArgs :=
  { immediatelyReleaseBps := 2000, lockDuration := 100, vestDuration := 1000,
    immediateReleaseTimestamp := 1650, paddingIsZero := true }

/-- Creation arguments: one registry of 10000 tokens with a 2% deposit fee, or two of 10000 and 5000. -/
def initArgs (mode whitelist action : Nat) (regs : List RegistryArgs) : InitPresaleAcc :=
  { presaleMint := bm, quoteTokenMint := qm, payerPresaleToken := creatorBase, creator := creator,
    base := baseKey, payer := creator, baseTokenProgram := .splToken, quoteTokenProgram := .splToken2022,
    args := { presaleParams := params mode whitelist action, lockedVestingParams := vesting,
              presaleRegistries := regs },
    remaining := if mode = 0 then [.fixedPriceArgs sale] else [], slices := [] }

def init (mode whitelist action : Nat) (regs : List RegistryArgs) : Op :=
  .ix (tx [creator, baseKey]) (.initPresale (initArgs mode whitelist action regs))

def reg1 : List RegistryArgs :=
  [{ buyerMinimumDepositCap := 10, buyerMaximumDepositCap := 1000, presaleSupply := 10000,
     depositFeeBps := 200 }]

def escrowOf (owner : Addr) : Addr := .escrow sale owner 0

def open' (owner : Addr) : Op :=
  .ix (tx [owner]) (.createEscrow { presale := sale, owner := owner, payer := owner })

def depositAcc (owner tok : Addr) (amount : Nat) : DepositAcc :=
  { presale := sale, quoteTokenVault := .quoteVault sale, quoteMint := qm, escrow := escrowOf owner,
    payerQuoteToken := tok, payer := owner, tokenProgram := .splToken2022, maxAmount := amount,
    remaining := [], slices := [] }

def deposit (owner tok : Addr) (amount : Nat) : Op := .ix (tx [owner]) (.deposit (depositAcc owner tok amount))

def withdrawAcc (owner tok : Addr) (amount : Nat) : WithdrawAcc :=
  { presale := sale, quoteTokenVault := .quoteVault sale, quoteMint := qm, escrow := escrowOf owner,
    ownerQuoteToken := tok, owner := owner, tokenProgram := .splToken2022, maxAmount := amount,
    remaining := [], slices := [] }

def withdraw (owner tok : Addr) (amount : Nat) : Op :=
  .ix (tx [owner]) (.withdraw (withdrawAcc owner tok amount))

def claimAcc (owner tok : Addr) : ClaimAcc :=
  { presale := sale, baseTokenVault := .baseVault sale, baseMint := bm, escrow := escrowOf owner,
    ownerBaseToken := tok, owner := owner, tokenProgram := .splToken, remaining := [], slices := [] }

def claim (owner tok : Addr) : Op := .ix (tx [owner]) (.claim (claimAcc owner tok))

def refundAcc (owner tok : Addr) : RefundAcc :=
  { presale := sale, quoteTokenVault := .quoteVault sale, quoteMint := qm, escrow := escrowOf owner,
    ownerQuoteToken := tok, owner := owner, tokenProgram := .splToken2022, remaining := [], slices := [] }

def refund (owner tok : Addr) : Op := .ix (tx [owner]) (.refund (refundAcc owner tok))

def closeEscrow (owner : Addr) : Op :=
  .ix (tx [owner]) (.closeEscrow ⟨sale, escrowOf owner, owner, owner⟩)

def refresh (owner : Addr) : Op := .ix (tx []) (.refresh { presale := sale, escrow := escrowOf owner })

def creatorWithdrawAcc : CreatorWithdrawAcc :=
  { presale := sale, ownerToken := creatorQuote, owner := creator, tokenProgram := .splToken2022,
    remaining := [.quoteVault sale, qm], slices := [] }

def creatorWithdrawBaseAcc : CreatorWithdrawAcc :=
  { presale := sale, ownerToken := creatorBase, owner := creator, tokenProgram := .splToken,
    remaining := [.baseVault sale, bm], slices := [] }

def creatorWithdraw (a : CreatorWithdrawAcc) : Op := .ix (tx [creator]) (.creatorWithdraw a)

def collectFeeAcc : CollectFeeAcc :=
  { presale := sale, quoteTokenVault := .quoteVault sale, quoteMint := qm,
    feeReceivingAccount := creatorQuote, owner := creator, tokenProgram := .splToken2022,
    remaining := [], slices := [] }

def collectFee : Op := .ix (tx [creator]) (.collectFee collectFeeAcc)

def unsoldAcc : UnsoldAcc :=
  { presale := sale, baseTokenVault := .baseVault sale, baseMint := bm, creatorBaseToken := creatorBase,
    tokenProgram := .splToken, remaining := [], slices := [] }

def unsold : Op := .ix (tx []) (.unsold unsoldAcc)

/-! ## Pro-rata sale, oversubscribed: 900 and 600 deposited, 1000 wanted -/

def prorataOps : List Op :=
  [init 1 0 0 reg1, .tick 10, open' alice, open' bob, deposit alice aliceQuote 900, .tick 10,
   deposit bob bobQuote 600]

/-- While the sale is open. -/
def prorataOpen : World := run genesis prorataOps
/-- Halfway through vesting. -/
def prorataDone : World := run genesis (prorataOps ++ [.tick 1180])
/-- After vesting. -/
def prorataVested : World := run genesis (prorataOps ++ [.tick 2000])

/-! ## The same sale failing with 50 deposited -/

def failedOps : List Op :=
  [init 1 0 0 reg1, .tick 10, open' alice, open' bob, deposit alice aliceQuote 50]

def failedDone : World := run genesis (failedOps ++ [.tick 600])

/-! ## First come, first served: the second deposit fills the cap -/

def fcfsOps : List Op :=
  [init 2 0 0 reg1, .tick 10, open' alice, open' bob, deposit alice aliceQuote 900, .tick 10]

def fcfsOpen : World := run genesis fcfsOps
def fcfsEarly : World := run genesis (fcfsOps ++ [deposit bob bobQuote 600])

/-! ## Fixed price of 2.5 quote units, 10000 tokens -/

def fixedArgsOp : Op :=
  .ix (tx [creator]) (.initFixedArgs ⟨creator, creator, sale, 0, 5 * 2 ^ 63⟩)

def fixedOps : List Op :=
  [fixedArgsOp, init 0 0 1 reg1, .tick 10, open' alice, open' bob, deposit alice aliceQuote 302, .tick 10,
   deposit bob bobQuote 109]

def fixedOpen : World := run genesis fixedOps
def fixedDone : World := run genesis (fixedOps ++ [.tick 1180])
def fixedVested : World := run genesis (fixedOps ++ [.tick 2000])

/-- Look a presale up. -/
def has (w : World) (f : Presale → Bool) : Bool :=
  match w.presales sale with
  | some p => f p
  | none => false

/-- Look an escrow up. -/
def hasEsc (w : World) (a : Addr) (f : Escrow → Bool) : Bool :=
  match w.escrows.get? a with
  | some p => f p
  | none => false

/-- Whether a step succeeds. -/
def works (w : World) (op : Op) : Bool :=
  match step w op with
  | .ok _ => true
  | .error _ => false

/-- Creation of a presale selling the mint with the transfer fee. -/
def feeInit : Op :=
  .ix (tx [alice, baseKey]) (.initPresale
    { initArgs 1 0 0 reg1 with presaleMint := qm, quoteTokenMint := bm, payer := alice,
                               payerPresaleToken := aliceQuote, baseTokenProgram := .splToken2022,
                               quoteTokenProgram := .splToken })

end Verif.Ex
