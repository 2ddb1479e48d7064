import Verif.Lemmas.ErrorsAdmin
import Verif.Lemmas.ErrorsAfter
import Verif.Lemmas.ErrorsInit
import Verif.Examples
/-!
# What the error codes mean

C73: when the program refuses an instruction with one of its own error codes, what that code says is the case.
-/

namespace Verif
open Spec

/-- **C73.** In every reachable state, an instruction refused with error code `e` is refused for a reason that
`e` stands for. -/
theorem C73_error_reason {w : World} (R : Reachable w) {tx : Tx} {i : Ix} {e : PErr}
    (h : step w (.ix tx i) = .error (.p e)) : Because w i e := by
  have W := R.winv
  have key : Errs (Because w i) (step w (.ix tx i)) := by
    cases i with
    | initFixedArgs a => exact errs_initFixedArgs
    | closeFixedArgs a => exact errs_closeFixedArgs
    | initPresale a => exact errs_initPresale R
    | createMerkle a => exact errs_createMerkle W
    | closeMerkle a => exact errs_closeMerkle W
    | createEscrow a => exact errs_createEscrow W
    | createEscrowCreator a => exact errs_createEscrowCreator W
    | createEscrowMerkle a => exact errs_createEscrowMerkle W
    | createOperator a => exact errs_createOperator
    | revokeOperator a => exact errs_revokeOperator
    | deposit a => exact errs_deposit R
    | withdraw a => exact errs_withdraw R
    | claim a => exact errs_claim R
    | refund a => exact errs_refund R
    | unsold a => exact errs_unsold R
    | closeEscrow a => exact errs_closeEscrow R
    | creatorWithdraw a => exact errs_creatorWithdraw R
    | refresh a => exact errs_refresh R (tx := tx)
    | createMetadata a => exact errs_createMetadata W
    | closeMetadata a => exact errs_closeMetadata
    | collectFee a => exact errs_collectFee R
  exact key e h

theorem hookReason_codes {k : AccountsType} {m : MintInfo} {l : List Addr} {sl : List RemSlice} {e : PErr}
    (h : HookReason k m l sl e) : e ∈ hookCodes := by
  cases e <;> first | exact h.elim | decide

theorem openReason_codes {w : World} {p : Presale} {n : Nat} {c : Option Nat} {e : PErr} (h : OpenReason w p n c e) :
    e = .presaleNotOpenForDeposit ∨ e = .invalidPresaleRegistryIndex ∨ e = .invalidDepositCap ∨ e = .mathOverflow := by
  cases e <;> first | exact h.elim | decide

theorem because_codes {w : World} {i : Ix} {e : PErr} (h : Because w i e) : e ∈ codes i := by
  cases i with
  | initFixedArgs a => cases e <;> first | exact h.elim | (show _ ∈ [_, _]; decide)
  | closeFixedArgs a => exact h.elim
  | createOperator a => exact h.elim
  | revokeOperator a => exact h.elim
  | closeMetadata a => exact h.elim
  | refresh a => exact h.elim
  | initPresale a =>
    obtain ⟨bm, qm, _, _, h⟩ := h
    have h' : ∀ l, hookCodes ⊆ l ++ hookCodes := fun l => List.subset_append_right _ _
    cases e <;> first
      | (show _ ∈ _ ++ _; decide)
      | (obtain ⟨_, _, _, h⟩ := h; exact h.elim)
  | createMerkle a =>
    obtain ⟨p, _, h⟩ := h
    cases e <;> first | exact h.elim | (show _ ∈ [_, _, _]; decide)
  | closeMerkle a =>
    obtain ⟨p, _, h⟩ := h
    cases e <;> first | exact h.elim | (show _ ∈ [_, _]; decide)
  | createMetadata a =>
    obtain ⟨p, _, h⟩ := h
    cases e <;> first | exact h.elim | (show _ ∈ [_, _]; decide)
  | createEscrow a =>
    obtain ⟨p, _, h⟩ := h
    cases e <;> first | exact h.elim | exact h.2.elim | (show _ ∈ [_, _, _]; decide) | (obtain ⟨_, _, _, _, _, h, _⟩ := h; cases h)
  | createEscrowCreator a =>
    obtain ⟨p, o, _, _, h⟩ := h
    cases e <;> first | (show _ ∈ [_, _, _, _, _, _]; decide) | (obtain ⟨_, _, _, h⟩ := h; exact h.elim)
  | createEscrowMerkle a =>
    obtain ⟨p, c, _, _, h⟩ := h
    cases e <;> first | (show _ ∈ [_, _, _, _, _, _]; decide) | (obtain ⟨_, h⟩ := h; exact h.elim)
  | deposit a =>
    obtain ⟨p, x, r, m, _, _, _, _, h⟩ := h
    cases e <;> first | (show _ ∈ _ ++ _; decide) | (obtain ⟨_, h⟩ := h; exact h.elim)
  | withdraw a =>
    obtain ⟨p, x, r, m, _, _, _, _, h⟩ := h
    cases e <;> first | (show _ ∈ _ ++ _; decide) | (obtain ⟨_, _, h⟩ := h; exact h.elim)
  | claim a =>
    obtain ⟨p, x, r, m, _, _, _, _, h⟩ := h
    cases e <;> first | (show _ ∈ _ :: _; decide) | (obtain ⟨_, _, h⟩ := h; exact h.elim)
  | refund a =>
    obtain ⟨p, x, r, m, _, _, _, _, h⟩ := h
    cases e <;> first | (show _ ∈ _ :: _; decide) | (obtain ⟨_, h⟩ := h; exact h.elim)
  | closeEscrow a =>
    obtain ⟨p, x, _, _, h⟩ := h
    cases e <;> first | exact h.elim | (show _ ∈ [_]; decide)
  | creatorWithdraw a =>
    obtain ⟨p, _, h⟩ := h
    cases e <;> first | (show _ ∈ _ ++ _; decide) | (obtain ⟨_, _, _, _, _, _, _, _, _, h⟩ := h; exact h.elim)
  | collectFee a =>
    obtain ⟨p, m, _, _, h⟩ := h
    cases e <;> first | (show _ ∈ _ :: _; decide) | (obtain ⟨_, _, _, h⟩ := h; exact h.elim)
  | unsold a =>
    obtain ⟨p, m, _, _, h⟩ := h
    cases e <;> first | (show _ ∈ _ :: _; decide) | (obtain ⟨_, _, _, _, h⟩ := h; exact h.elim)

/-- **C73.** An instruction only returns the error codes listed for it. -/
theorem C73_codes {w : World} (R : Reachable w) {tx : Tx} {i : Ix} {e : PErr}
    (h : step w (.ix tx i) = .error (.p e)) : e ∈ codes i :=
  because_codes (C73_error_reason R h)

/-- **C73.** Two of the error codes are never returned: the "undetermined" one, and the one for an unknown
treatment of unsold tokens. -/
theorem C73_never {w : World} (R : Reachable w) {tx : Tx} {i : Ix} :
    step w (.ix tx i) ≠ .error (.p .undeterminedError) ∧
    step w (.ix tx i) ≠ .error (.p .invalidUnsoldTokenAction) := by
  constructor <;> intro h <;> have B := C73_codes R h <;> cases i <;>
    simp [codes, hookCodes] at B

/-- **C73.** No arithmetic failure ever stands between a buyer or the creator and what they are owed: leaving a
running sale, claiming, refunds, closing, the creator's payout, the fees and the unsold tokens never fail with
the overflow code. -/
theorem C73_no_overflow {w : World} (R : Reachable w) {tx : Tx} {i : Ix}
    (h : step w (.ix tx i) = .error (.p .mathOverflow)) :
    (∃ a, i = .initPresale a) ∨ (∃ a, i = .createEscrow a) ∨ (∃ a, i = .createEscrowCreator a) ∨
    (∃ a, i = .createEscrowMerkle a) ∨ ∃ a, i = .deposit a := by
  have B := C73_codes R h
  cases i with
  | initPresale a => exact .inl ⟨a, rfl⟩
  | createEscrow a => exact .inr (.inl ⟨a, rfl⟩)
  | createEscrowCreator a => exact .inr (.inr (.inl ⟨a, rfl⟩))
  | createEscrowMerkle a => exact .inr (.inr (.inr (.inl ⟨a, rfl⟩)))
  | deposit a => exact .inr (.inr (.inr (.inr ⟨a, rfl⟩)))
  | _ => simp [codes, hookCodes] at B

/-! ## Every other code does occur -/

namespace Ex

/-- Registry terms of a whitelisted sale. -/
def listed : List RegistryArgs :=
  [{ buyerMinimumDepositCap := 1, buyerMaximumDepositCap := 1000, presaleSupply := 10000, depositFeeBps := 200 }]

def bothSign : Tx := tx [creator, baseKey]
def merkle (by_ : Addr) : Ix := .createMerkle ⟨sale, by_, List.replicate 32 0, 0⟩
def operatorOf (who : Addr) : Op := .ix (tx [who]) (.createOperator ⟨bob, who⟩)
def opened (operator : Addr) (index cap : Nat) : Ix :=
  .createEscrowCreator ⟨sale, alice, operator, bob, bob, index, cap⟩
def hookedMint : Op := .setMint qm
  { program := .splToken2022, isNative := false, exts := [.transferFeeConfig],
    fee := some { basisPoints := 100, maximumFee := 50 }, hook := some (.key 77), supply := 200000 }
def strangeMint : Op := .setMint (.key 60)
  { program := .splToken2022, isNative := false, exts := [.other 0], fee := none, hook := none, supply := 5 }
def initWith (f : InitPresaleAcc → InitPresaleAcc) : Tx × Ix :=
  (bothSign, .initPresale (f (initArgs 1 0 0 reg1)))
def depositWith (f : DepositAcc → DepositAcc) : Tx × Ix :=
  (tx [alice], .deposit (f (depositAcc alice aliceQuote 100)))

/-- A history and a refused instruction for every code but two. -/
def refused : PErr → Option (List Op × Tx × Ix)
  | .undeterminedError | .invalidUnsoldTokenAction => none
  | .invalidTokenSupply => some ([], initWith fun a =>
      { a with args := { a.args with presaleRegistries := reg1.map fun r => { r with presaleSupply := 0 } } })
  | .invalidPresaleInfo => some ([], initWith fun a => { a with args := { a.args with presaleRegistries := [] } })
  | .invalidLockVestingInfo => some ([], initWith fun a =>
      { a with args := { a.args with lockedVestingParams := { vesting with vestDuration := 400000000 } } })
  | .invalidTokenPrice => some ([], tx [creator], .initFixedArgs ⟨creator, creator, sale, 0, 0⟩)
  | .missingPresaleExtraParams => some ([], bothSign, .initPresale { initArgs 0 0 0 reg1 with remaining := [] })
  | .zeroTokenAmount => some (prorataOps, depositWith fun a => { a with maxAmount := 0 })
  | .unsupportedToken2022MintOrExtension => some ([strangeMint], initWith fun a => { a with quoteTokenMint := .key 60 })
  | .invalidCreatorAccount => some (prorataOps, tx [alice], merkle alice)
  | .presaleNotOpenForDeposit => some (prorataOps ++ [.tick 2000], depositWith id)
  | .presaleNotOpenForWithdraw => some (prorataOps ++ [.tick 2000], tx [alice], .withdraw (withdrawAcc alice aliceQuote 5))
  | .presaleNotOpenForWithdrawRemainingQuote => some (prorataOps, tx [alice], .refund (refundAcc alice aliceQuote))
  | .invalidPresaleWhitelistMode => some (prorataOps, tx [creator], merkle creator)
  | .presaleEnded => some (prorataOps ++ [.tick 2000], tx [creator], merkle creator)
  | .presaleNotOpenForClaim => some (prorataOps, tx [alice], .claim (claimAcc alice aliceBase))
  | .invalidMerkleProof => some ([init 1 1 0 listed, .ix (tx [creator]) (merkle creator)], tx [alice],
      .createEscrowMerkle ⟨sale, alice, .merkleRoot sale 0, alice, [], 0, 500⟩)
  | .depositAmountOutOfCap => some ([init 1 0 0 reg1, open' alice], depositWith fun a => { a with maxAmount := 5 })
  | .mathOverflow => some ([], initWith fun a =>
      { a with args := { a.args with lockedVestingParams := { vesting with vestDuration := 2 ^ 64 - 1 } } })
  | .insufficientEscrowBalance => some (prorataOps, tx [alice], .withdraw (withdrawAcc alice aliceQuote 901))
  | .remainingQuoteAlreadyWithdrawn =>
      some (prorataOps ++ [.tick 2000, refund alice aliceQuote], tx [alice], .refund (refundAcc alice aliceQuote))
  | .presaleNotCompleted => some (prorataOps, tx [], .unsold unsoldAcc)
  | .escrowNotEmpty => some (prorataOps, tx [alice], .closeEscrow ⟨sale, escrowOf alice, alice, alice⟩)
  | .creatorAlreadyWithdrawn => some (prorataOps ++ [.tick 2000, creatorWithdraw creatorWithdrawAcc], tx [creator],
      .creatorWithdraw creatorWithdrawAcc)
  | .invalidTokenVault => some (prorataOps ++ [.tick 2000], tx [creator],
      .creatorWithdraw { creatorWithdrawAcc with remaining := [aliceQuote, qm] })
  | .invalidQuoteMint => some (prorataOps ++ [.tick 2000], tx [creator],
      .creatorWithdraw { creatorWithdrawAcc with remaining := [.quoteVault sale, bm] })
  | .invalidBaseMint => some (failedOps ++ [.tick 2000], tx [creator],
      .creatorWithdraw { creatorWithdrawBaseAcc with remaining := [.baseVault sale, qm] })
  | .invalidRemainingAccountSlice => some (prorataOps, depositWith fun a =>
      { a with slices := [⟨.transferHookBase, 1⟩], remaining := [.key 78] })
  | .duplicatedRemainingAccountTypes => some (prorataOps, depositWith fun a =>
      { a with slices := [⟨.transferHookQuote, 1⟩, ⟨.transferHookQuote, 1⟩], remaining := [.key 78, .key 79] })
  | .missingRemainingAccountForTransferHook => some (prorataOps ++ [hookedMint], depositWith id)
  | .noTransferHookProgram => some (prorataOps, depositWith fun a =>
      { a with slices := [⟨.transferHookQuote, 1⟩], remaining := [.key 78] })
  | .invalidOperator => some ([init 1 2 0 listed, operatorOf alice], tx [bob], opened (.operator alice bob) 0 500)
  | .noUnsoldBaseTokens => some (prorataOps ++ [.tick 2000], tx [], .unsold unsoldAcc)
  | .unsoldBaseTokenActionAlreadyPerformed => some (fixedOps ++ [.tick 2000, unsold], tx [], .unsold unsoldAcc)
  | .invalidPresaleRegistryIndex =>
      some ([init 1 2 0 listed, operatorOf creator], tx [bob], opened (.operator creator bob) 1 500)
  | .multiplePresaleRegistriesNotAllowed => some ([], initWith fun a =>
      { a with args := { a.args with presaleRegistries := reg1 ++ reg1 } })
  | .invalidDepositCap =>
      some ([init 1 2 0 listed, operatorOf creator], tx [bob], opened (.operator creator bob) 0 1001)
  | .presaleNotOpenForCollectFee => some (prorataOps, tx [creator], .collectFee collectFeeAcc)
  | .invalidType => some ([], tx [creator], .initFixedArgs ⟨creator, creator, sale, 2, 5 * 2 ^ 63⟩)
  | .invalidBuyerCapRange => some ([], bothSign, .initPresale (initArgs 1 2 0 reg1))
  | .presaleOngoing => some ([init 1 1 0 listed, .ix (tx [creator]) (merkle creator)], tx [creator],
      .closeMerkle ⟨sale, .merkleRoot sale 0, creator, creator⟩)
  | .presaleMinMaxCapGapTooSmall => some ([fixedArgsOp], bothSign, .initPresale { initArgs 0 0 0 reg1 with
      args := { (initArgs 0 0 0 reg1).args with
        presaleParams := { params 0 0 0 with presaleMinimumCap := 1000 } } })

/-- The code with which a step is refused. -/
def codeOf (w : World) (op : Op) : Option PErr :=
  match step w op with
  | .error (.p e) => some e
  | _ => none

/-- The refusal chosen for a code carries that code. -/
def refusedRight (e : PErr) : Bool :=
  match refused e with
  | some (ops, t, i) => codeOf (Verif.run genesis ops) (.ix t i) == some e
  | none => e == .undeterminedError || e == .invalidUnsoldTokenAction

theorem refused_right (e : PErr) : refusedRight e = true := by cases e <;> decide +kernel

theorem codeOf_eq {w : World} {op : Op} {e : PErr} (h : codeOf w op = some e) : step w op = .error (.p e) := by
  unfold codeOf at h
  split at h
  · next h' => cases h; exact h'
  · cases h

end Ex

/-- **C73.** The error codes that can be returned at all are exactly the others. -/
theorem C73_occurs (e : PErr) : (∃ w tx i, Reachable w ∧ step w (.ix tx i) = .error (.p e)) ↔
    e ≠ .undeterminedError ∧ e ≠ .invalidUnsoldTokenAction := by
  constructor
  · rintro ⟨w, tx, i, R, h⟩
    have := C73_never R (tx := tx) (i := i)
    constructor
    · rintro rfl; exact this.1 h
    · rintro rfl; exact this.2 h
  · rintro ⟨h1, h2⟩
    have h := Ex.refused_right e
    unfold Ex.refusedRight at h
    split at h
    · next ops t i _ => exact ⟨_, t, i, ⟨_, ops, Ex.genesis_ok, rfl⟩, Ex.codeOf_eq (beq_iff_eq.1 h)⟩
    · rcases (Bool.or_eq_true _ _).mp h with h | h
      · exact absurd (beq_iff_eq.1 h) h1
      · exact absurd (beq_iff_eq.1 h) h2

end Verif
