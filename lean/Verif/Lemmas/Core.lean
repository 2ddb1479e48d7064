import Verif.Lemmas.Inversion
import Verif.Props.FixedPrice
import Verif.Props.DepositFee
import Verif.Lemmas.Claim
/-!
# What the state-changing methods of a presale do
-/

namespace Verif
open Spec

theorem getRegistry_eq_ok {p : Presale} {i : Nat} {r : Registry} :
    p.getRegistry i = .ok r ↔ p.registries[i]? = some r := by
  unfold Presale.getRegistry
  cases p.registries[i]? <;> simp

/-! ## Phases -/

theorem progress_ongoing {p : Presale} {t : Nat} :
    p.getPresaleProgress t = .ongoing ↔ p.presaleStartTime ≤ t ∧ t < p.presaleEndTime := by
  unfold Presale.getPresaleProgress
  split
  · simp; omega
  · split
    · simp; omega
    · split <;> (simp; omega)

theorem progress_notStarted {p : Presale} {t : Nat} :
    p.getPresaleProgress t = .notStarted ↔ t < p.presaleStartTime := by
  unfold Presale.getPresaleProgress
  split
  · simp; omega
  · split
    · simp; omega
    · split <;> (simp; omega)

theorem progress_completed {p : Presale} {t : Nat} :
    p.getPresaleProgress t = .completed ↔
      p.presaleStartTime ≤ t ∧ p.presaleEndTime ≤ t ∧ p.presaleMinimumCap ≤ p.totalDeposit := by
  unfold Presale.getPresaleProgress
  split
  · simp; omega
  · split
    · simp; omega
    · split <;> (simp; omega)

theorem progress_failed {p : Presale} {t : Nat} :
    p.getPresaleProgress t = .failed ↔
      p.presaleStartTime ≤ t ∧ p.presaleEndTime ≤ t ∧ p.totalDeposit < p.presaleMinimumCap := by
  unfold Presale.getPresaleProgress
  split
  · simp; omega
  · split
    · simp; omega
    · split <;> (simp; omega)

/-! ## Mode decoding -/

theorem handler_cases {p : Presale} {h : Handler} (hh : getPresaleModeHandler p = .ok h) :
    (p.presaleMode = 1 ∧ h = .prorata) ∨ (p.presaleMode = 2 ∧ h = .fcfs (p.raw0 % 256)) ∨
    (p.presaleMode ≠ 1 ∧ p.presaleMode ≠ 2 ∧
      h = .fixedPrice p.raw0 (p.raw1 % 256) (p.raw1 / 256 % 256)) := by
  simp only [getPresaleModeHandler, bind_eq_ok, castPresaleMode] at hh
  obtain ⟨m, h1, h2⟩ := hh
  split at h1
  · next m' hm =>
    cases h1
    unfold PresaleMode.tryFrom at hm
    split at hm
    · next h0 => cases hm; simp only [pure_eq_ok] at h2; exact Or.inr (Or.inr ⟨by omega, by omega, h2.symm⟩)
    · next h0 => cases hm; simp only [pure_eq_ok] at h2; exact Or.inl ⟨h0, h2.symm⟩
    · next h0 => cases hm; simp only [pure_eq_ok] at h2; exact Or.inr (Or.inl ⟨h0, h2.symm⟩)
    · next h0 h1 h2' =>
      split at hm
      · cases hm
        simp only [pure_eq_ok] at h2
        exact Or.inr (Or.inr ⟨h1, h2', h2.symm⟩)
      · cases hm
  · cases h1

theorem castMode_of_handler {p : Presale} {h : Handler} (hh : getPresaleModeHandler p = .ok h) :
    castPresaleMode p.presaleMode =
      .ok (if p.presaleMode = 1 then .prorata else if p.presaleMode = 2 then .fcfs else .fixedPrice) := by
  simp only [getPresaleModeHandler, bind_eq_ok, castPresaleMode] at hh
  obtain ⟨m, h1, h2⟩ := hh
  unfold castPresaleMode
  split at h1
  · next m' hm =>

    unfold PresaleMode.tryFrom at hm
    split at hm
    · next h0 => cases hm; simp [h0]
    · next h0 => cases hm; simp [h0]
    · next h0 => cases hm; simp [h0]
    · next a b c =>
      split at hm
      · cases hm
        rw [if_neg b, if_neg c]
      · cases hm
  · cases h1

/-! ## Deposit -/

/-- The presale after recording a deposit of `x` with fee `f` in slot `i`. -/
def Presale.credited (p : Presale) (i : Nat) (r : Registry) (x f : Nat) : Presale :=
  { p with
    registries := p.registries.set i
      { r with totalDeposit := r.totalDeposit + x, totalDepositFee := r.totalDepositFee + f }
    totalDeposit := p.totalDeposit + x
    totalDepositFee := p.totalDepositFee + f }

/-- The escrow after recording a deposit of `x` with fee `f`. -/
def Escrow.credited (e : Escrow) (x f : Nat) : Escrow :=
  { e with totalDeposit := e.totalDeposit + x, totalDepositFee := e.totalDepositFee + f }

theorem deposit_iff {p : Presale} {e : Escrow} {x : Nat} {p' : Presale} {e' : Escrow}
    {c : DepositFeeIncluded} :
    p.deposit e x = .ok (p', e', c) ↔ ∃ r, p.registries[e.registryIndex]? = some r ∧
      calculateDepositFeeIncludedAmount x r.depositFeeBps .up = .ok c ∧
      r.totalDeposit + x < u64Bound ∧ r.totalDepositFee + c.fee < u64Bound ∧
      e.totalDeposit + x < u64Bound ∧ e.totalDepositFee + c.fee < u64Bound ∧
      p.totalDeposit + x < u64Bound ∧ p.totalDepositFee + c.fee < u64Bound ∧
      p' = p.credited e.registryIndex r x c.fee ∧ e' = e.credited x c.fee := by
  simp only [Presale.deposit, Registry.depositFeeIncluded, Registry.deposit, Escrow.deposit, bind_eq_ok,
    getRegistry_eq_ok, add64_eq_ok, pure_eq_ok, Prod.exists, Prod.mk.injEq]
  constructor
  · rintro ⟨r, h1, c', h2, r', e1, ⟨_, ⟨h3, rfl⟩, _, ⟨h4, rfl⟩, _, ⟨_, ⟨h5, rfl⟩, _, ⟨h6, rfl⟩, rfl⟩, rfl, rfl⟩,
      _, ⟨h7, rfl⟩, _, ⟨h8, rfl⟩, rfl, rfl, rfl⟩
    exact ⟨r, h1, h2, h3, h4, h5, h6, h7, h8, rfl, rfl⟩
  · rintro ⟨r, h1, h2, h3, h4, h5, h6, h7, h8, rfl, rfl⟩
    exact ⟨r, h1, c, h2, _, _, ⟨_, ⟨h3, rfl⟩, _, ⟨h4, rfl⟩, _, ⟨_, ⟨h5, rfl⟩, _, ⟨h6, rfl⟩, rfl⟩, rfl, rfl⟩,
      _, ⟨h7, rfl⟩, _, ⟨h8, rfl⟩, rfl, rfl, rfl⟩

/-- The schedule moved to a new end. -/
def Presale.endedAt (p : Presale) (t : Nat) : Presale :=
  { p with
    presaleEndTime := t
    vestingStartTime := t + p.lockDuration
    vestingEndTime := t + p.lockDuration + p.vestDuration
    immediateReleaseTimestamp := t + (p.immediateReleaseTimestamp - p.presaleEndTime) }

theorem recalculate_iff {p : Presale} {t : Nat} {p' : Presale} :
    p.recalculatePresaleTiming t = .ok p' ↔ t + p.lockDuration + p.vestDuration < u64Bound ∧
      t + p.lockDuration < u64Bound ∧
      t + (p.immediateReleaseTimestamp - p.presaleEndTime) < u64Bound ∧ p' = p.endedAt t := by
  simp only [Presale.recalculatePresaleTiming, vestAndLockTimings, bind_eq_ok, add64_eq_ok, pure_eq_ok,
    Prod.exists, Prod.mk.injEq]
  constructor
  · rintro ⟨_, _, ⟨_, ⟨h1, rfl⟩, _, ⟨h2, rfl⟩, rfl, rfl⟩, _, ⟨h3, rfl⟩, rfl⟩
    exact ⟨h2, h1, h3, rfl⟩
  · rintro ⟨h2, h1, h3, rfl⟩
    exact ⟨_, _, ⟨_, ⟨h1, rfl⟩, _, ⟨h2, rfl⟩, rfl, rfl⟩, _, ⟨h3, rfl⟩, rfl⟩

/-- Whether a sale may finish early. -/
def Handler.endsEarly : Handler → Bool
  | .fixedPrice _ _ de => de == 0
  | .prorata => false
  | .fcfs de => de == 0

theorem endIfMaxCapReached_iff {h : Handler} {p : Presale} {t : Nat} {p' : Presale} :
    h.endIfMaxCapReached p t = .ok p' ↔
      ((h.endsEarly = true ∧ p.presaleMaximumCap ≤ p.totalDeposit) ∧
        t + p.lockDuration + p.vestDuration < u64Bound ∧ t + p.lockDuration < u64Bound ∧
        t + (p.immediateReleaseTimestamp - p.presaleEndTime) < u64Bound ∧ p' = p.endedAt t) ∨
      (¬ (h.endsEarly = true ∧ p.presaleMaximumCap ≤ p.totalDeposit) ∧ p' = p) := by
  have key : ∀ b : Bool, endPresaleIfMaxCapReached p b t = .ok p' ↔
      ((b = false ∧ p.presaleMaximumCap ≤ p.totalDeposit) ∧
        t + p.lockDuration + p.vestDuration < u64Bound ∧ t + p.lockDuration < u64Bound ∧
        t + (p.immediateReleaseTimestamp - p.presaleEndTime) < u64Bound ∧ p' = p.endedAt t) ∨
      (¬ (b = false ∧ p.presaleMaximumCap ≤ p.totalDeposit) ∧ p' = p) := by
    intro b
    unfold endPresaleIfMaxCapReached
    cases b with
    | true => simp [eq_comm]
    | false =>
      by_cases hc : p.presaleMaximumCap ≤ p.totalDeposit
      · simp [hc, Presale.advanceProgressToCompleted, recalculate_iff]
      · simp [hc, eq_comm]
  cases h with
  | fixedPrice q dw de =>
    unfold Handler.endIfMaxCapReached Handler.endsEarly
    simp only
    rw [key]
    simp
  | prorata => simp [Handler.endIfMaxCapReached, Handler.endsEarly, eq_comm]
  | fcfs de =>
    unfold Handler.endIfMaxCapReached Handler.endsEarly
    simp only
    rw [key]
    simp

structure DepositCoreFacts (p : Presale) (e : Escrow) (t maxAmount : Nat) (d : DepositResult)
    (h : Handler) (quota : Nat) (r : Registry) : Prop where
  started : p.presaleStartTime ≤ t
  open_ : t < p.presaleEndTime
  handler : getPresaleModeHandler p = .ok h
  quotaIs : h.getRemainingDepositQuota p e = .ok quota
  capped : 0 < min quota maxAmount
  suggested : h.suggestDepositAmount (min quota maxAmount) = .ok d.amount
  pos : 0 < d.amount
  registry : p.registries[e.registryIndex]? = some r
  fees : calculateDepositFeeIncludedAmount d.amount r.depositFeeBps .up = .ok d.fees
  boundR : r.totalDeposit + d.amount < u64Bound
  boundRF : r.totalDepositFee + d.fees.fee < u64Bound
  boundE : e.totalDeposit + d.amount < u64Bound
  boundEF : e.totalDepositFee + d.fees.fee < u64Bound
  boundP : p.totalDeposit + d.amount < u64Bound
  boundPF : p.totalDepositFee + d.fees.fee < u64Bound
  within : e.totalDeposit + d.amount ≥ r.buyerMinimumDepositCap ∧
    e.totalDeposit + d.amount ≤ r.buyerMaximumDepositCap
  escrow : d.escrow = e.credited d.amount d.fees.fee
  finish : h.endIfMaxCapReached (p.credited e.registryIndex r d.amount d.fees.fee) t = .ok d.presale

theorem depositCore_iff {p : Presale} {e : Escrow} {t maxAmount : Nat} {d : DepositResult} :
    depositCore p e t maxAmount = .ok d ↔ ∃ h quota r, DepositCoreFacts p e t maxAmount d h quota r := by
  simp only [depositCore, bind_eq_ok, require_eq_ok, exists_const, progress_ongoing, deposit_iff, Prod.exists,
    pure_eq_ok, getRegistry_eq_ok]
  constructor
  · rintro ⟨⟨h1, h2⟩, h, h3, q, h4, h5, x, h6, h7, p1, e1, c, ⟨r, g1, g2, g3, g4, g5, g6, g7, g8, rfl, rfl⟩, r', h8, _, h9,
      p2, h10, rfl⟩
    have hlt := List.getElem?_eq_some_iff.1 g1
    have hr' : r' = { r with totalDeposit := r.totalDeposit + x, totalDepositFee := r.totalDepositFee + c.fee } := by
      simp only [Presale.credited, Escrow.credited] at h8
      rw [List.getElem?_set_self hlt.1] at h8
      cases h8; rfl
    subst hr'
    refine ⟨h, q, r, ⟨h1, h2, h3, h4, h5, h6, h7, g1, g2, g3, g4, g5, g6, g7, g8, ?_, rfl, h10⟩⟩
    unfold Registry.validateEscrowDeposit at h9
    have hne : (e.credited x c.fee).totalDeposit ≠ 0 := by
      simp only [Escrow.credited]; omega
    rw [if_neg hne] at h9
    simp only [require_eq_ok] at h9
    exact h9
  · rintro ⟨h, q, r, ⟨h1, h2, h3, h4, h5, h6, h7, g1, g2, g3, g4, g5, g6, g7, g8, h8, h9, h10⟩⟩
    have hlt := List.getElem?_eq_some_iff.1 g1
    refine ⟨⟨h1, h2⟩, h, h3, q, h4, h5, d.amount, h6, h7, _, _, d.fees,
      ⟨r, g1, g2, g3, g4, g5, g6, g7, g8, rfl, rfl⟩, 
      { r with totalDeposit := r.totalDeposit + d.amount, totalDepositFee := r.totalDepositFee + d.fees.fee }, ?_, (), ?_, d.presale, h10, ?_⟩
    · simp only [Presale.credited, Escrow.credited]
      rw [List.getElem?_set_self hlt.1]
    · unfold Registry.validateEscrowDeposit
      have hne : (e.credited d.amount d.fees.fee).totalDeposit ≠ 0 := by
        simp only [Escrow.credited]; omega
      rw [if_neg hne]
      exact require_ok h8
    · rw [← h9]

/-! ## Withdraw -/

/-- The presale after recording a withdrawal of `x` from slot `i`. -/
def Presale.debited (p : Presale) (i : Nat) (r : Registry) (x : Nat) : Presale :=
  { p with
    registries := p.registries.set i { r with totalDeposit := r.totalDeposit - x }
    totalDeposit := p.totalDeposit - x }

/-- The escrow after recording a withdrawal of `x`. -/
def Escrow.debited (e : Escrow) (x : Nat) : Escrow := { e with totalDeposit := e.totalDeposit - x }

theorem withdraw_iff {p : Presale} {e : Escrow} {x : Nat} {p' : Presale} {e' : Escrow} :
    p.withdraw e x = .ok (p', e') ↔ ∃ r, p.registries[e.registryIndex]? = some r ∧
      x ≤ e.totalDeposit ∧ x ≤ r.totalDeposit ∧ x ≤ p.totalDeposit ∧
      p' = p.debited e.registryIndex r x ∧ e' = e.debited x := by
  simp only [Presale.withdraw, Registry.withdraw, Escrow.withdraw, bind_eq_ok,
    getRegistry_eq_ok, sub_eq_ok, pure_eq_ok, Prod.exists, Prod.mk.injEq]
  constructor
  · rintro ⟨r, h1, _, _, ⟨_, ⟨_, ⟨h2, rfl⟩, rfl⟩, _, ⟨h3, rfl⟩, rfl, rfl⟩, _, ⟨h4, rfl⟩, rfl, rfl⟩
    exact ⟨r, h1, h2, h3, h4, rfl, rfl⟩
  · rintro ⟨r, h1, h2, h3, h4, rfl, rfl⟩
    exact ⟨r, h1, _, _, ⟨_, ⟨_, ⟨h2, rfl⟩, rfl⟩, _, ⟨h3, rfl⟩, rfl, rfl⟩, _, ⟨h4, rfl⟩, rfl, rfl⟩

structure WithdrawCoreFacts (p : Presale) (e : Escrow) (t maxAmount : Nat) (p' : Presale) (e' : Escrow)
    (x : Nat) (h : Handler) (r : Registry) : Prop where
  started : p.presaleStartTime ≤ t
  open_ : t < p.presaleEndTime
  asked : 0 < maxAmount
  within : maxAmount ≤ e.totalDeposit
  handler : getPresaleModeHandler p = .ok h
  allowed : h.canWithdraw = true
  suggested : h.suggestWithdrawAmount e maxAmount = .ok x
  pos : 0 < x
  registry : p.registries[e.registryIndex]? = some r
  leE : x ≤ e.totalDeposit
  leR : x ≤ r.totalDeposit
  leP : x ≤ p.totalDeposit
  limits : e.totalDeposit - x = 0 ∨
    (r.buyerMinimumDepositCap ≤ e.totalDeposit - x ∧ e.totalDeposit - x ≤ r.buyerMaximumDepositCap)
  presale : p' = p.debited e.registryIndex r x
  escrow : e' = e.debited x

theorem withdrawCore_iff {p : Presale} {e : Escrow} {t maxAmount : Nat} {p' : Presale} {e' : Escrow} {x : Nat} :
    withdrawCore p e t maxAmount = .ok (p', e', x) ↔
      ∃ h r, WithdrawCoreFacts p e t maxAmount p' e' x h r := by
  simp only [withdrawCore, bind_eq_ok, require_eq_ok, exists_const, progress_ongoing, Prod.exists,
    pure_eq_ok, getRegistry_eq_ok, Prod.mk.injEq]
  have hval : ∀ (r : Registry) (e : Escrow), r.validateEscrowDeposit e = .ok () ↔
      e.totalDeposit = 0 ∨ (r.buyerMinimumDepositCap ≤ e.totalDeposit ∧
        e.totalDeposit ≤ r.buyerMaximumDepositCap) := by
    intro r e
    unfold Registry.validateEscrowDeposit
    by_cases h0 : e.totalDeposit = 0
    · simp [h0]
    · simp [h0, require_eq_ok]
  constructor
  · rintro ⟨⟨h1, h2⟩, h3, h4, h, h5, h6, x', h7, h8, p1, e1, h9, r', h10, _, h11, rfl, rfl, rfl⟩
    have h9' : p.withdraw e x' = .ok (p1, e1) := by
      cases h with
      | fixedPrice q dw de => exact h9
      | prorata => exact h9
      | fcfs de => simp [Handler.canWithdraw] at h6
    obtain ⟨r, g1, g2, g3, g4, rfl, rfl⟩ := withdraw_iff.1 h9'
    have hlt := List.getElem?_eq_some_iff.1 g1
    simp only [Presale.debited, Escrow.debited] at h10
    rw [List.getElem?_set_self hlt.1] at h10
    cases h10
    rw [hval] at h11
    exact ⟨h, r, ⟨h1, h2, h3, h4, h5, h6, h7, h8, g1, g2, g3, g4, h11, rfl, rfl⟩⟩
  · rintro ⟨h, r, ⟨h1, h2, h3, h4, h5, h6, h7, h8, g1, g2, g3, g4, h11, rfl, rfl⟩⟩
    have hlt := List.getElem?_eq_some_iff.1 g1
    have h9' : p.withdraw e x = .ok (p.debited e.registryIndex r x, e.debited x) :=
      withdraw_iff.2 ⟨r, g1, g2, g3, g4, rfl, rfl⟩
    refine ⟨⟨h1, h2⟩, h3, h4, h, h5, h6, x, h7, h8, _, _, ?_,
      { r with totalDeposit := r.totalDeposit - x }, ?_, (), ?_, rfl, rfl, rfl⟩
    · cases h with
      | fixedPrice q dw de => exact h9'
      | prorata => exact h9'
      | fcfs de => simp [Handler.canWithdraw] at h6
    · simp only [Presale.debited, Escrow.debited]
      rw [List.getElem?_set_self hlt.1]
    · rw [hval]; exact h11

/-! ## Escrow counts -/

def Presale.counted (p : Presale) (i : Nat) (r : Registry) : Presale :=
  { p with
    registries := p.registries.set i { r with totalEscrow := r.totalEscrow + 1 }
    totalEscrow := p.totalEscrow + 1 }

def Presale.uncounted (p : Presale) (i : Nat) (r : Registry) : Presale :=
  { p with
    registries := p.registries.set i { r with totalEscrow := r.totalEscrow - 1 }
    totalEscrow := p.totalEscrow - 1 }

theorem increaseEscrowCount_iff {p : Presale} {i : Nat} {p' : Presale} :
    p.increaseEscrowCount i = .ok p' ↔ ∃ r, p.registries[i]? = some r ∧ r.totalEscrow + 1 < u64Bound ∧
      p.totalEscrow + 1 < u64Bound ∧ p' = p.counted i r := by
  simp only [Presale.increaseEscrowCount, Registry.increaseEscrowCount, bind_eq_ok, getRegistry_eq_ok,
    add64_eq_ok, pure_eq_ok]
  constructor
  · rintro ⟨r, h1, _, ⟨_, ⟨h2, rfl⟩, rfl⟩, _, ⟨h3, rfl⟩, rfl⟩; exact ⟨r, h1, h2, h3, rfl⟩
  · rintro ⟨r, h1, h2, h3, rfl⟩; exact ⟨r, h1, _, ⟨_, ⟨h2, rfl⟩, rfl⟩, _, ⟨h3, rfl⟩, rfl⟩

theorem decreaseEscrowCount_iff {p : Presale} {i : Nat} {p' : Presale} :
    p.decreaseEscrowCount i = .ok p' ↔ ∃ r, p.registries[i]? = some r ∧ 1 ≤ r.totalEscrow ∧
      1 ≤ p.totalEscrow ∧ p' = p.uncounted i r := by
  simp only [Presale.decreaseEscrowCount, Registry.decreaseEscrowCount, bind_eq_ok, getRegistry_eq_ok,
    sub_eq_ok, pure_eq_ok]
  constructor
  · rintro ⟨r, h1, _, ⟨_, ⟨h2, rfl⟩, rfl⟩, _, ⟨h3, rfl⟩, rfl⟩; exact ⟨r, h1, h2, h3, rfl⟩
  · rintro ⟨r, h1, h2, h3, rfl⟩; exact ⟨r, h1, _, ⟨_, ⟨h2, rfl⟩, rfl⟩, _, ⟨h3, rfl⟩, rfl⟩

/-! ## Refund counters -/

def Presale.refunded (p : Presale) (i : Nat) (r : Registry) (x : Nat) : Presale :=
  { p with
    registries := p.registries.set i
      { r with totalRefundedQuoteToken := r.totalRefundedQuoteToken + x }
    totalRefundedQuoteToken := p.totalRefundedQuoteToken + x }

theorem updateRefunded_iff {p : Presale} {i x : Nat} {p' : Presale} :
    p.updateTotalRefundedQuoteToken x i = .ok p' ↔ ∃ r, p.registries[i]? = some r ∧
      r.totalRefundedQuoteToken + x < u64Bound ∧ p.totalRefundedQuoteToken + x < u64Bound ∧
      p' = p.refunded i r x := by
  simp only [Presale.updateTotalRefundedQuoteToken, Registry.updateTotalRefundedQuoteToken, bind_eq_ok,
    getRegistry_eq_ok, add64_eq_ok, pure_eq_ok]
  constructor
  · rintro ⟨r, h1, _, ⟨_, ⟨h2, rfl⟩, rfl⟩, _, ⟨h3, rfl⟩, rfl⟩; exact ⟨r, h1, h2, h3, rfl⟩
  · rintro ⟨r, h1, h2, h3, rfl⟩; exact ⟨r, h1, _, ⟨_, ⟨h2, rfl⟩, rfl⟩, _, ⟨h3, rfl⟩, rfl⟩

/-! ## Claims -/

def Presale.claimed (p : Presale) (i : Nat) (r : Registry) (x : Nat) : Presale :=
  { p with
    registries := p.registries.set i { r with totalClaimedToken := r.totalClaimedToken + x }
    totalClaimedToken := p.totalClaimedToken + x }

def Escrow.paid (e : Escrow) : Escrow :=
  { e with totalClaimedToken := e.totalClaimedToken + e.pendingClaimToken, pendingClaimToken := 0 }

theorem claim_iff {p : Presale} {e : Escrow} {p' : Presale} {e' : Escrow} :
    p.claim e = .ok (p', e') ↔ ∃ r, p.registries[e.registryIndex]? = some r ∧
      e.totalClaimedToken + e.pendingClaimToken < u64Bound ∧
      r.totalClaimedToken + e.pendingClaimToken < u64Bound ∧
      p.totalClaimedToken + e.pendingClaimToken < u64Bound ∧
      p' = p.claimed e.registryIndex r e.pendingClaimToken ∧ e' = e.paid := by
  simp only [Presale.claim, Escrow.claim, Registry.updateTotalClaimAmount, bind_eq_ok, getRegistry_eq_ok,
    add64_eq_ok, pure_eq_ok, Prod.exists, Prod.mk.injEq]
  constructor
  · rintro ⟨r, h1, _, _, ⟨_, ⟨h2, rfl⟩, rfl, rfl⟩, _, ⟨_, ⟨h3, rfl⟩, rfl⟩, _, ⟨h4, rfl⟩, rfl, rfl⟩
    exact ⟨r, h1, h2, h3, h4, rfl, rfl⟩
  · rintro ⟨r, h1, h2, h3, h4, rfl, rfl⟩
    exact ⟨r, h1, _, _, ⟨_, ⟨h2, rfl⟩, rfl, rfl⟩, _, ⟨_, ⟨h3, rfl⟩, rfl⟩, _, ⟨h4, rfl⟩, rfl, rfl⟩

/-- The escrow after accruing up to a cumulative amount `c` at time `t`. -/
def Escrow.accrued (e : Escrow) (c t : Nat) : Escrow :=
  { e with
    pendingClaimToken := e.pendingClaimToken + (c - (e.totalClaimedToken + e.pendingClaimToken))
    lastRefreshedAt := t }

theorem accrue_iff {e : Escrow} {c t : Nat} {e' : Escrow} :
    accrue e c t = .ok e' ↔ e.totalClaimedToken + e.pendingClaimToken < u64Bound ∧
      e.totalClaimedToken + e.pendingClaimToken ≤ c ∧
      e.pendingClaimToken + (c - (e.totalClaimedToken + e.pendingClaimToken)) < u64Bound ∧
      e' = e.accrued c t := by
  simp only [accrue, Escrow.sumClaimedAndPendingClaimAmount, Escrow.accumulatePendingClaimToken, bind_eq_ok,
    add64_eq_ok, sub_eq_ok, pure_eq_ok]
  constructor
  · rintro ⟨_, ⟨h1, rfl⟩, _, ⟨h2, rfl⟩, _, ⟨_, ⟨h3, rfl⟩, rfl⟩, rfl⟩
    exact ⟨h1, h2, h3, rfl⟩
  · rintro ⟨h1, h2, h3, rfl⟩
    exact ⟨_, ⟨h1, rfl⟩, _, ⟨h2, rfl⟩, _, ⟨_, ⟨h3, rfl⟩, rfl⟩, rfl⟩

end Verif
