import Verif.Props.Lifecycle
import Verif.Props.Ledger
import Verif.Props.Claims
import Verif.Props.Refunds
import Verif.Props.Closing
import Verif.Examples

/-!
# C96: nobody waits longer than a fixed time

The bounds on the dates of a sale are checked once, at creation, and some dates move later on. What a buyer
relies on is the consequence for them: from any moment on, a fixed time later the sale is decided and every token
sold is released, whatever was done meanwhile and whoever did it.
-/

namespace Verif
open Verif.Spec

/-- 30 days. -/
def month : Nat := 30 * 24 * 3600
/-- Ten years of 365 days. -/
def decade : Nat := 10 * 365 * 24 * 3600

/-- The last release date comes less than ten years after the end of the sale. -/
theorem last_release {w : World} (R : Reachable w) {a : Addr} {p : Presale} (hp : w.presales a = some p) :
    p.vestingStartTime + p.vestDuration + 1 ≤ p.presaleEndTime + decade := by
  have S := R.winv.core.sale a p hp
  have hd := (C31_constraints R hp).2.2.2.2.2.2.2.2.2.2.2.2.1
  unfold decade
  rcases S.pinv.sched.timing with ⟨h, -⟩ | ⟨-, h2, -, -, h3, -⟩ <;> omega

/-- **C96**: sixty days after its creation every sale is decided: it has either succeeded or failed, for good. -/
theorem C96_decided {w : World} (R : Reachable w) {a : Addr} {p : Presale} (hp : w.presales a = some p)
    (h : ((p.createdAt + 2 * month : Nat) : Int) ≤ w.clock) : Completed p w.clock ∨ Failed p w.clock := by
  obtain ⟨-, -, -, -, -, -, -, -, h1, -, h2, -⟩ := C31_constraints R hp
  have ho : Over p w.clock := by unfold Over; unfold month at h; omega
  rcases Nat.lt_or_ge p.totalDeposit p.presaleMinimumCap with hf | hc
  · exact .inr ⟨ho, hf⟩
  · exact .inl ⟨ho, hc⟩

/-- **C96**: ten years after that, less a second, everything any buyer will ever be entitled to is released. -/
theorem C96_released {w : World} (R : Reachable w) {a k : Addr} {p : Presale} (hp : w.presales a = some p)
    {e : Escrow} (hk : w.escrows.get? k = some e) (ha : e.presale = a)
    (h : ((p.createdAt + 2 * month + decade : Nat) : Int) ≤ w.clock + 1) :
    ∃ r, p.registries[e.registryIndex]? = some r ∧
      claimableAt p r e w.clock.toNat = entitlement p r e := by
  obtain ⟨-, -, -, -, -, -, -, -, h1, -, h2, -⟩ := C31_constraints R hp
  have hl := last_release R hp
  obtain ⟨r, hr, hf, -⟩ := C15_full_entitlement R hp hk ha
  refine ⟨r, hr, hf _ ?_⟩
  unfold month at h
  omega

/-- **C96**, seen from any moment at which the sale accepts deposits (so from any deposit): whatever happens
afterwards, thirty days later the sale is decided, and ten years after that every buyer's tokens are released. -/
theorem C96_from_open {w : World} (R : Reachable w) {a : Addr} {p : Presale} (hp : w.presales a = some p)
    (hopen : Ongoing p w.clock) (ops : List Op) :
    ∃ p', (run w ops).presales a = some p' ∧
      (w.clock + month ≤ (run w ops).clock →
        Completed p' (run w ops).clock ∨ Failed p' (run w ops).clock) ∧
      (w.clock + month + decade ≤ (run w ops).clock + 1 →
        ∀ k e, (run w ops).escrows.get? k = some e → e.presale = a →
          ∃ r, p'.registries[e.registryIndex]? = some r ∧
            claimableAt p' r e (run w ops).clock.toNat = entitlement p' r e) := by
  obtain ⟨p', hp', L⟩ := run_later R.winv ops hp
  have R' := R.run ops
  have hs : p'.presaleStartTime = p.presaleStartTime := (congrArg Presale.presaleStartTime L.terms :)
  obtain ⟨-, -, -, -, -, -, -, -, h1, -⟩ := C31_constraints R' hp'
  have hend : (p'.presaleEndTime : Int) ≤ w.clock + month := by
    have := hopen.1
    unfold month
    omega
  refine ⟨p', hp', fun h => ?_, fun h k e hk ha => ?_⟩
  · have ho : Over p' (run w ops).clock := by unfold Over; omega
    rcases Nat.lt_or_ge p'.totalDeposit p'.presaleMinimumCap with hf | hc
    · exact .inr ⟨ho, hf⟩
    · exact .inl ⟨ho, hc⟩
  · have hl := last_release R' hp'
    obtain ⟨r, hr, hf, -⟩ := C15_full_entitlement R' hp' hk ha
    exact ⟨r, hr, hf _ (by omega)⟩

/-- **C96**, in particular after a deposit. -/
theorem C96_from_deposit {w w' : World} (R : Reachable w) {tx : Tx} {x : DepositAcc} {rc : Receipt}
    (hs : step w (.ix tx (.deposit x)) = .ok (w', rc)) (ops : List Op) :
    ∃ p', (run w' ops).presales x.presale = some p' ∧
      (w.clock + month ≤ (run w' ops).clock →
        Completed p' (run w' ops).clock ∨ Failed p' (run w' ops).clock) ∧
      (w.clock + month + decade ≤ (run w' ops).clock + 1 →
        ∀ k e, (run w' ops).escrows.get? k = some e → e.presale = x.presale →
          ∃ r, p'.registries[e.registryIndex]? = some r ∧
            claimableAt p' r e (run w' ops).clock.toNat = entitlement p' r e) := by
  obtain ⟨p, hp, ho⟩ := C17_phases R hs rfl
  have hrun : run w (.ix tx (.deposit x) :: ops) = run w' ops := by
    simp only [run, List.foldl_cons, apply, hs]
  obtain ⟨p', h1, h2, h3⟩ := C96_from_open R hp ho (.ix tx (.deposit x) :: ops)
  rw [hrun] at h1 h2 h3
  exact ⟨p', h1, h2, h3⟩

/-- **C96**, the way out: past the horizon one signature of the buyer gets them everything. In a completed sale a
claim leaves them with their whole entitlement; in a failed one a refund they have not had yet is available. -/
theorem C96_exit {w : World} (R : Reachable w) {a k : Addr} {p : Presale} (hp : w.presales a = some p)
    {e : Escrow} (hk : w.escrows.get? k = some e) (ha : e.presale = a)
    (h : ((p.createdAt + 2 * month + decade : Nat) : Int) ≤ w.clock + 1) :
    ∃ r, p.registries[e.registryIndex]? = some r ∧
      ((Completed p w.clock ∧
          ∀ (tx : Tx) (x : ClaimAcc), x.presale = a → x.escrow = k → x.owner = e.owner →
            tx.signed e.owner = true → x.baseTokenVault = p.baseTokenVault → x.baseMint = p.baseMint →
            Payable w.tk tx .transferHookBase p.baseMint p.baseTokenVault x.ownerBaseToken x.tokenProgram
              x.remaining x.slices (entitlement p r e - e.totalClaimedToken) →
            ∃ w' rc e', step w (.ix tx (.claim x)) = .ok (w', rc) ∧ w'.escrows.get? k = some e' ∧
              e'.totalClaimedToken = entitlement p r e) ∨
        (Failed p w.clock ∧
          ∀ (tx : Tx) (x : RefundAcc), x.presale = a → x.escrow = k → x.owner = e.owner →
            tx.signed e.owner = true → x.quoteTokenVault = p.quoteTokenVault → x.quoteMint = p.quoteMint →
            e.isRemainingQuoteWithdrawn = 0 →
            Payable w.tk tx .transferHookQuote p.quoteMint p.quoteTokenVault x.ownerQuoteToken x.tokenProgram
              x.remaining x.slices (e.totalDeposit + e.totalDepositFee) →
            ∃ w' rc e', step w (.ix tx (.refund x)) = .ok (w', rc) ∧ w'.escrows.get? k = some e' ∧
              e'.isRemainingQuoteWithdrawn = 1)) := by
  obtain ⟨r, hr, hfull⟩ := C96_released R hp hk ha h
  refine ⟨r, hr, ?_⟩
  rcases C96_decided R hp (by unfold decade at h; omega) with hc | hf
  · refine .inl ⟨hc, fun tx x hx hxk ho hs hv hm hpay => ?_⟩
    subst hx; subst hxk
    rw [← hfull] at hpay
    obtain ⟨w', rc, hstep⟩ := C26_claim_succeeds R hp hk ha ho hs hc hr hv hm hpay
    obtain ⟨q, q', f, e', r0, r1, n, C⟩ := C13_claim R hstep
    have hq := C.presale; rw [hp] at hq; cases hq
    have hf := C.escrow; rw [hk] at hf; cases hf
    have hr0 := C.registry; rw [hr] at hr0; cases hr0
    exact ⟨w', rc, e', hstep, C.escrow', by rw [C.total, hfull]⟩
  · refine .inr ⟨hf, fun tx x hx hxk ho hs hv hm hfirst hpay => ?_⟩
    subst hx; subst hxk
    have howe : owedRefund p r e = e.totalDeposit + e.totalDepositFee := by
      unfold owedRefund; rw [if_pos hf.2]
    obtain ⟨w', rc, hstep⟩ := C27_refund_succeeds R hp hk ha ho hs (.inl hf) hfirst hr hv hm (by rw [howe]; exact hpay)
    obtain ⟨q, q', f, e', r0, r1, n, D⟩ := refund_spec R hstep
    exact ⟨w', rc, e', hstep, D.escrow', by rw [D.escrowNow]⟩

/-! ## The bounds are met, and cannot be improved -/

namespace Ex

/-- The slowest sale possible: announced 30 days ahead, open for 30 days, released over ten years less a second. -/
def slowInit (mode : Nat) : Op :=
  .ix (tx [creator, baseKey]) (.initPresale
    { initArgs mode 0 0 reg1 with
      args := { presaleParams := { params mode 0 0 with presaleStartTime := 1000 + month,
                                                        presaleEndTime := 1000 + 2 * month },
                lockedVestingParams := { vesting with lockDuration := 100, vestDuration := decade - 101,
                                                      immediateReleaseTimestamp := 1000 + 2 * month },
                presaleRegistries := reg1 } })

/-- The last second at which a deposit is taken: sixty days after creation, less a second. -/
def slowLast (amount : Nat) : World :=
  run genesis [slowInit 1, .tick (2 * month - 1), open' alice, deposit alice aliceQuote amount]

/-- The last second at which something is still locked. -/
def slowLocked : World := run genesis [slowInit 1, .tick (2 * month - 1), open' alice,
  deposit alice aliceQuote 900, .tick (decade - 1)]

/-- The first second at which nothing is. -/
def slowFree : World := run genesis [slowInit 1, .tick (2 * month - 1), open' alice,
  deposit alice aliceQuote 900, .tick decade]

/-- A failed sale of the same kind. -/
def slowFailed : World := run genesis [slowInit 1, .tick (2 * month - 1), open' alice,
  deposit alice aliceQuote 50, .tick decade]

end Ex

/-- **C96**: neither bound can be lowered. Sixty days after creation, less a second, there is a sale still taking
deposits; and a second before the second bound there is a buyer with tokens still locked. -/
theorem C96_sharp :
    (∃ w a p, Reachable w ∧ w.presales a = some p ∧
      w.clock + 1 = ((p.createdAt + 2 * month : Nat) : Int) ∧ Ongoing p w.clock) ∧
    (∃ w a k p e r, Reachable w ∧ w.presales a = some p ∧ w.escrows.get? k = some e ∧ e.presale = a ∧
      p.registries[e.registryIndex]? = some r ∧
      w.clock + 2 = ((p.createdAt + 2 * month + decade : Nat) : Int) ∧
      claimableAt p r e w.clock.toNat < entitlement p r e) := by
  refine ⟨⟨Ex.slowLast 900, Ex.sale, ((Ex.slowLast 900).presales Ex.sale).get (by decide +kernel),
    ⟨_, _, Ex.genesis_ok, rfl⟩, by simp, by decide +kernel, by unfold Ongoing; decide +kernel⟩,
    ⟨Ex.slowLocked, Ex.sale, Ex.escrowOf Ex.alice, (Ex.slowLocked.presales Ex.sale).get (by decide +kernel),
     (Ex.slowLocked.escrows.get? (Ex.escrowOf Ex.alice)).get (by decide +kernel),
     (((Ex.slowLocked.presales Ex.sale).get (by decide +kernel)).registries[0]?).get (by decide +kernel),
     ⟨_, _, Ex.genesis_ok, rfl⟩, by simp, by simp, by decide +kernel, ?_, by decide +kernel, by decide +kernel⟩⟩
  have h0 : ((Ex.slowLocked.escrows.get? (Ex.escrowOf Ex.alice)).get (by decide +kernel)).registryIndex = 0 := by
    decide +kernel
  rw [h0]
  simp

/-- `C96_released`, `C96_exit`: the slow sale past the horizon, and alice's claim of everything. -/
example : Ex.has Ex.slowFree (fun p => decide (((p.createdAt + 2 * month + decade : Nat) : Int) ≤ Ex.slowFree.clock + 1))
    = true := by decide +kernel
example : Ex.works Ex.slowFree (Ex.claim Ex.alice Ex.aliceBase) = true := by decide +kernel
example : Ex.works Ex.slowFailed (Ex.refund Ex.alice Ex.aliceQuote) = true := by decide +kernel
example : Ex.hasEsc (run Ex.slowFree [Ex.claim Ex.alice Ex.aliceBase]) (Ex.escrowOf Ex.alice)
    (fun e => decide (e.totalClaimedToken = 10000)) = true := by decide +kernel
/-- `C96_from_deposit`: the deposit in the last second. -/
example : Ex.works (run Ex.genesis [Ex.slowInit 1, .tick (2 * month - 1), Ex.open' Ex.alice])
    (Ex.deposit Ex.alice Ex.aliceQuote 900) = true := by decide +kernel
example : Ex.works (run Ex.genesis [Ex.slowInit 1, .tick (2 * month), Ex.open' Ex.alice])
    (Ex.deposit Ex.alice Ex.aliceQuote 900) = false := by decide +kernel

end Verif
