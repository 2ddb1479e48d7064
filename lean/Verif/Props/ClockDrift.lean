import Verif.Props.Ledger
import Verif.Props.Claims
import Verif.Props.Refunds
import Verif.Props.Access
import Verif.Props.ClockBack
import Verif.Examples

/-!
# C98: how far the clock may go back

C97 shows that the clock must not run backwards freely. Here is what may be allowed: putting the clock back does no
harm as long as no sale is reopened and nothing is thrown back before a time recorded in it. Under
such a clock the vaults still cover everything owed, claims and refunds still succeed and still pay exactly what is
due. Both limits matter: C97 crosses the first, `C98_limit` the second.
-/

namespace Verif
open Verif.Spec

/-- The ledger with another time on the clock. -/
def World.at (w : World) (t : Int) : World := { w with clock := t }

/-- Putting the clock of `w` to `t` reopens no sale and stays behind all recorded times. -/
structure Tolerable (w : World) (t : Int) : Prop where
  sales : ∀ a p, w.presales a = some p → (p.createdAt : Int) ≤ t ∧ (Over p w.clock → Over p t)
  escrows : ∀ k e, w.escrows.get? k = some e → (e.lastRefreshedAt : Int) ≤ t

/-- Ledgers reached from an empty deployment by any operations and any tolerable changes of the clock. -/
inductive Drifting : World → Prop
  | genesis {w : World} (G : Genesis w) : Drifting w
  | op {w : World} (D : Drifting w) (op : Op) : Drifting (apply w op)
  | clock {w : World} (D : Drifting w) {t : Int} (T : Tolerable w t) : Drifting (w.at t)

/-- Every reachable ledger is among them. -/
theorem Reachable.drifting {w : World} (R : Reachable w) : Drifting w := by
  obtain ⟨w0, ops, G, rfl⟩ := R
  have key : ∀ (ops : List Op) (w : World), Drifting w → Drifting (Verif.run w ops) := by
    intro ops
    induction ops with
    | nil => exact fun w D => D
    | cons op ops ih => exact fun w D => ih _ (.op D op)
  exact key ops w0 (.genesis G)

/-- The records of a sale at another time. -/
theorem Book.drift {t t' : Nat} {a : Addr} {p : Presale} {es : AMap Addr Escrow} (B : Book t a p es)
    (hbps : p.immediateReleaseBps ≤ 10000) (hover : p.presaleEndTime ≤ t → p.presaleEndTime ≤ t')
    (hesc : ∀ x ∈ es, x.2.presale = a → x.2.lastRefreshedAt ≤ t') : Book t' a p es := by
  rcases Nat.le_total t t' with hle | hle
  · exact B.tick hle hbps
  · have hiff : t' < p.presaleEndTime ↔ t < p.presaleEndTime := by
      constructor
      · intro h
        rcases Nat.lt_or_ge t p.presaleEndTime with h1 | h1
        · exact h1
        · have := hover h1; omega
      · omega
    have hiff' : p.presaleEndTime ≤ t' ↔ p.presaleEndTime ≤ t := by omega
    refine ⟨B.totDep, B.totFee, B.totEsc, B.totCl, B.totRef, B.cap, B.bound, ?_, ?_⟩
    · intro i r hr
      have R := B.reg i r hr
      exact ⟨R.count, R.dep, R.fee, by rw [hiff]; exact R.depEq, by rw [hiff]; exact R.feeEq,
        by rw [hiff]; exact R.refund0, by rw [hiff]; exact R.claim0, by rw [hiff']; exact R.refund,
        by rw [hiff']; exact R.claim, R.unused⟩
    · intro x hx ha
      obtain ⟨r, hr, E⟩ := B.esc x hx ha
      exact ⟨r, hr, E.idx, E.limits, E.cap, E.capLe, E.opened, E.created, E.refreshed0, hesc x hx ha, E.flag,
        by rw [hiff]; exact E.flag0, by rw [hiff]; exact E.claim0, by rw [hiff']; exact E.claim⟩

theorem WInv.drift {w : World} (W : WInv w) {t : Int} (T : Tolerable w t) : WInv (w.at t) := by
  refine ⟨⟨W.core.nodup, W.core.esc, W.core.amounts, W.core.mints, W.core.vaults, ?_⟩,
    ⟨W.aux.fixed, W.aux.merkle, W.aux.ops, W.aux.metas⟩⟩
  intro a p hp
  have S := W.core.sale a p hp
  obtain ⟨hc, ho⟩ := T.sales a p hp
  have h0 : 0 ≤ t := by omega
  have hover : p.presaleEndTime ≤ w.clock.toNat → p.presaleEndTime ≤ t.toNat := by
    intro h
    have := ho (S.over.2 h)
    unfold Over at this
    omega
  refine ⟨h0, ⟨S.pinv.static, ?_, ?_, ?_⟩, S.vaults, S.baseMint, S.quoteMint, S.origin⟩
  · have K := S.pinv.sched
    exact ⟨by show p.createdAt ≤ t.toNat; omega, K.order, K.timing, K.range, K.immLe, K.immGe⟩
  · have K := S.pinv.flags
    refine ⟨K.w, K.f, K.u, ?_, ?_⟩
    · intro (h : t.toNat < p.presaleEndTime)
      exact K.open_ (by omega)
    · intro (h : t.toNat < p.presaleEndTime ∨ p.totalDeposit < p.presaleMinimumCap)
      refine K.failed ?_
      rcases h with h | h
      · exact .inl (by omega)
      · exact .inr h
  · refine S.pinv.book.drift S.pinv.static.bps hover ?_
    intro x hx _
    have := T.escrows x.1 x.2 (AMap.mem_get? W.core.nodup hx)
    show x.2.lastRefreshedAt ≤ t.toNat
    omega

theorem Drifting.winv {w : World} (D : Drifting w) : WInv w := by
  induction D with
  | genesis G => exact G.winv
  | op _ op ih => exact ih.apply op
  | clock _ T ih => exact ih.drift T

/-- **C98**, solvency (as C01): the quote vault covers everything owed. -/
theorem C98_quote_solvent {w : World} (D : Drifting w) {a : Addr} {p : Presale} (hp : w.presales a = some p) :
    ∃ q, w.tk.toks (.quoteVault a) = some q ∧ q.mint = p.quoteMint ∧ q.owner = .presaleAuthority ∧
      q.delegate = none ∧
      (¬ Over p w.clock → p.totalDeposit + p.totalDepositFee ≤ q.amount) ∧
      (Failed p w.clock →
        saleSum w.escrows a (fun e => if e.isRemainingQuoteWithdrawn = 1 then 0
          else e.totalDeposit + e.totalDepositFee) ≤ q.amount) ∧
      (Completed p w.clock → creatorDue p + saleSum w.escrows a (refundDue p) ≤ q.amount) :=
  quote_solvent_of D.winv hp

/-- **C98**, solvency (as C02): the base vault covers everything owed. -/
theorem C98_base_solvent {w : World} (D : Drifting w) {a : Addr} {p : Presale} (hp : w.presales a = some p) :
    ∃ b, w.tk.toks (.baseVault a) = some b ∧ b.mint = p.baseMint ∧ b.owner = .presaleAuthority ∧
      b.delegate = none ∧
      (¬ Over p w.clock → p.presaleSupply ≤ b.amount) ∧
      (Failed p w.clock → p.hasCreatorWithdrawn = 0 → p.presaleSupply ≤ b.amount) ∧
      (Completed p w.clock →
        (if p.isUnsoldTokenActionPerformed = 1 then 0 else p.presaleSupply - totalSold p) +
          saleSum w.escrows a (claimDue p) ≤ b.amount) :=
  base_solvent_of D.winv hp

/-- **C98**, claims (as C26 and C13): in a completed sale the owner's claim succeeds and leaves them with exactly
what has been released by the time on the clock. -/
theorem C98_claim {w : World} (D : Drifting w) {tx : Tx} {x : ClaimAcc} {p : Presale} {e : Escrow} {r : Registry}
    (hp : w.presales x.presale = some p) (hk : w.escrows.get? x.escrow = some e) (ha : e.presale = x.presale)
    (ho : x.owner = e.owner) (hs : tx.signed e.owner = true) (hc : Completed p w.clock)
    (hr : p.registries[e.registryIndex]? = some r) (hv : x.baseTokenVault = p.baseTokenVault)
    (hm : x.baseMint = p.baseMint)
    (hpay : Payable w.tk tx .transferHookBase p.baseMint p.baseTokenVault x.ownerBaseToken x.tokenProgram
      x.remaining x.slices (claimableAt p r e w.clock.toNat - e.totalClaimedToken)) :
    ∃ w' rc e', step w (.ix tx (.claim x)) = .ok (w', rc) ∧ w'.escrows.get? x.escrow = some e' ∧
      e'.totalClaimedToken = claimableAt p r e w.clock.toNat ∧ e.totalClaimedToken ≤ e'.totalClaimedToken := by
  obtain ⟨w', rc, hstep⟩ := claim_succeeds_of D.winv hp hk ha ho hs hc hr hv hm hpay
  obtain ⟨q, q', f, e', r0, r1, n, C⟩ := claim_spec_of D.winv hstep
  have hq := C.presale; rw [hp] at hq; cases hq
  have hf := C.escrow; rw [hk] at hf; cases hf
  have hr0 := C.registry; rw [hr] at hr0; cases hr0
  refine ⟨w', rc, e', hstep, C.escrow', C.total, ?_⟩
  rw [C.escrowNow]
  exact Nat.le_add_right _ _

/-- **C98**, refunds (as C27): the refund due is available, once. -/
theorem C98_refund {w : World} (D : Drifting w) {tx : Tx} {x : RefundAcc} {p : Presale} {e : Escrow} {r : Registry}
    (hp : w.presales x.presale = some p) (hk : w.escrows.get? x.escrow = some e) (ha : e.presale = x.presale)
    (ho : x.owner = e.owner) (hs : tx.signed e.owner = true)
    (hphase : Failed p w.clock ∨ (Completed p w.clock ∧ p.presaleMode = 1))
    (hfirst : e.isRemainingQuoteWithdrawn = 0) (hr : p.registries[e.registryIndex]? = some r)
    (hv : x.quoteTokenVault = p.quoteTokenVault) (hm : x.quoteMint = p.quoteMint)
    (hpay : Payable w.tk tx .transferHookQuote p.quoteMint p.quoteTokenVault x.ownerQuoteToken x.tokenProgram
      x.remaining x.slices (owedRefund p r e)) :
    ∃ w' rc e', step w (.ix tx (.refund x)) = .ok (w', rc) ∧ w'.escrows.get? x.escrow = some e' ∧
      e'.isRemainingQuoteWithdrawn = 1 := by
  obtain ⟨w', rc, hstep⟩ := refund_succeeds_of D.winv hp hk ha ho hs hphase hfirst hr hv hm hpay
  obtain ⟨q, q', f, e', r0, r1, n, F⟩ := refund_spec_of D.winv hstep
  exact ⟨w', rc, e', hstep, F.escrow', by rw [F.escrowNow]⟩

/-! ## Concrete cases -/

namespace Ex

/-- Alice has claimed halfway through vesting. -/
def halfClaimed : World := run genesis (prorataOps ++ [.tick 1180, claim alice aliceBase, .tick 100])

end Ex

/-- A history naming one sale only creates no other. -/
theorem only_named {a : Addr} {w0 : World} (G : Genesis w0) :
    ∀ ops : List Op, (∀ op ∈ ops, ∀ tx i, op = .ix tx i → i.names = some a) →
      ∀ b, b ≠ a → (run w0 ops).presales b = none := by
  intro ops
  induction ops using List.reverseRecOn with
  | nil => exact fun _ b _ => G.presales b
  | append_singleton ops op ih =>
    intro h b hb
    have h0 := ih (fun o ho => h o (List.mem_append_left _ ho)) b hb
    have R : Reachable (run w0 ops) := ⟨w0, ops, G, rfl⟩
    rw [run_append]
    show (apply (run w0 ops) op).presales b = none
    unfold apply
    cases hs : step (run w0 ops) op with
    | error e => exact h0
    | ok x =>
      show x.1.presales b = none
      cases op with
      | ix tx i =>
        have hn := h (.ix tx i) (List.mem_append_right _ (List.mem_singleton.2 rfl)) tx i rfl
        rw [(C34_isolated R (w' := x.1) (rc := x.2) hs (by rw [hn]; intro hc; cases hc; exact hb rfl)).1]
        exact h0
      | _ =>
        cases step_effect R.winv (w' := x.1) (rc := x.2) hs with
        | quiet h1 => rw [h1]; exact h0
        | create h1 => cases h1
        | act h1 => cases h1

/-- `Tolerable` for a concrete ledger with a single sale. -/
theorem tolerable_of {ops : List Op} {t : Int}
    (h : ∀ op ∈ ops, ∀ tx i, op = .ix tx i → i.names = some Ex.sale)
    (hs : Ex.has (run Ex.genesis ops) (fun p => decide ((p.createdAt : Int) ≤ t ∧ (p.presaleEndTime : Int) ≤ t)) = true)
    (he : (run Ex.genesis ops).escrows.all (fun x => decide ((x.2.lastRefreshedAt : Int) ≤ t)) = true) :
    Tolerable (run Ex.genesis ops) t := by
  refine ⟨fun a p hp => ?_, fun k e hk => ?_⟩
  · by_cases ha : a = Ex.sale
    · subst ha
      unfold Ex.has at hs
      rw [hp] at hs
      obtain ⟨h1, h2⟩ := of_decide_eq_true hs
      exact ⟨h1, fun _ => h2⟩
    · rw [only_named Ex.genesis_ok ops h a ha] at hp
      cases hp
  · exact of_decide_eq_true (List.all_eq_true.1 he (k, e) (AMap.get?_mem hk))

/-- The clock goes back to the time of alice's claim, which is tolerable: it lies after the end of the sale. -/
theorem Ex.halfClaimed_back : Tolerable Ex.halfClaimed (Ex.halfClaimed.clock - 100) := by
  refine tolerable_of ?_ (by decide +kernel) (by decide +kernel)
  intro op hop tx i h
  simp only [Ex.prorataOps, List.cons_append, List.nil_append, List.mem_cons, List.not_mem_nil, or_false] at hop
  rcases hop with rfl | rfl | rfl | rfl | rfl | rfl | rfl | rfl | rfl | rfl <;> cases h <;> rfl

/-- `C98_claim`, `C98_refund`: after going back alice and bob still get what is due. -/
example : Drifting (Ex.halfClaimed.at (Ex.halfClaimed.clock - 100)) ∧
    Ex.works (Ex.halfClaimed.at (Ex.halfClaimed.clock - 100)) (Ex.claim Ex.alice Ex.aliceBase) = true ∧
    Ex.works (Ex.halfClaimed.at (Ex.halfClaimed.clock - 100)) (Ex.claim Ex.bob Ex.bobBase) = true ∧
    Ex.works (Ex.halfClaimed.at (Ex.halfClaimed.clock - 100)) (Ex.refund Ex.bob Ex.bobQuote) = true :=
  ⟨.clock (Ex.reachable _).drifting Ex.halfClaimed_back, by decide +kernel, by decide +kernel, by decide +kernel⟩

/-- **C98**, the second limit matters: one second further back, before alice's claim, alice cannot claim although
the sale is still completed. (Nothing is lost: the claim works again once the clock has caught up.) -/
theorem C98_limit :
    ∃ w t, Reachable w ∧ (∃ p, w.presales Ex.sale = some p ∧ Completed p t) ∧
      Tolerable w (t + 1) ∧ ¬ Tolerable w t ∧
      Ex.works (w.at (t + 1)) (Ex.claim Ex.alice Ex.aliceBase) = true ∧
      Ex.works (w.at t) (Ex.claim Ex.alice Ex.aliceBase) = false ∧
      Ex.works (run (w.at t) [.tick 1]) (Ex.claim Ex.alice Ex.aliceBase) = true := by
  refine ⟨Ex.halfClaimed, Ex.halfClaimed.clock - 101, Ex.reachable _, ?_, ?_, ?_, by decide +kernel,
    by decide +kernel, by decide +kernel⟩
  · obtain ⟨p, b, hp, -, hf⟩ := read_both (w := Ex.halfClaimed) (a := Ex.sale) (v := .baseVault Ex.sale)
      (f := fun p _ => decide ((p.presaleEndTime : Int) ≤ Ex.halfClaimed.clock - 101 ∧
        p.presaleMinimumCap ≤ p.totalDeposit)) (by decide +kernel)
    obtain ⟨h1, h2⟩ := of_decide_eq_true hf
    exact ⟨p, hp, h1, h2⟩
  · have h : Ex.halfClaimed.clock - 101 + 1 = Ex.halfClaimed.clock - 100 := by omega
    rw [h]
    exact Ex.halfClaimed_back
  · intro T
    have hb : Ex.hasEsc Ex.halfClaimed (Ex.escrowOf Ex.alice)
        (fun e => decide (Ex.halfClaimed.clock - 101 < (e.lastRefreshedAt : Int))) = true := by decide +kernel
    unfold Ex.hasEsc at hb
    split at hb
    · rename_i e he
      have h1 := of_decide_eq_true hb
      have h2 := T.escrows _ _ he
      omega
    · cases hb

end Verif
