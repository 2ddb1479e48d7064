import Verif.Props.Refunds
import Verif.Props.Access
/-!
# After the sale a buyer's payouts do not depend on anybody else
-/

namespace Verif
open Spec

/-- The operation is a claim, refund or closing of the escrow at `k` in a transaction signed by `owner`. -/
def Spec.OwnerActs (k owner : Addr) : Op → Prop
  | .ix tx (.claim x) => x.escrow = k ∧ tx.signed owner = true
  | .ix tx (.refund x) => x.escrow = k ∧ tx.signed owner = true
  | .ix tx (.closeEscrow x) => x.escrow = k ∧ tx.signed owner = true
  | _ => False

/-- The escrow as far as payouts are concerned. -/
structure SamePayouts (e e' : Escrow) : Prop where
  identity : SameIdentity e e'
  deposit : e'.totalDeposit = e.totalDeposit
  fee : e'.totalDepositFee = e.totalDepositFee
  claimed : e'.totalClaimedToken = e.totalClaimedToken
  flag : e'.isRemainingQuoteWithdrawn = e.isRemainingQuoteWithdrawn

theorem SamePayouts.refl (e : Escrow) : SamePayouts e e := ⟨.refl e, rfl, rfl, rfl, rfl⟩

theorem SamePayouts.trans {e e' e'' : Escrow} (h : SamePayouts e e') (h' : SamePayouts e' e'') :
    SamePayouts e e'' :=
  ⟨h.identity.trans h'.identity, h'.deposit.trans h.deposit, h'.fee.trans h.fee,
    h'.claimed.trans h.claimed, h'.flag.trans h.flag⟩

theorem step_same_payouts {w : World} (W : WInv w) (op : Op) {k : Addr} {p : Presale} {e : Escrow}
    (hk : w.escrows.get? k = some e) (hp : w.presales e.presale = some p) (ho : Over p w.clock)
    (hno : ¬ OwnerActs k e.owner op) :
    ∃ e', (apply w op).escrows.get? k = some e' ∧ SamePayouts e e' := by
  rcases apply_cases w op with h | ⟨rc, h⟩
  · rw [h]; exact ⟨e, hk, .refl e⟩
  · have S := W.core.sale _ _ hp
    have hend := S.over.1 ho
    rcases (step_effect W h).escrow W hk with h1 | ⟨tx, i, q, hop, hq, _, C⟩
    · exact ⟨e, h1, .refl e⟩
    · rw [hp] at hq; cases hq
      generalize hg : (apply w op).escrows.get? k = o at C
      subst hop
      cases C with
      | deposit _ _ _ F => have := F.open_; omega
      | withdraw _ _ _ F => have := F.open_; omega
      | refreshed => exact ⟨_, rfl, ⟨⟨rfl, rfl, rfl, rfl, rfl⟩, rfl, rfl, rfl, rfl⟩⟩
      | claimed _ hkey hs => exact (hno ⟨hkey, hs⟩).elim
      | refunded _ hkey hs => exact (hno ⟨hkey, hs⟩).elim
      | closed _ hkey hs => exact (hno ⟨hkey, hs⟩).elim

/-- **C51.** Once a sale is over, an escrow whose owner does nothing stays, nothing is claimed or refunded on
its behalf, and both its refund and its whole claim schedule stay what they were. -/
theorem C51_amounts_fixed {w : World} (R : Reachable w) (ops : List Op) {k : Addr} {p : Presale} {e : Escrow}
    {r : Registry} (hk : w.escrows.get? k = some e) (hp : w.presales e.presale = some p) (ho : Over p w.clock)
    (hr : p.registries[e.registryIndex]? = some r) (hno : ∀ op ∈ ops, ¬ OwnerActs k e.owner op) :
    ∃ e' p' r', (run w ops).escrows.get? k = some e' ∧ (run w ops).presales e.presale = some p' ∧
      p'.registries[e.registryIndex]? = some r' ∧ SamePayouts e e' ∧
      owedRefund p' r' e' = owedRefund p r e ∧ (∀ t, claimableAt p' r' e' t = claimableAt p r e t) ∧
      (Completed p' (run w ops).clock ↔ Completed p w.clock) ∧ (Failed p' (run w ops).clock ↔ Failed p w.clock) ∧
      terms p' = terms p := by
  obtain ⟨e', he', A⟩ : ∃ e', (run w ops).escrows.get? k = some e' ∧ SamePayouts e e' := by
    induction ops generalizing w p e r with
    | nil => exact ⟨e, hk, .refl e⟩
    | cons op ops ih =>
      have W := R.winv
      obtain ⟨e1, he1, A1⟩ := step_same_payouts W op hk hp ho (hno op (List.mem_cons_self ..))
      have R1 : Reachable (apply w op) := R.run [op]
      obtain ⟨p1, hp1, L⟩ := run_later W [op] hp
      have hp1 : (apply w op).presales e.presale = some p1 := hp1
      have hpi : (apply w op).presales e1.presale = some p1 := by rw [A1.identity.presale]; exact hp1
      obtain ⟨r1, hr1, _⟩ := (R1.winv.core.sale _ _ hpi).pinv.escBook he1 rfl
      obtain ⟨e2, he2, A2⟩ := ih R1 he1 hpi (L.over ho) hr1
        (fun o ho' => by rw [A1.identity.owner]; exact hno o (List.mem_cons_of_mem _ ho'))
      exact ⟨e2, he2, A1.trans A2⟩
  obtain ⟨p', hp', L⟩ := run_later R.winv ops hp
  have hb := L.frozen ho
  obtain ⟨r', hr', hrb⟩ := books_reg hb hr
  have h1 : p'.presaleMinimumCap = p.presaleMinimumCap := (congrArg Presale.presaleMinimumCap hb :)
  have h2 : p'.totalDeposit = p.totalDeposit := (congrArg Presale.totalDeposit hb :)
  have ho' := L.over ho
  refine ⟨e', p', r', he', hp', hr', A, owedRefund_congr hb hrb A.deposit A.fee,
    fun t => claimableAt_congr hb hrb A.deposit t, ?_, ?_, L.terms⟩
  · unfold Completed; rw [h1, h2]; simp [ho, ho']
  · unfold Failed; rw [h1, h2]; simp [ho, ho']

/-- **C51**, claims: after whatever others did, the owner's claim succeeds (unless the token side refuses) and
pays an amount determined by the state at the end of the sale and the time of the claim. -/
theorem C51_claim {w : World} (R : Reachable w) (ops : List Op) {tx : Tx} {x : ClaimAcc} {p : Presale} {e : Escrow}
    {r : Registry} (hk : w.escrows.get? x.escrow = some e) (ha : e.presale = x.presale)
    (hp : w.presales x.presale = some p) (hc : Completed p w.clock)
    (hr : p.registries[e.registryIndex]? = some r) (hno : ∀ op ∈ ops, ¬ OwnerActs x.escrow e.owner op)
    (ho : x.owner = e.owner) (hs : tx.signed e.owner = true)
    (hv : x.baseTokenVault = p.baseTokenVault) (hm : x.baseMint = p.baseMint)
    (hpay : Payable (run w ops).tk tx .transferHookBase p.baseMint p.baseTokenVault x.ownerBaseToken x.tokenProgram
      x.remaining x.slices (claimableAt p r e (run w ops).clock.toNat - e.totalClaimedToken)) :
    ∃ w' rc n, step (run w ops) (.ix tx (.claim x)) = .ok (w', rc) ∧
      n = claimableAt p r e (run w ops).clock.toNat - e.totalClaimedToken ∧
      ((n = 0 ∧ w'.tk = (run w ops).tk) ∨
        Transferred (run w ops).tk w'.tk p.baseMint p.baseTokenVault x.ownerBaseToken n) := by
  obtain ⟨e', p', r', he', hp', hr', A, _, hcl, hc', _, ht⟩ :=
    C51_amounts_fixed R ops hk (ha ▸ hp) hc.1 hr hno
  rw [ha] at hp'
  have m1 : p'.baseMint = p.baseMint := (congrArg Presale.baseMint ht :)
  have m2 : p'.baseTokenVault = p.baseTokenVault := (congrArg Presale.baseTokenVault ht :)
  have hpay' : Payable (run w ops).tk tx .transferHookBase p'.baseMint p'.baseTokenVault x.ownerBaseToken
      x.tokenProgram x.remaining x.slices
      (claimableAt p' r' e' (run w ops).clock.toNat - e'.totalClaimedToken) := by
    rw [m1, m2, hcl, A.claimed]; exact hpay
  obtain ⟨w', rc, h⟩ := C26_claim_succeeds (R.run ops) hp' he' (A.identity.presale.trans ha)
    (ho.trans A.identity.owner.symm) (by rw [A.identity.owner]; exact hs) (hc'.2 hc)
    (by rw [A.identity.index]; exact hr') (hv.trans m2.symm) (hm.trans m1.symm) hpay'
  obtain ⟨q, q', f, f', s, s', n, D⟩ := C13_claim (R.run ops) h
  have g1 := D.presale; rw [hp'] at g1; cases g1
  have g2 := D.escrow; rw [he'] at g2; cases g2
  have g3 := D.registry; rw [A.identity.index, hr'] at g3; cases g3
  have hn : n = claimableAt p r e (run w ops).clock.toNat - e.totalClaimedToken := by
    have t1 := D.total
    rw [D.escrowNow] at t1
    have t2 : e'.totalClaimedToken + n = claimableAt p' r' e' (run w ops).clock.toNat := t1
    rw [hcl, A.claimed] at t2
    omega
  refine ⟨w', rc, n, h, hn, ?_⟩
  rcases D.moved with h1 | ⟨_, h1⟩
  · exact .inl h1
  · exact .inr (by rw [← m1, ← m2]; exact h1)

/-- **C51**, refunds. -/
theorem C51_refund {w : World} (R : Reachable w) (ops : List Op) {tx : Tx} {x : RefundAcc} {p : Presale} {e : Escrow}
    {r : Registry} (hk : w.escrows.get? x.escrow = some e) (ha : e.presale = x.presale)
    (hp : w.presales x.presale = some p)
    (hphase : Failed p w.clock ∨ (Completed p w.clock ∧ p.presaleMode = 1))
    (hfirst : e.isRemainingQuoteWithdrawn = 0)
    (hr : p.registries[e.registryIndex]? = some r) (hno : ∀ op ∈ ops, ¬ OwnerActs x.escrow e.owner op)
    (ho : x.owner = e.owner) (hs : tx.signed e.owner = true)
    (hv : x.quoteTokenVault = p.quoteTokenVault) (hm : x.quoteMint = p.quoteMint)
    (hpay : Payable (run w ops).tk tx .transferHookQuote p.quoteMint p.quoteTokenVault x.ownerQuoteToken
      x.tokenProgram x.remaining x.slices (owedRefund p r e)) :
    ∃ w' rc n, step (run w ops) (.ix tx (.refund x)) = .ok (w', rc) ∧ n = owedRefund p r e ∧
      ((n = 0 ∧ w'.tk = (run w ops).tk) ∨
        Transferred (run w ops).tk w'.tk p.quoteMint p.quoteTokenVault x.ownerQuoteToken n) := by
  have hov : Over p w.clock := by rcases hphase with h | h; exacts [h.1, h.1.1]
  obtain ⟨e', p', r', he', hp', hr', A, howe, _, hc', hf', ht⟩ :=
    C51_amounts_fixed R ops hk (ha ▸ hp) hov hr hno
  rw [ha] at hp'
  have m1 : p'.quoteMint = p.quoteMint := (congrArg Presale.quoteMint ht :)
  have m2 : p'.quoteTokenVault = p.quoteTokenVault := (congrArg Presale.quoteTokenVault ht :)
  have m3 : p'.presaleMode = p.presaleMode := (congrArg Presale.presaleMode ht :)
  have hpay' : Payable (run w ops).tk tx .transferHookQuote p'.quoteMint p'.quoteTokenVault x.ownerQuoteToken
      x.tokenProgram x.remaining x.slices (owedRefund p' r' e') := by
    rw [m1, m2, howe]; exact hpay
  obtain ⟨w', rc, h⟩ := C27_refund_succeeds (R.run ops) hp' he' (A.identity.presale.trans ha)
    (ho.trans A.identity.owner.symm) (by rw [A.identity.owner]; exact hs)
    (hphase.imp hf'.2 (fun h => ⟨hc'.2 h.1, m3.trans h.2⟩)) (A.flag.trans hfirst)
    (by rw [A.identity.index]; exact hr') (hv.trans m2.symm) (hm.trans m1.symm) hpay'
  obtain ⟨q, q', f, f', s, s', n, D⟩ := refund_spec (R.run ops) h
  have g1 := D.presale; rw [hp'] at g1; cases g1
  have g2 := D.escrow; rw [he'] at g2; cases g2
  have g3 := D.registry; rw [A.identity.index, hr'] at g3; cases g3
  refine ⟨w', rc, n, h, D.amount.trans howe, ?_⟩
  rcases D.moved with h1 | ⟨_, h1⟩
  · exact .inl h1
  · exact .inr (by rw [← m1, ← m2]; exact h1)

namespace Ex

/-- Everybody else acts first: the other buyer claims, refunds and closes, the creator takes everything, tokens are
burnt or returned, and strangers refresh and attempt a claim. -/
def others : List Op :=
  [claim bob bobBase, refund bob bobQuote, closeEscrow bob, creatorWithdraw creatorWithdrawAcc, collectFee, unsold,
    refresh alice, .ix (tx [bob, creator]) (.claim (claimAcc alice aliceBase)), .donate (.quoteVault sale) 3]

theorem others_quiet : ∀ op ∈ others, ¬ OwnerActs (escrowOf alice) alice op := by
  intro op h
  simp only [others, List.mem_cons, List.not_mem_nil, or_false] at h
  rcases h with rfl | rfl | rfl | rfl | rfl | rfl | rfl | rfl | rfl <;>
    simp [OwnerActs, claim, refund, closeEscrow, creatorWithdraw, collectFee, unsold, refresh, claimAcc, refundAcc,
      escrowOf, alice, bob, creator, tx, Tx.signed]

example : hasEsc prorataVested (escrowOf alice) (fun e => decide (e.totalClaimedToken = 0 ∧
      e.isRemainingQuoteWithdrawn = 0)) = true ∧
    ((run prorataVested others).escrows.get? (escrowOf bob)).isNone = true ∧
    has (run prorataVested others) (fun p => decide (p.hasCreatorWithdrawn = 1 ∧ p.depositFeeCollected = 1)) = true ∧
    works (run prorataVested others) (claim alice aliceBase) = true ∧
    works (run prorataVested others) (refund alice aliceQuote) = true := by decide +kernel

end Ex
end Verif
