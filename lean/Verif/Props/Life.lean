import Verif.Lemmas.Life
import Verif.Props.Price
import Verif.Examples
/-!
# The account of an escrow over its whole life
-/

namespace Verif
open Spec

/-- The escrow of a key of sale `a` belongs to `a`. -/
theorem served_sale {w : World} {a o : Addr} {i : Nat} {e : Escrow} {p q : Presale}
    (hk : Addr.escrow a o i = .escrow e.presale e.owner e.registryIndex) (hp : w.presales a = some p)
    (hq : w.presales e.presale = some q) : q = p ∧ e.registryIndex = i ∧ e.presale = a := by
  injection hk with h1 h2 h3
  rw [← h1, hp] at hq
  cases hq
  exact ⟨rfl, h3.symm, h1.symm⟩

/-- **C93.** Nobody profits in quote tokens: over any history, whatever an escrow's address was given back,
by withdrawals and refunds together and across closings and reopenings, is at most what was paid in for it. -/
theorem C93_no_profit {w0 : World} (G : Genesis w0) (ops : List Op) (k : Addr) :
    gotBack k (trace w0 ops) ≤ paidIn k (trace w0 ops) := by
  obtain ⟨L1, L2⟩ := living G ops k
  obtain ⟨T1, _⟩ := escrow_tally G ops k
  cases hk : (run w0 ops).escrows.get? k with
  | none =>
    rcases L2 hk with h | ⟨e, p, r, _, _, _, _, S⟩
    · exact Nat.le_of_eq h.1
    · have h1 := S.kept
      have h2 := S.refund
      have h3 := @owedRefund_le_paid p r e
      unfold gotBack
      omega
  | some e =>
    obtain ⟨p, r, _, _, h1⟩ := L1 e hk
    have h2 := (T1 e hk).1
    have h3 := @owedRefund_le_paid p r e
    unfold gotBack paidIn
    split at h1 <;> omega

/-- **C93**, an open escrow: its refunds so far are what its flag says, its claimed tokens what its counter
says, and what was paid in for it and not given back is its deposit and fee less that refund. -/
theorem C93_open {w0 : World} (G : Genesis w0) (ops : List Op) {k : Addr} {e : Escrow}
    (hk : (run w0 ops).escrows.get? k = some e) :
    ∃ p r n, (run w0 ops).presales e.presale = some p ∧ p.registries[e.registryIndex]? = some r ∧
      n = (if e.isRemainingQuoteWithdrawn = 1 then owedRefund p r e else 0) ∧
      total .refund (ofEscrow k) (trace w0 ops) = n ∧ n ≤ e.totalDeposit + e.totalDepositFee ∧
      paidIn k (trace w0 ops) = gotBack k (trace w0 ops) + (e.totalDeposit + e.totalDepositFee - n) ∧
      gotTokens k (trace w0 ops) = e.totalClaimedToken := by
  obtain ⟨p, r, hp, hr, h1⟩ := (living G ops k).1 e hk
  obtain ⟨h2, h3⟩ := (escrow_tally G ops k).1 e hk
  have h4 := @owedRefund_le_paid p r e
  have h5 : (if e.isRemainingQuoteWithdrawn = 1 then owedRefund p r e else 0) ≤
      e.totalDeposit + e.totalDepositFee := by
    split <;> omega
  refine ⟨p, r, _, hp, hr, rfl, h1, h5, ?_, h3.symm⟩
  unfold gotBack paidIn
  omega

/-- **C93**, a failed sale: whoever was refunded or has closed the escrow got back, over the whole history,
exactly what was paid in, and no tokens. -/
theorem C93_failed {w0 : World} (G : Genesis w0) (ops : List Op) {a o : Addr} {i : Nat} {p : Presale}
    (hp : (run w0 ops).presales a = some p) (hf : Failed p (run w0 ops).clock)
    (hk : ∀ e, (run w0 ops).escrows.get? (.escrow a o i) = some e → e.isRemainingQuoteWithdrawn = 1) :
    gotBack (.escrow a o i) (trace w0 ops) = paidIn (.escrow a o i) (trace w0 ops) ∧
    gotTokens (.escrow a o i) (trace w0 ops) = 0 := by
  have R : Reachable (run w0 ops) := ⟨w0, ops, G, rfl⟩
  have howe : ∀ r e, owedRefund p r e = e.totalDeposit + e.totalDepositFee := by
    intro r e; unfold owedRefund; rw [if_pos hf.2]
  obtain ⟨L1, L2⟩ := living G ops (.escrow a o i)
  cases he : (run w0 ops).escrows.get? (.escrow a o i) with
  | none =>
    rcases L2 he with h | ⟨e, q, r, hkey, hq, _, _, S⟩
    · exact ⟨h.1, h.2.2⟩
    · obtain ⟨rfl, _, _⟩ := served_sale hkey hp hq
      have h1 := S.kept
      have h2 := S.refund
      have h3 := S.tokens
      rw [howe] at h2
      rw [if_pos hf.2] at h3
      refine ⟨?_, h3⟩
      unfold gotBack
      omega
  | some e =>
    obtain ⟨q, r, n, hq, hr, hn, h1, _, h3, h4⟩ := C93_open G ops he
    have hkey := (R.winv.core.esc _ (AMap.get?_mem he)).1
    obtain ⟨rfl, _, ha⟩ := served_sale hkey hp hq
    obtain ⟨r', hr', E⟩ := (R.winv.core.sale _ _ hp).pinv.escBook he ha
    rw [hk e he, if_pos rfl, howe] at hn
    rw [h4]
    exact ⟨by omega, (E.claim0 (.inr hf.2)).1⟩

/-- **C93**, a completed sale: an escrow that is gone either had nothing in it when the sale ended, everything
paid in having been withdrawn, or was served in full over its life: its part of the surplus refunded and its
whole entitlement received. -/
theorem C93_completed {w0 : World} (G : Genesis w0) (ops : List Op) {a o : Addr} {i : Nat} {p : Presale}
    (hp : (run w0 ops).presales a = some p) (hc : Completed p (run w0 ops).clock)
    (hk : (run w0 ops).escrows.get? (.escrow a o i) = none) :
    (gotBack (.escrow a o i) (trace w0 ops) = paidIn (.escrow a o i) (trace w0 ops) ∧
      gotTokens (.escrow a o i) (trace w0 ops) = 0) ∨
    ∃ e r, p.registries[i]? = some r ∧ e.presale = a ∧ e.owner = o ∧ e.registryIndex = i ∧
      paidIn (.escrow a o i) (trace w0 ops) + owedRefund p r e =
        gotBack (.escrow a o i) (trace w0 ops) + (e.totalDeposit + e.totalDepositFee) ∧
      total .refund (ofEscrow (.escrow a o i)) (trace w0 ops) = owedRefund p r e ∧
      gotTokens (.escrow a o i) (trace w0 ops) = entitlement p r e := by
  rcases (living G ops (.escrow a o i)).2 hk with h | ⟨e, q, r, hkey, hq, _, hr, S⟩
  · exact .inl ⟨h.1, h.2.2⟩
  · obtain ⟨rfl, hi, ha⟩ := served_sale hkey hp hq
    right
    have h1 := S.kept
    have h2 := S.refund
    have h3 := S.tokens
    rw [if_neg (by have := hc.2; omega)] at h3
    injection hkey with _ ho
    refine ⟨e, r, by rw [← hi]; exact hr, ha, ho.symm, hi, ?_, h2, h3⟩
    unfold gotBack
    omega

theorem entitlement_price {p : Presale} {r : Registry} {e : Escrow} (h1 : p.presaleMode ≠ 1)
    (h2 : p.presaleMode ≠ 2) (hb : p.immediateReleaseBps ≤ 10000) :
    entitlement p r e * p.raw0 ≤ e.totalDeposit * 2 ^ 64 := by
  have hs : sold p r * p.raw0 ≤ r.totalDeposit * 2 ^ 64 := by
    have h3 : sold p r ≤ tokensAtPrice p.raw0 r.totalDeposit := by
      unfold sold; rw [if_neg (by omega)]; omega
    refine Nat.le_trans (Nat.mul_le_mul_right _ h3) ?_
    unfold tokensAtPrice
    exact Nat.div_mul_le_self _ _
  have hi : immediatePart (sold p r) p.immediateReleaseBps ≤ sold p r := by
    unfold immediatePart
    exact Nat.div_le_of_le_mul (by rw [Nat.mul_comm]; exact Nat.mul_le_mul_right _ hb)
  unfold entitlement
  split
  · rw [Nat.zero_mul]; exact Nat.zero_le _
  · next h0 =>
    generalize immediatePart (sold p r) p.immediateReleaseBps = m at *
    generalize sold p r = s at *
    generalize r.totalDeposit = T at *
    generalize e.totalDeposit = d at *
    generalize (2 : Nat) ^ 64 = M at *
    generalize p.raw0 = q at *
    have hT : 0 < T := by omega
    have a1 : m * d / T + (s - m) * d / T ≤ s * d / T := by
      rw [Nat.le_div_iff_mul_le hT, Nat.add_mul]
      have b1 := Nat.div_mul_le_self (m * d) T
      have b2 := Nat.div_mul_le_self ((s - m) * d) T
      have b3 : m * d + (s - m) * d = s * d := by rw [← Nat.add_mul, Nat.add_sub_cancel' hi]
      omega
    refine Nat.le_trans (Nat.mul_le_mul_right _ a1) ?_
    refine Nat.le_of_mul_le_mul_right (c := T) ?_ hT
    calc s * d / T * q * T = s * d / T * T * q := by ring
      _ ≤ s * d * q := Nat.mul_le_mul_right _ (Nat.div_mul_le_self _ _)
      _ = d * (s * q) := by ring
      _ ≤ d * (T * M) := Nat.mul_le_mul_left _ hs
      _ = d * M * T := by ring

/-- **C93**, fixed price: over any history the tokens an escrow's address received, valued at the price, never
exceed the quote tokens that were paid in for it and not given back. -/
theorem C93_price {w0 : World} (G : Genesis w0) (ops : List Op) {a o : Addr} {i : Nat} {p : Presale}
    (hp : (run w0 ops).presales a = some p) (h1 : p.presaleMode ≠ 1) (h2 : p.presaleMode ≠ 2) :
    gotTokens (.escrow a o i) (trace w0 ops) * p.raw0 ≤
      (paidIn (.escrow a o i) (trace w0 ops) - gotBack (.escrow a o i) (trace w0 ops)) * 2 ^ 64 := by
  have R : Reachable (run w0 ops) := ⟨w0, ops, G, rfl⟩
  have S0 := R.winv.core.sale _ _ hp
  have hprice : ∀ r e, entitlement p r e * p.raw0 ≤ e.totalDeposit * 2 ^ 64 :=
    fun r e => entitlement_price h1 h2 S0.pinv.static.bps
  have hzero : ∀ r e, p.presaleMinimumCap ≤ p.totalDeposit → owedRefund p r e = 0 :=
    fun r e h => by unfold owedRefund refundDeposit refundFee; rw [if_neg (by omega), if_neg h1, if_neg h1]
  cases he : (run w0 ops).escrows.get? (.escrow a o i) with
  | none =>
    rcases (living G ops (.escrow a o i)).2 he with h | ⟨e, q, r, hkey, hq, _, _, S⟩
    · rw [h.2.2, Nat.zero_mul]; exact Nat.zero_le _
    · obtain ⟨rfl, _, _⟩ := served_sale hkey hp hq
      have s1 := S.kept
      have s2 := S.refund
      rw [S.tokens]
      split
      · rw [Nat.zero_mul]; exact Nat.zero_le _
      · next hm =>
        rw [hzero r e (by omega)] at s2
        refine Nat.le_trans (hprice r e) (Nat.mul_le_mul_right _ ?_)
        unfold gotBack
        omega
  | some e =>
    obtain ⟨q, r, n, hq, hr, hn, _, _, h3, h4⟩ := C93_open G ops he
    have hkey := (R.winv.core.esc _ (AMap.get?_mem he)).1
    obtain ⟨rfl, _, ha⟩ := served_sale hkey hp hq
    obtain ⟨r', hr', E⟩ := S0.pinv.escBook he ha
    rw [hr] at hr'; cases hr'
    rw [h4]
    by_cases hc : (run w0 ops).clock.toNat < q.presaleEndTime ∨ q.totalDeposit < q.presaleMinimumCap
    · rw [(E.claim0 hc).1, Nat.zero_mul]; exact Nat.zero_le _
    · have hm : q.presaleMinimumCap ≤ q.totalDeposit := by omega
      have hcl : e.totalClaimedToken ≤ entitlement q r e := by
        have h5 := E.claim (by omega) hm
        rcases h5 with h5 | ⟨_, h5⟩
        · omega
        · have := claimableAt_le_entitlement S0.pinv.sched r e e.lastRefreshedAt
          omega
      rw [hzero r e hm, ite_self] at hn
      refine Nat.le_trans (Nat.mul_le_mul_right _ hcl) (Nat.le_trans (hprice r e) (Nat.mul_le_mul_right _ ?_))
      omega

/-! The whole life of two escrows of an oversubscribed sale, of one of a failed sale, and of one at a fixed
price; one buyer withdraws everything, closes the escrow and comes back. -/

namespace Ex

def wholeLife : List Op :=
  [init 1 0 0 reg1, .tick 10, open' alice, open' bob, deposit alice aliceQuote 300, withdraw alice aliceQuote 300,
   closeEscrow alice, open' alice, deposit alice aliceQuote 900, deposit bob bobQuote 600, .tick 3000,
   refund alice aliceQuote, claim alice aliceBase, closeEscrow alice, refund bob bobQuote]

def failedLife : List Op := failedOps ++ [.tick 600, refund alice aliceQuote, closeEscrow alice]

def fixedLife : List Op := fixedOps ++ [.tick 3000, claim alice aliceBase, closeEscrow alice]

example : Genesis genesis := genesis_ok

/-- An oversubscribed sale: the first 300 and their fee were withdrawn, a third of the rest was refunded. -/
example : (paidIn (escrowOf alice) (trace genesis wholeLife), gotBack (escrowOf alice) (trace genesis wholeLife),
    gotTokens (escrowOf alice) (trace genesis wholeLife)) = (1226, 608, 6000) := by decide +kernel
example : has (run genesis wholeLife) (fun p => decide ((p.presaleEndTime : Int) ≤ (run genesis wholeLife).clock ∧
      p.presaleMinimumCap ≤ p.totalDeposit ∧ p.presaleMode = 1)) = true ∧
    ((run genesis wholeLife).escrows.get? (escrowOf alice)).isNone = true ∧
    hasEsc (run genesis wholeLife) (escrowOf bob) (fun e => decide (e.isRemainingQuoteWithdrawn = 1)) = true := by
  decide +kernel
example : (paidIn (escrowOf bob) (trace genesis wholeLife), gotBack (escrowOf bob) (trace genesis wholeLife),
    gotTokens (escrowOf bob) (trace genesis wholeLife)) = (613, 204, 0) := by decide +kernel

/-- A failed sale. -/
example : has (run genesis failedLife) (fun p => decide ((p.presaleEndTime : Int) ≤ (run genesis failedLife).clock ∧
      p.totalDeposit < p.presaleMinimumCap)) = true ∧
    ((run genesis failedLife).escrows.get? (escrowOf alice)).isNone = true ∧
    paidIn (escrowOf alice) (trace genesis failedLife) = 52 ∧
    gotBack (escrowOf alice) (trace genesis failedLife) = 52 := by decide +kernel

/-- A fixed price of 2.5: 119 tokens for 307. -/
example : has (run genesis fixedLife) (fun p => decide (p.presaleMode = 0 ∧ p.raw0 = 5 * 2 ^ 63)) = true ∧
    ((run genesis fixedLife).escrows.get? (escrowOf alice)).isNone = true ∧
    paidIn (escrowOf alice) (trace genesis fixedLife) = 307 ∧ gotBack (escrowOf alice) (trace genesis fixedLife) = 0 ∧
    gotTokens (escrowOf alice) (trace genesis fixedLife) = 119 := by decide +kernel

end Ex
end Verif
