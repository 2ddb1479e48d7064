import Verif.SpecInsiders
import Verif.Props.Budget
import Verif.Props.Life
import Verif.Props.Tally
import Verif.Props.Squat
import Verif.Props.More
import Mathlib.Algebra.BigOperators.Group.Finset.Piecewise
import Mathlib.Algebra.Order.BigOperators.Group.Finset
/-!
# Insiders

C103. What the creator of a sale and any group of buyers take out of it together beyond what they paid in is what the
others paid and did not get back, up to the rounding of C21. So their own participation costs insiders nothing: they
can reach the minimum cap alone, and where the supply is shared out they can take part of it from the others for free.
-/

namespace Verif
open Spec

/-! ## What the creator took -/

theorem Act.quoteOut_eq {w : World} {a : Addr} {p p' : Presale} {tx : Tx} {i : Ix} {es' : AMap Addr Escrow}
    (A : Act w a p tx i p' es') (P : PInv w.clock.toNat a p w.escrows) (h1 : ∀ x, i ≠ .creatorWithdraw x)
    (h2 : ∀ x, i ≠ .collectFee x) : quoteOut p' = quoteOut p := by
  have congr : ∀ {q : Presale}, books q = books p → q.hasCreatorWithdrawn = p.hasCreatorWithdrawn →
      q.depositFeeCollected = p.depositFeeCollected → quoteOut q = quoteOut p := by
    intro q hb e1 e2
    have e3 : q.presaleMinimumCap = p.presaleMinimumCap := (congrArg Presale.presaleMinimumCap hb :)
    have e4 : q.totalDeposit = p.totalDeposit := (congrArg Presale.totalDeposit hb :)
    unfold quoteOut
    rw [e1, e2, e3, e4, raise_congr hb, collectableFee_congr hb]
  have openz : ∀ {q : Presale}, w.clock.toNat < p.presaleEndTime → q.hasCreatorWithdrawn = p.hasCreatorWithdrawn →
      q.depositFeeCollected = p.depositFeeCollected → quoteOut q = quoteOut p := by
    intro q ho e1 e2
    have f1 := P.flags.open_ ho
    have f2 := (P.flags.failed (.inl ho)).1
    unfold quoteOut
    rw [e1, e2, f1, f2]; simp
  cases A with
  | opened _ _ _ _ _ hr => exact congr (books_counted hr) rfl rfl
  | deposit _ _ _ _ F =>
    refine openz F.open_ ?_ ?_ <;> rcases F.result with ⟨g, _⟩ | ⟨g, _⟩ <;> rw [g] <;> rfl
  | withdraw _ _ _ _ _ F => refine openz F.open_ ?_ ?_ <;> rw [F.presale] <;> rfl
  | refreshed => rfl
  | claimed _ _ _ _ _ hr => exact congr (books_claimed hr) rfl rfl
  | refunded _ _ _ _ _ hr => exact congr (books_refunded hr) rfl rfl
  | closed _ _ _ _ _ hr => exact congr (books_uncounted hr) rfl rfl
  | creatorWithdrew => exact absurd rfl (h1 _)
  | collected => exact absurd rfl (h2 _)
  | unsold => rfl

/-- What the creator of the sale at `a` has taken out so far. -/
def drawnAt (w : World) (a : Addr) : Nat :=
  match w.presales a with
  | some p => quoteOut p
  | none => 0

theorem drawnAt_some {w : World} {a : Addr} {p : Presale} (h : w.presales a = some p) : drawnAt w a = quoteOut p := by
  unfold drawnAt; rw [h]

theorem drawnAt_eq {w w' : World} {a : Addr} (h : w'.presales a = w.presales a) : drawnAt w' a = drawnAt w a := by
  unfold drawnAt; rw [h]

theorem step_drawn {w w' : World} (W : WInv w) {op : Op} {rc : Receipt} (h : step w op = .ok (w', rc)) (a : Addr) :
    drawnAt w' a = drawnAt w a + takenBy a ⟨w, op, rc, w'⟩ := by
  by_cases hc : ∃ tx x, op = .ix tx (.creatorWithdraw x)
  · obtain ⟨tx, x, rfl⟩ := hc
    obtain ⟨p, c, hooks, rest, tk, cpi, m, ex, F⟩ := handleCreatorWithdraw_iff.1 h
    have S := W.core.sale _ _ F.presale
    obtain ⟨_, _, _, _, T⟩ := transferTokens_iff.1 F.transfer
    have hcpi := T.cpi
    have hf := creatorWithdrawn_false F.first
    by_cases e : x.presale = a
    · subst e
      rw [drawnAt_some F.presale, drawnAt_some (p := p.updateCreatorWithdrawn) (by rw [F.post]; exact upd_self _ _ _),
        (out_creatorWithdrawn hf).1]
      have hrc : rc.cpis = [cpi] := by rw [F.receipt]
      simp only [takenBy, if_true, hrc, List.map_cons, List.map_nil, List.sum_cons, List.sum_nil, Nat.add_zero, hcpi,
        outOf]
      have hpay := F.payout
      rcases F.progress with h1 | h1
      · rw [h1] at hpay
        obtain ⟨c1, c2, c3, _⟩ := creatorPayout_completed hpay
        rw [c2, S.pinv.static.quoteVault, if_pos rfl, if_pos (progress_completed.1 h1).2.2]
        omega
      · rw [h1] at hpay
        obtain ⟨c1, c2, c3, _⟩ := creatorPayout_failed hpay
        have := (progress_failed.1 h1).2.2
        rw [c2, S.pinv.static.baseVault, if_neg (show ¬ p.presaleMinimumCap ≤ p.totalDeposit by omega), if_neg (by simp)]
    · rw [drawnAt_eq (w := w) (by rw [F.post]; exact upd_other _ _ (Ne.symm e))]
      simp only [takenBy, if_neg e, Nat.add_zero]
  by_cases hf : ∃ tx x, op = .ix tx (.collectFee x)
  · obtain ⟨tx, x, rfl⟩ := hf
    obtain ⟨p, m, fee, ex, F⟩ := handleCollectFee_iff.1 h
    have S := W.core.sale _ _ F.presale
    have hq : x.quoteTokenVault = .quoteVault x.presale := by rw [← F.owner.2.2, S.pinv.static.quoteVault]
    have hfee : fee = collectableFee p := by
      have := S.pinv.collectedFee
      rw [F.amount] at this
      exact Except.ok.inj this
    by_cases e : x.presale = a
    · subst e
      rw [drawnAt_some F.presale]
      rcases F.out with ⟨_, hooks, rest, tk, cpi, _, htr, hw, hrc⟩ | ⟨hz, hw, hrc⟩
      · obtain ⟨_, _, _, _, T⟩ := transferTokens_iff.1 htr
        have hcpi := T.cpi
        rw [drawnAt_some (p := p.setDepositFeeCollected) (by rw [hw]; exact upd_self _ _ _),
          (out_feeCollected (feeCollected_false F.progress.2)).1]
        simp only [takenBy, if_true, hrc, List.map_cons, List.map_nil, List.sum_cons, List.sum_nil, Nat.add_zero, hcpi,
          outOf, hq, hfee]
      · rw [drawnAt_some (p := p.setDepositFeeCollected) (by rw [hw]; exact upd_self _ _ _),
          (out_feeCollected (feeCollected_false F.progress.2)).1]
        simp only [takenBy, if_true, hrc, List.map_nil, List.sum_nil]
        omega
    · have : w'.presales a = w.presales a := by
        rcases F.out with ⟨_, hooks, rest, tk, cpi, _, htr, hw, hrc⟩ | ⟨hz, hw, hrc⟩ <;> rw [hw] <;>
          exact upd_other _ _ (Ne.symm e)
      rw [drawnAt_eq this]
      simp only [takenBy, if_neg e, Nat.add_zero]
  have ht : takenBy a ⟨w, op, rc, w'⟩ = 0 := by
    unfold takenBy
    dsimp only
    split
    · next x => exact absurd ⟨_, _, rfl⟩ hc
    · next x => exact absurd ⟨_, _, rfl⟩ hf
    · rfl
  rw [ht, Nat.add_zero]
  cases step_effect W h with
  | quiet g => exact drawnAt_eq (by rw [g])
  | @create tx x p _ g1 g2 g3 =>
    by_cases e : a = x.presaleKey
    · subst e
      rw [drawnAt_some (p := p) (by rw [g3]; exact upd_self _ _ _)]
      unfold drawnAt
      rw [g1]
      unfold quoteOut
      have := g2.counters
      rw [this.2.2.2.2.2.1, this.2.2.2.2.2.2.1]; simp
    · exact drawnAt_eq (by rw [g3]; exact upd_other _ _ e)
  | @act tx i b p p' es' g0 g1 g2 g3 =>
    by_cases e : a = b
    · subst e
      rw [drawnAt_some g1, drawnAt_some (p := p') (by rw [g3]; exact upd_self _ _ _)]
      exact g2.quoteOut_eq (W.core.sale _ _ g1).pinv (fun x hx => hc ⟨tx, x, by rw [g0, hx]⟩)
        (fun x hx => hf ⟨tx, x, by rw [g0, hx]⟩)
    · exact drawnAt_eq (by rw [g3]; exact upd_other _ _ e)

theorem proceeds_eq {w0 : World} (G : Genesis w0) (ops : List Op) (a : Addr) :
    proceeds a (trace w0 ops) = drawnAt (run w0 ops) a := by
  induction ops using List.reverseRecOn with
  | nil => unfold drawnAt; rw [show run w0 [] = w0 from rfl, G.presales a]; rfl
  | append_singleton ops op ih =>
    have R : Reachable (run w0 ops) := ⟨w0, ops, G, rfl⟩
    rw [trace_snoc, run_snoc]
    unfold attempt
    cases h : step (run w0 ops) op with
    | error e =>
      have : apply (run w0 ops) op = run w0 ops := by unfold apply; rw [h]
      rw [this, List.append_nil]
      exact ih
    | ok x =>
      obtain ⟨w', rc⟩ := x
      rw [apply_ok h, step_drawn R.winv h a, ← ih]
      simp [proceeds]

/-! ## Sums over people -/

/-- Every buyer's step names an escrow of the sale it names. -/
theorem trace_key {w0 : World} (G : Genesis w0) (ops : List Op) {s : StepRec} (hs : s ∈ trace w0 ops) {K : Kind}
    {b k : Addr} (hk : about s.op = some (K, b, k)) : ∃ o i, k = .escrow b o i := by
  induction ops using List.reverseRecOn with
  | nil => cases hs
  | append_singleton ops op ih =>
    have R : Reachable (run w0 ops) := ⟨w0, ops, G, rfl⟩
    rw [trace_snoc, List.mem_append] at hs
    rcases hs with hs | hs
    · exact ih hs
    · unfold attempt at hs
      cases h : step (run w0 ops) op with
      | error e => rw [h] at hs; cases hs
      | ok x =>
        obtain ⟨w', rc⟩ := x
        rw [h] at hs
        have hs : s = ⟨run w0 ops, op, rc, w'⟩ := by simpa using hs
        subst hs
        obtain ⟨p, p', e, e', r, r', T⟩ := step_trade R.winv h hk
        have := (R.winv.core.esc _ (AMap.get?_mem T.escrow)).1
        exact ⟨e.owner, e.registryIndex, by rw [← T.belongs]; exact this⟩

theorem total_split {w0 : World} (G : Genesis w0) (ops : List Op) (a : Addr) (who : Addr → Bool) (K : Kind) :
    total K (Spec.ofSale a) (trace w0 ops) =
      total K (circle a who) (trace w0 ops) + total K (circle a (others who)) (trace w0 ops) := by
  have key : ∀ l : List StepRec, (∀ s ∈ l, ∀ K b k, about s.op = some (K, b, k) → ∃ o i, k = .escrow b o i) →
      total K (Spec.ofSale a) l = total K (circle a who) l + total K (circle a (others who)) l := by
    intro l
    induction l with
    | nil => intro _; rfl
    | cons s l ih =>
      intro h
      have ih := ih fun s hs => h s (List.mem_cons_of_mem _ hs)
      have hp : part K (Spec.ofSale a) s = part K (circle a who) s + part K (circle a (others who)) s := by
        cases hk : about s.op with
        | none => rw [part_none hk, part_none hk, part_none hk]
        | some y =>
          obtain ⟨K', b, k⟩ := y
          obtain ⟨o, i, rfl⟩ := h s List.mem_cons_self K' b k hk
          rw [part_some hk, part_some hk, part_some hk]
          simp only [Spec.ofSale, circle, others]
          by_cases hb : b = a
          · by_cases hw : who o = true <;> simp [hb, hw]
          · simp [hb]
      unfold total at ih ⊢
      simp only [List.map_cons, List.sum_cons]
      omega
  exact key _ fun s hs K b k => trace_key G ops hs

theorem circle_sum (a : Addr) (who : Addr → Bool) (K : Kind) (l : List StepRec) (S : Finset Addr)
    (hS : ∀ s ∈ l, ∀ K b k, about s.op = some (K, b, k) → k ∈ S) :
    total K (circle a who) l = ∑ k ∈ S.filter (fun k => circle a who k k = true), total K (ofEscrow k) l := by
  induction l with
  | nil => simp [total]
  | cons s l ih =>
    have ih := ih fun s hs => hS s (List.mem_cons_of_mem _ hs)
    have hp : part K (circle a who) s = ∑ k ∈ S.filter (fun k => circle a who k k = true), part K (ofEscrow k) s := by
      cases hk : about s.op with
      | none => simp [part_none hk]
      | some y =>
        obtain ⟨K', b, k⟩ := y
        have hm := hS s List.mem_cons_self K' b k hk
        have hsel : circle a who b k = circle a who k k := by cases k <;> rfl
        rw [part_some hk, hsel]
        simp only [part_some hk, ofEscrow, decide_eq_true_eq]
        rw [Finset.sum_ite_eq]
        simp [Finset.mem_filter, hm]
    unfold total at ih ⊢
    simp only [List.map_cons, List.sum_cons]
    rw [Finset.sum_add_distrib, ← hp, ← ih]

/-- No group of people gets back more than it paid in. -/
theorem back_le_paid {w0 : World} (G : Genesis w0) (ops : List Op) (a : Addr) (who : Addr → Bool) :
    backTo a who (trace w0 ops) ≤ paidBy a who (trace w0 ops) := by
  let S : Finset Addr := ((trace w0 ops).filterMap fun s => (about s.op).map fun y => y.2.2).toFinset
  have hS : ∀ s ∈ trace w0 ops, ∀ K b k, about s.op = some (K, b, k) → k ∈ S := by
    intro s hs K b k hk
    simp only [S, List.mem_toFinset, List.mem_filterMap]
    exact ⟨s, hs, by rw [hk]; rfl⟩
  unfold backTo paidBy
  rw [circle_sum a who _ _ S hS, circle_sum a who _ _ S hS, circle_sum a who _ _ S hS, ← Finset.sum_add_distrib]
  exact Finset.sum_le_sum fun k _ => C93_no_profit G ops k

/-! ## The account of insiders -/

theorem quoteOut_le {w : World} (R : Reachable w) {a : Addr} {p : Presale} (hp : w.presales a = some p)
    (hr : p.totalRefundedQuoteToken ≤ p.totalDeposit + p.totalDepositFee) :
    quoteOut p + p.totalRefundedQuoteToken ≤ p.totalDeposit + p.totalDepositFee := by
  have S := R.winv.core.sale a p hp
  have F := S.pinv.flags
  have hc := S.clock
  have le : quoteOut p ≤ raise p + collectableFee p := by
    unfold quoteOut
    split <;> split <;> omega
  by_cases h : p.presaleEndTime ≤ w.clock.toNat ∧ p.presaleMinimumCap ≤ p.totalDeposit
  · have hcp : Completed p w.clock := by
      have := S.pinv.sched.order
      unfold Completed Over
      omega
    have := (C21_budget R hp hcp).1
    omega
  · have e2 := (F.failed (by omega)).1
    have e1 : ¬ (p.hasCreatorWithdrawn = 1 ∧ p.presaleMinimumCap ≤ p.totalDeposit) := by
      rintro ⟨g1, g2⟩
      have := F.open_ (by omega)
      omega
    unfold quoteOut
    rw [if_neg e1, e2]
    simpa using hr

/-- **C103.** Over any history, what the creator of a sale and any group of buyers take out of it together beyond what
they paid in is at most what everybody else paid in and did not get back. -/
theorem C103_bound {w0 : World} (G : Genesis w0) (ops : List Op) (a : Addr) (who : Addr → Bool) :
    backTo a (others who) (trace w0 ops) ≤ paidBy a (others who) (trace w0 ops) ∧
    proceeds a (trace w0 ops) + backTo a who (trace w0 ops) ≤
      paidBy a who (trace w0 ops) +
        (paidBy a (others who) (trace w0 ops) - backTo a (others who) (trace w0 ops)) := by
  have b1 := back_le_paid G ops a who
  have b2 := back_le_paid G ops a (others who)
  refine ⟨b2, ?_⟩
  rw [proceeds_eq G]
  have R : Reachable (run w0 ops) := ⟨w0, ops, G, rfl⟩
  cases hp : (run w0 ops).presales a with
  | none =>
    unfold drawnAt
    rw [hp]
    dsimp only
    omega
  | some p =>
    rw [drawnAt_some hp]
    obtain ⟨_, t2, t3⟩ := C50_sale G ops hp
    have s1 := total_split G ops a who .deposit
    have s2 := total_split G ops a who .withdraw
    have s3 := total_split G ops a who .refund
    unfold backTo paidBy at *
    have := quoteOut_le R hp (by omega)
    omega

/-- **C103**, settled. When the creator of a completed sale has taken raise and fees and every open escrow has had its
refund, what insiders are left with is what the others paid and did not get back, up to the rounding of C21; their own
deposits have come back to them. -/
theorem C103_settled {w0 : World} (G : Genesis w0) (ops : List Op) {a : Addr} {p : Presale} (who : Addr → Bool)
    (hp : (run w0 ops).presales a = some p) (hc : Completed p (run w0 ops).clock)
    (hw : p.hasCreatorWithdrawn = 1) (hf : p.depositFeeCollected = 1)
    (hr : ∀ k e, (run w0 ops).escrows.get? k = some e → e.presale = a → e.isRemainingQuoteWithdrawn = 1) :
    ∃ w1 p1 ops1, JustEnded w1 a p1 ∧ run w0 ops = run w1 ops1 ∧
      paidBy a who (trace w0 ops) +
          (paidBy a (others who) (trace w0 ops) - backTo a (others who) (trace w0 ops)) ≤
        proceeds a (trace w0 ops) + backTo a who (trace w0 ops) +
          (if p.presaleMode = 1 then 2 * p1.totalEscrow + p.totalPresaleRegistryCount else 0) := by
  have R : Reachable (run w0 ops) := ⟨w0, ops, G, rfl⟩
  obtain ⟨_, w1, p1, ops1, h1, h2, _, h3⟩ := C21_budget R hp hc
  refine ⟨w1, p1, ops1, h1, h2, ?_⟩
  have hz : saleSum (run w0 ops).escrows a (refundDue p) = 0 := by
    have : saleSum (run w0 ops).escrows a (refundDue p) ≤ saleSum (run w0 ops).escrows a (fun _ => 0) := by
      refine saleSum_le fun x hx ha => ?_
      have := hr x.1 x.2 (AMap.mem_get? R.winv.core.nodup hx) ha
      unfold refundDue
      split
      · rw [if_pos this]
      · exact Nat.le_refl _
    have z : saleSum (run w0 ops).escrows a (fun _ => 0) = 0 := by
      unfold saleSum
      simp
    omega
  have b2 := back_le_paid G ops a (others who)
  rw [proceeds_eq G, drawnAt_some hp]
  have hq : quoteOut p = raise p + collectableFee p := by
    have : p.presaleMinimumCap ≤ p.totalDeposit := hc.2
    unfold quoteOut
    rw [if_pos ⟨hw, this⟩, if_pos hf]
  obtain ⟨_, t2, t3⟩ := C50_sale G ops hp
  have s1 := total_split G ops a who .deposit
  have s2 := total_split G ops a who .withdraw
  have s3 := total_split G ops a who .refund
  rw [hq]
  unfold backTo paidBy at *
  omega

namespace Ex

/-- A quote token without a transfer fee and a creator with quote tokens of their own. -/
def richOps : List Op :=
  [.setMint qm { program := .splToken2022, isNative := false, exts := [.transferFeeConfig],
                 fee := some { basisPoints := 0, maximumFee := 0 }, hook := none, supply := 200000 },
   .setTok creatorQuote (some (acct qm creator 50000)), init 2 0 0 reg1, .tick 10, open' alice, open' creator,
   deposit alice aliceQuote 400]

def joinIn : List Op := [deposit creator creatorQuote 400]

def endOps : List Op :=
  [.tick 3000, creatorWithdraw creatorWithdrawAcc, collectFee, claim alice aliceBase, claim creator creatorBase]

def held (w : World) (a : Addr) : Option Nat := (w.tk.toks a).map (·.amount)

end Ex
open Ex

/-- **C103**, dilution for free. Two histories that differ only in a deposit the creator makes into their own sale: the
sale completes in both, the creator and the buyer end up with the same quote tokens, but the buyer with half the base
tokens; the other half is the creator's. -/
theorem C103_dilution : ∃ (w0 : World) (pre post : List Op) (x : DepositAcc) (n m : Nat),
    Genesis w0 ∧ x.payer = creator ∧
    (∃ p, (run w0 (pre ++ post)).presales sale = some p ∧ p.owner = creator ∧
      Completed p (run w0 (pre ++ post)).clock) ∧
    (∃ p, (run w0 (pre ++ .ix (tx [creator]) (.deposit x) :: post)).presales sale = some p ∧
      Completed p (run w0 (pre ++ .ix (tx [creator]) (.deposit x) :: post)).clock) ∧
    (∀ t, t = creatorQuote ∨ t = aliceQuote →
      held (run w0 (pre ++ .ix (tx [creator]) (.deposit x) :: post)) t = held (run w0 (pre ++ post)) t) ∧
    0 < n ∧ held (run w0 (pre ++ post)) aliceBase = some (2 * n) ∧
    held (run w0 (pre ++ .ix (tx [creator]) (.deposit x) :: post)) aliceBase = some n ∧
    held (run w0 (pre ++ post)) creatorBase = some m ∧
    held (run w0 (pre ++ .ix (tx [creator]) (.deposit x) :: post)) creatorBase = some (m + n) := by
  have c1 : has (run genesis (richOps ++ endOps))
      (fun p => decide (p.owner = creator ∧ (p.presaleEndTime : Int) ≤ (run genesis (richOps ++ endOps)).clock ∧
        p.presaleMinimumCap ≤ p.totalDeposit)) = true := by decide +kernel
  have c2 : has (run genesis (richOps ++ joinIn ++ endOps))
      (fun p => decide ((p.presaleEndTime : Int) ≤ (run genesis (richOps ++ joinIn ++ endOps)).clock ∧
        p.presaleMinimumCap ≤ p.totalDeposit)) = true := by decide +kernel
  obtain ⟨p1, hp1, h1⟩ := has_some c1
  obtain ⟨p2, hp2, h2⟩ := has_some c2
  have h1 := of_decide_eq_true h1
  have h2 := of_decide_eq_true h2
  refine ⟨genesis, richOps, endOps, depositAcc creator creatorQuote 400, 5000, 990000, genesis_ok, rfl,
    ⟨p1, hp1, h1⟩, ⟨p2, hp2, h2⟩, ?_, by decide, by decide +kernel, by decide +kernel, by decide +kernel,
    by decide +kernel⟩
  rintro t (rfl | rfl) <;> decide +kernel

namespace Ex

def aloneOps : List Op :=
  [.setMint qm { program := .splToken2022, isNative := false, exts := [.transferFeeConfig],
                 fee := some { basisPoints := 0, maximumFee := 0 }, hook := none, supply := 200000 },
   .setTok creatorQuote (some (acct qm creator 50000)), init 2 0 0 reg1, .tick 10, open' creator,
   deposit creator creatorQuote 400, .tick 3000, creatorWithdraw creatorWithdrawAcc, collectFee,
   claim creator creatorBase]

end Ex

/-- **C103**, the minimum cap is no evidence of demand. There is a sale that completes with no deposit but the
creator's, and the creator ends up with every base and quote token they had before. -/
theorem C103_alone : ∃ (w0 : World) (pre post : List Op), Genesis w0 ∧
    (run w0 pre).presales sale = none ∧
    (∃ p, (run w0 (pre ++ post)).presales sale = some p ∧ p.owner = creator ∧ 0 < p.totalDeposit ∧
      Completed p (run w0 (pre ++ post)).clock) ∧
    paidBy sale (others fun o => decide (o = creator)) (trace w0 (pre ++ post)) = 0 ∧
    ∀ t, t = creatorQuote ∨ t = creatorBase → held (run w0 (pre ++ post)) t = held (run w0 pre) t := by
  have c1 : has (run genesis aloneOps)
      (fun p => decide (p.owner = creator ∧ 0 < p.totalDeposit ∧
        (p.presaleEndTime : Int) ≤ (run genesis aloneOps).clock ∧ p.presaleMinimumCap ≤ p.totalDeposit)) = true := by
    decide +kernel
  obtain ⟨p1, hp1, h1⟩ := has_some c1
  have h1 := of_decide_eq_true h1
  refine ⟨genesis, aloneOps.take 2, aloneOps.drop 2, genesis_ok, by decide +kernel, ⟨p1, hp1, h1⟩, by decide +kernel,
    ?_⟩
  rintro t (rfl | rfl) <;> decide +kernel

namespace Ex

/-- `C103_settled` applies to an oversubscribed pro-rata sale in which one buyer is a friend of the creator: all is
settled, and the two together have what the other buyer paid and did not get back, but for a unit of rounding. -/
def prorataSettled : List Op :=
  prorataOps ++ [.tick 3000, creatorWithdraw creatorWithdrawAcc, collectFee, refund alice aliceQuote,
    refund bob bobQuote]

example : has (run genesis prorataSettled) (fun p => decide (p.hasCreatorWithdrawn = 1 ∧ p.depositFeeCollected = 1 ∧
      (p.presaleEndTime : Int) ≤ (run genesis prorataSettled).clock ∧ p.presaleMinimumCap ≤ p.totalDeposit)) = true ∧
    (∀ x ∈ (run genesis prorataSettled).escrows, x.2.isRemainingQuoteWithdrawn = 1) ∧
    (run genesis prorataSettled).escrows.length = 2 ∧
    paidBy sale (fun o => decide (o = bob)) (trace genesis prorataSettled) = 613 ∧
    paidBy sale (others fun o => decide (o = bob)) (trace genesis prorataSettled) = 919 ∧
    proceeds sale (trace genesis prorataSettled) +
        backTo sale (fun o => decide (o = bob)) (trace genesis prorataSettled) + 1 =
      613 + (919 - backTo sale (others fun o => decide (o = bob)) (trace genesis prorataSettled)) := by
  refine ⟨by decide +kernel, by decide +kernel, by decide +kernel, by decide +kernel, by decide +kernel, by decide +kernel⟩

end Ex

end Verif
