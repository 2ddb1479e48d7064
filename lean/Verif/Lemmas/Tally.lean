import Verif.SpecTally
import Verif.Lemmas.Origin
import Verif.Lemmas.Moves
import Verif.Lemmas.End
/-!
# What one step adds to the counters
-/

namespace Verif
open Spec

/-- `n` if the kinds agree. -/
def amt (K K0 : Kind) (n : Nat) : Nat := if K = K0 then n else 0

/-- A step of kind `K` moving `n` for the escrow at `k` of presale `a`. -/
structure Trade (K : Kind) (w w' : World) (a k : Addr) (n : Nat) (p p' : Presale) (e e' : Escrow)
    (r r' : Registry) : Prop where
  presale : w.presales a = some p
  presales' : w'.presales = upd w.presales a (some p')
  escrow : w.escrows.get? k = some e
  escrows' : w'.escrows = w.escrows.set k e'
  belongs : e.presale = a
  same : e'.presale = e.presale ∧ e'.registryIndex = e.registryIndex
  registry : p.registries[e.registryIndex]? = some r
  registries' : p'.registries = p.registries.set e.registryIndex r'
  dep : p'.totalDeposit + p'.totalDepositFee + amt K .withdraw n = p.totalDeposit + p.totalDepositFee + amt K .deposit n
  depR : r'.totalDeposit + r'.totalDepositFee + amt K .withdraw n = r.totalDeposit + r.totalDepositFee + amt K .deposit n
  depE : e'.totalDeposit + e'.totalDepositFee + amt K .withdraw n = e.totalDeposit + e.totalDepositFee + amt K .deposit n
  cla : p'.totalClaimedToken = p.totalClaimedToken + amt K .claim n
  claR : r'.totalClaimedToken = r.totalClaimedToken + amt K .claim n
  claE : e'.totalClaimedToken = e.totalClaimedToken + amt K .claim n
  ref : p'.totalRefundedQuoteToken = p.totalRefundedQuoteToken + amt K .refund n
  refR : r'.totalRefundedQuoteToken = r.totalRefundedQuoteToken + amt K .refund n

theorem upd_same {β : Type} {f : Addr → Option β} {a : Addr} {b : β} (h : f a = some b) : upd f a (some b) = f := by
  funext x
  unfold upd
  split
  · next hx => rw [hx, h]
  · rfl

theorem tally_claim {w w' : World} (W : WInv w) {tx : Tx} {x : ClaimAcc} {rc : Receipt}
    (h : step w (.ix tx (.claim x)) = .ok (w', rc)) :
    ∃ p p' e e' r r', Trade .claim w w' x.presale x.escrow
      (volume .claim ⟨w, .ix tx (.claim x), rc, w'⟩) p p' e e' r r' := by
  obtain ⟨p, m, e, hd, e1, ex, F⟩ := handleClaim_iff.1 h
  obtain ⟨c, t, hacc⟩ : ∃ c t, accrue e c t = .ok e1 := by
    have := F.refresh
    simp only [Handler.updatePendingClaimAmount, bind_eq_ok] at this
    obtain ⟨c, _, h⟩ := this
    exact ⟨c, _, h⟩
  obtain ⟨_, _, _, rfl⟩ := accrue_iff.1 hacc
  rcases F.out with ⟨hpos, p', e', hooks, rest, tk, cpi, hcl, _, htr, rfl, rfl⟩ | ⟨hz, rfl, rfl⟩
  · obtain ⟨r, hr, _, _, _, rfl, rfl⟩ := claim_iff.1 hcl
    obtain ⟨_, _, _, _, T⟩ := transferTokens_iff.1 htr
    refine ⟨p, _, e, _, r, _, F.presale, rfl, F.escrow, rfl, F.belongs.1, ⟨rfl, rfl⟩, hr, rfl, ?_, ?_, ?_, ?_, ?_, ?_, ?_, ?_⟩ <;>
      simp [volume, T.cpi, debitedBy, amt, Presale.claimed, Escrow.paid, Escrow.accrued]
  · obtain ⟨r, hr, _⟩ := (W.core.sale _ _ F.presale).pinv.escBook F.escrow F.belongs.1
    refine ⟨p, p, e, _, r, r, F.presale, (upd_same F.presale).symm, F.escrow, rfl, F.belongs.1, ⟨rfl, rfl⟩, hr,
      (List.set_self' hr).symm, ?_, ?_, ?_, ?_, ?_, ?_, ?_, ?_⟩ <;>
      simp [volume, amt, Escrow.accrued]

theorem tally_refund {w w' : World} {tx : Tx} {x : RefundAcc} {rc : Receipt}
    (h : step w (.ix tx (.refund x)) = .ok (w', rc)) :
    ∃ p p' e e' r r', Trade .refund w w' x.presale x.escrow
      (volume .refund ⟨w, .ix tx (.refund x), rc, w'⟩) p p' e e' r r' := by
  obtain ⟨p, m, e, q, p', hooks, rest, ex, F⟩ := handleRefund_iff.1 h
  obtain ⟨r, hr, _, _, rfl⟩ := updateRefunded_iff.1 F.update
  rcases F.out with ⟨hpos, tk, cpi, htr, rfl, rfl⟩ | ⟨hz, rfl, rfl⟩
  · obtain ⟨_, _, _, _, T⟩ := transferTokens_iff.1 htr
    refine ⟨p, _, e, _, r, _, F.presale, rfl, F.escrow, rfl, F.belongs.1, ⟨rfl, rfl⟩, hr, rfl, ?_, ?_, ?_, ?_, ?_, ?_, ?_, ?_⟩ <;>
      simp [volume, T.cpi, debitedBy, amt, Presale.refunded, Escrow.updateRemainingQuoteWithdrawn]
  · refine ⟨p, _, e, _, r, _, F.presale, rfl, F.escrow, rfl, F.belongs.1, ⟨rfl, rfl⟩, hr, rfl, ?_, ?_, ?_, ?_, ?_, ?_, ?_, ?_⟩ <;>
      simp [volume, amt, Presale.refunded, Escrow.updateRemainingQuoteWithdrawn, hz]

theorem tally_withdraw {w w' : World} {tx : Tx} {x : WithdrawAcc} {rc : Receipt}
    (h : step w (.ix tx (.withdraw x)) = .ok (w', rc)) :
    ∃ p p' e e' r r', Trade .withdraw w w' x.presale x.escrow
      (volume .withdraw ⟨w, .ix tx (.withdraw x), rc, w'⟩) p p' e e' r r' := by
  obtain ⟨p, m, e, p', e', n, hooks, rest, tk, cpi, ex, F⟩ := handleWithdraw_iff.1 h
  obtain ⟨hd, r, D⟩ := withdrawCore_iff.1 F.core
  obtain ⟨_, _, _, _, T⟩ := transferTokens_iff.1 F.transfer
  have hp' := D.presale; have he' := D.escrow; have hw := F.post; have hrc := F.receipt
  have g1 := D.leE; have g2 := D.leR; have g3 := D.leP
  subst hp' he' hw hrc
  refine ⟨p, _, e, _, r, _, F.presale, rfl, F.escrow, rfl, F.belongs.1, ⟨rfl, rfl⟩, D.registry, rfl, ?_, ?_, ?_, ?_, ?_, ?_, ?_, ?_⟩ <;>
    simp [volume, T.cpi, debitedBy, amt, Presale.debited, Escrow.debited] <;> omega

theorem tally_deposit {w w' : World} (W : WInv w) {tx : Tx} {x : DepositAcc} {rc : Receipt}
    (h : step w (.ix tx (.deposit x)) = .ok (w', rc)) :
    ∃ p p' e e' r r', Trade .deposit w w' x.presale x.escrow
      (volume .deposit ⟨w, .ix tx (.deposit x), rc, w'⟩) p p' e e' r r' := by
  obtain ⟨p, m, e, d, inc, hooks, rest, tk, cpi, F⟩ := handleDeposit_iff.1 h
  obtain ⟨hd, quota, r, D⟩ := depositCore_iff.1 F.core
  obtain ⟨s, t, m', dl, T⟩ := transferTokens_iff.1 F.transfer
  have hm : m' = m := by have := T.hm; rw [F.mint] at this; cases this; rfl
  subst hm
  obtain ⟨_, g1, g2, _⟩ := depositFee_inv D.fees
  have hex := (C42_inversion_exact (wellFormed_feeOk (W.core.mints _ _ F.mint)) g2 F.gross).1
  have he' := D.escrow; have hw := F.post; have hrc := F.receipt
  have hvol : volume .deposit ⟨w, .ix tx (.deposit x), rc, w'⟩ = d.amount + d.fees.fee := by
    subst hrc
    simp [volume, T.cpi, creditedBy, hex]
    omega
  rw [hvol]
  have hp' : d.presale = (p.credited e.registryIndex r d.amount d.fees.fee) ∨
      d.presale = (p.credited e.registryIndex r d.amount d.fees.fee).endedAt w.clock.toNat := by
    rcases endIfMaxCapReached_iff.1 D.finish with ⟨_, _, _, _, h⟩ | ⟨_, h⟩
    · exact .inr h
    · exact .inl h
  have q1 : d.presale.registries = (p.credited e.registryIndex r d.amount d.fees.fee).registries := by
    rcases hp' with h | h <;> rw [h]; rfl
  have q2 : d.presale.totalDeposit = (p.credited e.registryIndex r d.amount d.fees.fee).totalDeposit := by
    rcases hp' with h | h <;> rw [h]; rfl
  have q3 : d.presale.totalDepositFee = (p.credited e.registryIndex r d.amount d.fees.fee).totalDepositFee := by
    rcases hp' with h | h <;> rw [h]; rfl
  have q4 : d.presale.totalClaimedToken = p.totalClaimedToken := by
    rcases hp' with h | h <;> rw [h] <;> rfl
  have q5 : d.presale.totalRefundedQuoteToken = p.totalRefundedQuoteToken := by
    rcases hp' with h | h <;> rw [h] <;> rfl
  refine ⟨p, d.presale, e, d.escrow, r, _, F.presale, by rw [hw], F.escrow, by rw [hw], F.belongs, ?_, D.registry, q1,
    ?_, ?_, ?_, ?_, ?_, ?_, ?_, ?_⟩ <;>
    simp [q2, q3, q4, q5, he', amt, Presale.credited, Escrow.credited] <;> omega

/-- Every successful step of a buyer moves the counters by what its token calls moved. -/
theorem step_trade {w w' : World} (W : WInv w) {op : Op} {rc : Receipt} (h : step w op = .ok (w', rc))
    {K : Kind} {a k : Addr} (hk : about op = some (K, a, k)) :
    ∃ p p' e e' r r', Trade K w w' a k (volume K ⟨w, op, rc, w'⟩) p p' e e' r r' := by
  cases op with
  | ix tx i =>
    cases i <;> simp only [about, Option.some.injEq, Prod.mk.injEq, reduceCtorEq] at hk
    all_goals obtain ⟨rfl, rfl, rfl⟩ := hk
    · exact tally_deposit W h
    · exact tally_withdraw h
    · exact tally_claim W h
    · exact tally_refund h
  | _ => simp [about] at hk

/-! ## Steps that are not about a buyer's tokens -/

/-- Deposits with fees, claims and refunds counted by a presale. -/
def Presale.counts (p : Presale) : Nat × Nat × Nat :=
  (p.totalDeposit + p.totalDepositFee, p.totalClaimedToken, p.totalRefundedQuoteToken)

/-- Deposits with fees, claims and refunds counted by a registry. -/
def Registry.counts (r : Registry) : Nat × Nat × Nat :=
  (r.totalDeposit + r.totalDepositFee, r.totalClaimedToken, r.totalRefundedQuoteToken)

/-- Counts of registry `i`. -/
def Presale.countsAt (p : Presale) (i : Nat) : Nat × Nat × Nat :=
  match p.registries[i]? with
  | some r => r.counts
  | none => (0, 0, 0)

theorem countsAt_set {p p' : Presale} {i : Nat} {r r' : Registry} (hr : p.registries[i]? = some r)
    (hp : p'.registries = p.registries.set i r') (j : Nat) :
    p'.countsAt j = if i = j then r'.counts else p.countsAt j := by
  unfold Presale.countsAt
  rw [hp]
  by_cases hj : i = j
  · subst hj
    rw [List.getElem?_set_self (List.getElem?_eq_some_iff.1 hr).1, if_pos rfl]
  · rw [List.getElem?_set_ne hj, if_neg hj]

theorem countsAt_self {p : Presale} {i : Nat} {r : Registry} (hr : p.registries[i]? = some r) :
    p.countsAt i = r.counts := by
  unfold Presale.countsAt; rw [hr]

theorem countsAt_same {p p' : Presale} {i : Nat} {r r' : Registry} (hr : p.registries[i]? = some r)
    (hp : p'.registries = p.registries.set i r') (h : r'.counts = r.counts) (j : Nat) :
    p'.countsAt j = p.countsAt j := by
  rw [countsAt_set hr hp]
  split
  · next hj => subst hj; rw [countsAt_self hr, h]
  · rfl

theorem Act.counters {w : World} {a : Addr} {p p' : Presale} {tx : Tx} {i : Ix} {es' : AMap Addr Escrow}
    (A : Act w a p tx i p' es') (hk : about (.ix tx i) = none) :
    p'.counts = p.counts ∧ ∀ j, p'.countsAt j = p.countsAt j := by
  cases A with
  | opened _ _ _ _ _ hr => exact ⟨rfl, countsAt_same hr rfl rfl⟩
  | deposit => simp [about] at hk
  | withdraw => simp [about] at hk
  | refreshed => exact ⟨rfl, fun _ => rfl⟩
  | claimed => simp [about] at hk
  | refunded => simp [about] at hk
  | closed _ _ _ _ _ hr => exact ⟨rfl, countsAt_same hr rfl rfl⟩
  | creatorWithdrew => exact ⟨rfl, fun _ => rfl⟩
  | collected => exact ⟨rfl, fun _ => rfl⟩
  | unsold => exact ⟨rfl, fun _ => rfl⟩

theorem documented_counts {t : Nat} {p : Presale} (D : Documented t p) :
    p.counts = (0, 0, 0) ∧ ∀ j, p.countsAt j = (0, 0, 0) := by
  obtain ⟨h1, _, h2, h3, h4, _⟩ := D.counters
  refine ⟨by simp [Presale.counts, h1, h2, h3, h4], fun j => ?_⟩
  unfold Presale.countsAt
  cases h : p.registries[j]? with
  | none => rfl
  | some r =>
    have := D.blank r (List.mem_of_getElem? h)
    rw [this]
    rfl

/-- Counts of a presale that may not exist. -/
def saleCounts (w : World) (a : Addr) : Nat × Nat × Nat :=
  match w.presales a with
  | some p => p.counts
  | none => (0, 0, 0)

/-- Counts of a registry of a presale that may not exist. -/
def regCounts (w : World) (a : Addr) (i : Nat) : Nat × Nat × Nat :=
  match w.presales a with
  | some p => p.countsAt i
  | none => (0, 0, 0)

theorem step_counts_other {w w' : World} (W : WInv w) {op : Op} {rc : Receipt} (h : step w op = .ok (w', rc))
    (hk : about op = none) (a : Addr) :
    saleCounts w' a = saleCounts w a ∧ ∀ i, regCounts w' a i = regCounts w a i := by
  unfold saleCounts regCounts
  cases step_effect W h with
  | quiet h1 => rw [h1]; exact ⟨rfl, fun _ => rfl⟩
  | @create tx x p h1 h2 h3 h4 =>
    rw [h4]
    by_cases ha : a = x.presaleKey
    · subst ha
      rw [upd_self, h2]
      exact documented_counts h3
    · rw [upd_other _ _ ha]; exact ⟨rfl, fun _ => rfl⟩
  | @act tx i b q q' es' h1 h2 h3 h4 =>
    rw [h4]
    by_cases ha : a = b
    · subst ha
      rw [upd_self, h2]
      exact h3.counters (h1 ▸ hk)
    · rw [upd_other _ _ ha]; exact ⟨rfl, fun _ => rfl⟩

/-! ## Histories -/

/-- The record of trying `op` in `w`. -/
def attempt (w : World) (op : Op) : List StepRec :=
  match step w op with
  | .ok (w', r) => [⟨w, op, r, w'⟩]
  | .error _ => []

theorem trace_snoc (w : World) (ops : List Op) (op : Op) :
    trace w (ops ++ [op]) = trace w ops ++ attempt (run w ops) op := by
  induction ops generalizing w with
  | nil =>
    show trace w [op] = attempt w op
    unfold trace attempt
    cases step w op with
    | error e => rfl
    | ok x => rfl
  | cons o ops ih =>
    rw [List.cons_append]
    unfold trace
    cases h : step w o with
    | error e =>
      have e1 : run w (o :: ops) = run w ops := by
        show run (apply w o) ops = _
        unfold apply; rw [h]
      rw [e1]
      exact ih w
    | ok x =>
      have e1 : run w (o :: ops) = run x.1 ops := by
        show run (apply w o) ops = _
        unfold apply; rw [h]
      rw [e1]
      simp only [List.cons_append, List.cons.injEq, true_and]
      exact ih x.1

theorem total_nil (K : Kind) (sel : Addr → Addr → Bool) : total K sel [] = 0 := rfl

theorem total_append (K : Kind) (sel : Addr → Addr → Bool) (l l' : List StepRec) :
    total K sel (l ++ l') = total K sel l + total K sel l' := by
  simp [total]

theorem total_one (K : Kind) (sel : Addr → Addr → Bool) (s : StepRec) : total K sel [s] = part K sel s := by
  simp [total]

theorem part_none {K : Kind} {sel : Addr → Addr → Bool} {s : StepRec} (h : about s.op = none) :
    part K sel s = 0 := by
  unfold part; rw [h]

theorem part_some {K K' : Kind} {sel : Addr → Addr → Bool} {s : StepRec} {a k : Addr}
    (h : about s.op = some (K', a, k)) : part K sel s = if sel a k = true then amt K' K (volume K' s) else 0 := by
  unfold part
  rw [h]
  unfold amt
  by_cases h1 : K' = K
  · subst h1; simp
  · simp [h1]

/-- Counts agree with the totals of a history. -/
structure Tallied (c : Nat × Nat × Nat) (sel : Addr → Addr → Bool) (l : List StepRec) : Prop where
  dep : c.1 + total .withdraw sel l = total .deposit sel l
  cla : c.2.1 = total .claim sel l
  ref : c.2.2 = total .refund sel l

theorem Tallied.quiet {c c' : Nat × Nat × Nat} {sel : Addr → Addr → Bool} {l : List StepRec} {s : StepRec}
    (T : Tallied c sel l) (h : ∀ K, part K sel s = 0) (hc : c' = c) : Tallied c' sel (l ++ [s]) := by
  subst hc
  refine ⟨?_, ?_, ?_⟩ <;> simp only [total_append, total_one, h, Nat.add_zero]
  · exact T.dep
  · exact T.cla
  · exact T.ref

theorem sale_tally {w0 : World} (G : Genesis w0) (ops : List Op) (a : Addr) :
    Tallied (saleCounts (run w0 ops) a) (ofSale a) (trace w0 ops) ∧
    ∀ i, Tallied (regCounts (run w0 ops) a i) (ofRegistry a i) (trace w0 ops) := by
  induction ops using List.reverseRecOn with
  | nil =>
    unfold saleCounts regCounts
    rw [show run w0 [] = w0 from rfl, G.presales a]
    exact ⟨⟨rfl, rfl, rfl⟩, fun _ => ⟨rfl, rfl, rfl⟩⟩
  | append_singleton ops op ih =>
    have R : Reachable (run w0 ops) := ⟨w0, ops, G, rfl⟩
    rw [trace_snoc, run_snoc]
    unfold attempt
    cases h : step (run w0 ops) op with
    | error e =>
      have : apply (run w0 ops) op = run w0 ops := by unfold apply; rw [h]
      rw [this, List.append_nil]
      exact ih
    | ok x =>
      obtain ⟨w', rc⟩ := x
      rw [apply_ok h]
      cases hk : about op with
      | none =>
        obtain ⟨h1, h2⟩ := step_counts_other R.winv h hk a
        exact ⟨ih.1.quiet (fun K => part_none hk) h1, fun i => (ih.2 i).quiet (fun K => part_none hk) (h2 i)⟩
      | some y =>
        obtain ⟨K, b, k⟩ := y
        obtain ⟨p, p', e, e', r, r', T⟩ := step_trade R.winv h hk
        have hkey : k = .escrow b e.owner e.registryIndex := by
          have := (R.winv.core.esc _ (AMap.get?_mem T.escrow)).1
          rw [← T.belongs]; exact this
        by_cases hb : b = a
        · subst hb
          have c1 : saleCounts (run w0 ops) b = p.counts := by unfold saleCounts; rw [T.presale]
          have c2 : saleCounts w' b = p'.counts := by unfold saleCounts; rw [T.presales', upd_self]
          have d1 : ∀ i, regCounts (run w0 ops) b i = p.countsAt i := by
            intro i; unfold regCounts; rw [T.presale]
          have d2 : ∀ i, regCounts w' b i = p'.countsAt i := by
            intro i; unfold regCounts; rw [T.presales', upd_self]
          obtain ⟨I1, I2⟩ := ih
          rw [c1] at I1
          refine ⟨?_, fun i => ?_⟩
          · rw [c2]
            have hp : ∀ K', part K' (ofSale b) ⟨run w0 ops, op, rc, w'⟩ = amt K K' (volume K ⟨run w0 ops, op, rc, w'⟩) := by
              intro K'
              rw [part_some hk, if_pos (by simp [ofSale])]
            obtain ⟨j1, j2, j3⟩ := I1
            have t1 := T.dep; have t2 := T.cla; have t3 := T.ref
            refine ⟨?_, ?_, ?_⟩ <;> simp only [total_append, total_one, hp, Presale.counts] at * <;> omega
          · have I2 := I2 i
            rw [d1] at I2
            rw [d2, countsAt_set T.registry T.registries']
            by_cases hi : e.registryIndex = i
            · subst hi
              rw [countsAt_self T.registry] at I2
              rw [if_pos rfl]
              have hp : ∀ K', part K' (ofRegistry b e.registryIndex) ⟨run w0 ops, op, rc, w'⟩ =
                  amt K K' (volume K ⟨run w0 ops, op, rc, w'⟩) := by
                intro K'
                rw [part_some hk, if_pos (by rw [hkey]; simp [ofRegistry])]
              obtain ⟨j1, j2, j3⟩ := I2
              have t1 := T.depR; have t2 := T.claR; have t3 := T.refR
              refine ⟨?_, ?_, ?_⟩ <;> simp only [total_append, total_one, hp, Registry.counts] at * <;> omega
            · rw [if_neg hi]
              refine I2.quiet (fun K' => ?_) rfl
              rw [part_some hk, if_neg (by rw [hkey]; simp [ofRegistry, hi])]
        · have c : w'.presales a = (run w0 ops).presales a := by
            rw [T.presales', upd_other _ _ (Ne.symm hb)]
          have hs : ∀ K', part K' (ofSale a) ⟨run w0 ops, op, rc, w'⟩ = 0 := by
            intro K'; rw [part_some hk, if_neg (by simp [ofSale, hb])]
          refine ⟨ih.1.quiet hs (by unfold saleCounts; rw [c]), fun i => (ih.2 i).quiet (fun K' => ?_)
            (by unfold regCounts; rw [c])⟩
          rw [part_some hk, if_neg (by rw [hkey]; simp [ofRegistry, hb])]

/-! ## One escrow -/

/-- The counters of the escrow at `k` agree with the history; a missing escrow has nothing in it or
belongs to a sale that is over. -/
def EscTally (w : World) (k : Addr) (l : List StepRec) : Prop :=
  (∀ e, w.escrows.get? k = some e →
    e.totalDeposit + e.totalDepositFee + total .withdraw (ofEscrow k) l = total .deposit (ofEscrow k) l ∧
    e.totalClaimedToken = total .claim (ofEscrow k) l) ∧
  (w.escrows.get? k = none →
    (total .withdraw (ofEscrow k) l = total .deposit (ofEscrow k) l ∧ total .claim (ofEscrow k) l = 0) ∨
    ∃ a p o i, k = .escrow a o i ∧ w.presales a = some p ∧ Over p w.clock)

theorem escrow_tally_other {w w' : World} (W : WInv w) {op : Op} {rc : Receipt} (h : step w op = .ok (w', rc))
    {k : Addr} {l l' : List StepRec} (hl : ∀ K, total K (ofEscrow k) l' = total K (ofEscrow k) l)
    (hch : ∀ e, w.escrows.get? k = some e → w'.escrows.get? k = some e ∨
      (∃ e', w'.escrows.get? k = some e' ∧ e'.totalDeposit + e'.totalDepositFee = e.totalDeposit + e.totalDepositFee ∧
        e'.totalClaimedToken = e.totalClaimedToken) ∨
      (w'.escrows.get? k = none ∧ ∃ p r, w.presales e.presale = some p ∧
        p.registries[e.registryIndex]? = some r ∧ closeChecks p e w.clock.toNat = .ok ()))
    (I : EscTally w k l) : EscTally w' k l' := by
  obtain ⟨I1, I2⟩ := I
  unfold EscTally
  simp only [hl]
  have hover : (∃ a p o i, k = .escrow a o i ∧ w.presales a = some p ∧ Over p w.clock) →
      ∃ a p o i, k = .escrow a o i ∧ w'.presales a = some p ∧ Over p w'.clock := by
    rintro ⟨a, p, o, i, h1, h2, h3⟩
    obtain ⟨p', g1, L⟩ := (step_effect W h).later W h2
    exact ⟨a, p', o, i, h1, g1, L.over h3⟩
  cases hk : w.escrows.get? k with
  | none =>
    refine ⟨?_, fun _ => ?_⟩
    · intro e he
      obtain ⟨tx, i, p, _, hp, hon, h0, hkey, hini, _⟩ := step_opening W h hk he
      rw [hini]
      rcases I2 hk with ⟨h1, h2⟩ | ⟨a, q, o, j, h1, h2, h3⟩
      · exact ⟨by show 0 + 0 + _ = _; omega, h2.symm⟩
      · rw [hkey] at h1
        cases h1
        rw [hp] at h2; cases h2
        unfold Ongoing at hon
        unfold Over at h3
        omega
    · rcases I2 hk with h1 | h1
      · exact .inl h1
      · exact .inr (hover h1)
  | some e =>
    obtain ⟨i1, i2⟩ := I1 e hk
    rcases hch e hk with h1 | ⟨e', h1, h2, h3⟩ | ⟨h1, p, r, hp, hr, hc⟩
    · refine ⟨?_, fun hn => by rw [h1] at hn; cases hn⟩
      intro e2 he2
      rw [h1] at he2; cases he2
      exact ⟨i1, i2⟩
    · refine ⟨?_, fun hn => by rw [h1] at hn; cases hn⟩
      intro e2 he2
      rw [h1] at he2; cases he2
      exact ⟨by omega, by omega⟩
    · refine ⟨fun e2 he2 => (by rw [h1] at he2; cases he2), fun _ => ?_⟩
      have S := W.core.sale _ _ hp
      obtain ⟨r', hr', E⟩ := S.pinv.escBook hk rfl
      rw [hr] at hr'; cases hr'
      have hset := (S.pinv.closeChecks_iff hk rfl hr).1 hc
      unfold Settled at hset
      by_cases ht : w.clock.toNat < p.presaleEndTime
      · rw [if_pos ht] at hset
        left
        have := E.claim0 (.inl ht)
        omega
      · right
        have hkey := (W.core.esc _ (AMap.get?_mem hk)).1
        exact hover ⟨_, p, _, _, hkey, hp, S.over.2 (by omega)⟩

theorem escrow_tally {w0 : World} (G : Genesis w0) (ops : List Op) (k : Addr) :
    EscTally (run w0 ops) k (trace w0 ops) := by
  induction ops using List.reverseRecOn with
  | nil =>
    rw [show run w0 [] = w0 from rfl]
    unfold EscTally
    rw [G.escrows]
    exact ⟨fun e he => (by simp [AMap.get?] at he), fun _ => .inl ⟨rfl, rfl⟩⟩
  | append_singleton ops op ih =>
    have R : Reachable (run w0 ops) := ⟨w0, ops, G, rfl⟩
    have W := R.winv
    rw [trace_snoc, run_snoc]
    unfold attempt
    cases h : step (run w0 ops) op with
    | error e =>
      have : apply (run w0 ops) op = run w0 ops := by unfold apply; rw [h]
      rw [this, List.append_nil]
      exact ih
    | ok x =>
      obtain ⟨w', rc⟩ := x
      rw [apply_ok h]
      cases hk : about op with
      | none =>
        refine escrow_tally_other W h (fun K => ?_) (fun e he => ?_) ih
        · simp only [total_append, total_one, part_none (s := ⟨run w0 ops, op, rc, w'⟩) hk, Nat.add_zero]
        · rcases (step_effect W h).escrow W he with h1 | ⟨tx, i, p, rfl, hp, _, C⟩
          · exact .inl h1
          · right
            generalize hq : w'.escrows.get? k = o at C
            cases C with
            | deposit => simp [about] at hk
            | withdraw => simp [about] at hk
            | claimed => simp [about] at hk
            | refunded => simp [about] at hk
            | refreshed => exact .inl ⟨_, rfl, rfl, rfl⟩
            | closed _ _ _ hr hc => exact .inr ⟨rfl, p, _, hp, hr, hc⟩
      | some y =>
        obtain ⟨K, b, k'⟩ := y
        obtain ⟨p, p', e, e', r, r', T⟩ := step_trade W h hk
        by_cases hkk : k' = k
        · subst hkk
          have hp : ∀ K', part K' (ofEscrow k') ⟨run w0 ops, op, rc, w'⟩ =
              amt K K' (volume K ⟨run w0 ops, op, rc, w'⟩) := by
            intro K'
            rw [part_some hk, if_pos (by simp [ofEscrow])]
          obtain ⟨i1, i2⟩ := ih.1 e T.escrow
          have g : w'.escrows.get? k' = some e' := by
            rw [T.escrows']; exact (AMap.get?_set _ _ _ _).trans (if_pos rfl)
          refine ⟨fun e2 he2 => ?_, fun hn => by rw [g] at hn; cases hn⟩
          rw [g] at he2; cases he2
          have t1 := T.depE; have t2 := T.claE
          simp only [total_append, total_one, hp]
          constructor <;> omega
        · refine escrow_tally_other W h (fun K' => ?_) (fun e0 he0 => .inl ?_) ih
          · have hp : part K' (ofEscrow k) ⟨run w0 ops, op, rc, w'⟩ = 0 := by
              rw [part_some hk, if_neg (by simp [ofEscrow, hkk])]
            simp only [total_append, total_one, hp, Nat.add_zero]
          · rw [T.escrows']
            exact (AMap.get?_set _ _ _ _).trans ((if_neg (fun h => hkk h.symm)).trans he0)

end Verif
