import Verif.SpecRate
import Verif.Props.Share
import Verif.Props.DepositFee
import Verif.Props.Life
/-!
# C119: fees on record are at the fee rate, up to rounding

Every deposit pays its fee rounded up, and withdrawals keep the fee. So the fees on record are never below the rate of
what is on record, neither for an escrow nor for a registry, nor for what is left after the refunds of an oversubscribed
sale.
-/

namespace Verif
open Spec

/-- The invariant of a whole ledger. -/
structure RateAll (w : World) : Prop where
  sale : ∀ a p, w.presales a = some p → ∀ (i : Nat) r, p.registries[i]? = some r →
    AtRate r.depositFeeBps r.totalDeposit r.totalDepositFee
  escrow : ∀ k e p, w.escrows.get? k = some e → w.presales e.presale = some p →
    ∀ r, p.registries[e.registryIndex]? = some r → AtRate r.depositFeeBps e.totalDeposit e.totalDepositFee

theorem atRate_add {b d f d' f' : Nat} (h : AtRate b d f) (h' : AtRate b d' f') : AtRate b (d + d') (f + f') := by
  unfold AtRate at *
  have : (d + d' + (f + f')) * b = (d + f) * b + (d' + f') * b := by ring
  omega

theorem atRate_sub {b d f : Nat} (h : AtRate b d f) (x : Nat) : AtRate b (d - x) f := by
  unfold AtRate at *
  exact Nat.le_trans (Nat.mul_le_mul_right _ (by omega)) h

theorem atRate_charged {b n : Nat} {c : DepositFeeIncluded} (h : calculateDepositFeeIncludedAmount n b .up = .ok c) :
    AtRate b n c.fee := by
  obtain ⟨h1, h2, -⟩ := C07_fee_law h
  unfold AtRate
  rw [← h1]
  exact h2.1

theorem rate_books {p p' : Presale} (h : books p' = books p)
    (H : ∀ (i : Nat) r, p.registries[i]? = some r → AtRate r.depositFeeBps r.totalDeposit r.totalDepositFee) :
    ∀ (i : Nat) r, p'.registries[i]? = some r → AtRate r.depositFeeBps r.totalDeposit r.totalDepositFee := by
  intro i r' hr'
  obtain ⟨r, hr, hb⟩ := books_reg h.symm hr'
  have e1 : r.depositFeeBps = r'.depositFeeBps := (congrArg Registry.depositFeeBps hb :)
  have e2 : r.totalDeposit = r'.totalDeposit := (congrArg Registry.totalDeposit hb :)
  have e3 : r.totalDepositFee = r'.totalDepositFee := (congrArg Registry.totalDepositFee hb :)
  have := H i r hr
  rwa [e1, e2, e3] at this

theorem rate_set {l : List Registry} {j : Nat} {s : Registry}
    (H : ∀ (i : Nat) r, l[i]? = some r → AtRate r.depositFeeBps r.totalDeposit r.totalDepositFee)
    (hs : AtRate s.depositFeeBps s.totalDeposit s.totalDepositFee) :
    ∀ (i : Nat) r, (l.set j s)[i]? = some r → AtRate r.depositFeeBps r.totalDeposit r.totalDepositFee := by
  intro i r hr
  by_cases h : i = j
  · subst h
    by_cases hl : i < l.length
    · rw [List.getElem?_set_self hl] at hr; cases hr; exact hs
    · rw [List.getElem?_eq_none (by rw [List.length_set]; omega)] at hr; cases hr
  · rw [List.getElem?_set_ne (Ne.symm h)] at hr; exact H i r hr

theorem Act.rate {w : World} {a : Addr} {p p' : Presale} {tx : Tx} {i : Ix} {es' : AMap Addr Escrow}
    (A : Act w a p tx i p' es')
    (H : ∀ (i : Nat) r, p.registries[i]? = some r → AtRate r.depositFeeBps r.totalDeposit r.totalDepositFee) :
    ∀ (i : Nat) r, p'.registries[i]? = some r → AtRate r.depositFeeBps r.totalDeposit r.totalDepositFee := by
  cases A with
  | opened _ _ _ _ _ hr => exact rate_books (books_counted hr) H
  | @deposit x e d h quota r _ _ _ _ F =>
    have key : ∀ (i : Nat) r', (p.credited e.registryIndex r d.amount d.fees.fee).registries[i]? = some r' →
        AtRate r'.depositFeeBps r'.totalDeposit r'.totalDepositFee :=
      rate_set H (atRate_add (H _ r F.registry) (atRate_charged F.fees))
    rcases F.result with ⟨h1, _⟩ | ⟨h1, _⟩ <;> rw [h1]
    · exact key
    · exact key
  | @withdraw x e _ e1 n h r _ he hb _ _ F =>
    rw [F.presale]
    exact rate_set H (atRate_sub (H _ r F.registry) n)
  | refreshed => exact H
  | claimed _ _ _ _ _ hr => exact rate_books (books_claimed hr) H
  | refunded _ _ _ _ _ hr => exact rate_books (books_refunded hr) H
  | closed _ _ _ _ _ hr => exact rate_books (books_uncounted hr) H
  | creatorWithdrew => exact H
  | collected => exact H
  | unsold => exact H

theorem EChange.rate {w : World} {p : Presale} {k : Addr} {e : Escrow} {tx : Tx} {i : Ix} {o : Option Escrow}
    (C : EChange w p k e tx i o)
    (H : ∀ r, p.registries[e.registryIndex]? = some r → AtRate r.depositFeeBps e.totalDeposit e.totalDepositFee)
    {e' : Escrow} (ho : o = some e') :
    ∀ r, p.registries[e.registryIndex]? = some r → AtRate r.depositFeeBps e'.totalDeposit e'.totalDepositFee := by
  intro s hs
  cases C with
  | @deposit x d h quota r _ _ _ F =>
    cases ho
    have := F.registry
    rw [hs] at this; cases this
    rw [F.escrow]
    exact atRate_add (H s hs) (atRate_charged F.fees)
  | @withdraw x p' e1 n h r _ _ _ F =>
    cases ho
    rw [F.escrow]
    exact atRate_sub (H s hs) n
  | refreshed => cases ho; exact H s hs
  | claimed => cases ho; exact H s hs
  | refunded => cases ho; exact H s hs
  | closed => cases ho

theorem rateAll {w : World} (R : Reachable w) : RateAll w := by
  obtain ⟨w0, ops, G, rfl⟩ := R
  refine (run_rel (R := fun w w' => RateAll w → RateAll w') (fun _ h => h) (fun _ _ _ h h' => h' ∘ h)
    ?_ G.winv ops) ⟨fun a p hp => by (rw [G.presales a] at hp; cases hp), fun k e p _ hp => by
      (rw [G.presales] at hp; cases hp)⟩
  intro w op w' rc W hs H
  have E := step_effect W hs
  cases E with
  | quiet h h' => exact ⟨by rw [h]; exact H.sale, by rw [h, h']; exact H.escrow⟩
  | @create tx x q h1 h2 h3 h4 h5 h6 =>
    refine ⟨fun a p hp => ?_, fun k e p hk hp => ?_⟩
    · rw [h4] at hp
      by_cases h : a = x.presaleKey
      · subst h; rw [upd_self] at hp; cases hp
        intro i r hr
        rw [h3.blank r (List.mem_of_getElem? hr)]
        show (0 + 0) * _ ≤ 0 * 10000
        omega
      · rw [upd_other _ _ h] at hp; exact H.sale a p hp
    · rw [h5] at hk
      have hne : e.presale ≠ x.presaleKey := by
        intro h
        obtain ⟨_, p0, hp0⟩ := W.core.esc _ (AMap.get?_mem hk)
        rw [h, h2] at hp0; cases hp0
      rw [h4, upd_other _ _ hne] at hp
      exact H.escrow k e p hk hp
  | @act tx i b q q' es' h1 h2 h3 h4 h5 h6 =>
    have ht := h3.terms_eq
    have same : ∀ (j : Nat) s, q'.registries[j]? = some s → ∃ r, q.registries[j]? = some r ∧
        s.depositFeeBps = r.depositFeeBps := fun j s hs' => by
      obtain ⟨r, hr, e⟩ := terms_reg ht hs'
      exact ⟨r, hr, (congrArg Registry.depositFeeBps e :)⟩
    refine ⟨fun a p hp => ?_, fun k e p hk hp => ?_⟩
    · rw [h4] at hp
      by_cases h : a = b
      · subst h; rw [upd_self] at hp; cases hp; exact h3.rate (H.sale a q h2)
      · rw [upd_other _ _ h] at hp; exact H.sale a p hp
    · rw [h5] at hk
      cases hk0 : w.escrows.get? k with
      | none =>
        obtain ⟨_, _, _, owner, idx, cap, r, _, _, _, _, he⟩ := h3.escrow_new W.core.nodup hk0 hk
        intro s _
        rw [he]
        show (0 + 0) * _ ≤ 0 * 10000
        omega
      | some e0 =>
        rcases h3.escrow W.core.nodup hk0 with g | ⟨g, C⟩
        · rw [hk] at g; cases g
          rw [h4] at hp
          by_cases h : e.presale = b
          · rw [h, upd_self] at hp; cases hp
            intro s hs'
            obtain ⟨r, hr, er⟩ := same _ s hs'
            rw [er]
            exact H.escrow k e q hk0 (by rw [h]; exact h2) r hr
          · rw [upd_other _ _ h] at hp; exact H.escrow k e p hk0 hp
        · have I := C.identity e hk
          have hb : e.presale = b := I.1.trans g
          rw [h4, hb, upd_self] at hp; cases hp
          intro s hs'
          have hix : e.registryIndex = e0.registryIndex := I.index
          rw [hix] at hs'
          obtain ⟨r, hr, er⟩ := same _ s hs'
          rw [er]
          exact C.rate (H.escrow k e0 q hk0 (by rw [g]; exact h2)) hk r hr

/-- **C119.** In every reachable state the fees of an escrow are no less than the rate of its registry applied to its
deposit and fees together, however it came by them; and no less than what a single payment of its whole deposit would
have cost. -/
theorem C119_escrow {w : World} (R : Reachable w) {k : Addr} {e : Escrow} {p : Presale} {r : Registry}
    (hk : w.escrows.get? k = some e) (hp : w.presales e.presale = some p)
    (hr : p.registries[e.registryIndex]? = some r) :
    AtRate r.depositFeeBps e.totalDeposit e.totalDepositFee ∧
    ∀ fee, OneCharge r.depositFeeBps e.totalDeposit fee → fee ≤ e.totalDepositFee := by
  have h := (rateAll R).escrow k e p hk hp r hr
  refine ⟨h, fun fee C => ?_⟩
  unfold AtRate at h
  have := C.least (((e.totalDeposit + e.totalDepositFee) * r.depositFeeBps + 9999) / 10000)
    (e.totalDeposit + e.totalDepositFee) (by unfold IsCeilDiv; omega) (by omega)
  omega

/-- **C119.** The same for every registry as a whole; and after the refunds of an oversubscribed pro-rata sale, the fees
the creator keeps of a registry are no less than the rate of what is kept of it in all. -/
theorem C119_registry {w : World} (R : Reachable w) {a : Addr} {p : Presale} (hp : w.presales a = some p) {i : Nat}
    {r : Registry} (hr : p.registries[i]? = some r) :
    AtRate r.depositFeeBps r.totalDeposit r.totalDepositFee ∧
    AtRate r.depositFeeBps (r.totalDeposit - registrySurplus p r) (r.totalDepositFee - registryFeeRefund p r) := by
  have h := (rateAll R).sale a p hp i r hr
  refine ⟨h, ?_⟩
  have hb : r.depositFeeBps ≤ 5000 := by
    have S := (R.winv.core.sale a p hp).pinv.static
    rcases Nat.lt_or_ge i p.totalPresaleRegistryCount with g | g
    · exact (S.reg i r hr g).2.2.2.2
    · have := congrArg Registry.depositFeeBps (S.unused i r hr g)
      have e0 : r.depositFeeBps = 0 := this
      omega
  have hsd : registrySurplus p r ≤ r.totalDeposit := by
    unfold registrySurplus
    rcases Nat.eq_zero_or_pos p.totalDeposit with h0 | h0
    · rw [h0, Nat.div_zero]; exact Nat.zero_le _
    · apply Nat.div_le_of_le_mul
      exact Nat.mul_le_mul_right _ (by unfold surplus; omega)
  unfold registryFeeRefund
  generalize registrySurplus p r = s at *
  unfold AtRate at *
  rcases Nat.eq_zero_or_pos r.totalDeposit with h0 | hD
  · rw [h0, Nat.div_zero, Nat.sub_zero]
    rw [h0] at h
    rw [Nat.zero_sub]
    exact h
  obtain ⟨k, hk⟩ : ∃ k, r.totalDeposit = s + k := ⟨_, (Nat.add_sub_cancel' hsd).symm⟩
  have h1 := Nat.div_mul_le_self (r.totalDepositFee * s) r.totalDeposit
  generalize hq : r.totalDepositFee * s / r.totalDeposit = g at *
  have hg : g ≤ r.totalDepositFee := by
    rw [← hq]
    apply Nat.div_le_of_le_mul
    rw [Nat.mul_comm]
    exact Nat.mul_le_mul_right _ hsd
  obtain ⟨f, hf⟩ : ∃ f, r.totalDepositFee = g + f := ⟨_, (Nat.add_sub_cancel' hg).symm⟩
  rw [hf, hk] at h h1
  rw [hf, hk, Nat.add_sub_cancel_left, Nat.add_sub_cancel_left]
  obtain ⟨c, hc⟩ : ∃ c, 10000 = r.depositFeeBps + c := ⟨_, (Nat.add_sub_cancel' (by omega)).symm⟩
  rw [hc] at h ⊢
  generalize r.depositFeeBps = b at *
  -- with `D = s + k`, `F = g + f`: `D b ≤ F c` and `F k ≤ f D`
  have h2 : (s + k) * b ≤ (g + f) * c := by nlinarith
  have h3 : (g + f) * k ≤ f * (s + k) := by nlinarith
  have h4 : k * b ≤ f * c := by
    have hD' : 0 < s + k := by omega
    refine Nat.le_of_mul_le_mul_left ?_ hD'
    calc (s + k) * (k * b) = (s + k) * b * k := by ring
      _ ≤ (g + f) * c * k := Nat.mul_le_mul_right _ h2
      _ = (g + f) * k * c := by ring
      _ ≤ f * (s + k) * c := Nat.mul_le_mul_right _ h3
      _ = (s + k) * (f * c) := by ring
  nlinarith

/-- The fees of the escrow at `k` after a history, at most the rate of what was paid in and a unit for each payment. -/
def NotDear (w : World) (k : Addr) (l : List StepRec) : Prop :=
  ∀ e p r, w.escrows.get? k = some e → w.presales e.presale = some p → p.registries[e.registryIndex]? = some r →
    e.totalDepositFee * 10000 ≤ paidIn k l * r.depositFeeBps + 9999 * payments k l

theorem one_more {e f P n b N : Nat} (h : e * 10000 ≤ P * b + 9999 * N) (h' : f * 10000 < (n + f) * b + 10000) :
    (e + f) * 10000 ≤ (P + (n + f)) * b + 9999 * (N + 1) := by
  have e1 : (P + (n + f)) * b = P * b + (n + f) * b := Nat.add_mul _ _ _
  rw [e1]
  generalize P * b = x at *
  generalize (n + f) * b = y at *
  have h2 : f * 10000 + 1 ≤ y + 10000 := h'
  linarith

theorem not_dear {w0 : World} (G : Genesis w0) (ops : List Op) (k : Addr) :
    NotDear (run w0 ops) k (trace w0 ops) := by
  induction ops using List.reverseRecOn with
  | nil =>
    intro e p r he
    rw [show run w0 [] = w0 from rfl, G.escrows] at he
    simp [AMap.get?] at he
  | append_singleton ops op ih =>
    have R : Reachable (run w0 ops) := ⟨w0, ops, G, rfl⟩
    have W := R.winv
    rw [trace_snoc, run_snoc]
    unfold attempt
    cases h : step (run w0 ops) op with
    | error e =>
      have : apply (run w0 ops) op = run w0 ops := by unfold apply; rw [h]
      rw [this, List.append_nil]
      exact ih
    | ok x =>
      obtain ⟨w', rc⟩ := x
      rw [apply_ok h]
      intro e' p' r' he' hp' hr'
      cases hk : (run w0 ops).escrows.get? k with
      | none =>
        obtain ⟨_, _, _, _, _, _, _, _, hini, _⟩ := step_opening W h hk he'
        rw [hini]
        show 0 * 10000 ≤ _
        omega
      | some e =>
        have E := step_effect W h
        have hpay : paidIn k (trace w0 ops ++ [⟨run w0 ops, op, rc, w'⟩]) =
            paidIn k (trace w0 ops) + part .deposit (ofEscrow k) ⟨run w0 ops, op, rc, w'⟩ := by
          unfold paidIn
          rw [total_append, total_one]
        have hnum : payments k (trace w0 ops ++ [⟨run w0 ops, op, rc, w'⟩]) =
            payments k (trace w0 ops) + if isPayment k ⟨run w0 ops, op, rc, w'⟩ = true then 1 else 0 := by
          unfold payments
          rw [List.filter_append, List.length_append, List.filter_singleton]
          cases isPayment k ⟨run w0 ops, op, rc, w'⟩ <;> rfl
        rw [hpay, hnum]
        have base : ∀ p, (run w0 ops).presales e.presale = some p → e'.presale = e.presale →
            e'.registryIndex = e.registryIndex → ∃ r, p.registries[e.registryIndex]? = some r ∧
              r'.depositFeeBps = r.depositFeeBps ∧
              e.totalDepositFee * 10000 ≤
                paidIn k (trace w0 ops) * r'.depositFeeBps + 9999 * payments k (trace w0 ops) := by
          intro p hp i1 i2
          obtain ⟨p2, hp2, L⟩ := E.later W hp
          rw [i1, hp2] at hp'; cases hp'
          rw [i2] at hr'
          obtain ⟨r, hr, ht⟩ := terms_reg L.terms hr'
          have hb : r'.depositFeeBps = r.depositFeeBps := (congrArg Registry.depositFeeBps ht :)
          exact ⟨r, hr, hb, by rw [hb]; exact ih e p r hk hp hr⟩
        have kept : ∀ p, (run w0 ops).presales e.presale = some p → e'.presale = e.presale →
            e'.registryIndex = e.registryIndex → e'.totalDepositFee = e.totalDepositFee →
            e'.totalDepositFee * 10000 ≤ (paidIn k (trace w0 ops) + part .deposit (ofEscrow k)
              ⟨run w0 ops, op, rc, w'⟩) * r'.depositFeeBps + 9999 * (payments k (trace w0 ops) +
                if isPayment k ⟨run w0 ops, op, rc, w'⟩ = true then 1 else 0) := by
          intro p hp i1 i2 i3
          obtain ⟨r, -, -, hle⟩ := base p hp i1 i2
          rw [i3]
          refine Nat.le_trans hle (Nat.add_le_add (Nat.mul_le_mul_right _ (Nat.le_add_right _ _))
            (Nat.mul_le_mul_left _ (Nat.le_add_right _ _)))
        rcases E.escrow W hk with g | ⟨tx, i, p, rfl, hp, -, C⟩
        · rw [he'] at g; cases g
          obtain ⟨-, p0, hp0⟩ := W.core.esc _ (AMap.get?_mem hk)
          exact kept p0 hp0 rfl rfl rfl
        · have I := C.identity e' he'
          generalize hq : w'.escrows.get? k = o at C
          rw [he'] at hq
          cases C with
          | @deposit x d hd quota r _ key _ F =>
            cases hq
            obtain ⟨s, hs, hb, hle⟩ := base p hp I.presale I.index
            rw [F.registry] at hs; cases hs
            obtain ⟨_, _, e1, e2, _, _, T⟩ := step_trade W h (K := .deposit) (a := x.presale) (k := x.escrow) rfl
            have hv := T.depE
            have t1 := T.escrow
            rw [key, hk] at t1; cases t1
            have t2 : w'.escrows.get? k = some e2 := by
              rw [T.escrows', key]; exact (AMap.get?_set _ _ _ _).trans (if_pos rfl)
            rw [he'] at t2; cases t2
            have hpart : part .deposit (ofEscrow k) ⟨run w0 ops, .ix tx (.deposit x), rc, w'⟩ =
                volume .deposit ⟨run w0 ops, .ix tx (.deposit x), rc, w'⟩ := by
              rw [part_some (K := .deposit) (a := x.presale) (k := x.escrow) rfl, if_pos (by simp [ofEscrow, key])]
              rfl
            have hone : isPayment k ⟨run w0 ops, .ix tx (.deposit x), rc, w'⟩ = true := decide_eq_true key
            rw [hpart, if_pos hone]
            rw [F.escrow] at hv ⊢
            have hv' : e.totalDeposit + d.amount + (e.totalDepositFee + d.fees.fee) + 0 =
              e.totalDeposit + e.totalDepositFee +
                volume .deposit ⟨run w0 ops, .ix tx (.deposit x), rc, w'⟩ := hv
            have hV : volume .deposit ⟨run w0 ops, .ix tx (.deposit x), rc, w'⟩ = d.amount + d.fees.fee := by omega
            obtain ⟨c1, c2, -⟩ := C07_fee_law F.fees
            have c3 := c2.2
            rw [c1, ← hb] at c3
            rw [hV]
            exact one_more hle c3
          | withdraw _ _ _ F =>
            cases hq
            exact kept p hp I.presale I.index (by rw [F.escrow]; rfl)
          | refreshed => cases hq; exact kept p hp rfl rfl rfl
          | claimed => cases hq; exact kept p hp rfl rfl rfl
          | refunded => cases hq; exact kept p hp rfl rfl rfl
          | closed => cases hq

/-- **C119.** Nor does anybody pay more than rounding up makes necessary: after any history the fees of an escrow are at
most the rate of all that was ever paid in for it and less than one unit more for each payment. -/
theorem C119_no_more {w0 : World} (G : Genesis w0) (ops : List Op) {k : Addr} {e : Escrow} {p : Presale} {r : Registry}
    (hk : (run w0 ops).escrows.get? k = some e) (hp : (run w0 ops).presales e.presale = some p)
    (hr : p.registries[e.registryIndex]? = some r) :
    e.totalDepositFee * 10000 ≤
      paidIn k (trace w0 ops) * r.depositFeeBps + 9999 * payments k (trace w0 ops) :=
  not_dear G ops k e p r hk hp hr

namespace Ex

/-- An oversubscribed sale with a fee of 2%: 1400 deposited in three payments, one of them partly taken back. -/
def rateOps : List Op :=
  [init 1 0 0 reg1, .tick 10, open' alice, open' bob, deposit alice aliceQuote 333, deposit alice aliceQuote 267,
   deposit bob bobQuote 900, withdraw alice aliceQuote 100, .tick 1000]

/-- Alice has 500 deposited and paid 13 in fees; a single deposit of 500 costs 11. The registry keeps 23 on 1000. -/
example : (((run genesis rateOps).escrows.get? (escrowOf alice)).map fun e => (e.totalDeposit, e.totalDepositFee)) =
      some (500, 13) ∧
    has (run genesis rateOps) (fun p => p.registries.map (fun r => (r.depositFeeBps,
      r.totalDeposit - registrySurplus p r, r.totalDepositFee - registryFeeRefund p r)) =
        [(200, 1000, 23), (0, 0, 0), (0, 0, 0), (0, 0, 0), (0, 0, 0)]) = true := by decide +kernel

/-- 613 were paid in for her in two payments: at most 14 in fees. -/
example : paidIn (escrowOf alice) (trace genesis rateOps) = 613 ∧
    payments (escrowOf alice) (trace genesis rateOps) = 2 := by decide +kernel

theorem oneCharge_500 : OneCharge 200 500 11 := by
  refine ⟨by unfold IsCeilDiv; omega, fun f gross h1 h2 => ?_⟩
  unfold IsCeilDiv at h1
  omega

end Ex

end Verif
