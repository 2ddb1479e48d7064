import Verif.Lemmas.Donate
import Verif.Props.Fairness
/-!
# C92: tokens sent straight to a vault influence nothing
-/

namespace Verif
open Spec

theorem Spec.SameBut.symm {d : Addr → Int} {w1 w2 : World} (S : SameBut d w1 w2) :
    SameBut (fun a => - d a) w2 w1 := by
  refine ⟨?_, S.mints.symm, ?_, ?_, ?_⟩
  · have h := S.rest
    cases w1
    cases w2
    simp only [World.mk.injEq] at h ⊢
    obtain ⟨h1, h2, h3, h4, h5, h6, h7, h8, _⟩ := h
    exact ⟨h1.symm, h2.symm, h3.symm, h4.symm, h5.symm, h6.symm, h7.symm, h8.symm, trivial⟩
  · intro a h
    cases e : w1.tk.toks a with
    | none => rfl
    | some t => obtain ⟨n, _, e2⟩ := S.some_ a t e; rw [h] at e2; cases e2
  · intro a t h
    cases e : w1.tk.toks a with
    | none => rw [S.none_ a e] at h; cases h
    | some t1 =>
      obtain ⟨n, hn, e2⟩ := S.some_ a t1 e
      rw [h] at e2
      cases e2
      exact ⟨t1.amount, by simp only [holding]; omega, rfl⟩
  · intro a h
    obtain ⟨h1, h2⟩ := S.only a (by omega)
    refine ⟨h1, ?_⟩
    cases e : w1.tk.toks a with
    | none => exact absurd e h2
    | some t => obtain ⟨n, _, e2⟩ := S.some_ a t e; rw [e2]; simp

theorem Spec.SameBut.refl (w : World) : SameBut (fun _ => 0) w w :=
  ⟨rfl, rfl, fun _ h => h, fun _ t h => ⟨t.amount, by omega, h⟩, fun _ h => absurd rfl h⟩

/-- **C92, one step.** Take two reachable ledgers that differ only in vault balances. A step that succeeds in the
first succeeds in the second, with the same event and the same token-program calls, unless a vault balance would
exceed 64 bits there; afterwards the ledgers differ exactly as before. -/
theorem C92_step {d : Addr → Int} {w1 w2 w1' : World} {op : Op} {rc : Receipt} (R : Reachable w2)
    (S : SameBut d w1 w2) (h : step w1 op = .ok (w1', rc))
    (room : ∀ a t, w1'.tk.toks a = some t → (t.amount : Int) + d a < 2 ^ 64) :
    ∃ w2', step w2 op = .ok (w2', rc) ∧ SameBut d w1' w2' := by
  have e := S.eq
  have R' := R
  rw [e] at R'
  obtain ⟨k', h1, h2⟩ := same_step R' S.toks h (by
    intro a t ht; have := room a t ht; unfold u64Bound; omega)
  rw [e]
  exact ⟨_, h1, h2.but⟩

/-- One step with fewer tokens in the vaults: no room is needed. -/
theorem fewer_step {d : Addr → Nat} {w1 w2 w2' : World} {op : Op} {rc : Receipt} (R1 : Reachable w1) (R2 : Reachable w2)
    (S : SameBut (fun a => d a) w1 w2) (h : step w2 op = .ok (w2', rc)) :
    ∃ w1', step w1 op = .ok (w1', rc) ∧ SameBut (fun a => d a) w1' w2' := by
  obtain ⟨w1', h1, h2⟩ := C92_step R1 S.symm h (by
    intro a t ht
    have := (R2.step h).winv.core.amounts a t ht
    unfold u64Bound at this
    omega)
  refine ⟨w1', h1, ?_⟩
  have := h2.symm
  simpa only [Int.neg_neg] using this

theorem not_gift_sent {op : Op} (h : Gift op = false) (a : Addr) : sent a op = 0 := by
  cases op <;> simp_all [Gift, sent]

theorem gift_eq {op : Op} (h : Gift op = true) : ∃ v n, op = .donate v n ∧ v.isVault = true := by
  cases op <;> simp_all [Gift]

/-- A gift adds to the difference. -/
theorem gift_step {d : Addr → Nat} {w1 w2 w2' : World} {v : Addr} {n : Nat} {rc : Receipt} (hv : v.isVault = true)
    (S : SameBut (fun a => d a) w1 w2) (h : step w2 (.donate v n) = .ok (w2', rc)) :
    SameBut (fun a => ((d a + sent a (.donate v n) : Nat) : Int)) w1 w2' := by
  simp only [Verif.step, bind_eq_ok, load_eq_ok, require_eq_ok, pure_eq_ok, exists_const, Prod.mk.injEq] at h
  obtain ⟨t, h1, _, rfl, _⟩ := h
  have hex : w1.tk.toks v ≠ none := by
    intro h0; rw [S.none_ v h0] at h1; cases h1
  refine ⟨S.rest, S.mints, ?_, ?_, ?_⟩
  · intro a ha
    simp only
    have : a ≠ v := by rintro rfl; exact hex ha
    rw [upd_other _ _ this]; exact S.none_ a ha
  · intro a t1 ha
    obtain ⟨m, hm, e⟩ := S.some_ a t1 ha
    simp only
    by_cases hav : a = v
    · subst hav
      rw [e] at h1
      cases h1
      refine ⟨m + n, ?_, by rw [upd_self]; rfl⟩
      simp only [sent, hv, and_self, if_true]
      omega
    · refine ⟨m, ?_, by rw [upd_other _ _ hav]; exact e⟩
      have : sent a (.donate v n) = 0 := if_neg (fun h => hav h.1.symm)
      rw [this]; omega
  · intro a ha
    by_cases hav : a = v
    · subst hav; exact ⟨hv, hex⟩
    · have : sent a (.donate v n) = 0 := if_neg (fun h => hav h.1.symm)
      rw [this] at ha
      exact S.only a (by omega)

theorem run_ok {w w' : World} {op : Op} {rc : Receipt} (h : step w op = .ok (w', rc)) (ops : List Op) :
    run w (op :: ops) = run w' ops := by
  simp only [run, Verif.apply, h]

theorem run_error {w : World} {op : Op} {e : Err} (h : step w op = .error e) (ops : List Op) :
    run w (op :: ops) = run w ops := by
  simp only [run, Verif.apply, h]

theorem trace_ok {w w' : World} {op : Op} {rc : Receipt} (h : step w op = .ok (w', rc)) (ops : List Op) :
    trace w (op :: ops) = ⟨w, op, rc, w'⟩ :: trace w' ops := by
  simp only [trace, h]

theorem trace_error {w : World} {op : Op} {e : Err} (h : step w op = .error e) (ops : List Op) :
    trace w (op :: ops) = trace w ops := by
  simp only [trace, h]

theorem sameBut_congr {d e : Addr → Int} {w1 w2 : World} (S : SameBut d w1 w2) (h : ∀ a, e a = d a) :
    SameBut e w1 w2 := by
  have : e = d := funext h
  rw [this]; exact S

theorem without_aux {d : Addr → Nat} {w1 w2 : World} (R1 : Reachable w1) (R2 : Reachable w2)
    (S : SameBut (fun a => d a) w1 w2) (ops : List Op) :
    happened (trace w1 ((withoutGifts (trace w2 ops)).map (·.op))) = happened (withoutGifts (trace w2 ops)) ∧
    SameBut (fun a => ((d a + given (trace w2 ops) a : Nat) : Int))
      (run w1 ((withoutGifts (trace w2 ops)).map (·.op))) (run w2 ops) := by
  induction ops generalizing d w1 w2 with
  | nil => exact ⟨rfl, S⟩
  | cons op ops ih =>
    cases hs : step w2 op with
    | error e =>
      rw [trace_error hs, run_error hs]
      exact ih R1 R2 S
    | ok x =>
      obtain ⟨w2', rc⟩ := x
      rw [trace_ok hs, run_ok hs]
      cases hg : Gift op with
      | true =>
        obtain ⟨v, n, rfl, hv⟩ := gift_eq hg
        have h1 : withoutGifts (⟨w2, .donate v n, rc, w2'⟩ :: trace w2' ops) = withoutGifts (trace w2' ops) := by
          unfold withoutGifts
          rw [List.filter_cons_of_neg (by simp [hg])]
        obtain ⟨i1, i2⟩ := ih R1 (R2.step hs) (gift_step hv S hs)
        rw [h1]
        refine ⟨i1, sameBut_congr i2 ?_⟩
        intro a
        simp only [given, List.map_cons, List.sum_cons]
        omega
      | false =>
        obtain ⟨w1', g1, g2⟩ := fewer_step R1 R2 S hs
        have h1 : withoutGifts (⟨w2, op, rc, w2'⟩ :: trace w2' ops) =
            ⟨w2, op, rc, w2'⟩ :: withoutGifts (trace w2' ops) := by
          unfold withoutGifts
          rw [List.filter_cons_of_pos (by simp [hg])]
        obtain ⟨i1, i2⟩ := ih (R1.step g1) (R2.step hs) g2
        rw [h1, List.map_cons, trace_ok g1, run_ok g1]
        refine ⟨?_, sameBut_congr i2 ?_⟩
        · simp only [happened, List.map_cons] at i1 ⊢
          rw [i1]
        · intro a
          simp only [given, List.map_cons, List.sum_cons, not_gift_sent hg]
          omega

/-- **C92, undone.** Strike all gifts to vaults from what happened: the remaining operations all succeed again, with
the same events and the same token-program calls, and the resulting ledger differs only in the vault balances, by
exactly what was given. -/
theorem C92_without {w : World} (R : Reachable w) (ops : List Op) :
    happened (trace w ((withoutGifts (trace w ops)).map (·.op))) = happened (withoutGifts (trace w ops)) ∧
    SameBut (fun a => given (trace w ops) a) (run w ((withoutGifts (trace w ops)).map (·.op))) (run w ops) := by
  obtain ⟨h1, h2⟩ := without_aux (d := fun _ => 0) R R (SameBut.refl w) ops
  exact ⟨h1, sameBut_congr h2 (fun a => by simp only [Nat.zero_add])⟩

theorem kept_world {w : World} (R : Reachable w) (ops : List Op) :
    ∃ w', Reachable w' ∧ w'.presales = (run w ops).presales ∧ w'.escrows = (run w ops).escrows ∧
      w'.clock = (run w ops).clock ∧ ∀ a t', w'.tk.toks a = some t' →
        (run w ops).tk.toks a = some (holding t' (t'.amount + given (trace w ops) a)) := by
  obtain ⟨_, S⟩ := C92_without R ops
  have hr := S.rest
  refine ⟨run w ((withoutGifts (trace w ops)).map (·.op)), R.run _, ?_, ?_, ?_, ?_⟩
  · rw [← hr]
  · rw [← hr]
  · rw [← hr]
  · intro a t' e
    obtain ⟨n, hn, e2⟩ := S.some_ a t' e
    have : n = t'.amount + given (trace w ops) a := by omega
    rw [← this]; exact e2

/-- **C92, kept.** Whatever was sent straight to the vaults of a sale stays there for ever, on top of everything that
is still owed: nobody can take it out, not even the creator. -/
theorem C92_kept {w : World} (R : Reachable w) (ops : List Op) {a : Addr} {p : Presale}
    (hp : (run w ops).presales a = some p) :
    ∃ q b, (run w ops).tk.toks (.quoteVault a) = some q ∧ (run w ops).tk.toks (.baseVault a) = some b ∧
      given (trace w ops) (.quoteVault a) ≤ q.amount ∧ given (trace w ops) (.baseVault a) ≤ b.amount ∧
      (¬ Over p (run w ops).clock →
        p.totalDeposit + p.totalDepositFee + given (trace w ops) (.quoteVault a) ≤ q.amount ∧
        p.presaleSupply + given (trace w ops) (.baseVault a) ≤ b.amount) ∧
      (Failed p (run w ops).clock →
        saleSum (run w ops).escrows a (fun e => if e.isRemainingQuoteWithdrawn = 1 then 0
          else e.totalDeposit + e.totalDepositFee) + given (trace w ops) (.quoteVault a) ≤ q.amount) ∧
      (Completed p (run w ops).clock →
        (if p.hasCreatorWithdrawn = 1 then 0 else raise p) +
          (if p.depositFeeCollected = 1 then 0 else collectableFee p) +
          saleSum (run w ops).escrows a (refundDue p) + given (trace w ops) (.quoteVault a) ≤ q.amount ∧
        (if p.isUnsoldTokenActionPerformed = 1 then 0 else p.presaleSupply - totalSold p) +
          saleSum (run w ops).escrows a (claimDue p) + given (trace w ops) (.baseVault a) ≤ b.amount) := by
  obtain ⟨w', R', e1, e2, e3, hk⟩ := kept_world R ops
  rw [← e1] at hp
  rw [← e2, ← e3]
  obtain ⟨q, hq, _, _, _, q1, q2, q3⟩ := C01_quote_solvent R' hp
  obtain ⟨b, hb, _, _, _, b1, _, b3⟩ := C02_base_solvent R' hp
  refine ⟨_, _, hk _ _ hq, hk _ _ hb, ?_, ?_, ?_, ?_, ?_⟩
  · exact Nat.le_add_left _ _
  · exact Nat.le_add_left _ _
  · intro h
    exact ⟨Nat.add_le_add_right (q1 h) _, Nat.add_le_add_right (b1 h) _⟩
  · intro h
    exact Nat.add_le_add_right (q2 h) _
  · intro h
    exact ⟨Nat.add_le_add_right (q3 h) _, Nat.add_le_add_right (b3 h) _⟩

theorem with_aux {B d : Addr → Nat} {w1 w2 : World} (R1 : Reachable w1) (R2 : Reachable w2)
    (S : SameBut (fun a => d a) w1 w2) (ops : List Op) (hB : ∀ a, d a + pushed ops a ≤ B a)
    (room : ∀ l, l <+: ops → ∀ a t, (run w1 (l.filter fun o => !Gift o)).tk.toks a = some t → t.amount + B a < 2 ^ 64) :
    happened (withoutGifts (trace w2 ops)) = happened (trace w1 (ops.filter fun o => !Gift o)) ∧
    SameBut (fun a => ((d a + given (trace w2 ops) a : Nat) : Int)) (run w1 (ops.filter fun o => !Gift o))
      (run w2 ops) := by
  induction ops generalizing d w1 w2 with
  | nil => exact ⟨rfl, S⟩
  | cons op ops ih =>
    have hpush : ∀ a, pushed (op :: ops) a = sent a op + pushed ops a := by
      intro a; simp only [pushed, List.map_cons, List.sum_cons]
    cases hg : Gift op with
    | true =>
      obtain ⟨v, n, rfl, hv⟩ := gift_eq hg
      rw [List.filter_cons_of_neg (by simp [hg])]
      have hroom : ∀ l, l <+: ops → ∀ a t, (run w1 (l.filter fun o => !Gift o)).tk.toks a = some t →
          t.amount + B a < 2 ^ 64 := by
        intro l hl a t ht
        refine room (.donate v n :: l) ((List.prefix_cons_inj _).2 hl) a t ?_
        rw [List.filter_cons_of_neg (by simp [hg])]
        exact ht
      cases hs : step w2 (.donate v n) with
      | error e =>
        rw [trace_error hs, run_error hs]
        exact ih R1 R2 S (fun a => by have := hB a; rw [hpush] at this; omega) hroom
      | ok x =>
        obtain ⟨w2', rc⟩ := x
        rw [trace_ok hs, run_ok hs]
        have h1 : withoutGifts (⟨w2, .donate v n, rc, w2'⟩ :: trace w2' ops) = withoutGifts (trace w2' ops) := by
          unfold withoutGifts
          rw [List.filter_cons_of_neg (by simp [hg])]
        obtain ⟨i1, i2⟩ := ih R1 (R2.step hs) (gift_step hv S hs)
          (fun a => by have := hB a; rw [hpush] at this; omega) hroom
        rw [h1]
        refine ⟨i1, sameBut_congr i2 ?_⟩
        intro a
        simp only [given, List.map_cons, List.sum_cons]
        omega
    | false =>
      rw [List.filter_cons_of_pos (by simp [hg])]
      have hB' : ∀ a, d a + pushed ops a ≤ B a := by
        intro a; have := hB a; rw [hpush] at this; omega
      cases hs : step w1 op with
      | error e =>
        have h2 : ∃ e', step w2 op = .error e' := by
          cases hs2 : step w2 op with
          | error e' => exact ⟨e', rfl⟩
          | ok x =>
            obtain ⟨w1', g, _⟩ := fewer_step R1 R2 S hs2
            rw [hs] at g; cases g
        obtain ⟨e', h2⟩ := h2
        rw [trace_error h2, run_error h2, trace_error hs, run_error hs]
        refine ih R1 R2 S hB' ?_
        intro l hl a t ht
        refine room (op :: l) ((List.prefix_cons_inj _).2 hl) a t ?_
        rw [List.filter_cons_of_pos (by simp [hg]), run_error hs]
        exact ht
      | ok x =>
        obtain ⟨w1', rc⟩ := x
        have hroom : ∀ l, l <+: ops → ∀ a t, (run w1' (l.filter fun o => !Gift o)).tk.toks a = some t →
            t.amount + B a < 2 ^ 64 := by
          intro l hl a t ht
          refine room (op :: l) ((List.prefix_cons_inj _).2 hl) a t ?_
          rw [List.filter_cons_of_pos (by simp [hg]), run_ok hs]
          exact ht
        obtain ⟨w2', g1, g2⟩ := C92_step R2 S hs (by
          intro a t ht
          have h1 := hroom [] List.nil_prefix a t ht
          have h2 := hB' a
          have h3 : (2 : Int) ^ 64 = ((2 ^ 64 : Nat) : Int) := by norm_num
          rw [h3]
          omega)
        rw [trace_ok g1, run_ok g1, trace_ok hs, run_ok hs]
        have h1 : withoutGifts (⟨w2, op, rc, w2'⟩ :: trace w2' ops) =
            ⟨w2, op, rc, w2'⟩ :: withoutGifts (trace w2' ops) := by
          unfold withoutGifts
          rw [List.filter_cons_of_pos (by simp [hg])]
        obtain ⟨i1, i2⟩ := ih (R1.step hs) (R2.step g1) g2 hB' hroom
        rw [h1]
        refine ⟨?_, sameBut_congr i2 ?_⟩
        · simp only [happened, List.map_cons] at i1 ⊢
          rw [i1]
        · intro a
          simp only [given, List.map_cons, List.sum_cons, not_gift_sent hg]
          omega

/-- **C92, done.** Conversely, scatter gifts to vaults over any history, as many as keep every vault within 64 bits:
every other operation succeeds or fails as it did, with the same events and token-program calls. -/
theorem C92_with {w : World} (R : Reachable w) (ops : List Op)
    (room : ∀ l, l <+: ops → ∀ a t, (run w (l.filter fun o => !Gift o)).tk.toks a = some t →
      t.amount + pushed ops a < 2 ^ 64) :
    happened (withoutGifts (trace w ops)) = happened (trace w (ops.filter fun o => !Gift o)) ∧
    SameBut (fun a => given (trace w ops) a) (run w (ops.filter fun o => !Gift o)) (run w ops) := by
  obtain ⟨h1, h2⟩ := with_aux (B := pushed ops) (d := fun _ => 0) R R (SameBut.refl w) ops
    (fun a => by omega) room
  exact ⟨h1, sameBut_congr h2 (fun a => by simp only [Nat.zero_add])⟩

namespace Ex

/-- Somebody sends 77 quote tokens to the vault before Alice deposits and 5 base tokens before she claims. -/
def giftOps : List Op :=
  [init 1 0 0 reg1, .tick 10, open' alice, .donate (.quoteVault sale) 77, deposit alice aliceQuote 500,
   .donate (.baseVault sale) 5, .tick 1190, claim alice aliceBase]

/-- The checks on a vault for `C92_with`. -/
def roomFor (v : Addr) : Bool :=
  (List.range (giftOps.length + 1)).all fun n =>
    match (run genesis ((giftOps.take n).filter fun o => !Gift o)).tk.toks v with
    | none => true
    | some t => decide (t.amount + pushed giftOps v < 2 ^ 64)

/-- Everything in that history succeeds, and the gifts are counted. -/
example : (trace genesis giftOps).length = 8 ∧ given (trace genesis giftOps) (.quoteVault sale) = 77 ∧
    given (trace genesis giftOps) (.baseVault sale) = 5 ∧ (withoutGifts (trace genesis giftOps)).length = 6 ∧
    (run genesis giftOps).presales sale ≠ none := by decide +kernel

/-- The hypothesis of `C92_with` holds for it. -/
example : ∀ l, l <+: giftOps → ∀ a t, (run genesis (l.filter fun o => !Gift o)).tk.toks a = some t →
    t.amount + pushed giftOps a < 2 ^ 64 := by
  intro l hl a t ht
  have hq : roomFor (.quoteVault sale) = true := by decide +kernel
  have hb : roomFor (.baseVault sale) = true := by decide +kernel
  have hlen := hl.length_le
  have htake := List.prefix_iff_eq_take.1 hl
  simp only [roomFor, List.all_eq_true, List.mem_range] at hq hb
  by_cases h1 : a = .quoteVault sale
  · subst h1
    have := hq l.length (by omega)
    rw [← htake, ht] at this
    simpa using this
  · by_cases h2 : a = .baseVault sale
    · subst h2
      have := hb l.length (by omega)
      rw [← htake, ht] at this
      simpa using this
    · have h0 : pushed giftOps a = 0 := by
        have g1 : (Addr.quoteVault sale = a) = False := eq_false (fun h => h1 h.symm)
        have g2 : (Addr.baseVault sale = a) = False := eq_false (fun h => h2 h.symm)
        simp [pushed, giftOps, sent, g1, g2, init, open', deposit, claim]
      have R : Reachable (run genesis (l.filter fun o => !Gift o)) := ⟨_, _, genesis_ok, rfl⟩
      have := R.winv.core.amounts a t ht
      unfold u64Bound at this
      rw [h0]
      omega

/-- Before Alice deposits. -/
def beforeGift : World := run genesis [init 1 0 0 reg1, .tick 10, open' alice]

end Ex

/-- **C92, the limit.** The only way to disturb a sale is to fill a vault to the brim: with a vault balance next to
2^64 a deposit that was possible is not. No mint can back such a balance and the deposit at once. -/
theorem C92_brim : ∃ w1 w2 : World, ∃ d : Addr → Int, ∃ op : Op, Reachable w1 ∧ Reachable w2 ∧ SameBut d w1 w2 ∧
    (∃ x, step w1 op = .ok x) ∧ ¬ ∃ x, step w2 op = .ok x := by
  have hs : (match step Ex.beforeGift (.donate (.quoteVault Ex.sale) (2 ^ 64 - 1)) with
      | .ok _ => true | .error _ => false) = true := by decide +kernel
  have h1 : (match step Ex.beforeGift (Ex.deposit Ex.alice Ex.aliceQuote 500) with
      | .ok _ => true | .error _ => false) = true := by decide +kernel
  have h2 : (match step (Verif.apply Ex.beforeGift (.donate (.quoteVault Ex.sale) (2 ^ 64 - 1)))
      (Ex.deposit Ex.alice Ex.aliceQuote 500) with
      | .ok _ => true | .error _ => false) = false := by decide +kernel
  have R : Reachable Ex.beforeGift := ⟨_, _, Ex.genesis_ok, rfl⟩
  cases e : step Ex.beforeGift (.donate (.quoteVault Ex.sale) (2 ^ 64 - 1)) with
  | error x => rw [e] at hs; cases hs
  | ok x =>
    obtain ⟨w2, rc⟩ := x
    have S := gift_step (d := fun _ => 0) rfl (SameBut.refl Ex.beforeGift) e
    have ea : Verif.apply Ex.beforeGift (.donate (.quoteVault Ex.sale) (2 ^ 64 - 1)) = w2 := by
      simp only [Verif.apply, e]
    rw [ea] at h2
    refine ⟨_, w2, _, Ex.deposit Ex.alice Ex.aliceQuote 500, R, R.step e, S, ?_, ?_⟩
    · cases g : step Ex.beforeGift (Ex.deposit Ex.alice Ex.aliceQuote 500) with
      | error x => rw [g] at h1; cases h1
      | ok x => exact ⟨x, rfl⟩
    · rintro ⟨x, g⟩
      rw [g] at h2; cases h2

end Verif
