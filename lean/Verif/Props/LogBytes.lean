import Verif.Props.Told
import Verif.Props.Events
import Verif.Props.Donate
/-!
# C120: the bytes of the log determine the totals

C60 folds events, C78 reads one event from its bytes. Here an observer is given only byte strings, the data of the
self-calls of a whole history in order, and reads them by `SpecTold.lean`.
-/

namespace Verif
open Spec

/-- The data of the program's self-calls in a history. -/
def logBytes (K : Keys) (w : World) (ops : List Op) : List Bytes :=
  (log (trace w ops)).map fun e => encodeEvent K e.record

/-- Steps of the environment emit nothing. -/
theorem emits_ix {w w' : World} {op : Op} {rc : Receipt} (h : step w op = .ok (w', rc)) {e : Event}
    (he : rc.event = some e) : ∃ tx i, op = .ix tx i := by
  cases op with
  | ix tx i => exact ⟨tx, i, rfl⟩
  | tick n => cases h; cases he
  | setTok a t =>
    simp only [step, bind_eq_ok] at h
    obtain ⟨_, _, _, _, h⟩ := h
    cases h; cases he
  | donate v n =>
    simp only [step, bind_eq_ok] at h
    obtain ⟨_, _, _, _, h⟩ := h
    cases h; cases he
  | freezeVault v b =>
    simp only [step, bind_eq_ok] at h
    obtain ⟨_, _, h⟩ := h
    cases h; cases he
  | setMint a m =>
    simp only [step, bind_eq_ok] at h
    obtain ⟨_, _, _, _, h⟩ := h
    cases h; cases he

theorem told_aux (K : Keys) (ops : List Op) : ∀ {w : World}, Reachable w → (run w ops).clock < (2 : Int) ^ 64 →
    (∀ e ∈ log (trace w ops), ∀ a ∈ Mentions e, K.known a) →
    ∀ e ∈ log (trace w ops), ∀ rest e', Tells K (encodeEvent K e.record ++ rest) e' ↔ e' = e := by
  induction ops with
  | nil => intro w _ _ _ e he; cases he
  | cons op ops ih =>
    intro w R hc hk
    cases h : step w op with
    | error x =>
      rw [run_error h] at hc
      rw [trace_error h] at hk ⊢
      exact ih R hc hk
    | ok y =>
      obtain ⟨w', rc⟩ := y
      have hw : w.clock ≤ (run w (op :: ops)).clock := run_clock R.winv _
      rw [run_ok h] at hc
      rw [trace_ok h] at hk ⊢
      rw [run_ok h] at hw
      cases hev : rc.event with
      | none =>
        have : log (⟨w, op, rc, w'⟩ :: trace w' ops) = log (trace w' ops) := by
          unfold log; exact List.filterMap_cons_none hev
        rw [this] at hk ⊢
        exact ih (R.step h) hc hk
      | some x =>
        have : log (⟨w, op, rc, w'⟩ :: trace w' ops) = x :: log (trace w' ops) := by
          unfold log; exact List.filterMap_cons_some hev
        rw [this] at hk ⊢
        intro e he rest e'
        rcases List.mem_cons.1 he with rfl | he
        · obtain ⟨tx, i, rfl⟩ := emits_ix h hev
          exact C78_told R (by omega) h hev (hk _ (.head _)) rest e'
        · exact ih (R.step h) hc (fun e he => hk e (.tail _ he)) e he rest e'

theorem forall_told {K : Keys} : ∀ (l : List Event),
    (∀ e ∈ l, ∀ rest e', Tells K (encodeEvent K e.record ++ rest) e' ↔ e' = e) → ∀ es,
    (List.Forall₂ (Tells K) (l.map fun e => encodeEvent K e.record) es ↔ es = l)
  | [], _, es => by simp
  | x :: l, h, es => by
    have hx := h x (.head _) []
    rw [List.append_nil] at hx
    constructor
    · intro g
      cases g with
      | cons g1 g2 =>
        rw [(hx _).1 g1, (forall_told l (fun e he => h e (.tail _ he)) _).1 g2]
    · rintro rfl
      exact .cons ((hx x).2 rfl) ((forall_told l (fun e he => h e (.tail _ he)) l).2 rfl)

/-- **C120.** From the byte strings of a whole history an observer reads exactly the events emitted, in their order. -/
theorem C120_log {w0 : World} (G : Genesis w0) (ops : List Op) (hclock : (run w0 ops).clock < (2 : Int) ^ 64) {K : Keys}
    (hk : ∀ e ∈ log (trace w0 ops), ∀ a ∈ Mentions e, K.known a) (es : List Event) :
    List.Forall₂ (Tells K) (logBytes K w0 ops) es ↔ es = log (trace w0 ops) :=
  forall_told _ (told_aux K ops G.reachable hclock hk) es

/-- **C120.** So whoever has read the byte strings of a whole history knows the totals of every sale. -/
theorem C120_sale {w0 : World} (G : Genesis w0) (ops : List Op) (hclock : (run w0 ops).clock < (2 : Int) ^ 64) {K : Keys}
    (hk : ∀ e ∈ log (trace w0 ops), ∀ a ∈ Mentions e, K.known a) {es : List Event}
    (read : List.Forall₂ (Tells K) (logBytes K w0 ops) es) {a : Addr} {p : Presale}
    (hp : (run w0 ops).presales a = some p) :
    let s := es.foldl (SaleView.read a) {}
    s.deposits = p.totalDeposit ∧ s.fees = p.totalDepositFee ∧ s.escrows = p.totalEscrow ∧
    s.claimed = p.totalClaimedToken ∧ s.refunded = p.totalRefundedQuoteToken ∧
    (s.creatorPaid = true ↔ p.hasCreatorWithdrawn ≠ 0) ∧ (s.feesPaid = true ↔ p.depositFeeCollected ≠ 0) ∧
    (s.unsoldDone = true ↔ p.isUnsoldTokenActionPerformed ≠ 0) := by
  rw [(C120_log G ops hclock hk es).1 read]
  exact C60_log_sale G ops hp

/-- **C120.** And those of every escrow. -/
theorem C120_escrow {w0 : World} (G : Genesis w0) (ops : List Op) (hclock : (run w0 ops).clock < (2 : Int) ^ 64)
    {K : Keys} (hk : ∀ e ∈ log (trace w0 ops), ∀ a ∈ Mentions e, K.known a) {es : List Event}
    (read : List.Forall₂ (Tells K) (logBytes K w0 ops) es) {k : Addr} {e : Escrow}
    (he : (run w0 ops).escrows.get? k = some e) :
    let s := es.foldl (EscrowView.read k) {}
    s.deposits = e.totalDeposit ∧ s.fees = e.totalDepositFee ∧ s.claimed = e.totalClaimedToken ∧
    s.pending = e.pendingClaimToken ∧ (s.refundTaken = true ↔ e.isRemainingQuoteWithdrawn ≠ 0) := by
  rw [(C120_log G ops hclock hk es).1 read]
  exact C60_log_escrow G ops he

/-- **C120.** Two histories with the same byte strings, from whatever beginnings and through whatever other steps,
agree on the totals of every sale that exists in both. -/
theorem C120_same {w₁ w₂ : World} (G₁ : Genesis w₁) (G₂ : Genesis w₂) (ops₁ ops₂ : List Op)
    (c₁ : (run w₁ ops₁).clock < (2 : Int) ^ 64) (c₂ : (run w₂ ops₂).clock < (2 : Int) ^ 64) {K : Keys}
    (hk₁ : ∀ e ∈ log (trace w₁ ops₁), ∀ a ∈ Mentions e, K.known a)
    (hk₂ : ∀ e ∈ log (trace w₂ ops₂), ∀ a ∈ Mentions e, K.known a) (same : logBytes K w₁ ops₁ = logBytes K w₂ ops₂)
    {a : Addr} {p₁ p₂ : Presale} (h₁ : (run w₁ ops₁).presales a = some p₁) (h₂ : (run w₂ ops₂).presales a = some p₂) :
    p₁.totalDeposit = p₂.totalDeposit ∧ p₁.totalDepositFee = p₂.totalDepositFee ∧ p₁.totalEscrow = p₂.totalEscrow ∧
    p₁.totalClaimedToken = p₂.totalClaimedToken ∧ p₁.totalRefundedQuoteToken = p₂.totalRefundedQuoteToken ∧
    (p₁.hasCreatorWithdrawn ≠ 0 ↔ p₂.hasCreatorWithdrawn ≠ 0) ∧
    (p₁.depositFeeCollected ≠ 0 ↔ p₂.depositFeeCollected ≠ 0) ∧
    (p₁.isUnsoldTokenActionPerformed ≠ 0 ↔ p₂.isUnsoldTokenActionPerformed ≠ 0) := by
  have r₁ := (C120_log G₁ ops₁ c₁ hk₁ _).2 rfl
  have r₂ := r₁
  rw [same] at r₂
  obtain ⟨a1, a2, a3, a4, a5, a6, a7, a8⟩ := C120_sale G₁ ops₁ c₁ hk₁ r₁ h₁
  obtain ⟨b1, b2, b3, b4, b5, b6, b7, b8⟩ := C120_sale G₂ ops₂ c₂ hk₂ r₂ h₂
  exact ⟨a1.symm.trans b1, a2.symm.trans b2, a3.symm.trans b3, a4.symm.trans b4, a5.symm.trans b5, a6.symm.trans b6,
    a7.symm.trans b7, a8.symm.trans b8⟩

/-- **C120.** The same for every escrow that is open in both. -/
theorem C120_same_escrow {w₁ w₂ : World} (G₁ : Genesis w₁) (G₂ : Genesis w₂) (ops₁ ops₂ : List Op)
    (c₁ : (run w₁ ops₁).clock < (2 : Int) ^ 64) (c₂ : (run w₂ ops₂).clock < (2 : Int) ^ 64) {K : Keys}
    (hk₁ : ∀ e ∈ log (trace w₁ ops₁), ∀ a ∈ Mentions e, K.known a)
    (hk₂ : ∀ e ∈ log (trace w₂ ops₂), ∀ a ∈ Mentions e, K.known a) (same : logBytes K w₁ ops₁ = logBytes K w₂ ops₂)
    {k : Addr} {e₁ e₂ : Escrow} (h₁ : (run w₁ ops₁).escrows.get? k = some e₁)
    (h₂ : (run w₂ ops₂).escrows.get? k = some e₂) :
    e₁.totalDeposit = e₂.totalDeposit ∧ e₁.totalDepositFee = e₂.totalDepositFee ∧
    e₁.totalClaimedToken = e₂.totalClaimedToken ∧ e₁.pendingClaimToken = e₂.pendingClaimToken ∧
    (e₁.isRemainingQuoteWithdrawn ≠ 0 ↔ e₂.isRemainingQuoteWithdrawn ≠ 0) := by
  have r₁ := (C120_log G₁ ops₁ c₁ hk₁ _).2 rfl
  have r₂ := r₁
  rw [same] at r₂
  obtain ⟨a1, a2, a3, a4, a5⟩ := C120_escrow G₁ ops₁ c₁ hk₁ r₁ h₁
  obtain ⟨b1, b2, b3, b4, b5⟩ := C120_escrow G₂ ops₂ c₂ hk₂ r₂ h₂
  exact ⟨a1.symm.trans b1, a2.symm.trans b2, a3.symm.trans b3, a4.symm.trans b4, a5.symm.trans b5⟩

/-- **C120.** The calls of the program's own instructions, which an observer finds among the self-calls, tell of no
event. -/
theorem C120_calls (K : Keys) {d : Bytes} {c : Call} (h : decodeCall programSelectors K d = some c) (e : Event) :
    ¬ Tells K d e := by
  rintro ⟨t, _⟩
  have h2 := ((C76_call programSelectors K d c.1 c.2).1 h).1
  rw [t, ← eventTag_eq] at h2
  exact absurd h2.symm (C77_distinct.2.2.2.1 c.1).1

/-! ## Example -/

namespace Ex

/-- The addresses of the example, each with its own byte string. -/
def logKeys : Keys :=
  Keys.ofList [sale, bm, qm, creator, alice, bob, escrowOf alice, escrowOf bob] (by decide +kernel)

/-- A whole sale with sixteen events: the assumptions of C120 hold. -/
example : Genesis genesis ∧ (run genesis fullOps).clock < (2 : Int) ^ 64 ∧
    ∀ e ∈ log (trace genesis fullOps), ∀ a ∈ Mentions e, logKeys.known a :=
  ⟨genesis_ok, by decide +kernel, by decide +kernel⟩

/-- The fourth byte string tells of a deposit. -/
example : (logBytes logKeys genesis fullOps).length = 16 ∧
    ((logBytes logKeys genesis fullOps)[3]?.bind fun d => eventAt logKeys d .deposit) = (log (trace genesis fullOps))[3]? := by
  decide +kernel

end Ex

end Verif
