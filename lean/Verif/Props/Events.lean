import Verif.Lemmas.Moves
import Verif.Lemmas.Tally
import Verif.Props.Creation
import Verif.Props.Creator
import Verif.Props.Tally
import Verif.SpecEvents
import Verif.Examples
/-!
# Events tell the truth (C59) and the log determines the state (C60)
-/

namespace Verif
open Spec

/-! ## C60: the log determines the counters -/

/-- The part of a sale's state a reader of the log can know. -/
def Spec.SaleView.of (p : Presale) : SaleView :=
  { deposits := p.totalDeposit, fees := p.totalDepositFee, escrows := p.totalEscrow,
    claimed := p.totalClaimedToken, refunded := p.totalRefundedQuoteToken,
    creatorPaid := decide (p.hasCreatorWithdrawn ≠ 0), feesPaid := decide (p.depositFeeCollected ≠ 0),
    unsoldDone := decide (p.isUnsoldTokenActionPerformed ≠ 0) }

/-- The part of an escrow's state a reader of the log can know. -/
def Spec.EscrowView.of (e : Escrow) : EscrowView :=
  { deposits := e.totalDeposit, fees := e.totalDepositFee, claimed := e.totalClaimedToken,
    pending := e.pendingClaimToken, refundTaken := decide (e.isRemainingQuoteWithdrawn ≠ 0) }

/-- A missing sale is seen as an empty one. -/
def saleSeen (w : World) (a : Addr) : SaleView := ((w.presales a).map SaleView.of).getD {}

/-- A missing escrow is seen as an empty one. -/
def escrowSeen (w : World) (k : Addr) : EscrowView := ((w.escrows.get? k).map EscrowView.of).getD {}

theorem saleSeen_same {w w' : World} {a : Addr} (h : w'.presales = w.presales) : saleSeen w' a = saleSeen w a := by
  unfold saleSeen; rw [h]

theorem escrowSeen_same {w w' : World} {k : Addr} (h : w'.escrows = w.escrows) :
    escrowSeen w' k = escrowSeen w k := by
  unfold escrowSeen; rw [h]

/-- Both views after a step that wrote sale `b` and escrow `k0`. -/
theorem saleSeen_upd {w w' : World} {a b : Addr} {p' : Presale} (h : w'.presales = upd w.presales b (some p')) :
    saleSeen w' a = if b = a then SaleView.of p' else saleSeen w a := by
  unfold saleSeen
  rw [h, upd_apply]
  by_cases hb : b = a
  · subst hb; simp
  · rw [if_neg (Ne.symm hb), if_neg hb]

theorem escrowSeen_set {w w' : World} {k k0 : Addr} {e' : Escrow} (h : w'.escrows = w.escrows.set k0 e') :
    escrowSeen w' k = if k0 = k then EscrowView.of e' else escrowSeen w k := by
  unfold escrowSeen
  rw [h, AMap.get?_set]
  by_cases hb : k0 = k
  · subst hb; simp
  · rw [if_neg (Ne.symm hb), if_neg hb]

theorem saleSeen_some {w : World} {a : Addr} {p : Presale} (h : w.presales a = some p) :
    saleSeen w a = SaleView.of p := by
  unfold saleSeen; rw [h]; rfl

theorem escrowSeen_some {w : World} {k : Addr} {e : Escrow} (h : w.escrows.get? k = some e) :
    escrowSeen w k = EscrowView.of e := by
  unfold escrowSeen; rw [h]; rfl

/-- The reader's knowledge after the event of a receipt. -/
def SaleView.after (s : SaleView) (a : Addr) (rc : Receipt) : SaleView :=
  match rc.event with
  | some ev => SaleView.read a s ev
  | none => s

def EscrowView.after (s : EscrowView) (k : Addr) (rc : Receipt) : EscrowView :=
  match rc.event with
  | some ev => EscrowView.read k s ev
  | none => s

theorem updatePending_accrued {h : Handler} {p : Presale} {e e1 : Escrow} {t : Nat}
    (hu : h.updatePendingClaimAmount p e t = .ok e1) : ∃ c, e.totalClaimedToken + e.pendingClaimToken ≤ c ∧
      e1 = e.accrued c t := by
  simp only [Handler.updatePendingClaimAmount, bind_eq_ok] at hu
  obtain ⟨c, _, hu⟩ := hu
  obtain ⟨_, h2, _, h4⟩ := accrue_iff.1 hu
  exact ⟨c, h2, h4⟩

theorem refreshed_accrued {p : Presale} {e e1 : Escrow} {t : Nat} (hu : refreshed p e t = .ok e1) :
    e1 = e ∨ ∃ c, e.totalClaimedToken + e.pendingClaimToken ≤ c ∧ e1 = e.accrued c t := by
  unfold refreshed at hu
  split at hu
  · simp only [bind_eq_ok] at hu
    obtain ⟨h, _, hu⟩ := hu
    exact .inr (updatePending_accrued hu)
  · cases hu; exact .inl rfl

theorem createEscrow_seen {w w' : World} {p p' : Presale} {key owner : Addr} {i : Nat} {cap? : Option Nat}
    {rc : Receipt} {r : Registry} (hp : w.presales key = some p)
    (F : CreateEscrowFacts w p key owner i cap? w' rc r p') (a k : Addr) :
    saleSeen w' a = SaleView.after (saleSeen w a) a rc ∧ escrowSeen w' k = EscrowView.after (escrowSeen w k) k rc := by
  obtain ⟨r0, _, _, _, hp'⟩ := increaseEscrowCount_iff.1 F.update
  constructor
  · rw [saleSeen_upd (w := w) (by rw [F.post]), F.receipt]
    simp only [SaleView.after, SaleView.read]
    by_cases hb : key = a
    · subst hb
      simp only [if_true, saleSeen_some hp, hp']
      rfl
    · simp only [if_neg hb]
  · rw [escrowSeen_set (w := w) (by rw [F.post]), F.receipt]
    show _ = escrowSeen w k
    by_cases hb : Addr.escrow key owner i = k
    · subst hb
      rw [if_pos rfl]
      unfold escrowSeen
      rw [F.fresh]; rfl
    · rw [if_neg hb]


theorem seen_sale {w w' : World} {a b : Addr} {p p' : Presale} {rc : Receipt} {ev : Event}
    (hp : w.presales b = some p) (hw : w'.presales = upd w.presales b (some p')) (he : rc.event = some ev)
    (h1 : b = a → SaleView.read a (SaleView.of p) ev = SaleView.of p')
    (h2 : b ≠ a → ∀ s, SaleView.read a s ev = s) : saleSeen w' a = SaleView.after (saleSeen w a) a rc := by
  rw [saleSeen_upd hw]
  simp only [SaleView.after, he]
  by_cases hb : b = a
  · rw [if_pos hb, ← h1 hb, ← hb, saleSeen_some hp]
  · rw [if_neg hb, h2 hb]

theorem seen_escrow {w w' : World} {k k0 : Addr} {e e' : Escrow} {rc : Receipt} {ev : Event}
    (hp : w.escrows.get? k0 = some e) (hw : w'.escrows = w.escrows.set k0 e') (he : rc.event = some ev)
    (h1 : k0 = k → EscrowView.read k (EscrowView.of e) ev = EscrowView.of e')
    (h2 : k0 ≠ k → ∀ s, EscrowView.read k s ev = s) :
    escrowSeen w' k = EscrowView.after (escrowSeen w k) k rc := by
  rw [escrowSeen_set hw]
  simp only [EscrowView.after, he]
  by_cases hb : k0 = k
  · rw [if_pos hb, ← h1 hb, ← hb, escrowSeen_some hp]
  · rw [if_neg hb, h2 hb]

theorem seen_quiet {w w' : World} {rc : Receipt} (a k : Addr) (h1 : w'.presales = w.presales)
    (h2 : w'.escrows = w.escrows) (h3 : ∀ ev, rc.event = some ev → ∀ s, SaleView.read a s ev = s)
    (h4 : ∀ ev, rc.event = some ev → ∀ s, EscrowView.read k s ev = s) :
    saleSeen w' a = SaleView.after (saleSeen w a) a rc ∧
    escrowSeen w' k = EscrowView.after (escrowSeen w k) k rc := by
  rw [saleSeen_same h1, escrowSeen_same h2]
  simp only [SaleView.after, EscrowView.after]
  cases hc : rc.event with
  | none => exact ⟨rfl, rfl⟩
  | some ev => exact ⟨(h3 ev hc _).symm, (h4 ev hc _).symm⟩

/-- One step: the reader of the log keeps up. -/
theorem step_seen {w : World} (W : WInv w) {op : Op} {w' : World} {rc : Receipt}
    (h : step w op = .ok (w', rc)) (a k : Addr) :
    saleSeen w' a = SaleView.after (saleSeen w a) a rc ∧
    escrowSeen w' k = EscrowView.after (escrowSeen w k) k rc := by
  have C := W.core
  cases op with
  | tick s =>
    simp only [Verif.step, ok_eq_ok, Prod.mk.injEq] at h
    obtain ⟨rfl, rfl⟩ := h
    exact ⟨rfl, rfl⟩
  | setTok a t =>
    simp only [Verif.step, bind_eq_ok, require_eq_ok, pure_eq_ok, exists_const, Prod.mk.injEq] at h
    obtain ⟨_, _, rfl, rfl⟩ := h
    exact ⟨rfl, rfl⟩
  | donate v n =>
    simp only [Verif.step, bind_eq_ok, require_eq_ok, load_eq_ok, pure_eq_ok, exists_const, Prod.mk.injEq] at h
    obtain ⟨t, _, _, rfl, rfl⟩ := h
    exact ⟨rfl, rfl⟩
  | freezeVault v b =>
    simp only [Verif.step, bind_eq_ok, load_eq_ok, pure_eq_ok, Prod.mk.injEq] at h
    obtain ⟨t, _, rfl, rfl⟩ := h
    exact ⟨rfl, rfl⟩
  | setMint a m =>
    simp only [Verif.step, bind_eq_ok, require_eq_ok, pure_eq_ok, exists_const, Prod.mk.injEq] at h
    obtain ⟨_, _, rfl, rfl⟩ := h
    exact ⟨rfl, rfl⟩
  | ix tx i =>
    replace h : execIx w tx i = .ok (w', rc) := h
    cases i
    case initFixedArgs x =>
      have F := handleInitFixedArgs_iff.1 h
      exact seen_quiet _ _ (by rw [F.post]) (by rw [F.post])
        (by rw [F.receipt]; rintro _ ⟨⟩ s; rfl) (by rw [F.receipt]; rintro _ ⟨⟩ s; rfl)
    case closeFixedArgs x =>
      obtain ⟨y, F⟩ := handleCloseFixedArgs_iff.1 h
      exact seen_quiet _ _ (by rw [F.post]) (by rw [F.post])
        (by rw [F.receipt]; rintro _ ⟨⟩) (by rw [F.receipt]; rintro _ ⟨⟩)
    case createMerkle x =>
      obtain ⟨p, F⟩ := handleCreateMerkle_iff.1 h
      exact seen_quiet _ _ (by rw [F.post]) (by rw [F.post])
        (by rw [F.receipt]; rintro _ ⟨⟩ s; rfl) (by rw [F.receipt]; rintro _ ⟨⟩ s; rfl)
    case closeMerkle x =>
      obtain ⟨p, c, F⟩ := handleCloseMerkle_iff.1 h
      exact seen_quiet _ _ (by rw [F.post]) (by rw [F.post])
        (by rw [F.receipt]; rintro _ ⟨⟩ s; rfl) (by rw [F.receipt]; rintro _ ⟨⟩ s; rfl)
    case createOperator x =>
      have F := handleCreateOperator_iff.1 h
      exact seen_quiet _ _ (by rw [F.post]) (by rw [F.post])
        (by rw [F.receipt]; rintro _ ⟨⟩ s; rfl) (by rw [F.receipt]; rintro _ ⟨⟩ s; rfl)
    case revokeOperator x =>
      obtain ⟨o, F⟩ := handleRevokeOperator_iff.1 h
      exact seen_quiet _ _ (by rw [F.post]) (by rw [F.post])
        (by rw [F.receipt]; rintro _ ⟨⟩) (by rw [F.receipt]; rintro _ ⟨⟩)
    case createMetadata x =>
      obtain ⟨p, F⟩ := handleCreateMetadata_iff.1 h
      exact seen_quiet _ _ (by rw [F.post]) (by rw [F.post])
        (by rw [F.receipt]; rintro _ ⟨⟩ s; rfl) (by rw [F.receipt]; rintro _ ⟨⟩ s; rfl)
    case closeMetadata x =>
      obtain ⟨p, m, F⟩ := handleCloseMetadata_iff.1 h
      exact seen_quiet _ _ (by rw [F.post]) (by rw [F.post])
        (by rw [F.receipt]; rintro _ ⟨⟩ s; rfl) (by rw [F.receipt]; rintro _ ⟨⟩ s; rfl)
    case initPresale x =>
      obtain ⟨bm, qm, p, remaining, supply, included, hooks, rest, tk, cpi, F⟩ := handleInitPresale_iff.1 h
      obtain ⟨k', hk', hlen, hsup, hC⟩ := processCreate_ok F.create
      have hS := (hC.shape rfl rfl).shape
      constructor
      · rw [saleSeen_upd (w := w) (b := x.presaleKey) (p' := p) (by rw [F.post])]
        have : SaleView.after (saleSeen w a) a rc = saleSeen w a := by rw [F.receipt]; rfl
        rw [this]
        by_cases hb : x.presaleKey = a
        · rw [if_pos hb, ← hb]
          unfold saleSeen
          rw [F.fresh.1, hS]; rfl
        · rw [if_neg hb]
      · rw [escrowSeen_same (w := w) (by rw [F.post]), F.receipt]; rfl
    case createEscrow x =>
      obtain ⟨p, r, p', G, F⟩ := handleCreateEscrow_iff.1 h
      exact createEscrow_seen G.presale F a k
    case createEscrowCreator x =>
      obtain ⟨p, o, r, p', G, F⟩ := handleCreateEscrowCreator_iff.1 h
      exact createEscrow_seen G.presale F a k
    case createEscrowMerkle x =>
      obtain ⟨p, o, r, p', G, F⟩ := handleCreateEscrowMerkle_iff.1 h
      exact createEscrow_seen G.presale F a k
    case deposit x =>
      obtain ⟨p, m, e, d, inc, hooks, rest, tk, cpi, F⟩ := handleDeposit_iff.1 h
      obtain ⟨hd, quota, r, D⟩ := depositCore_iff.1 F.core
      refine ⟨seen_sale F.presale (by rw [F.post]) (congrArg Receipt.event F.receipt) ?_ (fun hb s => if_neg hb),
        seen_escrow F.escrow (by rw [F.post]) (congrArg Receipt.event F.receipt) ?_ (fun hb s => if_neg hb)⟩
      · intro hb
        refine (if_pos hb).trans ?_
        rcases D.result with ⟨h1, _⟩ | ⟨h1, _⟩ <;> rw [h1] <;> rfl
      · intro hb
        refine (if_pos hb).trans ?_
        rw [D.escrow]; rfl
    case withdraw x =>
      obtain ⟨p, m, e, p', e', y, hooks, rest, tk, cpi, ex, F⟩ := handleWithdraw_iff.1 h
      obtain ⟨hd, r, D⟩ := withdrawCore_iff.1 F.core
      refine ⟨seen_sale F.presale (by rw [F.post]) (congrArg Receipt.event F.receipt) ?_ (fun hb s => if_neg hb),
        seen_escrow F.escrow (by rw [F.post]) (congrArg Receipt.event F.receipt) ?_ (fun hb s => if_neg hb)⟩
      · exact fun hb => (if_pos hb).trans (by rw [D.presale]; rfl)
      · exact fun hb => (if_pos hb).trans (by rw [D.escrow]; rfl)
    case claim x =>
      obtain ⟨p, m, e, hd, e1, ex, F⟩ := handleClaim_iff.1 h
      obtain ⟨c, _, he1⟩ := updatePending_accrued F.refresh
      rcases F.out with ⟨_, p', e', hooks, rest, tk, cpi, g1, _, _, g4, g5⟩ | ⟨g0, g4, g5⟩
      · obtain ⟨r', hr', _, _, _, hp', he'⟩ := claim_iff.1 g1
        refine ⟨seen_sale F.presale (by rw [g4]) (congrArg Receipt.event g5) ?_ (fun hb s => if_neg hb),
          seen_escrow F.escrow (by rw [g4]) (congrArg Receipt.event g5) ?_ (fun hb s => if_neg hb)⟩
        · exact fun hb => (if_pos hb).trans (by rw [hp']; rfl)
        · exact fun hb => (if_pos hb).trans (by rw [he', he1]; rfl)
      · refine ⟨seen_sale (p' := p) F.presale (by rw [g4, upd_eq_self F.presale]) (congrArg Receipt.event g5) ?_
            (fun hb s => if_neg hb),
          seen_escrow F.escrow (by rw [g4]) (congrArg Receipt.event g5) ?_ (fun hb s => if_neg hb)⟩
        · exact fun hb => (if_pos hb).trans rfl
        · intro hb
          refine (if_pos hb).trans ?_
          unfold EscrowView.of
          rw [g0, he1]; rfl
    case refund x =>
      obtain ⟨p, m, e, q, p', hooks, rest, ex, F⟩ := handleRefund_iff.1 h
      obtain ⟨r, hr, _, _, hp'⟩ := updateRefunded_iff.1 F.update
      obtain ⟨hpost, hesc, ev⟩ : w'.presales = upd w.presales x.presale (some p') ∧
          w'.escrows = w.escrows.set x.escrow e.updateRemainingQuoteWithdrawn ∧
          rc.event = some (.withdrawRemainingQuote x.presale x.escrow x.owner ex p'.totalRefundedQuoteToken) := by
        rcases F.out with ⟨_, tk, cpi, g3, g4, g5⟩ | ⟨h0, g4, g5⟩ <;> rw [g4, g5] <;> exact ⟨rfl, rfl, rfl⟩
      refine ⟨seen_sale F.presale hpost ev ?_ (fun hb s => if_neg hb),
        seen_escrow F.escrow hesc ev ?_ (fun hb s => if_neg hb)⟩
      · exact fun hb => (if_pos hb).trans (by rw [hp']; rfl)
      · exact fun hb => (if_pos hb).trans rfl
    case unsold x =>
      obtain ⟨p, c, hd, y, tk, cpi, F⟩ := handleUnsold_iff.1 h
      refine ⟨seen_sale F.presale (by rw [F.post]) (congrArg Receipt.event F.receipt) ?_ (fun hb s => if_neg hb), ?_⟩
      · exact fun hb => (if_pos hb).trans rfl
      · rw [escrowSeen_same (w := w) (by rw [F.post]), F.receipt]; rfl
    case closeEscrow x =>
      obtain ⟨p, e, p', F⟩ := handleCloseEscrow_iff.1 h
      obtain ⟨r, hr, _, _, hp'⟩ := decreaseEscrowCount_iff.1 F.update
      refine ⟨seen_sale F.presale (by rw [F.post]) (congrArg Receipt.event F.receipt) ?_ (fun hb s => if_neg hb), ?_⟩
      · exact fun hb => (if_pos hb).trans (by rw [hp']; rfl)
      · rw [F.receipt, F.post]
        simp only [EscrowView.after, EscrowView.read, escrowSeen]
        show ((AMap.get? (w.escrows.erase x.escrow) k).map _).getD _ = _
        rw [AMap.get?_erase C.nodup]
        by_cases hb : x.escrow = k
        · subst hb; simp
        · simp [Ne.symm hb, hb]
    case creatorWithdraw x =>
      obtain ⟨p, c, hooks, rest, tk, cpi, m, ex, F⟩ := handleCreatorWithdraw_iff.1 h
      refine ⟨seen_sale F.presale (by rw [F.post]) (congrArg Receipt.event F.receipt) ?_ (fun hb s => if_neg hb), ?_⟩
      · exact fun hb => (if_pos hb).trans rfl
      · rw [escrowSeen_same (w := w) (by rw [F.post]), F.receipt]; rfl
    case refresh x =>
      obtain ⟨p, e, e', F⟩ := (handleRefresh_iff (tx := tx)).1 h
      refine ⟨?_, seen_escrow F.escrow (by rw [F.post]) (congrArg Receipt.event F.receipt) ?_ (fun hb s => if_neg hb)⟩
      · rw [saleSeen_same (w := w) (by rw [F.post]), F.receipt]; rfl
      · intro hb
        refine (if_pos hb).trans ?_
        rcases refreshed_accrued F.refresh with h | ⟨c, _, h⟩ <;> rw [h] <;> rfl
    case collectFee x =>
      obtain ⟨p, m, fee, ex, F⟩ := handleCollectFee_iff.1 h
      obtain ⟨hpost, hesc, ev⟩ : w'.presales = upd w.presales x.presale (some p.setDepositFeeCollected) ∧
          w'.escrows = w.escrows ∧ rc.event = some (.creatorCollectFee x.presale x.owner ex) := by
        rcases F.out with ⟨_, hooks, rest, tk, cpi, _, _, g4, g5⟩ | ⟨_, g4, g5⟩ <;> rw [g4, g5] <;>
          exact ⟨rfl, rfl, rfl⟩
      refine ⟨seen_sale F.presale hpost ev ?_ (fun hb s => if_neg hb), ?_⟩
      · exact fun hb => (if_pos hb).trans rfl
      · rw [escrowSeen_same hesc]
        simp only [EscrowView.after, ev]; rfl


theorem log_snoc (tr : List StepRec) (s : StepRec) :
    log (tr ++ [s]) = log tr ++ s.receipt.event.toList := by
  unfold log
  rw [List.filterMap_append]
  congr 1

theorem log_views {w0 : World} (G : Genesis w0) (ops : List Op) (a k : Addr) :
    (log (trace w0 ops)).foldl (SaleView.read a) {} = saleSeen (run w0 ops) a ∧
    (log (trace w0 ops)).foldl (EscrowView.read k) {} = escrowSeen (run w0 ops) k := by
  induction ops using List.reverseRecOn with
  | nil =>
    unfold saleSeen escrowSeen
    rw [show run w0 [] = w0 from rfl, G.presales a, G.escrows]
    exact ⟨rfl, rfl⟩
  | append_singleton ops op ih =>
    have R : Reachable (run w0 ops) := ⟨w0, ops, G, rfl⟩
    rw [trace_snoc, run_snoc]
    unfold attempt
    cases h : step (run w0 ops) op with
    | error e =>
      have : apply (run w0 ops) op = run w0 ops := by unfold apply; rw [h]
      rw [this, List.append_nil]
      exact ih
    | ok x =>
      obtain ⟨w', rc⟩ := x
      rw [apply_ok h]
      simp only [log_snoc, List.foldl_append, ih.1, ih.2]
      obtain ⟨h1, h2⟩ := step_seen R.winv h a k
      rw [h1, h2]
      cases hc : rc.event <;> simp [SaleView.after, EscrowView.after, hc]

/-- **C60.** Whoever has read the event log of a whole history knows every sale's totals: deposits, fees,
open escrows, claimed tokens, refunds and which of the three one-time payouts were made. -/
theorem C60_log_sale {w0 : World} (G : Genesis w0) (ops : List Op) {a : Addr} {p : Presale}
    (hp : (run w0 ops).presales a = some p) :
    let s := (log (trace w0 ops)).foldl (SaleView.read a) {}
    s.deposits = p.totalDeposit ∧ s.fees = p.totalDepositFee ∧ s.escrows = p.totalEscrow ∧
    s.claimed = p.totalClaimedToken ∧ s.refunded = p.totalRefundedQuoteToken ∧
    (s.creatorPaid = true ↔ p.hasCreatorWithdrawn ≠ 0) ∧ (s.feesPaid = true ↔ p.depositFeeCollected ≠ 0) ∧
    (s.unsoldDone = true ↔ p.isUnsoldTokenActionPerformed ≠ 0) := by
  intro s
  have h : s = SaleView.of p := ((log_views G ops a a).1).trans (saleSeen_some hp)
  rw [h]
  simp [SaleView.of]

/-- **C60.** The same for every escrow: deposits, fees, claimed and pending tokens and the refund. -/
theorem C60_log_escrow {w0 : World} (G : Genesis w0) (ops : List Op) {k : Addr} {e : Escrow}
    (he : (run w0 ops).escrows.get? k = some e) :
    let s := (log (trace w0 ops)).foldl (EscrowView.read k) {}
    s.deposits = e.totalDeposit ∧ s.fees = e.totalDepositFee ∧ s.claimed = e.totalClaimedToken ∧
    s.pending = e.pendingClaimToken ∧ (s.refundTaken = true ↔ e.isRemainingQuoteWithdrawn ≠ 0) := by
  intro s
  have h : s = EscrowView.of e := ((log_views G ops k k).2).trans (escrowSeen_some he)
  rw [h]
  simp [EscrowView.of]

/-- **C60.** Nothing is known about a sale or an escrow that does not exist: the log of a closed escrow
does not leak into its successor at the same address. -/
theorem C60_log_absent {w0 : World} (G : Genesis w0) (ops : List Op) (k : Addr) :
    ((run w0 ops).presales k = none → (log (trace w0 ops)).foldl (SaleView.read k) {} = {}) ∧
    ((run w0 ops).escrows.get? k = none → (log (trace w0 ops)).foldl (EscrowView.read k) {} = {}) := by
  constructor
  · intro h
    rw [(log_views G ops k k).1]; unfold saleSeen; rw [h]; rfl
  · intro h
    rw [(log_views G ops k k).2]; unfold escrowSeen; rw [h]; rfl


/-! ## C59: every event is true -/

theorem excluded_eq {m : MintInfo} {x y : Nat} (h : transferFeeExcludedAmount m x = .ok y) :
    y + m.transferFee x = x := by
  unfold transferFeeExcludedAmount at h
  unfold MintInfo.transferFee
  cases hf : m.epochFee with
  | none =>
    rw [hf] at h
    simp only [ok_eq_ok] at h
    show y + 0 = x
    omega
  | some f =>
    rw [hf] at h
    simp only [sub_eq_ok] at h
    show y + f.calculateFee x = x
    omega

theorem excluded_zero {m : MintInfo} {x y : Nat} (h : transferFeeExcludedAmount m x = .ok y) (hx : x = 0) :
    y = 0 := by
  have := excluded_eq h
  omega

theorem deposit_said {w : World} (R : Reachable w) {tx : Tx} {x : DepositAcc} {w' : World} {rc : Receipt}
    (h : step w (.ix tx (.deposit x)) = .ok (w', rc)) {ev : Event} (hev : rc.event = some ev) :
    Says w tx w' ev := by
  obtain ⟨p, m, e, d, included, hooks, rest, tk, cpi, F⟩ := handleDeposit_iff.1 h
  obtain ⟨hd, quota, r, D⟩ := depositCore_iff.1 F.core
  obtain ⟨hsrc, hv, _, _, s, q, dlg, _, _, hq, _, hq', _⟩ := F.vaultGain R.winv.core
  rw [F.receipt] at hev
  cases hev
  have htot := D.totals
  have he := D.escrow
  have hpost := F.post
  have htk : w'.tk = tk := by rw [hpost]
  refine ⟨p, d.presale, e, d.escrow, q, _, ⟨F.presale, by rw [hpost]; exact upd_self _ _ _⟩,
    ⟨F.escrow, by rw [hpost]; exact (AMap.get?_set _ _ _ _).trans (if_pos rfl), F.belongs, ?_, ?_⟩, F.signed,
    D.pos, by rw [he]; rfl, by rw [he]; rfl, htot.1, htot.2.1, rfl, rfl, by rw [F.vault.1]; exact hq,
    by rw [F.vault.1, htk]; exact hq', by show q.amount + (d.amount + d.fees.fee) = _; omega⟩
  · rw [he]; exact F.belongs
  · rw [he]; rfl

theorem withdraw_said {w : World} (R : Reachable w) {tx : Tx} {x : WithdrawAcc} {w' : World} {rc : Receipt}
    (h : step w (.ix tx (.withdraw x)) = .ok (w', rc)) {ev : Event} (hev : rc.event = some ev) :
    Says w tx w' ev := by
  obtain ⟨p, m, e, p', e', n, hooks, rest, tk, cpi, ex, F⟩ := handleWithdraw_iff.1 h
  obtain ⟨hd, r, D⟩ := withdrawCore_iff.1 F.core
  rw [F.receipt] at hev
  cases hev
  have he := D.escrow
  have hp := D.presale
  have hT := transfer_spec (R.winv.core.feeOk _) F.transfer
  have hpost := F.post
  have htk : w'.tk = tk := by rw [hpost]
  refine ⟨p, p', e, e', x.ownerQuoteToken, n, ⟨F.presale, by rw [hpost]; exact upd_self _ _ _⟩,
    ⟨F.escrow, by rw [hpost]; exact (AMap.get?_set _ _ _ _).trans (if_pos rfl), F.belongs.1, ?_, ?_⟩,
    F.belongs.2, F.signed, D.pos, ?_, ?_, rfl, rfl, .inr ⟨?_, m, ?_, excluded_eq F.net⟩⟩
  · rw [he]; exact F.belongs.1
  · rw [he]; rfl
  · have := D.leE
    rw [he]; show _ = e.totalDeposit - n + n; omega
  · have := D.leP
    rw [hp]; show _ = p.totalDeposit - n + n; omega
  · rw [htk, F.vault.1, F.vault.2]; exact hT
  · rw [F.vault.2]; exact F.mint

theorem claim_said {w : World} (R : Reachable w) {tx : Tx} {x : ClaimAcc} {w' : World} {rc : Receipt}
    (h : step w (.ix tx (.claim x)) = .ok (w', rc)) {ev : Event} (hev : rc.event = some ev) :
    Says w tx w' ev := by
  obtain ⟨p, m, e, hd, e1, ex, F⟩ := handleClaim_iff.1 h
  obtain ⟨c, _, he1⟩ := updatePending_accrued F.refresh
  have b1 : e1.presale = x.presale := by rw [he1]; exact F.belongs.1
  have b2 : e1.owner = e.owner := by rw [he1]; rfl
  have b3 : e1.totalClaimedToken = e.totalClaimedToken := by rw [he1]; rfl
  rcases F.out with ⟨_, p', e', hooks, rest, tk, cpi, g1, _, g3, g4, g5⟩ | ⟨g0, g4, g5⟩
  · obtain ⟨r', hr', _, _, _, hp', he'⟩ := claim_iff.1 g1
    have hT := transfer_spec (R.winv.core.feeOk _) g3
    rw [g5] at hev
    cases hev
    have htk : w'.tk = tk := by rw [g4]
    refine ⟨p, p', e, e', x.ownerBaseToken, e1.pendingClaimToken, ⟨F.presale, by rw [g4]; exact upd_self _ _ _⟩,
      ⟨F.escrow, by rw [g4]; exact (AMap.get?_set _ _ _ _).trans (if_pos rfl), F.belongs.1, ?_, ?_⟩,
      F.belongs.2, F.signed, ?_, ?_, ?_, rfl, rfl, .inr ⟨?_, m, ?_, excluded_eq F.net⟩⟩
    · rw [he']; exact b1
    · rw [he']; exact b2
    · rw [he']; show e1.totalClaimedToken + _ = _; rw [b3]
    · rw [hp']; rfl
    · rw [he']; rfl
    · rw [htk, F.vault.1, F.vault.2]; exact hT
    · rw [F.vault.2]; exact F.mint
  · rw [g5] at hev
    cases hev
    refine ⟨p, p, e, e1, x.ownerBaseToken, 0, ⟨F.presale, by rw [g4]; exact F.presale⟩,
      ⟨F.escrow, by rw [g4]; exact (AMap.get?_set _ _ _ _).trans (if_pos rfl), F.belongs.1, b1, b2⟩,
      F.belongs.2, F.signed, b3, rfl, g0, rfl, rfl, .inl ⟨rfl, excluded_zero F.net g0, by rw [g4]⟩⟩

theorem refund_said {w : World} (R : Reachable w) {tx : Tx} {x : RefundAcc} {w' : World} {rc : Receipt}
    (h : step w (.ix tx (.refund x)) = .ok (w', rc)) {ev : Event} (hev : rc.event = some ev) :
    Says w tx w' ev := by
  obtain ⟨p, m, e, q, p', hooks, rest, ex, F⟩ := handleRefund_iff.1 h
  obtain ⟨r, hr, _, _, hp'⟩ := updateRefunded_iff.1 F.update
  have S := R.winv.core.sale _ _ F.presale
  have hflag : e.isRemainingQuoteWithdrawn = 0 := by
    have := F.fresh
    unfold Escrow.remainingQuoteWithdrawn at this
    obtain ⟨r', _, E⟩ := S.pinv.escBook F.escrow F.belongs.1
    have h1 := E.flag
    have h2 : e.isRemainingQuoteWithdrawn ≠ 1 := by simpa using this
    omega
  obtain ⟨hpost, hesc, hrc, hpaid⟩ : w'.presales = upd w.presales x.presale (some p') ∧
      w'.escrows = w.escrows.set x.escrow e.updateRemainingQuoteWithdrawn ∧
      rc.event = some (.withdrawRemainingQuote x.presale x.escrow x.owner ex p'.totalRefundedQuoteToken) ∧
      Paid w.tk w'.tk p.quoteMint p.quoteTokenVault x.ownerQuoteToken
        (q.refundDepositAmount + q.refundFeeAmount) ex := by
    rcases F.out with ⟨_, tk, cpi, g3, g4, g5⟩ | ⟨h0, g4, g5⟩
    · rw [g4, g5]
      refine ⟨rfl, rfl, rfl, .inr ⟨?_, m, ?_, excluded_eq F.net⟩⟩
      · rw [F.vault.1, F.vault.2]; exact transfer_spec (R.winv.core.feeOk _) g3
      · rw [F.vault.2]; exact F.mint
    · rw [g4, g5]
      exact ⟨rfl, rfl, rfl, .inl ⟨h0, excluded_zero F.net h0, rfl⟩⟩
  rw [hrc] at hev
  cases hev
  exact ⟨p, p', e, e.updateRemainingQuoteWithdrawn, x.ownerQuoteToken, _, ⟨F.presale, by rw [hpost]; exact upd_self _ _ _⟩,
    ⟨F.escrow, by rw [hesc]; exact (AMap.get?_set _ _ _ _).trans (if_pos rfl), F.belongs.1, F.belongs.1, rfl⟩,
    F.belongs.2, F.signed, hflag, rfl, by rw [hp']; rfl, rfl, hpaid⟩

theorem unsold_said {w : World} (R : Reachable w) {tx : Tx} {x : UnsoldAcc} {w' : World} {rc : Receipt}
    (h : step w (.ix tx (.unsold x)) = .ok (w', rc)) {ev : Event} (hev : rc.event = some ev) :
    Says w tx w' ev := by
  obtain ⟨p, h1, h2, h3, h4, h5, h6, h7⟩ := C24_unsold R h
  obtain ⟨p0, c, hd, n, tk, cpi, F⟩ := handleUnsold_iff.1 h
  have S := R.winv.core.sale _ _ h1
  have := F.presale
  rw [h1] at this
  cases this
  have hx := S.pinv.unsold F.handler
  rw [F.amount] at hx
  cases hx
  rw [F.receipt] at hev
  cases hev
  refine ⟨p, _, ⟨h1, by rw [h7]; exact upd_self _ _ _⟩, h2, rfl, h4, by omega, ?_⟩
  rw [S.pinv.static.baseVault]
  by_cases ha : p.unsoldTokenAction = 1
  · exact .inl ⟨if_pos ha, ha, h6 ha⟩
  · exact .inr ⟨if_neg ha, ha, _, h5 ha⟩

theorem creator_said {w : World} (R : Reachable w) {tx : Tx} {x : CreatorWithdrawAcc} {w' : World} {rc : Receipt}
    (h : step w (.ix tx (.creatorWithdraw x)) = .ok (w', rc)) {ev : Event} (hev : rc.event = some ev) :
    Says w tx w' ev := by
  obtain ⟨p, c, hooks, rest, tk, cpi, m, ex, F⟩ := handleCreatorWithdraw_iff.1 h
  have S := R.winv.core.sale _ _ F.presale
  have hT := transfer_spec (R.winv.core.feeOk _) F.transfer
  have htk : w'.tk = tk := by rw [F.post]
  rw [F.receipt] at hev
  cases hev
  refine ⟨p, _, x.ownerToken, ⟨F.presale, by rw [F.post]; exact upd_self _ _ _⟩, F.owner, F.signed,
    creatorWithdrawn_false F.first, rfl, ?_⟩
  rw [htk]
  rcases F.progress with h1 | h1
  · have hp := F.payout
    rw [h1] at hp
    obtain ⟨c1, c2, c3, c4, _⟩ := creatorPayout_completed hp
    refine .inl ⟨h1, S.progress_completed.1 h1, .inr ⟨?_, m, ?_, ?_⟩⟩
    · rw [c1, c2, c3] at hT; exact hT
    · rw [← c3]; exact F.mint
    · have := excluded_eq F.net
      rw [c1] at this; exact this
  · have hp := F.payout
    rw [h1] at hp
    obtain ⟨c1, c2, c3, c4, _⟩ := creatorPayout_failed hp
    refine .inr ⟨h1, S.progress_failed.1 h1, .inr ⟨?_, m, ?_, ?_⟩⟩
    · rw [c1, c2, c3] at hT; exact hT
    · rw [← c3]; exact F.mint
    · have := excluded_eq F.net
      rw [c1] at this; exact this

theorem collect_said {w : World} (R : Reachable w) {tx : Tx} {x : CollectFeeAcc} {w' : World} {rc : Receipt}
    (h : step w (.ix tx (.collectFee x)) = .ok (w', rc)) {ev : Event} (hev : rc.event = some ev) :
    Says w tx w' ev := by
  obtain ⟨p, m, fee, ex, F⟩ := handleCollectFee_iff.1 h
  have S := R.winv.core.sale _ _ F.presale
  have hfee := S.pinv.collectedFee
  rw [F.amount] at hfee
  cases hfee
  obtain ⟨o1, o2, o3⟩ := F.owner
  have hfirst : p.depositFeeCollected = 0 := by
    have := feeCollected_false F.progress.2; have := S.pinv.flags.f; omega
  obtain ⟨hpost, hrc, hpaid⟩ : w'.presales = upd w.presales x.presale (some p.setDepositFeeCollected) ∧
      rc.event = some (.creatorCollectFee x.presale x.owner ex) ∧
      Paid w.tk w'.tk p.quoteMint p.quoteTokenVault x.feeReceivingAccount (collectableFee p) ex := by
    rcases F.out with ⟨h0, hooks, rest, tk, cpi, _, g3, g4, g5⟩ | ⟨h0, g4, g5⟩
    · rw [g4, g5]
      refine ⟨rfl, rfl, .inr ⟨?_, m, ?_, excluded_eq F.net⟩⟩
      · rw [o2, o3]; exact transfer_spec (R.winv.core.feeOk _) g3
      · rw [o2]; exact F.mint
    · rw [g4, g5]
      exact ⟨rfl, rfl, .inl ⟨h0, excluded_zero F.net h0, rfl⟩⟩
  rw [hrc] at hev
  cases hev
  exact ⟨p, _, x.feeReceivingAccount, ⟨F.presale, by rw [hpost]; exact upd_self _ _ _⟩, o1, F.signed, hfirst, rfl,
    hpaid⟩

theorem escrowCreate_said {w w' : World} {tx : Tx} {p p' : Presale} {key owner : Addr} {i : Nat} {cap? : Option Nat}
    {rc : Receipt} {r : Registry} (hp : w.presales key = some p)
    (F : CreateEscrowFacts w p key owner i cap? w' rc r p') {ev : Event} (hev : rc.event = some ev) :
    Says w tx w' ev := by
  obtain ⟨r0, _, _, _, hp'⟩ := increaseEscrowCount_iff.1 F.update
  rw [F.receipt] at hev
  cases hev
  exact ⟨p, p', i, _, ⟨hp, by rw [F.post]; exact upd_self _ _ _⟩, rfl, by rw [hp']; rfl, rfl, F.fresh,
    by rw [F.post]; exact (AMap.get?_set _ _ _ _).trans (if_pos rfl), rfl, rfl, rfl, rfl⟩

theorem close_said {w : World} (R : Reachable w) {tx : Tx} {x : CloseEscrowAcc} {w' : World} {rc : Receipt}
    (h : step w (.ix tx (.closeEscrow x)) = .ok (w', rc)) {ev : Event} (hev : rc.event = some ev) :
    Says w tx w' ev := by
  obtain ⟨p, e, p', F⟩ := handleCloseEscrow_iff.1 h
  obtain ⟨r, hr, _, h1, hp'⟩ := decreaseEscrowCount_iff.1 F.update
  rw [F.receipt] at hev
  cases hev
  refine ⟨p, p', e, ⟨F.presale, by rw [F.post]; exact upd_self _ _ _⟩, F.escrow, F.belongs.1, F.belongs.2, F.signed,
    ?_, ?_⟩
  · rw [F.post]; exact (AMap.get?_erase R.winv.core.nodup _ _).trans (if_pos rfl)
  · rw [hp']; show _ = p.totalEscrow - 1 + 1; omega

theorem refresh_said {w : World} {tx : Tx} {x : RefreshAcc} {w' : World} {rc : Receipt}
    (h : step w (.ix tx (.refresh x)) = .ok (w', rc)) {ev : Event} (hev : rc.event = some ev) :
    Says w tx w' ev := by
  obtain ⟨p, e, e', F⟩ := (handleRefresh_iff (tx := tx)).1 h
  rw [F.receipt] at hev
  cases hev
  have h0 := F.clock
  obtain ⟨b1, b2, b3⟩ : e'.presale = e.presale ∧ e'.owner = e.owner ∧
      e.pendingClaimToken ≤ e'.pendingClaimToken := by
    rcases refreshed_accrued F.refresh with h | ⟨c, _, h⟩
    · rw [h]; exact ⟨rfl, rfl, Nat.le_refl _⟩
    · rw [h]; exact ⟨rfl, rfl, Nat.le_add_right _ _⟩
  exact ⟨e, e', ⟨F.escrow, by rw [F.post]; exact (AMap.get?_set _ _ _ _).trans (if_pos rfl), F.belongs,
    b1.trans F.belongs, b2⟩, b2.symm, rfl, b3, by omega⟩

theorem create_said {w : World} (R : Reachable w) {tx : Tx} {x : InitPresaleAcc} {w' : World} {rc : Receipt}
    (h : step w (.ix tx (.initPresale x)) = .ok (w', rc)) {ev : Event} (hev : rc.event = some ev) :
    Says w tx w' ev := by
  obtain ⟨q, h1, h2, h3, h4, h5, h6, h7, h8, h9, h10, h11, h12, h13, h14, h15, h16, h17, h18, h19, h20, h21, h22,
    h23⟩ := C53_created_as_asked R h
  obtain ⟨bm, qm, p, rem, supply, inc, hooks, rest, tk, cpi, F⟩ := handleInitPresale_iff.1 h
  obtain ⟨k', hk', hlen, hsup, hC⟩ := processCreate_ok F.create
  have hS := (hC.shape rfl rfl).shape
  have : q = p := by
    rw [F.post] at h1
    exact (Option.some.inj ((upd_self _ _ _).symm.trans h1)).symm
  subst this
  rw [F.receipt] at hev
  cases hev
  have h0 := F.clock
  have hopt : (x.args.lockedVestingParams.option.map LockedVestingArgs.lockDuration).getD 0 =
        x.args.lockedVestingParams.lockDuration ∧
      (x.args.lockedVestingParams.option.map LockedVestingArgs.vestDuration).getD 0 =
        x.args.lockedVestingParams.vestDuration := by
    unfold LockedVestingArgs.option
    split
    · next hz => exact ⟨hz.2.1.symm, hz.2.2.1.symm⟩
    · exact ⟨rfl, rfl⟩
  refine ⟨x.presaleKey, q, F.fresh.1, h1, h6, h7, h22, ?_, ?_, ?_, h14, h15, by omega, h13, h10, h11,
    by rw [hS]; rfl⟩
  · intro i y hy
    have hlen' : i < x.args.presaleRegistries.length := (List.getElem?_eq_some_iff.1 hy).1
    have hz := congrArg (fun l => l[i]?) h23
    simp only [List.getElem?_map, hy, Option.map_some] at hz
    rw [List.getElem?_take_of_lt (by omega)] at hz
    obtain ⟨r, hr, heq⟩ := Option.map_eq_some_iff.1 hz
    simp only [Prod.mk.injEq] at heq
    exact ⟨r, hr, heq.1, heq.2.1, heq.2.2.1, heq.2.2.2⟩
  · rw [hopt.1]; exact h18
  · rw [hopt.2]; exact h19

/-- **C59.** Every event tells the truth: what it says about the accounts, the amounts and the signer
describes the change made by the very instruction that emitted it. -/
theorem C59_events_true {w : World} (R : Reachable w) {tx : Tx} {i : Ix} {w' : World} {rc : Receipt} {ev : Event}
    (h : step w (.ix tx i) = .ok (w', rc)) (hev : rc.event = some ev) : Says w tx w' ev := by
  cases i
  case initFixedArgs x =>
    have F := handleInitFixedArgs_iff.1 h
    rw [F.receipt] at hev
    cases hev
    exact ⟨F.fresh, _, by rw [F.post]; exact upd_self _ _ _, rfl, rfl⟩
  case closeFixedArgs x =>
    obtain ⟨y, F⟩ := handleCloseFixedArgs_iff.1 h
    rw [F.receipt] at hev
    cases hev
  case createMerkle x =>
    obtain ⟨p, F⟩ := handleCreateMerkle_iff.1 h
    rw [F.receipt] at hev
    cases hev
    exact ⟨p, F.presale, F.owner, F.signed, F.fresh, by rw [F.post]; exact upd_self _ _ _⟩
  case closeMerkle x =>
    obtain ⟨p, c, F⟩ := handleCloseMerkle_iff.1 h
    rw [F.receipt] at hev
    cases hev
    exact ⟨by rw [F.post]; exact upd_self _ _ _, ⟨c, F.config, F.belongs⟩, p, F.presale, F.owner, F.signed⟩
  case createOperator x =>
    have F := handleCreateOperator_iff.1 h
    rw [F.receipt] at hev
    cases hev
    exact ⟨F.signed, F.fresh, by rw [F.post]; exact upd_self _ _ _⟩
  case revokeOperator x =>
    obtain ⟨o, F⟩ := handleRevokeOperator_iff.1 h
    rw [F.receipt] at hev
    cases hev
  case createMetadata x =>
    obtain ⟨p, F⟩ := handleCreateMetadata_iff.1 h
    rw [F.receipt] at hev
    cases hev
    exact ⟨F.fresh, by rw [F.post]; exact upd_self _ _ _, p, F.presale, by rw [F.owner]; exact F.signed⟩
  case closeMetadata x =>
    obtain ⟨p, m, F⟩ := handleCloseMetadata_iff.1 h
    rw [F.receipt] at hev
    cases hev
    exact ⟨by rw [F.post]; exact upd_self _ _ _, ⟨m, F.account, F.belongs⟩, p, F.presale,
      by rw [F.owner]; exact F.signed⟩
  case initPresale x => exact create_said R h hev
  case createEscrow x =>
    obtain ⟨p, r, p', G, F⟩ := handleCreateEscrow_iff.1 h
    exact escrowCreate_said G.presale F hev
  case createEscrowCreator x =>
    obtain ⟨p, o, r, p', G, F⟩ := handleCreateEscrowCreator_iff.1 h
    exact escrowCreate_said G.presale F hev
  case createEscrowMerkle x =>
    obtain ⟨p, o, r, p', G, F⟩ := handleCreateEscrowMerkle_iff.1 h
    exact escrowCreate_said G.presale F hev
  case deposit x => exact deposit_said R h hev
  case withdraw x => exact withdraw_said R h hev
  case claim x => exact claim_said R h hev
  case refund x => exact refund_said R h hev
  case unsold x => exact unsold_said R h hev
  case closeEscrow x => exact close_said R h hev
  case creatorWithdraw x => exact creator_said R h hev
  case refresh x => exact refresh_said h hev
  case collectFee x => exact collect_said R h hev


/-- **C59.** Nothing of substance happens silently: a successful instruction without an event closes a
price account or revokes an operator, and moves no tokens and touches no sale and no escrow. -/
theorem C59_silent {w : World} {tx : Tx} {i : Ix} {w' : World} {rc : Receipt}
    (h : step w (.ix tx i) = .ok (w', rc)) (hev : rc.event = none) :
    ((∃ x, i = .closeFixedArgs x) ∨ ∃ x, i = .revokeOperator x) ∧ w'.tk = w.tk ∧ w'.presales = w.presales ∧
    w'.escrows = w.escrows ∧ w'.merkleRoots = w.merkleRoots ∧ w'.metadata = w.metadata := by
  cases i
  case initFixedArgs x =>
    have F := handleInitFixedArgs_iff.1 h
    rw [F.receipt] at hev; cases hev
  case closeFixedArgs x =>
    obtain ⟨y, F⟩ := handleCloseFixedArgs_iff.1 h
    rw [F.post]; exact ⟨.inl ⟨x, rfl⟩, rfl, rfl, rfl, rfl, rfl⟩
  case createMerkle x =>
    obtain ⟨p, F⟩ := handleCreateMerkle_iff.1 h
    rw [F.receipt] at hev; cases hev
  case closeMerkle x =>
    obtain ⟨p, c, F⟩ := handleCloseMerkle_iff.1 h
    rw [F.receipt] at hev; cases hev
  case createOperator x =>
    have F := handleCreateOperator_iff.1 h
    rw [F.receipt] at hev; cases hev
  case revokeOperator x =>
    obtain ⟨o, F⟩ := handleRevokeOperator_iff.1 h
    rw [F.post]; exact ⟨.inr ⟨x, rfl⟩, rfl, rfl, rfl, rfl, rfl⟩
  case createMetadata x =>
    obtain ⟨p, F⟩ := handleCreateMetadata_iff.1 h
    rw [F.receipt] at hev; cases hev
  case closeMetadata x =>
    obtain ⟨p, m, F⟩ := handleCloseMetadata_iff.1 h
    rw [F.receipt] at hev; cases hev
  case initPresale x =>
    obtain ⟨bm, qm, p, rem, supply, inc, hooks, rest, tk, cpi, F⟩ := handleInitPresale_iff.1 h
    rw [F.receipt] at hev; cases hev
  case createEscrow x =>
    obtain ⟨p, r, p', G, F⟩ := handleCreateEscrow_iff.1 h
    rw [F.receipt] at hev; cases hev
  case createEscrowCreator x =>
    obtain ⟨p, o, r, p', G, F⟩ := handleCreateEscrowCreator_iff.1 h
    rw [F.receipt] at hev; cases hev
  case createEscrowMerkle x =>
    obtain ⟨p, o, r, p', G, F⟩ := handleCreateEscrowMerkle_iff.1 h
    rw [F.receipt] at hev; cases hev
  case deposit x =>
    obtain ⟨p, m, e, d, included, hooks, rest, tk, cpi, F⟩ := handleDeposit_iff.1 h
    rw [F.receipt] at hev; cases hev
  case withdraw x =>
    obtain ⟨p, m, e, p', e', n, hooks, rest, tk, cpi, ex, F⟩ := handleWithdraw_iff.1 h
    rw [F.receipt] at hev; cases hev
  case claim x =>
    obtain ⟨p, m, e, hd, e1, ex, F⟩ := handleClaim_iff.1 h
    rcases F.out with ⟨_, p', e', hooks, rest, tk, cpi, _, _, _, _, g5⟩ | ⟨_, _, g5⟩ <;>
      (rw [g5] at hev; cases hev)
  case refund x =>
    obtain ⟨p, m, e, q, p', hooks, rest, ex, F⟩ := handleRefund_iff.1 h
    rcases F.out with ⟨_, tk, cpi, _, _, g5⟩ | ⟨_, _, g5⟩ <;> (rw [g5] at hev; cases hev)
  case unsold x =>
    obtain ⟨p, c, hd, y, tk, cpi, F⟩ := handleUnsold_iff.1 h
    rw [F.receipt] at hev; cases hev
  case closeEscrow x =>
    obtain ⟨p, e, p', F⟩ := handleCloseEscrow_iff.1 h
    rw [F.receipt] at hev; cases hev
  case creatorWithdraw x =>
    obtain ⟨p, c, hooks, rest, tk, cpi, m, ex, F⟩ := handleCreatorWithdraw_iff.1 h
    rw [F.receipt] at hev; cases hev
  case refresh x =>
    obtain ⟨p, e, e', F⟩ := (handleRefresh_iff (tx := tx)).1 h
    rw [F.receipt] at hev; cases hev
  case collectFee x =>
    obtain ⟨p, m, fee, ex, F⟩ := handleCollectFee_iff.1 h
    rcases F.out with ⟨_, hooks, rest, tk, cpi, _, _, _, g5⟩ | ⟨_, _, g5⟩ <;> (rw [g5] at hev; cases hev)


/-! ## The hypotheses are met -/

namespace Ex

/-- A history with every kind of payout of a completed prorata sale, at the end of which `bob`'s escrow is
closed. -/
def fullOps : List Op :=
  busyOps ++ [refund alice aliceQuote, claim bob bobBase, creatorWithdraw creatorWithdrawAcc, collectFee, unsold,
    refresh alice, closeEscrow bob]

example : (log (trace genesis fullOps)).length = 16 := by decide +kernel
example : (log (trace genesis fullOps)).foldl (SaleView.read sale) {} =
    { deposits := 1400, fees := 32, escrows := 1, claimed := 9998, refunded := 407, creatorPaid := true,
      feesPaid := true, unsoldDone := false } := by decide +kernel
example : (log (trace genesis fullOps)).foldl (EscrowView.read (escrowOf alice)) {} =
    { deposits := 800, fees := 19, claimed := 5713, pending := 0, refundTaken := true } := by decide +kernel
example : (run genesis fullOps).escrows.get? (escrowOf bob) = none ∧
    (log (trace genesis fullOps)).foldl (EscrowView.read (escrowOf bob)) {} = {} := by decide +kernel

/-- The event of an operation, if it succeeds and has one. -/
def eventOf (w : World) (op : Op) : Option Event :=
  match step w op with
  | .ok (_, rc) => rc.event
  | .error _ => none

theorem eventOf_some {w : World} {op : Op} {ev : Event} (h : eventOf w op = some ev) :
    ∃ w' rc, step w op = .ok (w', rc) ∧ rc.event = some ev := by
  unfold eventOf at h
  split at h
  · next w' rc hs => exact ⟨w', rc, hs, h⟩
  · cases h

/-- `alice` pays into `bob`'s escrow. -/
def giftAcc : DepositAcc := { depositAcc bob aliceQuote 50 with payer := alice }

def gift : Op := .ix (tx [alice]) (.deposit giftAcc)

end Ex

/-- **C59**: the address called `owner` in `EvtDeposit` is the payer's and need not be the owner of the
escrow: a reader must not credit it with the deposit. -/
theorem C59_deposit_owner_is_payer : ∃ w w' rc P E e n eTotal pTotal payer fee op, Reachable w ∧
    step w op = .ok (w', rc) ∧ rc.event = some (.deposit P E n eTotal pTotal payer fee) ∧
    w.escrows.get? E = some e ∧ e.owner ≠ payer := by
  have h : Ex.eventOf Ex.prorataOpen Ex.gift =
      some (.deposit Ex.sale (Ex.escrowOf Ex.bob) 50 650 1550 Ex.alice 2) := by decide +kernel
  obtain ⟨w', rc, hs, hrc⟩ := Ex.eventOf_some h
  have he : ∃ e, Ex.prorataOpen.escrows.get? (Ex.escrowOf Ex.bob) = some e ∧ e.owner = Ex.bob :=
    by
      have hb : ((Ex.prorataOpen.escrows.get? (Ex.escrowOf Ex.bob)).map Escrow.owner) = some Ex.bob := by
        decide +kernel
      obtain ⟨e, h1, h2⟩ := Option.map_eq_some_iff.1 hb
      exact ⟨e, h1, h2⟩
  obtain ⟨e, he1, he2⟩ := he
  exact ⟨Ex.prorataOpen, w', rc, _, _, e, _, _, _, _, _, Ex.gift, ⟨Ex.genesis, Ex.prorataOps, Ex.genesis_ok, rfl⟩,
    hs, hrc, he1, by rw [he2]; decide⟩

end Verif
