import Verif.Lemmas.Origin
import Verif.Props.Ledger
/-!
# How a sale may evolve

C03 (frozen totals), C05 (personal caps are fixed), C16 (outcome irreversible), C17 (phase gating),
C18 (early finish), C32 (terms immutable), C45 (mode data).
-/

namespace Verif
open Spec

theorem endsEarly_iff {p : Presale} {h : Handler} (hh : getPresaleModeHandler p = .ok h) :
    h.endsEarly = true ↔ EarlyEndAllowed p := by
  unfold EarlyEndAllowed
  rcases handler_cases hh with ⟨h1, rfl⟩ | ⟨h1, rfl⟩ | ⟨h1, h2, rfl⟩
  · simp [Handler.endsEarly, h1]
  · simp [Handler.endsEarly, h1]
  · simp [Handler.endsEarly, h1, h2]

/-! ## C03 -/

/-- **C03**, frozen totals. Once a sale is over, no history changes the recorded deposits and fees, of the
sale or of any registry. -/
theorem C03_frozen {w : World} (R : Reachable w) {a : Addr} {p : Presale} (hp : w.presales a = some p)
    (ho : Over p w.clock) (ops : List Op) :
    ∃ p', (run w ops).presales a = some p' ∧ p'.totalDeposit = p.totalDeposit ∧
      p'.totalDepositFee = p.totalDepositFee ∧ p'.presaleEndTime = p.presaleEndTime ∧
      p'.registries.map Registry.totalDeposit = p.registries.map Registry.totalDeposit ∧
      p'.registries.map Registry.totalDepositFee = p.registries.map Registry.totalDepositFee := by
  obtain ⟨p', hp', L⟩ := run_later R.winv ops hp
  have hb := L.frozen ho
  have hr : p'.registries.map registryBooks = p.registries.map registryBooks :=
    (congrArg Presale.registries hb :)
  refine ⟨p', hp', (congrArg Presale.totalDeposit hb :), (congrArg Presale.totalDepositFee hb :),
    (congrArg Presale.presaleEndTime hb :), ?_, ?_⟩
  · have := congrArg (List.map Registry.totalDeposit) hr
    simpa [List.map_map, Function.comp_def, registryBooks] using this
  · have := congrArg (List.map Registry.totalDepositFee) hr
    simpa [List.map_map, Function.comp_def, registryBooks] using this

/-! ## C05 -/

/-- **C05**, personal caps. Every open escrow was opened by a successful instruction of the history; its
owner, registry and cap have been the same in every state since; and the cap is the registry maximum in
permissionless sales, the one named by the operator or proved by the merkle proof otherwise. -/
theorem C05_cap_fixed {w0 : World} (G : Genesis w0) (ops : List Op) {k : Addr} {e : Escrow}
    (he : (run w0 ops).escrows.get? k = some e) :
    ∃ pre tx i post p, ops = pre ++ Op.ix tx i :: post ∧
      (run w0 pre).escrows.get? k = none ∧ (run w0 pre).presales e.presale = some p ∧
      ((∃ x r, i = .createEscrow x ∧ x.presale = e.presale ∧ x.owner = e.owner ∧ e.registryIndex = 0 ∧
          p.registries[0]? = some r ∧ e.depositMaxCap = r.buyerMaximumDepositCap) ∨
        (∃ x, i = .createEscrowCreator x ∧ x.presale = e.presale ∧ x.owner = e.owner ∧
          x.registryIndex = e.registryIndex ∧ x.depositCap = e.depositMaxCap) ∨
        (∃ x, i = .createEscrowMerkle x ∧ x.presale = e.presale ∧ x.owner = e.owner ∧
          x.registryIndex = e.registryIndex ∧ x.depositCap = e.depositMaxCap)) ∧
      ∀ mid rest, post = mid ++ rest →
        ∃ e', (run w0 (pre ++ .ix tx i :: mid)).escrows.get? k = some e' ∧ e'.presale = e.presale ∧
          e'.owner = e.owner ∧ e'.registryIndex = e.registryIndex ∧ e'.depositMaxCap = e.depositMaxCap := by
  obtain ⟨pre, op, post, rc, e0, h1, h2, h3, h4, h5, h6⟩ := escrow_origin G ops he
  obtain ⟨tx, i, p, rfl, hp, _, _, _, _, O⟩ := step_opening (G.winv.run pre) h2 h3 h4
  rw [← h5.presale, ← h5.owner, ← h5.index, ← h5.cap] at O
  rw [← h5.presale] at hp
  refine ⟨pre, tx, i, post, p, h1, h3, hp, ?_, ?_⟩
  · cases O with
    | anybody g1 g2 g3 g4 g5 => exact .inl ⟨_, _, rfl, g1, g2, g3, g4, g5⟩
    | operator g1 g2 g3 g4 => exact .inr (.inl ⟨_, rfl, g1, g2, g3, g4⟩)
    | proof g1 g2 g3 g4 => exact .inr (.inr ⟨_, rfl, g1, g2, g3, g4⟩)
  · intro mid rest hm
    obtain ⟨e', he', I⟩ := h6 mid rest hm
    exact ⟨e', he', I.presale.trans h5.presale.symm, I.owner.trans h5.owner.symm,
      I.index.trans h5.index.symm, I.cap.trans h5.cap.symm⟩

/-! ## C16 -/

/-- **C16.** The outcome of a sale is final and a started sale stays started, whatever happens. -/
theorem C16_irreversible {w : World} (R : Reachable w) {a : Addr} {p : Presale} (hp : w.presales a = some p)
    (ops : List Op) :
    ∃ p', (run w ops).presales a = some p' ∧
      (Completed p w.clock → Completed p' (run w ops).clock) ∧
      (Failed p w.clock → Failed p' (run w ops).clock) ∧
      (Over p w.clock → Over p' (run w ops).clock) ∧
      ((p.presaleStartTime : Int) ≤ w.clock → (p'.presaleStartTime : Int) ≤ (run w ops).clock) := by
  obtain ⟨p', hp', L⟩ := run_later R.winv ops hp
  refine ⟨p', hp', ?_, ?_, L.over, ?_⟩
  · rintro ⟨h1, h2⟩
    have hb := L.frozen h1
    refine ⟨L.over h1, ?_⟩
    have e1 : p'.totalDeposit = p.totalDeposit := (congrArg Presale.totalDeposit hb :)
    have e2 : p'.presaleMinimumCap = p.presaleMinimumCap := (congrArg Presale.presaleMinimumCap hb :)
    rw [e1, e2]
    exact h2
  · rintro ⟨h1, h2⟩
    have hb := L.frozen h1
    refine ⟨L.over h1, ?_⟩
    have e1 : p'.totalDeposit = p.totalDeposit := (congrArg Presale.totalDeposit hb :)
    have e2 : p'.presaleMinimumCap = p.presaleMinimumCap := (congrArg Presale.presaleMinimumCap hb :)
    rw [e1, e2]
    exact h2
  · intro h
    have e1 : p'.presaleStartTime = p.presaleStartTime := (congrArg Presale.presaleStartTime L.terms :)
    rw [e1]
    exact Int.le_trans h L.clock

/-! ## C17 -/

/-- The presale an instruction that moves money or opens escrows works on, with the phase it needs. -/
def neededPhase : Ix → Option (Addr × (Presale → Int → Prop))
  | .createEscrow x => some (x.presale, Ongoing)
  | .createEscrowCreator x => some (x.presale, Ongoing)
  | .createEscrowMerkle x => some (x.presale, Ongoing)
  | .deposit x => some (x.presale, Ongoing)
  | .withdraw x => some (x.presale, Ongoing)
  | .claim x => some (x.presale, Completed)
  | .collectFee x => some (x.presale, Completed)
  | .unsold x => some (x.presale, Completed)
  | .creatorWithdraw x => some (x.presale, Over)
  | .refund x => some (x.presale, fun p now => Failed p now ∨ (Completed p now ∧ p.presaleMode = 1))
  | .closeEscrow x => some (x.presale, fun p now => (p.presaleStartTime : Int) ≤ now)
  | _ => none

/-- **C17.** An instruction succeeds only in its phase. -/
theorem C17_phases {w w' : World} (R : Reachable w) {tx : Tx} {i : Ix} {rc : Receipt}
    (hs : step w (.ix tx i) = .ok (w', rc)) {a : Addr} {P : Presale → Int → Prop}
    (hP : neededPhase i = some (a, P)) : ∃ p, w.presales a = some p ∧ P p w.clock := by
  have W := R.winv
  cases i with
  | createEscrow x =>
    cases hP
    obtain ⟨p, r, p', F, G⟩ := handleCreateEscrow_iff.1 hs
    exact ⟨p, F.presale, (W.core.sale _ _ F.presale).progress_ongoing.1 G.progress⟩
  | createEscrowCreator x =>
    cases hP
    obtain ⟨p, o, r, p', F, G⟩ := handleCreateEscrowCreator_iff.1 hs
    exact ⟨p, F.presale, (W.core.sale _ _ F.presale).progress_ongoing.1 G.progress⟩
  | createEscrowMerkle x =>
    cases hP
    obtain ⟨p, o, r, p', F, G⟩ := handleCreateEscrowMerkle_iff.1 hs
    exact ⟨p, F.presale, (W.core.sale _ _ F.presale).progress_ongoing.1 G.progress⟩
  | deposit x =>
    cases hP
    obtain ⟨p, m, e, d, inc, hooks, rest, tk, cpi, F⟩ := handleDeposit_iff.1 hs
    obtain ⟨h, q, r, D⟩ := depositCore_iff.1 F.core
    exact ⟨p, F.presale, (W.core.sale _ _ F.presale).progress_ongoing.1 (progress_ongoing.2 ⟨D.started, D.open_⟩)⟩
  | withdraw x =>
    cases hP
    obtain ⟨p, m, e, p', e', n, hooks, rest, tk, cpi, ex, F⟩ := handleWithdraw_iff.1 hs
    obtain ⟨h, r, D⟩ := withdrawCore_iff.1 F.core
    exact ⟨p, F.presale, (W.core.sale _ _ F.presale).progress_ongoing.1 (progress_ongoing.2 ⟨D.started, D.open_⟩)⟩
  | claim x =>
    cases hP
    obtain ⟨p, m, e, h, e1, ex, F⟩ := handleClaim_iff.1 hs
    exact ⟨p, F.presale, (W.core.sale _ _ F.presale).progress_completed.1 F.progress⟩
  | collectFee x =>
    cases hP
    obtain ⟨p, m, fee, ex, F⟩ := handleCollectFee_iff.1 hs
    exact ⟨p, F.presale, (W.core.sale _ _ F.presale).progress_completed.1 F.progress.1⟩
  | unsold x =>
    cases hP
    obtain ⟨p, c, h, u, tk, cpi, F⟩ := handleUnsold_iff.1 hs
    exact ⟨p, F.presale, (W.core.sale _ _ F.presale).progress_completed.1 F.progress⟩
  | creatorWithdraw x =>
    cases hP
    obtain ⟨p, c, hooks, rest, tk, cpi, m, ex, F⟩ := handleCreatorWithdraw_iff.1 hs
    have S := W.core.sale _ _ F.presale
    rcases F.progress with h | h
    · exact ⟨p, F.presale, (S.progress_completed.1 h).1⟩
    · exact ⟨p, F.presale, (S.progress_failed.1 h).1⟩
  | refund x =>
    cases hP
    obtain ⟨p, m, e, q, p', hooks, rest, ex, F⟩ := handleRefund_iff.1 hs
    have S := W.core.sale _ _ F.presale
    have h1 := refundQuote_phase F.quote
    refine ⟨p, F.presale, ?_⟩
    rcases h1.2.2 with h | h
    · exact .inl ⟨S.over.2 h1.2.1, h⟩
    · exact .inr ⟨⟨S.over.2 h1.2.1, h.1⟩, h.2⟩
  | closeEscrow x =>
    cases hP
    obtain ⟨p, e, p', F⟩ := handleCloseEscrow_iff.1 hs
    have S := W.core.sale _ _ F.presale
    refine ⟨p, F.presale, ?_⟩
    show (p.presaleStartTime : Int) ≤ w.clock
    have h := F.checks
    have h0 := F.clock
    unfold closeChecks at h
    split at h
    · next h1 => have := progress_ongoing.1 h1; omega
    · next h1 => have := S.progress_failed.1 h1; have := S.pinv.sched.order; unfold Failed Over at *; omega
    · next h1 => have := S.progress_completed.1 h1; have := S.pinv.sched.order; unfold Completed Over at *; omega
    · cases h
  | _ => cases hP

/-! ## C18 -/

/-- **C18.** A deposit either leaves all dates alone, because the cap is not filled or an early end is not
allowed, or fills the cap and completes the sale at this instant, the release dates keeping their distance
to the end. -/
theorem C18_early_finish {w w' : World} (R : Reachable w) {tx : Tx} {x : DepositAcc} {rc : Receipt}
    (hs : step w (.ix tx (.deposit x)) = .ok (w', rc)) :
    ∃ p p', w.presales x.presale = some p ∧ w'.presales x.presale = some p' ∧ w'.clock = w.clock ∧
      ((EarlyEndAllowed p ∧ p.presaleMaximumCap ≤ p'.totalDeposit ∧
          (p'.presaleEndTime : Int) = w.clock ∧ p'.presaleEndTime < p.presaleEndTime ∧
          Completed p' w'.clock ∧
          p'.vestingStartTime = p'.presaleEndTime + p.lockDuration ∧
          p'.vestingEndTime = p'.vestingStartTime + p.vestDuration ∧
          p'.immediateReleaseTimestamp = p'.presaleEndTime + (p.immediateReleaseTimestamp - p.presaleEndTime)) ∨
        (¬ (EarlyEndAllowed p ∧ p.presaleMaximumCap ≤ p'.totalDeposit) ∧
          p'.presaleEndTime = p.presaleEndTime ∧ p'.vestingStartTime = p.vestingStartTime ∧
          p'.vestingEndTime = p.vestingEndTime ∧
          p'.immediateReleaseTimestamp = p.immediateReleaseTimestamp)) := by
  have W := R.winv
  obtain ⟨p, m, e, d, inc, hooks, rest, tk, cpi, F⟩ := handleDeposit_iff.1 hs
  obtain ⟨h, q, r, D⟩ := depositCore_iff.1 F.core
  have S := W.core.sale _ _ F.presale
  have hp' : w'.presales x.presale = some d.presale := by rw [F.post]; exact upd_self _ _ _
  have hc : w'.clock = w.clock := by rw [F.post]
  refine ⟨p, d.presale, F.presale, hp', hc, ?_⟩
  have h0 := S.clock
  have hst := S.pinv.static.minLe
  have ho := D.open_
  rcases D.result with ⟨h1, h2, h3⟩ | ⟨h1, h2⟩
  · left
    rw [h1]
    refine ⟨(endsEarly_iff D.handler).1 h2, h3, ?_, D.open_, ⟨?_, ?_⟩, rfl, rfl, rfl⟩
    · show ((w.clock.toNat : Nat) : Int) = w.clock; omega
    · show ((w.clock.toNat : Nat) : Int) ≤ w'.clock; omega
    · show p.presaleMinimumCap ≤ p.totalDeposit + d.amount; omega
  · right
    rw [h1]
    refine ⟨?_, rfl, rfl, rfl, rfl⟩
    rintro ⟨g1, g2⟩
    exact h2 ⟨(endsEarly_iff D.handler).2 g1, g2⟩

/-- **C18**, nothing else touches the schedule: whenever a step changes a date of a presale, it is a deposit
into that presale. -/
theorem C18_only_deposits {w w' : World} (R : Reachable w) {op : Op} {rc : Receipt}
    (hs : step w op = .ok (w', rc)) {a : Addr} {p p' : Presale} (hp : w.presales a = some p)
    (hp' : w'.presales a = some p') :
    (p'.presaleStartTime = p.presaleStartTime ∧ p'.presaleEndTime = p.presaleEndTime ∧
      p'.vestingStartTime = p.vestingStartTime ∧ p'.vestingEndTime = p.vestingEndTime ∧
      p'.immediateReleaseTimestamp = p.immediateReleaseTimestamp ∧ p'.lockDuration = p.lockDuration ∧
      p'.vestDuration = p.vestDuration) ∨
    ∃ tx x, op = .ix tx (.deposit x) ∧ x.presale = a := by
  have W := R.winv
  have E := step_effect W hs
  obtain ⟨p1, h1, L⟩ := E.later W hp
  rw [hp'] at h1; cases h1
  have t1 : p'.presaleStartTime = p.presaleStartTime := (congrArg Presale.presaleStartTime L.terms :)
  have t2 : p'.lockDuration = p.lockDuration := (congrArg Presale.lockDuration L.terms :)
  have t3 : p'.vestDuration = p.vestDuration := (congrArg Presale.vestDuration L.terms :)
  have same : SameDates p p' ∨ ∃ tx x, op = .ix tx (.deposit x) ∧ x.presale = a := by
    cases E with
    | quiet h => rw [h, hp] at hp'; cases hp'; exact .inl ⟨rfl, rfl, rfl, rfl⟩
    | @create tx x q h1 h2 h3 h4 h5 h6 =>
      have hne : a ≠ x.presaleKey := by rintro rfl; rw [hp] at h2; cases h2
      rw [h4, upd_other _ _ hne, hp] at hp'; cases hp'; exact .inl ⟨rfl, rfl, rfl, rfl⟩
    | @act tx i b q q' es' h1 h2 h3 h4 h5 h6 =>
      by_cases hb : a = b
      · subst hb
        rw [hp] at h2; cases h2
        rw [h4, upd_self] at hp'; cases hp'
        rcases h3.dates with h | ⟨x, rfl, h, _⟩
        · exact .inl h
        · exact .inr ⟨tx, x, h1, h⟩
      · rw [h4, upd_other _ _ hb, hp] at hp'; cases hp'; exact .inl ⟨rfl, rfl, rfl, rfl⟩
  rcases same with h | h
  · exact .inl ⟨t1, h.fin, h.start, h.stop, h.imm, t2, t3⟩
  · exact .inr h

/-- **C18**, the recomputation of the dates cannot overflow: while a sale is open, recomputing them after
recording any deposit succeeds. -/
theorem C18_no_overflow {w : World} (R : Reachable w) {a : Addr} {p : Presale} (hp : w.presales a = some p)
    (ho : ¬ Over p w.clock) (i : Nat) (r : Registry) (x f : Nat) :
    ∃ p', (p.credited i r x f).recalculatePresaleTiming w.clock.toNat = .ok p' := by
  have S := R.winv.core.sale a p hp
  rw [S.over] at ho
  have h1 := S.pinv.sched.range
  have h2 := S.pinv.sched.immLe
  refine ⟨_, recalculate_iff.2 ⟨?_, ?_, ?_, rfl⟩⟩
  all_goals simp only [Presale.credited]
  all_goals omega

/-! ## C32 -/

/-- **C32.** Over any history a presale stays, keeps its terms, and its end moves only forward in the
sense of becoming earlier: only if its cap got filled while an early end is allowed, to the instant that
happened. -/
theorem C32_terms_immutable {w : World} (R : Reachable w) {a : Addr} {p : Presale} (hp : w.presales a = some p)
    (ops : List Op) :
    ∃ p', (run w ops).presales a = some p' ∧ terms p' = terms p ∧ p'.presaleEndTime ≤ p.presaleEndTime ∧
      (p'.presaleEndTime ≠ p.presaleEndTime →
        EarlyEndAllowed p ∧ p.presaleMaximumCap ≤ p'.totalDeposit ∧ w.clock < p.presaleEndTime ∧
        w.clock ≤ p'.presaleEndTime ∧ (p'.presaleEndTime : Int) ≤ (run w ops).clock) := by
  obtain ⟨p', hp', L⟩ := run_later R.winv ops hp
  refine ⟨p', hp', L.terms, L.shifted.earlier, ?_⟩
  intro hne
  rcases L.early with h | ⟨h1, h2, h3, _, h4, h, h5, h6⟩
  · exact (hne h.fin).elim
  · refine ⟨(endsEarly_iff h5).1 h6, ?_, h1, h2, h3⟩
    have e1 : p'.presaleMaximumCap = p.presaleMaximumCap := (congrArg Presale.presaleMaximumCap L.terms :)
    rw [← e1]
    exact h4

/-- **C32**, read field by field: what `terms` keeps. -/
theorem C32_fields {p p' : Presale} (h : terms p' = terms p) :
    p'.owner = p.owner ∧ p'.base = p.base ∧ p'.baseMint = p.baseMint ∧ p'.quoteMint = p.quoteMint ∧
    p'.baseTokenVault = p.baseTokenVault ∧ p'.quoteTokenVault = p.quoteTokenVault ∧
    p'.presaleMinimumCap = p.presaleMinimumCap ∧ p'.presaleMaximumCap = p.presaleMaximumCap ∧
    p'.presaleSupply = p.presaleSupply ∧ p'.presaleStartTime = p.presaleStartTime ∧
    p'.presaleMode = p.presaleMode ∧ p'.whitelistMode = p.whitelistMode ∧ p'.raw0 = p.raw0 ∧
    p'.raw1 = p.raw1 ∧ p'.lockDuration = p.lockDuration ∧ p'.vestDuration = p.vestDuration ∧
    p'.immediateReleaseBps = p.immediateReleaseBps ∧ p'.unsoldTokenAction = p.unsoldTokenAction ∧
    p'.totalPresaleRegistryCount = p.totalPresaleRegistryCount ∧ p'.createdAt = p.createdAt ∧
    p'.registries.map (fun r => (r.presaleSupply, r.buyerMinimumDepositCap, r.buyerMaximumDepositCap,
        r.depositFeeBps)) =
      p.registries.map (fun r => (r.presaleSupply, r.buyerMinimumDepositCap, r.buyerMaximumDepositCap,
        r.depositFeeBps)) := by
  refine ⟨(congrArg Presale.owner h :), (congrArg Presale.base h :), (congrArg Presale.baseMint h :),
    (congrArg Presale.quoteMint h :), (congrArg Presale.baseTokenVault h :),
    (congrArg Presale.quoteTokenVault h :), (congrArg Presale.presaleMinimumCap h :),
    (congrArg Presale.presaleMaximumCap h :), (congrArg Presale.presaleSupply h :),
    (congrArg Presale.presaleStartTime h :), (congrArg Presale.presaleMode h :),
    (congrArg Presale.whitelistMode h :), (congrArg Presale.raw0 h :), (congrArg Presale.raw1 h :),
    (congrArg Presale.lockDuration h :), (congrArg Presale.vestDuration h :),
    (congrArg Presale.immediateReleaseBps h :), (congrArg Presale.unsoldTokenAction h :),
    (congrArg Presale.totalPresaleRegistryCount h :), (congrArg Presale.createdAt h :), ?_⟩
  have hr : p'.registries.map registryTerms = p.registries.map registryTerms :=
    (congrArg Presale.registries h :)
  have := congrArg (List.map (fun r : Registry => (r.presaleSupply, r.buyerMinimumDepositCap,
    r.buyerMaximumDepositCap, r.depositFeeBps))) hr
  simpa [List.map_map, Function.comp_def, registryTerms] using this

/-! ## C45 -/

/-- **C45.** Whatever happens after a presale was created, its mode data decodes to what its creation
configured: the mode byte, and the price and flags from the fixed-price parameter account named there. -/
theorem C45_mode_data {w w' : World} (R : Reachable w) {tx : Tx} {x : InitPresaleAcc} {rc : Receipt}
    (hs : step w (.ix tx (.initPresale x)) = .ok (w', rc)) (ops : List Op) :
    ∃ p, (run w' ops).presales x.presaleKey = some p ∧
      p.presaleMode = x.args.presaleParams.presaleMode ∧
      (p.presaleMode = 1 → getPresaleModeHandler p = .ok .prorata) ∧
      (p.presaleMode = 2 →
        getPresaleModeHandler p = .ok (.fcfs x.args.presaleParams.disableEarlierPresaleEndOnceCapReached)) ∧
      (p.presaleMode ≠ 1 → p.presaleMode ≠ 2 → ∃ acc args, x.remaining.head? = some acc ∧
        w.fixedArgs acc = some args ∧ args.presale = x.presaleKey ∧
        getPresaleModeHandler p = .ok (.fixedPrice args.qPrice args.disableWithdraw
          x.args.presaleParams.disableEarlierPresaleEndOnceCapReached)) := by
  have W := R.winv
  have W' : WInv w' := W.step hs
  obtain ⟨bm, qm, p, rem, supply, inc, hooks, rest, tk, cpi, F⟩ := handleInitPresale_iff.1 hs
  have hp : w'.presales x.presaleKey = some p := by rw [F.post]; exact upd_self _ _ _
  obtain ⟨p', hp', L⟩ := run_later W' ops hp
  obtain ⟨hd, hh⟩ := (W'.core.sale _ _ hp).pinv.static.handler
  obtain ⟨k', _, _, _, hC⟩ := processCreate_ok F.create
  have hS := hC.shape rfl rfl
  have hV := (validate_ok F.valid).sale.early
  have f4 : p.presaleMode = x.args.presaleParams.presaleMode := by rw [hS.shape]; rfl
  have hm : p'.presaleMode = p.presaleMode := (congrArg Presale.presaleMode L.terms :)
  refine ⟨p', hp', hm.trans f4, ?_, ?_, ?_⟩
  · intro h
    rw [hm] at h
    rw [handler_of_terms L.terms, hh]
    rcases handler_cases hh with ⟨_, rfl⟩ | ⟨h1, _⟩ | ⟨h1, _⟩
    · rfl
    · omega
    · omega
  · intro h
    rw [hm] at h
    rw [handler_of_terms L.terms, hh]
    rcases handler_cases hh with ⟨h1, _⟩ | ⟨_, rfl⟩ | ⟨_, h1, _⟩
    · omega
    · have hmd := hS.modeData
      rcases hmd with ⟨g, _⟩ | ⟨g, g1, _⟩ | ⟨_, g, _⟩
      · exfalso; have : p.presaleMode = 1 := by rw [hS.shape]; exact g
        omega
      · rw [g1, Nat.mod_eq_of_lt (by omega)]
      · exfalso; apply g; have : p.presaleMode = (Presale.blank x.keys x.args.presaleParams x.args.presaleRegistries k' w.clock.toNat).presaleMode := by rw [hS.shape]
        omega
    · omega
  · intro h1 h2
    rw [hm] at h1 h2
    rw [handler_of_terms L.terms, hh]
    have hb : p.presaleMode = (Presale.blank x.keys x.args.presaleParams x.args.presaleRegistries k'
      w.clock.toNat).presaleMode := by rw [hS.shape]
    rcases hS.modeData with ⟨g, _⟩ | ⟨g, g1, _⟩ | ⟨_, _, acc, args, g1, g2, g3, g4, g5⟩
    · omega
    · omega
    · refine ⟨acc, args, by rw [g1]; rfl, g2, g3, ?_⟩
      have hA := (W.aux.fixed _ _ g2).2.2.2
      rcases handler_cases hh with ⟨c1, _⟩ | ⟨c1, _⟩ | ⟨_, _, rfl⟩
      · omega
      · omega
      · rw [g4, g5]
        congr 2
        · omega
        · omega

/-- **C45**, every presale comes from such a creation, and its mode always decodes. -/
theorem C45_always_decodes {w0 : World} (G : Genesis w0) (ops : List Op) {a : Addr} {p : Presale}
    (hp : (run w0 ops).presales a = some p) :
    (∃ h, getPresaleModeHandler p = .ok h) ∧
    ∃ pre tx x post rc, ops = pre ++ Op.ix tx (.initPresale x) :: post ∧ x.presaleKey = a ∧
      step (run w0 pre) (.ix tx (.initPresale x)) = .ok (run w0 (pre ++ [.ix tx (.initPresale x)]), rc) :=
  ⟨((G.winv.run ops).core.sale a p hp).pinv.static.handler, presale_origin G ops hp⟩

/-! ## The hypotheses are met -/

namespace Ex

/-- The early finish: the second deposit is cut to the 100 left, ends the sale at 1020 instead of 1600 and
moves the immediate release from 1650 to 1070 and the vesting start from 1700 to 1120. -/
example : works fcfsOpen (deposit bob bobQuote 600) = true ∧
    has fcfsOpen (fun p => decide (p.presaleEndTime = 1600 ∧ p.vestingStartTime = 1700 ∧
      p.immediateReleaseTimestamp = 1650 ∧ p.presaleMode = 2 ∧ p.raw0 % 256 = 0)) = true ∧
    has fcfsEarly (fun p => decide (p.presaleEndTime = 1020 ∧ p.vestingStartTime = 1120 ∧
      p.immediateReleaseTimestamp = 1070 ∧ (p.presaleEndTime : Int) ≤ fcfsEarly.clock)) = true := by
  decide +kernel

/-- Instructions of every phase succeed somewhere. -/
example : works prorataOpen (withdraw alice aliceQuote 100) = true ∧
    works prorataDone (claim alice aliceBase) = true ∧ works prorataDone (refund alice aliceQuote) = true ∧
    works prorataDone collectFee = true ∧ works prorataDone (creatorWithdraw creatorWithdrawAcc) = true ∧
    works fixedDone unsold = true ∧ works failedDone (refund alice aliceQuote) = true ∧
    works failedDone (closeEscrow bob) = true ∧
    works failedDone (creatorWithdraw creatorWithdrawBaseAcc) = true := by
  decide +kernel

/-- Histories continuing after the end, and an escrow opened along the way. -/
example : has prorataDone (fun p => decide ((p.presaleEndTime : Int) ≤ prorataDone.clock)) = true ∧
    (run prorataDone [claim alice aliceBase, refund bob bobQuote, collectFee]).escrows.length = 2 ∧
    hasEsc prorataOpen (escrowOf bob) (fun e => decide (e.depositMaxCap = 1000 ∧ e.createdAt = 1010)) = true := by
  decide +kernel

/-- Presales of all three modes are created. -/
example : works genesis (init 1 0 0 reg1) = true ∧ works genesis (init 2 0 0 reg1) = true ∧
    works (run genesis [fixedArgsOp]) (init 0 0 1 reg1) = true := by
  decide +kernel

end Ex

/-! ## Writing the mode data over anything -/

/-- Byte `j` of a word, counted from the least significant. -/
def Spec.wordByte (n j : Nat) : Nat := n / 256 ^ j % 256

theorem wordByte_succ (n j : Nat) : Spec.wordByte n (j + 1) = Spec.wordByte (n / 256) j := by
  unfold Spec.wordByte
  rw [Nat.div_div_eq_div_mul, Nat.pow_succ']

/-- **C45** (writing). Whatever the mode data held, the first-come handler replaces its byte 0 by the flag and leaves
every other byte and field. -/
theorem C45_fcfs_written (p : Presale) {flag : Nat} (hf : flag < 256) :
    (∀ j, Spec.wordByte (p.writeFcfsData flag).raw0 j = if j = 0 then flag else Spec.wordByte p.raw0 j) ∧
    { p.writeFcfsData flag with raw0 := p.raw0 } = p := by
  refine ⟨fun j => ?_, rfl⟩
  cases j with
  | zero =>
    simp only [Spec.wordByte, Presale.writeFcfsData, pow_zero, Nat.div_one, if_true]
    omega
  | succ j =>
    rw [wordByte_succ, wordByte_succ, if_neg (Nat.succ_ne_zero j)]
    have : (p.writeFcfsData flag).raw0 / 256 = p.raw0 / 256 := by
      simp only [Presale.writeFcfsData]
      omega
    rw [this]

/-- **C45** (writing). Whatever the mode data held, the fixed-price handler replaces the first word by the price, bytes 0
and 1 of the second word by the two flags, and leaves every other byte and field. -/
theorem C45_fixed_written (p : Presale) {price early keep : Nat} (he : early < 256) (hk : keep < 256) :
    (p.writeFixedPriceData price early keep).raw0 = price ∧
    (∀ j, Spec.wordByte (p.writeFixedPriceData price early keep).raw1 j =
      if j = 0 then keep else if j = 1 then early else Spec.wordByte p.raw1 j) ∧
    { p.writeFixedPriceData price early keep with raw0 := p.raw0, raw1 := p.raw1 } = p := by
  refine ⟨rfl, fun j => ?_, rfl⟩
  have e : (p.writeFixedPriceData price early keep).raw1 = p.raw1 - p.raw1 % 65536 + keep + 256 * early := rfl
  rw [e]
  match j with
  | 0 =>
    simp only [Spec.wordByte, pow_zero, Nat.div_one, if_true]
    omega
  | 1 =>
    simp only [Spec.wordByte, pow_one, if_true, one_ne_zero, if_false]
    omega
  | j + 2 =>
    rw [wordByte_succ, wordByte_succ, wordByte_succ, wordByte_succ, if_neg (by omega), if_neg (by omega)]
    congr 1
    omega

/-- A word with all bytes set, and flags 1 and 0 written into it. -/
example : (Ex.prorataOpen.presales Ex.sale).map (fun p => (List.range 4).map (Spec.wordByte
    (({ p with raw1 := 2 ^ 128 - 1 } : Presale).writeFixedPriceData 5 1 0).raw1)) = some [0, 1, 255, 255] := by
  decide +kernel

end Verif
