import Verif.Lemmas.After
import Verif.Lemmas.Exact
import Verif.Props.Deposit
/-!
# Claims of bought tokens
-/

namespace Verif
open Spec

/-- What a successful claim paying `n` did. -/
structure Claimed (w w' : World) (tx : Tx) (x : ClaimAcc) (p p' : Presale) (e e' : Escrow)
    (r r' : Registry) (n : Nat) : Prop where
  presale : w.presales x.presale = some p
  presale' : w'.presales x.presale = some p'
  escrow : w.escrows.get? x.escrow = some e
  escrow' : w'.escrows.get? x.escrow = some e'
  registry : p.registries[e.registryIndex]? = some r
  registry' : p'.registries[e.registryIndex]? = some r'
  /-- only the owner of the escrow, only in a completed sale -/
  owner : e.presale = x.presale ∧ e.owner = x.owner ∧ tx.signed e.owner = true
  completed : Completed p w.clock
  /-- afterwards everything released so far has been paid -/
  total : e'.totalClaimedToken = claimableAt p r e w.clock.toNat
  /-- what is recorded -/
  escrowNow : e' = { e with totalClaimedToken := e.totalClaimedToken + n, pendingClaimToken := 0,
                            lastRefreshedAt := w.clock.toNat }
  registryNow : r' = { r with totalClaimedToken := r.totalClaimedToken + n }
  presaleNow : p' = { p with registries := p.registries.set e.registryIndex r',
                             totalClaimedToken := p.totalClaimedToken + n }
  clock : w'.clock = w.clock
  /-- what is paid -/
  moved : (n = 0 ∧ w'.tk = w.tk) ∨
    (0 < n ∧ Transferred w.tk w'.tk p.baseMint p.baseTokenVault x.ownerBaseToken n)

theorem registry_self {p : Presale} {i : Nat} {r : Registry} (hr : p.registries[i]? = some r) :
    p.registries.set i r = p.registries := by
  obtain ⟨hlt, hv⟩ := List.getElem?_eq_some_iff.1 hr
  rw [← hv, List.set_getElem_self]

/-- `C13_claim` from the invariant alone (see C98). -/
theorem claim_spec_of {w : World} (W : WInv w) {tx : Tx} {x : ClaimAcc} {w' : World} {rc : Receipt}
    (h : step w (.ix tx (.claim x)) = .ok (w', rc)) :
    ∃ p p' e e' r r' n, Claimed w w' tx x p p' e e' r r' n := by
  obtain ⟨p, m, e, hd, e1, ex, F⟩ := handleClaim_iff.1 h
  have S := W.core.sale _ _ F.presale
  obtain ⟨r, hr, E⟩ := S.pinv.escBook F.escrow F.belongs.1
  have hc := S.progress_completed.1 F.progress
  have hend := S.over.1 hc.1
  have hacc := S.pinv.accrue F.escrow F.belongs.1 hr F.handler hend hc.2
  rw [F.refresh] at hacc
  cases hacc
  have ht := E.taken_le hend hc.2
  have hown : e.presale = x.presale ∧ e.owner = x.owner ∧ tx.signed e.owner = true :=
    ⟨F.belongs.1, F.belongs.2, by rw [F.belongs.2]; exact F.signed⟩
  have hmint : p.baseMint = x.baseMint := F.vault.2
  have hvault : p.baseTokenVault = x.baseTokenVault := F.vault.1
  have hlt := (List.getElem?_eq_some_iff.1 hr).1
  rcases F.out with ⟨hpos, p', e', hooks, rest, tk, cpi, hcl, _, htr, hw, _⟩ | ⟨hz, hw, _⟩
  · obtain ⟨r0, hr0, _, _, _, rfl, rfl⟩ := claim_iff.1 hcl
    have : r0 = r := by
      have hr1 : p.registries[e.registryIndex]? = some r0 := hr0
      rw [hr] at hr1; cases hr1; rfl
    subst this
    subst hw
    refine ⟨p, _, e, _, r0, _, (e.accrued (claimableAt p r0 e w.clock.toNat) w.clock.toNat).pendingClaimToken,
      { presale := F.presale, presale' := upd_self _ _ _, escrow := F.escrow,
        escrow' := (AMap.get?_set _ _ _ _).trans (if_pos rfl), registry := hr,
        registry' := List.getElem?_set_self hlt, owner := hown, completed := hc, total := ?_,
        escrowNow := rfl, registryNow := rfl, presaleNow := rfl, clock := rfl, moved := .inr ⟨hpos, ?_⟩ }⟩
    · simp only [Escrow.paid, Escrow.accrued]; omega
    · rw [hmint, hvault]; exact transfer_spec (W.core.feeOk _) htr
  · subst hw
    have hz' : e.pendingClaimToken + (claimableAt p r e w.clock.toNat -
      (e.totalClaimedToken + e.pendingClaimToken)) = 0 := hz
    refine ⟨p, p, e, _, r, r, 0,
      { presale := F.presale, presale' := F.presale, escrow := F.escrow,
        escrow' := by rw [AMap.get?_set, if_pos rfl], registry := hr, registry' := hr, owner := hown,
        completed := hc, total := ?_,
        escrowNow := ?_, registryNow := rfl, presaleNow := ?_, clock := rfl, moved := .inl ⟨rfl, rfl⟩ }⟩
    · simp only [Escrow.accrued]; omega
    · simp only [Escrow.accrued, hz', Nat.add_zero]
    · rw [registry_self hr]; rfl

/-- **C13**, one claim: it pays the owner exactly what has been released by then and was not yet paid. -/
theorem C13_claim {w : World} (R : Reachable w) {tx : Tx} {x : ClaimAcc} {w' : World} {rc : Receipt}
    (h : step w (.ix tx (.claim x)) = .ok (w', rc)) :
    ∃ p p' e e' r r' n, Claimed w w' tx x p p' e e' r r' n :=
  claim_spec_of R.winv h

/-! ## C12: the schedule of an ended sale is fixed -/

/-- **C12.** Once a sale is over nothing anybody does changes what an escrow may have claimed at any time. -/
theorem C12_schedule_fixed {w : World} (R : Reachable w) {a k : Addr} {p : Presale}
    (hp : w.presales a = some p) (ho : Over p w.clock) (ops : List Op) {e' : Escrow}
    (hk : (run w ops).escrows.get? k = some e') (ha : e'.presale = a) :
    ∃ p' r' e r, (run w ops).presales a = some p' ∧ p'.registries[e'.registryIndex]? = some r' ∧
      w.escrows.get? k = some e ∧ e.presale = a ∧ p.registries[e.registryIndex]? = some r ∧
      ∀ t, claimableAt p' r' e' t = claimableAt p r e t := by
  obtain ⟨p', hp', L⟩ := run_later R.winv ops hp
  obtain ⟨e, he, A⟩ := run_after R.winv ops hp ho hk ha
  have hb := L.frozen ho
  have hea : e.presale = a := A.identity.presale.symm.trans ha
  obtain ⟨r, hr, _⟩ := (R.winv.core.sale a p hp).pinv.escBook he hea
  obtain ⟨r', hr', hrb⟩ := books_reg hb hr
  refine ⟨p', r', e, r, hp', by rw [A.identity.index]; exact hr', he, hea, hr, fun t => ?_⟩
  exact claimableAt_congr hb hrb A.deposit t

/-- **C12**, monotone in time, and never behind what was already booked: a refresh or claim cannot
underflow. -/
theorem C12_monotone {w : World} (R : Reachable w) {a k : Addr} {p : Presale}
    (hp : w.presales a = some p) (hc : Completed p w.clock) {e : Escrow}
    (hk : w.escrows.get? k = some e) (ha : e.presale = a) :
    ∃ r, p.registries[e.registryIndex]? = some r ∧
      (∀ t t', t ≤ t' → claimableAt p r e t ≤ claimableAt p r e t') ∧
      e.totalClaimedToken + e.pendingClaimToken ≤ claimableAt p r e w.clock.toNat := by
  have S := R.winv.core.sale a p hp
  obtain ⟨r, hr, E⟩ := S.pinv.escBook hk ha
  exact ⟨r, hr, fun _ _ h => claimableAt_mono p r e h, E.taken_le (S.over.1 hc.1) hc.2⟩

/-! ## C13: claims do not depend on the path -/

/-- **C13.** Whatever happened since the sale was over, after a successful claim the total received is what
the schedule gives for that time. -/
theorem C13_total {w : World} (R : Reachable w) {p : Presale} {tx : Tx} {x : ClaimAcc}
    (hp : w.presales x.presale = some p) (ho : Over p w.clock) (ops : List Op) {w' : World} {rc : Receipt}
    (h : step (run w ops) (.ix tx (.claim x)) = .ok (w', rc)) :
    ∃ e r e', w.escrows.get? x.escrow = some e ∧ p.registries[e.registryIndex]? = some r ∧
      w'.escrows.get? x.escrow = some e' ∧
      e'.totalClaimedToken = claimableAt p r e (run w ops).clock.toNat := by
  obtain ⟨p1, _, e1, e', r1, _, n, D⟩ := C13_claim (R.run ops) h
  obtain ⟨p', r', e, r, hp', hr', he, _, hr, hsame⟩ := C12_schedule_fixed R hp ho ops D.escrow D.owner.1
  rw [D.presale] at hp'
  cases hp'
  rw [D.registry] at hr'
  cases hr'
  exact ⟨e, r, e', he, hr, D.escrow', by rw [D.total, hsame]⟩

/-- **C13.** Two histories from a common state of an ended sale, however many claims and refreshes they
contain, leave the buyer with the same total after a claim at the same time. -/
theorem C13_path_independent {w : World} (R : Reachable w) {p : Presale} {tx1 tx2 : Tx} {x1 x2 : ClaimAcc}
    (hp : w.presales x1.presale = some p) (ho : Over p w.clock) (ops1 ops2 : List Op)
    (hx : x2.presale = x1.presale ∧ x2.escrow = x1.escrow)
    (ht : (run w ops1).clock = (run w ops2).clock) {w1 w2 : World} {rc1 rc2 : Receipt}
    (h1 : step (run w ops1) (.ix tx1 (.claim x1)) = .ok (w1, rc1))
    (h2 : step (run w ops2) (.ix tx2 (.claim x2)) = .ok (w2, rc2)) :
    ∃ e1 e2, w1.escrows.get? x1.escrow = some e1 ∧ w2.escrows.get? x1.escrow = some e2 ∧
      e1.totalClaimedToken = e2.totalClaimedToken := by
  obtain ⟨e, r, e1, he, hr, he1, ht1⟩ := C13_total R hp ho ops1 h1
  obtain ⟨e', r', e2, he', hr', he2, ht2⟩ := C13_total R (by rw [hx.1]; exact hp) ho ops2 h2
  rw [hx.2] at he' he2
  rw [he] at he'
  cases he'
  rw [hr] at hr'
  cases hr'
  exact ⟨e1, e2, he1, he2, by rw [ht1, ht2, ht]⟩

/-- **C13.** A second claim at the same time, whatever happened in between, pays nothing. -/
theorem C13_twice {w : World} (R : Reachable w) {tx1 tx2 : Tx} {x1 x2 : ClaimAcc} {w1 w2 : World}
    {rc1 rc2 : Receipt} (h1 : step w (.ix tx1 (.claim x1)) = .ok (w1, rc1)) (ops : List Op)
    (ht : (run w1 ops).clock = w1.clock) (hx : x2.presale = x1.presale ∧ x2.escrow = x1.escrow)
    (h2 : step (run w1 ops) (.ix tx2 (.claim x2)) = .ok (w2, rc2)) :
    w2.tk = (run w1 ops).tk := by
  have R1 := R.step h1
  obtain ⟨p, p1, e, e1, r, r1, n, D⟩ := C13_claim R h1
  obtain ⟨q, q2, f, f2, s, s2, n2, D2⟩ := C13_claim (R1.run ops) h2
  have W1 := R1.winv
  have hclock : w1.clock = w.clock := by
    obtain ⟨_, _, _, _, _, _, F⟩ := handleClaim_iff.1 h1
    rcases F.out with ⟨_, _, _, _, _, _, _, _, _, _, hw, _⟩ | ⟨_, hw, _⟩ <;> rw [hw]
  have hfa : f.presale = x1.presale := D2.owner.1.trans hx.1
  have ho1 : Over p1 w1.clock := by
    rw [D.presaleNow, hclock]; exact D.completed.1
  have hf := D2.escrow
  rw [hx.2] at hf
  obtain ⟨p', r', e', re, hp', hr', he', _, hre, hsame⟩ := C12_schedule_fixed R1 D.presale' ho1 ops hf hfa
  obtain ⟨e'', he'', A⟩ := run_after W1 ops D.presale' ho1 hf hfa
  have hq := D2.presale
  rw [hx.1, hp'] at hq
  cases hq
  rw [D2.registry] at hr'
  cases hr'
  rw [D.escrow'] at he' he''
  cases he'; cases he''
  have hidx : e1.registryIndex = e.registryIndex := by rw [D.escrowNow]
  rw [hidx, D.registry'] at hre
  cases hre
  have hb : books p1 = books p := by
    have := books_claimed (p := p) (x := n) D.registry
    have e0 : p1 = p.claimed e.registryIndex r n := by rw [D.presaleNow, D.registryNow]; rfl
    rw [e0]; exact this
  have hc1 : claimableAt p1 r1 e1 w.clock.toNat = claimableAt p r e w.clock.toNat :=
    claimableAt_congr hb (by rw [D.registryNow]; rfl) (by rw [D.escrowNow]) _
  have h3 := D2.total
  rw [hsame, ht, hclock, hc1, ← D.total] at h3
  have h4 : f2.totalClaimedToken = f.totalClaimedToken + n2 := by rw [D2.escrowNow]
  have h5 := A.claimed
  rcases D2.moved with ⟨_, h⟩ | ⟨hpos, _⟩
  · exact h
  · omega

/-! ## C10 and C15: against the exact share -/

/-- **C10.** In a completed sale what an escrow may have claimed at any time stays less than one unit above
and less than four units below its exact share; from the release of the immediate part on it is never above
it. -/
theorem C10_exact_share {w : World} (R : Reachable w) {a k : Addr} {p : Presale}
    (hp : w.presales a = some p) {e : Escrow} (hk : w.escrows.get? k = some e) (ha : e.presale = a) :
    ∃ r, p.registries[e.registryIndex]? = some r ∧ ∀ t,
      (claimableAt p r e t : ℚ) < exactClaim p r e t + 1 ∧ exactClaim p r e t < claimableAt p r e t + 4 ∧
      (p.immediateReleaseTimestamp ≤ t → (claimableAt p r e t : ℚ) ≤ exactClaim p r e t) := by
  have S := R.winv.core.sale a p hp
  obtain ⟨r, hr, E⟩ := S.pinv.escBook hk ha
  exact ⟨r, hr, fun t => claimable_exact S.pinv.static.bps (S.pinv.book.dep_le hk ha hr).1⟩

/-- **C10**, for the buyer: right after a claim the total received is that close to the exact share. -/
theorem C10_received {w : World} (R : Reachable w) {tx : Tx} {x : ClaimAcc} {w' : World} {rc : Receipt}
    (h : step w (.ix tx (.claim x)) = .ok (w', rc)) :
    ∃ p e r e', w.presales x.presale = some p ∧ w.escrows.get? x.escrow = some e ∧
      p.registries[e.registryIndex]? = some r ∧ w'.escrows.get? x.escrow = some e' ∧
      (e'.totalClaimedToken : ℚ) < exactClaim p r e w.clock.toNat + 1 ∧
      exactClaim p r e w.clock.toNat < e'.totalClaimedToken + 4 ∧
      ((p.immediateReleaseTimestamp : Int) ≤ w.clock →
        (e'.totalClaimedToken : ℚ) ≤ exactClaim p r e w.clock.toNat) := by
  obtain ⟨p, _, e, e', r, _, n, D⟩ := C13_claim R h
  obtain ⟨r', hr', hx⟩ := C10_exact_share R D.presale D.escrow D.owner.1
  rw [D.registry] at hr'
  cases hr'
  obtain ⟨h1, h2, h3⟩ := hx w.clock.toNat
  rw [← D.total] at h1 h2 h3
  exact ⟨p, e, r, e', D.presale, D.escrow, D.registry, D.escrow', h1, h2, fun h => h3 (by omega)⟩

/-- **C15.** From the end of vesting on the claimable amount is the whole entitlement, which is at most the
exact share of the sold tokens and less than two units below it. -/
theorem C15_full_entitlement {w : World} (R : Reachable w) {a k : Addr} {p : Presale}
    (hp : w.presales a = some p) {e : Escrow} (hk : w.escrows.get? k = some e) (ha : e.presale = a) :
    ∃ r, p.registries[e.registryIndex]? = some r ∧
      (∀ t, p.vestingStartTime + p.vestDuration ≤ t → claimableAt p r e t = entitlement p r e) ∧
      (∀ t, claimableAt p r e t ≤ entitlement p r e) ∧
      (entitlement p r e : ℚ) ≤ sold p r * ((e.totalDeposit : ℚ) / r.totalDeposit) ∧
      (sold p r : ℚ) * ((e.totalDeposit : ℚ) / r.totalDeposit) < entitlement p r e + 2 := by
  have S := R.winv.core.sale a p hp
  obtain ⟨r, hr, E⟩ := S.pinv.escBook hk ha
  have hI := immediatePart_le (s := sold p r) S.pinv.static.bps
  refine ⟨r, hr, fun t ht => ?_, fun t => claimableAt_le_entitlement S.pinv.sched r e t, ?_⟩
  · have h1 := claimableAt_mono p r e ht
    have h2 := claimableAt_vestingEnd S.pinv.sched r e
    have h3 := claimableAt_le_entitlement S.pinv.sched r e t
    omega
  · unfold entitlement
    by_cases h0 : e.totalDeposit = 0 ∨ r.totalDeposit = 0
    · rw [if_pos h0]
      rcases h0 with h | h <;> rw [h] <;> simp
    · rw [if_neg h0]
      have hT : 0 < r.totalDeposit := by omega
      generalize immediatePart (sold p r) p.immediateReleaseBps = I at *
      obtain ⟨V, hV⟩ : ∃ V, sold p r = I + V := ⟨sold p r - I, by omega⟩
      rw [hV, Nat.add_sub_cancel_left]
      have j1 := floor_le (I * e.totalDeposit) r.totalDeposit
      have j2 := lt_floor (I * e.totalDeposit) hT
      have k1 := floor_le (V * e.totalDeposit) r.totalDeposit
      have k2 := lt_floor (V * e.totalDeposit) hT
      rw [Nat.cast_mul, mul_div_assoc] at j1 j2 k1 k2
      rw [Nat.cast_add, Nat.cast_add, add_mul]
      constructor <;> linarith

/-! ## C14: nothing early -/

/-- **C14.** Before completion nothing is claimed or pending; before its release time no immediate part and
before the vesting start no vested part is. -/
theorem C14_nothing_early {w : World} (R : Reachable w) {a k : Addr} {p : Presale}
    (hp : w.presales a = some p) {e : Escrow} (hk : w.escrows.get? k = some e) (ha : e.presale = a) :
    ∃ r, p.registries[e.registryIndex]? = some r ∧
      (¬ Completed p w.clock → e.totalClaimedToken = 0 ∧ e.pendingClaimToken = 0) ∧
      (w.clock < p.immediateReleaseTimestamp →
        e.totalClaimedToken + e.pendingClaimToken ≤
          (sold p r - immediatePart (sold p r) p.immediateReleaseBps) * e.totalDeposit / r.totalDeposit) ∧
      (w.clock < p.vestingStartTime →
        e.totalClaimedToken + e.pendingClaimToken ≤
          immediatePart (sold p r) p.immediateReleaseBps * e.totalDeposit / r.totalDeposit) ∧
      (w.clock < p.immediateReleaseTimestamp → w.clock < p.vestingStartTime →
        e.totalClaimedToken + e.pendingClaimToken = 0) := by
  have S := R.winv.core.sale a p hp
  obtain ⟨r, hr, E⟩ := S.pinv.escBook hk ha
  have hc := S.clock
  have hnot : ¬ Completed p w.clock → e.totalClaimedToken = 0 ∧ e.pendingClaimToken = 0 := by
    intro h
    refine E.claim0 ?_
    unfold Completed at h
    rw [S.over] at h
    omega
  have hle : e.totalClaimedToken + e.pendingClaimToken ≤ claimableAt p r e w.clock.toNat := by
    by_cases h : Completed p w.clock
    · exact E.taken_le (S.over.1 h.1) h.2
    · have := hnot h; omega
  unfold claimableAt claimable at hle
  refine ⟨r, hr, hnot, fun h => ?_, fun h => ?_, fun h h' => ?_⟩
  · rw [if_neg (show ¬ p.immediateReleaseTimestamp ≤ w.clock.toNat by omega), Nat.zero_add] at hle
    refine Nat.le_trans hle ?_
    split
    · exact Nat.zero_le _
    · exact Nat.div_le_div_right (Nat.mul_le_mul_right _ (dripped_le _ _ _ _))
  · have hd : ∀ v, dripped v p.vestingStartTime p.vestDuration w.clock.toNat = 0 := by
      intro v; unfold dripped; rw [if_pos (by omega)]
    rw [hd, Nat.zero_mul, Nat.zero_div, Nat.add_zero] at hle
    refine Nat.le_trans hle ?_
    split
    · exact Nat.zero_le _
    · split
      · exact Nat.le_refl _
      · exact Nat.zero_le _
  · have hd : ∀ v, dripped v p.vestingStartTime p.vestDuration w.clock.toNat = 0 := by
      intro v; unfold dripped; rw [if_pos (by omega)]
    rw [hd, if_neg (show ¬ p.immediateReleaseTimestamp ≤ w.clock.toNat by omega), Nat.zero_mul, Nat.zero_div] at hle
    split at hle <;> omega

/-- **C14**: no claim succeeds in a sale that is not completed. -/
theorem C14_no_claim {w : World} (R : Reachable w) {p : Presale} {tx : Tx} {x : ClaimAcc}
    (hp : w.presales x.presale = some p) (hn : ¬ Completed p w.clock) :
    ∃ err, step w (.ix tx (.claim x)) = .error err := by
  cases hs : step w (.ix tx (.claim x)) with
  | error err => exact ⟨err, rfl⟩
  | ok res =>
    obtain ⟨_, _, _, _, _, _, _, D⟩ := C13_claim R hs
    have h1 := D.presale
    rw [hp] at h1
    cases h1
    exact absurd D.completed hn

/-! ## C46: refreshing -/

/-- **C46.** Anybody can refresh any escrow at any time; it moves no tokens, touches nothing but this
escrow's pending amount and timestamp, and the total after the owner's next claim stays what it was. -/
theorem C46_refresh {w : World} (R : Reachable w) {tx : Tx} {x : RefreshAcc} {p : Presale} {e : Escrow}
    (hp : w.presales x.presale = some p) (hk : w.escrows.get? x.escrow = some e)
    (ha : e.presale = x.presale) :
    ∃ w' rc e', step w (.ix tx (.refresh x)) = .ok (w', rc) ∧ rc.cpis = [] ∧
      w' = { w with escrows := w.escrows.set x.escrow e' } ∧
      e' = { e with pendingClaimToken := e'.pendingClaimToken, lastRefreshedAt := e'.lastRefreshedAt } ∧
      (¬ Completed p w.clock → e' = e) ∧
      (∀ r, p.registries[e.registryIndex]? = some r →
        (∀ t, claimableAt p r e' t = claimableAt p r e t) ∧
        (Completed p w.clock →
          e'.totalClaimedToken + e'.pendingClaimToken = claimableAt p r e w.clock.toNat ∧
          e'.lastRefreshedAt = w.clock.toNat)) := by
  have W := R.winv
  have S := W.core.sale _ _ hp
  obtain ⟨r, hr, E, hq⟩ := refreshed_eq S.pinv hk ha
  have F : RefreshFacts w x _ _ p e _ :=
    { presale := hp, escrow := hk, belongs := ha, clock := S.clock, refresh := hq, post := rfl,
      receipt := rfl }
  have hstep := (handleRefresh_iff (tx := tx)).2 ⟨_, _, _, F⟩
  refine ⟨_, _, _, hstep, rfl, rfl, ?_, ?_, ?_⟩
  · split <;> rfl
  · intro h
    rw [if_neg (fun h' => h (S.progress_completed.1 h'))]
  · intro r' hr'
    rw [hr] at hr'
    cases hr'
    refine ⟨fun t => ?_, fun h => ?_⟩
    · exact claimableAt_congr rfl rfl (by split <;> rfl) t
    · have ht := E.taken_le (S.over.1 h.1) h.2
      rw [if_pos (S.progress_completed.2 h)]
      exact ⟨by simp only [Escrow.accrued]; omega, rfl⟩

/-! ## C26: claims succeed -/

/-- `C26_claim_succeeds` from the invariant alone (see C98). -/
theorem claim_succeeds_of {w : World} (W : WInv w) {tx : Tx} {x : ClaimAcc} {p : Presale} {e : Escrow}
    {r : Registry} (hp : w.presales x.presale = some p) (hk : w.escrows.get? x.escrow = some e)
    (ha : e.presale = x.presale) (ho : x.owner = e.owner) (hs : tx.signed e.owner = true)
    (hc : Completed p w.clock) (hr : p.registries[e.registryIndex]? = some r)
    (hv : x.baseTokenVault = p.baseTokenVault) (hm : x.baseMint = p.baseMint)
    (hpay : Payable w.tk tx .transferHookBase p.baseMint p.baseTokenVault x.ownerBaseToken x.tokenProgram
      x.remaining x.slices (claimableAt p r e w.clock.toNat - e.totalClaimedToken)) :
    ∃ w' rc, step w (.ix tx (.claim x)) = .ok (w', rc) := by
  have S := W.core.sale _ _ hp
  have hend := S.over.1 hc.1
  obtain ⟨h, hh⟩ := S.pinv.static.handler
  obtain ⟨r', hr', E⟩ := S.pinv.escBook hk ha
  rw [hr] at hr'; cases hr'
  have hacc := S.pinv.accrue hk ha hr hh hend hc.2
  have ht := E.taken_le hend hc.2
  have P' := S.pinv.claim hk ha hr hend hc.2
  obtain ⟨b, hb, hbm, _, _, _, _, hsolv⟩ := base_solvent_of W hp
  obtain ⟨m, hmint, _, _⟩ := S.baseMint
  have hvk := S.pinv.static.baseVault
  generalize hn : (e.accrued (claimableAt p r e w.clock.toNat) w.clock.toNat).pendingClaimToken = n at *
  have hn' : n = claimableAt p r e w.clock.toNat - e.totalClaimedToken := by
    rw [← hn]; simp only [Escrow.accrued]; omega
  -- the totals stay in range
  have hT := P'.claimsDue (show p.presaleEndTime ≤ _ from hend) hc.2
  have hb' : books (p.claimed e.registryIndex r n) = books p := books_claimed hr
  have hTs : Spec.totalSold (p.claimed e.registryIndex r n) ≤ p.presaleSupply := by
    rw [totalSold_congr hb']; exact totalSold_le S.pinv.static
  have hlt := S.pinv.static.supplyLt
  have hpc : p.totalClaimedToken + n < u64Bound := by
    have : (p.claimed e.registryIndex r n).totalClaimedToken = p.totalClaimedToken + n := rfl
    omega
  have hrc : r.totalClaimedToken ≤ p.totalClaimedToken := by
    rw [S.pinv.book.totCl]; exact le_lsum (g := Registry.totalClaimedToken) hr
  have hle := claimableAt_lt S.pinv.static.bps (S.pinv.book.dep_le hk ha hr).1 w.clock.toNat
  have hsup := (S.pinv.static.supply_lt hr).2
  -- the vault holds enough
  have hbal : n ≤ b.amount := by
    have h1 := hsolv hc
    have h2 : claimDue p e ≤ saleSum w.escrows x.presale (claimDue p) := by
      unfold saleSum
      have hmem : (if e.presale = x.presale then claimDue p e else 0) ∈
          w.escrows.map (fun y => if y.2.presale = x.presale then claimDue p y.2 else 0) :=
        List.mem_map.2 ⟨(x.escrow, e), AMap.get?_mem hk, rfl⟩
      have := List.le_sum_of_mem hmem
      rw [if_pos ha] at this
      exact this
    have h3 : claimDue p e = entitlement p r e - e.totalClaimedToken := by
      unfold claimDue; rw [hr]
    have h4 := claimableAt_le_entitlement S.pinv.sched r e w.clock.toNat
    omega
  rw [hvk] at hpay
  obtain ⟨hsl, hdst, hooks, rest, hparse, tk, cpi, htr⟩ :=
    payout_ok W.core hpay rfl hb hbm hmint (by omega)
  obtain ⟨ex, hex⟩ := excluded_ok (W.core.feeOk _ _ hmint) n
  by_cases hz : 0 < n
  · have F : ClaimFacts w tx x _ _ p m e h (e.accrued (claimableAt p r e w.clock.toNat) w.clock.toNat) ex :=
      { range := hsl, presale := hp, vault := ⟨hv.symm, hm.symm⟩, mint := by rw [hm]; exact hmint,
        escrow := hk, belongs := ⟨ha, ho.symm⟩, dest := hdst, signed := by rw [ho]; exact hs,
        clock := S.clock, progress := S.progress_completed.2 hc, handler := hh, refresh := hacc,
        net := by rw [hn]; exact hex,
        out := .inl ⟨by rw [hn]; exact hz, p.claimed e.registryIndex r n,
          (e.accrued (claimableAt p r e w.clock.toNat) w.clock.toNat).paid, hooks, rest, tk, cpi,
          claim_iff.2 ⟨r, hr, by rw [hn]; show e.totalClaimedToken + n < u64Bound; omega,
            by rw [hn]; omega, by rw [hn]; exact hpc, by rw [hn]; rfl, rfl⟩, hparse,
          by rw [hn, hm, hv, hvk, hn']; exact htr, rfl, rfl⟩ }
    exact ⟨_, _, handleClaim_iff.2 ⟨_, _, _, _, _, _, F⟩⟩
  · have hz' : n = 0 := by omega
    have F : ClaimFacts w tx x _ _ p m e h (e.accrued (claimableAt p r e w.clock.toNat) w.clock.toNat) ex :=
      { range := hsl, presale := hp, vault := ⟨hv.symm, hm.symm⟩, mint := by rw [hm]; exact hmint,
        escrow := hk, belongs := ⟨ha, ho.symm⟩, dest := hdst, signed := by rw [ho]; exact hs,
        clock := S.clock, progress := S.progress_completed.2 hc, handler := hh, refresh := hacc,
        net := by rw [hn]; exact hex,
        out := .inr ⟨by rw [hn]; exact hz', rfl, rfl⟩ }
    exact ⟨_, _, handleClaim_iff.2 ⟨_, _, _, _, _, _, F⟩⟩

/-- **C26.** In a completed sale the owner of an escrow can always claim what has been released: given a
usable destination account the instruction succeeds and pays it. -/
theorem C26_claim_succeeds {w : World} (R : Reachable w) {tx : Tx} {x : ClaimAcc} {p : Presale} {e : Escrow}
    {r : Registry} (hp : w.presales x.presale = some p) (hk : w.escrows.get? x.escrow = some e)
    (ha : e.presale = x.presale) (ho : x.owner = e.owner) (hs : tx.signed e.owner = true)
    (hc : Completed p w.clock) (hr : p.registries[e.registryIndex]? = some r)
    (hv : x.baseTokenVault = p.baseTokenVault) (hm : x.baseMint = p.baseMint)
    (hpay : Payable w.tk tx .transferHookBase p.baseMint p.baseTokenVault x.ownerBaseToken x.tokenProgram
      x.remaining x.slices (claimableAt p r e w.clock.toNat - e.totalClaimedToken)) :
    ∃ w' rc, step w (.ix tx (.claim x)) = .ok (w', rc) :=
  claim_succeeds_of R.winv hp hk ha ho hs hc hr hv hm hpay

/-! ## The hypotheses are met -/

namespace Ex

/-- Halfway through vesting a claim pays 60% of 4000, the rest follows at the end, whether or not there was
a first claim. Before the end of the sale no claim succeeds, after it but before the release nothing is paid,
then the immediate part. -/
example : hasEsc (apply prorataDone (claim bob bobBase)) (escrowOf bob)
      (fun e => decide (e.totalClaimedToken = 2400)) = true ∧
    hasEsc (run prorataDone [claim bob bobBase, refresh bob, .tick 820, claim bob bobBase]) (escrowOf bob)
      (fun e => decide (e.totalClaimedToken = 4000)) = true ∧
    hasEsc (run prorataDone [.tick 820, claim bob bobBase]) (escrowOf bob)
      (fun e => decide (e.totalClaimedToken = 4000)) = true ∧
    works (run prorataDone [claim bob bobBase, refresh bob]) (claim bob bobBase) = true ∧
    works prorataOpen (claim alice aliceBase) = false ∧
    works (run prorataOpen [.tick 600]) (claim alice aliceBase) = true ∧
    hasEsc (run prorataOpen [.tick 600, claim alice aliceBase]) (escrowOf alice)
      (fun e => decide (e.totalClaimedToken = 0)) = true ∧
    hasEsc (run prorataOpen [.tick 650, claim alice aliceBase]) (escrowOf alice)
      (fun e => decide (e.totalClaimedToken = 1200)) = true := by
  decide +kernel

/-- Decides `Payable` for mints without hooks. -/
def payable (k : Tokens) (tx : Tx) (mint vault dst : Addr) (prog : TokenProgram) (amount : Nat) : Bool :=
  match k.mints mint, k.toks vault, k.toks dst with
  | some m, some v, some d =>
    decide (tx.accept = true ∧ m.program = prog ∧ m.hookProgram = none ∧ v.frozen = false ∧ d.mint = mint ∧
      d.frozen = false ∧ d.amount + (amount - m.transferFee amount) < 2 ^ 64)
  | _, _, _ => false

theorem payable_ok {k : Tokens} {tx : Tx} {mint vault dst : Addr} {prog : TokenProgram} {amount : Nat}
    (h : payable k tx mint vault dst prog amount = true) (kind : AccountsType) (remaining : List Addr) :
    Payable k tx kind mint vault dst prog remaining [] amount := by
  unfold payable at h
  split at h
  · next m v d hm hv hd =>
    obtain ⟨h1, h2, h3, h4, h5, h6, h7⟩ := of_decide_eq_true h
    refine ⟨h1, ?_, ?_, ?_, d, hd, h5, h6, ?_⟩
    · intro m' hm'; rw [hm] at hm'; cases hm'; exact h2
    · intro m' hm'; rw [hm] at hm'; cases hm'
      unfold HooksFit; rw [if_pos h3]
    · intro v' hv'; rw [hv] at hv'; cases hv'; exact h4
    · intro m' hm'; rw [hm] at hm'; cases hm'; exact h7
  · cases h

/-- A completed sale with a usable destination. -/
example : has prorataDone (fun p => decide ((p.presaleEndTime : Int) ≤ prorataDone.clock ∧
      p.presaleMinimumCap ≤ p.totalDeposit)) = true ∧
    Payable prorataDone.tk (tx [bob]) .transferHookBase bm (.baseVault sale) bobBase .splToken [] [] 2400 :=
  ⟨by decide +kernel, payable_ok (by decide +kernel) _ _⟩

end Ex

end Verif
