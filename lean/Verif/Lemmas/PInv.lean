import Verif.Lemmas.Inv
/-!
# The invariant of one presale is preserved by the state changes of every instruction
-/

namespace Verif
open Spec

/-- Schedule of a presale at time `t`. -/
structure Sched (t : Nat) (p : Presale) : Prop where
  created : p.createdAt ≤ t
  order : p.presaleStartTime ≤ p.presaleEndTime
  timing : (p.vestingStartTime = p.presaleEndTime + p.lockDuration ∧
      p.vestingEndTime = p.vestingStartTime + p.vestDuration) ∨
    (p.lockDuration = 0 ∧ p.vestDuration = 0 ∧ p.immediateReleaseBps = 0 ∧
      p.immediateReleaseTimestamp = 0 ∧ p.vestingStartTime = 0 ∧ p.vestingEndTime = 0)
  range : p.presaleEndTime + p.lockDuration + p.vestDuration < u64Bound
  immLe : p.immediateReleaseTimestamp ≤ p.presaleEndTime + p.lockDuration + p.vestDuration
  immGe : p.immediateReleaseTimestamp = 0 ∨ p.presaleEndTime ≤ p.immediateReleaseTimestamp

/-- One-time flags of a presale at time `t`. -/
structure Flags (t : Nat) (p : Presale) : Prop where
  w : p.hasCreatorWithdrawn ≤ 1
  f : p.depositFeeCollected ≤ 1
  u : p.isUnsoldTokenActionPerformed ≤ 1
  open_ : t < p.presaleEndTime → p.hasCreatorWithdrawn = 0
  failed : t < p.presaleEndTime ∨ p.totalDeposit < p.presaleMinimumCap →
    p.depositFeeCollected = 0 ∧ p.isUnsoldTokenActionPerformed = 0

/-- Vault balances against recorded amounts. -/
structure Money (p : Presale) (bb qb : Nat) : Prop where
  quote : p.totalDeposit + p.totalDepositFee ≤ qb + p.totalRefundedQuoteToken +
    (if p.hasCreatorWithdrawn = 1 ∧ p.presaleMinimumCap ≤ p.totalDeposit then raise p else 0) +
    (if p.depositFeeCollected = 1 then collectableFee p else 0)
  base : p.presaleSupply ≤ bb + p.totalClaimedToken +
    (if p.isUnsoldTokenActionPerformed = 1 then p.presaleSupply - totalSold p else 0) +
    (if p.hasCreatorWithdrawn = 1 ∧ p.totalDeposit < p.presaleMinimumCap then p.presaleSupply else 0)

/-- Invariant of a presale account and its escrows. -/
structure PInv (t : Nat) (a : Addr) (p : Presale) (es : AMap Addr Escrow) : Prop where
  static : Static a p
  sched : Sched t p
  flags : Flags t p
  book : Book t a p es

theorem PInv.frame {t : Nat} {a : Addr} {p : Presale} {es es' : AMap Addr Escrow} (h : SameFor a es es')
    (P : PInv t a p es) : PInv t a p es' :=
  ⟨P.static, P.sched, P.flags, P.book.frame h⟩

theorem PInv.tick {t t' : Nat} {a : Addr} {p : Presale} {es : AMap Addr Escrow} (P : PInv t a p es)
    (h : t ≤ t') : PInv t' a p es := by
  refine ⟨P.static, ?_, ?_, P.book.tick h P.static.bps⟩
  · have := P.sched.created
    exact ⟨by omega, P.sched.order, P.sched.timing, P.sched.range, P.sched.immLe, P.sched.immGe⟩
  · refine ⟨P.flags.w, P.flags.f, P.flags.u, ?_, ?_⟩
    · intro h'; exact P.flags.open_ (by omega)
    · intro h'; exact P.flags.failed (by omega)

theorem PInv.escBook {t : Nat} {a k : Addr} {p : Presale} {es : AMap Addr Escrow} {e : Escrow}
    (P : PInv t a p es) (hk : es.get? k = some e) (ha : e.presale = a) :
    ∃ r, p.registries[e.registryIndex]? = some r ∧ EscBook t p r e :=
  P.book.esc (k, e) (AMap.get?_mem hk) ha

/-! ## Amounts -/

theorem Escrow.quota_le {e : Escrow} {m q : Nat} (h : e.getRemainingDepositQuota m = .ok q) (hq : 0 < q) :
    e.totalDeposit + q = min m e.depositMaxCap := by
  unfold Escrow.getRemainingDepositQuota at h
  simp only at h
  split at h
  · simp at h; omega
  · simp only [sub_eq_ok] at h; omega

/-- A positive quota respects the personal cap, and in capped modes the hard cap. -/
theorem quota_le {h : Handler} {p : Presale} {e : Escrow} {q : Nat} {r : Registry}
    (hh : getPresaleModeHandler p = .ok h) (hr : p.registries[e.registryIndex]? = some r)
    (hq : h.getRemainingDepositQuota p e = .ok q) (hpos : 0 < q) :
    e.totalDeposit + q ≤ r.buyerMaximumDepositCap ∧ e.totalDeposit + q ≤ e.depositMaxCap ∧
      (p.presaleMode ≠ 1 → p.totalDeposit + q ≤ p.presaleMaximumCap) := by
  rcases handler_cases hh with ⟨hm, rfl⟩ | ⟨hm, rfl⟩ | ⟨hm, hm', rfl⟩
  · simp only [Handler.getRemainingDepositQuota, bind_eq_ok, getRegistry_eq_ok, hr] at hq
    obtain ⟨_, h1, hq⟩ := hq
    cases h1
    have := Escrow.quota_le hq hpos
    exact ⟨by omega, by omega, fun h => absurd hm h⟩
  · simp only [Handler.getRemainingDepositQuota, bind_eq_ok, getRegistry_eq_ok, hr,
      Presale.getRemainingDepositQuota, sub_eq_ok, pure_eq_ok] at hq
    obtain ⟨_, ⟨h0, rfl⟩, _, h1, x, hx, rfl⟩ := hq
    cases h1
    have := Escrow.quota_le hx (by omega)
    exact ⟨by omega, by omega, fun _ => by omega⟩
  · simp only [Handler.getRemainingDepositQuota, bind_eq_ok, getRegistry_eq_ok, hr,
      Presale.getRemainingDepositQuota, sub_eq_ok] at hq
    obtain ⟨_, ⟨h0, rfl⟩, _, h1, s, _, hq⟩ := hq
    cases h1
    split at hq
    · simp only [pure_eq_ok] at hq; omega
    · simp only [bind_eq_ok, pure_eq_ok] at hq
      obtain ⟨_, _, _, _, g, _, x, hx, rfl⟩ := hq
      have := Escrow.quota_le hx (by omega)
      exact ⟨by omega, by omega, fun _ => by omega⟩

theorem withoutSurplus_le {q a x : Nat} (h : calculateQuoteTokenWithoutSurplus q a = .ok x) : x ≤ a := by
  simp only [calculateQuoteTokenWithoutSurplus, bind_eq_ok, require_eq_ok, pure_eq_ok] at h
  obtain ⟨_, _, _, _, y, _, _, h1, rfl⟩ := h
  exact h1

theorem suggestDeposit_le {h : Handler} {c x : Nat} (hs : h.suggestDepositAmount c = .ok x) : x ≤ c := by
  cases h with
  | fixedPrice q dw de => exact withoutSurplus_le hs
  | prorata => simp [Handler.suggestDepositAmount] at hs; omega
  | fcfs de => simp [Handler.suggestDepositAmount] at hs; omega

theorem suggestWithdraw_le {h : Handler} {e : Escrow} {c x : Nat} (hs : h.suggestWithdrawAmount e c = .ok x) :
    x ≤ c := by
  cases h with
  | fixedPrice q dw de =>
    simp only [Handler.suggestWithdrawAmount] at hs
    split at hs
    · simp at hs; omega
    · exact withoutSurplus_le hs
  | prorata => simp [Handler.suggestWithdrawAmount] at hs; omega
  | fcfs de => simp [Handler.suggestWithdrawAmount] at hs; omega

/-! ## Opening an escrow -/

theorem terms_set {p : Presale} {i : Nat} {r r' : Registry} (hr : p.registries[i]? = some r)
    (h : registryTerms r' = registryTerms r) :
    (p.registries.set i r').map registryTerms = p.registries.map registryTerms :=
  map_set_same _ hr h

theorem books_set {p : Presale} {i : Nat} {r r' : Registry} (hr : p.registries[i]? = some r)
    (h : registryBooks r' = registryBooks r) :
    (p.registries.set i r').map registryBooks = p.registries.map registryBooks :=
  map_set_same _ hr h

theorem terms_counted {p : Presale} {i : Nat} {r : Registry} (hr : p.registries[i]? = some r) :
    terms (p.counted i r) = terms p := by
  simp only [terms, Presale.counted]
  congr 1
  exact terms_set hr rfl

theorem Flags.congr {t : Nat} {p p' : Presale} (h1 : p'.hasCreatorWithdrawn = p.hasCreatorWithdrawn)
    (h2 : p'.depositFeeCollected = p.depositFeeCollected)
    (h3 : p'.isUnsoldTokenActionPerformed = p.isUnsoldTokenActionPerformed)
    (h4 : p'.presaleEndTime = p.presaleEndTime) (h5 : p'.totalDeposit = p.totalDeposit)
    (h6 : p'.presaleMinimumCap = p.presaleMinimumCap) (F : Flags t p) : Flags t p' := by
  refine ⟨?_, ?_, ?_, ?_, ?_⟩
  · rw [h1]; exact F.w
  · rw [h2]; exact F.f
  · rw [h3]; exact F.u
  · rw [h1, h4]; exact F.open_
  · rw [h2, h3, h4, h5, h6]; exact F.failed

/-- While the sale is open the flags are zero, whatever happens to the totals. -/
theorem Flags.whileOpen {t : Nat} {p p' : Presale} (ht : t < p.presaleEndTime)
    (h1 : p'.hasCreatorWithdrawn = p.hasCreatorWithdrawn)
    (h2 : p'.depositFeeCollected = p.depositFeeCollected)
    (h3 : p'.isUnsoldTokenActionPerformed = p.isUnsoldTokenActionPerformed) (F : Flags t p) :
    p'.hasCreatorWithdrawn = 0 ∧ p'.depositFeeCollected = 0 ∧ p'.isUnsoldTokenActionPerformed = 0 ∧
      Flags t p' := by
  have a1 := F.open_ ht
  have a2 := F.failed (Or.inl ht)
  rw [← h1] at a1
  rw [← h2, ← h3] at a2
  refine ⟨a1, a2.1, a2.2, ?_, ?_, ?_, fun _ => a1, fun _ => a2⟩
  · omega
  · omega
  · omega

theorem PInv.create {t : Nat} {a k owner : Addr} {p : Presale} {es : AMap Addr Escrow} {i : Nat} {r : Registry}
    {cap : Nat} (P : PInv t a p es)
    (hk : es.get? k = none) (hs : p.presaleStartTime ≤ t) (ht : t < p.presaleEndTime)
    (hi : i < p.totalPresaleRegistryCount) (hr : p.registries[i]? = some r)
    (hcap : cap ≤ r.buyerMaximumDepositCap)
    (hopen : castWhitelistMode p.whitelistMode = .ok .permissionless →
      i = 0 ∧ cap = r.buyerMaximumDepositCap) :
    PInv t a (p.counted i r) (es.set k (Escrow.initialized a owner t i cap)) := by
  refine ⟨P.static.congr (terms_counted hr), ?_, ?_, ?_⟩
  · exact ⟨P.sched.created, P.sched.order, P.sched.timing, P.sched.range, P.sched.immLe, P.sched.immGe⟩
  · exact Flags.congr (p := p) rfl rfl rfl rfl rfl rfl P.flags
  · have hB := P.book
    have hlen := hB.bound
    refine hB.whileOpen (r := r) (r' := { r with totalEscrow := r.totalEscrow + 1 }) (fun _ => 0) ht hr rfl
      ?_ ?_ ?_ (terms_counted hr) rfl rfl rfl ?_ ?_ ?_ rfl rfl ?_ ?_ ?_ rfl rfl ?_ ?_
    · intro f
      have := AMap.sumBy_set_none (g := only a i f) (v' := Escrow.initialized a owner t i cap) hk
      rw [only_hit (a := a) (i := i) (e := Escrow.initialized a owner t i cap) rfl rfl] at this
      exact this
    · intro j f hj
      have := AMap.sumBy_set_none (g := only a j f) (v' := Escrow.initialized a owner t i cap) hk
      rw [only_miss_idx (Ne.symm hj)] at this
      simpa using this
    · refine ⟨hi, Or.inl rfl, Nat.zero_le _, hcap, hopen, hs, Nat.le_refl _, Nat.le_refl _, Nat.zero_le _,
        fun _ => rfl, fun _ => ⟨rfl, rfl⟩, ?_⟩
      intro h; omega
    · rfl
    · rfl
    · rfl
    · show p.totalEscrow + 1 + r.totalEscrow = p.totalEscrow + (r.totalEscrow + 1); omega
    · rfl
    · rfl
    · exact hB.cap
    · exact hB.bound

/-! ## Deposit -/

theorem terms_credited {p : Presale} {i : Nat} {r : Registry} {x f : Nat} (hr : p.registries[i]? = some r) :
    terms (p.credited i r x f) = terms p := by
  simp only [terms, Presale.credited]
  congr 1
  exact terms_set hr rfl

theorem terms_endedAt (p : Presale) (t : Nat) : terms (p.endedAt t) = terms p := rfl

theorem PInv.endedAt {t : Nat} {a : Addr} {p : Presale} {es : AMap Addr Escrow} (P : PInv t a p es)
    (hs : p.presaleStartTime ≤ t) (ht : t < p.presaleEndTime) : PInv t a (p.endedAt t) es := by
  have S := P.sched
  refine ⟨P.static.congr (terms_endedAt p t), ?_, ?_, ?_⟩
  · refine ⟨S.created, hs, Or.inl ⟨rfl, rfl⟩, ?_, ?_, Or.inr (Nat.le_add_right _ _)⟩
    · have := S.range
      show t + p.lockDuration + p.vestDuration < u64Bound
      omega
    · have := S.immLe
      show t + (p.immediateReleaseTimestamp - p.presaleEndTime) ≤ t + p.lockDuration + p.vestDuration
      omega
  · exact (P.flags.whileOpen (p' := p.endedAt t) ht rfl rfl rfl).2.2.2
  · exact P.book.mature ht (Nat.le_refl _) P.static.bps (terms_endedAt p t) rfl rfl rfl rfl rfl rfl
      (Nat.le_refl _)

theorem PInv.credited {t : Nat} {a k : Addr} {p : Presale} {es : AMap Addr Escrow} {e : Escrow} {r : Registry}
    {x f : Nat} (P : PInv t a p es)
    (hk : es.get? k = some e) (ha : e.presale = a) (ht : t < p.presaleEndTime)
    (hr : p.registries[e.registryIndex]? = some r)
    (hlim : r.buyerMinimumDepositCap ≤ e.totalDeposit + x ∧ e.totalDeposit + x ≤ r.buyerMaximumDepositCap)
    (hcap : e.totalDeposit + x ≤ e.depositMaxCap)
    (hhard : p.presaleMode ≠ 1 → p.totalDeposit + x ≤ p.presaleMaximumCap)
    (hb : p.totalDeposit + x + (p.totalDepositFee + f) < u64Bound) :
    PInv t a (p.credited e.registryIndex r x f) (es.set k (e.credited x f)) := by
  obtain ⟨r', hr', E⟩ := P.escBook hk ha
  rw [hr] at hr'; cases hr'
  refine ⟨P.static.congr (terms_credited hr), ?_, ?_, ?_⟩
  · exact ⟨P.sched.created, P.sched.order, P.sched.timing, P.sched.range, P.sched.immLe, P.sched.immGe⟩
  · exact (P.flags.whileOpen (p' := p.credited e.registryIndex r x f) ht rfl rfl rfl).2.2.2
  · refine P.book.whileOpen (r := r)
      (r' := { r with totalDeposit := r.totalDeposit + x, totalDepositFee := r.totalDepositFee + f })
      (fun g => g e) ht hr ha ?_ ?_ ?_ (terms_credited hr) rfl rfl rfl ?_ ?_ ?_ rfl rfl ?_ ?_ ?_ rfl rfl hhard hb
    · exact esum_set_hit hk ha rfl ha rfl
    · intro j g hj
      exact esum_set_other hk (Ne.symm hj) (Ne.symm hj) g
    · exact ⟨E.idx, Or.inr hlim, hcap, E.capLe, E.opened, E.created, E.refreshed0, E.refreshed, E.flag,
        E.flag0, E.claim0, fun h => by omega⟩
    · rfl
    · show r.totalDeposit + x + e.totalDeposit = r.totalDeposit + (e.totalDeposit + x); omega
    · show r.totalDepositFee + f + e.totalDepositFee = r.totalDepositFee + (e.totalDepositFee + f); omega
    · rfl
    · show p.totalDeposit + x + r.totalDeposit = p.totalDeposit + (r.totalDeposit + x); omega
    · show p.totalDepositFee + f + r.totalDepositFee = p.totalDepositFee + (r.totalDepositFee + f); omega

theorem DepositCoreFacts.amount_le {p : Presale} {e : Escrow} {t maxAmount : Nat} {d : DepositResult}
    {h : Handler} {quota : Nat} {r : Registry} (F : DepositCoreFacts p e t maxAmount d h quota r) :
    d.amount ≤ maxAmount ∧ d.amount ≤ quota ∧ e.totalDeposit + d.amount ≤ r.buyerMaximumDepositCap ∧
      e.totalDeposit + d.amount ≤ e.depositMaxCap ∧
      (p.presaleMode ≠ 1 → p.totalDeposit + d.amount ≤ p.presaleMaximumCap) := by
  have h1 := suggestDeposit_le F.suggested
  have h2 := F.capped
  have h3 := quota_le F.handler F.registry F.quotaIs (by omega)
  refine ⟨by omega, by omega, by omega, by omega, ?_⟩
  intro hm
  have := h3.2.2 hm
  omega

/-- The presale a deposit leaves behind: credited, and possibly ended. -/
theorem DepositCoreFacts.result {p : Presale} {e : Escrow} {t maxAmount : Nat} {d : DepositResult}
    {h : Handler} {quota : Nat} {r : Registry} (F : DepositCoreFacts p e t maxAmount d h quota r) :
    (d.presale = (p.credited e.registryIndex r d.amount d.fees.fee).endedAt t ∧ h.endsEarly = true ∧
      p.presaleMaximumCap ≤ p.totalDeposit + d.amount) ∨
    (d.presale = p.credited e.registryIndex r d.amount d.fees.fee ∧
      ¬ (h.endsEarly = true ∧ p.presaleMaximumCap ≤ p.totalDeposit + d.amount)) := by
  rcases endIfMaxCapReached_iff.1 F.finish with ⟨⟨h1, h2⟩, _, _, _, h3⟩ | ⟨h1, h2⟩
  · exact Or.inl ⟨h3, h1, h2⟩
  · exact Or.inr ⟨h2, h1⟩

theorem DepositCoreFacts.totals {p : Presale} {e : Escrow} {t maxAmount : Nat} {d : DepositResult}
    {h : Handler} {quota : Nat} {r : Registry} (F : DepositCoreFacts p e t maxAmount d h quota r) :
    d.presale.totalDeposit = p.totalDeposit + d.amount ∧
    d.presale.totalDepositFee = p.totalDepositFee + d.fees.fee ∧ terms d.presale = terms p := by
  rcases F.result with ⟨h1, _⟩ | ⟨h1, _⟩
  · rw [h1]; exact ⟨rfl, rfl, by rw [terms_endedAt, terms_credited F.registry]⟩
  · rw [h1]; exact ⟨rfl, rfl, terms_credited F.registry⟩

theorem PInv.deposit {t : Nat} {a k : Addr} {p : Presale} {es : AMap Addr Escrow} {e : Escrow} {maxAmount : Nat}
    {d : DepositResult} {h : Handler} {quota : Nat} {r : Registry} (P : PInv t a p es)
    (hk : es.get? k = some e) (ha : e.presale = a) (F : DepositCoreFacts p e t maxAmount d h quota r)
    (hb : p.totalDeposit + d.amount + (p.totalDepositFee + d.fees.fee) < u64Bound) :
    PInv t a d.presale (es.set k d.escrow) := by
  have hle := F.amount_le
  have P1 := P.credited hk ha F.open_ F.registry ⟨F.within.1, F.within.2⟩ hle.2.2.2.1 hle.2.2.2.2 hb
  rw [F.escrow]
  rcases F.result with ⟨h1, _⟩ | ⟨h1, _⟩
  · rw [h1]; exact P1.endedAt F.started F.open_
  · rw [h1]; exact P1

/-! ## Withdraw -/

theorem terms_debited {p : Presale} {i : Nat} {r : Registry} {x : Nat} (hr : p.registries[i]? = some r) :
    terms (p.debited i r x) = terms p := by
  simp only [terms, Presale.debited]
  congr 1
  exact terms_set hr rfl

theorem PInv.withdraw {t : Nat} {a k : Addr} {p : Presale} {es : AMap Addr Escrow} {e : Escrow} {maxAmount : Nat}
    {p' : Presale} {e' : Escrow} {x : Nat} {h : Handler} {r : Registry} (P : PInv t a p es)
    (hk : es.get? k = some e) (ha : e.presale = a) (F : WithdrawCoreFacts p e t maxAmount p' e' x h r) :
    PInv t a p' (es.set k e') := by
  obtain ⟨r', hr', E⟩ := P.escBook hk ha
  have hr := F.registry
  have ht := F.open_
  rw [hr] at hr'; cases hr'
  have hB := P.book
  rw [F.presale, F.escrow]
  refine ⟨P.static.congr (terms_debited hr), ?_, ?_, ?_⟩
  · exact ⟨P.sched.created, P.sched.order, P.sched.timing, P.sched.range, P.sched.immLe, P.sched.immGe⟩
  · exact (P.flags.whileOpen (p' := p.debited e.registryIndex r x) ht rfl rfl rfl).2.2.2
  · have h1 := F.leE
    have h2 := F.leR
    have h3 := F.leP
    refine hB.whileOpen (r := r)
      (r' := { r with totalDeposit := r.totalDeposit - x })
      (fun g => g e) ht hr ha ?_ ?_ ?_ (terms_debited hr) rfl rfl rfl ?_ ?_ ?_ rfl rfl ?_ ?_ ?_ rfl rfl ?_ ?_
    · exact esum_set_hit hk ha rfl ha rfl
    · intro j g hj
      exact esum_set_other hk (Ne.symm hj) (Ne.symm hj) g
    · have := E.cap
      refine ⟨E.idx, F.limits, ?_, E.capLe, E.opened, E.created, E.refreshed0, E.refreshed, E.flag,
        E.flag0, E.claim0, fun h => by omega⟩
      show e.totalDeposit - x ≤ e.depositMaxCap
      omega
    · rfl
    · show r.totalDeposit - x + e.totalDeposit = r.totalDeposit + (e.totalDeposit - x); omega
    · rfl
    · rfl
    · show p.totalDeposit - x + r.totalDeposit = p.totalDeposit + (r.totalDeposit - x); omega
    · rfl
    · intro hm
      have := hB.cap hm
      show p.totalDeposit - x ≤ p.presaleMaximumCap
      omega
    · have := hB.bound
      show p.totalDeposit - x + p.totalDepositFee < u64Bound
      omega

/-! ## Claims -/

theorem sold_le_supply (p : Presale) (r : Registry) : sold p r ≤ r.presaleSupply := by
  unfold sold
  split
  · split
    · exact Nat.zero_le _
    · exact Nat.le_refl _
  · exact Nat.min_le_right _ _

theorem Static.supply_lt {a : Addr} {p : Presale} (S : Static a p) {i : Nat} {r : Registry}
    (hr : p.registries[i]? = some r) : r.presaleSupply ≤ p.presaleSupply ∧ r.presaleSupply < u64Bound := by
  have h1 := le_lsum (g := Registry.presaleSupply) hr
  have h2 := S.supply
  have h3 := S.supplyLt
  omega

theorem Book.reg_le {t : Nat} {a : Addr} {p : Presale} {es : AMap Addr Escrow} (B : Book t a p es) {i : Nat}
    {r : Registry} (hr : p.registries[i]? = some r) :
    r.totalDeposit ≤ p.totalDeposit ∧ r.totalDepositFee ≤ p.totalDepositFee ∧
      r.totalDeposit < u64Bound ∧ r.totalDepositFee < u64Bound := by
  have h1 := le_lsum (g := Registry.totalDeposit) hr
  have h2 := le_lsum (g := Registry.totalDepositFee) hr
  have h3 := B.totDep
  have h4 := B.totFee
  have h5 := B.bound
  omega

theorem Book.dep_le {t : Nat} {a k : Addr} {p : Presale} {es : AMap Addr Escrow} {e : Escrow} {r : Registry}
    (B : Book t a p es) (hk : es.get? k = some e) (ha : e.presale = a)
    (hr : p.registries[e.registryIndex]? = some r) :
    e.totalDeposit ≤ r.totalDeposit ∧ e.totalDepositFee ≤ r.totalDepositFee := by
  have R := B.reg _ r hr
  have h1 := le_esum (f := Escrow.totalDeposit) (AMap.get?_mem hk) ha rfl
  have h2 := le_esum (f := Escrow.totalDepositFee) (AMap.get?_mem hk) ha rfl
  have := R.dep
  have := R.fee
  simp only at h1 h2
  omega

/-- In fixed-price sales the tokens bought by a registry fit 64 bits. -/
theorem PInv.bought_lt {t : Nat} {a : Addr} {p : Presale} {es : AMap Addr Escrow} (P : PInv t a p es) {i : Nat}
    {r : Registry} (hr : p.registries[i]? = some r) (h1 : p.presaleMode ≠ 1) (h2 : p.presaleMode ≠ 2) :
    tokensAtPrice p.raw0 r.totalDeposit < u64Bound := by
  have hd := (P.book.reg_le hr).1
  have hc := P.book.cap h1
  have hm := tokensAtPrice_mono (q := p.raw0) (Nat.le_trans hd hc)
  have := (P.static.price h1 h2).2.2
  have := P.static.supplyLt
  omega

theorem claimable_zero {bps imm s s' vs vd t d total : Nat} (h : d = 0 ∨ total = 0) :
    claimable bps imm s vs vd t d total = claimable bps imm s' vs vd t d total := by
  unfold claimable
  rw [if_pos h, if_pos h]

/-- In every reachable presale the cumulative claimable amount is computed and is the specified one. -/
theorem PInv.cumulative {t : Nat} {a k : Addr} {p : Presale} {es : AMap Addr Escrow} {e : Escrow} {r : Registry}
    {h : Handler} (P : PInv t a p es) (hk : es.get? k = some e) (ha : e.presale = a)
    (hr : p.registries[e.registryIndex]? = some r) (hh : getPresaleModeHandler p = .ok h) (τ : Nat) :
    h.cumulativeClaimable p e τ = .ok (claimableAt p r e τ) := by
  have hd := (P.book.dep_le hk ha hr).1
  have hT := (P.book.reg_le hr).2.2.1
  have hs := (P.static.supply_lt hr).2
  have hvd : p.vestDuration < u64Bound := by have := P.sched.range; omega
  have hdyn : p.presaleMode = 1 ∨ p.presaleMode = 2 →
      calculateCumulativeClaimableAmountForUser p.immediateReleaseBps p.immediateReleaseTimestamp
        r.presaleSupply p.vestingStartTime p.vestDuration τ e.totalDeposit r.totalDeposit =
      .ok (claimableAt p r e τ) := by
    intro hm
    rw [cumulative_ok P.static.bps hs hvd hd hT]
    unfold claimableAt sold
    rw [if_pos hm]
    by_cases h0 : r.totalDeposit = 0
    · rw [claimable_zero (s' := if r.totalDeposit = 0 then 0 else r.presaleSupply) (Or.inr h0)]
    · rw [if_neg h0]
  rcases handler_cases hh with ⟨hm, rfl⟩ | ⟨hm, rfl⟩ | ⟨hm, hm', rfl⟩
  · simp only [Handler.cumulativeClaimable]
    rw [getRegistry_eq_ok.2 hr, ok_bind]
    exact hdyn (Or.inl hm)
  · simp only [Handler.cumulativeClaimable]
    rw [getRegistry_eq_ok.2 hr, ok_bind]
    exact hdyn (Or.inr hm)
  · have hq := (P.static.price hm hm').1
    simp only [Handler.cumulativeClaimable]
    rw [getRegistry_eq_ok.2 hr, ok_bind, tokenBought_eq hT (by omega), ok_bind,
      cast64_ok (P.bought_lt hr hm hm'), ok_bind, cumulative_ok P.static.bps (by omega) hvd hd hT]
    unfold claimableAt sold
    rw [if_neg (by omega)]

theorem claimableAt_mono (p : Presale) (r : Registry) (e : Escrow) {t t' : Nat} (h : t ≤ t') :
    claimableAt p r e t ≤ claimableAt p r e t' := claimable_mono _ _ _ _ _ _ _ h

theorem claimableAt_lt {p : Presale} {r : Registry} {e : Escrow} (hb : p.immediateReleaseBps ≤ 10000)
    (hd : e.totalDeposit ≤ r.totalDeposit) (t : Nat) : claimableAt p r e t ≤ r.presaleSupply :=
  Nat.le_trans (claimable_le_sold hb hd) (sold_le_supply p r)

/-- Claimed plus pending never exceeds the cumulative amount at the current time. -/
theorem EscBook.taken_le {t : Nat} {p : Presale} {r : Registry} {e : Escrow} (E : EscBook t p r e)
    (hend : p.presaleEndTime ≤ t) (hmin : p.presaleMinimumCap ≤ p.totalDeposit) :
    e.totalClaimedToken + e.pendingClaimToken ≤ claimableAt p r e t := by
  rcases E.claim hend hmin with h | ⟨_, h⟩
  · omega
  · rw [h]; exact claimableAt_mono p r e E.refreshed

/-- Accruing succeeds in a reachable completed sale. -/
theorem PInv.accrue {t : Nat} {a k : Addr} {p : Presale} {es : AMap Addr Escrow} {e : Escrow} {r : Registry}
    {h : Handler} (P : PInv t a p es) (hk : es.get? k = some e) (ha : e.presale = a)
    (hr : p.registries[e.registryIndex]? = some r) (hh : getPresaleModeHandler p = .ok h)
    (hend : p.presaleEndTime ≤ t) (hmin : p.presaleMinimumCap ≤ p.totalDeposit) :
    h.updatePendingClaimAmount p e t = .ok (e.accrued (claimableAt p r e t) t) := by
  obtain ⟨r', hr', E⟩ := P.escBook hk ha
  rw [hr] at hr'; cases hr'
  have h1 := E.taken_le hend hmin
  have h2 := claimableAt_lt P.static.bps (P.book.dep_le hk ha hr).1 t
  have h3 := (P.static.supply_lt hr).2
  unfold Handler.updatePendingClaimAmount
  rw [P.cumulative hk ha hr hh, ok_bind, accrue_iff]
  exact ⟨by omega, h1, by omega, rfl⟩

theorem EscBook.accrued {t : Nat} {p : Presale} {r : Registry} {e : Escrow} (E : EscBook t p r e)
    (hend : p.presaleEndTime ≤ t) (hmin : p.presaleMinimumCap ≤ p.totalDeposit) :
    EscBook t p r (e.accrued (claimableAt p r e t) t) := by
  have h1 := E.taken_le hend hmin
  have h2 := E.refreshed
  have h3 := E.refreshed0
  refine ⟨E.idx, E.limits, E.cap, E.capLe, E.opened, E.created, ?_, Nat.le_refl _, E.flag, E.flag0, ?_, ?_⟩
  · show e.createdAt ≤ t; omega
  · omega
  · intro _ _
    refine Or.inr ⟨hend, ?_⟩
    show e.totalClaimedToken + (e.pendingClaimToken +
      (claimableAt p r e t - (e.totalClaimedToken + e.pendingClaimToken))) = claimableAt p r e t
    omega

theorem outstanding_congr {p : Presale} {r : Registry} {e e' : Escrow}
    (h1 : e'.totalDeposit = e.totalDeposit) (h2 : e'.totalDepositFee = e.totalDepositFee)
    (h3 : e'.isRemainingQuoteWithdrawn = e.isRemainingQuoteWithdrawn) :
    outstanding p r e' = outstanding p r e := by
  unfold outstanding
  rw [h3, owedRefund_congr rfl rfl h1 h2]

theorem PInv.refresh {t : Nat} {a k : Addr} {p : Presale} {es : AMap Addr Escrow} {e : Escrow} {r : Registry}
    (P : PInv t a p es) (hk : es.get? k = some e) (ha : e.presale = a)
    (hr : p.registries[e.registryIndex]? = some r)
    (hend : p.presaleEndTime ≤ t) (hmin : p.presaleMinimumCap ≤ p.totalDeposit) :
    PInv t a p (es.set k (e.accrued (claimableAt p r e t) t)) := by
  obtain ⟨r', hr', E⟩ := P.escBook hk ha
  rw [hr] at hr'; cases hr'
  have hset : p.registries.set e.registryIndex r = p.registries := by
    obtain ⟨hlt, hv⟩ := List.getElem?_eq_some_iff.1 hr
    rw [← hv, List.set_getElem_self]
  refine ⟨P.static, P.sched, P.flags, ?_⟩
  exact P.book.settle hend hk ha hr ha rfl rfl rfl (E.accrued hend hmin) rfl hset.symm rfl rfl rfl rfl rfl
    (Nat.le_of_eq (by rw [outstanding_congr (e' := e.accrued (claimableAt p r e t) t) (e := e) rfl rfl rfl])) (Nat.le_refl _) (fun h => by omega)

theorem books_claimed {p : Presale} {i : Nat} {r : Registry} {x : Nat} (hr : p.registries[i]? = some r) :
    books (p.claimed i r x) = books p := by
  simp only [books, Presale.claimed]
  congr 1
  exact books_set hr rfl

theorem PInv.claim {t : Nat} {a k : Addr} {p : Presale} {es : AMap Addr Escrow} {e : Escrow} {r : Registry}
    (P : PInv t a p es) (hk : es.get? k = some e) (ha : e.presale = a)
    (hr : p.registries[e.registryIndex]? = some r)
    (hend : p.presaleEndTime ≤ t) (hmin : p.presaleMinimumCap ≤ p.totalDeposit) :
    PInv t a (p.claimed e.registryIndex r (e.accrued (claimableAt p r e t) t).pendingClaimToken)
      (es.set k (e.accrued (claimableAt p r e t) t).paid) := by
  obtain ⟨r', hr', E⟩ := P.escBook hk ha
  rw [hr] at hr'; cases hr'
  have hb := books_claimed (x := (e.accrued (claimableAt p r e t) t).pendingClaimToken) hr
  refine ⟨P.static.congr (terms_of_books hb), ?_, ?_, ?_⟩
  · exact ⟨P.sched.created, P.sched.order, P.sched.timing, P.sched.range, P.sched.immLe, P.sched.immGe⟩
  · exact Flags.congr (p := p) rfl rfl rfl rfl rfl rfl P.flags
  · have EA := E.accrued hend hmin
    have EP : EscBook t p r (e.accrued (claimableAt p r e t) t).paid := by
      refine ⟨EA.idx, EA.limits, EA.cap, EA.capLe, EA.opened, EA.created, EA.refreshed0, EA.refreshed, EA.flag,
        EA.flag0, ?_, ?_⟩
      · omega
      · intro h1 h2
        exact EA.claim h1 h2
    refine P.book.settle hend hk ha hr ha rfl rfl rfl EP hb rfl rfl rfl rfl ?_ rfl
      (Nat.le_of_eq (by rw [outstanding_congr rfl rfl rfl]; rfl)) ?_ (fun h => by omega)
    · show p.totalClaimedToken + _ + r.totalClaimedToken = p.totalClaimedToken + (r.totalClaimedToken + _)
      omega
    · show r.totalClaimedToken + _ + e.totalClaimedToken ≤ r.totalClaimedToken + (e.totalClaimedToken + _)
      omega

/-! ## Refunds -/

theorem owedRefund_le {p : Presale} {r : Registry} {e : Escrow} (hd : e.totalDeposit ≤ r.totalDeposit)
    (hf : e.totalDepositFee ≤ r.totalDepositFee) :
    refundDeposit p r e ≤ registrySurplus p r ∧ refundFee p r e ≤ registryFeeRefund p r := by
  constructor
  · unfold refundDeposit
    split
    · rw [Nat.mul_comm]; exact mul_div_le_of_le hd
    · exact Nat.zero_le _
  · unfold refundFee
    split
    · rw [Nat.mul_comm]; exact mul_div_le_of_le hf
    · exact Nat.zero_le _

theorem registrySurplus_le {p : Presale} {r : Registry} : registrySurplus p r ≤ r.totalDeposit := by
  unfold registrySurplus surplus
  rw [Nat.mul_comm]
  exact mul_div_le_of_le (Nat.sub_le _ _)

theorem registryFeeRefund_le {p : Presale} {r : Registry} : registryFeeRefund p r ≤ r.totalDepositFee := by
  unfold registryFeeRefund
  exact mul_div_le_of_le registrySurplus_le

theorem finalizedQuote_eq {t : Nat} {a : Addr} {p : Presale} {es : AMap Addr Escrow} (B : Book t a p es)
    {i : Nat} {r : Registry} (hr : p.registries[i]? = some r) :
    r.getFinalizedPresaleRemainingQuote p.getRemainingQuote p.totalDeposit =
      .ok ⟨registrySurplus p r, registryFeeRefund p r⟩ := by
  have hb := B.bound
  have hl := B.reg_le hr
  have h1 := @registrySurplus_le p r
  have h2 := @registryFeeRefund_le p r
  unfold Registry.getFinalizedPresaleRemainingQuote
  split
  · next h0 =>
    have e1 : registrySurplus p r = 0 := by
      unfold registrySurplus
      rcases h0 with h0 | h0
      · rw [h0, Nat.div_zero]
      · rw [h0, Nat.mul_zero, Nat.zero_div]
    have e2 : registryFeeRefund p r = 0 := by
      unfold registryFeeRefund
      rw [e1, Nat.mul_zero, Nat.zero_div]
    rw [e1, e2]
  · next h0 =>
    have e0 : p.getRemainingQuote * r.totalDeposit / p.totalDeposit = registrySurplus p r := rfl
    have e1 : p.getRemainingQuote ≤ p.totalDeposit := Nat.sub_le _ _
    rw [mul128_ok (mul_lt_u128 (by omega) (by omega)), ok_bind, div_ok (by omega), ok_bind, e0,
      mul128_ok (mul_lt_u128 (by omega) (by omega)), ok_bind, div_ok (by omega), ok_bind,
      cast64_ok (by omega), ok_bind]
    have e3 : r.totalDepositFee * registrySurplus p r / r.totalDeposit = registryFeeRefund p r := rfl
    rw [e3, cast64_ok (by omega), ok_bind]
    rfl

theorem shareOfRefund_eq {part refund whole : Nat} (h1 : part ≤ whole) (h2 : refund < u64Bound)
    (h3 : whole < u64Bound) : Presale.shareOfRefund part refund whole = .ok (part * refund / whole) := by
  unfold Presale.shareOfRefund
  split
  · have := mul_div_le_of_le (a := refund) h1
    rw [Nat.mul_comm] at this
    rw [mul128_ok (mul_lt_u128 (by omega) h2), ok_bind, div_ok (by omega), ok_bind, cast64_ok (by omega)]
  · next h0 =>
    have : whole = 0 := by omega
    rw [this, Nat.div_zero]

/-- The refund quoted to an escrow after the end. -/
theorem PInv.refundQuote {t : Nat} {a k : Addr} {p : Presale} {es : AMap Addr Escrow} {e : Escrow} {r : Registry}
    (P : PInv t a p es) (hk : es.get? k = some e) (ha : e.presale = a)
    (hr : p.registries[e.registryIndex]? = some r) (hend : p.presaleEndTime ≤ t)
    (hok : p.totalDeposit < p.presaleMinimumCap ∨ p.presaleMode = 1) :
    p.validateAndGetEscrowRemainingQuote e t = .ok
      (if p.totalDeposit < p.presaleMinimumCap then ⟨e.totalDeposit, e.totalDepositFee⟩
       else ⟨refundDeposit p r e, refundFee p r e⟩) := by
  obtain ⟨h, hh⟩ := P.static.handler
  have hstart : p.presaleStartTime ≤ t := Nat.le_trans P.sched.order hend
  unfold Presale.validateAndGetEscrowRemainingQuote Presale.allowWithdrawRemainingQuote
  rw [castMode_of_handler hh]
  by_cases hf : p.totalDeposit < p.presaleMinimumCap
  · have hp : p.getPresaleProgress t = .failed := progress_failed.2 ⟨hstart, hend, hf⟩
    rw [hp, if_pos hf]
    simp only [pure_bind', ok_bind]
    rw [require_ok (by simp), ok_bind, if_pos (by simp)]
    rfl
  · have hp : p.getPresaleProgress t = .completed := progress_completed.2 ⟨hstart, hend, by omega⟩
    have hm : p.presaleMode = 1 := by omega
    have hd := P.book.dep_le hk ha hr
    have hl := P.book.reg_le hr
    have h1 := @registrySurplus_le p r
    have h2 := @registryFeeRefund_le p r
    rw [hp, if_neg hf, if_pos hm]
    simp only [pure_bind', ok_bind]
    rw [require_ok (by simp), ok_bind, if_neg (by simp), getRegistry_eq_ok.2 hr, ok_bind,
      finalizedQuote_eq P.book hr, ok_bind, shareOfRefund_eq hd.2 (show registryFeeRefund p r < u64Bound by omega) hl.2.2.2,
      ok_bind, shareOfRefund_eq hd.1 (show registrySurplus p r < u64Bound by omega) hl.2.2.1, ok_bind]
    unfold refundDeposit refundFee
    rw [if_pos hm, if_pos hm]
    rfl

/-- Refunds are only quoted after the end of failed or pro-rata sales. -/
theorem refundQuote_phase {p : Presale} {e : Escrow} {t : Nat} {q : EscrowRemainingQuote}
    (h : p.validateAndGetEscrowRemainingQuote e t = .ok q) :
    p.presaleStartTime ≤ t ∧ p.presaleEndTime ≤ t ∧
      (p.totalDeposit < p.presaleMinimumCap ∨
        (p.presaleMinimumCap ≤ p.totalDeposit ∧ p.presaleMode = 1)) := by
  simp only [Presale.validateAndGetEscrowRemainingQuote, Presale.allowWithdrawRemainingQuote, bind_eq_ok,
    require_eq_ok, pure_eq_ok] at h
  obtain ⟨b, ⟨m, hm, hb⟩, _, hb', _⟩ := h
  rw [hb'] at hb
  simp only [Bool.or_eq_true, beq_iff_eq, Bool.and_eq_true] at hb
  rcases hb with hb | ⟨hb, hp⟩
  · obtain ⟨h1, h2, h3⟩ := progress_failed.1 hb
    exact ⟨h1, h2, Or.inl h3⟩
  · obtain ⟨h1, h2, h3⟩ := progress_completed.1 hb
    refine ⟨h1, h2, Or.inr ⟨h3, ?_⟩⟩
    subst hp
    unfold castPresaleMode PresaleMode.tryFrom at hm
    split at hm
    · next hx =>
      cases hm
      split at hx
      · cases hx
      · assumption
      · cases hx
      · split at hx <;> cases hx
    · cases hm

/-- The two parts of the quoted refund add up to what is owed. -/
theorem PInv.refundTotal {t : Nat} {a k : Addr} {p : Presale} {es : AMap Addr Escrow} {e : Escrow} {r : Registry}
    {q : EscrowRemainingQuote} (P : PInv t a p es) (hk : es.get? k = some e) (ha : e.presale = a)
    (hr : p.registries[e.registryIndex]? = some r) (hq : p.validateAndGetEscrowRemainingQuote e t = .ok q) :
    q.refundDepositAmount + q.refundFeeAmount = owedRefund p r e := by
  obtain ⟨_, h2, h3⟩ := refundQuote_phase hq
  rw [P.refundQuote hk ha hr h2 (h3.imp id And.right)] at hq
  cases hq
  unfold owedRefund
  split <;> rfl

theorem books_refunded {p : Presale} {i : Nat} {r : Registry} {x : Nat} (hr : p.registries[i]? = some r) :
    books (p.refunded i r x) = books p := by
  simp only [books, Presale.refunded]
  congr 1
  exact books_set hr rfl

theorem PInv.refund {t : Nat} {a k : Addr} {p : Presale} {es : AMap Addr Escrow} {e : Escrow} {r : Registry}
    {x : Nat} (P : PInv t a p es) (hk : es.get? k = some e) (ha : e.presale = a)
    (hr : p.registries[e.registryIndex]? = some r) (hend : p.presaleEndTime ≤ t)
    (hflag : e.isRemainingQuoteWithdrawn ≠ 1) (hx : x = owedRefund p r e) :
    PInv t a (p.refunded e.registryIndex r x) (es.set k e.updateRemainingQuoteWithdrawn) := by
  obtain ⟨r', hr', E⟩ := P.escBook hk ha
  rw [hr] at hr'; cases hr'
  have hb := books_refunded (x := x) hr
  refine ⟨P.static.congr (terms_of_books hb), ?_, ?_, ?_⟩
  · exact ⟨P.sched.created, P.sched.order, P.sched.timing, P.sched.range, P.sched.immLe, P.sched.immGe⟩
  · exact Flags.congr (p := p) rfl rfl rfl rfl rfl rfl P.flags
  · have E' : EscBook t p r e.updateRemainingQuoteWithdrawn :=
      ⟨E.idx, E.limits, E.cap, E.capLe, E.opened, E.created, E.refreshed0, E.refreshed, Nat.le_refl _,
        fun h => by omega, E.claim0, E.claim⟩
    refine P.book.settle hend hk ha hr ha rfl rfl rfl E' hb rfl rfl rfl rfl rfl ?_ ?_ (Nat.le_refl _) ?_
    · show p.totalRefundedQuoteToken + x + r.totalRefundedQuoteToken =
        p.totalRefundedQuoteToken + (r.totalRefundedQuoteToken + x)
      omega
    · show r.totalRefundedQuoteToken + x + outstanding p r e.updateRemainingQuoteWithdrawn ≤ _
      have h1 : outstanding p r e.updateRemainingQuoteWithdrawn = 0 := by
        unfold outstanding; exact if_pos rfl
      have h2 : outstanding p r e = owedRefund p r e := by
        unfold outstanding; exact if_neg hflag
      omega
    · intro h
      exact (P.book.reg _ r hr).claim0 (Or.inr h)

/-! ## Closing -/

theorem books_uncounted {p : Presale} {i : Nat} {r : Registry} (hr : p.registries[i]? = some r) :
    books (p.uncounted i r) = books p := by
  simp only [books, Presale.uncounted]
  congr 1
  exact books_set hr rfl

theorem claimableAt_le_entitlement {t : Nat} {p : Presale} (S : Sched t p) (r : Registry) (e : Escrow) (τ : Nat) :
    claimableAt p r e τ ≤ entitlement p r e := by
  generalize hM : max τ (p.presaleEndTime + p.lockDuration + p.vestDuration) = M
  have h1 := claimableAt_mono p r e (show τ ≤ M by omega)
  have h2 := S.immLe
  have h3 : p.vestingStartTime + p.vestDuration ≤ M := by
    rcases S.timing with ⟨h, _⟩ | ⟨_, h, _, _, h', _⟩ <;> omega
  have h4 : claimableAt p r e M = entitlement p r e := claimable_end _ _ _ _ _ _ _ (by omega) h3
  omega

/-- From the end of the schedule on, everything is claimable. -/
theorem claimableAt_end {t : Nat} {p : Presale} (S : Sched t p) (r : Registry) (e : Escrow) {τ : Nat}
    (h : p.presaleEndTime + p.lockDuration + p.vestDuration ≤ τ) :
    claimableAt p r e τ = entitlement p r e := by
  have h2 := S.immLe
  have h3 : p.vestingStartTime + p.vestDuration ≤ τ := by
    rcases S.timing with ⟨h, _⟩ | ⟨_, h, _, _, h', _⟩ <;> omega
  exact claimable_end _ _ _ _ _ _ _ (by omega) h3

/-- The time `close_escrow` uses is late enough, given the schedule. -/
theorem claimableAt_vestingEnd {t : Nat} {p : Presale} (S : Sched t p) (r : Registry) (e : Escrow) :
    claimableAt p r e (p.vestingStartTime + p.vestDuration) = entitlement p r e := by
  refine claimable_end _ _ _ _ _ _ _ ?_ (Nat.le_refl _)
  have := S.immLe
  rcases S.timing with ⟨h, _⟩ | ⟨_, h, _, _, h', _⟩ <;> omega

theorem EscBook.claimed_le {t : Nat} {p : Presale} {r : Registry} {e : Escrow} (S : Sched t p)
    (E : EscBook t p r e) (hend : p.presaleEndTime ≤ t) (hmin : p.presaleMinimumCap ≤ p.totalDeposit) :
    e.totalClaimedToken ≤ entitlement p r e := by
  have h1 := E.taken_le hend hmin
  have h2 := claimableAt_le_entitlement S r e t
  omega

theorem PInv.close {t : Nat} {a k : Addr} {p : Presale} {es : AMap Addr Escrow} {e : Escrow} {r : Registry}
    (P : PInv t a p es) (hk : es.get? k = some e) (ha : e.presale = a)
    (hr : p.registries[e.registryIndex]? = some r) (hpos : 1 ≤ r.totalEscrow)
    (hopen : t < p.presaleEndTime → e.totalDeposit = 0 ∧ e.totalDepositFee = 0) :
    PInv t a (p.uncounted e.registryIndex r) (es.erase k) := by
  obtain ⟨r', hr', E⟩ := P.escBook hk ha
  rw [hr] at hr'; cases hr'
  refine ⟨P.static.congr (terms_of_books (books_uncounted hr)), ?_, ?_, ?_⟩
  · exact ⟨P.sched.created, P.sched.order, P.sched.timing, P.sched.range, P.sched.immLe, P.sched.immGe⟩
  · exact Flags.congr (p := p) rfl rfl rfl rfl rfl rfl P.flags
  · exact P.book.remove hk ha hr hpos hopen (fun h1 h2 => E.claimed_le P.sched h1 h2)

/-! ## Budget of a completed sale -/

theorem lsum_refundPool {t : Nat} {a : Addr} {p : Presale} {es : AMap Addr Escrow} (B : Book t a p es)
    (hf : p.totalDeposit < p.presaleMinimumCap) :
    lsum (refundPool p) p.registries = p.totalDeposit + p.totalDepositFee := by
  rw [B.totDep, B.totFee, ← lsum_add]
  apply lsum_congr
  intro i r _
  unfold refundPool
  rw [if_pos hf]

/-- Surplus shares of the registries never exceed the surplus. -/
theorem lsum_surplus {t : Nat} {a : Addr} {p : Presale} {es : AMap Addr Escrow} (B : Book t a p es) :
    lsum (registrySurplus p) p.registries ≤ surplus p := by
  refine Nat.le_trans (lsum_floor Registry.totalDeposit (surplus p) p.totalDeposit p.registries) ?_
  rw [← B.totDep]
  exact mul_div_le_of_le (Nat.le_refl _)

theorem collectable_eq {t : Nat} {a : Addr} {p : Presale} {es : AMap Addr Escrow} (B : Book t a p es)
    (hm : p.presaleMode = 1) :
    collectableFee p + lsum (registryFeeRefund p) p.registries = p.totalDepositFee := by
  have e1 : collectableFee p = lsum (fun r => r.totalDepositFee - registryFeeRefund p r) p.registries := by
    unfold collectableFee
    rw [if_pos hm]; rfl
  rw [e1, B.totFee, ← lsum_add]
  apply lsum_congr
  intro i r _
  have := @registryFeeRefund_le p r
  omega

/-- Raise, collectable fees and refunds fit into what was paid in. -/
theorem budget {t : Nat} {a : Addr} {p : Presale} {es : AMap Addr Escrow} (B : Book t a p es)
    (hc : p.presaleMinimumCap ≤ p.totalDeposit) :
    raise p + collectableFee p + lsum (refundPool p) p.registries ≤ p.totalDeposit + p.totalDepositFee := by
  by_cases hm : p.presaleMode = 1
  · have h1 := collectable_eq B hm
    have h2 := lsum_surplus B
    have h3 : lsum (refundPool p) p.registries =
        lsum (registrySurplus p) p.registries + lsum (registryFeeRefund p) p.registries := by
      rw [← lsum_add]
      apply lsum_congr
      intro i r _
      unfold refundPool
      rw [if_neg (by omega), if_pos hm]
    unfold raise
    unfold surplus at h2
    omega
  · have h1 : lsum (refundPool p) p.registries = 0 := by
      apply lsum_zero
      intro i r _
      unfold refundPool
      rw [if_neg (by omega), if_neg hm]
    have h2 : collectableFee p = p.totalDepositFee := by
      unfold collectableFee; rw [if_neg hm]
    unfold raise
    omega

theorem totalSold_eq (p : Presale) : totalSold p = lsum (sold p) p.registries := rfl

theorem totalSold_le {a : Addr} {p : Presale} (S : Static a p) : totalSold p ≤ p.presaleSupply := by
  rw [totalSold_eq, S.supply]
  exact lsum_le (fun _ r _ => sold_le_supply p r)

end Verif
