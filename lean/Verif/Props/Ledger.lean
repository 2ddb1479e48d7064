import Verif.Lemmas.Sums
import Verif.Examples
/-!
# What holds in every reachable state

C01, C02 (solvency), C03 (totals), C04, C05 (limits), C11 (registries do not share), C31 (documented
constraints), C41 (escrows) and C44 (mints), all for every state reached by any history.
-/

namespace Verif
open Spec

/-! ## C01 -/

/-- What the creator has still to receive in quote tokens from a completed sale. -/
def creatorDue (p : Presale) : Nat :=
  (if p.hasCreatorWithdrawn = 1 then 0 else raise p) +
  (if p.depositFeeCollected = 1 then 0 else collectableFee p)

/-- Whatever accounts for what was taken out covers what is owed. -/
theorem quote_cover {w : World} (W : WInv w) {a : Addr} {p : Presale} (hp : w.presales a = some p) {bb qb : Nat}
    (M : Money p bb qb) :
    (¬ Over p w.clock → p.totalDeposit + p.totalDepositFee ≤ qb) ∧
    (Failed p w.clock →
      saleSum w.escrows a (fun e => if e.isRemainingQuoteWithdrawn = 1 then 0
        else e.totalDeposit + e.totalDepositFee) ≤ qb) ∧
    (Completed p w.clock → creatorDue p + saleSum w.escrows a (refundDue p) ≤ qb) := by
  have S := W.core.sale a p hp
  refine ⟨?_, ?_, ?_⟩
  · intro h
    rw [S.over] at h
    have ht : w.clock.toNat < p.presaleEndTime := by omega
    have h0 := M.quote
    have h1 := S.pinv.flags.open_ ht
    have h2 := (S.pinv.flags.failed (.inl ht)).1
    have h3 : p.totalRefundedQuoteToken = 0 := by
      rw [S.pinv.book.totRef]
      exact lsum_zero (fun i r hr => (S.pinv.book.reg i r hr).refund0 ht)
    rw [if_neg (by omega), if_neg (by omega)] at h0
    omega
  · rintro ⟨hov, hf⟩
    rw [S.over] at hov
    have h0 := M.quote
    have h1 := S.pinv.refundsDue hov
    rw [lsum_refundPool S.pinv.book hf] at h1
    have h2 := (S.pinv.flags.failed (.inr hf)).1
    rw [if_neg (by omega), if_neg (by omega)] at h0
    have h3 : saleSum w.escrows a (refundDue p) =
        saleSum w.escrows a (fun e => if e.isRemainingQuoteWithdrawn = 1 then 0
          else e.totalDeposit + e.totalDepositFee) := by
      apply saleSum_congr
      intro x hx ha
      obtain ⟨r, hr, _⟩ := S.pinv.book.esc x hx ha
      unfold refundDue
      rw [hr]
      show (if _ then 0 else owedRefund p r x.2) = _
      unfold owedRefund
      rw [if_pos hf]
    rw [← h3]
    omega
  · rintro ⟨hov, hc⟩
    rw [S.over] at hov
    have h0 := M.quote
    have h1 := S.pinv.refundsDue hov
    have h2 := budget S.pinv.book hc
    unfold creatorDue
    by_cases hw : p.hasCreatorWithdrawn = 1
    · rw [if_pos ⟨hw, hc⟩] at h0
      rw [if_pos hw]
      by_cases hf : p.depositFeeCollected = 1
      · rw [if_pos hf] at h0 ⊢; omega
      · rw [if_neg hf] at h0 ⊢; omega
    · rw [if_neg (fun h => hw h.1)] at h0
      rw [if_neg hw]
      by_cases hf : p.depositFeeCollected = 1
      · rw [if_pos hf] at h0 ⊢; omega
      · rw [if_neg hf] at h0 ⊢; omega

/-- `C01_quote_solvent` from the invariant alone (see C98). -/
theorem quote_solvent_of {w : World} (W : WInv w) {a : Addr} {p : Presale}
    (hp : w.presales a = some p) :
    ∃ q, w.tk.toks (.quoteVault a) = some q ∧ q.mint = p.quoteMint ∧ q.owner = .presaleAuthority ∧
      q.delegate = none ∧
      (¬ Over p w.clock → p.totalDeposit + p.totalDepositFee ≤ q.amount) ∧
      (Failed p w.clock →
        saleSum w.escrows a (fun e => if e.isRemainingQuoteWithdrawn = 1 then 0
          else e.totalDeposit + e.totalDepositFee) ≤ q.amount) ∧
      (Completed p w.clock → creatorDue p + saleSum w.escrows a (refundDue p) ≤ q.amount) := by
  obtain ⟨b, q, hb, hbm, hq, hqm, M⟩ := (W.core.sale a p hp).vaults
  obtain ⟨hown, hdel⟩ := W.core.vaults _ q rfl hq
  exact ⟨q, hq, hqm, hown, hdel, quote_cover W hp M⟩

/-- **C01.** The quote vault exists, holds the quote mint, obeys the program alone, and covers everything
owed in quote tokens, whatever happened before. -/
theorem C01_quote_solvent {w : World} (R : Reachable w) {a : Addr} {p : Presale}
    (hp : w.presales a = some p) :
    ∃ q, w.tk.toks (.quoteVault a) = some q ∧ q.mint = p.quoteMint ∧ q.owner = .presaleAuthority ∧
      q.delegate = none ∧
      (¬ Over p w.clock → p.totalDeposit + p.totalDepositFee ≤ q.amount) ∧
      (Failed p w.clock →
        saleSum w.escrows a (fun e => if e.isRemainingQuoteWithdrawn = 1 then 0
          else e.totalDeposit + e.totalDepositFee) ≤ q.amount) ∧
      (Completed p w.clock → creatorDue p + saleSum w.escrows a (refundDue p) ≤ q.amount) :=
  quote_solvent_of R.winv hp

/-! ## C02 -/

/-- Whatever accounts for what was taken out covers what is owed. -/
theorem base_cover {w : World} (W : WInv w) {a : Addr} {p : Presale} (hp : w.presales a = some p) {bb qb : Nat}
    (M : Money p bb qb) :
    (¬ Over p w.clock → p.presaleSupply ≤ bb) ∧
    (Failed p w.clock → p.hasCreatorWithdrawn = 0 → p.presaleSupply ≤ bb) ∧
    (Completed p w.clock →
      (if p.isUnsoldTokenActionPerformed = 1 then 0 else p.presaleSupply - totalSold p) +
        saleSum w.escrows a (claimDue p) ≤ bb) := by
  have S := W.core.sale a p hp
  have hz : w.clock.toNat < p.presaleEndTime ∨ p.totalDeposit < p.presaleMinimumCap →
      p.hasCreatorWithdrawn = 0 → p.presaleSupply ≤ bb := by
    intro h hw
    have h0 := M.base
    have h2 := (S.pinv.flags.failed h).2
    have h3 : p.totalClaimedToken = 0 := by
      rw [S.pinv.book.totCl]
      exact lsum_zero (fun i r hr => (S.pinv.book.reg i r hr).claim0 h)
    rw [if_neg (by omega), if_neg (by omega)] at h0
    omega
  refine ⟨?_, ?_, ?_⟩
  · intro h
    rw [S.over] at h
    have ht : w.clock.toNat < p.presaleEndTime := by omega
    exact hz (.inl ht) (S.pinv.flags.open_ ht)
  · rintro ⟨hov, hf⟩ hw
    exact hz (.inr hf) hw
  · rintro ⟨hov, hc⟩
    rw [S.over] at hov
    have h0 := M.base
    have h1 := S.pinv.claimsDue hov hc
    have h2 := totalSold_le S.pinv.static
    rw [if_neg (c := p.hasCreatorWithdrawn = 1 ∧ _) (by omega)] at h0
    by_cases hu : p.isUnsoldTokenActionPerformed = 1
    · rw [if_pos hu] at h0 ⊢; omega
    · rw [if_neg hu] at h0 ⊢; omega

/-- `C02_base_solvent` from the invariant alone (see C98). -/
theorem base_solvent_of {w : World} (W : WInv w) {a : Addr} {p : Presale}
    (hp : w.presales a = some p) :
    ∃ b, w.tk.toks (.baseVault a) = some b ∧ b.mint = p.baseMint ∧ b.owner = .presaleAuthority ∧
      b.delegate = none ∧
      (¬ Over p w.clock → p.presaleSupply ≤ b.amount) ∧
      (Failed p w.clock → p.hasCreatorWithdrawn = 0 → p.presaleSupply ≤ b.amount) ∧
      (Completed p w.clock →
        (if p.isUnsoldTokenActionPerformed = 1 then 0 else p.presaleSupply - totalSold p) +
          saleSum w.escrows a (claimDue p) ≤ b.amount) := by
  obtain ⟨b, q, hb, hbm, hq, hqm, M⟩ := (W.core.sale a p hp).vaults
  obtain ⟨hown, hdel⟩ := W.core.vaults _ b rfl hb
  exact ⟨b, hb, hbm, hown, hdel, base_cover W hp M⟩

/-- **C02.** The base vault exists and covers every token owed, whatever happened before. -/
theorem C02_base_solvent {w : World} (R : Reachable w) {a : Addr} {p : Presale}
    (hp : w.presales a = some p) :
    ∃ b, w.tk.toks (.baseVault a) = some b ∧ b.mint = p.baseMint ∧ b.owner = .presaleAuthority ∧
      b.delegate = none ∧
      (¬ Over p w.clock → p.presaleSupply ≤ b.amount) ∧
      (Failed p w.clock → p.hasCreatorWithdrawn = 0 → p.presaleSupply ≤ b.amount) ∧
      (Completed p w.clock →
        (if p.isUnsoldTokenActionPerformed = 1 then 0 else p.presaleSupply - totalSold p) +
          saleSum w.escrows a (claimDue p) ≤ b.amount) :=
  base_solvent_of R.winv hp

/-! ## C03 -/

/-- **C03**, the totals. Recorded totals add up over registries at all times; within a registry they equal
the sums over its escrows until the sale ends, and bound them afterwards. -/
theorem C03_totals {w : World} (R : Reachable w) {a : Addr} {p : Presale} (hp : w.presales a = some p) :
    p.totalDeposit = (p.registries.map Registry.totalDeposit).sum ∧
    p.totalDepositFee = (p.registries.map Registry.totalDepositFee).sum ∧
    p.totalEscrow = (p.registries.map Registry.totalEscrow).sum ∧
    ∀ i r, p.registries[i]? = some r →
      r.totalEscrow = escrowSum w.escrows a i (fun _ => 1) ∧
      escrowSum w.escrows a i Escrow.totalDeposit ≤ r.totalDeposit ∧
      escrowSum w.escrows a i Escrow.totalDepositFee ≤ r.totalDepositFee ∧
      (¬ Over p w.clock →
        r.totalDeposit = escrowSum w.escrows a i Escrow.totalDeposit ∧
        r.totalDepositFee = escrowSum w.escrows a i Escrow.totalDepositFee) := by
  have S := R.winv.core.sale a p hp
  refine ⟨S.pinv.book.totDep, S.pinv.book.totFee, S.pinv.book.totEsc, ?_⟩
  intro i r hr
  have B := S.pinv.book.reg i r hr
  refine ⟨B.count, B.dep, B.fee, ?_⟩
  intro h
  rw [S.over] at h
  exact ⟨(B.depEq (by omega)).symm, (B.feeEq (by omega)).symm⟩

/-! ## C04 -/

/-- **C04.** Outside pro-rata sales the recorded deposits never exceed the maximum cap. -/
theorem C04_hard_cap {w : World} (R : Reachable w) {a : Addr} {p : Presale} (hp : w.presales a = some p)
    (hm : p.presaleMode ≠ 1) :
    p.totalDeposit ≤ p.presaleMaximumCap ∧
      saleSum w.escrows a Escrow.totalDeposit ≤ p.presaleMaximumCap := by
  have S := R.winv.core.sale a p hp
  have h1 := S.pinv.book.cap hm
  refine ⟨h1, Nat.le_trans ?_ h1⟩
  rw [saleSum_split S.pinv.idx_lt, S.pinv.book.totDep]
  have h2 := lsum_indexed (l := p.registries) (F := fun i => esum w.escrows a i Escrow.totalDeposit)
    (A := fun _ => 0) (B := Registry.totalDeposit) (fun i r hr => (S.pinv.book.reg i r hr).dep)
  rw [lsum_zero (fun _ _ _ => rfl)] at h2
  exact h2

/-! ## C05 -/

/-- **C05.** Every open escrow belongs to an initialised registry of an existing presale and keeps the
buyer limits of that registry and its personal cap. -/
theorem C05_buyer_limits {w : World} (R : Reachable w) {k : Addr} {e : Escrow}
    (he : w.escrows.get? k = some e) :
    ∃ p r, w.presales e.presale = some p ∧ p.registries[e.registryIndex]? = some r ∧
      e.registryIndex < p.totalPresaleRegistryCount ∧
      (e.totalDeposit = 0 ∨
        (r.buyerMinimumDepositCap ≤ e.totalDeposit ∧ e.totalDeposit ≤ r.buyerMaximumDepositCap)) ∧
      e.totalDeposit ≤ e.depositMaxCap ∧ e.depositMaxCap ≤ r.buyerMaximumDepositCap := by
  have W := R.winv
  have hmem := AMap.get?_mem he
  obtain ⟨_, p, hp⟩ := W.core.esc _ hmem
  obtain ⟨r, hr, E⟩ := (W.core.sale _ p hp).pinv.book.esc _ hmem rfl
  exact ⟨p, r, hp, hr, E.idx, E.limits, E.cap, E.capLe⟩

/-! ## C11 -/

/-- **C11.** In a completed sale what a registry has paid out plus what its escrows are still entitled to
stays within what it sold, and that within its own supply. Claims are zero in every other state. -/
theorem C11_registry_within_sold {w : World} (R : Reachable w) {a : Addr} {p : Presale}
    (hp : w.presales a = some p) {i : Nat} {r : Registry} (hr : p.registries[i]? = some r) :
    sold p r ≤ r.presaleSupply ∧
    (Completed p w.clock →
      r.totalClaimedToken + escrowSum w.escrows a i (claimDue p) ≤ sold p r) ∧
    (¬ Completed p w.clock → r.totalClaimedToken = 0) := by
  have S := R.winv.core.sale a p hp
  refine ⟨sold_le_supply p r, ?_, ?_⟩
  · rintro ⟨hov, hc⟩
    rw [S.over] at hov
    have := S.pinv.claimsDueReg hov hc hr
    rw [esum_eq]
    omega
  · intro h
    apply (S.pinv.book.reg i r hr).claim0
    unfold Completed at h
    rw [S.over] at h
    omega

/-! ## C31 -/

/-- **C31.** Every existing presale has the terms of one created in accordance with the documentation, and
differs from it in its dates only by an earlier end. -/
theorem C31_documented {w : World} (R : Reachable w) {a : Addr} {p : Presale} (hp : w.presales a = some p) :
    ∃ p0, Documented p.createdAt p0 ∧ terms p = terms p0 ∧ Shifted p0 p ∧ (p.createdAt : Int) ≤ w.clock := by
  have S := R.winv.core.sale a p hp
  obtain ⟨p0, h1, h2, h3⟩ := S.origin
  have h4 := S.pinv.sched.created
  have := S.clock
  exact ⟨p0, h1, h2, h3, by omega⟩

/-- **C31**, spelt out on the presale itself. -/
theorem C31_constraints {w : World} (R : Reachable w) {a : Addr} {p : Presale}
    (hp : w.presales a = some p) :
    1 ≤ p.totalPresaleRegistryCount ∧ p.totalPresaleRegistryCount ≤ 5 ∧ p.registries.length = 5 ∧
    (1 < p.totalPresaleRegistryCount → p.whitelistMode = 1 ∨ p.whitelistMode = 2) ∧
    0 < p.presaleMinimumCap ∧ p.presaleMinimumCap ≤ p.presaleMaximumCap ∧
    p.presaleSupply = (p.registries.map Registry.presaleSupply).sum ∧
    (∀ i r, p.registries[i]? = some r → i < p.totalPresaleRegistryCount →
      0 < r.presaleSupply ∧ r.buyerMinimumDepositCap ≤ r.buyerMaximumDepositCap ∧
      r.buyerMaximumDepositCap ≤ p.presaleMaximumCap ∧ r.depositFeeBps ≤ 5000) ∧
    p.presaleEndTime ≤ p.presaleStartTime + 30 * 24 * 3600 ∧
    p.createdAt ≤ p.presaleStartTime ∧ p.presaleStartTime ≤ p.createdAt + 30 * 24 * 3600 ∧
    p.presaleStartTime ≤ p.presaleEndTime ∧
    p.lockDuration + p.vestDuration < 10 * 365 * 24 * 3600 ∧
    (p.presaleMode ≠ 1 → p.presaleMode ≠ 2 →
      0 < p.raw0 ∧ tokensAtPrice p.raw0 p.presaleMaximumCap ≤ p.presaleSupply) := by
  have S := R.winv.core.sale a p hp
  obtain ⟨p0, D, ht, hs⟩ := S.origin
  have T := S.pinv.static
  have e1 : p.totalPresaleRegistryCount = p0.totalPresaleRegistryCount :=
    (congrArg Presale.totalPresaleRegistryCount ht :)
  have e2 : p.whitelistMode = p0.whitelistMode := (congrArg Presale.whitelistMode ht :)
  have e3 : p.presaleStartTime = p0.presaleStartTime := (congrArg Presale.presaleStartTime ht :)
  have e4 : p.lockDuration = p0.lockDuration := (congrArg Presale.lockDuration ht :)
  have e5 : p.vestDuration = p0.vestDuration := (congrArg Presale.vestDuration ht :)
  have h1 := hs.earlier
  have h2 := D.duration
  have h3 := D.startAhead
  have h4 := D.delays
  refine ⟨T.countPos, T.countLe, T.len, ?_, T.minPos, T.minLe, T.supply, ?_, by omega, by omega, by omega,
    S.pinv.sched.order, by omega, ?_⟩
  · rw [e1, e2]; exact D.several
  · intro i r hr hi
    obtain ⟨a1, a2, _, a4, a5⟩ := T.reg i r hr hi
    exact ⟨a1, a2, a4, a5⟩
  · intro m1 m2
    obtain ⟨b1, _, b3⟩ := T.price m1 m2
    exact ⟨b1, b3⟩

/-! ## C41 -/

/-- **C41.** Two open escrows with the same presale, owner and registry are the same one. -/
theorem C41_unique {w : World} (R : Reachable w) {k1 k2 : Addr} {e1 e2 : Escrow}
    (h1 : w.escrows.get? k1 = some e1) (h2 : w.escrows.get? k2 = some e2)
    (hp : e1.presale = e2.presale) (ho : e1.owner = e2.owner) (hi : e1.registryIndex = e2.registryIndex) :
    k1 = k2 ∧ e1 = e2 := by
  have W := R.winv
  have a1 := (W.core.esc _ (AMap.get?_mem h1)).1
  have a2 := (W.core.esc _ (AMap.get?_mem h2)).1
  have : k1 = k2 := by
    simp only at a1 a2
    rw [a1, a2, hp, ho, hi]
  subst this
  rw [h1] at h2
  exact ⟨rfl, Option.some.inj h2⟩

/-- **C41**, counting: the store holds at most one escrow for each presale, owner and registry. -/
theorem C41_at_most_one {w : World} (R : Reachable w) (a : Addr) (o : Addr) (i : Nat) :
    (w.escrows.filter (fun x => decide (x.2.presale = a ∧ x.2.owner = o ∧ x.2.registryIndex = i))).length ≤ 1 := by
  have W := R.winv
  have hn : ((w.escrows.filter
      (fun x => decide (x.2.presale = a ∧ x.2.owner = o ∧ x.2.registryIndex = i))).map Prod.fst).Nodup :=
    W.core.nodup.sublist (List.filter_sublist.map Prod.fst)
  have hall : ∀ x ∈ w.escrows.filter
      (fun x => decide (x.2.presale = a ∧ x.2.owner = o ∧ x.2.registryIndex = i)), x.1 = Addr.escrow a o i := by
    intro x hx
    obtain ⟨hx1, hx2⟩ := List.mem_filter.1 hx
    obtain ⟨b1, b2, b3⟩ := of_decide_eq_true hx2
    rw [(W.core.esc x hx1).1, b1, b2, b3]
  revert hn hall
  generalize w.escrows.filter _ = l
  intro hn hall
  match l with
  | [] => simp
  | [_] => simp
  | x :: y :: l =>
    exfalso
    have hx := hall x (by simp)
    have hy := hall y (by simp)
    simp [hx, hy] at hn

/-- **C41**, the place of an escrow. -/
theorem C41_place {w : World} (R : Reachable w) {k : Addr} {e : Escrow} (he : w.escrows.get? k = some e) :
    k = .escrow e.presale e.owner e.registryIndex ∧
    ∃ p r, w.presales e.presale = some p ∧ p.registries[e.registryIndex]? = some r ∧
      e.registryIndex < p.totalPresaleRegistryCount ∧
      (p.whitelistMode = 0 → e.registryIndex = 0 ∧ e.depositMaxCap = r.buyerMaximumDepositCap) := by
  have W := R.winv
  have hmem := AMap.get?_mem he
  obtain ⟨hk, p, hp⟩ := W.core.esc _ hmem
  obtain ⟨r, hr, E⟩ := (W.core.sale _ p hp).pinv.book.esc _ hmem rfl
  refine ⟨hk, p, r, hp, hr, E.idx, ?_⟩
  intro h0
  exact E.opened (by rw [h0]; rfl)

/-! ## C44 -/

/-- **C44.** The mints of every existing presale are classic token mints, or Token-2022 mints other than
the native one whose extensions are all harmless. -/
theorem C44_safe_mints {w : World} (R : Reachable w) {a : Addr} {p : Presale} (hp : w.presales a = some p) :
    ∀ k ∈ [p.baseMint, p.quoteMint], ∃ m, w.tk.mints k = some m ∧
      (m.program = .splToken ∨ (m.program = .splToken2022 ∧ m.isNative = false ∧
        ∀ x ∈ m.exts, x = .transferFeeConfig ∨ x = .transferHook ∨ x = .metadataPointer ∨
          x = .tokenMetadata)) := by
  have S := R.winv.core.sale a p hp
  have key : ∀ m : MintInfo, isSupportedMint m = true →
      (m.program = .splToken ∨ (m.program = .splToken2022 ∧ m.isNative = false ∧
        ∀ x ∈ m.exts, x = .transferFeeConfig ∨ x = .transferHook ∨ x = .metadataPointer ∨
          x = .tokenMetadata)) := by
    intro m hm
    unfold isSupportedMint at hm
    cases hprog : m.program with
    | splToken => exact .inl rfl
    | splToken2022 =>
      right
      refine ⟨rfl, ?_, ?_⟩
      · by_contra hn
        simp_all
      · intro x hx
        have : extSupported x = true := by
          split at hm
          · simp_all
          · split at hm
            · simp_all
            · exact List.all_eq_true.1 hm x hx
        cases x <;> simp_all [extSupported]
  obtain ⟨m1, h1, h2, _⟩ := S.baseMint
  obtain ⟨m2, h3, h4, _⟩ := S.quoteMint
  intro k hk
  simp only [List.mem_cons, List.not_mem_nil, or_false] at hk
  rcases hk with rfl | rfl
  · exact ⟨m1, h1, key m1 h2⟩
  · exact ⟨m2, h3, key m2 h4⟩

/-! ## Examples

The hypotheses are met in every phase. -/

theorem Ex.reachable (ops : List Op) : Reachable (run Ex.genesis ops) :=
  (Genesis.reachable Ex.genesis_ok).run ops

namespace Ex

/-- An open sale with two buyers: 1500 deposited, 32 in fees. -/
example : Reachable prorataOpen ∧
    has prorataOpen (fun p => decide (¬ (p.presaleEndTime : Int) ≤ prorataOpen.clock ∧
      p.totalDeposit = 1500 ∧ p.totalDepositFee = 32)) = true :=
  ⟨reachable _, by decide +kernel⟩

/-- A completed sale with 500 to be refunded. -/
example : Reachable prorataDone ∧
    has prorataDone (fun p => decide ((p.presaleEndTime : Int) ≤ prorataDone.clock ∧
      p.presaleMinimumCap ≤ p.totalDeposit ∧ creatorDue p = 1022 ∧
      saleSum prorataDone.escrows sale (refundDue p) = 509 ∧
      saleSum prorataDone.escrows sale (claimDue p) = 10000)) = true :=
  ⟨reachable _, by decide +kernel⟩

/-- The quote mint with other extensions. -/
def qmExts (l : List Ext) : MintInfo :=
  { program := .splToken2022, isNative := false, exts := l, fee := some { basisPoints := 100, maximumFee := 50 },
    hook := none, supply := 200000 }

/-- The quote mint of an open sale gets metadata; nothing else can be added and nothing taken away. -/
example : ((apply prorataOpen (.setMint qm (qmExts [.transferFeeConfig, .tokenMetadata]))).tk.mints qm).map
      (·.exts) = some [.transferFeeConfig, .tokenMetadata] ∧
    (step prorataOpen (.setMint qm (qmExts [.transferFeeConfig, .other 12]))).toOption.isNone ∧
    (step prorataOpen (.setMint qm (qmExts [.transferFeeConfig, .transferHook]))).toOption.isNone ∧
    (step prorataOpen (.setMint qm (qmExts []))).toOption.isNone := by decide +kernel

/-- A failed sale with one buyer to be refunded. -/
example : Reachable failedDone ∧
    has failedDone (fun p => decide ((p.presaleEndTime : Int) ≤ failedDone.clock ∧
      p.totalDeposit < p.presaleMinimumCap ∧ p.hasCreatorWithdrawn = 0 ∧
      saleSum failedDone.escrows sale (refundDue p) = 52)) = true :=
  ⟨reachable _, by decide +kernel⟩

/-- A first-come-first-served sale filled to its cap; two escrows of the same sale. -/
example : Reachable fcfsEarly ∧
    has fcfsEarly (fun p => decide (p.presaleMode ≠ 1 ∧ p.totalDeposit = p.presaleMaximumCap ∧
      p.whitelistMode = 0)) = true ∧
    hasEsc fcfsEarly (escrowOf alice) (fun e => decide (e.totalDeposit = 900)) = true ∧
    hasEsc fcfsEarly (escrowOf bob) (fun e => decide (e.totalDeposit = 100)) = true :=
  ⟨reachable _, by decide +kernel⟩

/-- A fixed-price sale. -/
example : Reachable fixedDone ∧
    has fixedDone (fun p => decide (p.presaleMode = 0 ∧ 0 < p.raw0 ∧
      tokensAtPrice p.raw0 p.totalDeposit = 163)) = true :=
  ⟨reachable _, by decide +kernel⟩

end Ex

end Verif
