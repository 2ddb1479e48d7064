import Verif.SpecShare
import Verif.Props.Price
import Verif.Props.Deposit
import Verif.Examples
/-!
# C84: whether whoever pays gets something
-/

namespace Verif
open Spec

/-! ## Arithmetic of one registry -/

theorem unitCost_eq (q : Nat) : unitCost q = divCeil q SCALE_MULTIPLIER := by
  unfold unitCost; rw [costOf_eq, Nat.one_mul]

theorem le_unitCost_mul (q : Nat) : q ≤ unitCost q * SCALE_MULTIPLIER := by
  rw [unitCost_eq]; exact le_divCeil_mul _ scale_pos

/-- The cost of several tokens is at most that of each. -/
theorem costOf_le (q k : Nat) : costOf q k ≤ k * unitCost q := by
  rw [costOf_eq, divCeil_le_iff scale_pos]
  calc k * q ≤ k * (unitCost q * SCALE_MULTIPLIER) := Nat.mul_le_mul_left _ (le_unitCost_mul q)
    _ = k * unitCost q * SCALE_MULTIPLIER := (Nat.mul_assoc _ _ _).symm

theorem tokensAtPrice_add {q T k : Nat} (hq : 0 < q) :
    tokensAtPrice q T + k ≤ tokensAtPrice q (T + costOf q k) := by
  rw [tokensAtPrice_def, tokensAtPrice_def, Nat.le_div_iff_mul_le hq, Nat.add_mul, Nat.add_mul]
  refine Nat.add_le_add (Nat.div_mul_le_self _ _) ?_
  rw [costOf_eq]
  exact le_divCeil_mul _ scale_pos

theorem unitCost_small {q : Nat} (hq : 0 < q) (h : q ≤ 2 ^ 64) : unitCost q = 1 := by
  apply Nat.le_antisymm
  · rw [unitCost_eq, divCeil_le_iff scale_pos, Nat.one_mul, scale_eq]; exact h
  · have := le_unitCost_mul q
    rcases Nat.eq_zero_or_pos (unitCost q) with h0 | h0
    · rw [h0] at this; omega
    · exact h0

theorem le_tokensAtPrice {q T : Nat} (hq : 0 < q) (h : q ≤ 2 ^ 64) : T ≤ tokensAtPrice q T := by
  rw [tokensAtPrice_def, Nat.le_div_iff_mul_le hq, scale_eq]
  exact Nat.mul_le_mul_left _ h

theorem scale_pow : (2 : Nat) ^ 64 = SCALE_MULTIPLIER := by rw [scale_eq]; norm_num

theorem unitCost_whole (u : Nat) : unitCost (2 ^ 64 * u) = u := by
  rw [unitCost_eq, scale_pow]
  apply Nat.le_antisymm
  · rw [divCeil_le_iff scale_pos, Nat.mul_comm]
  · have := le_divCeil_mul (SCALE_MULTIPLIER * u) scale_pos
    generalize divCeil (SCALE_MULTIPLIER * u) SCALE_MULTIPLIER = c at *
    rw [Nat.mul_comm] at this
    exact Nat.le_of_mul_le_mul_right this scale_pos

theorem costOf_whole (u k : Nat) : costOf (2 ^ 64 * u) k = k * u := by
  rw [costOf_eq, scale_pow]
  apply Nat.le_antisymm
  · rw [divCeil_le_iff scale_pos, Nat.mul_comm SCALE_MULTIPLIER u, Nat.mul_assoc]
  · have := le_divCeil_mul (k * (SCALE_MULTIPLIER * u)) scale_pos
    generalize divCeil (k * (SCALE_MULTIPLIER * u)) SCALE_MULTIPLIER = c at *
    rw [Nat.mul_comm SCALE_MULTIPLIER u, ← Nat.mul_assoc] at this
    exact Nat.le_of_mul_le_mul_right this scale_pos

theorem tokensAtPrice_whole {u : Nat} (hu : 0 < u) (m : Nat) : tokensAtPrice (2 ^ 64 * u) (m * u) = m := by
  rw [tokensAtPrice_def, scale_pow, Nat.mul_assoc, Nat.mul_comm u]
  exact Nat.mul_div_cancel _ (Nat.mul_pos scale_pos hu)

/-! ## The invariant -/

/-- Fixed-price sales: a registry has sold at least one token for each unit cost it took in; at whole prices, its deposits
are whole multiples of the price. -/
structure Worth (p : Presale) : Prop where
  sold : p.presaleMode ≠ 1 → p.presaleMode ≠ 2 → Steady p → ∀ (i : Nat) r, p.registries[i]? = some r →
    r.totalDeposit ≤ sold p r * unitCost p.raw0
  whole : p.presaleMode ≠ 1 → p.presaleMode ≠ 2 → ∀ u, p.raw0 = 2 ^ 64 * u → ∀ (i : Nat) r,
    p.registries[i]? = some r → u ∣ r.totalDeposit

def WholeEscrow (p : Presale) (e : Escrow) : Prop :=
  p.presaleMode ≠ 1 → p.presaleMode ≠ 2 → ∀ u, p.raw0 = 2 ^ 64 * u → u ∣ e.totalDeposit

theorem sold_fixed {p : Presale} (h1 : p.presaleMode ≠ 1) (h2 : p.presaleMode ≠ 2) (r : Registry) :
    Spec.sold p r = min (tokensAtPrice p.raw0 r.totalDeposit) r.presaleSupply := by
  unfold Spec.sold; rw [if_neg (by omega)]

theorem Worth.congr {p p' : Presale} (h : books p' = books p) (H : Worth p) : Worth p' := by
  have e1 : p'.presaleMode = p.presaleMode := (congrArg Presale.presaleMode h :)
  have e2 : p'.raw0 = p.raw0 := (congrArg Presale.raw0 h :)
  have e3 : p'.raw1 = p.raw1 := (congrArg Presale.raw1 h :)
  have reg : ∀ (i : Nat) (r' : Registry), p'.registries[i]? = some r' → ∃ r : Registry, p.registries[i]? = some r ∧
      r.totalDeposit = r'.totalDeposit ∧ r.presaleSupply = r'.presaleSupply := by
    intro i r' hr'
    obtain ⟨r, hr, hb⟩ := books_reg h.symm hr'
    exact ⟨r, hr, (congrArg Registry.totalDeposit hb :), (congrArg Registry.presaleSupply hb :)⟩
  refine ⟨fun h1 h2 hs i r' hr' => ?_, fun h1 h2 u hu i r' hr' => ?_⟩
  · obtain ⟨r, hr, g1, g2⟩ := reg i r' hr'
    have := H.sold (by omega) (by omega) (by unfold Steady at *; rw [← e2, ← e3]; exact hs) i r hr
    rw [sold_fixed (by omega) (by omega)] at this ⊢
    rw [e2, ← g1, ← g2]; exact this
  · obtain ⟨r, hr, g1, g2⟩ := reg i r' hr'
    rw [← g1]; exact H.whole (by omega) (by omega) u (by rw [← e2]; exact hu) i r hr

theorem withoutSurplus_cost {q a c : Nat} (h : calculateQuoteTokenWithoutSurplus q a = .ok c) :
    ∃ k, c = costOf q k := by
  simp only [calculateQuoteTokenWithoutSurplus, bind_eq_ok] at h
  obtain ⟨k, _, x, hx, y, hy, _, _, hc⟩ := h
  refine ⟨k, ?_⟩
  rw [← pure_eq_ok.1 hc, costOf_eq, ← (cast64_eq_ok.1 hy).2, (mul128_eq_ok.1 hx).2]

/-- What a deposit takes at a fixed price: the cost of some number of tokens, within the quota. -/
theorem DepositCoreFacts.cost {p : Presale} {e : Escrow} {t maxAmount : Nat} {d : DepositResult}
    {h : Handler} {quota : Nat} {r : Registry} (F : DepositCoreFacts p e t maxAmount d h quota r)
    (h1 : p.presaleMode ≠ 1) (h2 : p.presaleMode ≠ 2) (hr : r.totalDeposit < u64Bound) :
    (∃ k, d.amount = costOf p.raw0 k) ∧ tokensAtPrice p.raw0 r.totalDeposit < r.presaleSupply ∧
      d.amount ≤ costOf p.raw0 (r.presaleSupply - tokensAtPrice p.raw0 r.totalDeposit) := by
  have hquota := quota_eq F.handler F.registry hr F.quotaIs
  have hle := F.amount_le.2.1
  have hpos := F.pos
  refine ⟨?_, ?_⟩
  · have hs := F.suggested
    rcases handler_cases F.handler with ⟨hm, rfl⟩ | ⟨hm, rfl⟩ | ⟨hm, hm', rfl⟩
    · omega
    · omega
    · simp only [Handler.suggestDepositAmount] at hs
      exact withoutSurplus_cost hs
  · rw [hquota] at hle
    unfold remainingQuota at hle
    rw [if_neg h1, if_neg h2] at hle
    have hsold := sold_fixed h1 h2 r
    by_cases hs : Spec.sold p r = r.presaleSupply
    · rw [if_pos hs] at hle; omega
    · rw [if_neg hs] at hle
      have hlt : tokensAtPrice p.raw0 r.totalDeposit < r.presaleSupply := by omega
      have hs2 : Spec.sold p r = tokensAtPrice p.raw0 r.totalDeposit := by omega
      rw [hs2] at hle
      exact ⟨hlt, by omega⟩

/-- What a withdrawal at a whole price takes. -/
theorem WithdrawCoreFacts.whole {p : Presale} {e : Escrow} {t maxAmount : Nat} {p' : Presale} {e' : Escrow} {x : Nat}
    {h : Handler} {r : Registry} (F : WithdrawCoreFacts p e t maxAmount p' e' x h r)
    (h1 : p.presaleMode ≠ 1) (h2 : p.presaleMode ≠ 2) {u : Nat} (hu : p.raw0 = 2 ^ 64 * u) (he : u ∣ e.totalDeposit) : u ∣ x := by
  have hs := F.suggested
  rcases handler_cases F.handler with ⟨hm, rfl⟩ | ⟨hm, rfl⟩ | ⟨hm, hm', rfl⟩
  · omega
  · omega
  · simp only [Handler.suggestWithdrawAmount] at hs
    split at hs
    · rename_i hx
      rw [← Except.ok.inj hs, ← hx]; exact he
    · obtain ⟨k, hk⟩ := withoutSurplus_cost hs
      rw [hk, hu, costOf_whole]
      exact Nat.dvd_mul_left _ _

theorem WithdrawCoreFacts.enabled {p : Presale} {e : Escrow} {t maxAmount : Nat} {p' : Presale} {e' : Escrow} {x : Nat}
    {h : Handler} {r : Registry} (F : WithdrawCoreFacts p e t maxAmount p' e' x h r)
    (h1 : p.presaleMode ≠ 1) (h2 : p.presaleMode ≠ 2) : p.raw1 % 256 = 0 := by
  have ha := F.allowed
  rcases handler_cases F.handler with ⟨hm, rfl⟩ | ⟨hm, rfl⟩ | ⟨hm, hm', rfl⟩
  · omega
  · omega
  · simpa [Handler.canWithdraw] using ha

theorem Worth.deposit {p : Presale} {e : Escrow} {t maxAmount : Nat} {d : DepositResult}
    {h : Handler} {quota : Nat} {r : Registry} (F : DepositCoreFacts p e t maxAmount d h quota r)
    (hq : p.presaleMode ≠ 1 → p.presaleMode ≠ 2 → 0 < p.raw0) (H : Worth p) :
    Worth (p.credited e.registryIndex r d.amount d.fees.fee) := by
  have hb : r.totalDeposit < u64Bound := by have := F.boundR; omega
  refine ⟨fun h1 h2 hs j r' hr' => ?_, fun h1 h2 u hu j r' hr' => ?_⟩
  · have hj : (p.registries.set e.registryIndex { r with
        totalDeposit := r.totalDeposit + d.amount,
        totalDepositFee := r.totalDepositFee + d.fees.fee })[j]? = some r' := hr'
    by_cases hje : j = e.registryIndex
    · subst hje
      rw [List.getElem?_set_self (List.getElem?_eq_some_iff.1 F.registry).1] at hj
      cases hj
      obtain ⟨⟨k, hk⟩, hlt, hle⟩ := F.cost h1 h2 hb
      have h0 := H.sold h1 h2 hs _ r F.registry
      rw [sold_fixed (p := p) h1 h2] at h0
      rw [sold_fixed h1 h2]
      show r.totalDeposit + d.amount ≤
        min (tokensAtPrice p.raw0 (r.totalDeposit + d.amount)) r.presaleSupply * unitCost p.raw0
      rw [Nat.min_eq_left (Nat.le_of_lt hlt)] at h0
      rcases Nat.le_total (tokensAtPrice p.raw0 (r.totalDeposit + d.amount)) r.presaleSupply with hm | hm
      · rw [Nat.min_eq_left hm]
        rw [hk]
        refine Nat.le_trans ?_ (Nat.mul_le_mul_right _ (tokensAtPrice_add (k := k) (hq h1 h2)))
        rw [Nat.add_mul]
        exact Nat.add_le_add h0 (costOf_le _ _)
      · rw [Nat.min_eq_right hm]
        obtain ⟨m, hm⟩ : ∃ m, r.presaleSupply = tokensAtPrice p.raw0 r.totalDeposit + m :=
          ⟨_, (Nat.add_sub_cancel' (Nat.le_of_lt hlt)).symm⟩
        rw [hm, Nat.add_sub_cancel_left] at hle
        rw [hm, Nat.add_mul]
        exact Nat.add_le_add h0 (Nat.le_trans hle (costOf_le _ _))
    · rw [List.getElem?_set_ne (Ne.symm hje)] at hj
      exact H.sold h1 h2 hs j r' hj
  · have hj : (p.registries.set e.registryIndex { r with
        totalDeposit := r.totalDeposit + d.amount,
        totalDepositFee := r.totalDepositFee + d.fees.fee })[j]? = some r' := hr'
    by_cases hje : j = e.registryIndex
    · subst hje
      rw [List.getElem?_set_self (List.getElem?_eq_some_iff.1 F.registry).1] at hj
      cases hj
      obtain ⟨⟨k, hk⟩, -⟩ := F.cost h1 h2 hb
      have hu' : p.raw0 = 2 ^ 64 * u := hu
      have h0 := H.whole h1 h2 u hu _ r F.registry
      show u ∣ r.totalDeposit + d.amount
      rw [hk, hu', costOf_whole]
      exact Nat.dvd_add h0 (Nat.dvd_mul_left _ _)
    · rw [List.getElem?_set_ne (Ne.symm hje)] at hj
      exact H.whole h1 h2 u hu j r' hj

theorem Worth.withdraw {p : Presale} {e : Escrow} {t maxAmount : Nat} {p' : Presale} {e' : Escrow} {x : Nat}
    {h : Handler} {r : Registry} (F : WithdrawCoreFacts p e t maxAmount p' e' x h r)
    (hq : p.presaleMode ≠ 1 → p.presaleMode ≠ 2 → 0 < p.raw0) (H : Worth p) (E : WholeEscrow p e) :
    Worth (p.debited e.registryIndex r x) := by
  have whole : p.presaleMode ≠ 1 → p.presaleMode ≠ 2 → ∀ u, p.raw0 = 2 ^ 64 * u → u ∣ r.totalDeposit - x :=
    fun h1 h2 u hu => Nat.dvd_sub (H.whole h1 h2 u hu _ r F.registry) (F.whole h1 h2 hu (E h1 h2 u hu))
  refine ⟨fun h1 h2 hs j r' hr' => ?_, fun h1 h2 u hu j r' hr' => ?_⟩
  · have hj : (p.registries.set e.registryIndex { r with totalDeposit := r.totalDeposit - x })[j]? = some r' := hr'
    by_cases hje : j = e.registryIndex
    · subst hje
      rw [List.getElem?_set_self (List.getElem?_eq_some_iff.1 F.registry).1] at hj
      cases hj
      have h0 := H.sold h1 h2 hs _ r F.registry
      rw [sold_fixed (p := p) h1 h2] at h0
      rw [sold_fixed h1 h2]
      show r.totalDeposit - x ≤
        min (tokensAtPrice p.raw0 (r.totalDeposit - x)) r.presaleSupply * unitCost p.raw0
      have hS : r.totalDeposit - x ≤ r.presaleSupply * unitCost p.raw0 :=
        Nat.le_trans (Nat.sub_le _ _) (Nat.le_trans h0 (Nat.mul_le_mul_right _ (Nat.min_le_right _ _)))
      have hT : r.totalDeposit - x ≤ tokensAtPrice p.raw0 (r.totalDeposit - x) * unitCost p.raw0 := by
        have hs' : p.raw1 % 256 ≠ 0 ∨ p.raw0 ≤ 2 ^ 64 ∨ 2 ^ 64 ∣ p.raw0 := hs
        rcases hs' with g | g | ⟨u, g⟩
        · exact absurd (F.enabled h1 h2) g
        · rw [unitCost_small (hq h1 h2) g, Nat.mul_one]
          exact le_tokensAtPrice (hq h1 h2) g
        · obtain ⟨m, hm⟩ := whole h1 h2 u g
          have hu : 0 < u := by
            rcases Nat.eq_zero_or_pos u with h0 | h0
            · have := hq h1 h2; rw [g, h0] at this; omega
            · exact h0
          rw [hm, Nat.mul_comm u m, g, tokensAtPrice_whole hu, unitCost_whole]
      rcases Nat.le_total (tokensAtPrice p.raw0 (r.totalDeposit - x)) r.presaleSupply with hm | hm
      · rw [Nat.min_eq_left hm]; exact hT
      · rw [Nat.min_eq_right hm]; exact hS
    · rw [List.getElem?_set_ne (Ne.symm hje)] at hj
      exact H.sold h1 h2 hs j r' hj
  · have hj : (p.registries.set e.registryIndex { r with totalDeposit := r.totalDeposit - x })[j]? = some r' := hr'
    by_cases hje : j = e.registryIndex
    · subst hje
      rw [List.getElem?_set_self (List.getElem?_eq_some_iff.1 F.registry).1] at hj
      cases hj
      exact whole h1 h2 u hu
    · rw [List.getElem?_set_ne (Ne.symm hje)] at hj
      exact H.whole h1 h2 u hu j r' hj

theorem WholeEscrow.congr {p p' : Presale} (h1 : p'.presaleMode = p.presaleMode) (h2 : p'.raw0 = p.raw0)
    {e e' : Escrow} (he : e'.totalDeposit = e.totalDeposit) (H : WholeEscrow p e) : WholeEscrow p' e' := by
  intro g1 g2 u hu
  rw [he]; exact H (by omega) (by omega) u (by omega)

/-- The invariant of a whole ledger. -/
structure WorthAll (w : World) : Prop where
  sale : ∀ a p, w.presales a = some p → Worth p
  escrow : ∀ k e p, w.escrows.get? k = some e → w.presales e.presale = some p → WholeEscrow p e

theorem Act.worth {w : World} {a : Addr} {p p' : Presale} {tx : Tx} {i : Ix} {es' : AMap Addr Escrow}
    (W : WInv w) (hp : w.presales a = some p) (A : Act w a p tx i p' es') (H : WorthAll w) : Worth p' := by
  have P := (W.core.sale a p hp).pinv
  have H0 := H.sale a p hp
  cases A with
  | opened _ _ _ _ _ hr => exact H0.congr (books_counted hr)
  | @deposit x e d h quota r _ _ _ _ F =>
    have key := H0.deposit F (fun h1 h2 => (P.static.price h1 h2).1)
    rcases F.result with ⟨h1, _⟩ | ⟨h1, _⟩ <;> rw [h1]
    · exact ⟨fun g1 g2 g3 => key.sold g1 g2 g3, fun g1 g2 g3 => key.whole g1 g2 g3⟩
    · exact key
  | @withdraw x e _ e1 n h r _ he hb _ _ F =>
    rw [F.presale]
    exact H0.withdraw F (fun h1 h2 => (P.static.price h1 h2).1) (H.escrow _ _ _ he (by rw [hb]; exact hp))
  | refreshed => exact H0
  | claimed _ _ _ _ _ hr => exact H0.congr (books_claimed hr)
  | refunded _ _ _ _ _ hr => exact H0.congr (books_refunded hr)
  | closed _ _ _ _ _ hr => exact H0.congr (books_uncounted hr)
  | creatorWithdrew => exact ⟨H0.sold, H0.whole⟩
  | collected => exact ⟨H0.sold, H0.whole⟩
  | unsold => exact ⟨H0.sold, H0.whole⟩

/-- Whatever happens to an escrow keeps its deposit whole. -/
theorem EChange.wholeEscrow {w : World} {p : Presale} {k : Addr} {e : Escrow} {tx : Tx} {i : Ix} {o : Option Escrow}
    (C : EChange w p k e tx i o) (H : WholeEscrow p e) {e' : Escrow} (ho : o = some e') :
    WholeEscrow p e' := by
  cases C with
  | @deposit x d h quota r _ _ _ F =>
    cases ho
    intro h1 h2 u hu
    obtain ⟨⟨k, hk⟩, -⟩ := F.cost h1 h2 (by have := F.boundR; omega)
    rw [F.escrow]
    show u ∣ e.totalDeposit + d.amount
    rw [hk, hu, costOf_whole]
    exact Nat.dvd_add (H h1 h2 u hu) (Nat.dvd_mul_left _ _)
  | @withdraw x p' e1 n h r _ _ _ F =>
    cases ho
    intro h1 h2 u hu
    rw [F.escrow]
    exact Nat.dvd_sub (H h1 h2 u hu) (F.whole h1 h2 hu (H h1 h2 u hu))
  | refreshed => cases ho; exact H.congr rfl rfl rfl
  | claimed => cases ho; exact H.congr rfl rfl rfl
  | refunded => cases ho; exact H.congr rfl rfl rfl
  | closed => cases ho

theorem worthAll {w : World} (R : Reachable w) : WorthAll w := by
  obtain ⟨w0, ops, G, rfl⟩ := R
  refine (run_rel (R := fun w w' => WorthAll w → WorthAll w') (fun _ h => h) (fun _ _ _ h h' => h' ∘ h)
    ?_ G.winv ops) ⟨fun a p hp => by (rw [G.presales a] at hp; cases hp), fun k e p _ hp => by
      (rw [G.presales] at hp; cases hp)⟩
  intro w op w' rc W hs H
  have E := step_effect W hs
  cases E with
  | quiet h h' => exact ⟨by rw [h]; exact H.sale, by rw [h, h']; exact H.escrow⟩
  | @create tx x q h1 h2 h3 h4 h5 h6 =>
    refine ⟨fun a p hp => ?_, fun k e p hk hp => ?_⟩
    · rw [h4] at hp
      by_cases h : a = x.presaleKey
      · subst h; rw [upd_self] at hp; cases hp
        refine ⟨fun _ _ _ i r hr => ?_, fun _ _ u _ i r hr => ?_⟩
        · rw [h3.blank r (List.mem_of_getElem? hr)]; exact Nat.zero_le _
        · rw [h3.blank r (List.mem_of_getElem? hr)]; exact Nat.dvd_zero _
      · rw [upd_other _ _ h] at hp; exact H.sale a p hp
    · rw [h5] at hk
      have hne : e.presale ≠ x.presaleKey := by
        intro h
        obtain ⟨_, p0, hp0⟩ := W.core.esc _ (AMap.get?_mem hk)
        rw [h, h2] at hp0; cases hp0
      rw [h4, upd_other _ _ hne] at hp
      exact H.escrow k e p hk hp
  | @act tx i b q q' es' h1 h2 h3 h4 h5 h6 =>
    have ht := h3.terms_eq
    have t1 : q'.presaleMode = q.presaleMode := (congrArg Presale.presaleMode ht :)
    have t2 : q'.raw0 = q.raw0 := (congrArg Presale.raw0 ht :)
    refine ⟨fun a p hp => ?_, fun k e p hk hp => ?_⟩
    · rw [h4] at hp
      by_cases h : a = b
      · subst h; rw [upd_self] at hp; cases hp; exact h3.worth W h2 H
      · rw [upd_other _ _ h] at hp; exact H.sale a p hp
    · rw [h5] at hk
      cases hk0 : w.escrows.get? k with
      | none =>
        obtain ⟨_, _, _, owner, idx, cap, r, _, _, _, _, he⟩ := h3.escrow_new W.core.nodup hk0 hk
        intro _ _ u _
        rw [he]; exact Nat.dvd_zero _
      | some e0 =>
        rcases h3.escrow W.core.nodup hk0 with g | ⟨g, C⟩
        · rw [hk] at g; cases g
          rw [h4] at hp
          by_cases h : e.presale = b
          · rw [h, upd_self] at hp; cases hp
            exact (H.escrow k e q hk0 (by rw [h]; exact h2)).congr t1 t2 rfl
          · rw [upd_other _ _ h] at hp; exact H.escrow k e p hk0 hp
        · have hk' := C.wholeEscrow (H.escrow k e0 q hk0 (by rw [g]; exact h2)) hk
          have hb : e.presale = b := (C.identity e hk).1.trans g
          rw [h4, hb, upd_self] at hp; cases hp
          exact hk'.congr t1 t2 rfl

/-! ## What a buyer gets -/

theorem entitlement_undivided {p : Presale} {r : Registry} {e : Escrow} (hd : e.totalDeposit ≠ 0)
    (hT : r.totalDeposit ≠ 0) (h : Undivided p) :
    entitlement p r e = Spec.sold p r * e.totalDeposit / r.totalDeposit := by
  unfold entitlement
  rw [if_neg (by omega)]
  unfold immediatePart
  rcases h with h | h <;> rw [h]
  · simp
  · rw [Nat.mul_div_cancel _ (by norm_num)]; simp

theorem entitlement_almost {p : Presale} {r : Registry} {e : Escrow} (hd : e.totalDeposit ≠ 0)
    (hT : 0 < r.totalDeposit) (hb : p.immediateReleaseBps ≤ 10000) :
    Spec.sold p r * e.totalDeposit / r.totalDeposit ≤ entitlement p r e + 1 := by
  have hI := immediatePart_le (s := Spec.sold p r) hb
  unfold entitlement
  rw [if_neg (by omega)]
  generalize immediatePart (Spec.sold p r) p.immediateReleaseBps = i at *
  obtain ⟨v, hv⟩ : ∃ v, Spec.sold p r = i + v := ⟨_, (Nat.add_sub_cancel' hI).symm⟩
  rw [hv, Nat.add_sub_cancel_left, Nat.add_mul]
  have h1 := Nat.lt_div_mul_add (a := i * e.totalDeposit) hT
  have h2 := Nat.lt_div_mul_add (a := v * e.totalDeposit) hT
  apply Nat.le_of_lt_succ
  rw [Nat.div_lt_iff_lt_mul hT]
  generalize i * e.totalDeposit / r.totalDeposit = x at *
  generalize v * e.totalDeposit / r.totalDeposit = y at *
  have : (x + y + 1).succ * r.totalDeposit = x * r.totalDeposit + r.totalDeposit + (y * r.totalDeposit + r.totalDeposit) := by
    rw [Nat.succ_eq_add_one]; ring
  omega

/-- **C84.** In a fixed-price sale where withdrawals are off, or the price is at most one quote unit or a whole number of
them, a deposit that pays for `n` single tokens entitles to `n` of them; to `n - 1` if only a part is released at once. -/
theorem C84_tokens {w : World} (R : Reachable w) {a k : Addr} {p : Presale} {e : Escrow}
    (hp : w.presales a = some p) (h1 : p.presaleMode ≠ 1) (h2 : p.presaleMode ≠ 2) (hs : Steady p)
    (hk : w.escrows.get? k = some e) (ha : e.presale = a) :
    ∃ r, p.registries[e.registryIndex]? = some r ∧ ∀ n, n * unitCost p.raw0 ≤ e.totalDeposit →
      n ≤ entitlement p r e + 1 ∧ (Undivided p → n ≤ entitlement p r e) := by
  have S := R.winv.core.sale a p hp
  obtain ⟨r, hr, E⟩ := S.pinv.escBook hk ha
  have hd := (S.pinv.book.dep_le hk ha hr).1
  have hq := (S.pinv.static.price h1 h2).1
  refine ⟨r, hr, fun n hn => ?_⟩
  have hC : 0 < unitCost p.raw0 := by
    have := le_unitCost_mul p.raw0
    rcases Nat.eq_zero_or_pos (unitCost p.raw0) with h0 | h0
    · rw [h0] at this; omega
    · exact h0
  by_cases hd0 : e.totalDeposit = 0
  · have : n = 0 := by
      rw [hd0] at hn
      rcases Nat.eq_zero_or_pos n with h0 | h0
      · exact h0
      · have := Nat.mul_pos h0 hC; omega
    omega
  · have hT : 0 < r.totalDeposit := by omega
    have hw := (worthAll R).sale a p hp |>.sold h1 h2 hs _ r hr
    have key : n ≤ Spec.sold p r * e.totalDeposit / r.totalDeposit := by
      rw [Nat.le_div_iff_mul_le hT]
      calc n * r.totalDeposit ≤ n * (Spec.sold p r * unitCost p.raw0) := Nat.mul_le_mul_left _ hw
        _ = Spec.sold p r * (n * unitCost p.raw0) := by ring
        _ ≤ Spec.sold p r * e.totalDeposit := Nat.mul_le_mul_left _ hn
    refine ⟨Nat.le_trans key (entitlement_almost hd0 hT S.pinv.static.bps), fun hu => ?_⟩
    rw [entitlement_undivided hd0 (by omega) hu]; exact key

/-- The smallest deposit a fixed-price sale takes pays for a token. -/
theorem unitCost_le_deposit {w : World} (R : Reachable w) {a k : Addr} {p : Presale} {e : Escrow}
    (hp : w.presales a = some p) (h1 : p.presaleMode ≠ 1) (h2 : p.presaleMode ≠ 2)
    (hk : w.escrows.get? k = some e) (ha : e.presale = a) (hd : 0 < e.totalDeposit) :
    unitCost p.raw0 ≤ e.totalDeposit := by
  obtain ⟨p', r, hp', hr, hi, hlim, -⟩ := C05_buyer_limits R hk
  rw [ha, hp] at hp'; cases hp'
  obtain ⟨p0, D, ht, -⟩ := C31_documented R hp
  have e1 : p.presaleMode = p0.presaleMode := (congrArg Presale.presaleMode ht :)
  have e2 : p.raw0 = p0.raw0 := (congrArg Presale.raw0 ht :)
  have e3 : p.totalPresaleRegistryCount = p0.totalPresaleRegistryCount :=
    (congrArg Presale.totalPresaleRegistryCount ht :)
  obtain ⟨r0, hr0, hb⟩ := terms_reg ht hr
  have e4 : r.buyerMinimumDepositCap = r0.buyerMinimumDepositCap := (congrArg Registry.buyerMinimumDepositCap hb :)
  have hbuy := ((D.used _ r0 hr0 (by omega)).buyable (by omega) (by omega)).1
  rw [← e2, ← e4, tokensAtPrice_def] at hbuy
  have hq := (R.winv.core.sale a p hp).pinv.static.price h1 h2
  have hge : p.raw0 ≤ r.buyerMinimumDepositCap * SCALE_MULTIPLIER := by
    have := (Nat.le_div_iff_mul_le hq.1).1 (Nat.succ_le_of_lt hbuy)
    simpa using this
  have : unitCost p.raw0 ≤ r.buyerMinimumDepositCap := by
    rw [unitCost_eq, divCeil_le_iff scale_pos]; exact hge
  omega

/-- **C84.** Under the same conditions, and if everything is released at once or nothing before vesting, whoever keeps a
deposit gets at least one token, and can claim all it buys when vesting is over. -/
theorem C84_at_least_one {w : World} (R : Reachable w) {a k : Addr} {p : Presale} {e : Escrow}
    (hp : w.presales a = some p) (h1 : p.presaleMode ≠ 1) (h2 : p.presaleMode ≠ 2) (hs : Steady p) (hu : Undivided p)
    (hk : w.escrows.get? k = some e) (ha : e.presale = a) (hd : 0 < e.totalDeposit) :
    ∃ r, p.registries[e.registryIndex]? = some r ∧ 1 ≤ entitlement p r e ∧
      ∀ t, p.vestingStartTime + p.vestDuration ≤ t → 1 ≤ claimableAt p r e t := by
  obtain ⟨r, hr, h⟩ := C84_tokens R hp h1 h2 hs hk ha
  have h3 := (h 1 (by rw [Nat.one_mul]; exact unitCost_le_deposit R hp h1 h2 hk ha hd)).2 hu
  obtain ⟨r', hr', hall, -⟩ := C15_full_entitlement R hp hk ha
  rw [hr] at hr'; cases hr'
  exact ⟨r, hr, h3, fun t ht => by rw [hall t ht]; exact h3⟩

/-- **C84.** In any fixed-price sale a deposit worth three tokens and one quote unit gets at least one token. -/
theorem C84_safe_amount {w : World} (R : Reachable w) {a k : Addr} {p : Presale} {e : Escrow}
    (hp : w.presales a = some p) (h1 : p.presaleMode ≠ 1) (h2 : p.presaleMode ≠ 2)
    (hk : w.escrows.get? k = some e) (ha : e.presale = a) (hd : 3 * p.raw0 + 2 ^ 64 ≤ e.totalDeposit * 2 ^ 64) :
    ∃ r, p.registries[e.registryIndex]? = some r ∧ 1 ≤ entitlement p r e := by
  obtain ⟨r, hr, _, hlow⟩ := C09_price_paid R hp h1 h2 hk ha
  refine ⟨r, hr, ?_⟩
  rcases Nat.eq_zero_or_pos (entitlement p r e) with h | h
  · rw [h, Nat.zero_add] at hlow; omega
  · exact h

/-! ## Where it fails -/

/-- The buyer of escrow `k` paid, the sale reached its minimum and is over, vesting too, and they get nothing. -/
def Spec.LeftEmpty (w : World) (a k : Addr) (p : Presale) (e : Escrow) (r : Registry) : Prop :=
  w.presales a = some p ∧ w.escrows.get? k = some e ∧ e.presale = a ∧ p.registries[e.registryIndex]? = some r ∧
  p.presaleMode = 0 ∧ 0 < e.totalDeposit ∧ p.presaleMinimumCap ≤ p.totalDeposit ∧ (p.presaleEndTime : Int) ≤ w.clock ∧
  ((p.vestingStartTime + p.vestDuration : Nat) : Int) ≤ w.clock ∧ entitlement p r e = 0

namespace Ex

/-- A fixed-price sale of at most 100 tokens for 10 and, optionally, a sixteenth, that succeeds at 20. -/
def cheapInit (bps lock vest : Nat) : Op :=
  .ix (tx [creator, baseKey]) (.initPresale
    { initArgs 0 0 1 [{ buyerMinimumDepositCap := 11, buyerMaximumDepositCap := 100, presaleSupply := 100,
                        depositFeeBps := 0 }] with
      args := {
        presaleParams := { params 0 0 1 with presaleMaximumCap := 100, presaleMinimumCap := 20 },
        lockedVestingParams := { vesting with
            immediatelyReleaseBps := bps, lockDuration := lock, vestDuration := vest, immediateReleaseTimestamp := 0 },
        presaleRegistries := [{ buyerMinimumDepositCap := 11, buyerMaximumDepositCap := 100, presaleSupply := 100,
                                depositFeeBps := 0 }] } })

def cheapPrice (q : Nat) : Op := .ix (tx [creator]) (.initFixedArgs ⟨creator, creator, sale, 0, q⟩)

/-- Alice and Bob buy one token each at 11; half of the tokens is released at once. -/
def halvedOps : List Op :=
  [cheapPrice (11 * 2 ^ 64), cheapInit 5000 100 1000, .tick 10, open' alice, open' bob, deposit alice aliceQuote 11,
   deposit bob bobQuote 11, .tick 3000]

/-- At a price of ten and a sixteenth Alice buys four tokens for 41 and gives two of them back for 11 each; Bob buys one
for 11. -/
def trimmedOps : List Op :=
  [cheapPrice (10 * 2 ^ 64 + 2 ^ 60), cheapInit 0 100 1000, .tick 10, open' alice, open' bob, deposit alice aliceQuote 41,
   withdraw alice aliceQuote 11, withdraw alice aliceQuote 11, deposit bob bobQuote 11, .tick 3000]

def leftEmpty (w : World) (who : Addr) (f : Presale → Bool) : Bool :=
  match w.presales sale, w.escrows.get? (escrowOf who) with
  | some p, some e =>
    match p.registries[e.registryIndex]? with
    | some r => f p && decide (e.presale = sale ∧ p.presaleMode = 0 ∧ 0 < e.totalDeposit ∧
        p.presaleMinimumCap ≤ p.totalDeposit ∧ (p.presaleEndTime : Int) ≤ w.clock ∧
        ((p.vestingStartTime + p.vestDuration : Nat) : Int) ≤ w.clock ∧ entitlement p r e = 0)
    | none => false
  | _, _ => false

theorem leftEmpty_spec {w : World} {who : Addr} {f : Presale → Bool} (h : leftEmpty w who f = true) :
    ∃ p e r, f p = true ∧ Spec.LeftEmpty w sale (escrowOf who) p e r := by
  unfold leftEmpty at h
  split at h
  · next p e hp he =>
    split at h
    · next r hr =>
      rw [Bool.and_eq_true, decide_eq_true_eq] at h
      obtain ⟨hf, h1, h2, h3, h4, h5, h6, h7⟩ := h
      exact ⟨p, e, r, hf, hp, he, h1, hr, h2, h3, h4, h5, h6, h7⟩
    · cases h
  · cases h

end Ex

/-- **C84**, the negation: neither condition can be left out. In one sale at a whole price, with part of the tokens
released at once, both buyers paid for one token each and get none. In one with nothing released before vesting and
withdrawals at a price that is not whole, a buyer who paid for one token gets none. -/
theorem C84_nothing :
    (∃ w p e e' r r', Reachable w ∧ 2 ^ 64 ∣ p.raw0 ∧ Spec.LeftEmpty w Ex.sale (Ex.escrowOf Ex.alice) p e r ∧
      Spec.LeftEmpty w Ex.sale (Ex.escrowOf Ex.bob) p e' r') ∧
    (∃ w p e r, Reachable w ∧ p.immediateReleaseBps = 0 ∧ Spec.LeftEmpty w Ex.sale (Ex.escrowOf Ex.bob) p e r) := by
  constructor
  · have h1 : Ex.leftEmpty (run Ex.genesis Ex.halvedOps) Ex.alice (fun p => decide (2 ^ 64 ∣ p.raw0)) = true := by
      decide +kernel
    have h2 : Ex.leftEmpty (run Ex.genesis Ex.halvedOps) Ex.bob (fun _ => true) = true := by decide +kernel
    obtain ⟨p, e, r, hf, H⟩ := Ex.leftEmpty_spec h1
    obtain ⟨p', e', r', _, H'⟩ := Ex.leftEmpty_spec h2
    have : p' = p := by have := H'.1; rw [H.1] at this; cases this; rfl
    subst this
    exact ⟨_, p', e, e', r, r', ⟨_, _, Ex.genesis_ok, rfl⟩, of_decide_eq_true hf, H, H'⟩
  · have h1 : Ex.leftEmpty (run Ex.genesis Ex.trimmedOps) Ex.bob (fun p => decide (p.immediateReleaseBps = 0)) = true := by
      decide +kernel
    obtain ⟨p, e, r, hf, H⟩ := Ex.leftEmpty_spec h1
    exact ⟨_, p, e, r, ⟨_, _, Ex.genesis_ok, rfl⟩, of_decide_eq_true hf, H⟩

namespace Ex

/-- Bob's purchase in a sale that meets all conditions: everything is released at once. -/
def soundOps : List Op :=
  [cheapPrice (11 * 2 ^ 64), cheapInit 10000 0 0, .tick 10, open' alice, open' bob, deposit alice aliceQuote 25,
   deposit bob bobQuote 11]

example : has (run genesis soundOps) (fun p =>
    decide (p.presaleMode = 0 ∧ p.immediateReleaseBps = 10000 ∧ p.raw0 = 11 * 2 ^ 64)) = true := by decide +kernel
example : hasEsc (run genesis soundOps) (escrowOf bob) (fun e => decide (e.presale = sale ∧ e.totalDeposit = 11)) =
    true := by decide +kernel
/-- An amount that is safe whatever the terms. -/
example : hasEsc (run genesis [cheapPrice (10 * 2 ^ 64 + 2 ^ 60), cheapInit 3000 100 1000, .tick 10, open' alice,
    deposit alice aliceQuote 41]) (escrowOf alice) (fun e =>
      decide (3 * (10 * 2 ^ 64 + 2 ^ 60) + 2 ^ 64 ≤ e.totalDeposit * 2 ^ 64)) = true := by decide +kernel

end Ex

end Verif
