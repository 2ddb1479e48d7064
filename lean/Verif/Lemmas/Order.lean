import Verif.Lemmas.MachineSale
import Verif.Props.Share
import Verif.SpecOrder
/-!
# Two deposits change places
-/

namespace Verif
open Spec

/-! ## Maps -/

theorem AMap.set_swap {K V : Type} [DecidableEq K] (m : AMap K V) {k1 k2 : K} (v1 v2 : V) (h : k1 ≠ k2)
    (h1 : ∃ v, AMap.get? m k1 = some v) (h2 : ∃ v, AMap.get? m k2 = some v) :
    AMap.set (AMap.set m k1 v1) k2 v2 = AMap.set (AMap.set m k2 v2) k1 v1 := by
  induction m with
  | nil => obtain ⟨v, hv⟩ := h1; cases hv
  | cons x m ih =>
    obtain ⟨k, v⟩ := x
    by_cases e1 : k = k1
    · subst e1
      simp [AMap.set, h]
    · by_cases e2 : k = k2
      · subst e2
        simp [AMap.set, e1]
      · have h1' : ∃ v, AMap.get? m k1 = some v := by simpa [AMap.get?, e1] using h1
        have h2' : ∃ v, AMap.get? m k2 = some v := by simpa [AMap.get?, e2] using h2
        simp [AMap.set, e1, e2, ih h1' h2']

theorem upd_twice {K V : Type} [DecidableEq K] (f : K → V) (k : K) (v v' : V) : upd (upd f k v) k v' = upd f k v' := by
  funext x; unfold upd; split <;> rfl

/-! ## Payments -/

theorem charge_pos {m : MintInfo} {bps n fee gross : Nat} (h : Charge m bps n fee gross) (hn : 0 < n) : 0 < gross := by
  have := h.exact; omega

theorem spend_swap {s : TokAcct} {who1 who2 : Addr} {g1 g2 : Nat} (p1 : 0 < g1) (p2 : 0 < g2)
    (hself : ∀ n, s.delegate ≠ some (s.owner, n)) (h1 : CanSpend s who1 g1)
    (h2 : CanSpend { s with amount := s.amount - g1, delegate := allowanceLeft s who1 g1 } who2 g2) :
    CanSpend s who2 g2 ∧
    CanSpend { s with amount := s.amount - g2, delegate := allowanceLeft s who2 g2 } who1 g1 ∧
    allowanceLeft { s with amount := s.amount - g1, delegate := allowanceLeft s who1 g1 } who2 g2 =
      allowanceLeft { s with amount := s.amount - g2, delegate := allowanceLeft s who2 g2 } who1 g1 := by
  obtain ⟨mint, owner, amount, frozen, delegate⟩ := s
  unfold CanSpend allowanceLeft at *
  cases delegate with
  | none => simp_all
  | some dn =>
    obtain ⟨d, n⟩ := dn
    simp only [ne_eq, Option.some.injEq, Prod.mk.injEq] at *
    have hd : d ≠ owner := fun h => hself n ⟨h, rfl⟩
    by_cases e1 : d = who1
    · subst e1
      have hg1 : g1 ≤ n := by
        rcases h1 with ⟨x, ⟨_, rfl⟩, h⟩ | ⟨h, _⟩
        · exact h
        · exact absurd h.symm hd
      by_cases e2 : d = who2
      · subst e2
        by_cases hn : g1 = n
        · subst hn
          simp [hd.symm] at h2
        · have hg2 : g2 ≤ n - g1 := by simpa [hn, hd.symm] using h2
          have hn2 : g2 ≠ n := by omega
          refine ⟨.inl ⟨n, ⟨rfl, rfl⟩, by omega⟩, ?_, ?_⟩
          · simp [hn2]; omega
          · by_cases hz : g2 = n - g1
            · have : g1 = n - g2 := by omega
              rw [if_pos rfl, if_pos rfl, if_neg hn, if_neg hn2]
              simp only [if_true]
              rw [if_pos hz, if_pos this]
            · have : ¬ g1 = n - g2 := by omega
              rw [if_pos rfl, if_pos rfl, if_neg hn, if_neg hn2]
              simp only [if_true]
              rw [if_neg hz, if_neg this, Nat.sub_right_comm]
      · have ho : owner = who2 := by
          by_cases hn : g1 = n
          · simpa [hn] using h2
          · simpa [hn, e2] using h2
        refine ⟨.inr ⟨ho, fun x h => e2 h.1⟩, .inl ⟨n, ?_, hg1⟩, ?_⟩
        · simp [e2]
        · by_cases hn : g1 = n <;> simp [hn, e2]
    · have ho : owner = who1 := by
        rcases h1 with ⟨x, ⟨h, _⟩, _⟩ | ⟨h, _⟩
        · exact absurd h e1
        · exact h
      by_cases e2 : d = who2
      · subst e2
        have hg2 : g2 ≤ n := by simpa [e1, hd.symm] using h2
        refine ⟨.inl ⟨n, ⟨rfl, rfl⟩, hg2⟩, .inr ⟨ho, fun x h => ?_⟩, ?_⟩
        · by_cases hn : g2 = n
          · simp [hn] at h
          · simp [hn] at h; exact e1 h.1
        · by_cases hn : g2 = n <;> simp [hn, e1]
      · have ho2 : owner = who2 := by simpa [e1, e2] using h2
        refine ⟨.inr ⟨ho2, fun x h => e2 h.1⟩, .inr ⟨ho, fun x h => ?_⟩, ?_⟩
        · simp [e2] at h; exact e1 h.1
        · simp [e1, e2]

theorem charged_swap {k k1 k2 : Tokens} {tx1 tx2 : Tx} {who1 who2 mint src1 src2 dst : Addr} {prog1 prog2 : TokenProgram}
    {g1 g2 : Nat} (h1 : Charged k tx1 who1 mint src1 dst prog1 g1 k1) (h2 : Charged k1 tx2 who2 mint src2 dst prog2 g2 k2)
    (n1 : src1 ≠ dst) (n2 : src2 ≠ dst) (p1 : 0 < g1) (p2 : 0 < g2) (hself : NotSelfDelegated k src1) :
    ∃ k1', Charged k tx2 who2 mint src2 dst prog2 g2 k1' ∧ Charged k1' tx1 who1 mint src1 dst prog1 g1 k2 := by
  obtain ⟨a1, m, s1, d, hm, hp1, hs1, hsm1, hsf1, hsa1, hc1, hd, hdf, hroom, rfl⟩ := h1
  obtain ⟨a2, m2, s2, d2, hm2, hp2, hs2, hsm2, hsf2, hsa2, hc2, hd2, hdf2, hroom2, rfl⟩ := h2
  simp only at hm2 hs2 hd2
  rw [hm] at hm2; cases hm2
  rw [upd_self] at hd2; cases hd2
  rw [upd_other _ _ n2] at hs2
  simp only at hdf2 hroom2
  by_cases hsrc : src2 = src1
  · subst hsrc
    rw [upd_self] at hs2; cases hs2
    simp only at hsm2 hsf2 hsa2
    obtain ⟨c1, c2, c3⟩ := spend_swap p1 p2 (fun n => hself _ n hs1) hc1 hc2
    refine ⟨_, ⟨a2, m, s1, d, hm, hp2, hs1, hsm1, hsf1, by omega, c1, hd, hdf, by omega, rfl⟩,
      a1, m, _, _, hm, hp1, (upd_other _ _ n1).trans (upd_self _ _ _), hsm1, hsf1, ?_, c2, upd_self _ _ _, hdf, ?_, ?_⟩
    · simp only; omega
    · simp only; omega
    · congr 1
      funext x
      unfold upd
      by_cases hx : x = dst
      · simp [hx]; omega
      · by_cases hx' : x = src2
        · subst hx'
          simp only [if_neg n1, if_true, c3]
          simp; omega
        · simp [hx, hx']
  · rw [upd_other _ _ hsrc] at hs2
    refine ⟨_, ⟨a2, m, s2, d, hm, hp2, hs2, hsm2, hsf2, hsa2, hc2, hd, hdf, by omega, rfl⟩,
      a1, m, s1, _, hm, hp1, (upd_other _ _ n1).trans ((upd_other _ _ (Ne.symm hsrc)).trans hs1), hsm1, hsf1, hsa1, hc1,
      upd_self _ _ _, hdf, ?_, ?_⟩
    · simp only; omega
    · congr 1
      funext x
      unfold upd
      by_cases hx : x = dst
      · simp [hx]; omega
      · by_cases hx' : x = src2
        · subst hx'
          simp [hx, hsrc]
        · simp [hx, hx']

/-! ## Sales -/

/-- A registry with `n` more deposited, and `f` more in fees. -/
def Registry.grown (r : Registry) (n f : Nat) : Registry :=
  { r with totalDeposit := r.totalDeposit + n, totalDepositFee := r.totalDepositFee + f }

/-- A sale with `n` more deposited in registry `i`. -/
def Presale.grown (p : Presale) (i : Nat) (r : Registry) (n f : Nat) : Presale :=
  { p with
    registries := p.registries.set i (r.grown n f)
    totalDeposit := p.totalDeposit + n
    totalDepositFee := p.totalDepositFee + f }

/-- A registry as it is after a deposit in registry `i`. -/
def Registry.met (r : Registry) (i j n f : Nat) : Registry := if i = j then r.grown n f else r

theorem still_open {p : Presale} {i : Nat} {r : Registry} {n f : Nat} {now : Int}
    (h : Ongoing (afterDeposit p i r n f now.toNat) now) :
    ¬ (EarlyEndAllowed p ∧ p.presaleMaximumCap ≤ p.totalDeposit + n) ∧
      afterDeposit p i r n f now.toNat = p.grown i r n f := by
  unfold afterDeposit at *
  simp only at *
  split at h
  · have h1 := h.1
    have h2 := h.2
    simp only at h1 h2
    omega
  · next hc => exact ⟨hc, by rw [if_neg hc]; rfl⟩

theorem open_after {p : Presale} {i : Nat} {r : Registry} {n f t : Nat}
    (h : ¬ (EarlyEndAllowed p ∧ p.presaleMaximumCap ≤ p.totalDeposit + n)) :
    afterDeposit p i r n f t = p.grown i r n f := by
  unfold afterDeposit
  simp only
  rw [if_neg h]
  rfl

theorem grown_registry {p : Presale} {i j : Nat} {r r' : Registry} {n f : Nat} (hi : p.registries[i]? = some r)
    (h : (p.grown i r n f).registries[j]? = some r') :
    ∃ q, p.registries[j]? = some q ∧ r' = q.met i j n f := by
  simp only [Presale.grown, List.getElem?_set] at h
  unfold Registry.met
  split at h
  · next hij =>
    subst hij
    split at h
    · cases h; exact ⟨r, hi, by rw [if_pos rfl]⟩
    · cases h
  · next hij => exact ⟨r', h, by rw [if_neg hij]⟩

theorem registry_grown {p : Presale} {i j : Nat} {r q : Registry} {n f : Nat} (hi : p.registries[i]? = some r)
    (hj : p.registries[j]? = some q) : (p.grown i r n f).registries[j]? = some (q.met i j n f) := by
  have hlt := (List.getElem?_eq_some_iff.1 hi).1
  simp only [Presale.grown, List.getElem?_set]
  unfold Registry.met
  by_cases hij : i = j
  · subst hij
    rw [hi] at hj; cases hj
    simp [hlt]
  · simp [hij, hj]

theorem grown_swap {p : Presale} {i j : Nat} {r q : Registry} {n1 f1 n2 f2 : Nat} (hi : p.registries[i]? = some r)
    (hj : p.registries[j]? = some q) :
    (p.grown i r n1 f1).grown j (q.met i j n1 f1) n2 f2 = (p.grown j q n2 f2).grown i (r.met j i n2 f2) n1 f1 := by
  have key : ((p.registries.set i (r.grown n1 f1)).set j ((q.met i j n1 f1).grown n2 f2)) =
      ((p.registries.set j (q.grown n2 f2)).set i ((r.met j i n2 f2).grown n1 f1)) := by
    unfold Registry.met
    by_cases hij : i = j
    · subst hij
      rw [hi] at hj; cases hj
      rw [if_pos rfl, if_pos rfl, List.set_set, List.set_set]
      congr 1
      unfold Registry.grown
      simp only [Nat.add_right_comm]
    · rw [if_neg hij, if_neg (Ne.symm hij), List.set_comm _ _ hij]
  unfold Presale.grown
  simp only [key, Nat.add_right_comm]

theorem afterDeposit_grown (p : Presale) (i : Nat) (r : Registry) (n f t : Nat) :
    afterDeposit p i r n f t =
      if EarlyEndAllowed p ∧ p.presaleMaximumCap ≤ p.totalDeposit + n then
        { p.grown i r n f with
          presaleEndTime := t
          vestingStartTime := t + p.lockDuration
          vestingEndTime := t + p.lockDuration + p.vestDuration
          immediateReleaseTimestamp := t + (p.immediateReleaseTimestamp - p.presaleEndTime) }
      else p.grown i r n f := rfl

theorem afterDeposit_swap {p : Presale} {i j : Nat} {r q : Registry} {n1 f1 n2 f2 t : Nat}
    (hi : p.registries[i]? = some r) (hj : p.registries[j]? = some q) :
    afterDeposit (p.grown i r n1 f1) j (q.met i j n1 f1) n2 f2 t =
      afterDeposit (p.grown j q n2 f2) i (r.met j i n2 f2) n1 f1 t := by
  rw [afterDeposit_grown, afterDeposit_grown, grown_swap hi hj]
  have h : (p.grown i r n1 f1).totalDeposit + n2 = (p.grown j q n2 f2).totalDeposit + n1 :=
    Nat.add_right_comm _ _ _
  rw [h]
  rfl

/-! ## Limits -/

theorem met_static (r : Registry) (i j n f : Nat) :
    (r.met i j n f).buyerMinimumDepositCap = r.buyerMinimumDepositCap ∧
    (r.met i j n f).buyerMaximumDepositCap = r.buyerMaximumDepositCap ∧
    (r.met i j n f).depositFeeBps = r.depositFeeBps ∧
    (r.met i j n f).presaleSupply = r.presaleSupply ∧ r.totalDeposit ≤ (r.met i j n f).totalDeposit := by
  unfold Registry.met Registry.grown
  split <;> simp

theorem met_total (r : Registry) (i j n f : Nat) :
    (r.met i j n f).totalDeposit = r.totalDeposit + if i = j then n else 0 := by
  unfold Registry.met Registry.grown
  split <;> simp

theorem personalQuota_met (r : Registry) (e : Escrow) (i j n f : Nat) :
    personalQuota (r.met i j n f) e = personalQuota r e := by
  unfold personalQuota
  rw [(met_static r i j n f).2.1]

theorem unhindered_met {p : Presale} {r q : Registry} {e : Escrow} {i n1 f1 asked n i' j' n' f' : Nat} :
    Unhindered (p.grown i q n1 f1) (r.met i' j' n' f') e asked n ↔ Unhindered p r e asked n := by
  unfold Unhindered
  rw [personalQuota_met]
  rfl

theorem remaining_le_personal (p : Presale) (r : Registry) (e : Escrow) : remainingQuota p r e ≤ personalQuota r e := by
  unfold remainingQuota
  split
  · exact Nat.le_refl _
  · split
    · exact Nat.min_le_right _ _
    · split
      · exact Nat.zero_le _
      · exact Nat.le_trans (Nat.min_le_left _ _) (Nat.min_le_right _ _)

/-- A deposit that is taken in full stays below the remaining quota, and conversely. -/
theorem taken_of_unhindered {p : Presale} {r : Registry} {e : Escrow} {asked n : Nat} (h : Unhindered p r e asked n)
    (hn : n ≤ remainingQuota p r e) : DepositTaken p r e asked n := by
  have hle := remaining_le_personal p r e
  unfold Unhindered at h
  unfold DepositTaken
  split at h
  · next hm => rw [if_pos hm]; omega
  · next hm =>
    rw [if_neg hm]
    have hmid : tokensAtPrice p.raw0 (min asked (remainingQuota p r e)) =
        tokensAtPrice p.raw0 (min asked (personalQuota r e)) := by
      apply Nat.le_antisymm
      · exact tokensAtPrice_mono (by omega)
      · rw [← h.same]
        exact tokensAtPrice_mono (Nat.le_min.2 ⟨Nat.le_trans h.le (Nat.min_le_left _ _), hn⟩)
    exact ⟨Nat.le_min.2 ⟨Nat.le_trans h.le (Nat.min_le_left _ _), hn⟩, h.same.trans hmid.symm,
      fun l hl => by rw [hmid]; exact h.least l hl⟩

theorem taken_le_quota {p : Presale} {r : Registry} {e : Escrow} {asked n : Nat} (h : DepositTaken p r e asked n) :
    n ≤ remainingQuota p r e := by
  unfold DepositTaken at h
  split at h
  · omega
  · exact Nat.le_trans h.le (Nat.min_le_right _ _)

theorem sold_grown_mono (p : Presale) (r q : Registry) (i i' j' n f n' f' : Nat) (hm : ¬ (p.presaleMode = 1 ∨ p.presaleMode = 2)) :
    sold p r ≤ sold (p.grown i q n f) (r.met i' j' n' f') := by
  unfold sold
  have hm' : ¬ ((p.grown i q n f).presaleMode = 1 ∨ (p.grown i q n f).presaleMode = 2) := hm
  rw [if_neg hm, if_neg hm', (met_static r i' j' n' f').2.2.2.1]
  have : tokensAtPrice p.raw0 r.totalDeposit ≤ tokensAtPrice p.raw0 (r.met i' j' n' f').totalDeposit :=
    tokensAtPrice_mono (met_static r i' j' n' f').2.2.2.2
  have e : (p.grown i q n f).raw0 = p.raw0 := rfl
  rw [e]
  omega

theorem costOf_mono (q : Nat) {a b : Nat} (h : a ≤ b) : costOf q a ≤ costOf q b := by
  unfold costOf
  exact Nat.div_le_div_right (Nat.add_le_add_right (Nat.mul_le_mul_right _ h) _)

/-- An earlier deposit leaves no more room. -/
theorem quota_antitone (p : Presale) (r q : Registry) (e : Escrow) (i i' j' n f n' f' : Nat) :
    remainingQuota (p.grown i q n f) (r.met i' j' n' f') e ≤ remainingQuota p r e := by
  have hs := sold_grown_mono p r q i i' j' n f n' f'
  unfold remainingQuota
  have e1 : (p.grown i q n f).presaleMode = p.presaleMode := rfl
  have e2 : (p.grown i q n f).presaleMaximumCap = p.presaleMaximumCap := rfl
  have e3 : (p.grown i q n f).totalDeposit = p.totalDeposit + n := rfl
  have e4 : (p.grown i q n f).raw0 = p.raw0 := rfl
  rw [e1, e2, e3, e4, personalQuota_met, (met_static r i' j' n' f').2.2.2.1]
  by_cases h1 : p.presaleMode = 1
  · rw [if_pos h1, if_pos h1]
  · rw [if_neg h1, if_neg h1]
    by_cases h2 : p.presaleMode = 2
    · rw [if_pos h2, if_pos h2]; omega
    · rw [if_neg h2, if_neg h2]
      have hm : ¬ (p.presaleMode = 1 ∨ p.presaleMode = 2) := by omega
      have hs := hs hm
      have hle : sold (p.grown i q n f) (r.met i' j' n' f') ≤ (r.met i' j' n' f').presaleSupply :=
        sold_le_supply _ _
      rw [(met_static r i' j' n' f').2.2.2.1] at hle
      by_cases h3 : sold (p.grown i q n f) (r.met i' j' n' f') = r.presaleSupply
      · rw [if_pos h3]; exact Nat.zero_le _
      · rw [if_neg h3]
        by_cases h4 : sold p r = r.presaleSupply
        · omega
        · rw [if_neg h4]
          have := costOf_mono p.raw0 (Nat.sub_le_sub_left hs r.presaleSupply)
          omega

theorem tokens_superadd (q a b : Nat) : tokensAtPrice q a + tokensAtPrice q b ≤ tokensAtPrice q (a + b) := by
  by_cases hq : q = 0
  · subst hq; unfold tokensAtPrice; simp
  · rw [tokensAtPrice_def q (a + b), Nat.le_div_iff_mul_le (by omega), Nat.add_mul, Nat.add_mul]
    exact Nat.add_le_add (tokensAtPrice_mul_le q a) (tokensAtPrice_mul_le q b)

theorem le_tokens_costOf {q k : Nat} (hq : 0 < q) : k ≤ tokensAtPrice q (costOf q k) := by
  rw [tokensAtPrice_def, Nat.le_div_iff_mul_le hq, costOf_eq]
  exact le_divCeil_mul _ scale_pos

theorem least_price {q o n : Nat} (h : LeastCharge q o n) (hn : 0 < n) : 0 < q ∧ 0 < tokensAtPrice q n := by
  have := h.least 0 hn
  rw [← h.same] at this
  refine ⟨?_, by omega⟩
  rcases Nat.eq_zero_or_pos q with rfl | hq
  · unfold tokensAtPrice at this; simp at this
  · exact hq

/-- The amount that was taken when it came first still fits when it comes second. -/
theorem quota_second {p : Presale} {r q : Registry} {e : Escrow} {i j n1 n2 f2 asked : Nat} (hn : 0 < n1)
    (hfirst : n1 ≤ remainingQuota p r e) (hfull : Unhindered p r e asked n1)
    (hcap : p.presaleMode = 1 ∨ p.totalDeposit + n1 + n2 ≤ p.presaleMaximumCap)
    (hsup : p.presaleMode = 1 ∨ p.presaleMode = 2 ∨
      (i = j → tokensAtPrice p.raw0 (r.totalDeposit + n1 + n2) ≤ r.presaleSupply)) :
    n1 ≤ remainingQuota (p.grown j q n2 f2) (r.met j i n2 f2) e := by
  have hpers := Nat.le_trans hfirst (remaining_le_personal p r e)
  unfold remainingQuota at *
  have e1 : (p.grown j q n2 f2).presaleMode = p.presaleMode := rfl
  have e2 : (p.grown j q n2 f2).presaleMaximumCap = p.presaleMaximumCap := rfl
  have e3 : (p.grown j q n2 f2).totalDeposit = p.totalDeposit + n2 := rfl
  have e4 : (p.grown j q n2 f2).raw0 = p.raw0 := rfl
  rw [e1, e2, e3, e4, personalQuota_met, (met_static r j i n2 f2).2.2.2.1]
  by_cases h1 : p.presaleMode = 1
  · rw [if_pos h1]; exact hpers
  · rw [if_neg h1] at hfirst ⊢
    by_cases h2 : p.presaleMode = 2
    · rw [if_pos h2] at hfirst ⊢; omega
    · rw [if_neg h2] at hfirst ⊢
      have hm : ¬ (p.presaleMode = 1 ∨ p.presaleMode = 2) := by omega
      unfold Unhindered at hfull
      rw [if_neg hm] at hfull
      obtain ⟨hq, ht⟩ := least_price hfull hn
      have hsold : sold (p.grown j q n2 f2) (r.met j i n2 f2) =
          min (tokensAtPrice p.raw0 (r.met j i n2 f2).totalDeposit) r.presaleSupply := by
        unfold sold
        rw [e1, if_neg hm, e4, (met_static r j i n2 f2).2.2.2.1]
      by_cases hij : j = i
      · have hsup := (hsup.resolve_left h1).resolve_left h2 hij.symm
        rw [met_total, if_pos hij] at hsold
        have hadd := tokens_superadd p.raw0 (r.totalDeposit + n2) n1
        rw [Nat.add_right_comm] at hadd
        have hsold' : sold (p.grown j q n2 f2) (r.met j i n2 f2) = tokensAtPrice p.raw0 (r.totalDeposit + n2) := by
          rw [hsold]
          exact Nat.min_eq_left (Nat.le_trans (Nat.le_add_right _ _) (Nat.le_trans hadd hsup))
        rw [hsold']
        have hne : ¬ tokensAtPrice p.raw0 (r.totalDeposit + n2) = r.presaleSupply := by omega
        rw [if_neg hne]
        have hcost : n1 ≤ costOf p.raw0 (r.presaleSupply - tokensAtPrice p.raw0 (r.totalDeposit + n2)) := by
          by_contra hlt
          have h3 := hfull.least _ (Nat.lt_of_not_le hlt)
          have h4 := @le_tokens_costOf p.raw0 (r.presaleSupply - tokensAtPrice p.raw0 (r.totalDeposit + n2)) hq
          rw [← hfull.same] at h3
          omega
        have hcap := hcap.resolve_left h1
        generalize costOf p.raw0 (r.presaleSupply - tokensAtPrice p.raw0 (r.totalDeposit + n2)) = c at *
        omega
      · rw [met_total, if_neg hij, Nat.add_zero] at hsold
        have hsold' : sold (p.grown j q n2 f2) (r.met j i n2 f2) = sold p r := by
          rw [hsold]; unfold sold; rw [if_neg hm]
        rw [hsold']
        by_cases h4 : sold p r = r.presaleSupply
        · rw [if_pos h4] at hfirst; omega
        · rw [if_neg h4] at hfirst ⊢
          have hcap := hcap.resolve_left h1
          generalize costOf p.raw0 (r.presaleSupply - sold p r) = c at *
          omega

theorem payworthy_first {p : Presale} {r q : Registry} {i i' j' n f n' f' : Nat}
    (h : Payworthy p r) : Payworthy (p.grown i q n f) (r.met i' j' n' f') := by
  by_cases hm : p.presaleMode = 1 ∨ p.presaleMode = 2
  · rcases hm with hm | hm
    · exact .inl hm
    · exact .inr (.inl hm)
  · have h := (h.resolve_left (fun h => hm (.inl h))).resolve_left (fun h => hm (.inr h))
    refine .inr (.inr ?_)
    have hs := sold_grown_mono p r q i i' j' n f n' f' hm
    rw [(met_static r i' j' n' f').2.2.2.1]
    exact Nat.lt_of_le_of_lt (costOf_mono _ (Nat.sub_le_sub_left hs _)) h

/-! ## Two deposits -/

/-- What a deposit that is taken in full takes. -/
theorem full_amount {w w' : World} {tx : Tx} {x : DepositAcc} {p : Presale} {e : Escrow} {r : Registry} {m : MintInfo}
    {n fee gross : Nat} {k' : Tokens} (D : DoesDeposit w tx x w' p e r m n fee gross k') :
    TakenInFull w x w' ↔ Unhindered p r e x.maxAmount n := by
  have he' : w'.escrows.get? x.escrow = some { e with
      totalDeposit := e.totalDeposit + n
      totalDepositFee := e.totalDepositFee + fee } := by
    rw [D.post]
    simp only [AMap.get?_set, if_true]
  constructor
  · rintro ⟨p', e1, e2, r', hp, h1, h2, hr, hu⟩
    rw [D.presale] at hp; cases hp
    rw [D.escrow.1] at h1; cases h1
    rw [he'] at h2; cases h2
    rw [D.registry] at hr; cases hr
    simpa using hu
  · intro hu
    exact ⟨p, e, _, r, D.presale, D.escrow.1, he', D.registry, by simpa using hu⟩

theorem payer_not_vault {w w' : World} (R : Reachable w) {tx : Tx} {x : DepositAcc} {p : Presale} {e : Escrow}
    {r : Registry} {m : MintInfo} {n fee gross : Nat} {k' : Tokens}
    (D : DoesDeposit w tx x w' p e r m n fee gross k') : x.payerQuoteToken ≠ p.quoteTokenVault := by
  intro h
  obtain ⟨_, _, s, _, _, _, hs, _, _, _, hc, _⟩ := D.payment
  have S := R.winv.core.sale _ _ D.presale
  rw [h, S.pinv.static.quoteVault] at hs
  obtain ⟨h1, h2⟩ := R.winv.core.vaults _ _ (isVault_quote _) hs
  obtain ⟨k, hk⟩ := signed_isKey D.signed
  rcases hc with ⟨_, h3, _⟩ | ⟨h3, _⟩
  · rw [h2] at h3; cases h3
  · rw [h1, hk] at h3; cases h3

/-- Two deposits that are both taken in full may change places. -/
theorem deposit_swap {w w1 w12 : World} (R : Reachable w) {tx1 tx2 : Tx} {x1 x2 : DepositAcc}
    (h1 : ∃ rc, handleDeposit w tx1 x1 = .ok (w1, rc)) (h2 : ∃ rc, handleDeposit w1 tx2 x2 = .ok (w12, rc))
    (ha : x2.presale = x1.presale) (hk : x1.escrow ≠ x2.escrow) (F1 : TakenInFull w x1 w1) (F2 : TakenInFull w1 x2 w12)
    (hself : NotSelfDelegated w.tk x1.payerQuoteToken) (hsup : WithinSupply w12 x1.presale) :
    ∃ w2, (∃ rc, handleDeposit w tx2 x2 = .ok (w2, rc)) ∧ TakenInFull w x2 w2 ∧
      (∃ rc, handleDeposit w2 tx1 x1 = .ok (w12, rc)) ∧ TakenInFull w2 x1 w12 := by
  have R1 : Reachable w1 := by
    obtain ⟨rc, h⟩ := h1
    exact R.step (op := .ix tx1 (.deposit x1)) h
  obtain ⟨p, e1, r1, m, n1, f1, g1, k1, D1⟩ := (does_deposit R).1 h1
  obtain ⟨p1, e2, r2', m', n2, f2, g2, k2, D2⟩ := (does_deposit R1).1 h2
  have F1' := (full_amount D1).1 F1
  have F2' := (full_amount D2).1 F2
  have hne1 := payer_not_vault R D1
  have hne2 := payer_not_vault R1 D2
  have hw1 := D1.post
  -- the sale in between
  have hp1 : p1 = afterDeposit p e1.registryIndex r1 n1 f1 w.clock.toNat := by
    have := D2.presale
    rw [hw1, ha] at this
    simp only [upd_self] at this
    cases this; rfl
  have hclock : w1.clock = w.clock := by rw [hw1]
  have hon := D2.ongoing
  rw [hclock, hp1] at hon
  obtain ⟨hopen1, hgrown1⟩ := still_open hon
  rw [hgrown1] at hp1
  subst hp1
  have he2 : w.escrows.get? x2.escrow = some e2 := by
    have := D2.escrow.1
    rw [hw1] at this
    simp only [AMap.get?_set] at this
    rwa [if_neg (Ne.symm hk)] at this
  obtain ⟨r2, hr2, rfl⟩ := grown_registry D1.registry D2.registry
  have hmint : m' = m := by
    have h3 := D2.mint
    obtain ⟨_, m3, s, d, h4, _, _, _, _, _, _, _, _, _, h5⟩ := D1.payment
    rw [hw1] at h3
    simp only at h3
    rw [h5] at h3
    have h6 := D1.mint
    have e : (p.grown e1.registryIndex r1 n1 f1).quoteMint = p.quoteMint := rfl
    rw [e] at h3
    simp only at h3
    rw [h6] at h3
    cases h3; rfl
  subst hmint
  have hpay2 := D2.payment
  have htk1 : w1.tk = k1 := by rw [hw1]
  rw [htk1] at hpay2
  obtain ⟨k1', c1, c2⟩ := charged_swap D1.payment hpay2 hne1 hne2 (charge_pos D1.charge D1.taken.1)
    (charge_pos D2.charge D2.taken.1) hself
  -- room
  have hu2 : Unhindered p r2 e2 x2.maxAmount n2 := unhindered_met.1 F2'
  have hq1 := taken_le_quota D1.taken.2
  have hq2 := taken_le_quota D2.taken.2
  have hq2' : n2 ≤ remainingQuota p r2 e2 := Nat.le_trans hq2 (quota_antitone p r2 r1 e2 _ _ _ _ _ _ _)
  have hn1 := D1.taken.1
  have hn2 := D2.taken.1
  have hcap : p.presaleMode = 1 ∨ p.totalDeposit + n1 + n2 ≤ p.presaleMaximumCap := by
    by_cases hm : p.presaleMode = 1
    · exact .inl hm
    · right
      unfold remainingQuota at hq2
      have i1 : (p.grown e1.registryIndex r1 n1 f1).presaleMode = p.presaleMode := rfl
      have i2 : (p.grown e1.registryIndex r1 n1 f1).presaleMaximumCap = p.presaleMaximumCap := rfl
      have i3 : (p.grown e1.registryIndex r1 n1 f1).totalDeposit = p.totalDeposit + n1 := rfl
      rw [i1, i2, i3, if_neg hm] at hq2
      split at hq2
      · omega
      · split at hq2 <;> omega
  have hopen2 : ¬ (EarlyEndAllowed p ∧ p.presaleMaximumCap ≤ p.totalDeposit + n2) := by
    rintro ⟨h3, h4⟩
    rcases hcap with h5 | h5
    · unfold EarlyEndAllowed at h3; omega
    · omega
  have hp12 : w12.presales x1.presale = some (afterDeposit (p.grown e1.registryIndex r1 n1 f1) e2.registryIndex
      (r2.met e1.registryIndex e2.registryIndex n1 f1) n2 f2 w1.clock.toNat) := by
    rw [D2.post, ha]; exact upd_self _ _ _
  have hsupply : p.presaleMode = 1 ∨ p.presaleMode = 2 ∨ (e1.registryIndex = e2.registryIndex →
      tokensAtPrice p.raw0 (r1.totalDeposit + n1 + n2) ≤ r1.presaleSupply) := by
    rcases hsup _ hp12 with h3 | h3 | h3
    · left; rw [afterDeposit_grown] at h3; split at h3 <;> exact h3
    · right; left; rw [afterDeposit_grown] at h3; split at h3 <;> exact h3
    · right; right
      intro hij
      have hr12 : (afterDeposit (p.grown e1.registryIndex r1 n1 f1) e2.registryIndex
          (r2.met e1.registryIndex e2.registryIndex n1 f1) n2 f2 w1.clock.toNat).registries[e2.registryIndex]? =
          some ((r2.met e1.registryIndex e2.registryIndex n1 f1).met e2.registryIndex e2.registryIndex n2 f2) := by
        rw [afterDeposit_grown]
        split <;> exact registry_grown D2.registry D2.registry
      have h4 := h3 _ _ hr12
      have hraw : (afterDeposit (p.grown e1.registryIndex r1 n1 f1) e2.registryIndex
          (r2.met e1.registryIndex e2.registryIndex n1 f1) n2 f2 w1.clock.toNat).raw0 = p.raw0 := by
        rw [afterDeposit_grown]; split <;> rfl
      rw [hraw, met_total, met_total, (met_static _ _ _ _ _).2.2.2.1, (met_static _ _ _ _ _).2.2.2.1,
        if_pos rfl, if_pos hij] at h4
      rw [← hij, D1.registry] at hr2
      cases hr2
      exact h4
  have hq1' := quota_second (q := r2) (j := e2.registryIndex) (i := e1.registryIndex) (n2 := n2) (f2 := f2)
    hn1 hq1 F1' hcap hsupply
  have hprice2 : Payworthy p r2 := by
    by_cases hij : e1.registryIndex = e2.registryIndex
    · rw [← hij, D1.registry] at hr2
      cases hr2
      exact D1.priced
    · have := D2.priced
      unfold Registry.met at this
      rw [if_neg hij] at this
      exact this
  -- the other order
  have D2' : DoesDeposit w tx2 x2
      { w with
        presales := upd w.presales x2.presale (some (afterDeposit p e2.registryIndex r2 n2 f2 w.clock.toNat))
        escrows := w.escrows.set x2.escrow { e2 with
          totalDeposit := e2.totalDeposit + n2
          totalDepositFee := e2.totalDepositFee + f2 }
        tk := k1' } p e2 r2 m' n2 f2 g2 k1' :=
    { presale := by rw [ha]; exact D1.presale
      escrow := ⟨he2, D2.escrow.2⟩
      registry := hr2
      accounts := D2.accounts
      signed := D2.signed
      fits := D2.fits
      ongoing := D1.ongoing
      priced := hprice2
      taken := ⟨hn2, taken_of_unhindered hu2 hq2'⟩
      minimum := by have := D2.minimum; rwa [(met_static _ _ _ _ _).1] at this
      mint := D1.mint
      charge := by have := D2.charge; rwa [(met_static _ _ _ _ _).2.2.1] at this
      hooks := D2.hooks
      payment := c1
      post := rfl }
  rw [open_after hopen2] at D2'
  have hs2 := (does_deposit R).2 ⟨_, _, _, _, _, _, _, _, D2'⟩
  have R2 := hs2.elim fun rc h => R.step (op := .ix tx2 (.deposit x2)) h
  have D1' : DoesDeposit
      { w with
        presales := upd w.presales x2.presale (some (p.grown e2.registryIndex r2 n2 f2))
        escrows := w.escrows.set x2.escrow { e2 with
          totalDeposit := e2.totalDeposit + n2
          totalDepositFee := e2.totalDepositFee + f2 }
        tk := k1' } tx1 x1 w12 (p.grown e2.registryIndex r2 n2 f2) e1
      (r1.met e2.registryIndex e1.registryIndex n2 f2) m' n1 f1 g1 k2 :=
    { presale := by rw [ha]; exact upd_self _ _ _
      escrow := ⟨by simp only [AMap.get?_set]; rw [if_neg hk]; exact D1.escrow.1, D1.escrow.2⟩
      registry := registry_grown hr2 D1.registry
      accounts := D1.accounts
      signed := D1.signed
      fits := D1.fits
      ongoing := D1.ongoing
      priced := payworthy_first D1.priced
      taken := ⟨hn1, taken_of_unhindered (unhindered_met.2 F1') hq1'⟩
      minimum := by rw [(met_static _ _ _ _ _).1]; exact D1.minimum
      mint := by
        obtain ⟨_, m3, s, d, h4, _, _, _, _, _, _, _, _, _, h5⟩ := c1
        rw [h5]
        exact D1.mint
      charge := by rw [(met_static _ _ _ _ _).2.2.1]; exact D1.charge
      hooks := D1.hooks
      payment := c2
      post := by
        rw [D2.post, hclock, ← afterDeposit_swap D1.registry hr2, hw1, ha]
        simp only [upd_twice, World.mk.injEq, true_and, and_true]
        exact AMap.set_swap _ _ _ hk ⟨_, D1.escrow.1⟩ ⟨_, he2⟩ }
  exact ⟨_, hs2, (full_amount D2').2 hu2, (does_deposit R2).2 ⟨_, _, _, _, _, _, _, _, D1'⟩,
    (full_amount D1').2 (unhindered_met.2 F1')⟩

/-! ## Any number of deposits -/

theorem self_kept {w w' : World} {tx : Tx} {x : DepositAcc} {p : Presale} {e : Escrow} {r : Registry} {m : MintInfo}
    {n fee gross : Nat} {k' : Tokens} (D : DoesDeposit w tx x w' p e r m n fee gross k') {src : Addr}
    (h : NotSelfDelegated w.tk src) : NotSelfDelegated w'.tk src := by
  obtain ⟨_, m', s, d, _, _, hs, _, _, _, _, hd, _, _, h5⟩ := D.payment
  have hk : w'.tk = k' := by rw [D.post]
  rw [hk, h5]
  intro t k ht
  simp only at ht
  by_cases h1 : src = p.quoteTokenVault
  · subst h1
    rw [upd_self] at ht; cases ht
    exact h d k hd
  · rw [upd_other _ _ h1] at ht
    by_cases h2 : src = x.payerQuoteToken
    · subst h2
      rw [upd_self] at ht; cases ht
      unfold allowanceLeft
      simp only
      cases hdel : s.delegate with
      | none => simp
      | some dn =>
        obtain ⟨dd, nn⟩ := dn
        have hne : dd ≠ s.owner := fun h3 => h s nn hs (by rw [hdel, h3])
        simp only
        split
        · split
          · simp
          · simp [hne]
        · simp [hne]
    · rw [upd_other _ _ h2] at ht
      exact h t k ht

theorem within_before {w w' : World} {tx : Tx} {x : DepositAcc} {p : Presale} {e : Escrow} {r : Registry} {m : MintInfo}
    {n fee gross : Nat} {k' : Tokens} (D : DoesDeposit w tx x w' p e r m n fee gross k')
    (h : WithinSupply w' x.presale) : WithinSupply w x.presale := by
  intro q hq
  rw [D.presale] at hq; cases hq
  have hp : w'.presales x.presale = some (afterDeposit p e.registryIndex r n fee w.clock.toNat) := by
    rw [D.post]; exact upd_self _ _ _
  have hmode : (afterDeposit p e.registryIndex r n fee w.clock.toNat).presaleMode = p.presaleMode := by
    rw [afterDeposit_grown]; split <;> rfl
  have hraw : (afterDeposit p e.registryIndex r n fee w.clock.toNat).raw0 = p.raw0 := by
    rw [afterDeposit_grown]; split <;> rfl
  have hregs : (afterDeposit p e.registryIndex r n fee w.clock.toNat).registries =
      (p.grown e.registryIndex r n fee).registries := by
    rw [afterDeposit_grown]; split <;> rfl
  have h := h _ hp
  rw [hmode, hraw, hregs] at h
  rcases h with h | h | h
  · exact .inl h
  · exact .inr (.inl h)
  · refine .inr (.inr fun i q hq => ?_)
    have h1 := h i _ (registry_grown D.registry hq)
    obtain ⟨_, _, _, h2, h3⟩ := met_static q e.registryIndex i n fee
    rw [h2] at h1
    exact Nat.le_trans (tokensAtPrice_mono h3) h1

theorem within_start {a : Addr} {w w' : World} {l : List (Tx × DepositAcc)} (h : InTurn a w l w') (R : Reachable w)
    (hw : WithinSupply w' a) : WithinSupply w a := by
  induction h with
  | nil => exact hw
  | cons sale succeeds full rest ih =>
    subst sale
    obtain ⟨p, e, r, m, n, f, g, k, D⟩ := (does_deposit R).1 ⟨_, succeeds⟩
    exact within_before D (ih (R.step succeeds) hw)

theorem inTurn_perm {a : Addr} {l l' : List (Tx × DepositAcc)} (hperm : l.Perm l') :
    ∀ {w w' : World}, Reachable w → InTurn a w l w' → (l.map fun z => z.2.escrow).Nodup →
      (∀ z ∈ l, NotSelfDelegated w.tk z.2.payerQuoteToken) → WithinSupply w' a → InTurn a w l' w' := by
  induction hperm with
  | nil => intro w w' _ h _ _ _; exact h
  | cons z _ ih =>
    intro w w' R h hn hs hw
    cases h with
    | cons sale succeeds full rest =>
      obtain ⟨p, e, r, m, n, f, g, k, D⟩ := (does_deposit R).1 ⟨_, succeeds⟩
      exact .cons sale succeeds full (ih (R.step succeeds) rest (List.nodup_cons.1 hn).2
        (fun z hz => self_kept D (hs z (List.mem_cons_of_mem _ hz))) hw)
  | swap z1 z2 l =>
    intro w w' R h hn hs hw
    cases h with
    | cons sale1 succeeds1 full1 rest1 =>
      cases rest1 with
      | cons sale2 succeeds2 full2 rest2 =>
        rename_i tx1 x1 rc1 w12 tx2 x2 rc2
        have hne : x1.escrow ≠ x2.escrow := by
          intro h
          exact (List.nodup_cons.1 hn).1 (List.mem_cons.2 (.inl h))
        have hw12 := within_start rest2 ((R.step succeeds1).step succeeds2) hw
        obtain ⟨w2, ⟨rc, s1⟩, f1, ⟨rc', s2⟩, f2⟩ := deposit_swap R ⟨_, succeeds1⟩ ⟨_, succeeds2⟩
          (sale2.trans sale1.symm) hne full1 full2 (hs _ List.mem_cons_self) (by rw [sale1]; exact hw12)
        exact .cons sale2 s1 f1 (.cons sale1 s2 f2 rest2)
  | trans h1 _ ih1 ih2 =>
    intro w w' R h hn hs hw
    refine ih2 R (ih1 R h hn hs hw) ?_ (fun z hz => hs z (h1.mem_iff.2 hz)) hw
    exact (h1.map _).nodup_iff.1 hn

end Verif
