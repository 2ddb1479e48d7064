import Verif.SpecDust
import Verif.Props.Budget
import Verif.Props.Price
import Verif.Props.Refunds
import Verif.Props.Readme
/-!
# C89: how much rounding leaves behind, exactly
-/

namespace Verif
open Spec

/-- Floored shares of `S` by weight miss it by less than one unit for each positive weight. -/
theorem lsum_shares {α : Type} (g : α → Nat) (S : Nat) {T : Nat} (hT : 0 < T) {l : List α} (hg : lsum g l = T) :
    S + 1 ≤ lsum (fun v => g v * S / T) l + lsum (fun v => if g v = 0 then 0 else 1) l := by
  have key : ∀ l : List α, lsum g l * S ≤
      T * lsum (fun v => g v * S / T) l + (T - 1) * lsum (fun v => if g v = 0 then 0 else 1) l := by
    intro l
    induction l with
    | nil => simp [lsum]
    | cons v l ih =>
      rw [lsum_cons, lsum_cons, lsum_cons, Nat.add_mul, Nat.mul_add, Nat.mul_add]
      have h1 : g v * S ≤ T * (g v * S / T) + (T - 1) * (if g v = 0 then 0 else 1) := by
        by_cases h : g v = 0
        · rw [h, Nat.zero_mul]; exact Nat.zero_le _
        · rw [if_neg h, Nat.mul_one]
          have := Nat.div_add_mod (g v * S) T
          have := Nat.mod_lt (g v * S) hT
          omega
      omega
  have h := key l
  rw [hg] at h
  have hpos : 0 < lsum (fun v => if g v = 0 then 0 else 1) l := by
    apply Nat.pos_of_ne_zero
    intro h0
    have : lsum g l = 0 := by
      apply lsum_zero
      intro i v hv
      have := le_lsum (g := fun v => if g v = 0 then 0 else 1) hv
      by_cases hz : g v = 0
      · exact hz
      · simp only [if_neg hz] at this; omega
    omega
  generalize lsum (fun v => if g v = 0 then 0 else 1) l = c at *
  generalize lsum (fun v => g v * S / T) l = f at *
  have h2 : (T - 1) * c + c = T * c := by
    rw [← Nat.succ_mul, Nat.succ_eq_add_one, Nat.sub_add_cancel hT]
  have h3 : T * S < T * (f + c) := by rw [Nat.mul_add]; omega
  exact Nat.lt_of_mul_lt_mul_left h3

theorem esum_lsum (es : AMap Addr Escrow) (a : Addr) (i : Nat) (f : Escrow → Nat) :
    esum es a i f = lsum (fun x : Addr × Escrow => only a i f x.2) es := rfl

/-- The same for the escrows of a registry. -/
theorem esum_shares_pos (es : AMap Addr Escrow) (a : Addr) (i : Nat) (g : Escrow → Nat) (S : Nat) {T : Nat}
    (hT : 0 < T) (hg : esum es a i g = T) :
    S + 1 ≤ esum es a i (fun e => g e * S / T) + esum es a i (fun e => if g e = 0 then 0 else 1) := by
  have h := lsum_shares (fun x : Addr × Escrow => only a i g x.2) S hT (l := es) hg
  have e1 : lsum (fun x : Addr × Escrow => only a i g x.2 * S / T) es = esum es a i (fun e => g e * S / T) := by
    rw [esum_lsum]
    apply lsum_congr
    intro _ x _
    unfold only
    split <;> simp
  have e2 : lsum (fun x : Addr × Escrow => if only a i g x.2 = 0 then 0 else 1) es =
      esum es a i (fun e => if g e = 0 then 0 else 1) := by
    rw [esum_lsum]
    apply lsum_congr
    intro _ x _
    unfold only
    split <;> simp
  rw [e1, e2] at h
  exact h

theorem usedRegistries_eq (p : Presale) :
    usedRegistries p = lsum (fun r : Registry => if r.totalDeposit = 0 then 0 else 1) p.registries := rfl

/-- Refunds due at the end of an oversubscribed sale fill the refundable pools up to less than two units per escrow. -/
theorem whole_refunds_pos {t : Nat} {a : Addr} {p : Presale} {es : AMap Addr Escrow} (P : PInv t a p es)
    (H : Whole a p es) (hc : p.presaleMinimumCap ≤ p.totalDeposit) (hm : p.presaleMode = 1) :
    lsum (refundPool p) p.registries + 2 * usedRegistries p ≤
      saleSum es a (refundDue p) + 2 * saleSum es a payer := by
  rw [saleSum_split P.idx_lt, saleSum_split P.idx_lt, usedRegistries_eq, ← lsum_twice, ← lsum_twice, ← lsum_add,
    ← lsum_add]
  have h0 : lsum (fun _ : Registry => 0) p.registries = 0 := lsum_zero (fun _ _ _ => rfl)
  have := lsum_indexed_ge (l := p.registries) (F := fun i => esum es a i (refundDue p) + 2 * esum es a i payer)
    (A := fun _ => 0) (B := fun r => refundPool p r + 2 * if r.totalDeposit = 0 then 0 else 1) (by
    intro i r hr
    have hd := H.dep i r hr
    have hf := H.fee i r hr
    have h2 : esum es a i (refundDue p) = esum es a i (fun e =>
        e.totalDeposit * registrySurplus p r / r.totalDeposit +
        e.totalDepositFee * registryFeeRefund p r / r.totalDepositFee) := by
      apply esum_congr
      intro x hx ha hi
      rw [refundDue_eq (r := r) (by rw [hi]; exact hr)]
      unfold outstanding owedRefund refundDeposit refundFee
      rw [if_neg (by have := (H.fresh x hx ha).1; omega), if_neg (by omega), if_pos hm, if_pos hm]
    rw [h2, esum_add, Nat.add_zero]
    unfold refundPool
    rw [if_neg (by omega), if_pos hm]
    by_cases hz : r.totalDeposit = 0
    · rw [if_pos hz]
      have := @registrySurplus_le p r
      have e1 : registrySurplus p r = 0 := by omega
      have e2 : registryFeeRefund p r = 0 := by
        unfold registryFeeRefund
        rw [hz, Nat.div_zero]
      omega
    · rw [if_neg hz]
      have k1 := esum_shares_pos es a i Escrow.totalDeposit (registrySurplus p r) (Nat.pos_of_ne_zero hz) hd
      have k0 := esum_shares_pos es a i Escrow.totalDeposit 0 (Nat.pos_of_ne_zero hz) hd
      have z0 : esum es a i (fun e => e.totalDeposit * 0 / r.totalDeposit) = 0 :=
        esum_zero (fun _ _ _ _ => by rw [Nat.mul_zero, Nat.zero_div])
      have l1 : esum es a i (fun e => if e.totalDeposit = 0 then 0 else 1) ≤ esum es a i payer := by
        apply esum_le
        intro x _ _ _
        unfold payer
        split <;> split <;> omega
      by_cases hz' : r.totalDepositFee = 0
      · have e2 : registryFeeRefund p r = 0 := by
          unfold registryFeeRefund
          rw [hz', Nat.zero_mul, Nat.zero_div]
        omega
      · have k2 := esum_shares_pos es a i Escrow.totalDepositFee (registryFeeRefund p r) (Nat.pos_of_ne_zero hz') hf
        have l2 : esum es a i (fun e => if e.totalDepositFee = 0 then 0 else 1) ≤ esum es a i payer := by
          apply esum_le
          intro x _ _ _
          unfold payer
          split <;> split <;> omega
        omega)
  rw [h0] at this
  exact this

/-- Tokens due at the end of a completed sale make up what was sold up to less than two units per escrow. -/
theorem whole_claims_pos {t : Nat} {a : Addr} {p : Presale} {es : AMap Addr Escrow} (P : PInv t a p es)
    (H : Whole a p es) :
    totalSold p + 2 * usedRegistries p ≤ saleSum es a (claimDue p) + 2 * saleSum es a buyer := by
  have e0 : totalSold p = lsum (sold p) p.registries := rfl
  rw [e0, saleSum_split P.idx_lt, saleSum_split P.idx_lt, usedRegistries_eq, ← lsum_twice, ← lsum_twice, ← lsum_add,
    ← lsum_add]
  have h0 : lsum (fun _ : Registry => 0) p.registries = 0 := lsum_zero (fun _ _ _ => rfl)
  have := lsum_indexed_ge (l := p.registries) (F := fun i => esum es a i (claimDue p) + 2 * esum es a i buyer)
    (A := fun _ => 0) (B := fun r => sold p r + 2 * if r.totalDeposit = 0 then 0 else 1) (by
    intro i r hr
    have hd := H.dep i r hr
    have h2 : esum es a i (claimDue p) = esum es a i (fun e =>
        e.totalDeposit * immediatePart (sold p r) p.immediateReleaseBps / r.totalDeposit +
        e.totalDeposit * (sold p r - immediatePart (sold p r) p.immediateReleaseBps) / r.totalDeposit) := by
      apply esum_congr
      intro x hx ha hi
      rw [claimDue_eq (r := r) (by rw [hi]; exact hr), (H.fresh x hx ha).2, entitlement_shares, Nat.sub_zero]
    rw [h2, esum_add, Nat.add_zero]
    by_cases hz : r.totalDeposit = 0
    · rw [if_pos hz, sold_zero p r hz]
      omega
    · rw [if_neg hz]
      have hI := immediatePart_le (s := sold p r) P.static.bps
      have k1 := esum_shares_pos es a i Escrow.totalDeposit (immediatePart (sold p r) p.immediateReleaseBps)
        (Nat.pos_of_ne_zero hz) hd
      have k2 := esum_shares_pos es a i Escrow.totalDeposit
        (sold p r - immediatePart (sold p r) p.immediateReleaseBps) (Nat.pos_of_ne_zero hz) hd
      have l1 : esum es a i (fun e => if e.totalDeposit = 0 then 0 else 1) = esum es a i buyer := rfl
      omega)
  rw [h0] at this
  exact this

/-- The surplus is split among registries up to less than one unit per registry with deposits. -/
theorem surplus_split {t : Nat} {a : Addr} {p : Presale} {es : AMap Addr Escrow} (P : PInv t a p es)
    (hd : 0 < p.totalDeposit) : surplus p + 1 ≤ lsum (registrySurplus p) p.registries + usedRegistries p := by
  have h := lsum_shares Registry.totalDeposit (surplus p) hd (l := p.registries) P.book.totDep.symm
  have e : lsum (fun r : Registry => r.totalDeposit * surplus p / p.totalDeposit) p.registries =
      lsum (registrySurplus p) p.registries := by
    apply lsum_congr
    intro _ r _
    unfold registrySurplus
    rw [Nat.mul_comm]
  rw [e] at h
  exact h

theorem usedRegistries_congr {p p' : Presale} (h : books p' = books p) : usedRegistries p' = usedRegistries p := by
  have key : ∀ p : Presale, usedRegistries p = usedRegistries (books p) := by
    intro p
    show _ = ((p.registries.map registryBooks).map _).sum
    rw [List.map_map]
    rfl
  rw [key p, key p', h]

/-- **C89**, quote tokens. In a completed pro-rata sale the raise, the collectable fees and all refunds, paid and still
due, leave less than two units for each escrow that held anything when the sale ended, and one unit less for every
registry with deposits. -/
theorem C89_quote_dust {w : World} (R : Reachable w) {a : Addr} {p : Presale} (hp : w.presales a = some p)
    (hc : Completed p w.clock) (hm : p.presaleMode = 1) :
    ∃ w1 p1 ops, JustEnded w1 a p1 ∧ w = run w1 ops ∧
      p.totalDeposit + p.totalDepositFee + usedRegistries p + 1 ≤
        raise p + collectableFee p + (p.totalRefundedQuoteToken + saleSum w.escrows a (refundDue p)) +
        2 * saleSum w1.escrows a payer := by
  have S := R.winv.core.sale a p hp
  obtain ⟨w1, p1, ops, J, rfl⟩ := just_ended R hp hc.1
  have S1 := J.reachable.winv.core.sale a p1 J.presale
  have hcons := run_conserve J.reachable.winv ops J.presale hp J.over
  obtain ⟨p', hp', L⟩ := run_later J.reachable.winv ops J.presale
  rw [hp] at hp'; cases hp'
  have hb := L.frozen J.over
  have hpool : lsum (refundPool p) p.registries = lsum (refundPool p1) p1.registries := by
    have key : ∀ p : Presale, lsum (refundPool p) p.registries =
        lsum (refundPool (books p)) (books p).registries := by
      intro p
      show _ = lsum _ (p.registries.map registryBooks)
      unfold lsum
      rw [List.map_map]
      rfl
    rw [key p, key p1, hb]
  have e1 : p.presaleMinimumCap = p1.presaleMinimumCap := (congrArg Presale.presaleMinimumCap hb :)
  have e2 : p.totalDeposit = p1.totalDeposit := (congrArg Presale.totalDeposit hb :)
  have e3 : p.presaleMode = p1.presaleMode := (congrArg Presale.presaleMode hb :)
  have hc2 := hc.2
  have hmin := S.pinv.static.minPos
  have hw := whole_refunds_pos S1.pinv J.whole (by omega) (by omega)
  have hu := usedRegistries_congr hb
  have hs := surplus_split S.pinv (by omega)
  have h0 := J.whole.refunded
  have h1 := collectable_eq S.pinv.book hm
  have h3 : lsum (refundPool p) p.registries =
      lsum (registrySurplus p) p.registries + lsum (registryFeeRefund p) p.registries := by
    rw [← lsum_add]
    apply lsum_congr
    intro i r _
    unfold refundPool
    rw [if_neg (by omega), if_pos hm]
  have h6 : raise p + surplus p = p.totalDeposit := by unfold raise surplus; omega
  exact ⟨w1, p1, ops, J, rfl, by omega⟩

/-- **C89**, base tokens. In a completed sale the tokens claimed and still due miss what was sold by less than two units
for each escrow that held a deposit when the sale ended, and two units less for every registry with deposits. -/
theorem C89_base_dust {w : World} (R : Reachable w) {a : Addr} {p : Presale} (hp : w.presales a = some p)
    (hc : Completed p w.clock) :
    ∃ w1 p1 ops, JustEnded w1 a p1 ∧ w = run w1 ops ∧
      totalSold p + 2 * usedRegistries p ≤
        p.totalClaimedToken + saleSum w.escrows a (claimDue p) + 2 * saleSum w1.escrows a buyer := by
  have S := R.winv.core.sale a p hp
  obtain ⟨w1, p1, ops, J, rfl⟩ := just_ended R hp hc.1
  have S1 := J.reachable.winv.core.sale a p1 J.presale
  obtain ⟨p', hp', L⟩ := run_later J.reachable.winv ops J.presale
  rw [hp] at hp'; cases hp'
  have hb := L.frozen J.over
  have e1 : p.presaleMinimumCap = p1.presaleMinimumCap := (congrArg Presale.presaleMinimumCap hb :)
  have e2 : p.totalDeposit = p1.totalDeposit := (congrArg Presale.totalDeposit hb :)
  have hcons := (run_conserve J.reachable.winv ops J.presale hp J.over).2 (by have := hc.2; omega)
  have hw := whole_claims_pos S1.pinv J.whole
  have h0 := J.whole.claimed
  have hs := totalSold_congr hb
  have hu := usedRegistries_congr hb
  exact ⟨w1, p1, ops, J, rfl, by omega⟩

/-- **C89**, one registry. A fixed-price sale with a single registry never sells past its supply: what its deposits buy at
the price is what it sells, and an escrow pays less than the price of three base units more than it gets. -/
theorem C89_one_registry {w : World} (R : Reachable w) {a : Addr} {p : Presale} (hp : w.presales a = some p)
    (h1 : p.presaleMode ≠ 1) (h2 : p.presaleMode ≠ 2) (hone : p.totalPresaleRegistryCount = 1) :
    ∃ r, p.registries[0]? = some r ∧ r.presaleSupply = p.presaleSupply ∧ r.totalDeposit = p.totalDeposit ∧
      sold p r = tokensAtPrice p.raw0 r.totalDeposit ∧ r.totalDeposit * 2 ^ 64 < (r.presaleSupply + 1) * p.raw0 ∧
      ∀ k e, w.escrows.get? k = some e → e.presale = a →
        e.registryIndex = 0 ∧ e.totalDeposit * 2 ^ 64 < (entitlement p r e + 3) * p.raw0 := by
  have S := R.winv.core.sale a p hp
  have B := S.pinv.book
  obtain ⟨hq, _, hmax⟩ := S.pinv.static.price h1 h2
  have hlen := S.pinv.static.len
  obtain ⟨r, rest, hregs⟩ : ∃ r rest, p.registries = r :: rest := by
    cases h : p.registries with
    | nil => rw [h] at hlen; cases hlen
    | cons r rest => exact ⟨r, rest, rfl⟩
  have hr : p.registries[0]? = some r := by rw [hregs]; rfl
  have hun : ∀ (i : Nat) x, rest[i]? = some x → x = Registry.fresh := by
    intro i x hx
    exact (B.reg (i + 1) x (by rw [hregs]; exact hx)).unused (by omega)
  have hsup : r.presaleSupply = p.presaleSupply := by
    rw [S.pinv.static.supply, hregs, lsum_cons]
    rw [lsum_zero (l := rest)]
    · rfl
    · intro i x hx
      have h := hun i x hx
      rw [h]; rfl
  have hdep : r.totalDeposit = p.totalDeposit := by
    rw [B.totDep, hregs, lsum_cons]
    rw [lsum_zero (l := rest)]
    · rfl
    · intro i x hx
      have h := hun i x hx
      rw [h]; rfl
  have hcap := B.cap h1
  have htok : tokensAtPrice p.raw0 r.totalDeposit ≤ r.presaleSupply := by
    rw [hsup, hdep]
    refine Nat.le_trans ?_ hmax
    unfold tokensAtPrice
    exact Nat.div_le_div_right (Nat.mul_le_mul_right _ hcap)
  have hsold : sold p r = tokensAtPrice p.raw0 r.totalDeposit := by
    unfold sold; rw [if_neg (by omega), Nat.min_eq_left htok]
  have hT : r.totalDeposit * 2 ^ 64 < (sold p r + 1) * p.raw0 := by
    rw [hsold]
    unfold tokensAtPrice
    exact lt_div_succ_mul _ hq
  refine ⟨r, hr, hsup, hdep, hsold, ?_, ?_⟩
  · refine Nat.lt_of_lt_of_le hT (Nat.mul_le_mul_right _ ?_)
    omega
  · intro k e hk ha
    obtain ⟨r', hr', E⟩ := S.pinv.escBook hk ha
    have h0 : e.registryIndex = 0 := by have := E.idx; omega
    obtain ⟨r'', hr'', _, _, _, hlow⟩ := C15_full_entitlement R hp hk ha
    have hd := (B.dep_le hk ha hr'').1
    rw [h0, hr] at hr''
    cases hr''
    refine ⟨h0, ?_⟩
    generalize entitlement p r e = E at *
    generalize sold p r = s at *
    generalize p.raw0 = q at *
    generalize e.totalDeposit = d at *
    generalize r.totalDeposit = T at *
    by_cases hT0 : T = 0
    · have hd0 : d = 0 := by omega
      subst hd0
      rw [Nat.zero_mul]
      exact Nat.mul_pos (Nat.succ_pos _) hq
    · have hT' : (0 : ℚ) < T := by exact_mod_cast Nat.pos_of_ne_zero hT0
      have hs0 : (0 : ℚ) ≤ (d : ℚ) / T := by positivity
      have hs1 : (d : ℚ) / T ≤ 1 := (div_le_one hT').2 (by exact_mod_cast hd)
      have hdT : (d : ℚ) = (d : ℚ) / T * T := by field_simp
      have hT2' : (T : ℚ) * 2 ^ 64 < (s + 1) * q := by exact_mod_cast hT
      have hq' : (0 : ℚ) < q := by exact_mod_cast hq
      generalize (d : ℚ) / T = f at *
      have : (d : ℚ) * 2 ^ 64 < (E + 3) * q := by
        have a2 : f * (T * 2 ^ 64) ≤ f * ((s + 1) * q) := mul_le_mul_of_nonneg_left hT2'.le hs0
        have a3 : (s : ℚ) * f * q < (E + 2) * q := mul_lt_mul_of_pos_right hlow hq'
        have a5 : f * q ≤ q := by nlinarith
        have a4 : (d : ℚ) * 2 ^ 64 = f * (T * 2 ^ 64) := by rw [hdT]; ring
        have a7 : f * ((s + 1) * q) = s * f * q + f * q := by ring
        have a8 : ((E : ℚ) + 3) * q = (E + 2) * q + q := by ring
        linarith
      exact_mod_cast this

/-! ## The bounds cannot be improved -/

namespace Ex

/-- Terms with the given caps. -/
def sellParams (mode whitelist minCap maxCap : Nat) : PresaleArgs :=
  { params mode whitelist 0 with
    presaleMaximumCap := maxCap
    presaleMinimumCap := minCap }

/-- A schedule with the given immediate part, released `lag` seconds after the end, and vesting time. -/
def sellVesting (bps vest lag : Nat) : LockedVestingArgs :=
  { vesting with
    immediatelyReleaseBps := bps
    vestDuration := vest
    immediateReleaseTimestamp := 1600 + lag }

/-- Creation of a sale with a registry for each of the given supplies. -/
def sell (mode whitelist minCap maxCap minBuy bps vest lag : Nat) (supplies : List Nat) : Op :=
  .ix (tx [creator, baseKey]) (.initPresale
    { initArgs mode whitelist 0 reg1 with
      args :=
        { presaleParams := sellParams mode whitelist minCap maxCap
          lockedVestingParams := sellVesting bps vest lag
          presaleRegistries := supplies.map fun n =>
            { buyerMinimumDepositCap := minBuy, buyerMaximumDepositCap := maxCap, presaleSupply := n,
              depositFeeBps := 200 } } })

def setPrice (q : Nat) : Op := .ix (tx [creator]) (.initFixedArgs ⟨creator, creator, sale, 0, q⟩)

def hireOperator : Op := .ix (tx [creator]) (.createOperator ⟨operatorKey, creator⟩)

def letUpTo (cap : Nat) (owner : Addr) (index : Nat) : Op :=
  .ix (tx [operatorKey]) (.createEscrowCreator
      { presale := sale, owner := owner, payer := operatorKey, operator := .operator creator operatorKey,
        operatorOwner := operatorKey, registryIndex := index, depositCap := cap })

/-- Look an escrow up with its presale and registry. -/
def seen (w : World) (k : Addr) (f : Presale → Registry → Escrow → Bool) : Bool :=
  match w.presales sale, w.escrows.get? k with
  | some p, some e => match p.registries[e.registryIndex]? with
    | some r => decide (e.presale = sale) && f p r e
    | none => false
  | _, _ => false

theorem seen_iff {w : World} {k : Addr} {f : Presale → Registry → Escrow → Bool} (h : seen w k f = true) :
    ∃ p e r, w.presales sale = some p ∧ w.escrows.get? k = some e ∧ e.presale = sale ∧
      p.registries[e.registryIndex]? = some r ∧ f p r e = true := by
  unfold seen at h
  split at h
  · rename_i p e hp he
    split at h
    · rename_i r hr
      rw [Bool.and_eq_true] at h
      exact ⟨p, e, r, hp, he, of_decide_eq_true h.1, hr, h.2⟩
    · cases h
  · cases h

/-- 19999 tokens, one in ten thousand at once, the rest over 10000 seconds; 990 of 1000 deposited by one buyer. -/
def slowOps : List Op :=
  [sell 1 0 100 1000 1 1 10000 0 [19999], .tick 10, open' alice, open' bob, deposit alice aliceQuote 990,
   deposit bob bobQuote 10, .tick 691]

/-- 19999 tokens, the immediate part released only with the last of the rest. -/
def lateOps : List Op :=
  [sell 1 0 100 1000 1 1 19998 20098 [19999], .tick 10, open' alice, deposit alice aliceQuote 990, .tick 20687]

/-- Two tokens, one at once and one later. -/
def twoOps : List Op :=
  [sell 1 0 100 1000 1 5000 1000 50 [2], .tick 10, open' alice, open' bob, deposit alice aliceQuote 990,
   deposit bob bobQuote 10, .tick 3000]

/-- Two units too many in a sale with two registries. -/
def surplusOps : List Op :=
  [sell 1 2 100 998 1 5000 1000 50 [1000, 10], hireOperator, .tick 10, letUpTo 998 alice 0, letUpTo 998 bob 0,
   letUpTo 998 bob 1, depositIn alice aliceQuote 0 990, depositIn bob bobQuote 0 5, depositIn bob bobQuote 1 5,
   .tick 3000]

/-- A tenth too much, with fees of 19 and 2. -/
def feeOps : List Op :=
  [sell 1 0 100 900 1 5000 1000 50 [1000], .tick 10, open' alice, open' bob, deposit alice aliceQuote 900,
   deposit bob bobQuote 90, .tick 3000]

/-- Nine tokens at 2.01, sold in pieces of 1, 7 and 1. -/
def piecesOps : List Op :=
  [setPrice (201 * 2 ^ 64 / 100), sell 0 2 1 30 3 1112 1000 50 [9, 20], hireOperator, .tick 10, letUpTo 30 alice 0,
   letUpTo 30 bob 0, depositIn bob bobQuote 0 3, depositIn alice aliceQuote 0 15, depositIn alice aliceQuote 0 10,
   .tick 3000]

instance (p : Presale) (now : Int) : Decidable (Completed p now) :=
  inferInstanceAs (Decidable ((p.presaleEndTime : Int) ≤ now ∧ p.presaleMinimumCap ≤ p.totalDeposit))

/-- The sale of `dusty` before its end. -/
def dustyOps : List Op :=
  [init 1 0 0 reg1, .tick 10, open' alice, open' bob, deposit alice aliceQuote 901, .tick 10, deposit bob bobQuote 600]

end Ex

/-- **C89**, sharp: the bounds of `C89_quote_dust` and `C89_base_dust` are attained. -/
theorem C89_dust_attained : ∃ w a p w1 p1 ops, Reachable w ∧ w.presales a = some p ∧ Completed p w.clock ∧
    p.presaleMode = 1 ∧ JustEnded w1 a p1 ∧ w = run w1 ops ∧
    raise p + collectableFee p + (p.totalRefundedQuoteToken + saleSum w.escrows a (refundDue p)) <
      p.totalDeposit + p.totalDepositFee ∧
    p.totalDeposit + p.totalDepositFee + usedRegistries p + 1 =
      raise p + collectableFee p + (p.totalRefundedQuoteToken + saleSum w.escrows a (refundDue p)) +
      2 * saleSum w1.escrows a payer ∧
    p.totalClaimedToken + saleSum w.escrows a (claimDue p) < totalSold p ∧
    totalSold p + 2 * usedRegistries p =
      p.totalClaimedToken + saleSum w.escrows a (claimDue p) + 2 * saleSum w1.escrows a buyer := by
  have R0 : Reachable (run Ex.genesis Ex.dustyOps) := ⟨Ex.genesis, _, Ex.genesis_ok, rfl⟩
  have R : Reachable (run Ex.genesis (Ex.dustyOps ++ [.tick 2000])) := ⟨Ex.genesis, _, Ex.genesis_ok, rfl⟩
  have h0 : Ex.seen (run Ex.genesis Ex.dustyOps) (Ex.escrowOf Ex.alice) (fun p _ _ =>
      decide (¬ (p.presaleEndTime : Int) ≤ (run Ex.genesis Ex.dustyOps).clock)) = true := by decide +kernel
  have h : Ex.seen (run Ex.genesis (Ex.dustyOps ++ [.tick 2000])) (Ex.escrowOf Ex.alice) (fun p _ _ =>
      decide (Completed p (run Ex.genesis (Ex.dustyOps ++ [.tick 2000])).clock ∧ p.presaleMode = 1 ∧
        raise p + collectableFee p + (p.totalRefundedQuoteToken +
          saleSum (run Ex.genesis (Ex.dustyOps ++ [.tick 2000])).escrows Ex.sale (refundDue p)) <
          p.totalDeposit + p.totalDepositFee ∧
        p.totalDeposit + p.totalDepositFee + usedRegistries p + 1 =
          raise p + collectableFee p + (p.totalRefundedQuoteToken +
            saleSum (run Ex.genesis (Ex.dustyOps ++ [.tick 2000])).escrows Ex.sale (refundDue p)) +
          2 * saleSum (run Ex.genesis (Ex.dustyOps ++ [.tick 2000])).escrows Ex.sale payer ∧
        p.totalClaimedToken +
          saleSum (run Ex.genesis (Ex.dustyOps ++ [.tick 2000])).escrows Ex.sale (claimDue p) < totalSold p ∧
        totalSold p + 2 * usedRegistries p =
          p.totalClaimedToken +
            saleSum (run Ex.genesis (Ex.dustyOps ++ [.tick 2000])).escrows Ex.sale (claimDue p) +
          2 * saleSum (run Ex.genesis (Ex.dustyOps ++ [.tick 2000])).escrows Ex.sale buyer)) = true := by
    decide +kernel
  obtain ⟨p0, _, _, hp0, _, _, _, hf0⟩ := Ex.seen_iff h0
  have hno : ¬ (p0.presaleEndTime : Int) ≤ (run Ex.genesis Ex.dustyOps).clock := of_decide_eq_true hf0
  obtain ⟨p, _, _, hp, _, _, _, hf⟩ := Ex.seen_iff h
  obtain ⟨hc, hm, h1, h2, h3, h4⟩ := of_decide_eq_true hf
  refine ⟨_, _, p, _, p, [], R, hp, hc, hm, ⟨R, hp, hc.1, _, .tick 2000, p0, R0, ?_, hp0, hno⟩, rfl,
    h1, h2, h3, h4⟩
  exact run_append _ _ _

/-- **C89**, sharp: what may have been claimed can lie 3.9 units below the exact share of C10, with the
immediate part released. -/
theorem C89_claim_below : ∃ w p k e r, Reachable w ∧ w.presales Ex.sale = some p ∧ Completed p w.clock ∧
    w.escrows.get? k = some e ∧ e.presale = Ex.sale ∧ p.registries[e.registryIndex]? = some r ∧
    ∃ t, p.immediateReleaseTimestamp ≤ t ∧ (t : Int) ≤ w.clock ∧
    (claimableAt p r e t : ℚ) + 39 / 10 < exactClaim p r e t := by
  have h : Ex.seen (run Ex.genesis Ex.slowOps) (Ex.escrowOf Ex.alice) (fun p r e =>
      decide (Completed p (run Ex.genesis Ex.slowOps).clock ∧
        p.immediateReleaseTimestamp ≤ 1701 ∧ ((1701 : Nat) : Int) ≤ (run Ex.genesis Ex.slowOps).clock ∧
        (claimableAt p r e 1701 : ℚ) + 39 / 10 < exactClaim p r e 1701)) = true := by
    decide +kernel
  obtain ⟨p, e, r, hp, he, ha, hr, hf⟩ := Ex.seen_iff h
  obtain ⟨hc, h1, h2, h3⟩ := of_decide_eq_true hf
  exact ⟨_, p, _, e, r, ⟨Ex.genesis, _, Ex.genesis_ok, rfl⟩, hp, hc, he, ha, hr, 1701, h1, h2, h3⟩

/-- **C89**, sharp: before the immediate part is released what may have been claimed can lie 0.999 units above the
exact share. -/
theorem C89_claim_above : ∃ w p k e r, Reachable w ∧ w.presales Ex.sale = some p ∧ Completed p w.clock ∧
    w.escrows.get? k = some e ∧ e.presale = Ex.sale ∧ p.registries[e.registryIndex]? = some r ∧
    ∃ t : Nat, (t : Int) ≤ w.clock ∧
    exactClaim p r e t + 999 / 1000 < (claimableAt p r e t : ℚ) := by
  have h : Ex.seen (run Ex.genesis Ex.lateOps) (Ex.escrowOf Ex.alice) (fun p r e =>
      decide (Completed p (run Ex.genesis Ex.lateOps).clock ∧
        ((21697 : Nat) : Int) ≤ (run Ex.genesis Ex.lateOps).clock ∧
        exactClaim p r e 21697 + 999 / 1000 < (claimableAt p r e 21697 : ℚ))) = true := by
    decide +kernel
  obtain ⟨p, e, r, hp, he, ha, hr, hf⟩ := Ex.seen_iff h
  obtain ⟨hc, h1, h2⟩ := of_decide_eq_true hf
  exact ⟨_, p, _, e, r, ⟨Ex.genesis, _, Ex.genesis_ok, rfl⟩, hp, hc, he, ha, hr, 21697, h1, h2⟩

/-- **C89**, sharp: the entitlement can lie 1.9 units below the exact share of C15. -/
theorem C89_share_below : ∃ w p k e r, Reachable w ∧ w.presales Ex.sale = some p ∧ Completed p w.clock ∧
    w.escrows.get? k = some e ∧ e.presale = Ex.sale ∧ p.registries[e.registryIndex]? = some r ∧
    (entitlement p r e : ℚ) + 19 / 10 < sold p r * ((e.totalDeposit : ℚ) / r.totalDeposit) := by
  have h : Ex.seen (run Ex.genesis Ex.twoOps) (Ex.escrowOf Ex.alice) (fun p r e =>
      decide (Completed p (run Ex.genesis Ex.twoOps).clock ∧
        (entitlement p r e : ℚ) + 19 / 10 < sold p r * ((e.totalDeposit : ℚ) / r.totalDeposit))) = true := by
    decide +kernel
  obtain ⟨p, e, r, hp, he, ha, hr, hf⟩ := Ex.seen_iff h
  obtain ⟨hc, h1⟩ := of_decide_eq_true hf
  exact ⟨_, p, _, e, r, ⟨Ex.genesis, _, Ex.genesis_ok, rfl⟩, hp, hc, he, ha, hr, h1⟩

/-- **C89**, sharp: the refund of a deposit can lie 1.9 units below the exact part of the surplus of C20. -/
theorem C89_refund_below : ∃ w p k e r, Reachable w ∧ w.presales Ex.sale = some p ∧ Completed p w.clock ∧
    w.escrows.get? k = some e ∧ e.presale = Ex.sale ∧ p.registries[e.registryIndex]? = some r ∧
    p.presaleMode = 1 ∧ (refundDeposit p r e : ℚ) + 19 / 10 < exactRefund p e := by
  have h : Ex.seen (run Ex.genesis Ex.surplusOps) (Ex.escrowOf Ex.alice) (fun p r e =>
      decide (Completed p (run Ex.genesis Ex.surplusOps).clock ∧
        p.presaleMode = 1 ∧ (refundDeposit p r e : ℚ) + 19 / 10 < exactRefund p e)) = true := by
    decide +kernel
  obtain ⟨p, e, r, hp, he, ha, hr, hf⟩ := Ex.seen_iff h
  obtain ⟨hc, h1, h2⟩ := of_decide_eq_true hf
  exact ⟨_, p, _, e, r, ⟨Ex.genesis, _, Ex.genesis_ok, rfl⟩, hp, hc, he, ha, hr, h1, h2⟩

/-- **C89**, sharp: the refund of a fee can lie 1.7 units below its exact part. -/
theorem C89_fee_below : ∃ w p k e r, Reachable w ∧ w.presales Ex.sale = some p ∧ Completed p w.clock ∧
    w.escrows.get? k = some e ∧ e.presale = Ex.sale ∧ p.registries[e.registryIndex]? = some r ∧
    p.presaleMode = 1 ∧
    (refundFee p r e : ℚ) + 17 / 10 < (e.totalDepositFee : ℚ) * (registrySurplus p r / r.totalDeposit) := by
  have h : Ex.seen (run Ex.genesis Ex.feeOps) (Ex.escrowOf Ex.alice) (fun p r e =>
      decide (Completed p (run Ex.genesis Ex.feeOps).clock ∧
        p.presaleMode = 1 ∧
        (refundFee p r e : ℚ) + 17 / 10 < (e.totalDepositFee : ℚ) * (registrySurplus p r / r.totalDeposit))) = true := by
    decide +kernel
  obtain ⟨p, e, r, hp, he, ha, hr, hf⟩ := Ex.seen_iff h
  obtain ⟨hc, h1, h2⟩ := of_decide_eq_true hf
  exact ⟨_, p, _, e, r, ⟨Ex.genesis, _, Ex.genesis_ok, rfl⟩, hp, hc, he, ha, hr, h1, h2⟩

/-- **C89**, sharp: with several registries an escrow can pay one quote unit and the price of two base units more
than it gets, and a registry can take the price of one base unit more than its supply is worth. Neither bound of C09
can lose a base unit, and the second cannot lose its quote unit. -/
theorem C89_price_sharp : ∃ w p k e r, Reachable w ∧ w.presales Ex.sale = some p ∧ Completed p w.clock ∧
    w.escrows.get? k = some e ∧ e.presale = Ex.sale ∧ p.registries[e.registryIndex]? = some r ∧
    p.presaleMode = 0 ∧
    (entitlement p r e + 2) * p.raw0 + 2 ^ 64 ≤ e.totalDeposit * 2 ^ 64 ∧
    (r.presaleSupply + 1) * p.raw0 ≤ r.totalDeposit * 2 ^ 64 ∧
    r.presaleSupply * p.raw0 + 2 ^ 64 ≤ r.totalDeposit * 2 ^ 64 := by
  have h : Ex.seen (run Ex.genesis Ex.piecesOps) (Ex.escrowOf Ex.alice) (fun p r e =>
      decide (Completed p (run Ex.genesis Ex.piecesOps).clock ∧
        p.presaleMode = 0 ∧
        (entitlement p r e + 2) * p.raw0 + 2 ^ 64 ≤ e.totalDeposit * 2 ^ 64 ∧
        (r.presaleSupply + 1) * p.raw0 ≤ r.totalDeposit * 2 ^ 64 ∧
        r.presaleSupply * p.raw0 + 2 ^ 64 ≤ r.totalDeposit * 2 ^ 64)) = true := by
    decide +kernel
  obtain ⟨p, e, r, hp, he, ha, hr, hf⟩ := Ex.seen_iff h
  obtain ⟨hc, h1, h2, h3, h4⟩ := of_decide_eq_true hf
  exact ⟨_, p, _, e, r, ⟨Ex.genesis, _, Ex.genesis_ok, rfl⟩, hp, hc, he, ha, hr, h1, h2, h3, h4⟩

namespace Ex

/-- A fixed-price sale with one registry. -/
example : has fixedDone (fun p => decide (p.presaleMode = 0 ∧ p.totalPresaleRegistryCount = 1 ∧ 0 < totalSold p)) =
    true := by decide +kernel

end Ex

end Verif
