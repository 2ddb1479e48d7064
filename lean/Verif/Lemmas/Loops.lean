import Verif.Lemmas.Init
/-!
# Closed forms of the loops over registries
-/

namespace Verif
open Spec

/-- Registries in use come first, the others are blank. -/
def Packed : List Registry → Prop
  | [] => True
  | r :: rs => (r.isUninitialized = false ∧ Packed rs) ∨ ∀ x ∈ r :: rs, x = Registry.fresh

theorem packed_of {l : List Registry} {n : Nat}
    (h1 : ∀ i r, l[i]? = some r → i < n → r.isUninitialized = false)
    (h2 : ∀ i r, l[i]? = some r → n ≤ i → r = Registry.fresh) : Packed l := by
  induction l generalizing n with
  | nil => trivial
  | cons r rs ih =>
    cases n with
    | zero =>
      refine Or.inr ?_
      intro x hx
      obtain ⟨i, hi⟩ := List.getElem?_of_mem hx
      exact h2 i x hi (Nat.zero_le _)
    | succ n =>
      refine Or.inl ⟨h1 0 r rfl (Nat.succ_pos _), ih (n := n) ?_ ?_⟩
      · intro i x hi hn; exact h1 (i + 1) x (by simpa using hi) (by omega)
      · intro i x hi hn; exact h2 (i + 1) x (by simpa using hi) (by omega)

theorem lsum_all_fresh {g : Registry → Nat} {l : List Registry} (h : ∀ x ∈ l, x = Registry.fresh)
    (hg : g Registry.fresh = 0) : lsum g l = 0 := by
  apply lsum_zero
  intro i r hr
  rw [h r (List.mem_of_getElem? hr), hg]

theorem PInv.packed {t : Nat} {a : Addr} {p : Presale} {es : AMap Addr Escrow} (P : PInv t a p es) :
    Packed p.registries := by
  apply packed_of (n := p.totalPresaleRegistryCount)
  · intro i r hr hi
    have := (P.static.reg i r hr hi).1
    have h0 : (r.presaleSupply == 0) = false := by
      rw [beq_eq_false_iff_ne]; omega
    unfold Registry.isUninitialized
    rw [h0]; rfl
  · intro i r hr hi
    exact (P.book.reg i r hr).unused hi

theorem dynamicSoldLoop_eq {l : List Registry} (hl : Packed l) {acc : Nat}
    (hb : acc + lsum Registry.presaleSupply l < u64Bound) :
    dynamicSoldLoop l acc = .ok (acc + lsum (fun r => if r.totalDeposit = 0 then 0 else r.presaleSupply) l) := by
  induction l generalizing acc with
  | nil => simp [dynamicSoldLoop, lsum]
  | cons r rs ih =>
    rw [lsum_cons] at hb
    unfold dynamicSoldLoop
    rcases hl with ⟨h1, h2⟩ | h
    · rw [if_neg (by rw [h1]; simp), lsum_cons]
      by_cases hd : r.totalDeposit = 0
      · rw [if_pos hd, ih h2 (by omega), if_pos hd, Nat.zero_add]
      · rw [if_neg hd, add64_ok (by omega), ok_bind, ih h2 (by omega), if_neg hd, Nat.add_assoc]
    · have hr := h r (by simp)
      rw [if_pos (by rw [hr]; rfl), lsum_all_fresh h (by rfl), Nat.add_zero]

theorem fixedSoldLoop_eq {q : Nat} {l : List Registry} (hq : q ≠ 0) (hl : Packed l)
    (hd : ∀ r ∈ l, r.totalDeposit < u64Bound) {acc : Nat}
    (hb : acc + lsum Registry.presaleSupply l < u64Bound) :
    fixedSoldLoop q l acc = .ok (acc + lsum (fun r => min (tokensAtPrice q r.totalDeposit) r.presaleSupply) l) := by
  induction l generalizing acc with
  | nil => simp [fixedSoldLoop, lsum]
  | cons r rs ih =>
    rw [lsum_cons] at hb
    unfold fixedSoldLoop
    rcases hl with ⟨h1, h2⟩ | h
    · have hrs : ∀ r ∈ rs, r.totalDeposit < u64Bound := fun x hx => hd x (by simp [hx])
      rw [if_neg (by rw [h1]; simp), lsum_cons]
      by_cases h0 : r.totalDeposit = 0
      · rw [if_pos h0, ih h2 hrs (by omega)]
        have : tokensAtPrice q r.totalDeposit = 0 := by rw [h0, tokensAtPrice_def]; simp
        rw [this, Nat.zero_min, Nat.zero_add]
      · have hm : min (tokensAtPrice q r.totalDeposit) r.presaleSupply ≤ r.presaleSupply := Nat.min_le_right _ _
        have hu : u64Bound ≤ u128Bound := by rw [u64Bound_eq, u128Bound_eq]; norm_num
        rw [if_neg h0, tokenBought_eq (hd r (by simp)) hq, ok_bind, add128_ok (by omega), ok_bind,
          ih h2 hrs (by omega), Nat.add_assoc]
    · have hr := h r (by simp)
      rw [if_pos (by rw [hr]; rfl), lsum_all_fresh h ?_, Nat.add_zero]
      exact Nat.min_eq_right (Nat.zero_le _)

/-- In a reachable sale the program's count of sold tokens is the specified one. -/
theorem PInv.totalSold {t : Nat} {a : Addr} {p : Presale} {es : AMap Addr Escrow} {h : Handler}
    (P : PInv t a p es) (hh : getPresaleModeHandler p = .ok h) :
    h.totalBaseTokenSold p = .ok (totalSold p) := by
  have hs := P.static.supply
  have hlt := P.static.supplyLt
  rw [hs] at hlt
  have hb : 0 + lsum Registry.presaleSupply p.registries < u64Bound := by omega
  have hd : ∀ r ∈ p.registries, r.totalDeposit < u64Bound := by
    intro r hr
    obtain ⟨i, hi⟩ := List.getElem?_of_mem hr
    exact (P.book.reg_le hi).2.2.1
  rw [totalSold_eq]
  rcases handler_cases hh with ⟨hm, rfl⟩ | ⟨hm, rfl⟩ | ⟨h1, h2, rfl⟩
  · show dynamicSoldLoop p.registries 0 = _
    rw [dynamicSoldLoop_eq P.packed hb, Nat.zero_add]
    congr 1
    apply lsum_congr
    intro i r hr
    unfold sold
    rw [if_pos (Or.inl hm)]
  · show dynamicSoldLoop p.registries 0 = _
    rw [dynamicSoldLoop_eq P.packed hb, Nat.zero_add]
    congr 1
    apply lsum_congr
    intro i r hr
    unfold sold
    rw [if_pos (Or.inr hm)]
  · have hq := (P.static.price h1 h2).1
    simp only [Handler.totalBaseTokenSold]
    rw [fixedSoldLoop_eq (by omega) P.packed hd hb, Nat.zero_add, ok_bind]
    have he : lsum (fun r => min (tokensAtPrice p.raw0 r.totalDeposit) r.presaleSupply) p.registries =
        lsum (sold p) p.registries := by
      apply lsum_congr
      intro i r hr
      unfold sold
      rw [if_neg (by omega)]
    rw [he]
    have := totalSold_le P.static
    rw [totalSold_eq] at this
    rw [cast64_ok (by omega)]

theorem PInv.unsold {t : Nat} {a : Addr} {p : Presale} {es : AMap Addr Escrow} {h : Handler}
    (P : PInv t a p es) (hh : getPresaleModeHandler p = .ok h) :
    p.getTotalUnsoldToken h = .ok (p.presaleSupply - Spec.totalSold p) := by
  unfold Presale.getTotalUnsoldToken
  rw [P.totalSold hh, ok_bind, sub_ok (totalSold_le P.static)]

theorem collectedFeeLoop_eq {t : Nat} {a : Addr} {p : Presale} {es : AMap Addr Escrow} (B : Book t a p es)
    {l : List Registry} (hl : Packed l) (hsub : ∀ r ∈ l, r ∈ p.registries) {acc : Nat}
    (hb : acc + lsum Registry.totalDepositFee l < u64Bound) :
    Presale.collectedFeeLoop p.getRemainingQuote p.totalDeposit l acc =
      .ok (acc + lsum (fun r => r.totalDepositFee - registryFeeRefund p r) l) := by
  induction l generalizing acc with
  | nil => simp [Presale.collectedFeeLoop, lsum]
  | cons r rs ih =>
    rw [lsum_cons] at hb
    unfold Presale.collectedFeeLoop
    rcases hl with ⟨h1, h2⟩ | h
    · obtain ⟨i, hi⟩ := List.getElem?_of_mem (hsub r (by simp))
      rw [if_neg (by rw [h1]; simp), lsum_cons, finalizedQuote_eq B hi, ok_bind]
      have := registryFeeRefund_le (p := p) (r := r)
      simp only []
      rw [sub_ok this, ok_bind, add64_ok (by omega), ok_bind,
        ih h2 (fun x hx => hsub x (by simp [hx])) (by omega), Nat.add_assoc]
    · have hr := h r (by simp)
      rw [if_pos (by rw [hr]; rfl), lsum_all_fresh h ?_, Nat.add_zero]
      exact Nat.zero_sub _

/-- In a reachable sale the fee computed for the creator is the specified one. -/
theorem PInv.collectedFee {t : Nat} {a : Addr} {p : Presale} {es : AMap Addr Escrow} (P : PInv t a p es) :
    p.getTotalCollectedFee = .ok (collectableFee p) := by
  obtain ⟨h, hh⟩ := P.static.handler
  obtain ⟨m, hm⟩ := P.static.mode
  have hc := castMode_of_handler hh
  unfold Presale.getTotalCollectedFee collectableFee
  have hb : 0 + lsum Registry.totalDepositFee p.registries < u64Bound := by
    have := P.book.totFee
    have := P.book.bound
    omega
  rcases handler_cases hh with ⟨h1, rfl⟩ | ⟨h1, rfl⟩ | ⟨h1, h2, rfl⟩
  · rw [if_pos h1] at hc
    rw [if_pos h1, hc, ok_bind]
    simp only []
    rw [collectedFeeLoop_eq P.book P.packed (fun _ h => h) hb, Nat.zero_add]; rfl
  · rw [if_neg (by omega), if_pos h1] at hc
    rw [if_neg (by omega), hc, ok_bind]; rfl
  · rw [if_neg h1, if_neg h2] at hc
    rw [if_neg h1, hc, ok_bind]; rfl

end Verif
