import Verif.SpecTerms
import Verif.Props.Books
import Verif.Props.Numbering
import Verif.Props.More
import Verif.Props.Share
/-!
# C116: better terms never make a buyer worse off

Rounding could spoil what seems obvious: that with the same deposits a larger supply, a lower price or an earlier schedule
never gives an escrow less, and that a larger maximum cap never gives the creator less nor the buyers more back. It does
not.
-/

namespace Verif
open Spec

/-- Totals of a sale compared with those of another. -/
structure SameIncome (p q : Presale) : Prop where
  total : q.totalDeposit = p.totalDeposit
  totalFee : q.totalDepositFee = p.totalDepositFee
  deposits : q.registries.map Registry.totalDeposit = p.registries.map Registry.totalDeposit
  fees : q.registries.map Registry.totalDepositFee = p.registries.map Registry.totalDepositFee

theorem income_of_ended {w v : World} {a b : Addr} {p q : Presale} (J : JustEnded w a p) (K : JustEnded v b q)
    (E : SameEntries w a v b) : SameIncome p q := by
  have hl : q.registries.length = p.registries.length :=
    (K.reachable.winv.core.sale b q K.presale).pinv.static.len.trans
      (J.reachable.winv.core.sale a p J.presale).pinv.static.len.symm
  have T := C03_totals J.reachable J.presale
  have U := C03_totals K.reachable K.presale
  have hd : q.registries.map Registry.totalDeposit = p.registries.map Registry.totalDeposit :=
    map_of_get hl fun i s r hs hr => (registry_alike J K (E i) hr hs).1
  have hf : q.registries.map Registry.totalDepositFee = p.registries.map Registry.totalDepositFee :=
    map_of_get hl fun i s r hs hr => (registry_alike J K (E i) hr hs).2
  exact ⟨by rw [T.1, U.1, hd], by rw [T.2.1, U.2.1, hf], hd, hf⟩

theorem SameIncome.later {p q p' q' : Presale} (I : SameIncome p q) (A : SameTotals p p') (B : SameTotals q q') :
    SameIncome p' q' :=
  ⟨B.total.trans (I.total.trans A.total.symm), B.totalFee.trans (I.totalFee.trans A.totalFee.symm),
    B.deposits.trans (I.deposits.trans A.deposits.symm), B.fees.trans (I.fees.trans A.fees.symm)⟩

theorem noDearer_later {p q p' q' : Presale} (D : NoDearer p q) (A : SameTotals p p') (B : SameTotals q q') :
    NoDearer p' q' := by
  refine ⟨B.mode.trans (D.mode.trans A.mode.symm), ?_, ?_⟩
  · rw [A.mode, A.price, B.price]; exact D.price
  · intro i r s hr hs
    obtain ⟨r0, hr0, e1⟩ : ∃ r0, p.registries[i]? = some r0 ∧ r.presaleSupply = r0.presaleSupply := by
      have e := congrArg (·[i]?) A.supplies
      simp only [List.getElem?_map, hr, Option.map_some] at e
      cases h : p.registries[i]? with
      | none => rw [h] at e; cases e
      | some r0 => rw [h] at e; exact ⟨r0, rfl, Option.some.inj e⟩
    obtain ⟨s0, hs0, e2⟩ : ∃ s0, q.registries[i]? = some s0 ∧ s.presaleSupply = s0.presaleSupply := by
      have e := congrArg (·[i]?) B.supplies
      simp only [List.getElem?_map, hs, Option.map_some] at e
      cases h : q.registries[i]? with
      | none => rw [h] at e; cases e
      | some s0 => rw [h] at e; exact ⟨s0, rfl, Option.some.inj e⟩
    rw [e1, e2]
    exact D.supplies i r0 s0 hr0 hs0

theorem widerCap_later {p q p' q' : Presale} (D : WiderCap p q) (A : SameTotals p p') (B : SameTotals q q') :
    WiderCap p' q' :=
  ⟨B.mode.trans (D.mode.trans A.mode.symm), B.minimum.trans (D.minimum.trans A.minimum.symm), by
    rw [A.maximum, B.maximum]; exact D.maximum⟩

theorem sold_better {p q : Presale} (D : NoDearer p q)
    (hq : q.presaleMode ≠ 1 → q.presaleMode ≠ 2 → 0 < q.raw0) {r s : Registry} (hd : s.totalDeposit = r.totalDeposit)
    (hs : r.presaleSupply ≤ s.presaleSupply) : sold p r ≤ sold q s := by
  unfold sold
  rw [D.mode, hd]
  by_cases h : p.presaleMode = 1 ∨ p.presaleMode = 2
  · rw [if_pos h, if_pos h]
    split
    · exact Nat.le_refl _
    · exact hs
  · rw [if_neg h, if_neg h]
    have h1 : p.presaleMode ≠ 1 := fun x => h (.inl x)
    have h2 : p.presaleMode ≠ 2 := fun x => h (.inr x)
    have h3 := hq (by rw [D.mode]; exact h1) (by rw [D.mode]; exact h2)
    have h4 : tokensAtPrice p.raw0 r.totalDeposit ≤ tokensAtPrice q.raw0 r.totalDeposit :=
      Nat.div_le_div_left (D.price h1 h2) h3
    omega

theorem dripped_sooner {v s s' d d' t : Nat} (hs : s' ≤ s) (hd : d' ≤ d) : dripped v s d t ≤ dripped v s' d' t := by
  by_cases h1 : t < s
  · unfold dripped; rw [if_pos h1]; exact Nat.zero_le _
  by_cases h2 : s' + d' ≤ t
  · rw [dripped_end h2]; exact dripped_le _ _ _ _
  have h3 : d' ≠ 0 := by omega
  have h4 : d ≠ 0 := by omega
  unfold dripped
  rw [if_neg h1, if_neg h4, if_neg (by omega : ¬ t < s'), if_neg h3, Nat.min_eq_left (by omega : t - s ≤ d),
    Nat.min_eq_left (by omega : t - s' ≤ d')]
  calc v * (t - s) / d ≤ v * (t - s') / d := Nat.div_le_div_right (Nat.mul_le_mul_left _ (by omega))
    _ ≤ v * (t - s') / d' := Nat.div_le_div_left hd (by omega)

theorem claimable_better {bps imm imm' sold sold' s s' d d' t x total : Nat} (hb : bps ≤ 10000) (hi : imm' ≤ imm)
    (h : sold ≤ sold') (hs : s' ≤ s) (hd : d' ≤ d) :
    claimable bps imm sold s d t x total ≤ claimable bps imm' sold' s' d' t x total := by
  unfold claimable
  by_cases h0 : x = 0 ∨ total = 0
  · rw [if_pos h0, if_pos h0]
  · rw [if_neg h0, if_neg h0]
    refine Nat.add_le_add ?_ (Nat.div_le_div_right (Nat.mul_le_mul_right _
      (Nat.le_trans (dripped_mono_vested (vestedPart_mono h hb)) (dripped_sooner hs hd))))
    by_cases h1 : imm ≤ t
    · rw [if_pos h1, if_pos (by omega)]
      exact Nat.div_le_div_right (Nat.mul_le_mul_right _ (immediatePart_mono h))
    · rw [if_neg h1]; exact Nat.zero_le _

theorem entitlement_le_share {p : Presale} {r : Registry} {e : Escrow} (hT : 0 < r.totalDeposit)
    (hb : p.immediateReleaseBps ≤ 10000) : entitlement p r e ≤ sold p r * e.totalDeposit / r.totalDeposit := by
  have hI := immediatePart_le (s := sold p r) hb
  unfold entitlement
  split
  · exact Nat.zero_le _
  · generalize immediatePart (sold p r) p.immediateReleaseBps = i at *
    obtain ⟨v, hv⟩ : ∃ v, sold p r = i + v := ⟨_, (Nat.add_sub_cancel' hI).symm⟩
    rw [hv, Nat.add_sub_cancel_left, Nat.add_mul]
    rw [Nat.le_div_iff_mul_le hT, Nat.add_mul]
    exact Nat.add_le_add (Nat.div_mul_le_self _ _) (Nat.div_mul_le_self _ _)

theorem sum_of_get {f g : Registry → Nat} {l m : List Registry} (hl : l.length = m.length)
    (h : ∀ (i : Nat) x y, l[i]? = some x → m[i]? = some y → f x ≤ g y) : (l.map f).sum ≤ (m.map g).sum := by
  induction l generalizing m with
  | nil => exact Nat.zero_le _
  | cons x l ih =>
    cases m with
    | nil => cases hl
    | cons y m =>
      simp only [List.map_cons, List.sum_cons]
      exact Nat.add_le_add (h 0 x y rfl rfl) (ih (Nat.succ.inj hl) fun i a b ha hb => h (i + 1) a b ha hb)

/-- **C116.** Better terms never make a buyer worse off. Take two sales in the same mode that end with the same deposits
and fees in each registry. If the second asks no higher price and has no smaller supply in any registry, then whatever
happens afterwards it sells no fewer tokens. If also the same part is released at once, an escrow of the second is
entitled to no fewer tokens than an escrow with the same deposit in the same registry of the first, and may have claimed
no fewer at any moment if no date of its schedule is later. Whatever part is released at once, it is entitled to at most
one token less. -/
theorem C116_terms {w v : World} {a b : Addr} {p q : Presale} (J : JustEnded w a p) (K : JustEnded v b q)
    (D : NoDearer p q) (E : SameEntries w a v b) (ops more : List Op) :
    ∃ p' q', (run w ops).presales a = some p' ∧ (run v more).presales b = some q' ∧ totalSold p' ≤ totalSold q' ∧
      ∀ k l e f, (run w ops).escrows.get? k = some e → (run v more).escrows.get? l = some f → e.presale = a →
        f.presale = b → f.registryIndex = e.registryIndex → f.totalDeposit = e.totalDeposit →
        ∃ r s, p'.registries[e.registryIndex]? = some r ∧ q'.registries[e.registryIndex]? = some s ∧
          entitlement p' r e ≤ entitlement q' s f + 1 ∧
          (q.immediateReleaseBps = p.immediateReleaseBps → entitlement p' r e ≤ entitlement q' s f ∧
            (NoLater p' q' → ∀ t, claimableAt p' r e t ≤ claimableAt q' s f t)) := by
  obtain ⟨p', hp', -⟩ := run_later J.reachable.winv ops J.presale
  obtain ⟨q', hq', -⟩ := run_later K.reachable.winv more K.presale
  have A := alike_later J hp'
  have B := alike_later K hq'
  have I := (income_of_ended J K E).later A B
  have D' := noDearer_later D A B
  have P := ((J.reachable.run ops).winv.core.sale a p' hp').pinv
  have Q := ((K.reachable.run more).winv.core.sale b q' hq').pinv
  have key : ∀ (i : Nat) (r s : Registry), p'.registries[i]? = some r → q'.registries[i]? = some s →
      sold p' r ≤ sold q' s := fun i r s hr hs =>
    sold_better D' (fun h1 h2 => (Q.static.price h1 h2).1) (map_get I.deposits hs hr) (D'.supplies i r s hr hs)
  refine ⟨p', q', hp', hq', sum_of_get (P.static.len.trans Q.static.len.symm) key, ?_⟩
  intro k l e f hk hl ha hb hi hd
  obtain ⟨r, hr, -⟩ := P.escBook hk ha
  obtain ⟨s, hs, -⟩ := Q.escBook hl hb
  rw [hi] at hs
  refine ⟨r, s, hr, hs, ?_, fun hR => ?_⟩
  · by_cases h0 : e.totalDeposit = 0 ∨ r.totalDeposit = 0
    · unfold entitlement
      rw [if_pos h0]
      exact Nat.zero_le _
    · have h1 := entitlement_le_share (p := p') (r := r) (e := e) (by omega) P.static.bps
      have h2 := entitlement_almost (p := q') (r := s) (e := f) (by omega)
        (by rw [map_get I.deposits hs hr]; omega) Q.static.bps
      rw [hd, map_get I.deposits hs hr] at h2
      exact Nat.le_trans h1 (Nat.le_trans
        (Nat.div_le_div_right (Nat.mul_le_mul_right _ (key _ r s hr hs))) h2)
  have R' : q'.immediateReleaseBps = p'.immediateReleaseBps := B.release.trans (hR.trans A.release.symm)
  constructor
  · unfold entitlement
    rw [hd, map_get I.deposits hs hr, R']
    split
    · exact Nat.le_refl _
    · exact Nat.add_le_add
        (Nat.div_le_div_right (Nat.mul_le_mul_right _ (immediatePart_mono (key _ r s hr hs))))
        (Nat.div_le_div_right (Nat.mul_le_mul_right _ (vestedPart_mono (key _ r s hr hs) P.static.bps)))
  · intro N t
    unfold claimableAt
    rw [hd, map_get I.deposits hs hr, R']
    exact claimable_better P.static.bps N.immediate (key _ r s hr hs) N.start N.duration

/-- **C116.** A wider cap moves money from refunds to the creator, never the other way. Take two sales in the same mode
with the same minimum cap that end with the same deposits and fees in each registry. If the maximum cap of the second is
no smaller, then whatever happens afterwards both have succeeded or both have failed, the raise and the collectable fees
of the second are no smaller, the raise is larger by no more than the cap, and an escrow of the second is refunded no
more than an escrow with the same deposit and fee in the same registry of the first. -/
theorem C116_cap {w v : World} {a b : Addr} {p q : Presale} (J : JustEnded w a p) (K : JustEnded v b q)
    (D : WiderCap p q) (E : SameEntries w a v b) (ops more : List Op) :
    ∃ p' q', (run w ops).presales a = some p' ∧ (run v more).presales b = some q' ∧
      (Completed p' (run w ops).clock ↔ Completed q' (run v more).clock) ∧
      (Failed p' (run w ops).clock ↔ Failed q' (run v more).clock) ∧
      raise p' ≤ raise q' ∧ raise q' + p.presaleMaximumCap ≤ raise p' + q.presaleMaximumCap ∧
      collectableFee p' ≤ collectableFee q' ∧
      ∀ k l e f, (run w ops).escrows.get? k = some e → (run v more).escrows.get? l = some f → e.presale = a →
        f.presale = b → f.registryIndex = e.registryIndex → f.totalDeposit = e.totalDeposit →
        f.totalDepositFee = e.totalDepositFee →
        ∃ r s, p'.registries[e.registryIndex]? = some r ∧ q'.registries[e.registryIndex]? = some s ∧
          owedRefund q' s f ≤ owedRefund p' r e := by
  obtain ⟨p', hp', L⟩ := run_later J.reachable.winv ops J.presale
  obtain ⟨q', hq', M⟩ := run_later K.reachable.winv more K.presale
  have A := alike_later J hp'
  have B := alike_later K hq'
  have I := (income_of_ended J K E).later A B
  have D' := widerCap_later D A B
  have P := ((J.reachable.run ops).winv.core.sale a p' hp').pinv
  have Q := ((K.reachable.run more).winv.core.sale b q' hq').pinv
  have o1 := L.over J.over
  have o2 := M.over K.over
  have hm := D'.maximum
  have ht := I.total
  have su : ∀ (i : Nat) (r s : Registry), p'.registries[i]? = some r → q'.registries[i]? = some s →
      registrySurplus q' s ≤ registrySurplus p' r := by
    intro i r s hr hs
    unfold registrySurplus surplus
    rw [ht, map_get I.deposits hs hr]
    exact Nat.div_le_div_right (Nat.mul_le_mul_right _ (by omega))
  have fe : ∀ (i : Nat) (r s : Registry), p'.registries[i]? = some r → q'.registries[i]? = some s →
      registryFeeRefund q' s ≤ registryFeeRefund p' r := by
    intro i r s hr hs
    unfold registryFeeRefund
    rw [map_get I.deposits hs hr, map_get I.fees hs hr]
    exact Nat.div_le_div_right (Nat.mul_le_mul_left _ (su i r s hr hs))
  refine ⟨p', q', hp', hq', ?_, ?_, ?_, ?_, ?_, ?_⟩
  · unfold Completed
    rw [ht, D'.minimum]
    exact ⟨fun h => ⟨o2, h.2⟩, fun h => ⟨o1, h.2⟩⟩
  · unfold Failed
    rw [ht, D'.minimum]
    exact ⟨fun h => ⟨o2, h.2⟩, fun h => ⟨o1, h.2⟩⟩
  · unfold raise; omega
  · have h1 := A.maximum
    have h2 := B.maximum
    unfold raise; omega
  · unfold collectableFee
    rw [D'.mode, I.totalFee]
    split
    · refine sum_of_get (P.static.len.trans Q.static.len.symm) fun i r s hr hs => ?_
      have h1 := fe i r s hr hs
      have h2 := map_get I.fees hs hr
      omega
    · exact Nat.le_refl _
  · intro k l e f hk hl ha hb hi hd hf
    obtain ⟨r, hr, -⟩ := P.escBook hk ha
    obtain ⟨s, hs, -⟩ := Q.escBook hl hb
    rw [hi] at hs
    refine ⟨r, s, hr, hs, ?_⟩
    unfold owedRefund refundDeposit refundFee
    rw [ht, D'.minimum, D'.mode, hd, hf, map_get I.deposits hs hr, map_get I.fees hs hr]
    split
    · exact Nat.le_refl _
    · split
      · exact Nat.add_le_add (Nat.div_le_div_right (Nat.mul_le_mul_left _ (su _ r s hr hs)))
          (Nat.div_le_div_right (Nat.mul_le_mul_left _ (fe _ r s hr hs)))
      · exact Nat.le_refl _

namespace Ex

/-- As `freeRegs`, with a larger supply. -/
def richRegs : List RegistryArgs :=
  [{ buyerMinimumDepositCap := 1, buyerMaximumDepositCap := 1000, presaleSupply := 17777, depositFeeBps := 0 }]

/-- As `init`, with a maximum cap of 1200. -/
def initWide (mode : Nat) (regs : List RegistryArgs) : Op :=
  .ix (tx [creator, baseKey]) (.initPresale
    { initArgs mode 0 0 regs with
      args := { (initArgs mode 0 0 regs).args with
        presaleParams := { params mode 0 0 with presaleMaximumCap := 1200 } } })

/-- Alice deposits 500 and Bob 900 as in `straight`, with a larger supply and a wider cap. -/
def generous : List Op :=
  [initWide 1 richRegs, .tick 10, open' alice, open' bob, deposit alice aliceQuote 500, deposit bob bobQuote 900]

/-- Both theorems apply to `straight` and `generous`: supply 10000 and 17777, raise 1000 and 1200. -/
example : ∃ p q, JustEnded (run genesis (straight ++ [.tick 1000])) sale p ∧
    JustEnded (run genesis (generous ++ [.tick 1000])) sale q ∧ NoDearer p q ∧
    q.immediateReleaseBps = p.immediateReleaseBps ∧ NoLater p q ∧ WiderCap p q ∧
    SameEntries (run genesis (straight ++ [.tick 1000])) sale (run genesis (generous ++ [.tick 1000])) sale ∧
    totalSold p = 10000 ∧ totalSold q = 17777 ∧ raise p = 1000 ∧ raise q = 1200 := by
  obtain ⟨p, hp, J⟩ := booksEnded straight (by decide +kernel)
  obtain ⟨q, hq, K⟩ := booksEnded generous (by decide +kernel)
  have h : (match (run genesis straight).presales sale, (run genesis generous).presales sale with
      | some p, some q => decide ((q.presaleMode = p.presaleMode ∧ q.raw0 ≤ p.raw0 ∧
          q.presaleMinimumCap = p.presaleMinimumCap ∧ p.presaleMaximumCap ≤ q.presaleMaximumCap ∧
          q.immediateReleaseBps = p.immediateReleaseBps ∧
          p.registries.map Registry.presaleSupply = [10000, 0, 0, 0, 0] ∧
          q.registries.map Registry.presaleSupply = [17777, 0, 0, 0, 0]) ∧
          (q.immediateReleaseTimestamp ≤ p.immediateReleaseTimestamp ∧ q.vestingStartTime ≤ p.vestingStartTime ∧
          q.vestDuration ≤ p.vestDuration) ∧
          totalSold p = 10000 ∧ totalSold q = 17777 ∧ raise p = 1000 ∧ raise q = 1200)
      | _, _ => false) = true := by decide +kernel
  rw [hp, hq] at h
  obtain ⟨⟨h1, h2, h3, h4, h5, h6, h7⟩, ⟨g1, g2, g3⟩, hr⟩ := of_decide_eq_true h
  have s1 : standing (run genesis (straight ++ [.tick 1000])) = [(sale, 0, 500, 0), (sale, 0, 900, 0)] := by
    decide +kernel
  have s2 : standing (run genesis (generous ++ [.tick 1000])) = [(sale, 0, 500, 0), (sale, 0, 900, 0)] := by
    decide +kernel
  refine ⟨p, q, J, K, ⟨h1, fun _ _ => h2, fun i r s hr hs => ?_⟩, h5, ⟨g1, g2, g3⟩, ⟨h1, h3, h4⟩, fun i => ?_, hr⟩
  · have e1 := congrArg (·[i]?) h6
    have e2 := congrArg (·[i]?) h7
    simp only [List.getElem?_map, hr, hs, Option.map_some] at e1 e2
    match i with
    | 0 => simp at e1 e2; omega
    | 1 | 2 | 3 | 4 => simp at e1 e2; omega
    | n + 5 => simp at e1
  · rw [entries_standing, entries_standing, s1, s2]

/-- As `init`, with nothing released at once. -/
def initLocked (mode : Nat) (regs : List RegistryArgs) : Op :=
  .ix (tx [creator, baseKey]) (.initPresale
    { initArgs mode 0 0 regs with
      args := { (initArgs mode 0 0 regs).args with
        lockedVestingParams := { vesting with immediatelyReleaseBps := 0, immediateReleaseTimestamp := 1600 } } })

/-- As `straight`, with nothing released at once. -/
def lockedAll : List Op :=
  [initLocked 1 freeRegs, .tick 10, open' alice, open' bob, deposit alice aliceQuote 500, deposit bob bobQuote 900]

/-- What Bob is entitled to. -/
def bobDue (w : World) : Option Nat := do
  let p ← w.presales sale
  let e ← w.escrows.get? (escrowOf bob)
  let r ← p.registries[0]?
  return entitlement p r e

end Ex

open Ex in
/-- **C116.** The one token is real: releasing a fifth at once instead of nothing costs Bob a token. -/
theorem C116_split : bobDue (run genesis (straight ++ [.tick 1000])) = some 6427 ∧
    bobDue (run genesis (lockedAll ++ [.tick 1000])) = some 6428 := by decide +kernel

end Verif
