import Verif.Props.Audits
import Verif.Props.Creation
import Verif.Props.Creator
import Verif.Props.Claims
import Verif.Props.Refunds
import Verif.Props.Ledger
/-!
# C87: what the README and the changelog say
-/

namespace Verif
open Spec

/-! ## The end of a sale -/

/-- Whether a sale whose end was set to `asked` has been ended early. -/
def Spec.EndsAsAnnounced (asked : Nat) (p : Presale) (now : Int) : Prop :=
  (¬ (EarlyEndAllowed p ∧ p.presaleMaximumCap ≤ p.totalDeposit) ∧ p.presaleEndTime = asked) ∨
  (EarlyEndAllowed p ∧ p.presaleMaximumCap ≤ p.totalDeposit ∧ p.presaleEndTime < asked ∧ Over p now)

theorem early_of_terms {p p' : Presale} (h : terms p' = terms p) : EarlyEndAllowed p' ↔ EarlyEndAllowed p := by
  have e1 : p'.presaleMode = p.presaleMode := (congrArg Presale.presaleMode h :)
  have e2 : p'.raw0 = p.raw0 := (congrArg Presale.raw0 h :)
  have e3 : p'.raw1 = p.raw1 := (congrArg Presale.raw1 h :)
  unfold EarlyEndAllowed
  rw [e1, e2, e3]

/-- Only deposits into a presale raise its total. -/
theorem total_rises {w w' : World} (R : Reachable w) {op : Op} {rc : Receipt} (hs : step w op = .ok (w', rc))
    {a : Addr} {p p' : Presale} (hp : w.presales a = some p) (hp' : w'.presales a = some p') :
    p'.totalDeposit ≤ p.totalDeposit ∨ ∃ tx x, op = .ix tx (.deposit x) ∧ x.presale = a := by
  have E := step_effect R.winv hs
  cases E with
  | quiet h => rw [h, hp] at hp'; cases hp'; exact .inl le_rfl
  | @create tx x q h1 h2 h3 h4 h5 h6 =>
    have hne : a ≠ x.presaleKey := by rintro rfl; rw [hp] at h2; cases h2
    rw [h4, upd_other _ _ hne, hp] at hp'; cases hp'; exact .inl le_rfl
  | @act tx i b q q' es' h1 h2 h3 h4 h5 h6 =>
    by_cases hb : a = b
    · subst hb
      rw [hp] at h2; cases h2
      rw [h4, upd_self] at hp'; cases hp'
      cases h3 with
      | deposit here => exact .inr ⟨_, _, h1, here⟩
      | withdraw _ _ _ _ _ facts =>
        left
        rw [facts.presale]
        exact Nat.sub_le _ _
      | opened => exact .inl le_rfl
      | refreshed => exact .inl le_rfl
      | claimed => exact .inl le_rfl
      | refunded => exact .inl le_rfl
      | closed => exact .inl le_rfl
      | creatorWithdrew => exact .inl le_rfl
      | collected => exact .inl le_rfl
      | unsold => exact .inl le_rfl
    · rw [h4, upd_other _ _ hb, hp] at hp'; cases hp'; exact .inl le_rfl

theorem Spec.EndsAsAnnounced.step {w w' : World} (R : Reachable w) {op : Op} {rc : Receipt}
    (hs : Verif.step w op = .ok (w', rc)) {a : Addr} {p p' : Presale} (hp : w.presales a = some p)
    (hp' : w'.presales a = some p') {asked : Nat} (h : EndsAsAnnounced asked p w.clock) :
    EndsAsAnnounced asked p' w'.clock := by
  obtain ⟨q, hq, L⟩ := (step_effect R.winv hs).later R.winv hp
  rw [hp'] at hq; cases hq
  have hcap : p'.presaleMaximumCap = p.presaleMaximumCap := (congrArg Presale.presaleMaximumCap L.terms :)
  have hearly := early_of_terms L.terms
  rcases h with ⟨h1, h2⟩ | ⟨h1, h2, h3, h4⟩
  · by_cases hd : ∃ tx x, op = .ix tx (.deposit x) ∧ x.presale = a
    · obtain ⟨tx, x, rfl, rfl⟩ := hd
      obtain ⟨q, q', g1, g2, g3, g⟩ := C18_early_finish R hs
      rw [hp] at g1; cases g1
      rw [hp'] at g2; cases g2
      rcases g with ⟨k1, k2, k3, k4, k5, -⟩ | ⟨k1, k2, -⟩
      · exact .inr ⟨hearly.2 k1, by omega, by omega, k5.1⟩
      · exact .inl ⟨by rw [hearly, hcap]; exact k1, by omega⟩
    · have hle := (total_rises R hs hp hp').resolve_right hd
      have hdate := (C18_only_deposits R hs hp hp').resolve_right hd
      refine .inl ⟨?_, by omega⟩
      rintro ⟨k1, k2⟩
      exact h1 ⟨hearly.1 k1, by omega⟩
  · have hb := L.frozen h4
    have ht : p'.totalDeposit = p.totalDeposit := (congrArg Presale.totalDeposit hb :)
    have := L.shifted.earlier
    exact .inr ⟨hearly.2 h1, by omega, by omega, L.over h4⟩

/-- **C87.** A sale ends when its creator asked it to, except that a sale that may end early and has reached its
maximum has ended before that. This holds in every state after the creation, whatever happens. -/
theorem C87_end {w w1 : World} (R : Reachable w) {tx : Tx} {x : InitPresaleAcc} {rc : Receipt}
    (hs : step w (.ix tx (.initPresale x)) = .ok (w1, rc)) (ops : List Op) :
    ∃ p, (run w1 ops).presales x.presaleKey = some p ∧
      EndsAsAnnounced x.args.presaleParams.presaleEndTime p (run w1 ops).clock := by
  obtain ⟨p, hp, -, -, -, -, -, -, -, -, hmax, -, -, hend, -⟩ := C53_created_as_asked R hs
  have h0 : EndsAsAnnounced x.args.presaleParams.presaleEndTime p w1.clock := by
    refine .inl ⟨?_, hend⟩
    rintro ⟨-, h⟩
    have E := step_effect R.winv hs
    have R1 := R.step hs
    obtain ⟨p0, D, ht, -, -⟩ := C31_documented R1 hp
    have hfresh : p.totalDeposit = 0 := by
      obtain ⟨bm, qm, p', rem, supply, inc, hooks, rest, tk, cpi, F⟩ := handleInitPresale_iff.1 hs
      cases E with
      | quiet hq => rw [hq, F.fresh.1] at hp; cases hp
      | @create tx' x' q h1 h2 h3 h4 h5 h6 =>
        cases h1
        rw [h4, upd_self] at hp; cases hp
        exact h3.counters.1
      | @act tx' i b q q' es' h1 h2 h3 h4 h5 h6 =>
        cases h1; cases h3 with
        | opened by_ => exact by_.elim
    have h1 := D.caps
    have h2 : p.presaleMaximumCap = p0.presaleMaximumCap := (congrArg Presale.presaleMaximumCap ht :)
    omega
  have R1 := R.step hs
  clear hs hend hmax
  revert p
  generalize x.presaleKey = a
  intro p hp h0
  induction ops generalizing w1 p with
  | nil => exact ⟨p, hp, h0⟩
  | cons op ops ih =>
    show ∃ q, (run (apply w1 op) ops).presales a = some q ∧ _
    rcases apply_cases w1 op with e2 | ⟨rc2, h2⟩
    · show ∃ q, _ ∧ EndsAsAnnounced _ q (run (apply w1 op) ops).clock
      rw [e2]; exact ih R1 p hp h0
    · obtain ⟨q, hq, -⟩ := (step_effect R1.winv h2).later R1.winv hp
      exact ih (R1.step h2) q hq (h0.step R1 h2 hp hq)


/-! ## The price -/

/-- With one registry in use all deposits and all tokens are those of that registry. -/
theorem only_registry {w : World} (R : Reachable w) {a : Addr} {p : Presale} (hp : w.presales a = some p)
    (h1 : p.totalPresaleRegistryCount = 1) {r : Registry} (hr : p.registries[0]? = some r) :
    r.totalDeposit = p.totalDeposit ∧ r.presaleSupply = p.presaleSupply := by
  have S := R.winv.core.sale a p hp
  have hT := S.pinv.book.totDep
  have hlen := (C31_constraints R hp).2.2.1
  have hsup := (C31_constraints R hp).2.2.2.2.2.2.1
  have hun : ∀ (j : Nat) s, p.registries[j]? = some s → 1 ≤ j → s = Registry.fresh :=
    fun j s hs hj => (S.pinv.book.reg j s hs).unused (by omega)
  match hregs : p.registries, hlen with
  | [r0, r1, r2, r3, r4], _ =>
    rw [hregs] at hr hun hT hsup
    have e1 := hun 1 r1 rfl (by omega)
    have e2 := hun 2 r2 rfl (by omega)
    have e3 := hun 3 r3 rfl (by omega)
    have e4 := hun 4 r4 rfl (by omega)
    subst e1 e2 e3 e4
    have e0 : r0 = r := by injection hr
    subst e0
    exact ⟨by rw [hT]; rfl, by rw [hsup]; rfl⟩

/-- **C87.** In a completed sale with one registry and no fixed price, what a buyer pays for the tokens due to them is
the price of the README, the raise over the supply, up to the rounding of less than two tokens and two units: never
less, so `entitlement * raise ≤ paid * supply`, and not more than that. -/
theorem C87_price {w : World} (R : Reachable w) {a k : Addr} {p : Presale} (hp : w.presales a = some p)
    (hc : Completed p w.clock) (hm : p.presaleMode = 1 ∨ p.presaleMode = 2)
    (h1 : p.totalPresaleRegistryCount = 1) {e : Escrow} (hk : w.escrows.get? k = some e) (ha : e.presale = a) :
    ∃ r, p.registries[e.registryIndex]? = some r ∧ refundDeposit p r e ≤ e.totalDeposit ∧
      entitlement p r e * raise p ≤ (e.totalDeposit - refundDeposit p r e) * p.presaleSupply ∧
      (e.totalDeposit - refundDeposit p r e) * p.presaleSupply <
        (entitlement p r e + 2) * raise p + 2 * p.presaleSupply := by
  have S := R.winv.core.sale a p hp
  obtain ⟨r, hr, -, -, hle, hlt⟩ := C15_full_entitlement R hp hk ha
  have hT : 0 < p.totalDeposit := by
    have := (C31_constraints R hp).2.2.2.2.1
    have := hc.2
    omega
  obtain ⟨r', hr', E⟩ := S.pinv.escBook hk ha
  rw [hr] at hr'; cases hr'
  have hidx := E.idx
  have h0 : e.registryIndex = 0 := by omega
  obtain ⟨hrT, hrS⟩ := only_registry R hp h1 (h0 ▸ hr)
  have hS : 0 < p.presaleSupply := by
    have := ((C31_constraints R hp).2.2.2.2.2.2.2.1 _ r hr hidx).1
    omega
  have hsold : sold p r = p.presaleSupply := by
    unfold sold
    rw [if_pos hm, if_neg (by omega), hrS]
  have hsum : surplus p + raise p = p.totalDeposit := by unfold surplus raise; omega
  have href : (refundDeposit p r e : ℚ) ≤ (surplus p : ℚ) * ((e.totalDeposit : ℚ) / p.totalDeposit) ∧
      (surplus p : ℚ) * ((e.totalDeposit : ℚ) / p.totalDeposit) < refundDeposit p r e + 2 ∧
      refundDeposit p r e ≤ e.totalDeposit := by
    rcases hm with hm | hm
    · obtain ⟨r2, hr2, -, g1, g2, -, -, g3, -⟩ := C20_exact_share R hp hc hm hk ha
      rw [hr] at hr2; cases hr2
      exact ⟨g1, g2, g3⟩
    · have hcap := S.pinv.book.cap (by omega)
      have e1 : refundDeposit p r e = 0 := by unfold refundDeposit; rw [if_neg (by omega)]
      have e2 : surplus p = 0 := by unfold surplus; omega
      rw [e1, e2]
      norm_num
  obtain ⟨f1, f2, f3⟩ := href
  refine ⟨r, hr, f3, ?_⟩
  rw [hsold, hrT] at hle hlt
  have hTq : (0 : ℚ) < p.totalDeposit := by exact_mod_cast hT
  have hSq : (0 : ℚ) < p.presaleSupply := by exact_mod_cast hS
  have hsq : (surplus p : ℚ) + raise p = p.totalDeposit := by exact_mod_cast hsum
  have hd : (e.totalDeposit : ℚ) = (e.totalDeposit : ℚ) / p.totalDeposit * (surplus p + raise p) := by
    rw [hsq]; field_simp
  generalize (e.totalDeposit : ℚ) / p.totalDeposit = u at *
  have hraise : (0 : ℚ) ≤ raise p := Nat.cast_nonneg _
  constructor
  · have : ((entitlement p r e * raise p : Nat) : ℚ) ≤
        (((e.totalDeposit - refundDeposit p r e) * p.presaleSupply : Nat) : ℚ) := by
      rw [Nat.cast_mul, Nat.cast_mul, Nat.cast_sub f3]
      have j1 := mul_le_mul_of_nonneg_right hle hraise
      have j2 : u * raise p * p.presaleSupply ≤
          ((e.totalDeposit : ℚ) - refundDeposit p r e) * p.presaleSupply :=
        mul_le_mul_of_nonneg_right (by linarith) hSq.le
      linarith
    exact_mod_cast this
  · have : (((e.totalDeposit - refundDeposit p r e) * p.presaleSupply : Nat) : ℚ) <
        (((entitlement p r e + 2) * raise p + 2 * p.presaleSupply : Nat) : ℚ) := by
      push_cast [Nat.cast_sub f3]
      have j1 := mul_le_mul_of_nonneg_right hlt.le hraise
      have j2 : ((e.totalDeposit : ℚ) - refundDeposit p r e) * p.presaleSupply <
          (u * raise p + 2) * p.presaleSupply :=
        mul_lt_mul_of_pos_right (by linarith) hSq
      linarith
    exact_mod_cast this

/-! ## The raise -/

/-- **C87.** Whatever the mode, the creator gets at most the maximum cap out of a completed sale, and nothing out of
the deposits of a failed one: what a withdrawal moves is either that much of the quote token or the supply. -/
theorem C87_raise {w : World} (R : Reachable w) {tx : Tx} {x : CreatorWithdrawAcc} {w' : World} {rc : Receipt}
    (h : step w (.ix tx (.creatorWithdraw x)) = .ok (w', rc)) :
    ∃ p amount, w.presales x.presale = some p ∧
      ((p.presaleMinimumCap ≤ amount ∧ amount ≤ p.presaleMaximumCap ∧
          Transferred w.tk w'.tk p.quoteMint (.quoteVault x.presale) x.ownerToken amount) ∨
        (p.totalDeposit < p.presaleMinimumCap ∧ amount = p.presaleSupply ∧
          Transferred w.tk w'.tk p.baseMint (.baseVault x.presale) x.ownerToken amount)) := by
  obtain ⟨p, mint, vault, amount, kind, hp, -, -, -, hw, ht, -⟩ := C22_withdraw R h
  refine ⟨p, amount, hp, ?_⟩
  have hcaps := (C31_constraints R hp).2.2.2.2.2.1
  rcases hw with ⟨h1, rfl, rfl, rfl, -⟩ | ⟨h1, rfl, rfl, rfl, -⟩
  · exact .inl ⟨le_min h1.2 hcaps, Nat.min_le_right _ _, ht⟩
  · exact .inr ⟨h1.2, rfl, ht⟩

/-! ## Limits of whitelisted sales -/

/-- **C87.** In a whitelisted sale every registry in use lets a buyer deposit up to the maximum cap; the least
deposit is one unit if the price is dynamic and the least amount worth a token if it is fixed. -/
theorem C87_whitelisted_limits {w : World} (R : Reachable w) {a : Addr} {p : Presale} (hp : w.presales a = some p)
    (hw : p.whitelistMode = 1 ∨ p.whitelistMode = 2) {i : Nat} {r : Registry} (hr : p.registries[i]? = some r)
    (hi : i < p.totalPresaleRegistryCount) :
    r.buyerMaximumDepositCap = p.presaleMaximumCap ∧
    (p.presaleMode = 1 ∨ p.presaleMode = 2 → r.buyerMinimumDepositCap = 1) ∧
    (p.presaleMode ≠ 1 → p.presaleMode ≠ 2 → 0 < tokensAtPrice p.raw0 r.buyerMinimumDepositCap ∧
      ∀ less, less < r.buyerMinimumDepositCap → tokensAtPrice p.raw0 less = 0) := by
  obtain ⟨p0, D, ht, -, -⟩ := C31_documented R hp
  obtain ⟨r0, hr0, hrt⟩ := terms_reg ht hr
  have e1 : p.totalPresaleRegistryCount = p0.totalPresaleRegistryCount :=
    (congrArg Presale.totalPresaleRegistryCount ht :)
  have e2 : p.presaleMaximumCap = p0.presaleMaximumCap := (congrArg Presale.presaleMaximumCap ht :)
  have e3 : p.whitelistMode = p0.whitelistMode := (congrArg Presale.whitelistMode ht :)
  have e4 : p.presaleMode = p0.presaleMode := (congrArg Presale.presaleMode ht :)
  have e5 : p.raw0 = p0.raw0 := (congrArg Presale.raw0 ht :)
  have e6 : r.buyerMaximumDepositCap = r0.buyerMaximumDepositCap := (congrArg Registry.buyerMaximumDepositCap hrt :)
  have e7 : r.buyerMinimumDepositCap = r0.buyerMinimumDepositCap := (congrArg Registry.buyerMinimumDepositCap hrt :)
  have G := D.used i r0 hr0 (by omega)
  rw [e3] at hw
  rw [e6, e2, e4, e7, e5]
  refine ⟨?_, fun h => (G.dynamicWhitelisted hw h).1, fun h1 h2 => ⟨(G.buyable h1 h2).1, fun less hless => ?_⟩⟩
  · by_cases h : p0.presaleMode = 1 ∨ p0.presaleMode = 2
    · exact (G.dynamicWhitelisted hw h).2
    · exact (G.fixedWhitelisted hw (fun g => h (.inl g)) (fun g => h (.inr g))).2
  · have h3 := (G.fixedWhitelisted hw h1 h2).1.2
    have h4 : (less + 1) * 2 ^ 64 ≤ r0.buyerMinimumDepositCap * 2 ^ 64 := Nat.mul_le_mul_right _ hless
    rw [Nat.add_mul, Nat.one_mul] at h4
    have h5 : less * 2 ^ 64 < p0.raw0 := Nat.lt_of_add_lt_add_right (Nat.lt_of_le_of_lt h4 h3)
    rw [tokensAtPrice, Nat.div_eq_of_lt h5]

/-! ## The hypotheses are met -/

namespace Ex

/-- A sale of mode 2 that ended early, and one of mode 1 that did not although it is oversubscribed. -/
example : works genesis (init 2 0 0 reg1) = true ∧
    has fcfsEarly (fun p => decide (p.presaleMode = 2 ∧ p.raw0 % 256 = 0 ∧
      p.presaleMaximumCap ≤ p.totalDeposit ∧ p.presaleEndTime = 1020)) = true ∧
    has fcfsOpen (fun p => decide (p.totalDeposit < p.presaleMaximumCap ∧ p.presaleEndTime = 1600)) = true ∧
    has prorataDone (fun p => decide (p.presaleMode = 1 ∧ p.presaleMaximumCap < p.totalDeposit ∧
      p.presaleEndTime = 1600)) = true := by
  decide +kernel

/-- Alice put in 900 of 1500 where 1000 are raised for 10000 tokens: 600 for 6000. -/
example : has prorataDone (fun p => decide (p.totalPresaleRegistryCount = 1 ∧ raise p = 1000 ∧
      p.presaleSupply = 10000)) = true ∧
    (match prorataDone.presales sale, prorataDone.escrows.get? (escrowOf alice) with
      | some p, some e => match p.registries[e.registryIndex]? with
        | some r => decide (e.totalDeposit - refundDeposit p r e = 600 ∧ entitlement p r e = 6000)
        | none => false
      | _, _ => false) = true := by
  decide +kernel

/-- Two registries of 10000 and 5000 tokens, whitelisted. -/
def pairRegs : List RegistryArgs :=
  [{ buyerMinimumDepositCap := 1, buyerMaximumDepositCap := 1000, presaleSupply := 10000, depositFeeBps := 200 },
   { buyerMinimumDepositCap := 1, buyerMaximumDepositCap := 1000, presaleSupply := 5000, depositFeeBps := 200 }]

def letIn (owner : Addr) (index : Nat) : Op :=
  .ix (tx [operatorKey]) (.createEscrowCreator
      { presale := sale, owner := owner, payer := operatorKey, operator := .operator creator operatorKey,
        operatorOwner := operatorKey, registryIndex := index, depositCap := 500 })

def depositIn (owner tok : Addr) (index amount : Nat) : Op :=
  .ix (tx [owner]) (.deposit { depositAcc owner tok amount with escrow := .escrow sale owner index })

/-- Alice and Bob each put 400 into the same sale, in different registries. -/
def pairOps : List Op :=
  [init 2 2 0 pairRegs, .ix (tx [creator]) (.createOperator ⟨operatorKey, creator⟩), .tick 10, letIn alice 0,
   letIn bob 1, depositIn alice aliceQuote 0 400, depositIn bob bobQuote 1 400, .tick 3000]

def dueTo (w : World) (k : Addr) : Option (Nat × Nat) :=
  match w.presales sale, w.escrows.get? k with
  | some p, some e => (p.registries[e.registryIndex]?).map fun r => (e.totalDeposit, entitlement p r e)
  | _, _ => none

end Ex

/-- **C87**, the price is one per registry: in a completed sale two buyers with the same deposit get 10000 and 5000
tokens. The formula of the README holds for a sale with one registry only. -/
theorem C87_price_per_registry : ∃ w a p k k' e e' r r', Reachable w ∧ w.presales a = some p ∧
    Completed p w.clock ∧ p.presaleMode = 2 ∧ w.escrows.get? k = some e ∧ w.escrows.get? k' = some e' ∧
    e.presale = a ∧ e'.presale = a ∧ p.registries[e.registryIndex]? = some r ∧
    p.registries[e'.registryIndex]? = some r' ∧ e.totalDeposit = e'.totalDeposit ∧
    0 < e.totalDeposit ∧ entitlement p r e = 2 * entitlement p r' e' ∧ 0 < entitlement p r' e' := by
  have R : Reachable (run Ex.genesis Ex.pairOps) := ⟨Ex.genesis, _, Ex.genesis_ok, rfl⟩
  have h : (match (run Ex.genesis Ex.pairOps).presales Ex.sale,
      (run Ex.genesis Ex.pairOps).escrows.get? (.escrow Ex.sale Ex.alice 0),
      (run Ex.genesis Ex.pairOps).escrows.get? (.escrow Ex.sale Ex.bob 1) with
      | some p, some e, some e' => match p.registries[e.registryIndex]?, p.registries[e'.registryIndex]? with
        | some r, some r' => decide ((p.presaleEndTime : Int) ≤ (run Ex.genesis Ex.pairOps).clock ∧
            p.presaleMinimumCap ≤ p.totalDeposit ∧ p.presaleMode = 2 ∧ e.presale = Ex.sale ∧ e'.presale = Ex.sale ∧
            e.totalDeposit = e'.totalDeposit ∧ 0 < e.totalDeposit ∧ entitlement p r e = 2 * entitlement p r' e' ∧
            0 < entitlement p r' e')
        | _, _ => false
      | _, _, _ => false) = true := by decide +kernel
  cases hp : (run Ex.genesis Ex.pairOps).presales Ex.sale with
  | none => rw [hp] at h; cases h
  | some p =>
    cases hk : (run Ex.genesis Ex.pairOps).escrows.get? (.escrow Ex.sale Ex.alice 0) with
    | none => rw [hp, hk] at h; cases h
    | some e =>
      cases hk' : (run Ex.genesis Ex.pairOps).escrows.get? (.escrow Ex.sale Ex.bob 1) with
      | none => rw [hp, hk, hk'] at h; cases h
      | some e' =>
        rw [hp, hk, hk'] at h
        cases hr : p.registries[e.registryIndex]? with
        | none => simp only [hr] at h; cases h
        | some r =>
          cases hr' : p.registries[e'.registryIndex]? with
          | none => simp only [hr, hr'] at h; cases h
          | some r' =>
            simp only [hr, hr'] at h
            obtain ⟨h1, h2, h3, h4, h5, h6, h7, h8, h9⟩ := of_decide_eq_true h
            exact ⟨_, _, p, _, _, e, e', r, r', R, hp, ⟨h1, h2⟩, h3, hk, hk', h4, h5, hr, hr', h6, h7, h8, h9⟩


namespace Ex

/-- A withdrawal of the raise and one of the supply; the limits of a whitelisted sale. -/
example : works prorataDone (creatorWithdraw creatorWithdrawAcc) = true ∧
    works failedDone (creatorWithdraw creatorWithdrawBaseAcc) = true ∧
    has authorityOpen (fun p => decide (p.whitelistMode = 2 ∧ 0 < p.totalPresaleRegistryCount)) = true := by
  decide +kernel

end Ex

end Verif
