import Verif.Props.Readme
import Verif.Props.Liveness
import Verif.Props.Ledger
import Verif.Props.Squat
import Verif.Props.Undo
import Verif.Lemmas.Fits
/-!
# C106: nobody is kept out of a pro-rata sale

A pro-rata sale has no limit on the total (`prorata_presale.rs:29-41`) and no early end. Whatever the others do, the
owner of an escrow can bring it up to its cap until the sale ends, and in a sale without whitelist so can everybody.
-/

namespace Verif
open Spec

/-- Every amount up to the one asked for can be paid, fees included, as far as the tokens are concerned. -/
def Spec.CanPay (w : World) (tx : Tx) (p : Presale) (bps : Nat) (x : DepositAcc) : Prop :=
  ∀ n, 0 < n → n ≤ x.maxAmount → ∃ m fee gross, Charge m bps n fee gross ∧
    Collectable w.tk tx p.quoteMint p.quoteTokenVault x.payerQuoteToken x.payer x.tokenProgram x.remaining x.slices
      m gross (n + fee)

/-- **C106**, the dates. Nothing that happens moves the dates of a pro-rata sale, its mode or its limits. -/
theorem C106_dates {w : World} (R : Reachable w) {a : Addr} {p : Presale} (hp : w.presales a = some p)
    (hm : p.presaleMode = 1) (ops : List Op) :
    ∃ p', (run w ops).presales a = some p' ∧ terms p' = terms p ∧ p'.presaleStartTime = p.presaleStartTime ∧
      p'.presaleEndTime = p.presaleEndTime ∧ p'.vestingStartTime = p.vestingStartTime ∧
      p'.vestingEndTime = p.vestingEndTime ∧ p'.immediateReleaseTimestamp = p.immediateReleaseTimestamp := by
  induction ops generalizing w p with
  | nil => exact ⟨p, hp, rfl, rfl, rfl, rfl, rfl, rfl⟩
  | cons op ops ih =>
    change ∃ p', (run (apply w op) ops).presales a = some p' ∧ _
    rcases apply_cases w op with e | ⟨rc, hs⟩
    · rw [e]; exact ih R hp hm
    · obtain ⟨q, hq, L⟩ := (step_effect R.winv hs).later R.winv hp
      have hqm : q.presaleMode = 1 := by
        have : q.presaleMode = p.presaleMode := (congrArg Presale.presaleMode L.terms :)
        omega
      obtain ⟨p', h1, h2, h3, h4, h5, h6, h7⟩ := ih (R.step hs) hq hqm
      refine ⟨p', h1, h2.trans L.terms, ?_⟩
      rcases C18_only_deposits R hs hp hq with g | ⟨tx, x, rfl, hx⟩
      · obtain ⟨g1, g2, g3, g4, g5, -, -⟩ := g
        exact ⟨h3.trans g1, h4.trans g2, h5.trans g3, h6.trans g4, h7.trans g5⟩
      · obtain ⟨q1, q2, k1, k2, -, k4⟩ := C18_early_finish R hs
        rw [hx] at k1 k2
        rw [hp] at k1; cases k1
        rw [hq] at k2; cases k2
        have hst : q.presaleStartTime = p.presaleStartTime := (congrArg Presale.presaleStartTime L.terms :)
        rcases k4 with k | ⟨-, g2, g3, g4, g5⟩
        · rcases k.1 with h | h <;> omega
        · exact ⟨h3.trans hst, h4.trans g2, h5.trans g3, h6.trans g4, h7.trans g5⟩

/-- **C106**, up to the cap. In an open pro-rata sale a deposit brings an escrow up to the amount asked for or up to its
cap, whatever the others deposited. -/
theorem C106_lifts {w : World} (R : Reachable w) {tx : Tx} {x : DepositAcc} {p : Presale} {e : Escrow} {r : Registry}
    (hp : w.presales x.presale = some p) (hm : p.presaleMode = 1) (ho : Ongoing p w.clock)
    (hk : w.escrows.get? x.escrow = some e) (ha : e.presale = x.presale)
    (hr : p.registries[e.registryIndex]? = some r) (hs : tx.signed x.payer = true) (hmax : x.maxAmount < 2 ^ 64)
    (hv : x.quoteTokenVault = p.quoteTokenVault) (hq : x.quoteMint = p.quoteMint)
    (hask : r.buyerMinimumDepositCap ≤ e.totalDeposit + x.maxAmount)
    (hcap : r.buyerMinimumDepositCap ≤ e.depositMaxCap) (hpay : CanPay w tx p r.depositFeeBps x) :
    ∃ e', (apply w (.ix tx (.deposit x))).escrows.get? x.escrow = some e' ∧ e'.owner = e.owner ∧
      e'.presale = e.presale ∧ e'.totalDeposit = min (e.totalDeposit + x.maxAmount) e.depositMaxCap := by
  obtain ⟨p0, r0, g1, g2, -, -, g5, g6⟩ := C05_buyer_limits R hk
  rw [ha, hp] at g1; cases g1
  rw [hr] at g2; cases g2
  have hquota : remainingQuota p r e = e.depositMaxCap - e.totalDeposit := by
    unfold remainingQuota personalQuota
    rw [if_pos hm, Nat.min_eq_right g6]
  by_cases hn : 0 < min x.maxAmount (e.depositMaxCap - e.totalDeposit)
  · obtain ⟨m, fee, gross, hc, hcol⟩ := hpay _ hn (Nat.min_le_left _ _)
    have htaken : DepositTaken p r e x.maxAmount (min x.maxAmount (e.depositMaxCap - e.totalDeposit)) := by
      unfold DepositTaken
      rw [if_pos (.inl hm), hquota]
    obtain ⟨w', rc, hstep⟩ := C48_deposit_succeeds_partial R hp hk ha hr ho hmax hn htaken (by omega) (.inl hm) hs hv hq
      hc hcol
    obtain ⟨p1, e1, r1, m1, n1, fee1, gross1, k1, D⟩ := (C72_does_iff R tx (.deposit x) w').1 ⟨rc, hstep⟩
    have h := D.presale
    rw [hp] at h; cases h
    have h := D.escrow.1
    rw [hk] at h; cases h
    have h := D.registry
    rw [hr] at h; cases h
    have ht := D.taken.2
    unfold DepositTaken at ht
    rw [if_pos (.inl hm), hquota] at ht
    rw [apply_ok hstep, D.post]
    refine ⟨_, (AMap.get?_set _ _ _ _).trans (if_pos rfl), rfl, rfl, ?_⟩
    change e.totalDeposit + n1 = _
    omega
  · cases hstep : step w (.ix tx (.deposit x)) with
    | error err =>
      have : apply w (.ix tx (.deposit x)) = w := by unfold apply; rw [hstep]
      rw [this]
      exact ⟨e, hk, rfl, rfl, by omega⟩
    | ok v =>
      exfalso
      obtain ⟨w', rc⟩ := v
      obtain ⟨p1, e1, r1, m1, n1, fee1, gross1, k1, D⟩ := (C72_does_iff R tx (.deposit x) w').1 ⟨rc, hstep⟩
      have h := D.presale
      rw [hp] at h; cases h
      have h := D.escrow.1
      rw [hk] at h; cases h
      have h := D.registry
      rw [hr] at h; cases h
      have ht := D.taken.2
      have hpos := D.taken.1
      unfold DepositTaken at ht
      rw [if_pos (.inl hm), hquota] at ht
      omega

/-- An escrow that exists in an open pro-rata sale without whitelist is brought up to what is asked for. -/
theorem existing_in {w : World} (R : Reachable w) {a : Addr} {p : Presale} {r : Registry} {e : Escrow}
    (hp : w.presales a = some p) (hm : p.presaleMode = 1) (hl : p.whitelistMode = 0) (hr : p.registries[0]? = some r)
    (ho : Ongoing p w.clock) {owner : Addr} (hk : w.escrows.get? (.escrow a owner 0) = some e) {tx : Tx}
    {x : DepositAcc} (hx : x.presale = a) (hxe : x.escrow = .escrow a owner 0) (hs : tx.signed x.payer = true)
    (hmax : x.maxAmount < 2 ^ 64) (hv : x.quoteTokenVault = p.quoteTokenVault) (hq : x.quoteMint = p.quoteMint)
    (hask : r.buyerMinimumDepositCap ≤ x.maxAmount) (hpay : CanPay w tx p r.depositFeeBps x) :
    ∃ e', (apply w (.ix tx (.deposit x))).escrows.get? (.escrow a owner 0) = some e' ∧ e'.owner = owner ∧
      e'.presale = a ∧ e'.totalDeposit = min (e.totalDeposit + x.maxAmount) r.buyerMaximumDepositCap := by
  have hmem := AMap.get?_mem hk
  have hkey := (R.winv.core.esc _ hmem).1
  injection hkey with k1 k2 k3
  have P := (R.winv.core.sale a p hp).pinv
  obtain ⟨r0, g1, g2⟩ := P.book.esc _ hmem k1.symm
  rw [← k3, hr] at g1; cases g1
  have hcap := (g2.opened (by rw [hl]; rfl)).2
  have hreg := P.static.reg 0 r hr (lt_of_lt_of_le Nat.zero_lt_one P.static.countPos)
  subst hx
  rw [← hxe] at hk ⊢
  obtain ⟨e', h1, h2, h3, h4⟩ := C106_lifts R hp hm ho hk k1.symm (by rw [← k3]; exact hr) hs hmax hv hq
    (by omega) (by simp only at hcap; omega) hpay
  exact ⟨e', h1, h2.trans k2.symm, h3.trans k1.symm, by rw [h4]; exact congrArg _ hcap⟩

/-- **C106**, in. In a pro-rata sale without whitelist, whatever has happened since some moment, as long as the end
announced at that moment is not reached everybody can bring their escrow up to the amount asked for or the maximum,
by opening it unless somebody did, and depositing. -/
theorem C106_in {w : World} (R : Reachable w) {a : Addr} {p : Presale} {r : Registry} (hp : w.presales a = some p)
    (hm : p.presaleMode = 1) (hl : p.whitelistMode = 0) (hr : p.registries[0]? = some r) (ops : List Op)
    (ho : Ongoing p (run w ops).clock) {p' : Presale} (hp' : (run w ops).presales a = some p')
    (hcount : p'.totalEscrow + 1 < 2 ^ 64) (owner : Addr) {tx : Tx} {x : DepositAcc} (hx : x.presale = a)
    (hxe : x.escrow = .escrow a owner 0) (hs : tx.signed x.payer = true) (hmax : x.maxAmount < 2 ^ 64)
    (hv : x.quoteTokenVault = p.quoteTokenVault) (hq : x.quoteMint = p.quoteMint)
    (hask : r.buyerMinimumDepositCap ≤ x.maxAmount) (hpay : CanPay (run w ops) tx p r.depositFeeBps x) :
    ∃ e', (run (run w ops) [.ix tx (.createEscrow { presale := a, owner := owner, payer := x.payer }),
        .ix tx (.deposit x)]).escrows.get? (.escrow a owner 0) = some e' ∧ e'.owner = owner ∧ e'.presale = a ∧
      min x.maxAmount r.buyerMaximumDepositCap ≤ e'.totalDeposit := by
  obtain ⟨q, hq1, hterms, h3, h4, -⟩ := C106_dates R hp hm ops
  rw [hp'] at hq1; cases hq1
  have R1 : Reachable (run w ops) := R.run ops
  generalize run w ops = w1 at *
  have hm' : p'.presaleMode = 1 := ((congrArg Presale.presaleMode hterms :) : p'.presaleMode = p.presaleMode).trans hm
  have hl' : p'.whitelistMode = 0 :=
    ((congrArg Presale.whitelistMode hterms :) : p'.whitelistMode = p.whitelistMode).trans hl
  have hv' : p'.quoteTokenVault = p.quoteTokenVault := (congrArg Presale.quoteTokenVault hterms :)
  have hqm' : p'.quoteMint = p.quoteMint := (congrArg Presale.quoteMint hterms :)
  have ho' : Ongoing p' w1.clock := by unfold Ongoing at ho ⊢; rw [h3, h4]; exact ho
  obtain ⟨r', hr', hrt⟩ := terms_reg hterms.symm hr
  have t1 : r'.buyerMinimumDepositCap = r.buyerMinimumDepositCap :=
    (congrArg Registry.buyerMinimumDepositCap hrt.symm :)
  have t2 : r'.buyerMaximumDepositCap = r.buyerMaximumDepositCap :=
    (congrArg Registry.buyerMaximumDepositCap hrt.symm :)
  have t3 : r'.depositFeeBps = r.depositFeeBps := (congrArg Registry.depositFeeBps hrt.symm :)
  have hpay' : CanPay w1 tx p' r'.depositFeeBps x := by
    unfold CanPay at hpay ⊢; rw [hv', hqm', t3]; exact hpay
  rw [← t1] at hask
  rw [← t2]
  rw [← hv'] at hv
  rw [← hqm'] at hq
  change ∃ e', (apply (apply w1 _) _).escrows.get? _ = some e' ∧ _
  cases hk : w1.escrows.get? (.escrow a owner 0) with
  | some e =>
    have : apply w1 (.ix tx (.createEscrow { presale := a, owner := owner, payer := x.payer })) = w1 := by
      rcases apply_cases w1 (.ix tx (.createEscrow { presale := a, owner := owner, payer := x.payer }))
        with h | ⟨rc, h⟩
      · exact h
      · exfalso
        obtain ⟨p1, r1, D⟩ := (C72_does_iff R1 tx (.createEscrow _) _).1 ⟨rc, h⟩
        have := D.opens.fresh
        rw [hk] at this
        cases this
    rw [this]
    obtain ⟨e', h1, h2, h3, h4⟩ := existing_in R1 hp' hm' hl' hr' ho' hk hx hxe hs hmax hv hq hask hpay'
    exact ⟨e', h1, h2, h3, by omega⟩
  | none =>
    have P := (R1.winv.core.sale a p' hp').pinv
    obtain ⟨rc, hstep⟩ := (C72_does_iff R1 tx (.createEscrow { presale := a, owner := owner, payer := x.payer }) _).2
      ⟨p', r', { signed := hs
                 mode := by omega
                 opens := { presale := hp'
                            registry := ⟨hr', lt_of_lt_of_le Nat.zero_lt_one P.static.countPos⟩
                            ongoing := ho'
                            fresh := hk
                            countable := hcount
                            post := rfl } }⟩
    rw [apply_ok hstep]
    have R2 := R1.step hstep
    have hlen := P.static.len
    obtain ⟨e', h1, h2, h3, h4⟩ := existing_in (r := { r' with totalEscrow := r'.totalEscrow + 1 })
      R2 (upd_self _ _ _) hm' hl' (by simp [hlen]) ho'
      ((AMap.get?_set _ _ _ _).trans (if_pos rfl)) hx hxe hs hmax hv hq hask hpay'
    exact ⟨e', h1, h2, h3, by rw [h4]; simp⟩

/-! ## Examples -/

namespace Ex

/-- A pro-rata sale without whitelist at the moment it opens. -/
def doorBefore : World := run genesis [init 1 0 0 reg1, .tick 10]

/-- Bob opens his own escrow and Alice's, deposits all he may into his and a little into hers. -/
def throng : List Op :=
  [open' bob, deposit bob bobQuote 1000,
   .ix (tx [bob]) (.createEscrow { presale := sale, owner := alice, payer := bob }),
   .ix (tx [bob]) (.deposit { depositAcc alice bobQuote 10 with payer := bob })]

/-- What Alice does. -/
def enter : List Op :=
  [.ix (tx [alice]) (.createEscrow { presale := sale, owner := alice, payer := alice }), deposit alice aliceQuote 700]

example : hasEsc (run doorBefore throng) (escrowOf alice) (fun e => e.totalDeposit == 10) = true ∧
    hasEsc (run (run doorBefore throng) enter) (escrowOf alice) (fun e => e.totalDeposit == 710) = true ∧
    hasEsc (run doorBefore enter) (escrowOf alice) (fun e => e.totalDeposit == 700) = true ∧
    has (run (run doorBefore throng) enter) (fun p => decide (p.presaleMaximumCap < p.totalDeposit)) = true := by
  decide +kernel

/-- Fee and charge of a deposit into `doorBefore`. -/
def chargeFor (n : Nat) : Option (Nat × Nat) :=
  match calculateDepositFeeIncludedAmount n 200 .up with
  | .error _ => none
  | .ok c =>
    match transferFeeIncludedAmount quoteInfo c.amountIncludedFee with
    | .error _ => none
    | .ok g => if c.fee ≤ 100 ∧ c.amountIncludedFee ≤ 1000 ∧ g ≤ 1000 then some (c.fee, g) else none

theorem chargeFor_some : ∀ n < 701, (chargeFor n).isSome = true := by decide +kernel

theorem alice_can_pay {p : Presale} (hq : p.quoteMint = qm) (hv : p.quoteTokenVault = .quoteVault sale) :
    CanPay (run doorBefore throng) (tx [alice]) p 200 (depositAcc alice aliceQuote 700) := by
  intro n hn hle
  have h := chargeFor_some n (Nat.lt_succ_of_le hle)
  unfold chargeFor at h
  split at h
  · cases h
  · rename_i c hc
    split at h
    · cases h
    · rename_i g hg
      by_cases hb : c.fee ≤ 100 ∧ c.amountIncludedFee ≤ 1000 ∧ g ≤ 1000
      · refine ⟨quoteInfo, c.fee, g, charge_of (by intro f hf; cases hf; decide +kernel) hc rfl rfl
          (by rw [u64Bound_eq]; omega) hg, ?_⟩
        rw [hq, hv]
        have hle' : n ≤ 700 := hle
        have h2 : n + c.fee + 100000 < 2 ^ 64 := by omega
        have ht : (run doorBefore throng).tk.mints qm = some quoteInfo ∧
            (run doorBefore throng).tk.toks aliceQuote = some (acct qm alice 100000) ∧
            ((run doorBefore throng).tk.toks (.quoteVault sale)).any
              (fun v => v.frozen == false && decide (v.amount ≤ 100000)) = true := by decide +kernel
        obtain ⟨t1, t2, t3⟩ := ht
        refine ⟨rfl, t1, rfl, (by unfold HooksFit; rw [if_pos (show quoteInfo.hookProgram = none from rfl)]; rfl),
          ⟨_, t2, rfl, rfl, by change g ≤ 100000; omega, .inr ⟨rfl, fun d hd => by cases hd⟩⟩, ?_⟩
        cases hvt : (run doorBefore throng).tk.toks (.quoteVault sale) with
        | none => rw [hvt] at t3; cases t3
        | some v =>
          rw [hvt] at t3
          simp only [Option.any_some, Bool.and_eq_true, beq_iff_eq, decide_eq_true_eq] at t3
          exact ⟨v, rfl, t3.1, by omega⟩
      · rw [if_neg hb] at h; cases h

/-- All conditions of `C106_in` are met for Alice after what Bob did. -/
example : ∃ p r p', doorBefore.presales sale = some p ∧ p.presaleMode = 1 ∧ p.whitelistMode = 0 ∧
    p.registries[0]? = some r ∧ Ongoing p (run doorBefore throng).clock ∧
    (run doorBefore throng).presales sale = some p' ∧ p'.totalEscrow + 1 < 2 ^ 64 ∧
    r.buyerMinimumDepositCap ≤ 700 ∧
    CanPay (run doorBefore throng) (tx [alice]) p r.depositFeeBps (depositAcc alice aliceQuote 700) := by
  obtain ⟨p, hp, h⟩ := has_some (w := doorBefore) (f := fun p => decide (p.presaleMode = 1 ∧ p.whitelistMode = 0 ∧
    p.quoteMint = qm ∧ p.quoteTokenVault = .quoteVault sale ∧
    (p.presaleStartTime : Int) ≤ (run doorBefore throng).clock ∧ (run doorBefore throng).clock < p.presaleEndTime ∧
    (p.registries[0]?).any (fun r => r.depositFeeBps == 200 && r.buyerMinimumDepositCap == 10) = true))
    (by decide +kernel)
  obtain ⟨p', hp', h'⟩ := has_some (w := run doorBefore throng) (f := fun p => decide (p.totalEscrow = 2))
    (by decide +kernel)
  obtain ⟨h1, h2, h3, h4, h5, h6, h7⟩ := of_decide_eq_true h
  have h8 := of_decide_eq_true h'
  cases hr : p.registries[0]? with
  | none => rw [hr] at h7; cases h7
  | some r =>
    rw [hr] at h7
    simp only [Option.any_some, Bool.and_eq_true, beq_iff_eq] at h7
    exact ⟨p, r, p', hp, h1, h2, hr, ⟨h5, h6⟩, hp', by omega, by omega, by rw [h7.1]; exact alice_can_pay h3 h4⟩

end Ex

end Verif
