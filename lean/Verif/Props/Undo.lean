import Verif.Lemmas.Order
import Verif.Lemmas.Tally
import Verif.Props.Machine
import Verif.SpecUndo
/-!
# Deposits that are taken back
-/

namespace Verif

open Spec

theorem AMap.set_set {K V : Type} [DecidableEq K] (m : AMap K V) (k : K) (v v' : V) :
    (m.set k v).set k v' = m.set k v' := by
  induction m with
  | nil => simp [AMap.set]
  | cons x m ih =>
    obtain ⟨k0, v0⟩ := x
    by_cases hk : k0 = k
    · simp [AMap.set, hk]
    · simp [AMap.set, hk, ih]

theorem upd_upd {α β : Type} [DecidableEq α] (f : α → β) (a : α) (b c : β) : upd (upd f a b) a c = upd f a c := by
  funext x
  by_cases h : x = a
  · subst h; rw [upd_self, upd_self]
  · rw [upd_other _ _ h, upd_other _ _ h, upd_other _ _ h]

theorem least_self {q o n : Nat} (h : LeastCharge q o n) : LeastCharge q n n :=
  ⟨Nat.le_refl _, rfl, fun l hl => by rw [h.same]; exact h.least l hl⟩

/-- **C104.** A withdrawal takes a deposit back: as long as the deposit has not ended the sale and the terms allow
withdrawals, the owner of the escrow can withdraw exactly what the deposit put in, whenever the payment itself is
possible, and the ledger is then the one before the deposit, except for the payments and the fee on record. -/
theorem C104_undo {w w1 w2 : World} (R : Reachable w) {tx tx' : Tx} {x : DepositAcc} {y : WithdrawAcc} {rc : Receipt}
    {p p1 : Presale} {r : Registry} {e e1 : Escrow} {n fee : Nat}
    (hd : step w (.ix tx (.deposit x)) = .ok (w1, rc)) (hp : w.presales x.presale = some p)
    (hk : w.escrows.get? x.escrow = some e) (hr : p.registries[e.registryIndex]? = some r)
    (hk1 : w1.escrows.get? x.escrow = some e1) (hn : e1.totalDeposit = e.totalDeposit + n)
    (hf : e1.totalDepositFee = e.totalDepositFee + fee) (ha : WithdrawAllowed p)
    (hp1 : w1.presales x.presale = some p1) (ho : Ongoing p1 w1.clock)
    (hy : y.presale = x.presale ∧ y.escrow = x.escrow ∧ y.quoteTokenVault = p.quoteTokenVault ∧
      y.quoteMint = p.quoteMint ∧ y.owner = e.owner ∧ y.maxAmount = n) (hs : tx'.signed e.owner = true) :
    (∃ rc', step w1 (.ix tx' (.withdraw y)) = .ok (w2, rc')) ↔
      SlicesFit y.slices ∧ HooksRight w1.tk .transferHookQuote p.quoteMint y.remaining y.slices ∧
      PaidOut w1.tk tx' p.quoteMint p.quoteTokenVault y.ownerQuoteToken y.tokenProgram n w2.tk ∧
      w2 = feePaid w x.presale x.escrow p r e fee w2.tk := by
  have R1 : Reachable w1 := R.step (op := .ix tx (.deposit x)) hd
  obtain ⟨p', e', r', m, n', fee', gross, k1, D⟩ := (C72_does_iff R tx (.deposit x) w1).1 ⟨rc, hd⟩
  have h := D.presale
  rw [hp] at h; cases h
  have h := D.escrow.1
  rw [hk] at h; cases h
  have h := D.registry
  rw [hr] at h; cases h
  have hw1 := D.post
  have he1 : e1 = { e with
      totalDeposit := e.totalDeposit + n'
      totalDepositFee := e.totalDepositFee + fee' } := by
    rw [hw1] at hk1
    simp only [AMap.get?_set, if_true] at hk1
    cases hk1; rfl
  have hnn : n' = n := by rw [he1] at hn; simpa using hn
  have hff : fee' = fee := by rw [he1] at hf; simpa using hf
  subst hnn hff
  have hclock : w1.clock = w.clock := by rw [hw1]
  have hpa : p1 = afterDeposit p e.registryIndex r n' fee' w.clock.toNat := by
    rw [hw1] at hp1
    simp only [upd_self] at hp1
    cases hp1; rfl
  have ho' := ho
  rw [hclock, hpa] at ho'
  obtain ⟨-, hgrown⟩ := still_open ho'
  rw [hgrown] at hpa
  have hlt : e.registryIndex < p.registries.length := (List.getElem?_eq_some_iff.1 hr).1
  have hr1 : p1.registries[e1.registryIndex]? = some (r.grown n' fee') := by
    rw [hpa, he1]
    show (p.registries.set e.registryIndex (r.grown n' fee'))[e.registryIndex]? = _
    rw [List.getElem?_set_self hlt]
  have hall : WithdrawAllowed p1 := by rw [hpa]; exact ha
  have htk : WithdrawTaken p1 e1 n' n' := by
    unfold WithdrawTaken
    split
    · rfl
    · next hc =>
      have hm1 : p1.presaleMode = p.presaleMode := by rw [hpa]; rfl
      have hq : p1.raw0 = p.raw0 := by rw [hpa]; rfl
      have hm : ¬ (p.presaleMode = 1 ∨ p.presaleMode = 2) := by
        rw [hm1] at hc
        unfold WithdrawAllowed at ha
        omega
      have := D.taken.2
      unfold DepositTaken at this
      rw [if_neg hm] at this
      rw [hq]
      exact least_self this
  have hmin : n' = e1.totalDeposit ∨ (r.grown n' fee').buyerMinimumDepositCap ≤ e1.totalDeposit - n' := by
    obtain ⟨q, r2, hq, hr2, -, hlim, -⟩ := C05_buyer_limits R hk
    rw [D.escrow.2, hp] at hq; cases hq
    rw [hr] at hr2; cases hr2
    rw [he1]
    show n' = e.totalDeposit + n' ∨ r.buyerMinimumDepositCap ≤ e.totalDeposit + n' - n'
    omega
  have hpost : ∀ k : Tokens, { w1 with
      presales := upd w1.presales y.presale (some { p1 with
        registries := p1.registries.set e1.registryIndex
          { r.grown n' fee' with totalDeposit := (r.grown n' fee').totalDeposit - n' }
        totalDeposit := p1.totalDeposit - n' })
      escrows := w1.escrows.set y.escrow { e1 with totalDeposit := e1.totalDeposit - n' }
      tk := k } = feePaid w x.presale x.escrow p r e fee' k := by
    intro k
    have h1 : w1.presales = upd w.presales x.presale (some p1) := by
      rw [hw1, hgrown, hpa]
    have h2 : w1.escrows = w.escrows.set x.escrow e1 := by rw [hw1, he1]
    rw [h1, h2, hy.1, hy.2.1, upd_upd, AMap.set_set, hw1]
    unfold feePaid
    rw [hpa, he1]
    simp only [Presale.grown, Registry.grown, List.set_set, Nat.add_sub_cancel]
  constructor
  · rintro h
    obtain ⟨p2, e2, r2, n2, k2, D2⟩ := (C72_does_iff R1 tx' (.withdraw y) w2).1 h
    have h := D2.presale
    rw [hy.1, hp1] at h; cases h
    have h := D2.escrow.1
    rw [hy.2.1, hk1] at h; cases h
    have h := D2.registry
    rw [hr1] at h; cases h
    have hn2 : n2 = n' := by
      have h1 := D2.taken.2
      rw [hy.2.2.2.2.2] at h1
      unfold WithdrawTaken at h1 htk
      split at h1
      · exact h1
      · next hc =>
        rw [if_neg hc] at htk
        rcases Nat.lt_or_ge n2 n' with hlt | hge
        · have := htk.least _ hlt
          rw [h1.same] at this
          omega
        · have := h1.le; omega
    subst hn2
    have hqv : p1.quoteTokenVault = p.quoteTokenVault := by rw [hpa]; rfl
    have hqm : p1.quoteMint = p.quoteMint := by rw [hpa]; rfl
    have hpay := D2.payment
    have hhk := D2.hooks
    rw [hqv, hqm] at hpay
    rw [hqm] at hhk
    have hw2 := D2.post.trans (hpost k2)
    have htk2 : w2.tk = k2 := by rw [hw2]; rfl
    exact ⟨D2.fits, hhk, by rw [htk2]; exact hpay, by rw [htk2]; exact hw2⟩
  · rintro ⟨hfit, hhk, hpay, hw2⟩
    refine (C72_does_iff R1 tx' (.withdraw y) w2).2 ⟨p1, e1, r.grown n' fee', n', w2.tk, ?_⟩
    exact
      { presale := by rw [hy.1]; exact hp1
        escrow := ⟨by rw [hy.2.1]; exact hk1, by rw [hy.1, he1]; exact D.escrow.2, by rw [hy.2.2.2.2.1, he1]⟩
        registry := hr1
        accounts := ⟨by rw [hy.2.2.1, hpa]; rfl, by rw [hy.2.2.2.1, hpa]; rfl⟩
        signed := by rw [hy.2.2.2.2.1]; exact hs
        fits := hfit
        ongoing := ho
        allowed := hall
        asked := by rw [hy.2.2.2.2.2, he1]; exact Nat.le_add_left _ _
        taken := ⟨D.taken.1, by rw [hy.2.2.2.2.2]; exact htk⟩
        minimum := hmin
        hooks := by rw [hpa]; exact hhk
        payment := by rw [hpa]; exact hpay
        post := hw2.trans (hpost w2.tk).symm }

/-- **C104.** What it costs: the account that paid and is paid back loses the deposit fee and what the mint withholds on
both ways, the vault keeps the deposit fee, and no other token account changes. -/
theorem C104_cost {w w1 w2 : World} (R : Reachable w) {tx tx' : Tx} {x : DepositAcc} {rc rc' : Receipt}
    {p : Presale} {e e1 : Escrow} {n fee : Nat}
    (hd : step w (.ix tx (.deposit x)) = .ok (w1, rc)) (hp : w.presales x.presale = some p)
    (hk : w.escrows.get? x.escrow = some e) (hk1 : w1.escrows.get? x.escrow = some e1)
    (hn : e1.totalDeposit = e.totalDeposit + n) (hf : e1.totalDepositFee = e.totalDepositFee + fee)
    (hu : step w1 (.ix tx' (.withdraw (takeBack x e.owner n))) = .ok (w2, rc')) :
    ∃ m s v gross, w.tk.mints p.quoteMint = some m ∧ gross - m.transferFee gross = n + fee ∧
      w.tk.toks x.payerQuoteToken = some s ∧ w.tk.toks p.quoteTokenVault = some v ∧
      x.payerQuoteToken ≠ p.quoteTokenVault ∧ gross ≤ s.amount ∧
      w2.tk = { w.tk with
        toks := upd (upd w.tk.toks p.quoteTokenVault (some { v with amount := v.amount + fee })) x.payerQuoteToken
          (some { s with
            amount := s.amount - gross + (n - m.transferFee n), delegate := allowanceLeft s x.payer gross }) } := by
  have R1 : Reachable w1 := R.step (op := .ix tx (.deposit x)) hd
  obtain ⟨p', e', r, m, n', fee', gross, k1, D⟩ := (C72_does_iff R tx (.deposit x) w1).1 ⟨rc, hd⟩
  have h := D.presale
  rw [hp] at h; cases h
  have h := D.escrow.1
  rw [hk] at h; cases h
  have hw1 := D.post
  have he1 : e1 = { e with
      totalDeposit := e.totalDeposit + n'
      totalDepositFee := e.totalDepositFee + fee' } := by
    rw [hw1] at hk1
    simp only [AMap.get?_set, if_true] at hk1
    cases hk1; rfl
  have hnn : n' = n := by rw [he1] at hn; simpa using hn
  have hff : fee' = fee := by rw [he1] at hf; simpa using hf
  subst hnn hff
  have hne := payer_not_vault R D
  obtain ⟨p1, e2, r1, n2, k2, D2⟩ := (C72_does_iff R1 tx' _ w2).1 ⟨rc', hu⟩
  have hclock : w1.clock = w.clock := by rw [hw1]
  have hpa : p1 = afterDeposit p e.registryIndex r n' fee' w.clock.toNat := by
    have := D2.presale
    rw [hw1] at this
    change upd w.presales x.presale _ x.presale = _ at this
    rw [upd_self] at this
    cases this; rfl
  have ho := D2.ongoing
  rw [hclock, hpa] at ho
  obtain ⟨-, hgrown⟩ := still_open ho
  rw [hgrown] at hpa
  have hw2 := C104_undo (w2 := w2) (y := takeBack x e.owner n') (tx' := tx') R hd hp hk D.registry hk1 hn hf
    (by have := D2.allowed; rw [hpa] at this; exact this) D2.presale D2.ongoing
    ⟨rfl, rfl, D.accounts.1, D.accounts.2, rfl, rfl⟩ D2.signed
  obtain ⟨-, -, hpay, -⟩ := hw2.1 ⟨rc', hu⟩
  have htk1 : w1.tk = k1 := by rw [hw1]
  rw [htk1] at hpay
  obtain ⟨-, m1, s, v, hm1, -, hs, -, -, hle, -, hv, -, -, hk1'⟩ := D.payment
  rw [D.mint] at hm1; cases hm1
  obtain ⟨-, m2, v2, s2, hm2, -, hv2, -, hs2, -, -, hcase⟩ := hpay
  refine ⟨m, s, v, gross, D.mint, D.charge.exact, hs, hv, hne, hle, ?_⟩
  rcases hcase with ⟨h, -⟩ | ⟨-, -, h2⟩
  · exact absurd h.symm hne
  rw [hk1'] at hm2 hv2 hs2 h2
  rw [D.mint] at hm2; cases hm2
  simp only [upd_self] at hv2
  cases hv2
  change upd _ _ _ x.payerQuoteToken = _ at hs2
  rw [upd_other _ _ hne, upd_self] at hs2
  cases hs2
  rw [h2, D.charge.exact]
  congr 1
  funext z
  change upd _ x.payerQuoteToken _ z = _
  by_cases h1 : z = x.payerQuoteToken
  · subst h1; rw [upd_self, upd_self]
  · rw [upd_other _ _ h1, upd_other _ _ h1]
    by_cases h2 : z = p.quoteTokenVault
    · subst h2
      rw [upd_self, upd_self]
      simp only [Option.some.injEq, TokAcct.mk.injEq, and_true, true_and]
      omega
    · rw [upd_other _ _ h2, upd_other _ _ h2]
      change upd (upd _ _ _) _ _ z = _
      rw [upd_other _ _ h2, upd_other _ _ h1]

/-- **C104.** Where neither the registry nor the mint takes a fee, depositing and taking back leaves no trace at all:
the ledger is the same as before in every account. -/
theorem C104_no_trace {w w1 : World} (R : Reachable w) {tx tx' : Tx} {x : DepositAcc} {rc : Receipt}
    {p p1 : Presale} {r : Registry} {e e1 : Escrow} {n : Nat} {m : MintInfo} {s : TokAcct}
    (hd : step w (.ix tx (.deposit x)) = .ok (w1, rc)) (hp : w.presales x.presale = some p)
    (hk : w.escrows.get? x.escrow = some e) (hr : p.registries[e.registryIndex]? = some r)
    (hk1 : w1.escrows.get? x.escrow = some e1) (hn : e1.totalDeposit = e.totalDeposit + n)
    (ha : WithdrawAllowed p) (hp1 : w1.presales x.presale = some p1) (ho : Ongoing p1 w1.clock)
    (hs : tx'.signed e.owner = true) (hacc : tx'.accept = true)
    (hm : w.tk.mints p.quoteMint = some m) (hmf : ∀ z, m.transferFee z = 0) (hrf : r.depositFeeBps = 0)
    (ht : w.tk.toks x.payerQuoteToken = some s) (hdel : s.delegate = none) :
    ∃ rc', step w1 (.ix tx' (.withdraw (takeBack x e.owner n))) = .ok (w, rc') := by
  obtain ⟨p', e', r', m', n', fee, gross, k1, D⟩ := (C72_does_iff R tx (.deposit x) w1).1 ⟨rc, hd⟩
  have h := D.presale
  rw [hp] at h; cases h
  have h := D.escrow.1
  rw [hk] at h; cases h
  have h := D.registry
  rw [hr] at h; cases h
  have h := D.mint
  rw [hm] at h; cases h
  have hw1 := D.post
  have he1 : e1 = { e with
      totalDeposit := e.totalDeposit + n'
      totalDepositFee := e.totalDepositFee + fee } := by
    rw [hw1] at hk1
    simp only [AMap.get?_set, if_true] at hk1
    cases hk1; rfl
  have hnn : n' = n := by rw [he1] at hn; simpa using hn
  subst hnn
  have hfee : fee = 0 := by
    have h1 := D.charge.rate
    rw [hrf] at h1
    unfold IsCeilDiv at h1
    omega
  subst hfee
  have hgross : gross = n' := by
    have := D.charge.exact
    rw [hmf] at this
    omega
  subst hgross
  have hne := payer_not_vault R D
  obtain ⟨-, m1, s1, v, hm1, hprog, hs1, hsm, hfro, hle, hcan, hv, hvf, hvlt, hk1'⟩ := D.payment
  rw [hm] at hm1; cases hm1
  rw [ht] at hs1; cases hs1
  have htk1 : w1.tk = k1 := by rw [hw1]
  have hlt := R.winv.core.amounts _ _ ht
  have hsame : allowanceLeft s x.payer gross = s.delegate := by
    unfold allowanceLeft; rw [hdel]
  refine (C104_undo (w2 := w) (y := takeBack x e.owner gross) (tx' := tx') R hd hp hk hr hk1 hn (by rw [he1]) ha hp1 ho
    ⟨rfl, rfl, D.accounts.1, D.accounts.2, rfl, rfl⟩ hs).2 ⟨D.fits.2, ?_, ?_, ?_⟩
  · rw [htk1, hk1']; exact ⟨m, hm, D.hooks⟩
  · rw [htk1, hk1']
    refine ⟨hacc, m, { v with amount := v.amount + (gross - m.transferFee gross) },
      { s with amount := s.amount - gross, delegate := allowanceLeft s x.payer gross }, hm, hprog,
      upd_self _ _ _, hvf, ?_, hsm, hfro, Or.inr ⟨hne.symm, ?_, ?_⟩⟩
    · change upd _ _ _ x.payerQuoteToken = _
      rw [upd_other _ _ hne, upd_self]
    · rw [hmf]
      show s.amount - gross + (gross - 0) < 2 ^ 64
      have := u64Bound_eq
      omega
    · have : w.tk.toks = upd (upd (upd (upd w.tk.toks x.payerQuoteToken (some { s with amount := s.amount - gross, delegate := allowanceLeft s x.payer gross })) p.quoteTokenVault
          (some { v with amount := v.amount + (gross - m.transferFee gross) })) p.quoteTokenVault
          (some { v with amount := v.amount + (gross - m.transferFee gross) - gross })) x.payerQuoteToken
          (some { s with amount := s.amount - gross + (gross - m.transferFee gross), delegate := allowanceLeft s x.payer gross }) := by
        funext z
        by_cases h1 : z = x.payerQuoteToken
        · subst h1
          rw [upd_self, ht, hsame, hmf]
          simp only [Option.some.injEq]
          have : s.amount - gross + (gross - 0) = s.amount := by omega
          rw [this]
        · rw [upd_other _ _ h1]
          by_cases h2 : z = p.quoteTokenVault
          · subst h2
            rw [upd_self, hv, hmf]
            have : v.amount + (gross - 0) - gross = v.amount := by omega
            rw [this]
          · rw [upd_other _ _ h2, upd_other _ _ h2, upd_other _ _ h1]
      exact congrArg (fun f => { w.tk with toks := f }) this
  · unfold feePaid
    simp only [Nat.add_zero]
    rw [List.set_self' hr, upd_same hp, AMap.set_self hk]

/-- **C104.** And so it can be done over and over. -/
theorem C104_rounds {w w1 : World} {tx tx' : Tx} {x : DepositAcc} {owner : Addr} {n : Nat} {rc rc' : Receipt}
    (hd : step w (.ix tx (.deposit x)) = .ok (w1, rc))
    (hu : step w1 (.ix tx' (.withdraw (takeBack x owner n))) = .ok (w, rc')) (k : Nat) :
    run w (rounds tx tx' x owner n k) = w ∧ (trace w (rounds tx tx' x owner n k)).length = 2 * k := by
  induction k with
  | zero => exact ⟨rfl, rfl⟩
  | succ k ih =>
    obtain ⟨h1, h2⟩ := ih
    constructor
    · rw [rounds, run, run, apply_ok hd, apply_ok hu, h1]
    · rw [rounds, trace, hd]
      simp only [List.length_cons]
      rw [trace, hu]
      simp only [List.length_cons, h2]
      omega

/-! ## Examples -/

namespace Ex

/-- A pro-rata sale whose registry charges two per cent, in a token that withholds one per cent. -/
def paidIn : World := run genesis [init 1 0 0 reg1, .tick 10, open' alice, deposit alice aliceQuote 500]

def paidBack : World := apply paidIn (.ix (tx [alice]) (.withdraw (takeBack (depositAcc alice aliceQuote 500) alice 500)))

/-- Deposit 500 and take it back: of 22 lost, 6 and 5 go to the mint and 11 are the fee of the registry, left in the
vault. -/
example : hasEsc paidIn (escrowOf alice) (fun e => e.totalDeposit == 500 && e.totalDepositFee == 11) = true ∧
    has paidIn (fun p => decide (p.presaleMode = 1 ∧ (p.presaleStartTime : Int) ≤ paidIn.clock ∧
      paidIn.clock < (p.presaleEndTime : Int))) = true ∧
    hasEsc paidBack (escrowOf alice) (fun e => e.totalDeposit == 0 && e.totalDepositFee == 11) = true ∧
    has paidBack (fun p => p.totalDeposit == 0 && p.totalDepositFee == 11) = true ∧
    (genesis.tk.toks aliceQuote).map TokAcct.amount = some 100000 ∧
    (paidBack.tk.toks aliceQuote).map TokAcct.amount = some 99978 ∧
    (paidBack.tk.toks (.quoteVault sale)).map TokAcct.amount = some 11 := by
  decide +kernel

/-- A sale with no fee anywhere. -/
def freeOpen : World :=
  run genesis [.setMint qm { program := .splToken2022, isNative := false, exts := [.transferFeeConfig],
                             fee := some { basisPoints := 0, maximumFee := 50 }, hook := none, supply := 200000 },
    init 1 0 0 [{ buyerMinimumDepositCap := 10, buyerMaximumDepositCap := 1000, presaleSupply := 10000,
                  depositFeeBps := 0 }], .tick 10, open' alice]

def freeRounds (k : Nat) : World := run freeOpen (rounds (tx [alice]) (tx [alice]) (depositAcc alice aliceQuote 70) alice 70 k)

/-- Three rounds in it succeed and leave nothing behind. -/
example : hasEsc (apply freeOpen (deposit alice aliceQuote 70)) (escrowOf alice) (fun e => e.totalDeposit == 70) = true ∧
    (trace freeOpen (rounds (tx [alice]) (tx [alice]) (depositAcc alice aliceQuote 70) alice 70 3)).length = 6 ∧
    (freeRounds 3).escrows = freeOpen.escrows ∧ (freeRounds 3).presales sale = freeOpen.presales sale ∧
    (freeRounds 3).tk.toks aliceQuote = freeOpen.tk.toks aliceQuote ∧
    (freeRounds 3).tk.toks (.quoteVault sale) = freeOpen.tk.toks (.quoteVault sale) := by
  decide +kernel

/-- A fixed-price sale of at most 1000. -/
def undoFixed : World := run genesis [fixedArgsOp, init 0 0 1 reg1, .tick 10, open' alice, open' bob]

/-- A deposit that ends the sale cannot be taken back: Bob's 500 fill this one. -/
example : (attempt (run undoFixed [deposit alice aliceQuote 500]) (.ix (tx [alice])
      (.withdraw (takeBack (depositAcc alice aliceQuote 500) alice 500)))).length = 1 ∧
    (attempt (run undoFixed [deposit alice aliceQuote 500, deposit bob bobQuote 500]) (.ix (tx [bob])
      (.withdraw (takeBack (depositAcc bob bobQuote 500) bob 500)))).length = 0 := by
  decide +kernel

end Ex

end Verif
