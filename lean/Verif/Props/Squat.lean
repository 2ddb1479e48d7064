import Verif.Props.Readme
import Verif.Lemmas.Origin
import Verif.SpecWindup
import Verif.Lemmas.MachineSale
/-!
# C100: whoever fills a sale is bound, and when not

A sale with a limit on the total takes nothing once the limit is reached. If reaching it ends the sale, or if there
are no withdrawals, whoever filled it stays in. A fixed-price sale can be created with withdrawals and without ending
early (params.rs:134, fixed_price_presale.rs:79-107): there whoever fills it keeps everybody else out and may leave
in the last second.
-/

namespace Verif
open Spec

/-- The sale has taken all it may take. -/
def Spec.Full (p : Presale) : Prop := p.presaleMode ≠ 1 ∧ p.presaleMaximumCap ≤ p.totalDeposit

/-- Withdrawals are allowed during the sale, there is a limit on the total, and reaching it does not end the sale. -/
def Spec.Squattable (p : Presale) : Prop := p.presaleMode ≠ 1 ∧ WithdrawAllowed p ∧ ¬ EarlyEndAllowed p

theorem squattable_of_terms {p p' : Presale} (h : terms p' = terms p) : Squattable p' ↔ Squattable p := by
  have e1 : p'.presaleMode = p.presaleMode := (congrArg Presale.presaleMode h :)
  have e3 : p'.raw1 = p.raw1 := (congrArg Presale.raw1 h :)
  unfold Squattable
  rw [early_of_terms h]
  unfold WithdrawAllowed
  rw [e1, e3]

/-- A sale that may end early and has reached its maximum is over. -/
theorem full_is_over {w : World} (R : Reachable w) {a : Addr} {p : Presale} (hp : w.presales a = some p)
    (he : EarlyEndAllowed p) (hf : p.presaleMaximumCap ≤ p.totalDeposit) : Over p w.clock := by
  obtain ⟨w0, ops, G, rfl⟩ := R
  obtain ⟨pre, tx, x, post, rc, h1, h2, h3⟩ := presale_origin G ops hp
  obtain ⟨q, hq, hend⟩ := C87_end ⟨w0, pre, G, rfl⟩ h3 post
  have hrun : run (run w0 (pre ++ [.ix tx (.initPresale x)])) post = run w0 ops := by
    rw [h1, ← run_append]; simp
  rw [hrun] at hq hend
  rw [h2, hp] at hq; cases hq
  rcases hend with ⟨h, -⟩ | ⟨-, -, -, h⟩
  · exact absurd ⟨he, hf⟩ h
  · exact h

/-- **C100.** A full sale takes no further deposit from anybody. -/
theorem C100_full_refuses {w : World} (R : Reachable w) {a : Addr} {p : Presale} (hp : w.presales a = some p)
    (hf : Full p) {tx : Tx} {x : DepositAcc} (hx : x.presale = a) :
    ∃ e, step w (.ix tx (.deposit x)) = .error e := by
  cases h : step w (.ix tx (.deposit x)) with
  | error e => exact ⟨e, rfl⟩
  | ok v =>
    obtain ⟨w', rc⟩ := v
    exfalso
    obtain ⟨q, q', e, e', r, r', n, fee, gross, D⟩ := C06_deposit R h
    have g1 := D.presale
    have g2 := D.presale'
    rw [hx] at g1 g2
    rw [hp] at g1; cases g1
    obtain ⟨q2, hq2, L⟩ := (step_effect R.winv h).later R.winv hp
    rw [g2] at hq2; cases hq2
    have hm : q'.presaleMode = p.presaleMode := (congrArg Presale.presaleMode L.terms :)
    have hc : q'.presaleMaximumCap = p.presaleMaximumCap := (congrArg Presale.presaleMaximumCap L.terms :)
    have h1 := (C04_hard_cap (R.step h) g2 (by rw [hm]; exact hf.1)).1
    have h2 := hf.2
    have h3 := D.positive
    have h4 := D.presaleDeposit.1
    omega

/-- Only withdrawals lower the total of a sale. -/
theorem total_falls {w w' : World} (R : Reachable w) {op : Op} {rc : Receipt} (hs : step w op = .ok (w', rc))
    {a : Addr} {p p' : Presale} (hp : w.presales a = some p) (hp' : w'.presales a = some p') :
    p.totalDeposit ≤ p'.totalDeposit ∨ (Ongoing p w.clock ∧ WithdrawAllowed p) := by
  have E := step_effect R.winv hs
  cases E with
  | quiet h => rw [h, hp] at hp'; cases hp'; exact .inl le_rfl
  | @create tx x q h1 h2 h3 h4 h5 h6 =>
    have hne : a ≠ x.presaleKey := by rintro rfl; rw [hp] at h2; cases h2
    rw [h4, upd_other _ _ hne, hp] at hp'; cases hp'; exact .inl le_rfl
  | @act tx i b q q' es' h1 h2 h3 h4 h5 h6 =>
    by_cases hb : a = b
    · subst hb
      rw [hp] at h2; cases h2
      rw [h4, upd_self] at hp'; cases hp'
      cases h3 with
      | deposit _ _ _ _ facts =>
        left
        rw [facts.totals.1]
        exact Nat.le_add_right _ _
      | withdraw here =>
        subst h1
        obtain ⟨p1, _, _, _, _, _, _, D⟩ := C25_withdraw R hs
        have g := D.presale
        rw [here, hp] at g; cases g
        exact .inr ⟨D.ongoing, D.allowed⟩
      | opened => exact .inl le_rfl
      | refreshed => exact .inl le_rfl
      | claimed => exact .inl le_rfl
      | refunded => exact .inl le_rfl
      | closed => exact .inl le_rfl
      | creatorWithdrew => exact .inl le_rfl
      | collected => exact .inl le_rfl
      | unsold => exact .inl le_rfl
    · rw [h4, upd_other _ _ hb, hp] at hp'; cases hp'; exact .inl le_rfl

theorem withdrawAllowed_of_terms {p p' : Presale} (h : terms p' = terms p) :
    WithdrawAllowed p' ↔ WithdrawAllowed p := by
  have e1 : p'.presaleMode = p.presaleMode := (congrArg Presale.presaleMode h :)
  have e3 : p'.raw1 = p.raw1 := (congrArg Presale.raw1 h :)
  unfold WithdrawAllowed
  rw [e1, e3]

/-- **C100**, no way back. In a sale whose terms do not allow withdrawals the total never falls. -/
theorem C100_total_grows {w : World} (R : Reachable w) {a : Addr} {p : Presale} (hp : w.presales a = some p)
    (hn : ¬ WithdrawAllowed p) (ops : List Op) :
    ∃ p', (run w ops).presales a = some p' ∧ p.totalDeposit ≤ p'.totalDeposit := by
  induction ops generalizing w p with
  | nil => exact ⟨p, hp, le_rfl⟩
  | cons op ops ih =>
    cases h : step w op with
    | error e =>
      have : apply w op = w := by unfold apply; rw [h]
      change ∃ p', (run (apply w op) ops).presales a = some p' ∧ _
      rw [this]
      exact ih R hp hn
    | ok v =>
      obtain ⟨w1, rc⟩ := v
      have : apply w op = w1 := by unfold apply; rw [h]
      obtain ⟨q, hq, L⟩ := (step_effect R.winv h).later R.winv hp
      obtain ⟨p', h1, h2⟩ := ih (R.step h) hq (fun g => hn ((withdrawAllowed_of_terms L.terms).1 g))
      change ∃ p', (run (apply w op) ops).presales a = some p' ∧ _
      rw [this]
      refine ⟨p', h1, ?_⟩
      rcases total_falls R h hp hq with g | g
      · omega
      · exact absurd g.2 hn

/-- **C100**, bound. Once a sale with a limit on the total is full, no history changes the total, unless the
sale lets people withdraw and does not end when it is full. -/
theorem C100_full_stays {w : World} (R : Reachable w) {a : Addr} {p : Presale} (hp : w.presales a = some p)
    (hf : Full p) (hn : ¬ Squattable p) (ops : List Op) :
    ∃ p', (run w ops).presales a = some p' ∧ p'.totalDeposit = p.totalDeposit := by
  induction ops generalizing w p with
  | nil => exact ⟨p, hp, rfl⟩
  | cons op ops ih =>
    cases h : step w op with
    | error e =>
      have : apply w op = w := by unfold apply; rw [h]
      change ∃ p', (run (apply w op) ops).presales a = some p' ∧ _
      rw [this]
      exact ih R hp hf hn
    | ok v =>
      obtain ⟨w1, rc⟩ := v
      have : apply w op = w1 := by unfold apply; rw [h]
      obtain ⟨q, hq, L⟩ := (step_effect R.winv h).later R.winv hp
      have hm : q.presaleMode = p.presaleMode := (congrArg Presale.presaleMode L.terms :)
      have hc : q.presaleMaximumCap = p.presaleMaximumCap := (congrArg Presale.presaleMaximumCap L.terms :)
      have up : p.totalDeposit ≤ q.totalDeposit := by
        rcases total_falls R h hp hq with g | ⟨g1, g2⟩
        · exact g
        · exfalso
          have he : EarlyEndAllowed p := by
            by_contra he
            exact hn ⟨hf.1, g2, he⟩
          have := full_is_over R hp he hf.2
          unfold Over at this
          unfold Ongoing at g1
          omega
      have down : q.totalDeposit ≤ p.totalDeposit := by
        rcases total_rises R h hp hq with g | ⟨tx, x, rfl, hx⟩
        · exact g
        · obtain ⟨e, he⟩ := C100_full_refuses R hp hf (tx := tx) hx
          rw [h] at he; cases he
      obtain ⟨p', h1, h2⟩ := ih (R.step h) hq
        ⟨by rw [hm]; exact hf.1, by rw [hc]; exact hf.2.trans up⟩
        (fun g => hn ((squattable_of_terms L.terms).1 g))
      change ∃ p', (run (apply w op) ops).presales a = some p' ∧ _
      rw [this]
      exact ⟨p', h1, by omega⟩

/-- **C100**, not bound. In every other sale that is full, whoever holds a deposit can take it all back as long
as the sale is open, and the total falls below the maximum again. -/
theorem C100_squat_exit {w : World} (R : Reachable w) {tx : Tx} {x : WithdrawAcc} {p : Presale} {e : Escrow}
    (hp : w.presales x.presale = some p) (he : w.escrows.get? x.escrow = some e)
    (hb : e.presale = x.presale) (ho : x.owner = e.owner) (hs : tx.signed e.owner = true)
    (hongoing : Ongoing p w.clock) (hsq : Squattable p)
    (hpos : 0 < e.totalDeposit) (hall : x.maxAmount = e.totalDeposit)
    (hv : x.quoteTokenVault = p.quoteTokenVault) (hm : x.quoteMint = p.quoteMint)
    (hpay : Payable w.tk tx .transferHookQuote p.quoteMint p.quoteTokenVault x.ownerQuoteToken x.tokenProgram
      x.remaining x.slices e.totalDeposit) :
    ∃ w' rc p', step w (.ix tx (.withdraw x)) = .ok (w', rc) ∧ w'.presales x.presale = some p' ∧
      p'.totalDeposit + e.totalDeposit = p.totalDeposit ∧ p'.totalDeposit < p'.presaleMaximumCap ∧
      Ongoing p' w'.clock ∧ Squattable p' := by
  obtain ⟨w', rc, e', h, h1, h2, -⟩ := C25_exit R hp he hb ho hs hongoing hsq.2.1 hpos hall hv hm hpay
  obtain ⟨q, q', f, f', r, r', n, D⟩ := C25_withdraw R h
  have g := D.presale
  rw [hp] at g; cases g
  have g := D.escrow
  rw [he] at g; cases g
  have g := D.escrow'
  rw [h1] at g; cases g
  have k1 := D.escrowDeposit.1
  have k2 := D.presaleDeposit.1
  obtain ⟨q2, hq2, L⟩ := (step_effect R.winv h).later R.winv hp
  rw [D.presale'] at hq2; cases hq2
  have hc : q'.presaleMaximumCap = p.presaleMaximumCap := (congrArg Presale.presaleMaximumCap L.terms :)
  have cap := (C04_hard_cap R hp hsq.1).1
  refine ⟨w', rc, q', h, D.presale', by omega, by omega, ?_, (squattable_of_terms L.terms).2 hsq⟩
  obtain ⟨p1, e1, r1, n1, k1', W⟩ := (does_withdraw R).1 ⟨_, h⟩
  have g := W.presale
  rw [hp] at g; cases g
  have g := D.presale'
  rw [W.post] at g ⊢
  simp only [upd_self] at g
  cases g
  exact hongoing

namespace Ex

/-- The sale at a fixed price of 2.5, open for ten minutes, that lets people withdraw and goes on when full. -/
def squatInit : InitPresaleAcc :=
  { initArgs 0 0 1 reg1 with
    args := { (initArgs 0 0 1 reg1).args with
      presaleParams := { params 0 0 1 with disableEarlierPresaleEndOnceCapReached := 1 } } }

/-- A plain quote mint, without the transfer fee of the other examples. -/
def squatMint : MintInfo :=
  { program := .splToken2022, isNative := false, exts := [], fee := none, hook := none, supply := 200000 }

def squatGenesis : World := { genesis with tk := ⟨genesisToks, upd genesisMints qm (some squatMint)⟩ }

theorem squatGenesis_ok : Genesis squatGenesis := by
  have G := genesis_ok
  refine ⟨G.presales, G.escrows, G.merkleRoots, G.operators, G.metadata, G.fixedArgs, G.vaults, G.amounts, ?_⟩
  intro a m h
  rcases upd_cases h with ⟨rfl, h1⟩ | h1
  · cases h1; decide +kernel
  · exact G.mints a m h1

/-- The sale is created and opens, and two people take an escrow. -/
def squatOps : List Op :=
  [fixedArgsOp, .ix (tx [creator, baseKey]) (.initPresale squatInit), .tick 10, open' alice, open' bob]

def squatOpen : World := run squatGenesis squatOps
/-- Alice fills the sale at once. -/
def squatFull : World := run squatOpen [deposit alice aliceQuote 1000]
/-- The last second of the sale. -/
def squatLast : World := run squatFull [.tick 589]
/-- Alice has withdrawn, and the sale is over. -/
def squatOver : World := run squatLast [withdraw alice aliceQuote 1000, .tick 1]
/-- Alice has taken the fee back as well. -/
def squatBack : World := run squatOver [refund alice aliceQuote]

theorem tick_presales (w : World) (n : Nat) : (apply w (.tick n)).presales = w.presales := by
  rcases apply_cases w (.tick n) with h | ⟨rc, h⟩
  · rw [h]
  · simp only [step] at h
    first
      | (cases h; rfl)
      | (split at h <;> cases h; rfl)

theorem has_some {w : World} {f : Presale → Bool} (h : has w f = true) :
    ∃ p, w.presales sale = some p ∧ f p = true := by
  unfold has at h
  split at h
  · next p hp => exact ⟨p, hp, h⟩
  · cases h

end Ex

/-- **C100**, squatting. There is a sale that somebody fills as soon as it opens, so that it takes no deposit
from anybody for the rest of its time; in its last second they withdraw; the sale fails; and in the end they
have every token they had before. -/
theorem C100_squat : ∃ (w : World) (a tok : Addr) (fill leave back : Op), Reachable w ∧
    (∃ p, w.presales a = some p ∧ Squattable p ∧ Ongoing p w.clock ∧ p.totalDeposit = 0 ∧
      w.clock + 589 < p.presaleEndTime) ∧
    (∀ n tx x, x.presale = a →
      ∃ err, step (run w [fill, .tick n]) (.ix tx (.deposit x)) = .error err) ∧
    (∃ p, (run w [fill, .tick 589, leave, .tick 1]).presales a = some p ∧
      Failed p (run w [fill, .tick 589, leave, .tick 1]).clock) ∧
    amountOf (run w [fill, .tick 589, leave, .tick 1, back]).tk tok = amountOf w.tk tok := by
  refine ⟨Ex.squatOpen, Ex.sale, Ex.aliceQuote, Ex.deposit Ex.alice Ex.aliceQuote 1000,
    Ex.withdraw Ex.alice Ex.aliceQuote 1000, Ex.refund Ex.alice Ex.aliceQuote,
    ⟨_, _, Ex.squatGenesis_ok, rfl⟩, ?_, ?_, ?_, by decide +kernel⟩
  · have h : Ex.has Ex.squatOpen (fun p => decide ((p.presaleMode = 0 ∧ p.raw1 % 256 = 0 ∧
        p.raw1 / 256 % 256 ≠ 0) ∧ ((p.presaleStartTime : Int) ≤ Ex.squatOpen.clock ∧
        Ex.squatOpen.clock < p.presaleEndTime) ∧ p.totalDeposit = 0 ∧
        Ex.squatOpen.clock + 589 < p.presaleEndTime)) = true := by decide +kernel
    obtain ⟨p, hp, h⟩ := Ex.has_some h
    obtain ⟨⟨h1, h2, h3⟩, h4, h5, h6⟩ := of_decide_eq_true h
    refine ⟨p, hp, ⟨by omega, .inr ⟨by omega, h2⟩, ?_⟩, h4, h5, h6⟩
    unfold EarlyEndAllowed
    omega
  · intro n tx x hx
    have h : Ex.has Ex.squatFull (fun p => decide (p.presaleMode ≠ 1 ∧
        p.presaleMaximumCap ≤ p.totalDeposit)) = true := by decide +kernel
    obtain ⟨p, hp, h⟩ := Ex.has_some h
    have R : Reachable (run Ex.squatOpen [Ex.deposit Ex.alice Ex.aliceQuote 1000, .tick n]) :=
      Reachable.run ⟨_, _, Ex.squatGenesis_ok, rfl⟩ _
    have h' := of_decide_eq_true h
    refine C100_full_refuses R (p := p) ?_ h' hx
    change (apply Ex.squatFull (.tick n)).presales Ex.sale = some p
    rw [Ex.tick_presales, hp]
  · have h : Ex.has Ex.squatOver (fun p => decide ((p.presaleEndTime : Int) ≤ Ex.squatOver.clock ∧
        p.totalDeposit < p.presaleMinimumCap)) = true := by decide +kernel
    obtain ⟨p, hp, h⟩ := Ex.has_some h
    have h' := of_decide_eq_true h
    exact ⟨p, hp, h'⟩

namespace Ex

/-- The hypotheses of `C100_full_stays`: the same sale, ending once it is full, is over when alice has filled it. -/
def boundFull : World :=
  run squatGenesis [fixedArgsOp, init 0 0 1 reg1, .tick 10, open' alice, open' bob, deposit alice aliceQuote 1000]

example : Reachable boundFull ∧
    has boundFull (fun p => decide (p.presaleMode = 0 ∧ p.presaleMaximumCap ≤ p.totalDeposit ∧
      p.raw1 / 256 % 256 = 0 ∧ (p.presaleEndTime : Int) ≤ boundFull.clock)) = true ∧
    works boundFull (withdraw alice aliceQuote 1000) = false := ⟨⟨_, _, squatGenesis_ok, rfl⟩, by decide +kernel⟩

/-- The hypotheses of `C100_total_grows`: a sale that is first come, first served, before it is full. -/
example : Reachable fcfsOpen ∧ has fcfsOpen (fun p => decide (p.presaleMode = 2 ∧ p.totalDeposit = 900)) = true ∧
    works fcfsOpen (deposit bob bobQuote 50) = true := ⟨reachable _, by decide +kernel⟩

/-- The hypotheses of `C100_squat_exit`, met in the last second. -/
example : Reachable squatLast ∧
    has squatLast (fun p => decide (p.presaleMode = 0 ∧ p.raw1 % 256 = 0 ∧ p.raw1 / 256 % 256 ≠ 0 ∧
      (p.presaleStartTime : Int) ≤ squatLast.clock ∧ squatLast.clock < p.presaleEndTime ∧
      p.presaleMaximumCap ≤ p.totalDeposit)) = true ∧
    hasEsc squatLast (escrowOf alice) (fun e => decide (e.totalDeposit = 1000)) = true ∧
    works squatLast (withdraw alice aliceQuote 1000) = true :=
  ⟨Reachable.run (Reachable.run ⟨_, _, squatGenesis_ok, rfl⟩ _) _, by decide +kernel⟩

end Ex

end Verif
