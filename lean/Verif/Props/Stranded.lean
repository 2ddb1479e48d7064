import Verif.Props.Access
import Verif.Props.Ledger
import Verif.Lemmas.Conserve
import Verif.Lemmas.Origin
import Verif.Examples
/-!
# Money booked for somebody who cannot sign

Neither the owner of an escrow nor the creator of a presale has to sign when they are written down, so either may be
an address nobody can sign for, such as a program address.
-/

namespace Verif
open Spec

/-- No instruction in the history carries the signature of `o`. -/
def Silent (o : Addr) (ops : List Op) : Prop := ∀ tx i, Op.ix tx i ∈ ops → tx.signed o = false

theorem silent_unsignable {o : Addr} (h : o.isKey = false) (ops : List Op) : Silent o ops := by
  intro tx i _
  unfold Tx.signed
  rw [h, Bool.and_false]

/-- **C70.** As long as its owner does not sign, an escrow stays, keeps what was paid in, receives nothing, and is not
marked refunded, whatever everybody else does. -/
theorem C70_escrow_kept {w : World} (R : Reachable w) {k : Addr} {e : Escrow} (hk : w.escrows.get? k = some e)
    (ops : List Op) (hs : Silent e.owner ops) :
    ∃ e', (run w ops).escrows.get? k = some e' ∧ e'.presale = e.presale ∧ e'.owner = e.owner ∧
      e'.registryIndex = e.registryIndex ∧ e.totalDeposit ≤ e'.totalDeposit ∧
      e.totalDepositFee ≤ e'.totalDepositFee ∧ e'.totalClaimedToken = e.totalClaimedToken ∧
      e'.isRemainingQuoteWithdrawn = e.isRemainingQuoteWithdrawn := by
  induction ops generalizing w e with
  | nil => exact ⟨e, hk, rfl, rfl, rfl, Nat.le_refl _, Nat.le_refl _, rfl, rfl⟩
  | cons op ops ih =>
    have hs' : Silent e.owner ops := fun tx i h => hs tx i (List.mem_cons_of_mem _ h)
    show ∃ e', (run (apply w op) ops).escrows.get? k = some e' ∧ _
    rcases apply_cases w op with h | ⟨rc, h⟩
    · rw [h]; exact ih R hk hs'
    · obtain ⟨e1, h1, i1, i2, i3, _, i4, i5, i6, _, i7⟩ := C35_escrow_safe R h hk (fun tx i hop => by
        subst hop; exact hs tx i List.mem_cons_self)
      obtain ⟨e', g1, j1, j2, j3, j4, j5, j6, j7⟩ := ih (R.step h) h1 (by rw [i2]; exact hs')
      exact ⟨e', g1, j1.trans i1, j2.trans i2, j3.trans i3, Nat.le_trans i4 j4, Nat.le_trans i5 j5, j6.trans i6,
        j7.trans i7⟩

/-- **C70.** An escrow whose owner cannot sign has never received anything. -/
theorem C70_never_paid {w : World} (R : Reachable w) {k : Addr} {e : Escrow} (hk : w.escrows.get? k = some e)
    (ho : e.owner.isKey = false) : e.totalClaimedToken = 0 ∧ e.isRemainingQuoteWithdrawn = 0 := by
  obtain ⟨w0, ops, G, rfl⟩ := R
  obtain ⟨pre, op, post, rc, e0, h1, h2, h3, h4, h5, _⟩ := escrow_origin G ops hk
  obtain ⟨_, _, _, _, _, _, _, _, h6, _⟩ := step_opening (G.winv.run pre) h2 h3 h4
  have R1 : Reachable (run w0 (pre ++ [op])) := ⟨w0, _, G, rfl⟩
  obtain ⟨e', g1, _, _, _, _, _, g2, g3⟩ := C70_escrow_kept R1 h4 post (silent_unsignable (by rw [← h5.owner]; exact ho) _)
  have hrun : run (run w0 (pre ++ [op])) post = run w0 ops := by
    rw [← run_append, h1]; simp
  rw [hrun, hk] at g1; cases g1
  rw [g2, g3, h6]; exact ⟨rfl, rfl⟩

/-- **C70.** What an escrow whose owner cannot sign has a right to lies in the vaults for ever: all deposits and fees if
the sale fails, tokens and surplus if it is completed. -/
theorem C70_stranded {w : World} (R : Reachable w) {a k : Addr} {p : Presale} {e : Escrow}
    (hp : w.presales a = some p) (hk : w.escrows.get? k = some e) (ha : e.presale = a)
    (ho : e.owner.isKey = false) (ops : List Op) :
    ∃ p' e' r b q, (run w ops).presales a = some p' ∧ (run w ops).escrows.get? k = some e' ∧
      p'.registries[e'.registryIndex]? = some r ∧
      (run w ops).tk.toks (.baseVault a) = some b ∧ (run w ops).tk.toks (.quoteVault a) = some q ∧
      e.totalDeposit ≤ e'.totalDeposit ∧ e.totalDepositFee ≤ e'.totalDepositFee ∧
      (¬ Completed p' (run w ops).clock → e'.totalDeposit + e'.totalDepositFee ≤ q.amount) ∧
      (Completed p' (run w ops).clock → entitlement p' r e' ≤ b.amount ∧ owedRefund p' r e' ≤ q.amount) := by
  obtain ⟨e', g1, g2, g3, _, g4, g5, _⟩ := C70_escrow_kept R hk ops (silent_unsignable ho ops)
  obtain ⟨p', hp', _⟩ := run_later R.winv ops hp
  have R' := R.run ops
  have ha' : e'.presale = a := g2.trans ha
  obtain ⟨z1, z2⟩ := C70_never_paid R' g1 (by rw [g3]; exact ho)
  obtain ⟨q, hq, _, _, _, hopen, hfail, hcomp⟩ := C01_quote_solvent R' hp'
  obtain ⟨b, hb, _, _, _, _, _, hcomp'⟩ := C02_base_solvent R' hp'
  have S := R'.winv.core.sale _ _ hp'
  obtain ⟨r, hr, _⟩ := S.pinv.escBook g1 ha'
  refine ⟨p', e', r, b, q, hp', g1, hr, hb, hq, g4, g5, fun hn => ?_, fun hc => ⟨?_, ?_⟩⟩
  · by_cases hov : Over p' (run w ops).clock
    · have hf : Failed p' (run w ops).clock := by
        refine ⟨hov, ?_⟩
        by_cases h : p'.presaleMinimumCap ≤ p'.totalDeposit
        · exact absurd ⟨hov, h⟩ hn
        · omega
      have h1 := hfail hf
      have h2 := le_saleSum (fun e => if e.isRemainingQuoteWithdrawn = 1 then 0
          else e.totalDeposit + e.totalDepositFee) g1 ha'
      simp only [z2] at h2
      rw [if_neg (by omega)] at h2
      omega
    · have h1 := hopen hov
      obtain ⟨h2, h3⟩ := S.pinv.book.dep_le g1 ha' hr
      have h4 := le_lsum (g := Registry.totalDeposit) hr
      have h5 := le_lsum (g := Registry.totalDepositFee) hr
      have h6 := S.pinv.book.totDep
      have h7 := S.pinv.book.totFee
      omega
  · have h1 := hcomp' hc
    have h2 := le_saleSum (claimDue p') g1 ha'
    rw [claimDue_eq hr] at h2
    omega
  · have h1 := hcomp hc
    have h2 := le_saleSum (refundDue p') g1 ha'
    rw [refundDue_eq hr] at h2
    unfold outstanding at h2
    rw [if_neg (by omega)] at h2
    omega

/-! ## The creator -/

/-- **C70.** A presale whose creator cannot sign has paid neither raise nor supply nor fees to anybody. -/
theorem C70_creator_never_paid {w : World} (R : Reachable w) {a : Addr} {p : Presale} (hp : w.presales a = some p)
    (ho : p.owner.isKey = false) : p.hasCreatorWithdrawn = 0 ∧ p.depositFeeCollected = 0 := by
  obtain ⟨w0, ops, G, rfl⟩ := R
  induction ops using List.reverseRecOn generalizing p with
  | nil => rw [show run w0 [] = w0 from rfl, G.presales a] at hp; cases hp
  | append_singleton ops op ih =>
    have R0 : Reachable (run w0 ops) := ⟨w0, ops, G, rfl⟩
    have R1 : Reachable (run w0 (ops ++ [op])) := ⟨w0, _, G, rfl⟩
    have hp1 := hp
    rw [run_snoc] at hp R1
    rcases apply_cases (run w0 ops) op with h | ⟨rc, h⟩
    · rw [h] at hp; exact ih ho hp
    · have E := step_effect R0.winv h
      generalize apply (run w0 ops) op = w1 at hp h E R1
      cases E with
      | quiet h1 => rw [h1] at hp; exact ih ho hp
      | @create tx x q _ hf hd h1 _ hc =>
        rw [h1] at hp
        by_cases hx : a = x.presaleKey
        · subst hx
          rw [upd_self] at hp; cases hp
          have S := R1.winv.core.sale _ p (by rw [h1]; exact upd_self _ _ _)
          have h2 := hd.startAhead
          have h3 := hd.duration
          have hopen : w1.clock.toNat < p.presaleEndTime := by rw [hc]; omega
          exact ⟨S.pinv.flags.open_ hopen, (S.pinv.flags.failed (.inl hopen)).1⟩
        · rw [upd_other _ _ hx] at hp; exact ih ho hp
      | @act tx i b q q' es' _ hq A h1 _ _ =>
        rw [h1] at hp
        by_cases hx : a = b
        · subst hx
          rw [upd_self] at hp; cases hp
          have hown : q.owner = p.owner := by
            obtain ⟨p2, hp2, L⟩ := run_later R0.winv [op] hq
            rw [← run_append, hp1] at hp2; cases hp2
            exact (congrArg Presale.owner L.terms).symm
          have ho' : q.owner.isKey = false := by rw [hown]; exact ho
          have hno : ∀ o, q.owner = o → tx.signed o = true → False := by
            intro o h2 h3
            unfold Tx.signed at h3
            rw [← h2, ho', Bool.and_false] at h3; cases h3
          obtain ⟨i1, i2⟩ := ih ho' hq
          cases A with
          | opened => exact ⟨i1, i2⟩
          | deposit _ _ _ _ F => rcases F.result with ⟨h2, _⟩ | ⟨h2, _⟩ <;> rw [h2] <;> exact ⟨i1, i2⟩
          | withdraw _ _ _ _ _ F => rw [F.presale]; exact ⟨i1, i2⟩
          | refreshed => exact ⟨i1, i2⟩
          | claimed => exact ⟨i1, i2⟩
          | refunded => exact ⟨i1, i2⟩
          | closed => exact ⟨i1, i2⟩
          | creatorWithdrew _ h2 h3 => exact (hno _ h2 h3).elim
          | collected _ h2 h3 => exact (hno _ h2 h3).elim
          | unsold => exact ⟨i1, i2⟩
        · rw [upd_other _ _ hx] at hp; exact ih ho hp

/-- **C70.** What a creator who cannot sign has a right to lies in the vaults for ever: raise and fees if the sale is
completed, the whole supply if it fails. -/
theorem C70_creator_stranded {w : World} (R : Reachable w) {a : Addr} {p : Presale} (hp : w.presales a = some p)
    (ho : p.owner.isKey = false) (ops : List Op) :
    ∃ p' b q, (run w ops).presales a = some p' ∧ p'.owner = p.owner ∧
      (run w ops).tk.toks (.baseVault a) = some b ∧ (run w ops).tk.toks (.quoteVault a) = some q ∧
      (Completed p' (run w ops).clock → raise p' + collectableFee p' ≤ q.amount) ∧
      (Failed p' (run w ops).clock → p'.presaleSupply ≤ b.amount) := by
  obtain ⟨p', hp', L⟩ := run_later R.winv ops hp
  have hown : p'.owner = p.owner := (congrArg Presale.owner L.terms :)
  have R' := R.run ops
  obtain ⟨z1, z2⟩ := C70_creator_never_paid R' hp' (by rw [hown]; exact ho)
  obtain ⟨q, hq, _, _, _, _, _, hcomp⟩ := C01_quote_solvent R' hp'
  obtain ⟨b, hb, _, _, _, _, hfail, _⟩ := C02_base_solvent R' hp'
  refine ⟨p', b, q, hp', hown, hb, hq, fun hc => ?_, fun hf => hfail hf z1⟩
  have h1 := hcomp hc
  unfold creatorDue at h1
  rw [if_neg (by omega), if_neg (by omega)] at h1
  omega

/-! ### It happens

Alice opens an escrow in the name of the program's own authority and pays into it; the sale fails. -/

def strandedOps : List Op :=
  [Ex.init 1 0 0 Ex.reg1, .tick 10,
   .ix (Ex.tx [Ex.alice]) (.createEscrow { presale := Ex.sale, owner := .presaleAuthority, payer := Ex.alice }),
   .ix (Ex.tx [Ex.alice]) (.deposit { Ex.depositAcc Ex.alice Ex.aliceQuote 50 with
      escrow := .escrow Ex.sale .presaleAuthority 0 }), .tick 600]

/-- Fifty units and their fee are booked for an owner who cannot sign, in a sale that has failed. -/
example : (match (run Ex.genesis strandedOps).escrows.get? (.escrow Ex.sale .presaleAuthority 0),
      (run Ex.genesis strandedOps).presales Ex.sale with
    | some e, some p => decide (e.presale = Ex.sale ∧ e.owner.isKey = false ∧ 0 < e.totalDeposit ∧ 0 < e.totalDepositFee ∧
        (p.presaleEndTime : Int) ≤ (run Ex.genesis strandedOps).clock ∧ p.totalDeposit < p.presaleMinimumCap)
    | _, _ => false) = true := by decide +kernel

/-- A sale created in the name of the program's own authority. -/
def strandedSaleOps : List Op :=
  [.ix (Ex.tx [Ex.creator, Ex.baseKey]) (.initPresale { Ex.initArgs 1 0 0 Ex.reg1 with creator := .presaleAuthority }),
   .tick 10, Ex.open' Ex.alice, Ex.deposit Ex.alice Ex.aliceQuote 900, .tick 600]

/-- It is completed, and nobody can sign for its creator. -/
example : (match (run Ex.genesis strandedSaleOps).presales Ex.sale with
    | some p => decide (p.owner.isKey = false ∧ (p.presaleEndTime : Int) ≤ (run Ex.genesis strandedSaleOps).clock ∧
        p.presaleMinimumCap ≤ p.totalDeposit ∧ 0 < raise p ∧ 0 < collectableFee p)
    | none => false) = true := by decide +kernel

end Verif
