import Verif.Lemmas.MachineInit
/-!
# The program as a relation

C72: the program does exactly what the reference semantics `Spec.Does` says, instruction by instruction, and
hence the same ledgers arise.
-/

namespace Verif
open Spec

/-- **C72.** In every reachable state an instruction succeeds with result `w'` if and only if the reference
semantics relates the state to `w'`. -/
theorem C72_does_iff {w : World} (R : Reachable w) (tx : Tx) (i : Ix) (w' : World) :
    (∃ rc, step w (.ix tx i) = .ok (w', rc)) ↔ Does w tx i w' := by
  have W := R.winv
  cases i with
  | initFixedArgs a => exact does_initFixedArgs
  | closeFixedArgs a => exact does_closeFixedArgs
  | initPresale a => exact does_initPresale R
  | createMerkle a => exact does_createMerkle W
  | closeMerkle a => exact does_closeMerkle W
  | createEscrow a => exact does_createEscrow W
  | createEscrowCreator a => exact does_createEscrowCreator W
  | createEscrowMerkle a => exact does_createEscrowMerkle W
  | createOperator a => exact does_createOperator
  | revokeOperator a => exact does_revokeOperator
  | deposit a => exact does_deposit R
  | withdraw a => exact does_withdraw R
  | claim a => exact does_claim R
  | refund a => exact does_refund R
  | unsold a => exact does_unsold R
  | closeEscrow a => exact does_closeEscrow R
  | creatorWithdraw a => exact does_creatorWithdraw R
  | refresh a => exact does_refresh R (tx := tx)
  | createMetadata a => exact does_createMetadata W
  | closeMetadata a => exact does_closeMetadata
  | collectFee a => exact does_collectFee R

/-- **C72.** An instruction is refused exactly when the reference semantics allows no result. -/
theorem C72_refused_iff {w : World} (R : Reachable w) (tx : Tx) (i : Ix) :
    (∃ e, step w (.ix tx i) = .error e) ↔ ∀ w', ¬ Does w tx i w' := by
  constructor
  · rintro ⟨e, he⟩ w' hd
    obtain ⟨rc, h⟩ := (C72_does_iff R tx i w').2 hd
    rw [he] at h; cases h
  · intro h
    cases hs : step w (.ix tx i) with
    | error e => exact ⟨e, rfl⟩
    | ok x => exact absurd ((C72_does_iff R tx i x.1).1 ⟨x.2, hs⟩) (h x.1)

/-- **C72.** The reference semantics is deterministic: its amounts are determined by what they satisfy. -/
theorem C72_functional {w : World} (R : Reachable w) {tx : Tx} {i : Ix} {w1 w2 : World} (h1 : Does w tx i w1)
    (h2 : Does w tx i w2) : w1 = w2 := by
  obtain ⟨r1, g1⟩ := (C72_does_iff R tx i w1).2 h1
  obtain ⟨r2, g2⟩ := (C72_does_iff R tx i w2).2 h2
  rw [g1] at g2; cases g2; rfl

theorem wellFormed_iff {m : MintInfo} : m.wellFormed = true ↔
    m.supply < 2 ^ 64 ∧ ∀ f, m.fee = some f → f.basisPoints ≤ 10000 ∧ f.maximumFee < 2 ^ 64 := by
  unfold MintInfo.wellFormed
  rw [u64Bound_eq]
  cases h : m.fee with
  | none => simp
  | some f =>
    simp only [Bool.and_eq_true, decide_eq_true_eq, Option.some.injEq, forall_eq']
    exact Iff.rfl

theorem outside_iff {w w' : World} : Outside w w' ↔
    ∃ op rc, (∀ tx i, op ≠ .ix tx i) ∧ step w op = .ok (w', rc) := by
  have hB := u64Bound_eq
  constructor
  · intro h
    cases h with
    | time s => exact ⟨.tick s, _, fun _ _ h => (by cases h), rfl⟩
    | account a t hf hx =>
      refine ⟨.setTok a t, noReceipt, fun _ _ h => (by cases h), ?_⟩
      simp only [step, bind_eq_ok, require_eq_ok, pure_eq_ok]
      exact ⟨(), hf, (), fun x hx' => by rw [hB]; exact hx x hx', trivial⟩
    | gift a t n ht hn =>
      refine ⟨.donate a n, noReceipt, fun _ _ h => (by cases h), ?_⟩
      simp only [step, bind_eq_ok, require_eq_ok, pure_eq_ok, load_eq_ok]
      exact ⟨t, ht, (), by rw [hB]; exact hn, rfl⟩
    | freeze a t b ht =>
      refine ⟨.freezeVault a b, noReceipt, fun _ _ h => (by cases h), ?_⟩
      simp only [step, bind_eq_ok, pure_eq_ok, load_eq_ok]
      exact ⟨t, ht, rfl⟩
    | mint a m hs hf hk =>
      refine ⟨.setMint a m, noReceipt, fun _ _ h => (by cases h), ?_⟩
      simp only [step, bind_eq_ok, require_eq_ok, pure_eq_ok]
      exact ⟨(), wellFormed_iff.2 ⟨hs, hf⟩, (), fun old ho h => hk old ho (supported_iff.1 h), trivial⟩
  · rintro ⟨op, rc, hne, hs⟩
    cases op with
    | tick s => cases hs; exact .time s
    | setTok a t =>
      simp only [step, bind_eq_ok, require_eq_ok, pure_eq_ok, Prod.mk.injEq] at hs
      obtain ⟨_, h1, _, h2, rfl, _⟩ := hs
      exact .account a t h1 (fun x hx => by have := h2 x hx; rw [hB] at this; exact this)
    | donate a n =>
      simp only [step, bind_eq_ok, require_eq_ok, pure_eq_ok, load_eq_ok, Prod.mk.injEq] at hs
      obtain ⟨t, h1, _, h2, rfl, _⟩ := hs
      exact .gift a t n h1 (by rw [hB] at h2; exact h2)
    | freezeVault a b =>
      simp only [step, bind_eq_ok, pure_eq_ok, load_eq_ok, Prod.mk.injEq] at hs
      obtain ⟨t, h1, rfl, _⟩ := hs
      exact .freeze a t b h1
    | setMint a m =>
      simp only [step, bind_eq_ok, require_eq_ok, pure_eq_ok, Prod.mk.injEq] at hs
      obtain ⟨_, h1, _, h2, rfl, _⟩ := hs
      obtain ⟨h3, h4⟩ := wellFormed_iff.1 h1
      exact .mint a m h3 h4 (fun old ho hA => h2 old ho (supported_iff.2 hA))
    | ix tx i => exact absurd rfl (hne tx i)

/-- **C72.** The ledgers the program can reach are exactly those that arise in the reference semantics. -/
theorem C72_reachable_iff (w : World) : Reachable w ↔ Arises w := by
  constructor
  · rintro ⟨w0, ops, hg, rfl⟩
    have key : ∀ (ops : List Op) (w : World), Reachable w → Arises w → Arises (Verif.run w ops) := by
      intro ops
      induction ops with
      | nil => intro w _ h; exact h
      | cons op ops ih =>
        intro w R h
        have R' : Reachable (apply w op) := R.run [op]
        refine ih _ R' ?_
        unfold apply
        cases hs : step w op with
        | error e => exact h
        | ok x =>
          obtain ⟨w', rc⟩ := x
          by_cases hi : ∃ tx i, op = .ix tx i
          · obtain ⟨tx, i, rfl⟩ := hi
            exact .instruction h ((C72_does_iff R tx i w').1 ⟨rc, hs⟩)
          · exact .outside h (outside_iff.2 ⟨op, rc, fun tx i he => hi ⟨tx, i, he⟩, hs⟩)
    exact key ops w0 ⟨w0, [], hg, rfl⟩ (.empty hg)
  · intro h
    induction h with
    | empty g => exact ⟨_, [], g, rfl⟩
    | outside _ o ih =>
      obtain ⟨op, rc, _, hs⟩ := outside_iff.1 o
      exact ih.step hs
    | instruction _ d ih =>
      obtain ⟨rc, hs⟩ := (C72_does_iff ih _ _ _).2 d
      exact ih.step hs


namespace Ex

theorem reachOpen72 : Reachable prorataOpen := ⟨genesis, _, genesis_ok, rfl⟩

theorem reachVested72 : Reachable prorataVested := ⟨genesis, _, genesis_ok, rfl⟩

theorem reachDone72 : Reachable prorataDone := ⟨genesis, _, genesis_ok, rfl⟩

theorem does_of_works {w : World} (R : Reachable w) {t : Tx} {i : Ix} (h : works w (.ix t i) = true) :
    ∃ w', Does w t i w' := by
  unfold works at h
  cases hs : step w (.ix t i) with
  | error e => rw [hs] at h; cases h
  | ok x => exact ⟨x.1, (C72_does_iff R t i x.1).1 ⟨x.2, hs⟩⟩

theorem not_does_of_works {w : World} (R : Reachable w) {t : Tx} {i : Ix} (h : works w (.ix t i) = false) (w' : World) :
    ¬ Does w t i w' := by
  intro hd
  obtain ⟨rc, hs⟩ := (C72_does_iff R t i w').2 hd
  unfold works at h
  rw [hs] at h; cases h

/-- Both sides of C72 occur: a deposit, a claim, a refund and a withdrawal of the creator are related to a
result, a claim signed by somebody else and a second refund are not. -/
example : (∃ w', Does prorataOpen (tx [alice]) (.deposit (depositAcc alice aliceQuote 10)) w') ∧
    (∃ w', Does prorataVested (tx [alice]) (.claim (claimAcc alice aliceBase)) w') ∧
    (∃ w', Does prorataDone (tx [alice]) (.refund (refundAcc alice aliceQuote)) w') ∧
    (∃ w', Does prorataDone (tx [creator]) (.creatorWithdraw creatorWithdrawAcc) w') ∧
    (∀ w', ¬ Does prorataVested (tx [bob, creator]) (.claim (claimAcc alice aliceBase)) w') ∧
    (∀ w', ¬ Does (run prorataDone [refund alice aliceQuote]) (tx [alice]) (.refund (refundAcc alice aliceQuote)) w') :=
  ⟨does_of_works reachOpen72 (by decide +kernel), does_of_works reachVested72 (by decide +kernel),
   does_of_works reachDone72 (by decide +kernel), does_of_works reachDone72 (by decide +kernel),
   not_does_of_works reachVested72 (by decide +kernel), not_does_of_works (reachDone72.run _) (by decide +kernel)⟩

end Ex

end Verif
