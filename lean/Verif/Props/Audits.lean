import Verif.Props.Share
import Verif.Props.Lifecycle
import Verif.Props.Admin
/-!
# C85: what the audits found
-/

namespace Verif
open Spec

/-- An instruction by which somebody gets into the sale at `a` or out of it again. -/
def Spec.EntersOrLeaves (a : Addr) : Ix → Prop
  | .createEscrow x => x.presale = a
  | .createEscrowCreator x => x.presale = a
  | .createEscrowMerkle x => x.presale = a
  | .deposit x => x.presale = a
  | .withdraw x => x.presale = a
  | _ => False

/-- **C85.** Once a sale that may end early has reached its maximum, even within the same transaction or second nobody
gets in or out any more, whatever happens, and the sale stays completed with the same total. -/
theorem C85_reached_is_final {w w' : World} (R : Reachable w) {tx : Tx} {x : DepositAcc} {rc : Receipt}
    (hs : step w (.ix tx (.deposit x)) = .ok (w', rc)) {p' : Presale} (hp' : w'.presales x.presale = some p')
    (he : EarlyEndAllowed p') (hc : p'.presaleMaximumCap ≤ p'.totalDeposit) (ops : List Op) :
    ∃ p'', (run w' ops).presales x.presale = some p'' ∧ Completed p'' (run w' ops).clock ∧
      p''.totalDeposit = p'.totalDeposit ∧
      ∀ tx' i w'' rc', EntersOrLeaves x.presale i → step (run w' ops) (.ix tx' i) ≠ .ok (w'', rc') := by
  have R' := R.step hs
  obtain ⟨q, q', hq, hq', hclock, h⟩ := C18_early_finish R hs
  rw [hp'] at hq'; cases hq'
  have hterms : terms p' = terms q := by
    obtain ⟨q1, h1, L⟩ := (step_effect R.winv hs).later R.winv hq
    rw [hp'] at h1; cases h1; exact L.terms
  have e1 : p'.presaleMode = q.presaleMode := (congrArg Presale.presaleMode hterms :)
  have e2 : p'.raw0 = q.raw0 := (congrArg Presale.raw0 hterms :)
  have e3 : p'.raw1 = q.raw1 := (congrArg Presale.raw1 hterms :)
  have e4 : p'.presaleMaximumCap = q.presaleMaximumCap := (congrArg Presale.presaleMaximumCap hterms :)
  have hdone : Completed p' w'.clock := by
    rcases h with h | h
    · exact h.2.2.2.2.1
    · refine absurd ⟨?_, by omega⟩ h.1
      unfold EarlyEndAllowed at *
      rw [← e1, ← e2, ← e3]; exact he
  obtain ⟨p'', hp'', hC, -, -, -⟩ := C16_irreversible R' hp' ops
  have hC := hC hdone
  obtain ⟨p2, hp2, L⟩ := run_later R'.winv ops hp'
  rw [hp''] at hp2; cases hp2
  refine ⟨p'', hp'', hC, (congrArg Presale.totalDeposit (L.frozen hdone.1) :), ?_⟩
  intro tx' i w'' rc' hi h
  have R2 := R'.run ops
  have key : neededPhase i = some (x.presale, Ongoing) := by
    cases i <;> first | exact hi.elim | (simp only [EntersOrLeaves] at hi; rw [← hi]; rfl)
  obtain ⟨p3, hp3, ho⟩ := C17_phases R2 h key
  rw [hp''] at hp3; cases hp3
  have h1 := ho.2
  have h2 : (p''.presaleEndTime : Int) ≤ (Verif.run w' ops).clock := hC.1
  omega


theorem dvd_lsum {u : Nat} {l : List Registry} (h : ∀ (i : Nat) r, l[i]? = some r → u ∣ r.totalDeposit) :
    u ∣ lsum Registry.totalDeposit l := by
  induction l with
  | nil => exact Nat.dvd_zero _
  | cons r l ih =>
    show u ∣ r.totalDeposit + lsum Registry.totalDeposit l
    exact Nat.dvd_add (h 0 r rfl) (ih fun i r hr => h (i + 1) r hr)

/-- **C85.** A sale at a whole price that does not divide its maximum cap never reaches that cap. Whatever happens, its
dates stay what they are; in particular it never ends early. -/
theorem C85_cap_out_of_reach {w : World} (R : Reachable w) {a : Addr} {p : Presale} (hp : w.presales a = some p)
    (h1 : p.presaleMode ≠ 1) (h2 : p.presaleMode ≠ 2) {u : Nat} (hu : p.raw0 = 2 ^ 64 * u)
    (hc : ¬ u ∣ p.presaleMaximumCap) (ops : List Op) :
    ∃ p', (run w ops).presales a = some p' ∧ u ∣ p'.totalDeposit ∧ p'.totalDeposit < p'.presaleMaximumCap ∧
      p'.presaleEndTime = p.presaleEndTime ∧ p'.immediateReleaseTimestamp = p.immediateReleaseTimestamp ∧
      p'.vestingStartTime = p.vestingStartTime ∧ p'.vestingEndTime = p.vestingEndTime := by
  obtain ⟨p', hp', L⟩ := run_later R.winv ops hp
  have R' := R.run ops
  have e1 : p'.presaleMode = p.presaleMode := (congrArg Presale.presaleMode L.terms :)
  have e2 : p'.raw0 = p.raw0 := (congrArg Presale.raw0 L.terms :)
  have e4 : p'.presaleMaximumCap = p.presaleMaximumCap := (congrArg Presale.presaleMaximumCap L.terms :)
  have B := (R'.winv.core.sale a p' hp').pinv.book
  have hd : u ∣ p'.totalDeposit := by
    rw [B.totDep]
    exact dvd_lsum ((worthAll R').sale a p' hp' |>.whole (by omega) (by omega) u (by omega))
  have hlt : p'.totalDeposit < p'.presaleMaximumCap := by
    have := B.cap (by omega)
    rcases Nat.lt_or_eq_of_le this with h | h
    · exact h
    · rw [h, e4] at hd; exact absurd hd hc
  refine ⟨p', hp', hd, hlt, ?_⟩
  rcases L.early with ⟨g1, g2, g3, g4⟩ | g
  · simp only [*, and_self]
  · omega


/-! ## Registries -/

/-- What an escrow is entitled to depends on these only. -/
theorem entitlement_same {p p' : Presale} {r r' : Registry} {e e' : Escrow} (h1 : p'.presaleMode = p.presaleMode)
    (h2 : p'.raw0 = p.raw0) (h3 : p'.immediateReleaseBps = p.immediateReleaseBps)
    (h4 : r'.totalDeposit = r.totalDeposit) (h5 : r'.presaleSupply = r.presaleSupply)
    (h6 : e'.totalDeposit = e.totalDeposit) : entitlement p' r' e' = entitlement p r e := by
  have hs : Spec.sold p' r' = Spec.sold p r := by unfold Spec.sold; rw [h1, h2, h4, h5]
  unfold entitlement
  rw [hs, h3, h4, h6]

/-- An instruction that books a deposit or a withdrawal in registry `idx` of the sale at `a`. -/
def Spec.Books (w : World) (a : Addr) (idx : Nat) : Ix → Prop
  | .deposit x => ∃ e, w.escrows.get? x.escrow = some e ∧ e.presale = a ∧ e.registryIndex = idx
  | .withdraw x => ∃ e, w.escrows.get? x.escrow = some e ∧ e.presale = a ∧ e.registryIndex = idx
  | _ => False

theorem EChange.deposited {w : World} {p : Presale} {k : Addr} {e : Escrow} {tx : Tx} {i : Ix} {o : Option Escrow}
    (C : EChange w p k e tx i o) (hk : w.escrows.get? k = some e) {e' : Escrow} (ho : o = some e') :
    e'.totalDeposit = e.totalDeposit ∨ Spec.Books w e.presale e.registryIndex i := by
  cases C with
  | deposit _ hx => subst hx; exact .inr ⟨e, hk, rfl, rfl⟩
  | withdraw _ hx => subst hx; exact .inr ⟨e, hk, rfl, rfl⟩
  | refreshed => cases ho; exact .inl rfl
  | claimed => cases ho; exact .inl rfl
  | refunded => cases ho; exact .inl rfl
  | closed => cases ho

theorem Act.registry {w : World} {a : Addr} {p p' : Presale} {tx : Tx} {i : Ix} {es' : AMap Addr Escrow}
    (A : Act w a p tx i p' es') {idx : Nat} {r r' : Registry} (hr : p.registries[idx]? = some r)
    (hr' : p'.registries[idx]? = some r') : r'.totalDeposit = r.totalDeposit ∨ Spec.Books w a idx i := by
  have same : books p' = books p → r'.totalDeposit = r.totalDeposit := by
    intro h
    obtain ⟨r1, g, hb⟩ := books_reg h.symm hr'
    rw [hr] at g; cases g
    exact (congrArg Registry.totalDeposit hb :).symm
  cases A with
  | opened _ _ _ _ _ hr => exact .inl (same (books_counted hr))
  | @deposit x e d h quota r0 _ he hb _ F =>
    by_cases hje : e.registryIndex = idx
    · exact .inr ⟨e, he, hb, hje⟩
    · left
      have hj : (p.registries.set e.registryIndex { r0 with
          totalDeposit := r0.totalDeposit + d.amount,
          totalDepositFee := r0.totalDepositFee + d.fees.fee })[idx]? = some r' := by
        rcases F.result with ⟨h1, _⟩ | ⟨h1, _⟩ <;> rw [h1] at hr' <;> exact hr'
      rw [List.getElem?_set_ne hje, hr] at hj
      cases hj; rfl
  | @withdraw x e _ e1 n h r0 _ he hb _ _ F =>
    by_cases hje : e.registryIndex = idx
    · exact .inr ⟨e, he, hb, hje⟩
    · left
      rw [F.presale] at hr'
      have hj : (p.registries.set e.registryIndex
          { r0 with totalDeposit := r0.totalDeposit - n })[idx]? = some r' := hr'
      rw [List.getElem?_set_ne hje, hr] at hj
      cases hj; rfl
  | refreshed => rw [hr] at hr'; cases hr'; exact .inl rfl
  | claimed _ _ _ _ _ hr => exact .inl (same (books_claimed hr))
  | refunded _ _ _ _ _ hr => exact .inl (same (books_refunded hr))
  | closed _ _ _ _ _ hr => exact .inl (same (books_uncounted hr))
  | creatorWithdrew => exact .inl (by rw [show p.updateCreatorWithdrawn.registries[idx]? = some r from hr] at hr'; cases hr'; rfl)
  | collected => exact .inl (by rw [show p.setDepositFeeCollected.registries[idx]? = some r from hr] at hr'; cases hr'; rfl)
  | unsold => exact .inl (by rw [show p.setUnsoldTokenActionPerformed.registries[idx]? = some r from hr] at hr'; cases hr'; rfl)

/-- **C85.** What an escrow is entitled to changes only by deposits into its own registry and withdrawals from it:
nothing done in another registry, or in another sale, takes from it or adds to it. -/
theorem C85_registries_apart {w w' : World} (R : Reachable w) {op : Op} {rc : Receipt} (hs : step w op = .ok (w', rc))
    {k : Addr} {p p' : Presale} {e e' : Escrow} {r r' : Registry} (hk : w.escrows.get? k = some e)
    (hk' : w'.escrows.get? k = some e') (hp : w.presales e.presale = some p) (hp' : w'.presales e.presale = some p')
    (hr : p.registries[e.registryIndex]? = some r) (hr' : p'.registries[e.registryIndex]? = some r') :
    entitlement p' r' e' = entitlement p r e ∨
    ∃ tx i, op = .ix tx i ∧ Spec.Books w e.presale e.registryIndex i := by
  have W := R.winv
  have E := step_effect W hs
  have hterms : terms p' = terms p := by
    obtain ⟨p1, h1, L⟩ := E.later W hp
    rw [hp'] at h1; cases h1; exact L.terms
  have e1 : p'.presaleMode = p.presaleMode := (congrArg Presale.presaleMode hterms :)
  have e2 : p'.raw0 = p.raw0 := (congrArg Presale.raw0 hterms :)
  have e3 : p'.immediateReleaseBps = p.immediateReleaseBps := (congrArg Presale.immediateReleaseBps hterms :)
  have e5 : r'.presaleSupply = r.presaleSupply := by
    obtain ⟨r1, g, hb⟩ := terms_reg hterms hr'
    rw [hr] at g; cases g
    exact (congrArg Registry.presaleSupply hb :)
  cases E with
  | quiet h h' =>
    rw [h, hp] at hp'; cases hp'
    rw [h', hk] at hk'; cases hk'
    rw [hr] at hr'; cases hr'
    exact .inl rfl
  | @create tx x q h1 h2 h3 h4 h5 h6 =>
    have hne : e.presale ≠ x.presaleKey := by intro h; rw [h, h2] at hp; cases hp
    rw [h4, upd_other _ _ hne, hp] at hp'; cases hp'
    rw [h5, hk] at hk'; cases hk'
    rw [hr] at hr'; cases hr'
    exact .inl rfl
  | @act tx i b q q' es' h1 h2 h3 h4 h5 h6 =>
    have hT : r'.totalDeposit = r.totalDeposit ∨ Spec.Books w e.presale e.registryIndex i := by
      by_cases hb : e.presale = b
      · rw [h4, hb, upd_self] at hp'; cases hp'
        rw [hb, h2] at hp; cases hp
        rw [hb]
        exact h3.registry hr hr'
      · rw [h4, upd_other _ _ hb, hp] at hp'; cases hp'
        rw [hr] at hr'; cases hr'; exact .inl rfl
    rw [h5] at hk'
    have hD : e'.totalDeposit = e.totalDeposit ∨ Spec.Books w e.presale e.registryIndex i := by
      rcases h3.escrow W.core.nodup hk with g | ⟨g, C⟩
      · rw [hk'] at g; cases g; exact .inl rfl
      · exact C.deposited hk hk'
    rcases hT with hT | hT
    · rcases hD with hD | hD
      · exact .inl (entitlement_same e1 e2 e3 hT e5 hD)
      · exact .inr ⟨tx, i, h1, hD⟩
    · exact .inr ⟨tx, i, h1, hT⟩

/-- **C85.** A root of a whitelist that exists while its sale is open stays valid until the sale is over: nobody can
withdraw it. -/
theorem C85_root_stands {w : World} (R : Reachable w) {k : Addr} {c : MerkleRootConfig} (hc : w.merkleRoots k = some c)
    {p : Presale} (hp : w.presales c.presale = some p) (hs : (p.presaleStartTime : Int) ≤ w.clock) (ops : List Op) :
    (run w ops).merkleRoots k = some c ∨
    ∃ p', (run w ops).presales c.presale = some p' ∧ Over p' (run w ops).clock := by
  induction ops generalizing w p with
  | nil => exact .inl hc
  | cons op ops ih =>
    obtain ⟨p1, hp1, -, -, hover, hst⟩ := C16_irreversible R hp [op]
    have hp1 : (apply w op).presales c.presale = some p1 := hp1
    have R1 : Reachable (apply w op) := R.run [op]
    have stands : (apply w op).merkleRoots k = some c ∨ Over p w.clock := by
      rcases apply_cases w op with h | ⟨rc, h⟩
      · rw [h]; exact .inl hc
      · rcases C49_root_kept h hc with g | ⟨_, _, _, p0, _, _, hp0, _, hn⟩
        · exact .inl g
        · rw [hp] at hp0; cases hp0
          refine .inr ?_
          by_contra ho
          exact hn ⟨hs, by unfold Over at ho; omega⟩
    rcases stands with h | h
    · exact ih R1 h hp1 (hst hs)
    · right
      obtain ⟨p2, hp2, -, -, g, -⟩ := C16_irreversible R hp (op :: ops)
      exact ⟨p2, hp2, g h⟩


namespace Ex

/-- The cap of 1000 is filled in the same second in which Alice bought 900: then nobody can leave. -/
def filledOps : List Op :=
  [init 2 0 1 reg1, .tick 10, open' alice, open' bob, deposit alice aliceQuote 900]

example : has (run genesis (filledOps ++ [deposit bob bobQuote 500])) (fun p =>
    decide (p.presaleMode = 2 ∧ p.raw0 % 256 = 0 ∧ p.presaleMaximumCap ≤ p.totalDeposit ∧
      p.presaleEndTime = 1010)) = true := by decide +kernel
example : works (run genesis filledOps) (deposit bob bobQuote 500) = true := by decide +kernel

/-- A price of 11 and a cap of 100. -/
example : has (run genesis soundOps) (fun p =>
    decide (p.presaleMode = 0 ∧ p.raw0 = 2 ^ 64 * 11 ∧ ¬ 11 ∣ p.presaleMaximumCap)) = true := by decide +kernel

/-- Bob's deposit into Alice's registry lowers what she gets, so the exception is needed. -/
example : hasEsc (run genesis filledOps) (escrowOf alice) (fun e => decide (e.totalDeposit = 900)) = true := by
  decide +kernel

end Ex


namespace Ex

/-- A root published before the sale of a whitelisted sale, still there when the sale is open. -/
example : (match merkleOpen.merkleRoots (.merkleRoot sale 3) with
    | some c => decide (c.presale = sale) | none => false) = true ∧
  has merkleOpen (fun p => decide (p.presaleStartTime ≤ 1010)) =
    true := by decide +kernel

end Ex

end Verif
