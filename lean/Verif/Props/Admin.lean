import Verif.Lemmas.Admin
import Verif.Lemmas.Evolve
import Verif.Lemmas.End
import Verif.Props.Lifecycle
import Verif.Props.Merkle
import Verif.Examples
/-!
# Administrative accounts and whitelists (C37, C38, C49, C57)
-/

namespace Verif
open Spec

theorem castWhitelist_merkle {b : Nat} : castWhitelistMode b = .ok .permissionWithMerkleProof ↔ b = 1 := by
  unfold castWhitelistMode WhitelistMode.tryFrom
  constructor
  · intro h
    split at h
    · next m hm =>
      split at hm
      · cases hm; cases h
      · rfl
      · cases hm; cases h
      · split at hm
        · cases hm; cases h
        · cases hm
    · cases h
  · rintro rfl; rfl

theorem castWhitelist_authority {b : Nat} : castWhitelistMode b = .ok .permissionWithAuthority ↔ b = 2 := by
  unfold castWhitelistMode WhitelistMode.tryFrom
  constructor
  · intro h
    split at h
    · next m hm =>
      split at hm
      · cases hm; cases h
      · cases hm; cases h
      · rfl
      · split at hm
        · cases hm; cases h
        · cases hm
    · cases h
  · rintro rfl; rfl

/-! ## C49: merkle roots, operators, server metadata, fixed-price parameters -/

/-- **C49.** A merkle root appears only by the instruction that publishes it, signed by the creator of the presale,
before the end of a merkle-whitelisted sale, at the address of its presale and version, holding what was given. -/
theorem C49_root_created {w w' : World} (R : Reachable w) {op : Op} {rc : Receipt} (h : step w op = .ok (w', rc))
    {k : Addr} {c : MerkleRootConfig} (h0 : w.merkleRoots k = none) (h1 : w'.merkleRoots k = some c) :
    ∃ tx x p, op = .ix tx (.createMerkle x) ∧ w.presales x.presale = some p ∧ tx.signed p.owner = true ∧
      w.clock < p.presaleEndTime ∧ p.whitelistMode = 1 ∧ k = .merkleRoot x.presale x.version ∧
      c = ⟨x.root, x.presale, x.version⟩ := by
  cases step_admin h with
  | none h2 => rw [h2, h0] at h1; cases h1
  | rootNew he F =>
    rename_i tx x p
    refine ⟨tx, x, p, he, F.presale, by rw [F.owner]; exact F.signed, ?_, castWhitelist_merkle.1 F.mode, ?_⟩
    · have h2 := F.progress
      rw [progress_notStarted, progress_ongoing] at h2
      have h3 := F.clock
      have h4 := (R.winv.core.sale _ _ F.presale).pinv.sched.order
      omega
    · rw [F.post] at h1
      rcases upd_cases h1 with ⟨g1, g2⟩ | g
      · cases g2; exact ⟨g1, rfl⟩
      · rw [h0] at g; cases g
  | rootClose _ F =>
    rw [F.post] at h1
    rcases upd_cases h1 with ⟨_, g2⟩ | g
    · cases g2
    · rw [h0] at g; cases g
  | fixedNew _ F => rw [F.post] at h1; exact absurd (h0.symm.trans h1) (by simp)
  | fixedClose _ F => rw [F.post] at h1; exact absurd (h0.symm.trans h1) (by simp)
  | operatorNew _ F => rw [F.post] at h1; exact absurd (h0.symm.trans h1) (by simp)
  | operatorRevoke _ F => rw [F.post] at h1; exact absurd (h0.symm.trans h1) (by simp)
  | metaNew _ F => rw [F.post] at h1; exact absurd (h0.symm.trans h1) (by simp)
  | metaClose _ F => rw [F.post] at h1; exact absurd (h0.symm.trans h1) (by simp)

/-- **C49.** A merkle root never changes, and disappears only at the request of the creator of its presale, while
the sale is not running. -/
theorem C49_root_kept {w w' : World} {op : Op} {rc : Receipt} (h : step w op = .ok (w', rc))
    {k : Addr} {c : MerkleRootConfig} (h0 : w.merkleRoots k = some c) :
    w'.merkleRoots k = some c ∨
    (w'.merkleRoots k = none ∧ ∃ tx x p, op = .ix tx (.closeMerkle x) ∧ x.config = k ∧
      w.presales c.presale = some p ∧ tx.signed p.owner = true ∧ ¬ Ongoing p w.clock) := by
  cases step_admin h with
  | none h2 => left; rw [h2]; exact h0
  | rootNew he F =>
    left
    rw [F.post]
    refine (upd_other _ _ ?_).trans h0
    rintro rfl
    rw [F.fresh] at h0; cases h0
  | rootClose he F =>
    rename_i tx x p c'
    by_cases hk : k = x.config
    · subst hk
      right
      have hc := F.config.symm.trans h0
      cases hc
      refine ⟨by rw [F.post]; exact upd_self _ _ _, tx, x, p, he, rfl, by rw [F.belongs]; exact F.presale,
        by rw [F.owner]; exact F.signed, ?_⟩
      have h2 := F.progress
      have h3 := F.clock
      unfold Ongoing
      rw [ne_eq, progress_ongoing] at h2
      omega
    · left
      rw [F.post]
      exact (upd_other _ _ hk).trans h0
  | fixedNew _ F => left; rw [F.post]; exact h0
  | fixedClose _ F => left; rw [F.post]; exact h0
  | operatorNew _ F => left; rw [F.post]; exact h0
  | operatorRevoke _ F => left; rw [F.post]; exact h0
  | metaNew _ F => left; rw [F.post]; exact h0
  | metaClose _ F => left; rw [F.post]; exact h0

/-- **C49.** An operator appears only by a registration signed by the creator it works for. -/
theorem C49_operator_created {w w' : World} {op : Op} {rc : Receipt} (h : step w op = .ok (w', rc))
    {k : Addr} {o : Operator} (h0 : w.operators k = none) (h1 : w'.operators k = some o) :
    ∃ tx x, op = .ix tx (.createOperator x) ∧ tx.signed x.creator = true ∧
      k = .operator x.creator x.operatorOwner ∧ o = ⟨x.operatorOwner, x.creator⟩ := by
  cases step_admin h with
  | none _ h2 => rw [h2, h0] at h1; cases h1
  | operatorNew he F =>
    rename_i tx x
    refine ⟨tx, x, he, F.signed, ?_⟩
    rw [F.post] at h1
    rcases upd_cases h1 with ⟨g1, g2⟩ | g
    · cases g2; exact ⟨g1, rfl⟩
    · rw [h0] at g; cases g
  | operatorRevoke _ F =>
    rw [F.post] at h1
    rcases upd_cases h1 with ⟨_, g2⟩ | g
    · cases g2
    · rw [h0] at g; cases g
  | fixedNew _ F => rw [F.post] at h1; exact absurd (h0.symm.trans h1) (by simp)
  | fixedClose _ F => rw [F.post] at h1; exact absurd (h0.symm.trans h1) (by simp)
  | rootNew _ F => rw [F.post] at h1; exact absurd (h0.symm.trans h1) (by simp)
  | rootClose _ F => rw [F.post] at h1; exact absurd (h0.symm.trans h1) (by simp)
  | metaNew _ F => rw [F.post] at h1; exact absurd (h0.symm.trans h1) (by simp)
  | metaClose _ F => rw [F.post] at h1; exact absurd (h0.symm.trans h1) (by simp)

/-- **C49.** An operator never changes and is revoked only with the signature of the creator it works for. -/
theorem C49_operator_kept {w w' : World} {op : Op} {rc : Receipt} (h : step w op = .ok (w', rc))
    {k : Addr} {o : Operator} (h0 : w.operators k = some o) :
    w'.operators k = some o ∨
    (w'.operators k = none ∧ ∃ tx x, op = .ix tx (.revokeOperator x) ∧ x.operator = k ∧
      tx.signed o.creator = true) := by
  cases step_admin h with
  | none _ h2 => left; rw [h2]; exact h0
  | operatorNew he F =>
    left
    rw [F.post]
    refine (upd_other _ _ ?_).trans h0
    rintro rfl
    rw [F.fresh] at h0; cases h0
  | operatorRevoke he F =>
    rename_i tx x o'
    by_cases hk : k = x.operator
    · subst hk
      right
      have hc := F.account.symm.trans h0
      cases hc
      exact ⟨by rw [F.post]; exact upd_self _ _ _, tx, x, he, rfl, by rw [F.creator]; exact F.signed⟩
    · left
      rw [F.post]
      exact (upd_other _ _ hk).trans h0
  | fixedNew _ F => left; rw [F.post]; exact h0
  | fixedClose _ F => left; rw [F.post]; exact h0
  | rootNew _ F => left; rw [F.post]; exact h0
  | rootClose _ F => left; rw [F.post]; exact h0
  | metaNew _ F => left; rw [F.post]; exact h0
  | metaClose _ F => left; rw [F.post]; exact h0

/-- **C49.** Server metadata appears only at the request of the creator of a permissioned presale, before its end. -/
theorem C49_metadata_created {w w' : World} (R : Reachable w) {op : Op} {rc : Receipt}
    (h : step w op = .ok (w', rc)) {k : Addr} {m : ServerMetadata} (h0 : w.metadata k = none)
    (h1 : w'.metadata k = some m) :
    ∃ tx x p, op = .ix tx (.createMetadata x) ∧ w.presales x.presale = some p ∧ tx.signed p.owner = true ∧
      w.clock < p.presaleEndTime ∧ (p.whitelistMode = 1 ∨ p.whitelistMode = 2) ∧
      k = .serverMetadata x.presale ∧ m = ⟨x.presale, x.serverUrl⟩ := by
  cases step_admin h with
  | none _ _ h2 => rw [h2, h0] at h1; cases h1
  | metaNew he F =>
    rename_i tx x p
    refine ⟨tx, x, p, he, F.presale, by rw [F.owner]; exact F.signed, ?_, ?_, ?_⟩
    · have h2 := F.progress
      rw [progress_notStarted, progress_ongoing] at h2
      have h3 := F.clock
      have h4 := (R.winv.core.sale _ _ F.presale).pinv.sched.order
      omega
    · have h2 := F.mode
      rwa [castWhitelist_merkle, castWhitelist_authority] at h2
    · rw [F.post] at h1
      rcases upd_cases h1 with ⟨g1, g2⟩ | g
      · cases g2; exact ⟨g1, rfl⟩
      · rw [h0] at g; cases g
  | metaClose _ F =>
    rw [F.post] at h1
    rcases upd_cases h1 with ⟨_, g2⟩ | g
    · cases g2
    · rw [h0] at g; cases g
  | fixedNew _ F => rw [F.post] at h1; exact absurd (h0.symm.trans h1) (by simp)
  | fixedClose _ F => rw [F.post] at h1; exact absurd (h0.symm.trans h1) (by simp)
  | rootNew _ F => rw [F.post] at h1; exact absurd (h0.symm.trans h1) (by simp)
  | rootClose _ F => rw [F.post] at h1; exact absurd (h0.symm.trans h1) (by simp)
  | operatorNew _ F => rw [F.post] at h1; exact absurd (h0.symm.trans h1) (by simp)
  | operatorRevoke _ F => rw [F.post] at h1; exact absurd (h0.symm.trans h1) (by simp)

/-- **C49.** Server metadata never changes and is closed only by the creator of its presale. -/
theorem C49_metadata_kept {w w' : World} {op : Op} {rc : Receipt} (h : step w op = .ok (w', rc))
    {k : Addr} {m : ServerMetadata} (h0 : w.metadata k = some m) :
    w'.metadata k = some m ∨
    (w'.metadata k = none ∧ ∃ tx x p, op = .ix tx (.closeMetadata x) ∧ x.account = k ∧
      w.presales m.presale = some p ∧ tx.signed p.owner = true) := by
  cases step_admin h with
  | none _ _ h2 => left; rw [h2]; exact h0
  | metaNew he F =>
    left
    rw [F.post]
    refine (upd_other _ _ ?_).trans h0
    rintro rfl
    rw [F.fresh] at h0; cases h0
  | metaClose he F =>
    rename_i tx x p m'
    by_cases hk : k = x.account
    · subst hk
      right
      have hc := F.account.symm.trans h0
      cases hc
      exact ⟨by rw [F.post]; exact upd_self _ _ _, tx, x, p, he, rfl, by rw [F.belongs]; exact F.presale,
        by rw [F.owner]; exact F.signed⟩
    · left
      rw [F.post]
      exact (upd_other _ _ hk).trans h0
  | fixedNew _ F => left; rw [F.post]; exact h0
  | fixedClose _ F => left; rw [F.post]; exact h0
  | rootNew _ F => left; rw [F.post]; exact h0
  | rootClose _ F => left; rw [F.post]; exact h0
  | operatorNew _ F => left; rw [F.post]; exact h0
  | operatorRevoke _ F => left; rw [F.post]; exact h0

/-- **C49.** Fixed-price parameters appear only by the instruction that creates them, which anybody can send: only
the payer signs. They hold what was given, a positive price and a flag that is 0 or 1. -/
theorem C49_fixed_created {w w' : World} {op : Op} {rc : Receipt} (h : step w op = .ok (w', rc))
    {k : Addr} {c : FixedPriceArgs} (h0 : w.fixedArgs k = none) (h1 : w'.fixedArgs k = some c) :
    ∃ tx x, op = .ix tx (.initFixedArgs x) ∧ tx.signed x.payer = true ∧ k = .fixedPriceArgs x.presale ∧
      c.presale = x.presale ∧ c.owner = x.owner ∧ c.qPrice = x.qPrice ∧ c.disableWithdraw = x.disableWithdraw ∧
      0 < c.qPrice ∧ c.disableWithdraw ≤ 1 := by
  cases step_admin h with
  | none _ _ _ h2 => rw [h2, h0] at h1; cases h1
  | fixedNew he F =>
    rename_i tx x
    refine ⟨tx, x, he, F.signed, ?_⟩
    rw [F.post] at h1
    rcases upd_cases h1 with ⟨g1, g2⟩ | g
    · cases g2
      have h2 := F.flag
      refine ⟨g1, rfl, rfl, rfl, rfl, F.price, ?_⟩
      show x.disableWithdraw ≤ 1
      unfold boolTypeTryFrom at h2
      split at h2
      · omega
      · omega
      · cases h2
    · rw [h0] at g; cases g
  | fixedClose _ F =>
    rw [F.post] at h1
    rcases upd_cases h1 with ⟨_, g2⟩ | g
    · cases g2
    · rw [h0] at g; cases g
  | rootNew _ F => rw [F.post] at h1; exact absurd (h0.symm.trans h1) (by simp)
  | rootClose _ F => rw [F.post] at h1; exact absurd (h0.symm.trans h1) (by simp)
  | operatorNew _ F => rw [F.post] at h1; exact absurd (h0.symm.trans h1) (by simp)
  | operatorRevoke _ F => rw [F.post] at h1; exact absurd (h0.symm.trans h1) (by simp)
  | metaNew _ F => rw [F.post] at h1; exact absurd (h0.symm.trans h1) (by simp)
  | metaClose _ F => rw [F.post] at h1; exact absurd (h0.symm.trans h1) (by simp)

/-- **C49.** Fixed-price parameters never change and are closed only with the signature of the owner on record. -/
theorem C49_fixed_kept {w w' : World} {op : Op} {rc : Receipt} (h : step w op = .ok (w', rc))
    {k : Addr} {c : FixedPriceArgs} (h0 : w.fixedArgs k = some c) :
    w'.fixedArgs k = some c ∨
    (w'.fixedArgs k = none ∧ ∃ tx x, op = .ix tx (.closeFixedArgs x) ∧ x.account = k ∧
      tx.signed c.owner = true) := by
  cases step_admin h with
  | none _ _ _ h2 => left; rw [h2]; exact h0
  | fixedNew he F =>
    left
    rw [F.post]
    refine (upd_other _ _ ?_).trans h0
    rintro rfl
    rw [F.fresh] at h0; cases h0
  | fixedClose he F =>
    rename_i tx x c'
    by_cases hk : k = x.account
    · subst hk
      right
      have hc := F.account.symm.trans h0
      cases hc
      exact ⟨by rw [F.post]; exact upd_self _ _ _, tx, x, he, rfl, by rw [F.owner]; exact F.signed⟩
    · left
      rw [F.post]
      exact (upd_other _ _ hk).trans h0
  | rootNew _ F => left; rw [F.post]; exact h0
  | rootClose _ F => left; rw [F.post]; exact h0
  | operatorNew _ F => left; rw [F.post]; exact h0
  | operatorRevoke _ F => left; rw [F.post]; exact h0
  | metaNew _ F => left; rw [F.post]; exact h0
  | metaClose _ F => left; rw [F.post]; exact h0

/-! ## C37: authority-whitelisted presales -/

/-- What an escrow and its presale look like now, seen from the moment the escrow was opened. -/
theorem opened_by {w0 : World} (G : Genesis w0) (ops : List Op) {k : Addr} {e : Escrow} {p : Presale}
    (he : (run w0 ops).escrows.get? k = some e) (hp : (run w0 ops).presales e.presale = some p) :
    ∃ pre tx i post rc p0 e0, ops = pre ++ Op.ix tx i :: post ∧
      step (run w0 pre) (.ix tx i) = .ok (run w0 (pre ++ [.ix tx i]), rc) ∧
      (run w0 pre).presales e.presale = some p0 ∧ terms p = terms p0 ∧
      (run w0 pre).escrows.get? k = none ∧ (run w0 (pre ++ [.ix tx i])).escrows.get? k = some e0 ∧
      Ongoing p0 (run w0 pre).clock ∧
      Opening (run w0 pre) p0 e.presale e.owner e.registryIndex e.depositMaxCap tx i := by
  obtain ⟨pre, op, post, rc, e0, h1, h2, h3, h4, h5, _⟩ := escrow_origin G ops he
  have W := G.winv.run pre
  obtain ⟨tx, i, p0, rfl, h6, h7, _, _, _, O⟩ := step_opening W h2 h3 h4
  rw [← h5.presale, ← h5.owner, ← h5.index, ← h5.cap] at O
  rw [← h5.presale] at h6
  refine ⟨pre, tx, i, post, rc, p0, e0, h1, h2, h6, ?_, h3, h4, h7, O⟩
  obtain ⟨p', hp', L⟩ := run_later W (.ix tx i :: post) h6
  rw [← run_append, ← h1, hp] at hp'
  cases hp'
  exact L.terms

/-- **C37.** In an authority-whitelisted presale every escrow was opened with the signature of an operator which the
creator of the presale had registered and not revoked, for the owner, registry and cap that operator asked for, a cap
within the limits of the registry. -/
theorem C37_operator_approved {w0 : World} (G : Genesis w0) (ops : List Op) {k : Addr} {e : Escrow} {p : Presale}
    (he : (run w0 ops).escrows.get? k = some e) (hp : (run w0 ops).presales e.presale = some p)
    (hm : p.whitelistMode = 2) :
    ∃ before tx1 y mid tx2 x post rc1 rc2,
      ops = before ++ Op.ix tx1 (.createOperator y) :: mid ++ Op.ix tx2 (.createEscrowCreator x) :: post ∧
      step (run w0 before) (.ix tx1 (.createOperator y)) =
        .ok (run w0 (before ++ [.ix tx1 (.createOperator y)]), rc1) ∧
      tx1.signed p.owner = true ∧ y.creator = p.owner ∧
      step (run w0 (before ++ Op.ix tx1 (.createOperator y) :: mid)) (.ix tx2 (.createEscrowCreator x)) =
        .ok (run w0 (before ++ Op.ix tx1 (.createOperator y) :: mid ++ [.ix tx2 (.createEscrowCreator x)]), rc2) ∧
      tx2.signed y.operatorOwner = true ∧ x.presale = e.presale ∧ x.owner = e.owner ∧
      x.registryIndex = e.registryIndex ∧ x.depositCap = e.depositMaxCap ∧ 0 < e.depositMaxCap ∧
      (∃ r, p.registries[e.registryIndex]? = some r ∧ r.buyerMinimumDepositCap ≤ e.depositMaxCap ∧
        e.depositMaxCap ≤ r.buyerMaximumDepositCap) ∧
      ∀ m1 tx z m2 w' rc, mid = m1 ++ Op.ix tx (.revokeOperator z) :: m2 →
        step (run w0 (before ++ Op.ix tx1 (.createOperator y) :: m1)) (.ix tx (.revokeOperator z)) = .ok (w', rc) →
        z.operator ≠ .operator p.owner y.operatorOwner := by
  obtain ⟨pre, tx2, i, post, rc2, p0, e0, h1, h2, h3, h4, h5, h6, _, O⟩ := opened_by G ops he hp
  have W := G.winv.run pre
  have hm0 : p0.whitelistMode = 2 := by
    have : p.whitelistMode = p0.whitelistMode := (congrArg Presale.whitelistMode h4 :)
    omega
  have ho : p.owner = p0.owner := (congrArg Presale.owner h4 :)
  cases O with
  | anybody _ _ _ _ _ F =>
    have h := F.mode
    rw [hm0] at h; cases h
  | proof _ _ _ _ _ F =>
    have h := F.mode
    rw [hm0] at h; cases h
  | @operator x o here owner_ index cap_ pos F =>
    have hkey := W.aux.ops _ _ F.operator
    rw [F.owner, F.creator, ← ho] at hkey
    have hop := F.operator
    rw [hkey] at hop
    obtain ⟨before, op1, mid, rc1, g1, g2, g3, g4⟩ :=
      became (P := fun w => w.operators (.operator p.owner x.operatorOwner) = some o)
        (by rw [G.operators]; simp) pre hop
    have g5 := g4 [] mid rfl
    have hnone : (run w0 before).operators (.operator p.owner x.operatorOwner) = none := by
      cases h : (run w0 before).operators (.operator p.owner x.operatorOwner) with
      | none => rfl
      | some o' =>
        rcases C49_operator_kept g2 h with h7 | ⟨h7, _⟩
        · rw [h7] at g5
          cases g5
          exact (g3 h).elim
        · rw [h7] at g5; cases g5
    obtain ⟨tx1, y, rfl, s1, s2, s3⟩ := C49_operator_created g2 hnone g5
    simp only [Addr.operator.injEq] at s2
    obtain ⟨s21, s22⟩ := s2
    obtain ⟨q, _, r, p1, F', C⟩ := handleCreateEscrowCreator_iff.1 h2
    have hq := F'.presale.symm.trans F.presale
    cases hq
    have hr := getRegistry_eq_ok.1 C.registry
    rw [index] at hr
    have hlim := C.cap _ rfl
    rw [cap_] at hlim
    obtain ⟨r', hr', hrt⟩ := terms_reg h4.symm hr
    refine ⟨before, tx1, y, mid, tx2, x, post, rc1, rc2, ?_, g2, ?_, s21.symm, ?_, ?_, here, owner_, index, cap_, pos,
      ?_, ?_⟩
    · rw [h1, g1]
    · rw [s21]; exact s1
    · rw [← g1]; exact h2
    · rw [← s22]; exact F.signed.1
    · have t1 : r.buyerMinimumDepositCap = r'.buyerMinimumDepositCap :=
        (congrArg Registry.buyerMinimumDepositCap hrt :)
      have t2 : r.buyerMaximumDepositCap = r'.buyerMaximumDepositCap :=
        (congrArg Registry.buyerMaximumDepositCap hrt :)
      exact ⟨r', hr', by omega, by omega⟩
    · intro m1 tx z m2 w' rc hmid hs hz
      have k1 := g4 m1 _ hmid
      have k2 := g4 (m1 ++ [.ix tx (.revokeOperator z)]) m2 (by rw [hmid]; simp)
      rw [← List.cons_append, ← List.append_assoc, run_snoc, apply_ok hs] at k2
      obtain ⟨o', R⟩ := handleRevokeOperator_iff.1 hs
      rw [R.post, hz, ← s22] at k2
      have := (upd_self (run w0 (before ++ Op.ix tx1 (.createOperator y) :: m1)).operators
        (.operator p.owner x.operatorOwner) none).symm.trans k2
      cases this

/-! ## C38: merkle-whitelisted presales -/

/-- **C38.** In a merkle-whitelisted presale every escrow was opened with a proof that verifies its exact owner,
registry and cap against a root the creator of the presale had published for it before and not closed. -/
theorem C38_proof_checked {w0 : World} (G : Genesis w0) (ops : List Op) {k : Addr} {e : Escrow} {p : Presale}
    (he : (run w0 ops).escrows.get? k = some e) (hp : (run w0 ops).presales e.presale = some p)
    (hm : p.whitelistMode = 1) :
    ∃ before tx1 y mid tx2 x post rc1 rc2,
      ops = before ++ Op.ix tx1 (.createMerkle y) :: mid ++ Op.ix tx2 (.createEscrowMerkle x) :: post ∧
      step (run w0 before) (.ix tx1 (.createMerkle y)) =
        .ok (run w0 (before ++ [.ix tx1 (.createMerkle y)]), rc1) ∧
      tx1.signed p.owner = true ∧ y.presale = e.presale ∧
      step (run w0 (before ++ Op.ix tx1 (.createMerkle y) :: mid)) (.ix tx2 (.createEscrowMerkle x)) =
        .ok (run w0 (before ++ Op.ix tx1 (.createMerkle y) :: mid ++ [.ix tx2 (.createEscrowMerkle x)]), rc2) ∧
      x.presale = e.presale ∧ x.owner = e.owner ∧ x.registryIndex = e.registryIndex ∧
      x.depositCap = e.depositMaxCap ∧ e.registryIndex < 256 ∧ e.depositMaxCap < u64Bound ∧
      (∀ q ∈ x.proof, q.length = 32) ∧
      merkleVerify w0.env.hash x.proof y.root (w0.env.hash (0 :: w0.env.hash
        (entryString (w0.env.keyBytes e.owner) e.registryIndex e.depositMaxCap))) = true ∧
      ∀ m1 tx z m2 w' rc, mid = m1 ++ Op.ix tx (.closeMerkle z) :: m2 →
        step (run w0 (before ++ Op.ix tx1 (.createMerkle y) :: m1)) (.ix tx (.closeMerkle z)) = .ok (w', rc) →
        z.config ≠ .merkleRoot e.presale y.version := by
  obtain ⟨pre, tx2, i, post, rc2, p0, e0, h1, h2, h3, h4, h5, h6, _, O⟩ := opened_by G ops he hp
  have W := G.winv.run pre
  have hm0 : p0.whitelistMode = 1 := by
    have : p.whitelistMode = p0.whitelistMode := (congrArg Presale.whitelistMode h4 :)
    omega
  cases O with
  | anybody _ _ _ _ _ F =>
    have h := F.mode
    rw [hm0] at h; cases h
  | operator _ _ _ _ _ F =>
    have h := F.mode
    rw [hm0] at h; cases h
  | @proof x c here owner_ index cap_ pos F =>
    have hkey := (W.aux.merkle _ _ F.config).1
    rw [F.belongs, here] at hkey
    have hc := F.config
    rw [hkey] at hc
    obtain ⟨before, op1, mid, rc1, g1, g2, g3, g4⟩ :=
      became (P := fun w => w.merkleRoots (.merkleRoot e.presale c.version) = some c)
        (by rw [G.merkleRoots]; simp) pre hc
    have g5 := g4 [] mid rfl
    have hnone : (run w0 before).merkleRoots (.merkleRoot e.presale c.version) = none := by
      cases h : (run w0 before).merkleRoots (.merkleRoot e.presale c.version) with
      | none => rfl
      | some o' =>
        rcases C49_root_kept g2 h with h7 | ⟨h7, _⟩
        · rw [h7] at g5
          cases g5
          exact (g3 h).elim
        · rw [h7] at g5; cases g5
    obtain ⟨tx1, y, q, rfl, s1, s2, _, _, s3, s4⟩ := C49_root_created ⟨_, _, G, rfl⟩ g2 hnone g5
    simp only [Addr.merkleRoot.injEq] at s3
    obtain ⟨s31, s32⟩ := s3
    have hown : p.owner = q.owner := by
      rw [← s31] at s1
      obtain ⟨p', hp', L⟩ := run_later (G.winv.run before) (.ix tx1 (.createMerkle y) :: mid) s1
      rw [← run_append, ← g1, h3] at hp'
      cases hp'
      have t1 : p0.owner = q.owner := (congrArg Presale.owner L.terms :)
      have t2 : p.owner = p0.owner := (congrArg Presale.owner h4 :)
      rw [t2, t1]
    have hb := F.range
    rw [u8Bound_eq, index, cap_] at hb
    refine ⟨before, tx1, y, mid, tx2, x, post, rc1, rc2, ?_, g2, ?_, s31.symm, ?_, here, owner_, index, cap_, hb.1,
      hb.2.1, ?_, ?_, ?_⟩
    · rw [h1, g1]
    · rw [hown]; exact s2
    · rw [← g1]; exact h2
    · intro q hq
      have hall := hb.2.2
      unfold proofInRange at hall
      have := List.all_eq_true.1 ((Bool.and_eq_true _ _ ▸ hall).2) q hq
      unfold isHash32 at this
      simpa using this
    · have h := F.proof
      rw [run_env, owner_, index, cap_, s4] at h
      exact h
    · intro m1 tx z m2 w' rc hmid hs hz
      have k2 := g4 (m1 ++ [.ix tx (.closeMerkle z)]) m2 (by rw [hmid]; simp)
      rw [← List.cons_append, ← List.append_assoc, run_snoc, apply_ok hs] at k2
      obtain ⟨p', c', R⟩ := handleCloseMerkle_iff.1 hs
      rw [R.post, hz, ← s32] at k2
      have := (upd_self (run w0 (before ++ Op.ix tx1 (.createMerkle y) :: m1)).merkleRoots
        (.merkleRoot e.presale c.version) none).symm.trans k2
      cases this

/-- **C38**, together with the soundness of the tree: if every root the creator published is the root of a list
compiled with the off-chain tool, and no two different strings hashed in the course of this collide, the escrows of
the presale are those of rows of these lists, with their owner, registry and cap. -/
theorem C38_on_the_list {w0 : World} (G : Genesis w0) (ops : List Op) {k : Addr} {e : Escrow} {p : Presale}
    (he : (run w0 ops).escrows.get? k = some e) (hp : (run w0 ops).presales e.presale = some p)
    (hm : p.whitelistMode = 1)
    (hash32 : ∀ x, (w0.env.hash x).length = 32) (key32 : ∀ a, (w0.env.keyBytes a).length = 32)
    (lists : Bytes → ConfigMerkleTree)
    (compiled : ∀ tx y, Op.ix tx (.createMerkle y) ∈ ops → y.presale = e.presale → tx.signed p.owner = true →
      ∃ rows version, (∀ n ∈ rows, n.escrowOwner.length = 32 ∧ n.registryIndex < 256 ∧ n.depositCap < u64Bound) ∧
        ConfigMerkleTree.new w0.env.hash rows version = .ok (lists y.root) ∧
        (lists y.root).merkleRoot = y.root)
    (nocollision : ∀ tx x root, Op.ix tx (.createEscrowMerkle x) ∈ ops →
      ∀ u ∈ buildStrings w0.env.hash (lists root).treeNodes,
      ∀ v ∈ checkStrings w0.env.hash (w0.env.keyBytes x.owner) x.registryIndex x.depositCap x.proof,
        w0.env.hash u = w0.env.hash v → u = v) :
    ∃ tx y, Op.ix tx (.createMerkle y) ∈ ops ∧ y.presale = e.presale ∧ tx.signed p.owner = true ∧
      ∃ n ∈ (lists y.root).treeNodes, n.escrowOwner = w0.env.keyBytes e.owner ∧
        n.registryIndex = e.registryIndex ∧ n.depositCap = e.depositMaxCap := by
  obtain ⟨before, tx1, y, mid, tx2, x, post, rc1, rc2, h1, _, h3, h4, _, h6, h7, h8, h9, h10, h11, h12, h13, _⟩ :=
    C38_proof_checked G ops he hp hm
  have m1 : Op.ix tx1 (.createMerkle y) ∈ ops := by rw [h1]; simp
  have m2 : Op.ix tx2 (.createEscrowMerkle x) ∈ ops := by rw [h1]; simp
  obtain ⟨rows, version, r1, r2, r3⟩ := compiled tx1 y m1 h4 h3
  refine ⟨tx1, y, m1, h4, h3, ?_⟩
  refine C40_soundness w0.env.hash hash32 rows r1 version _ r2 _ _ _ (key32 _) h10 h11 x.proof h12 ?_ ?_
  · have := nocollision tx2 x y.root m2
    rw [h7, h8, h9] at this
    exact this
  · rw [r3]; exact h13

/-! ## C57: the price of a fixed-price sale is not authenticated -/

/-- **C57.** As long as the parameter account of a presale address does not exist, anybody can create it with any
price and any owner: one signature, by the payer, is all it takes. -/
theorem C57_anybody_sets_price {w : World} {tx : Tx} {payer owner presale : Addr} {price flag : Nat}
    (fresh : w.fixedArgs (.fixedPriceArgs presale) = none) (signed : tx.signed payer = true)
    (pos : 0 < price) (range : price < u128Bound) (bool : flag ≤ 1) :
    ∃ w' rc, step w (.ix tx (.initFixedArgs ⟨owner, payer, presale, flag, price⟩)) = .ok (w', rc) ∧
      ∃ c, w'.fixedArgs (.fixedPriceArgs presale) = some c ∧ c.qPrice = price ∧ c.disableWithdraw = flag ∧
        c.owner = owner ∧ c.presale = presale := by
  have F : InitFixedArgsFacts w tx ⟨owner, payer, presale, flag, price⟩
      { w with
        fixedArgs := upd w.fixedArgs (.fixedPriceArgs presale)
          (some { disableWithdraw := flag, qPrice := price, owner := owner, presale := presale }) }
      { event := some (.fixedPricePresaleArgsCreate presale price), cpis := [] } :=
    { range := ⟨by rw [u8Bound_eq]; show flag < 256; omega, range⟩
      signed := signed
      fresh := fresh
      price := pos
      flag := by
        show (boolTypeTryFrom flag).isSome = true
        rcases (by omega : flag = 0 ∨ flag = 1) with rfl | rfl <;> rfl
      post := rfl
      receipt := rfl }
  exact ⟨_, _, handleInitFixedArgs_iff.2 F, _, upd_self _ _ _, rfl, rfl, rfl, rfl⟩

/-- While the recorded owner does not sign, the parameters stay. -/
theorem fixed_sticks {w : World} {k : Addr} {c : FixedPriceArgs} (h : w.fixedArgs k = some c) (ops : List Op)
    (hs : ∀ tx i, Op.ix tx i ∈ ops → tx.signed c.owner = false) : (run w ops).fixedArgs k = some c := by
  induction ops using List.reverseRecOn with
  | nil => exact h
  | append_singleton ops op ih =>
    have h1 := ih (fun tx i hm => hs tx i (List.mem_append_left _ hm))
    rw [run_snoc]
    rcases apply_cases (run w ops) op with h2 | ⟨rc, h2⟩
    · rw [h2]; exact h1
    · rcases C49_fixed_kept h2 h1 with h3 | ⟨_, tx, x, h3, _, h4⟩
      · exact h3
      · rw [hs tx (.closeFixedArgs x) (by rw [h3]; simp)] at h4; cases h4

/-- **C57.** Once planted, the parameters bind: whatever happens without the signature of the owner recorded in
them, a fixed-price presale created at that address gets their price and their withdrawal flag, whoever creates it. -/
theorem C57_planted_price_binds {w : World} (R : Reachable w) {presale : Addr} {c : FixedPriceArgs}
    (planted : w.fixedArgs (.fixedPriceArgs presale) = some c) (ops : List Op)
    (hs : ∀ tx i, Op.ix tx i ∈ ops → tx.signed c.owner = false)
    {tx : Tx} {x : InitPresaleAcc} {w' : World} {rc : Receipt}
    (h : step (run w ops) (.ix tx (.initPresale x)) = .ok (w', rc)) (hx : x.presaleKey = presale)
    (hm : x.args.presaleParams.presaleMode = 0) :
    ∃ p, w'.presales presale = some p ∧
      getPresaleModeHandler p = .ok (.fixedPrice c.qPrice c.disableWithdraw
        x.args.presaleParams.disableEarlierPresaleEndOnceCapReached) := by
  have R' := R.run ops
  obtain ⟨p, h1, h2, _, _, h3⟩ := C45_mode_data R' h []
  obtain ⟨acc, args, h4, h5, h6, h7⟩ := h3 (by omega) (by omega)
  have h8 := (R'.winv.aux.fixed _ _ h5).1
  rw [h6, hx] at h8
  rw [h8, fixed_sticks planted ops hs] at h5
  cases h5
  exact ⟨p, by rw [← hx]; exact h1, h7⟩

/-! ## The hypotheses are met -/

namespace Ex

/-- A registry as whitelisted presales must have it: caps are set per escrow. -/
def wideReg : List RegistryArgs :=
  [{ buyerMinimumDepositCap := 1, buyerMaximumDepositCap := 1000, presaleSupply := 10000, depositFeeBps := 200 }]

def byOperator (owner : Addr) : Op :=
  .ix (tx [operatorKey]) (.createEscrowCreator
      { presale := sale, owner := owner, payer := operatorKey, operator := .operator creator operatorKey,
        operatorOwner := operatorKey, registryIndex := 0, depositCap := 500 })

def revoke (who : Addr) : Op := .ix (tx [who]) (.revokeOperator ⟨.operator creator operatorKey, who⟩)

def authorityOps : List Op :=
  [init 1 2 0 wideReg, .ix (tx [creator]) (.createOperator ⟨operatorKey, creator⟩), .tick 10, byOperator alice]
def authorityOpen : World := run genesis authorityOps

/-- An operator opens an escrow with a cap of 500 in an authority-whitelisted presale; once revoked it cannot open
another; nobody can without one. -/
example : has authorityOpen (fun p => decide (p.whitelistMode = 2)) = true ∧
    hasEsc authorityOpen (escrowOf alice) (fun e => decide (e.presale = sale ∧ e.depositMaxCap = 500)) = true ∧
    works authorityOpen (byOperator bob) = true ∧ works authorityOpen (open' bob) = false ∧
    works authorityOpen (revoke bob) = false ∧ works authorityOpen (revoke creator) = true ∧
    works (run authorityOpen [revoke creator]) (byOperator bob) = false := by
  decide +kernel

/-- A whitelist of two rows, and the proofs for them. -/
def rows : List TreeNode :=
  [{ escrowOwner := genesis.env.keyBytes alice, registryIndex := 0, depositCap := 300, proof := none },
   { escrowOwner := genesis.env.keyBytes bob, registryIndex := 0, depositCap := 400, proof := none }]

def tree : Option ConfigMerkleTree :=
  match ConfigMerkleTree.new genesis.env.hash rows 3 with
  | .ok t => some t
  | .error _ => none

def root : Bytes := ((tree.map ConfigMerkleTree.merkleRoot).getD [])
def proofOf (i : Nat) : List Bytes :=
  ((tree.bind fun t => t.treeNodes[i]?).bind TreeNode.proof).getD []

def publish (who : Addr) : Op := .ix (tx [who]) (.createMerkle ⟨sale, who, root, 3⟩)
def byProof (owner : Addr) (proof : List Bytes) (cap : Nat) : Op :=
  .ix (tx [owner]) (.createEscrowMerkle
    { presale := sale, owner := owner, config := .merkleRoot sale 3, payer := owner, proof := proof,
      registryIndex := 0, depositCap := cap })
def closeRoot (who : Addr) : Op := .ix (tx [who]) (.closeMerkle ⟨sale, .merkleRoot sale 3, who, who⟩)

def merkleOps : List Op := [init 1 1 0 wideReg, publish creator, .tick 10, byProof alice (proofOf 0) 300]
def merkleOpen : World := run genesis merkleOps

/-- The rows of the list open escrows with their caps, and with no other; the root stays while the sale runs. -/
example : has merkleOpen (fun p => decide (p.whitelistMode = 1)) = true ∧ (proofOf 0).length = 1 ∧
    hasEsc merkleOpen (escrowOf alice) (fun e => decide (e.presale = sale ∧ e.depositMaxCap = 300)) = true ∧
    works merkleOpen (byProof bob (proofOf 1) 400) = true ∧ works merkleOpen (byProof bob (proofOf 1) 401) = false ∧
    works merkleOpen (byProof bob (proofOf 0) 400) = false ∧
    works merkleOpen (open' bob) = false ∧ works merkleOpen (byOperator bob) = false ∧
    works merkleOpen (publish creator) = false ∧ works merkleOpen (closeRoot creator) = false ∧
    works (run merkleOpen [.tick 1000]) (closeRoot creator) = true ∧
    works (run merkleOpen [.tick 1000]) (closeRoot bob) = false ∧
    works (run genesis [init 1 1 0 wideReg]) (publish bob) = false := by
  decide +kernel

def theTree : ConfigMerkleTree := tree.getD { merkleRoot := [], treeNodes := [], version := 0, maxNumNodes := 0 }

/-- The conditions of `C38_on_the_list` hold in that history. -/
example : (∀ x, (genesis.env.hash x).length = 32) ∧ (∀ a, (genesis.env.keyBytes a).length = 32) ∧
    (∀ n ∈ rows, n.escrowOwner.length = 32 ∧ n.registryIndex < 256 ∧ n.depositCap < u64Bound) ∧
    ConfigMerkleTree.new genesis.env.hash rows 3 = .ok theTree ∧ theTree.merkleRoot = root ∧
    (∀ u ∈ buildStrings genesis.env.hash theTree.treeNodes,
      ∀ v ∈ checkStrings genesis.env.hash (genesis.env.keyBytes alice) 0 300 (proofOf 0),
        genesis.env.hash u = genesis.env.hash v → u = v) := by
  refine ⟨?_, ?_, by decide +kernel, by decide +kernel, by decide +kernel, by decide +kernel⟩
  · intro x; simp [genesis]
  · intro a; cases a <;> simp [genesis]

/-- Server metadata: only by the creator, once, and gone on request. -/
def setUrl (who : Addr) : Op := .ix (tx [who]) (.createMetadata ⟨sale, who, [104, 116]⟩)
def dropUrl (who : Addr) : Op := .ix (tx [who]) (.closeMetadata ⟨sale, .serverMetadata sale, who, who⟩)

example : works authorityOpen (setUrl creator) = true ∧ works authorityOpen (setUrl bob) = false ∧
    works prorataOpen (setUrl creator) = false ∧
    works (run authorityOpen [setUrl creator]) (setUrl creator) = false ∧
    works (run authorityOpen [setUrl creator]) (dropUrl bob) = false ∧
    works (run authorityOpen [setUrl creator]) (dropUrl creator) = true := by
  decide +kernel

/-- Somebody else plants a price of 4 quote units, on record as owner; the creator can neither replace nor remove
it, and the sale they create is held at that price. -/
def plant : Op := .ix (tx [bob]) (.initFixedArgs ⟨bob, bob, sale, 1, 2 ^ 66⟩)
def plantedSale : World := run genesis [plant, init 0 0 1 reg1]

example : works genesis plant = true ∧ works (run genesis [plant]) fixedArgsOp = false ∧
    works (run genesis [plant]) (.ix (tx [creator]) (.closeFixedArgs ⟨.fixedPriceArgs sale, creator⟩)) = false ∧
    works (run genesis [plant]) (.ix (tx [bob]) (.closeFixedArgs ⟨.fixedPriceArgs sale, bob⟩)) = true ∧
    has plantedSale (fun p => decide (p.presaleMode = 0 ∧ p.raw0 = 2 ^ 66 ∧ p.owner = creator)) = true := by
  decide +kernel

end Ex

end Verif
