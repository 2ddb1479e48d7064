import Verif.SpecExtensions
import Verif.Lemmas.MachineInit
import Verif.Examples
/-!
# C74: required memos and the CPI guard
-/

namespace Verif

/-! ## The token operations of an instruction -/

/-- The shape of the token operations of a successful instruction. -/
inductive CpiShape (i : Ix) : List Cpi → Prop where
  | none : Spec.spends i = .none → CpiShape i []
  | inward {mint src dst who n fee} : Spec.spends i = some (src, who) → dst.isVault = true →
      CpiShape i [.transfer mint src dst who n fee]
  | outward {mint src dst n fee} : Spec.spends i = .none → memoContext i = some "Presale" → src.isVault = true →
      CpiShape i [.transfer mint src dst .presaleAuthority n fee]
  | burn {mint src n} : Spec.spends i = .none → src.isVault = true → CpiShape i [.burn mint src n]

theorem shape_ix {w : World} (R : Reachable w) {tx : Tx} {i : Ix} {w' : World} {rc : Receipt}
    (h : execIx w tx i = .ok (w', rc)) : CpiShape i rc.cpis := by
  have W := R.winv
  have qv : ∀ {P : Addr} {p : Presale}, w.presales P = some p → p.quoteTokenVault.isVault = true := by
    intro P p hp
    rw [(W.core.sale P p hp).pinv.static.quoteVault]; rfl
  have bv : ∀ {P : Addr} {p : Presale}, w.presales P = some p → p.baseTokenVault.isVault = true := by
    intro P p hp
    rw [(W.core.sale P p hp).pinv.static.baseVault]; rfl
  cases i with
  | initFixedArgs x =>
    have F := handleInitFixedArgs_iff.1 h
    rw [F.receipt]; exact .none rfl
  | closeFixedArgs x =>
    obtain ⟨c, F⟩ := handleCloseFixedArgs_iff.1 h
    rw [F.receipt]; exact .none rfl
  | initPresale x =>
    obtain ⟨_, _, _, _, _, _, _, _, _, _, F⟩ := handleInitPresale_iff.1 h
    obtain ⟨_, _, _, _, T⟩ := transferTokens_iff.1 F.transfer
    rw [F.receipt, T.cpi]
    exact .inward rfl rfl
  | createMerkle x =>
    obtain ⟨_, F⟩ := handleCreateMerkle_iff.1 h
    rw [F.receipt]; exact .none rfl
  | closeMerkle x =>
    obtain ⟨_, _, F⟩ := handleCloseMerkle_iff.1 h
    rw [F.receipt]; exact .none rfl
  | createEscrow x =>
    obtain ⟨_, _, _, _, F⟩ := handleCreateEscrow_iff.1 h
    rw [F.receipt]; exact .none rfl
  | createEscrowCreator x =>
    obtain ⟨_, _, _, _, _, F⟩ := handleCreateEscrowCreator_iff.1 h
    rw [F.receipt]; exact .none rfl
  | createEscrowMerkle x =>
    obtain ⟨_, _, _, _, _, F⟩ := handleCreateEscrowMerkle_iff.1 h
    rw [F.receipt]; exact .none rfl
  | createOperator x =>
    have F := handleCreateOperator_iff.1 h
    rw [F.receipt]; exact .none rfl
  | revokeOperator x =>
    obtain ⟨_, F⟩ := handleRevokeOperator_iff.1 h
    rw [F.receipt]; exact .none rfl
  | deposit x =>
    obtain ⟨p, _, _, _, _, _, _, _, _, F⟩ := handleDeposit_iff.1 h
    obtain ⟨_, _, _, _, T⟩ := transferTokens_iff.1 F.transfer
    rw [F.receipt, T.cpi]
    exact .inward rfl (F.vault.1 ▸ qv F.presale)
  | withdraw x =>
    obtain ⟨p, _, _, _, _, _, _, _, _, _, _, F⟩ := handleWithdraw_iff.1 h
    obtain ⟨_, _, _, _, T⟩ := transferTokens_iff.1 F.transfer
    rw [F.receipt, T.cpi]
    exact .outward rfl rfl (F.vault.1 ▸ qv F.presale)
  | claim x =>
    obtain ⟨p, _, _, _, _, _, F⟩ := handleClaim_iff.1 h
    rcases F.out with ⟨_, _, _, _, _, _, _, _, _, ht, _, rfl⟩ | ⟨_, _, rfl⟩
    · obtain ⟨_, _, _, _, T⟩ := transferTokens_iff.1 ht
      rw [T.cpi]
      exact .outward rfl rfl (F.vault.1 ▸ bv F.presale)
    · exact .none rfl
  | refund x =>
    obtain ⟨p, _, _, _, _, _, _, _, F⟩ := handleRefund_iff.1 h
    rcases F.out with ⟨_, _, _, ht, _, rfl⟩ | ⟨_, _, rfl⟩
    · obtain ⟨_, _, _, _, T⟩ := transferTokens_iff.1 ht
      rw [T.cpi]
      exact .outward rfl rfl (F.vault.1 ▸ qv F.presale)
    · exact .none rfl
  | unsold x =>
    obtain ⟨p, _, _, _, _, _, F⟩ := handleUnsold_iff.1 h
    rw [F.receipt]
    have hv : x.baseTokenVault.isVault = true := F.vault.1 ▸ bv F.presale
    have hp := F.perform
    cases hk : UnsoldTokenAction.ofByte p.unsoldTokenAction with
    | burn =>
      rw [hk] at hp
      obtain ⟨_, _, _, B⟩ := burnTokens_iff.1 hp
      rw [B.cpi]
      exact .burn rfl hv
    | refund =>
      rw [hk] at hp
      simp only [performUnsold, bind_eq_ok] at hp
      obtain ⟨_, _, ht⟩ := hp
      obtain ⟨_, _, _, _, T⟩ := transferTokens_iff.1 ht
      rw [T.cpi]
      exact .outward rfl rfl hv
  | closeEscrow x =>
    obtain ⟨_, _, _, F⟩ := handleCloseEscrow_iff.1 h
    rw [F.receipt]; exact .none rfl
  | creatorWithdraw x =>
    obtain ⟨p, c, _, _, _, _, _, _, F⟩ := handleCreatorWithdraw_iff.1 h
    obtain ⟨_, _, _, _, T⟩ := transferTokens_iff.1 F.transfer
    rw [F.receipt, T.cpi]
    refine .outward rfl rfl ?_
    have hc := F.payout
    rcases F.progress with h1 | h1
    · rw [h1] at hc; rw [(creatorPayout_completed hc).2.1]; exact qv F.presale
    · rw [h1] at hc; rw [(creatorPayout_failed hc).2.1]; exact bv F.presale
  | refresh x =>
    obtain ⟨_, _, _, F⟩ := (handleRefresh_iff (tx := tx)).1 h
    rw [F.receipt]; exact .none rfl
  | createMetadata x =>
    obtain ⟨_, F⟩ := handleCreateMetadata_iff.1 h
    rw [F.receipt]; exact .none rfl
  | closeMetadata x =>
    obtain ⟨_, _, F⟩ := handleCloseMetadata_iff.1 h
    rw [F.receipt]; exact .none rfl
  | collectFee x =>
    obtain ⟨p, _, _, _, F⟩ := handleCollectFee_iff.1 h
    rcases F.out with ⟨_, _, _, _, _, _, ht, _, rfl⟩ | ⟨_, _, rfl⟩
    · obtain ⟨_, _, _, _, T⟩ := transferTokens_iff.1 ht
      rw [T.cpi]
      exact .outward rfl rfl (F.owner.2.2 ▸ qv F.presale)
    · exact .none rfl

/-! ## What the two extensions say -/

theorem programOf_iff {w : World} {a : Addr} :
    w.tk.programOf a = some .splToken2022 ↔ Spec.Extended w a := by
  unfold Tokens.programOf Spec.Extended
  simp [Option.bind_eq_some_iff, Option.map_eq_some_iff]

theorem memoRequired_iff {x : XWorld} {a : Addr} : x.memoRequired a = true ↔ Spec.AsksMemo x a := by
  unfold XWorld.memoRequired Spec.AsksMemo
  rw [← programOf_iff]
  split <;> simp_all

theorem guardRule_iff {x : XWorld} {src who : Addr} : x.guardRule src who = true ↔
    ¬ (Spec.Extended x.w src ∧ x.guard src = true ∧
      ∀ t n, x.w.tk.toks src = some t → t.delegate ≠ some (who, n)) := by
  unfold XWorld.guardRule
  rw [← programOf_iff]
  split
  · next t h1 h2 =>
    split
    · next d n h3 =>
      split
      · next h4 =>
        subst h4
        simp only [true_iff]
        rintro ⟨_, _, h5⟩
        exact h5 t n h2 h3
      · next h4 =>
        constructor
        · rintro h5 ⟨_, h6, _⟩
          simp [h6] at h5
        · intro h5
          cases h6 : x.guard src with
          | false => rfl
          | true =>
            refine absurd ⟨h1, h6, fun t' n' h7 h8 => ?_⟩ h5
            rw [h2] at h7; cases h7
            rw [h3] at h8; cases h8
            exact h4 rfl
    · next h3 =>
      constructor
      · rintro h5 ⟨_, h6, _⟩
        simp [h6] at h5
      · intro h5
        cases h6 : x.guard src with
        | false => rfl
        | true =>
          refine absurd ⟨h1, h6, fun t' n' h7 h8 => ?_⟩ h5
          rw [h2] at h7; cases h7
          rw [h3] at h8; cases h8
  · next h1 =>
    simp only [true_iff]
    rintro ⟨h2, _, _⟩
    have h3 := h2
    rw [programOf_iff] at h3
    obtain ⟨t, _, h3, _⟩ := h3
    exact h1 _ h2 h3

/-- Vaults have neither extension. -/
def Bare (x : XWorld) : Prop := ∀ a, a.isVault = true → x.memo a = false ∧ x.guard a = false

/-- One instruction in a state where vaults have no extensions. -/
theorem xexec_iff {x : XWorld} (R : Reachable x.w) (B : Bare x) {tx : Tx} {i : Ix} {x' : XWorld} {rc : Receipt}
    {calls : List XCall} : xexec x tx i = .ok (x', rc, calls) ↔
      ∃ w', execIx x.w tx i = .ok (w', rc) ∧ x' = { x with w := w' } ∧ ¬ Spec.Guarded x i ∧
        Spec.Announced x "Presale" rc.cpis calls := by
  have key : ∀ {w' rc}, execIx x.w tx i = .ok (w', rc) →
      ((x.allowed none (x.calls i rc.cpis) = .ok () ∧ calls = x.calls i rc.cpis) ↔
        (¬ Spec.Guarded x i ∧ Spec.Announced x "Presale" rc.cpis calls)) := by
    intro w' rc h
    have hv : ∀ {a : Addr} {who : Addr}, a.isVault = true → x.guardRule a who = true := by
      intro a who ha
      rw [guardRule_iff]
      rintro ⟨_, h1, _⟩
      rw [(B a ha).2] at h1; cases h1
    have hm : ∀ {a : Addr}, a.isVault = true → x.memoRequired a = false := by
      intro a ha
      rw [← Bool.not_eq_true, memoRequired_iff]
      rintro ⟨_, h1⟩
      rw [(B a ha).1] at h1; cases h1
    have hn : Spec.spends i = none → ¬ Spec.Guarded x i := by
      rintro h1 ⟨_, _, h2, _⟩
      rw [h1] at h2; cases h2
    have S := shape_ix R h
    generalize rc.cpis = l at S
    cases S with
    | none h1 =>
      constructor
      · rintro ⟨_, rfl⟩
        exact ⟨hn h1, .nil⟩
      · rintro ⟨_, A⟩
        cases A
        exact ⟨rfl, rfl⟩
    | @inward mint src dst who n fee h1 h2 =>
      have hg : Spec.Guarded x i ↔ ¬ x.guardRule src who = true := by
        rw [guardRule_iff, Classical.not_not]
        constructor
        · rintro ⟨s, u, h3, h4⟩
          rw [h1] at h3; cases h3
          exact h4
        · exact fun h4 => ⟨src, who, h1, h4⟩
      have hc : x.calls i [.transfer mint src dst who n fee] = [.token (.transfer mint src dst who n fee)] := by
        unfold XWorld.calls XWorld.callsFor
        simp only [List.flatMap_cons, List.flatMap_nil, List.append_nil]
        split
        · rw [if_neg (by rw [hm h2]; simp)]
        · rfl
      rw [hc, hg, Classical.not_not]
      have ha : x.allowed none [.token (.transfer mint src dst who n fee)] = .ok () ↔
          x.guardRule src who = true := by
        simp [XWorld.allowed, XWorld.memoRule, hm h2, bind_eq_ok, require_eq_ok]
      rw [ha]
      have hk : ¬ Spec.AsksMemo x dst := by rw [← memoRequired_iff, hm h2]; simp
      refine and_congr_right fun _ => ⟨?_, ?_⟩
      · rintro rfl
        exact .plain hk .nil
      · intro A
        cases A with
        | plain _ A => cases A; rfl
        | memo h5 _ => exact absurd h5 hk
    | @outward mint src dst n fee h1 h2 h3 =>
      by_cases hd : x.memoRequired dst = true
      · have hc : x.calls i [.transfer mint src dst .presaleAuthority n fee] =
            [.memo "Presale", .token (.transfer mint src dst .presaleAuthority n fee)] := by
          simp [XWorld.calls, XWorld.callsFor, h2, hd]
        rw [hc]
        constructor
        · rintro ⟨_, rfl⟩
          exact ⟨hn h1, .memo (memoRequired_iff.1 hd) .nil⟩
        · rintro ⟨_, A⟩
          refine ⟨by simp [XWorld.allowed, XWorld.memoRule, hv h3, bind_eq_ok, require_eq_ok], ?_⟩
          cases A with
          | plain h5 _ => exact absurd (memoRequired_iff.1 hd) h5
          | memo _ A => cases A; rfl
      · have hc : x.calls i [.transfer mint src dst .presaleAuthority n fee] =
            [.token (.transfer mint src dst .presaleAuthority n fee)] := by
          simp [XWorld.calls, XWorld.callsFor, h2, hd]
        rw [hc]
        have hk : ¬ Spec.AsksMemo x dst := by rw [← memoRequired_iff]; exact hd
        constructor
        · rintro ⟨_, rfl⟩
          exact ⟨hn h1, .plain hk .nil⟩
        · rintro ⟨_, A⟩
          refine ⟨by simp [XWorld.allowed, XWorld.memoRule, hd, hv h3, bind_eq_ok, require_eq_ok], ?_⟩
          cases A with
          | plain _ A => cases A; rfl
          | memo h5 _ => exact absurd h5 hk
    | @burn mint src n h1 h2 =>
      have hc : x.calls i [.burn mint src n] = [.token (.burn mint src n)] := rfl
      rw [hc]
      constructor
      · rintro ⟨_, rfl⟩
        exact ⟨hn h1, .burn .nil⟩
      · rintro ⟨_, A⟩
        refine ⟨by simp [XWorld.allowed, hv h2, bind_eq_ok, require_eq_ok], ?_⟩
        cases A with
        | burn A => cases A; rfl
  unfold xexec
  simp only [bind_eq_ok, pure_eq_ok, Prod.exists, Prod.mk.injEq]
  constructor
  · rintro ⟨w', rc', h1, _, h2, rfl, rfl, rfl⟩
    obtain ⟨g, A⟩ := (key h1).1 ⟨h2, rfl⟩
    exact ⟨w', h1, rfl, g, A⟩
  · rintro ⟨w', h1, rfl, g, A⟩
    obtain ⟨h2, rfl⟩ := (key h1).2 ⟨g, A⟩
    exact ⟨w', rc, h1, (), h2, rfl, rfl, rfl⟩

/-! ## Histories -/

theorem xapply_bare {x : XWorld} (B : Bare x) (R : Reachable x.w) (o : XOp) :
    Bare (xapply x o) ∧ Reachable (xapply x o).w := by
  unfold xapply
  split
  · next x' r h =>
    obtain ⟨rc, calls⟩ := r
    cases o with
    | op o =>
      have base : ∀ {w'}, step x.w o = .ok (w', rc) → x' = { x with w := w' } → Bare x' ∧ Reachable x'.w := by
        rintro w' hs rfl
        exact ⟨B, R.step hs⟩
      cases o with
      | ix tx i =>
        obtain ⟨w', h1, h2, _⟩ := (xexec_iff R B).1 h
        exact base h1 h2
      | tick | setTok | donate | freezeVault | setMint =>
        simp only [xstep, bind_eq_ok, pure_eq_ok, Prod.exists, Prod.mk.injEq] at h
        obtain ⟨w', rc', h1, h2, rfl, _⟩ := h
        exact base h1 h2.symm
    | setMemo a b =>
      simp only [xstep, bind_eq_ok, require_eq_ok, pure_eq_ok, exists_const, Prod.mk.injEq] at h
      obtain ⟨ha, rfl, _⟩ := h
      refine ⟨fun v hv => ⟨?_, (B v hv).2⟩, R⟩
      have : v ≠ a := by rintro rfl; rw [ha] at hv; cases hv
      show upd x.memo a b v = false
      rw [upd_other _ _ this]
      exact (B v hv).1
    | setGuard a b =>
      simp only [xstep, bind_eq_ok, require_eq_ok, pure_eq_ok, exists_const, Prod.mk.injEq] at h
      obtain ⟨ha, rfl, _⟩ := h
      refine ⟨fun v hv => ⟨(B v hv).1, ?_⟩, R⟩
      have : v ≠ a := by rintro rfl; rw [ha] at hv; cases hv
      show upd x.guard a b v = false
      rw [upd_other _ _ this]
      exact (B v hv).2
  · exact ⟨B, R⟩

theorem xrun_bare {x : XWorld} (os : List XOp) (B : Bare x) (R : Reachable x.w) :
    Bare (xrun x os) ∧ Reachable (xrun x os).w := by
  induction os generalizing x with
  | nil => exact ⟨B, R⟩
  | cons o os ih => exact ih (xapply_bare B R o).1 (xapply_bare B R o).2

theorem XReachable.bare {x : XWorld} (R : XReachable x) : Bare x := by
  obtain ⟨x0, os, G, B, rfl⟩ := R
  exact (xrun_bare os B ⟨x0.w, [], G, rfl⟩).1

/-- **C74** (histories). Whatever owners do with the extensions of their accounts, the ledger is one that is
reachable without extensions, so that all other theorems apply to it. -/
theorem C74_ledger {x : XWorld} (R : XReachable x) : Reachable x.w := by
  obtain ⟨x0, os, G, B, rfl⟩ := R
  exact (xrun_bare os B ⟨x0.w, [], G, rfl⟩).2

/-- **C74** (vaults). No history puts an extension on a vault. -/
theorem C74_vaults {x : XWorld} (R : XReachable x) {P : Addr} {p : Presale} (hp : x.w.presales P = some p) :
    x.memo p.baseTokenVault = false ∧ x.memo p.quoteTokenVault = false ∧
      x.guard p.baseTokenVault = false ∧ x.guard p.quoteTokenVault = false := by
  have S := ((C74_ledger R).winv.core.sale P p hp).pinv.static
  rw [S.baseVault, S.quoteVault]
  exact ⟨(R.bare _ rfl).1, (R.bare _ rfl).1, (R.bare _ rfl).2, (R.bare _ rfl).2⟩

/-- **C74** (instructions). With required memos and CPI guards, an instruction succeeds exactly if it would succeed
without them and does not spend from a guarded account of the user who signs; it then has the same effect, and makes
the same token operations, each transfer to an account that asks for memos directly after the memo `Presale`. -/
theorem C74_exec {x : XWorld} (R : XReachable x) {tx : Tx} {i : Ix} {x' : XWorld} {rc : Receipt}
    {calls : List XCall} : xstep x (.op (.ix tx i)) = .ok (x', rc, calls) ↔
      ∃ w', step x.w (.ix tx i) = .ok (w', rc) ∧ x' = { x with w := w' } ∧ ¬ Spec.Guarded x i ∧
        Spec.Announced x "Presale" rc.cpis calls :=
  xexec_iff (C74_ledger R) R.bare

theorem Spec.Announced.total {x : XWorld} {text : String} (l : List Cpi) :
    ∃ calls, Spec.Announced x text l calls := by
  induction l with
  | nil => exact ⟨_, .nil⟩
  | cons c l ih =>
    obtain ⟨calls, ih⟩ := ih
    cases c with
    | burn => exact ⟨_, .burn ih⟩
    | transfer mint src dst who n fee =>
      by_cases h : Spec.AsksMemo x dst
      · exact ⟨_, .memo h ih⟩
      · exact ⟨_, .plain h ih⟩

/-- **C74** (nobody is locked out). An instruction that does not spend a user's tokens (every withdrawal, claim,
refund, collection, closing and all administration) never fails because of these extensions, whatever the receiving
account asks for. -/
theorem C74_payouts {x : XWorld} (R : XReachable x) {tx : Tx} {i : Ix} (hi : Spec.spends i = none) {w' : World}
    {rc : Receipt} (h : step x.w (.ix tx i) = .ok (w', rc)) :
    ∃ calls, xstep x (.op (.ix tx i)) = .ok ({ x with w := w' }, rc, calls) := by
  obtain ⟨calls, A⟩ := Spec.Announced.total (x := x) (text := "Presale") rc.cpis
  refine ⟨calls, (C74_exec R).2 ⟨w', h, rfl, ?_, A⟩⟩
  rintro ⟨_, _, h1, _⟩
  rw [hi] at h1; cases h1

/-- **C74** (the guard can be turned off). A deposit or creation of a sale that only the guard of the paying account
stops succeeds once its owner turns the guard off. -/
theorem C74_unguard {x : XWorld} (R : XReachable x) {tx : Tx} {i : Ix} {src who : Addr}
    (hi : Spec.spends i = some (src, who)) {w' : World} {rc : Receipt} (h : step x.w (.ix tx i) = .ok (w', rc)) :
    ∃ x' calls, xstep (xapply x (.setGuard src false)) (.op (.ix tx i)) = .ok (x', rc, calls) ∧ x'.w = w' := by
  have R' : XReachable (xapply x (.setGuard src false)) := by
    obtain ⟨x0, os, G, B, rfl⟩ := R
    refine ⟨x0, os ++ [.setGuard src false], G, B, ?_⟩
    generalize hl : [XOp.setGuard src false] = l
    have : ∀ (x : XWorld) os l, xrun x (os ++ l) = xrun (xrun x os) l := by
      intro x os l
      induction os generalizing x with
      | nil => rfl
      | cons o os ih => exact ih _
    rw [this, ← hl]
    rfl
  have hw : (xapply x (.setGuard src false)).w = x.w ∧ (xapply x (.setGuard src false)).guard src = false := by
    by_cases ha : src.isVault = false
    · have : xstep x (.setGuard src false) =
          .ok ({ x with guard := upd x.guard src false }, noReceipt, []) := by
        simp [xstep, ha, require, ok_bind]
      unfold xapply
      rw [this]
      exact ⟨rfl, upd_self _ _ _⟩
    · have : xstep x (.setGuard src false) = .error (.x .constraint) := by
        simp only [xstep, require, if_neg ha]; rfl
      unfold xapply
      rw [this]
      exact ⟨rfl, (R.bare src (by simpa using ha)).2⟩
  obtain ⟨calls, A⟩ := Spec.Announced.total (x := xapply x (.setGuard src false)) (text := "Presale") rc.cpis
  refine ⟨_, calls, (C74_exec R').2 ⟨w', by rw [hw.1]; exact h, rfl, ?_, A⟩, rfl⟩
  rintro ⟨s, u, h1, _, h2, _⟩
  rw [hi] at h1; cases h1
  rw [hw.2] at h2; cases h2

theorem allowed_silent {x : XWorld} (hm : ∀ a, x.memo a = false) (hg : ∀ a, x.guard a = false)
    (calls : List XCall) (prev : Option XCall) : x.allowed prev calls = .ok () := by
  have m : ∀ a p, x.memoRule a p = true := by
    intro a p
    unfold XWorld.memoRule XWorld.memoRequired
    split
    · rfl
    · split <;> simp [hm]
  have g : ∀ s a, x.guardRule s a = true := by
    intro s a
    rw [guardRule_iff]
    rintro ⟨_, h, _⟩
    rw [hg] at h; cases h
  induction calls generalizing prev with
  | nil => rfl
  | cons c cs ih =>
    cases c with
    | memo t => simp [XWorld.allowed, ih]
    | token c => cases c <;> simp [XWorld.allowed, m, g, require, ih, ok_bind]

/-- **C74** (conservative). As long as nobody uses the extensions, histories are those without them. -/
theorem C74_conservative {x : XWorld} (hm : ∀ a, x.memo a = false) (hg : ∀ a, x.guard a = false) (ops : List Op) :
    xrun x (ops.map .op) = { x with w := run x.w ops } := by
  induction ops generalizing x with
  | nil => rfl
  | cons o ops ih =>
    have key : xapply x (.op o) = { x with w := apply x.w o } := by
      unfold xapply apply
      cases o with
      | ix tx i =>
        simp only [xstep, xexec, step]
        cases h : execIx x.w tx i with
        | error e => rfl
        | ok r => simp only [ok_bind, allowed_silent hm hg, pure]; rfl
      | tick | setTok | donate | freezeVault | setMint =>
        simp only [xstep]
        generalize step x.w _ = r
        cases r <;> rfl
    show xrun (xapply x (.op o)) (ops.map .op) = _
    rw [key]
    exact ih hm hg


namespace Ex

/-- Alice's and the creator's quote accounts (Token-2022) ask for memos; Alice's is guarded after she paid, and so is
Bob's, which has the creator as its delegate. -/
def extOps : List XOp :=
  prorataOps.map .op ++
    [.setMemo aliceQuote true, .setMemo creatorQuote true, .setGuard aliceQuote true, .setGuard bobQuote true,
      .op (.setTok bobQuote (some { acct qm bob 1000 with delegate := some (creator, 500) }))]

def extOpen : XWorld := xrun { w := genesis, memo := fun _ => false, guard := fun _ => false } extOps

def extDone : XWorld := xapply extOpen (.op (.tick 1180))

theorem extOpen_reachable : XReachable extOpen :=
  ⟨_, extOps, genesis_ok, fun _ _ => ⟨rfl, rfl⟩, rfl⟩

theorem extDone_reachable : XReachable extDone :=
  ⟨_, extOps ++ [.op (.tick 1180)], genesis_ok, fun _ _ => ⟨rfl, rfl⟩, rfl⟩

/-- The calls made by an instruction, if it succeeds. -/
def callsOf (x : XWorld) (o : XOp) : Option (List XCall) :=
  match xstep x o with
  | .ok (_, _, calls) => some calls
  | .error _ => none

/-- Bob's account, spent by its delegate. -/
def delegateDeposit : Op :=
  .ix (tx [creator]) (.deposit { depositAcc bob bobQuote 100 with payer := creator })

/-- The refunds: Alice's account asks for a memo, Bob's does not. The creator's raise is
announced too. -/
example : callsOf extDone (.op (refund alice aliceQuote)) =
      some [.memo "Presale", .token (.transfer qm (.quoteVault sale) aliceQuote .presaleAuthority 305 4)] ∧
    callsOf extDone (.op (refund bob bobQuote)) =
      some [.token (.transfer qm (.quoteVault sale) bobQuote .presaleAuthority 204 3)] ∧
    callsOf extDone (.op (creatorWithdraw creatorWithdrawAcc)) =
      some [.memo "Presale", .token (.transfer qm (.quoteVault sale) creatorQuote .presaleAuthority 1000 10)] := by
  decide +kernel

/-- Alice's deposit is refused because of her guard, and works without it; so does a deposit by Bob's delegate,
despite his guard. -/
example : callsOf extOpen (.op (deposit alice aliceQuote 100)) = none ∧
    works extOpen.w (deposit alice aliceQuote 100) = true ∧
    (callsOf (xapply extOpen (.setGuard aliceQuote false)) (.op (deposit alice aliceQuote 100))).isSome = true ∧
    callsOf extOpen (.op (deposit bob bobQuote 100)) = none ∧
    (callsOf extOpen (.op delegateDeposit)).isSome = true := by
  decide +kernel

/-- Token-2022 would refuse the transfer to Alice without the memo. -/
example : extDone.allowed none [.token (.transfer qm (.quoteVault sale) aliceQuote .presaleAuthority 305 4)] =
    .error (.x .constraint) := by
  decide +kernel

/-- Extensions of vaults cannot be changed. -/
example : xapply extOpen (.setGuard (.quoteVault sale) true) = extOpen := rfl

end Ex


end Verif
