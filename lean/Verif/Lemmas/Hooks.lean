import Verif.Model.Hooks
import Verif.Lemmas.Inversion
import Verif.Lemmas.Token
/-!
# Cutting an instruction at its transfer
-/

namespace Verif

/-- A prepared instruction does what the whole one does, and the changes a hook makes come on top. -/
def Sound (w : World) (tx : Tx) (i : Ix) : Prepared → Prop
  | .done w' rc => execIx w tx i = .ok (w', rc) ∧ rc.cpis = []
  | .burn k prog src mint amount go => ∀ k' cpi w' rc,
      burnTokens k prog src mint .presaleAuthority amount = .ok (k', cpi) → go k' cpi = .ok (w', rc) →
      execIx w tx i = .ok (w', rc) ∧ rc.cpis = [cpi]
  | .transfer k t go => k.mints = w.tk.mints ∧ ∀ k' cpi k'' w' rc,
      transferTokens k t.authority t.mint t.src t.dst t.program t.amount t.hooks tx.accept = .ok (k', cpi) →
      k''.mints t.mint = k'.mints t.mint → go k'' cpi = .ok (w', rc) →
      ∃ w0, w0.tk = k' ∧ w' = { w0 with tk := k'' } ∧ execIx w tx i = .ok (w0, rc) ∧ rc.cpis = [cpi]

/-- A prepared instruction gets through when the whole one does. -/
def Live (tx : Tx) (w0 : World) (rc : Receipt) : Prepared → Prop
  | .done w' rc' => w' = w0 ∧ rc' = rc
  | .burn k prog src mint amount go => ∃ k' cpi,
      burnTokens k prog src mint .presaleAuthority amount = .ok (k', cpi) ∧ go k' cpi = .ok (w0, rc)
  | .transfer k t go => ∃ k' cpi,
      transferTokens k t.authority t.mint t.src t.dst t.program t.amount t.hooks tx.accept = .ok (k', cpi) ∧
      w0.tk = k' ∧ ∀ k'', k''.mints t.mint = k'.mints t.mint → go k'' cpi = .ok ({ w0 with tk := k'' }, rc)

theorem transfer_mints {k : Tokens} {authority mint src dst : Addr} {prog : TokenProgram} {amount : Nat}
    {hooks : Option (List Addr)} {accept : Bool} {k' : Tokens} {cpi : Cpi}
    (h : transferTokens k authority mint src dst prog amount hooks accept = .ok (k', cpi)) :
    k'.mints = k.mints := by
  obtain ⟨s, d, m, dlg, T⟩ := transferTokens_iff.1 h
  rw [T.post]
  split <;> rfl

/-! ## Soundness -/

theorem sound_init {w : World} {tx : Tx} {a : InitPresaleAcc} {pr : Prepared}
    (h : prepareInit w tx a = .ok pr) : Sound w tx (.initPresale a) pr := by
  simp only [prepareInit, bind_eq_ok, require_eq_ok, load_eq_ok, castTime_eq_ok, pure_eq_ok, Prod.exists,
    exists_const, Option.isNone_iff_eq_none, ensureSupportedMint] at h
  obtain ⟨h1, bm, h2, qm, h3, h4, h5, h6, t, ⟨h7, rfl⟩, _, h8, h9, h10, p, rem, h11, s, h12, inc, h13, hooks, rest,
      h14, rfl⟩ := h
  refine ⟨rfl, fun k' cpi k'' w' rc ht _ hg => ?_⟩
  simp only [ok_eq_ok, Prod.mk.injEq] at hg
  obtain ⟨rfl, rfl⟩ := hg
  exact ⟨{ w with presales := upd w.presales a.presaleKey (some p), tk := k' }, rfl, rfl, handleInitPresale_iff.2
    ⟨bm, qm, p, rem, s, inc, hooks, rest, k', cpi,
      ⟨h1, h2, h3, h4, h5, h6, h7, h8, h9, h10, h11, h12, h13, h14, ht, rfl, rfl⟩⟩, rfl⟩

theorem sound_deposit {w : World} {tx : Tx} {a : DepositAcc} {pr : Prepared}
    (h : prepareDeposit w tx a = .ok pr) : Sound w tx (.deposit a) pr := by
  simp only [prepareDeposit, bind_eq_ok, require_eq_ok, load_eq_ok, castTime_eq_ok, pure_eq_ok, Prod.exists,
    exists_const] at h
  obtain ⟨h1, p, h2, h3, m, h4, e, h5, h6, h7, t, ⟨h8, rfl⟩, d, h9, inc, h10, hooks, rest, h11, rfl⟩ := h
  refine ⟨rfl, fun k' cpi k'' w' rc ht _ hg => ?_⟩
  simp only [ok_eq_ok, Prod.mk.injEq] at hg
  obtain ⟨rfl, rfl⟩ := hg
  exact ⟨_, rfl, rfl, handleDeposit_iff.2 ⟨p, m, e, d, inc, hooks, rest, k', cpi,
      ⟨h1, h2, h3, h4, h5, h6, h7, h8, h9, h10, h11, ht, rfl, rfl⟩⟩, rfl⟩

theorem sound_withdraw {w : World} {tx : Tx} {a : WithdrawAcc} {pr : Prepared}
    (h : prepareWithdraw w tx a = .ok pr) : Sound w tx (.withdraw a) pr := by
  simp only [prepareWithdraw, bind_eq_ok, require_eq_ok, load_eq_ok, castTime_eq_ok, pure_eq_ok, Prod.exists,
    exists_const] at h
  obtain ⟨h1, p, h2, h3, m, h4, e, h5, h6, h7, t, ⟨h8, rfl⟩, p', e', am, h9, hooks, rest, h11, rfl⟩ := h
  refine ⟨rfl, fun k' cpi k'' w' rc ht hk hg => ?_⟩
  have hm : k'.mints a.quoteMint = w.tk.mints a.quoteMint := congrFun (transfer_mints ht) _
  simp only [bind_eq_ok, load_eq_ok, pure_eq_ok, Prod.mk.injEq] at hg
  obtain ⟨m', g1, ex, g2, rfl, rfl⟩ := hg
  rw [hk, hm, h4] at g1
  cases g1
  exact ⟨_, rfl, rfl, handleWithdraw_iff.2 ⟨p, m, e, p', e', am, hooks, rest, k', cpi, ex,
      ⟨h1, h2, h3, h4, h5, h6, h7, h8, h9, h11, ht, g2, rfl, rfl⟩⟩, rfl⟩

theorem sound_claim {w : World} {tx : Tx} {a : ClaimAcc} {pr : Prepared}
    (h : prepareClaim w tx a = .ok pr) : Sound w tx (.claim a) pr := by
  simp only [prepareClaim, bind_eq_ok, require_eq_ok, load_eq_ok, castTime_eq_ok, exists_const] at h
  obtain ⟨h1, p, h2, h3, m, h4, e, h5, h6, h7, h8, t, ⟨h9, rfl⟩, h10, hd, h11, e1, h12, h14⟩ := h
  split at h14
  · next hp =>
    simp only [bind_eq_ok, Prod.exists, pure_eq_ok] at h14
    obtain ⟨p', e', g1, hooks, rest, g2, rfl⟩ := h14
    refine ⟨rfl, fun k' cpi k'' w' rc ht hk hg => ?_⟩
    have hm : k'.mints a.baseMint = w.tk.mints a.baseMint := congrFun (transfer_mints ht) _
    simp only [bind_eq_ok, load_eq_ok, pure_eq_ok, Prod.mk.injEq] at hg
    obtain ⟨m', g3, ex, g4, rfl, rfl⟩ := hg
    rw [hk, hm, h4] at g3
    cases g3
    exact ⟨_, rfl, rfl, handleClaim_iff.2 ⟨p, m, e, hd, e1, ex,
      ⟨h1, h2, h3, h4, h5, h6, h7, h8, h9, h10, h11, h12, g4,
        Or.inl ⟨hp, p', e', hooks, rest, k', cpi, g1, g2, ht, rfl, rfl⟩⟩⟩, rfl⟩
  · next hp =>
    simp only [bind_eq_ok, load_eq_ok, pure_eq_ok] at h14
    obtain ⟨m', g3, ex, g4, rfl⟩ := h14
    rw [h4] at g3
    cases g3
    exact ⟨handleClaim_iff.2 ⟨p, m, e, hd, e1, ex, ⟨h1, h2, h3, h4, h5, h6, h7, h8, h9, h10, h11, h12, g4,
        Or.inr ⟨by omega, rfl, rfl⟩⟩⟩, rfl⟩

theorem sound_refund {w : World} {tx : Tx} {a : RefundAcc} {pr : Prepared}
    (h : prepareRefund w tx a = .ok pr) : Sound w tx (.refund a) pr := by
  simp only [prepareRefund, bind_eq_ok, require_eq_ok, load_eq_ok, castTime_eq_ok, exists_const, add64_eq_ok,
    Prod.exists] at h
  obtain ⟨h1, p, h2, h3, m, h4, e, h5, h6, h7, h8, h9, t, ⟨h10, rfl⟩, q, h11, s, ⟨h12, rfl⟩, p', h13,
      hooks, rest, h14, h16⟩ := h
  split at h16
  · next hp =>
    simp only [pure_eq_ok] at h16
    subst h16
    refine ⟨rfl, fun k' cpi k'' w' rc ht hk hg => ?_⟩
    have hm : k'.mints a.quoteMint = w.tk.mints a.quoteMint := congrFun (transfer_mints ht) _
    simp only [bind_eq_ok, load_eq_ok, pure_eq_ok, Prod.mk.injEq] at hg
    obtain ⟨m', g3, ex, g4, rfl, rfl⟩ := hg
    rw [hk, hm, h4] at g3
    cases g3
    exact ⟨_, rfl, rfl, handleRefund_iff.2 ⟨p, m, e, q, p', hooks, rest, ex,
      ⟨h1, h2, h3, h4, h5, h6, h7, h8, h9, h10, h11, h12, h13, h14, g4, Or.inl ⟨hp, k', cpi, ht, rfl, rfl⟩⟩⟩, rfl⟩
  · next hp =>
    simp only [bind_eq_ok, load_eq_ok, pure_eq_ok] at h16
    obtain ⟨m', g3, ex, g4, rfl⟩ := h16
    rw [h4] at g3
    cases g3
    exact ⟨handleRefund_iff.2 ⟨p, m, e, q, p', hooks, rest, ex,
      ⟨h1, h2, h3, h4, h5, h6, h7, h8, h9, h10, h11, h12, h13, h14, g4, Or.inr ⟨by omega, rfl, rfl⟩⟩⟩, rfl⟩

theorem sound_unsold {w : World} {tx : Tx} {a : UnsoldAcc} {pr : Prepared}
    (h : prepareUnsold w tx a = .ok pr) : Sound w tx (.unsold a) pr := by
  simp only [prepareUnsold, bind_eq_ok, require_eq_ok, load_eq_ok, castTime_eq_ok, exists_const] at h
  obtain ⟨h1, p, h2, h3, c, h4, h5, t, ⟨h6, rfl⟩, h7, h8, hd, h9, u, h10, h11, h12⟩ := h
  split at h12
  · next ha =>
    simp only [pure_eq_ok] at h12
    subst h12
    intro k' cpi w' rc hb hg
    simp only [ok_eq_ok, Prod.mk.injEq] at hg
    obtain ⟨rfl, rfl⟩ := hg
    exact ⟨handleUnsold_iff.2 ⟨p, c, hd, u, k', cpi, ⟨h1, h2, h3, h4, h5, h6, h7, h8, h9, h10, h11,
      by rw [ha]; exact hb, rfl, rfl⟩⟩, rfl⟩
  · next ha =>
    simp only [bind_eq_ok, Prod.exists, pure_eq_ok] at h12
    obtain ⟨hooks, rest, g1, rfl⟩ := h12
    refine ⟨rfl, fun k' cpi k'' w' rc ht _ hg => ?_⟩
    simp only [ok_eq_ok, Prod.mk.injEq] at hg
    obtain ⟨rfl, rfl⟩ := hg
    exact ⟨{ w with presales := upd w.presales a.presale (some p.setUnsoldTokenActionPerformed), tk := k' },
      rfl, rfl, handleUnsold_iff.2 ⟨p, c, hd, u, k', cpi, ⟨h1, h2, h3, h4, h5, h6, h7, h8, h9, h10, h11,
        by rw [ha]; simp only [performUnsold]; rw [g1, ok_bind]; exact ht, rfl, rfl⟩⟩, rfl⟩

theorem sound_creatorWithdraw {w : World} {tx : Tx} {a : CreatorWithdrawAcc} {pr : Prepared}
    (h : prepareCreatorWithdraw w tx a = .ok pr) : Sound w tx (.creatorWithdraw a) pr := by
  simp only [prepareCreatorWithdraw, bind_eq_ok, require_eq_ok, load_eq_ok, castTime_eq_ok, exists_const,
    Prod.exists, pure_eq_ok] at h
  obtain ⟨h1, p, h2, h3, h4, t, ⟨h5, rfl⟩, h6, h7, c, h8, hooks, rest, h9, rfl⟩ := h
  refine ⟨rfl, fun k' cpi k'' w' rc ht hk hg => ?_⟩
  have hm : k'.mints c.mint = w.tk.mints c.mint := congrFun (transfer_mints ht) _
  simp only [bind_eq_ok, load_eq_ok, pure_eq_ok, Prod.mk.injEq] at hg
  obtain ⟨m, g1, ex, g2, rfl, rfl⟩ := hg
  rw [hk, hm] at g1
  exact ⟨_, rfl, rfl, handleCreatorWithdraw_iff.2 ⟨p, c, hooks, rest, k', cpi, m, ex,
      ⟨h1, h2, h3, h4, h5, h6, h7, h8, h9, ht, g1, g2, rfl, rfl⟩⟩, rfl⟩

theorem sound_collectFee {w : World} {tx : Tx} {a : CollectFeeAcc} {pr : Prepared}
    (h : prepareCollectFee w tx a = .ok pr) : Sound w tx (.collectFee a) pr := by
  simp only [prepareCollectFee, bind_eq_ok, require_eq_ok, load_eq_ok, castTime_eq_ok, exists_const] at h
  obtain ⟨h1, p, h2, h3, m, h4, h5, h6, t, ⟨h7, rfl⟩, h8, fee, h9, h11⟩ := h
  split at h11
  · next hp =>
    simp only [bind_eq_ok, Prod.exists, pure_eq_ok] at h11
    obtain ⟨hooks, rest, g1, rfl⟩ := h11
    refine ⟨rfl, fun k' cpi k'' w' rc ht hk hg => ?_⟩
    have hm : k'.mints a.quoteMint = w.tk.mints a.quoteMint := congrFun (transfer_mints ht) _
    simp only [bind_eq_ok, load_eq_ok, pure_eq_ok, Prod.mk.injEq] at hg
    obtain ⟨m', g3, ex, g4, rfl, rfl⟩ := hg
    rw [hk, hm, h4] at g3
    cases g3
    exact ⟨_, rfl, rfl, handleCollectFee_iff.2 ⟨p, m, fee, ex, ⟨h1, h2, h3, h4, h5, h6, h7, h8, h9, g4,
      Or.inl ⟨hp, hooks, rest, k', cpi, g1, ht, rfl, rfl⟩⟩⟩, rfl⟩
  · next hp =>
    simp only [bind_eq_ok, load_eq_ok, pure_eq_ok] at h11
    obtain ⟨m', g3, ex, g4, rfl⟩ := h11
    rw [h4] at g3
    cases g3
    exact ⟨handleCollectFee_iff.2 ⟨p, m, fee, ex, ⟨h1, h2, h3, h4, h5, h6, h7, h8, h9, g4,
      Or.inr ⟨by omega, rfl, rfl⟩⟩⟩, rfl⟩

theorem prepare_sound {w : World} {tx : Tx} {i : Ix} {pr : Prepared} (h : prepare w tx i = .ok pr) :
    Sound w tx i pr := by
  cases i
  case initPresale a => exact sound_init h
  case deposit a => exact sound_deposit h
  case withdraw a => exact sound_withdraw h
  case claim a => exact sound_claim h
  case refund a => exact sound_refund h
  case unsold a => exact sound_unsold h
  case creatorWithdraw a => exact sound_creatorWithdraw h
  case collectFee a => exact sound_collectFee h
  all_goals
    simp only [prepare, bind_eq_ok, Prod.exists, pure_eq_ok] at h
    obtain ⟨w', rc, h, rfl⟩ := h
    refine ⟨h, ?_⟩
  case initFixedArgs a => exact (handleInitFixedArgs_iff.1 h).receipt ▸ rfl
  case closeFixedArgs a => obtain ⟨_, F⟩ := handleCloseFixedArgs_iff.1 h; exact F.receipt ▸ rfl
  case createMerkle a => obtain ⟨_, F⟩ := handleCreateMerkle_iff.1 h; exact F.receipt ▸ rfl
  case closeMerkle a => obtain ⟨_, _, F⟩ := handleCloseMerkle_iff.1 h; exact F.receipt ▸ rfl
  case createEscrow a => obtain ⟨_, _, _, _, F⟩ := handleCreateEscrow_iff.1 h; exact F.receipt ▸ rfl
  case createEscrowCreator a => obtain ⟨_, _, _, _, _, F⟩ := handleCreateEscrowCreator_iff.1 h; exact F.receipt ▸ rfl
  case createEscrowMerkle a => obtain ⟨_, _, _, _, _, F⟩ := handleCreateEscrowMerkle_iff.1 h; exact F.receipt ▸ rfl
  case createOperator a => exact (handleCreateOperator_iff.1 h).receipt ▸ rfl
  case revokeOperator a => obtain ⟨_, F⟩ := handleRevokeOperator_iff.1 h; exact F.receipt ▸ rfl
  case closeEscrow a => obtain ⟨_, _, _, F⟩ := handleCloseEscrow_iff.1 h; exact F.receipt ▸ rfl
  case refresh a => obtain ⟨_, _, _, F⟩ := (handleRefresh_iff (tx := tx)).1 h; exact F.receipt ▸ rfl
  case createMetadata a => obtain ⟨_, F⟩ := handleCreateMetadata_iff.1 h; exact F.receipt ▸ rfl
  case closeMetadata a => obtain ⟨_, _, F⟩ := handleCloseMetadata_iff.1 h; exact F.receipt ▸ rfl

/-! ## Liveness -/

theorem mk_live {m : Except Err Prepared} {tx : Tx} {w0 : World} {rc : Receipt} {k : Tokens} {t : Wanted}
    {go : Tokens → Cpi → Except Err (World × Receipt)} (h : m = .ok (.transfer k t go))
    (hl : Live tx w0 rc (.transfer k t go)) : ∃ pr, m = .ok pr ∧ Live tx w0 rc pr := ⟨_, h, hl⟩

theorem mk_liveBurn {m : Except Err Prepared} {tx : Tx} {w0 : World} {rc : Receipt} {k : Tokens} {prog : TokenProgram}
    {src mint : Addr} {n : Nat} {go : Tokens → Cpi → Except Err (World × Receipt)}
    (h : m = .ok (.burn k prog src mint n go)) (hl : Live tx w0 rc (.burn k prog src mint n go)) :
    ∃ pr, m = .ok pr ∧ Live tx w0 rc pr := ⟨_, h, hl⟩

theorem live_init {w : World} {tx : Tx} {a : InitPresaleAcc} {w0 : World} {rc : Receipt}
    (h : handleInitPresale w tx a = .ok (w0, rc)) : ∃ pr, prepareInit w tx a = .ok pr ∧ Live tx w0 rc pr := by
  obtain ⟨bm, qm, p, rem, s, inc, hooks, rest, tk, cpi,
      ⟨h1, h2, h3, h4, h5, h6, h7, h8, h9, h10, h11, h12, h13, h14, h15, rfl, rfl⟩⟩ := handleInitPresale_iff.1 h
  apply mk_live
  · simp only [prepareInit, bind_eq_ok, require_eq_ok, load_eq_ok, castTime_eq_ok, pure_eq_ok, Prod.exists,
      exists_const, Option.isNone_iff_eq_none, ensureSupportedMint]
    exact ⟨h1, bm, h2, qm, h3, h4, h5, h6, _, ⟨h7, rfl⟩, (), h8, h9, h10, p, rem, h11, s, h12, inc, h13, hooks, rest,
        h14, rfl⟩
  · exact ⟨tk, cpi, h15, rfl, fun k'' _ => rfl⟩

theorem live_deposit {w : World} {tx : Tx} {a : DepositAcc} {w0 : World} {rc : Receipt}
    (h : handleDeposit w tx a = .ok (w0, rc)) : ∃ pr, prepareDeposit w tx a = .ok pr ∧ Live tx w0 rc pr := by
  obtain ⟨p, m, e, d, inc, hooks, rest, tk, cpi,
      ⟨h1, h2, h3, h4, h5, h6, h7, h8, h9, h10, h11, h12, rfl, rfl⟩⟩ := handleDeposit_iff.1 h
  apply mk_live
  · simp only [prepareDeposit, bind_eq_ok, require_eq_ok, load_eq_ok, castTime_eq_ok, pure_eq_ok, Prod.exists,
      exists_const]
    exact ⟨h1, p, h2, h3, m, h4, e, h5, h6, h7, _, ⟨h8, rfl⟩, d, h9, inc, h10, hooks, rest, h11, rfl⟩
  · exact ⟨tk, cpi, h12, rfl, fun k'' _ => rfl⟩

theorem live_withdraw {w : World} {tx : Tx} {a : WithdrawAcc} {w0 : World} {rc : Receipt}
    (h : handleWithdraw w tx a = .ok (w0, rc)) : ∃ pr, prepareWithdraw w tx a = .ok pr ∧ Live tx w0 rc pr := by
  obtain ⟨p, m, e, p', e', am, hooks, rest, tk, cpi, ex,
      ⟨h1, h2, h3, h4, h5, h6, h7, h8, h9, h11, h12, h10, rfl, rfl⟩⟩ := handleWithdraw_iff.1 h
  have hm : tk.mints a.quoteMint = some m := (congrFun (transfer_mints h12) _).trans h4
  apply mk_live
  · simp only [prepareWithdraw, bind_eq_ok, require_eq_ok, load_eq_ok, castTime_eq_ok, pure_eq_ok, Prod.exists,
      exists_const]
    exact ⟨h1, p, h2, h3, m, h4, e, h5, h6, h7, _, ⟨h8, rfl⟩, p', e', am, h9, hooks, rest, h11, rfl⟩
  · refine ⟨tk, cpi, h12, rfl, fun k'' hk => ?_⟩
    simp only [bind_eq_ok, load_eq_ok, pure_eq_ok, Prod.mk.injEq]
    exact ⟨m, hk.trans hm, ex, h10, by trivial⟩

theorem live_claim {w : World} {tx : Tx} {a : ClaimAcc} {w0 : World} {rc : Receipt}
    (h : handleClaim w tx a = .ok (w0, rc)) : ∃ pr, prepareClaim w tx a = .ok pr ∧ Live tx w0 rc pr := by
  obtain ⟨p, m, e, hd, e1, ex, ⟨h1, h2, h3, h4, h5, h6, h7, h8, h9, h10, h11, h12, h13, h14⟩⟩ := handleClaim_iff.1 h
  rcases h14 with ⟨hp, p', e', hooks, rest, tk, cpi, g1, g2, g3, rfl, rfl⟩ | ⟨hp, rfl, rfl⟩
  · have hm : tk.mints a.baseMint = some m := (congrFun (transfer_mints g3) _).trans h4
    apply mk_live
    · simp only [prepareClaim, bind_eq_ok, require_eq_ok, load_eq_ok, castTime_eq_ok, exists_const]
      refine ⟨h1, p, h2, h3, m, h4, e, h5, h6, h7, h8, _, ⟨h9, rfl⟩, h10, hd, h11, e1, h12, ?_⟩
      rw [if_pos hp]
      simp only [bind_eq_ok, Prod.exists, pure_eq_ok]
      exact ⟨p', e', g1, hooks, rest, g2, rfl⟩
    · refine ⟨tk, cpi, g3, rfl, fun k'' hk => ?_⟩
      simp only [bind_eq_ok, load_eq_ok, pure_eq_ok, Prod.mk.injEq]
      exact ⟨m, hk.trans hm, ex, h13, by trivial⟩
  · refine ⟨.done _ _, ?_, rfl, rfl⟩
    simp only [prepareClaim, bind_eq_ok, require_eq_ok, load_eq_ok, castTime_eq_ok, exists_const]
    refine ⟨h1, p, h2, h3, m, h4, e, h5, h6, h7, h8, _, ⟨h9, rfl⟩, h10, hd, h11, e1, h12, ?_⟩
    rw [if_neg (by omega)]
    simp only [bind_eq_ok, load_eq_ok, pure_eq_ok]
    exact ⟨m, h4, ex, h13, rfl⟩

theorem live_refund {w : World} {tx : Tx} {a : RefundAcc} {w0 : World} {rc : Receipt}
    (h : handleRefund w tx a = .ok (w0, rc)) : ∃ pr, prepareRefund w tx a = .ok pr ∧ Live tx w0 rc pr := by
  obtain ⟨p, m, e, q, p', hooks, rest, ex,
      ⟨h1, h2, h3, h4, h5, h6, h7, h8, h9, h10, h11, h12, h13, h14, h15, h16⟩⟩ := handleRefund_iff.1 h
  rcases h16 with ⟨hp, tk, cpi, g3, rfl, rfl⟩ | ⟨hp, rfl, rfl⟩
  · have hm : tk.mints a.quoteMint = some m := (congrFun (transfer_mints g3) _).trans h4
    apply mk_live
    · simp only [prepareRefund, bind_eq_ok, require_eq_ok, load_eq_ok, castTime_eq_ok, exists_const, add64_eq_ok,
        Prod.exists]
      refine ⟨h1, p, h2, h3, m, h4, e, h5, h6, h7, h8, h9, _, ⟨h10, rfl⟩, q, h11, _, ⟨h12, rfl⟩, p', h13,
      hooks, rest, h14, ?_⟩
      rw [if_pos hp]
      rfl
    · refine ⟨tk, cpi, g3, rfl, fun k'' hk => ?_⟩
      simp only [bind_eq_ok, load_eq_ok, pure_eq_ok, Prod.mk.injEq]
      exact ⟨m, hk.trans hm, ex, h15, by trivial⟩
  · refine ⟨.done _ _, ?_, rfl, rfl⟩
    simp only [prepareRefund, bind_eq_ok, require_eq_ok, load_eq_ok, castTime_eq_ok, exists_const, add64_eq_ok,
        Prod.exists]
    refine ⟨h1, p, h2, h3, m, h4, e, h5, h6, h7, h8, h9, _, ⟨h10, rfl⟩, q, h11, _, ⟨h12, rfl⟩, p', h13,
      hooks, rest, h14, ?_⟩
    rw [if_neg (by omega)]
    simp only [bind_eq_ok, load_eq_ok, pure_eq_ok]
    exact ⟨m, h4, ex, h15, rfl⟩

theorem live_unsold {w : World} {tx : Tx} {a : UnsoldAcc} {w0 : World} {rc : Receipt}
    (h : handleUnsold w tx a = .ok (w0, rc)) : ∃ pr, prepareUnsold w tx a = .ok pr ∧ Live tx w0 rc pr := by
  obtain ⟨p, c, hd, u, tk, cpi,
      ⟨h1, h2, h3, h4, h5, h6, h7, h8, h9, h10, h11, h12, rfl, rfl⟩⟩ := handleUnsold_iff.1 h
  cases ha : UnsoldTokenAction.ofByte p.unsoldTokenAction with
  | burn =>
    rw [ha] at h12
    apply mk_liveBurn
    · simp only [prepareUnsold, bind_eq_ok, require_eq_ok, load_eq_ok, castTime_eq_ok, exists_const]
      refine ⟨h1, p, h2, h3, c, h4, h5, _, ⟨h6, rfl⟩, h7, h8, hd, h9, u, h10, h11, ?_⟩
      rw [ha]
      rfl
    · exact ⟨tk, cpi, h12, rfl⟩
  | refund =>
    rw [ha] at h12
    simp only [performUnsold, bind_eq_ok, Prod.exists] at h12
    obtain ⟨hooks, rest, g1, g2⟩ := h12
    apply mk_live
    · simp only [prepareUnsold, bind_eq_ok, require_eq_ok, load_eq_ok, castTime_eq_ok, exists_const]
      refine ⟨h1, p, h2, h3, c, h4, h5, _, ⟨h6, rfl⟩, h7, h8, hd, h9, u, h10, h11, ?_⟩
      rw [ha]
      simp only [bind_eq_ok, Prod.exists, pure_eq_ok]
      exact ⟨hooks, rest, g1, rfl⟩
    · exact ⟨tk, cpi, g2, rfl, fun k'' _ => rfl⟩

theorem live_creatorWithdraw {w : World} {tx : Tx} {a : CreatorWithdrawAcc} {w0 : World} {rc : Receipt}
    (h : handleCreatorWithdraw w tx a = .ok (w0, rc)) :
    ∃ pr, prepareCreatorWithdraw w tx a = .ok pr ∧ Live tx w0 rc pr := by
  obtain ⟨p, c, hooks, rest, tk, cpi, m, ex,
      ⟨h1, h2, h3, h4, h5, h6, h7, h8, h9, h10, h11, h12, rfl, rfl⟩⟩ := handleCreatorWithdraw_iff.1 h
  have hm : tk.mints c.mint = some m := (congrFun (transfer_mints h10) _).trans h11
  apply mk_live
  · simp only [prepareCreatorWithdraw, bind_eq_ok, require_eq_ok, load_eq_ok, castTime_eq_ok, exists_const,
      Prod.exists, pure_eq_ok]
    exact ⟨h1, p, h2, h3, h4, _, ⟨h5, rfl⟩, h6, h7, c, h8, hooks, rest, h9, rfl⟩
  · refine ⟨tk, cpi, h10, rfl, fun k'' hk => ?_⟩
    simp only [bind_eq_ok, load_eq_ok, pure_eq_ok, Prod.mk.injEq]
    exact ⟨m, hk.trans hm, ex, h12, by trivial⟩

theorem live_collectFee {w : World} {tx : Tx} {a : CollectFeeAcc} {w0 : World} {rc : Receipt}
    (h : handleCollectFee w tx a = .ok (w0, rc)) :
    ∃ pr, prepareCollectFee w tx a = .ok pr ∧ Live tx w0 rc pr := by
  obtain ⟨p, m, fee, ex, ⟨h1, h2, h3, h4, h5, h6, h7, h8, h9, h10, h11⟩⟩ := handleCollectFee_iff.1 h
  rcases h11 with ⟨hp, hooks, rest, tk, cpi, g1, g3, rfl, rfl⟩ | ⟨hp, rfl, rfl⟩
  · have hm : tk.mints a.quoteMint = some m := (congrFun (transfer_mints g3) _).trans h4
    apply mk_live
    · simp only [prepareCollectFee, bind_eq_ok, require_eq_ok, load_eq_ok, castTime_eq_ok, exists_const]
      refine ⟨h1, p, h2, h3, m, h4, h5, h6, _, ⟨h7, rfl⟩, h8, fee, h9, ?_⟩
      rw [if_pos hp]
      simp only [bind_eq_ok, Prod.exists, pure_eq_ok]
      exact ⟨hooks, rest, g1, rfl⟩
    · refine ⟨tk, cpi, g3, rfl, fun k'' hk => ?_⟩
      simp only [bind_eq_ok, load_eq_ok, pure_eq_ok, Prod.mk.injEq]
      exact ⟨m, hk.trans hm, ex, h10, by trivial⟩
  · refine ⟨.done _ _, ?_, rfl, rfl⟩
    simp only [prepareCollectFee, bind_eq_ok, require_eq_ok, load_eq_ok, castTime_eq_ok, exists_const]
    refine ⟨h1, p, h2, h3, m, h4, h5, h6, _, ⟨h7, rfl⟩, h8, fee, h9, ?_⟩
    rw [if_neg (by omega)]
    simp only [bind_eq_ok, load_eq_ok, pure_eq_ok]
    exact ⟨m, h4, ex, h10, rfl⟩

theorem prepare_live {w : World} {tx : Tx} {i : Ix} {w0 : World} {rc : Receipt} (h : execIx w tx i = .ok (w0, rc)) :
    ∃ pr, prepare w tx i = .ok pr ∧ Live tx w0 rc pr := by
  cases i
  case initPresale a => exact live_init h
  case deposit a => exact live_deposit h
  case withdraw a => exact live_withdraw h
  case claim a => exact live_claim h
  case refund a => exact live_refund h
  case unsold a => exact live_unsold h
  case creatorWithdraw a => exact live_creatorWithdraw h
  case collectFee a => exact live_collectFee h
  all_goals
    refine ⟨.done w0 rc, ?_, rfl, rfl⟩
    simp only [prepare, bind_eq_ok, Prod.exists, pure_eq_ok]
    exact ⟨w0, rc, h, rfl⟩

end Verif
