import Verif.Lemmas.Preserve
import Verif.Lemmas.Init
/-!
# The ledger invariant holds in every reachable state
-/

namespace Verif
open Spec

/-! ## Creation of a presale -/

/-- What the creation of a presale establishes about the new account. -/
structure CreatedFacts (w : World) (a : InitPresaleAcc) (p : Presale) (supply : Nat) : Prop where
  documented : Documented w.clock.toNat p
  pinv : PInv w.clock.toNat a.presaleKey p w.escrows
  baseMint : p.baseMint = a.presaleMint
  quoteMint : p.quoteMint = a.quoteTokenMint
  baseFlag : p.baseTokenProgramFlag = a.baseTokenProgram.flag
  quoteFlag : p.quoteTokenProgramFlag = a.quoteTokenProgram.flag
  supply : supply = p.presaleSupply
  owner : p.owner = a.creator

theorem InitPresaleFacts.created {w : World} {tx : Tx} {a : InitPresaleAcc} {w' : World} {rc : Receipt}
    {bm qm : MintInfo} {p : Presale} {remaining : List Addr} {supply included : Nat} {hooks : ParsedHooks}
    {rest : List Addr} {tk : Tokens} {cpi : Cpi} (W : WInv w)
    (F : InitPresaleFacts w tx a w' rc bm qm p remaining supply included hooks rest tk cpi) :
    CreatedFacts w a p supply := by
  have D : Documented w.clock.toNat p :=
    created_documented (fun acc x h => (W.aux.fixed acc x h).2) F.range.1 F.valid F.create
  obtain ⟨k', hk', hlen, hsup, hC⟩ := processCreate_ok F.create
  have hS := (hC.shape rfl rfl).shape
  have hV := validate_ok F.valid
  have hR := inRange_ok F.range.1
  have f1 : p.baseMint = a.presaleMint := by rw [hS]; rfl
  have f2 : p.quoteMint = a.quoteTokenMint := by rw [hS]; rfl
  have f3 : p.base = a.base := by rw [hS]; rfl
  have f4 : p.presaleMode = a.args.presaleParams.presaleMode := by rw [hS]; rfl
  have f5 : p.whitelistMode = a.args.presaleParams.whitelistMode := by rw [hS]; rfl
  have f6 : p.presaleEndTime = a.args.presaleParams.presaleEndTime := by rw [hS]; rfl
  have f7 : p.lockDuration = k'.lockDuration := by rw [hS]; rfl
  have f8 : p.vestDuration = k'.vestDuration := by rw [hS]; rfl
  have f9 : p.presaleSupply = suppliesOf a.args.presaleRegistries := by rw [hS]; rfl
  refine ⟨D, Documented.pinv D ?_ ?_ ?_ ?_ ?_ ?_ ?_, f1, f2, by rw [hS]; rfl, by rw [hS]; rfl, ?_, by rw [hS]; rfl⟩
  · rw [f1, f2, f3]; rfl
  · rw [hS]; rfl
  · rw [hS]; rfl
  · rw [f4]; exact (castMode_of_some hV.sale.mode).1
  · rw [f5]; exact (castWhitelist_of_some hV.sale.whitelist).1
  · rw [f6, f7, f8]
    rcases lockTermsOf_eq hk' with ⟨_, h⟩ | ⟨x, _, h1, h⟩
    · rw [h]; have := hR.2.2; simpa using this
    · rw [h]; exact h1
  · intro x hx h
    obtain ⟨_, p', hp'⟩ := W.core.esc x hx
    rw [h, F.fresh.1] at hp'
    cases hp'
  · have := sumSupplies_eq F.sumSupply
    rw [f9]; omega

/-- The vaults right after creation. -/
theorem InitPresaleFacts.vaults {w : World} {tx : Tx} {a : InitPresaleAcc} {w' : World} {rc : Receipt}
    {bm qm : MintInfo} {p : Presale} {remaining : List Addr} {supply included : Nat} {hooks : ParsedHooks}
    {rest : List Addr} {tk : Tokens} {cpi : Cpi} (W : WInv w)
    (F : InitPresaleFacts w tx a w' rc bm qm p remaining supply included hooks rest tk cpi) :
    a.payerPresaleToken.isVault = false ∧
    tk.toks (.baseVault a.presaleKey) = some { freshVault a.presaleMint with amount := supply } ∧
    tk.toks (.quoteVault a.presaleKey) = some (freshVault a.quoteTokenMint) ∧
    tk.mints = w.tk.mints ∧
    (∃ s dlg, w.tk.toks a.payerPresaleToken = some s ∧ included ≤ s.amount ∧
      tk.toks a.payerPresaleToken = some { s with amount := s.amount - included, delegate := dlg } ∧
      (s.delegate = none → dlg = none)) ∧
    (∀ x, x ≠ .baseVault a.presaleKey → x ≠ .quoteVault a.presaleKey → x ≠ a.payerPresaleToken →
      tk.toks x = w.tk.toks x) := by
  obtain ⟨s, d, m, dlg, T⟩ := transferTokens_iff.1 F.transfer
  have hsrc : a.payerPresaleToken.isVault = false := by
    refine user_src T ?_ (signed_isKey F.signed.2)
    intro x t hv hx
    simp only [upd_apply] at hx
    split at hx
    · cases hx; exact ⟨rfl, rfl⟩
    · split at hx
      · cases hx; exact ⟨rfl, rfl⟩
      · exact W.core.vaults x t hv hx
  have hb : a.payerPresaleToken ≠ .baseVault a.presaleKey := by
    intro h; rw [h] at hsrc; cases hsrc
  have hq : a.payerPresaleToken ≠ .quoteVault a.presaleKey := by
    intro h; rw [h] at hsrc; cases hsrc
  have hbq : Addr.baseVault a.presaleKey ≠ .quoteVault a.presaleKey := by
    intro h; cases h
  obtain ⟨x1, x2, x3, x4⟩ := T.exact hb
  have hm : m = bm := by
    have := T.hm
    rw [F.baseMint] at this; cases this; rfl
  subst hm
  have hd : d = freshVault a.presaleMint := by
    have := T.hd
    simp only [upd_other _ _ hbq, upd_self] at this
    cases this; rfl
  have hs : w.tk.toks a.payerPresaleToken = some s := by
    have := T.hs
    simp only [upd_other _ _ hq, upd_other _ _ hb] at this
    exact this
  have hlt : supply < u64Bound := by
    obtain ⟨k', _, _, hsup, _⟩ := processCreate_ok F.create
    have := sumSupplies_eq F.sumSupply
    omega
  have hex := (C42_inversion_exact (wellFormed_feeOk (W.core.mints _ _ F.baseMint)) hlt F.gross).1
  refine ⟨hsrc, ?_, ?_, x4, ⟨s, dlg, hs, T.enough, x1, ?_⟩, ?_⟩
  · rw [x2, hex, hd]
    simp [freshVault]
  · rw [x3 _ hq.symm hbq.symm]
    simp only [upd_self]
  · intro h0
    rcases (authorizeSpend_ok T.auth) with ⟨h3, h4⟩
    obtain ⟨t', y1, _, _, y2, _⟩ := T.moved.keep _ _ T.hs
    rw [x1] at y1
    cases y1
    exact y2 h0
  · intro x g1 g2 g3
    rw [x3 x g3 g1]
    simp only [upd_other _ _ g1, upd_other _ _ g2]

theorem WInv.initPresale {w : World} {tx : Tx} {a : InitPresaleAcc} {w' : World} {rc : Receipt} (W : WInv w)
    (h : handleInitPresale w tx a = .ok (w', rc)) : WInv w' := by
  obtain ⟨bm, qm, p, remaining, supply, included, hooks, rest, tk, cpi, F⟩ := handleInitPresale_iff.1 h
  have K := F.created W
  obtain ⟨hsrc, hb, hq, hmints, ⟨s, dlg, hs, hen, hs', hdlg⟩, hother⟩ := F.vaults W
  have hsupLt : supply < u64Bound := by
    rw [K.supply]; exact K.pinv.static.supplyLt
  have hsup := K.supply
  have toks : ∀ x t, tk.toks x = some t →
      (x = .baseVault a.presaleKey ∧ t = { freshVault a.presaleMint with amount := supply }) ∨
      (x = .quoteVault a.presaleKey ∧ t = freshVault a.quoteTokenMint) ∨
      (x = a.payerPresaleToken ∧ t = { s with amount := s.amount - included, delegate := dlg }) ∨
      (w.tk.toks x = some t) := by
    intro x t hx
    by_cases h1 : x = .baseVault a.presaleKey
    · subst h1; rw [hb] at hx; cases hx; exact Or.inl ⟨rfl, rfl⟩
    · by_cases h2 : x = .quoteVault a.presaleKey
      · subst h2; rw [hq] at hx; cases hx; exact Or.inr (Or.inl ⟨rfl, rfl⟩)
      · by_cases h3 : x = a.payerPresaleToken
        · rw [h3, hs'] at hx; cases hx; exact Or.inr (Or.inr (Or.inl ⟨h3, rfl⟩))
        · rw [hother x h1 h2 h3] at hx; exact Or.inr (Or.inr (Or.inr hx))
  rw [F.post]
  refine ⟨⟨W.core.nodup, ?_, ?_, ?_, ?_, ?_⟩, ?_⟩
  · intro x hx
    obtain ⟨g1, p', g2⟩ := W.core.esc x hx
    refine ⟨g1, p', ?_⟩
    have : x.2.presale ≠ a.presaleKey := by
      intro he; rw [he, F.fresh.1] at g2; cases g2
    simp only [upd_other _ _ this]
    exact g2
  · intro x t hx
    rcases toks x t hx with ⟨_, rfl⟩ | ⟨_, rfl⟩ | ⟨_, rfl⟩ | h1
    · exact hsupLt
    · exact u64_pos
    · have := W.core.amounts _ _ hs
      show s.amount - included < u64Bound
      omega
    · exact W.core.amounts _ _ h1
  · intro x m hm
    have hm' : tk.mints x = some m := hm
    rw [hmints] at hm'
    exact W.core.mints x m hm'
  · intro x t hv hx
    rcases toks x t hx with ⟨_, rfl⟩ | ⟨_, rfl⟩ | ⟨rfl, rfl⟩ | h1
    · exact ⟨rfl, rfl⟩
    · exact ⟨rfl, rfl⟩
    · rw [hsrc] at hv; cases hv
    · exact W.core.vaults _ _ hv h1
  · intro b p1 hp1
    by_cases hba : b = a.presaleKey
    · subst hba
      simp only [upd_self] at hp1
      cases hp1
      refine ⟨F.clock, K.pinv, ⟨_, _, hb, K.baseMint.symm, hq, K.quoteMint.symm, ?_⟩, ?_, ?_, ?_⟩
      · obtain ⟨c1, c2, c3, c4, c5, c6, c7, c8⟩ := K.documented.counters
        rw [Money.open_iff c7 c6 c8, c1, c5, c3, c4, ← hsup]
        exact ⟨by omega, Nat.le_refl _⟩
      · rw [K.baseMint, K.baseFlag, ← F.programs.1]
        exact ⟨bm, by show tk.mints _ = _; rw [hmints]; exact F.baseMint, F.supportedBase, rfl⟩
      · rw [K.quoteMint, K.quoteFlag, ← F.programs.2]
        exact ⟨qm, by show tk.mints _ = _; rw [hmints]; exact F.quoteMint, F.supportedQuote, rfl⟩
      · exact ⟨p, by rw [K.documented.createdAt]; exact K.documented, rfl, Shifted.refl p⟩
    · simp only [upd_other _ _ hba] at hp1
      have S := W.core.sale b p1 hp1
      obtain ⟨vb, vq, v1, v2, v3, v4, v5⟩ := S.vaults
      have n1 : tk.toks (.baseVault b) = some vb := by
        rw [hother _ (by intro h; injection h with h; exact hba h) (by intro h; cases h)
          (by intro h; rw [← h] at hsrc; cases hsrc)]
        exact v1
      have n2 : tk.toks (.quoteVault b) = some vq := by
        rw [hother _ (by intro h; cases h) (by intro h; injection h with h; exact hba h)
          (by intro h; rw [← h] at hsrc; cases hsrc)]
        exact v3
      refine ⟨S.clock, S.pinv, ⟨vb, vq, n1, v2, n2, v4, v5⟩, ?_, ?_, S.origin⟩
      · obtain ⟨m, m1, m2⟩ := S.baseMint
        exact ⟨m, by show tk.mints _ = _; rw [hmints]; exact m1, m2⟩
      · obtain ⟨m, m1, m2⟩ := S.quoteMint
        exact ⟨m, by show tk.mints _ = _; rw [hmints]; exact m1, m2⟩
  · exact Aux.update (es' := w.escrows) W.aux

/-! ## The other instructions -/

theorem Core.createAny {w : World} {p : Presale} {key owner : Addr} {i : Nat} {cap : Nat}
    {w' : World} {rc : Receipt} {r : Registry} {p' : Presale} (C : Core w)
    (hp : w.presales key = some p) (F : CreateEscrowFacts w p key owner i (some cap) w' rc r p')
    (hm : castWhitelistMode p.whitelistMode ≠ .ok .permissionless) : Core w' :=
  C.create hp F (fun h => absurd h hm)

/-- Instructions on presales leave the small accounts alone. -/
structure SmallSame (w w' : World) : Prop where
  fixed : w'.fixedArgs = w.fixedArgs
  merkle : w'.merkleRoots = w.merkleRoots
  ops : w'.operators = w.operators
  metas : w'.metadata = w.metadata
  keep : ∀ b, (∃ p, w.presales b = some p) → ∃ p, w'.presales b = some p

theorem Aux.same {w w' : World} (A : Aux w) (h : SmallSame w w') : Aux w' := by
  refine ⟨?_, ?_, ?_, ?_⟩
  · rw [h.fixed]; exact A.fixed
  · rw [h.merkle]; exact fun a c hc => ⟨(A.merkle a c hc).1, h.keep _ (A.merkle a c hc).2⟩
  · rw [h.ops]; exact A.ops
  · rw [h.metas]; exact fun a c hc => ⟨(A.metas a c hc).1, h.keep _ (A.metas a c hc).2⟩

theorem keep_upd {f : Addr → Option Presale} {a : Addr} {p' : Presale} (b : Addr)
    (h : ∃ p, f b = some p) : ∃ p, upd f a (some p') b = some p := by
  obtain ⟨p, h⟩ := h
  by_cases hb : b = a
  · exact ⟨p', by rw [hb, upd_self]⟩
  · exact ⟨p, by rw [upd_other _ _ hb]; exact h⟩

/-- The instructions acting on presales, escrows and token accounts. -/
def Ix.onSale : Ix → Bool
  | .createEscrow _ | .createEscrowCreator _ | .createEscrowMerkle _ | .deposit _ | .withdraw _
  | .claim _ | .refund _ | .unsold _ | .closeEscrow _ | .creatorWithdraw _ | .refresh _ | .collectFee _ => true
  | _ => false

theorem execIx_small {w : World} {tx : Tx} {i : Ix} {w' : World} {rc : Receipt} (hi : i.onSale = true)
    (h : execIx w tx i = .ok (w', rc)) : SmallSame w w' := by
  cases i <;> simp only [Ix.onSale] at hi <;> first | cases hi | skip
  case createEscrow a =>
    obtain ⟨p, r, p', _, F⟩ := handleCreateEscrow_iff.1 h
    rw [F.post]; exact ⟨rfl, rfl, rfl, rfl, keep_upd⟩
  case createEscrowCreator a =>
    obtain ⟨p, o, r, p', _, F⟩ := handleCreateEscrowCreator_iff.1 h
    rw [F.post]; exact ⟨rfl, rfl, rfl, rfl, keep_upd⟩
  case createEscrowMerkle a =>
    obtain ⟨p, o, r, p', _, F⟩ := handleCreateEscrowMerkle_iff.1 h
    rw [F.post]; exact ⟨rfl, rfl, rfl, rfl, keep_upd⟩
  case deposit a =>
    obtain ⟨p, m, e, d, inc, hooks, rest, tk, cpi, F⟩ := handleDeposit_iff.1 h
    rw [F.post]; exact ⟨rfl, rfl, rfl, rfl, keep_upd⟩
  case withdraw a =>
    obtain ⟨p, m, e, p', e', x, hooks, rest, tk, cpi, ex, F⟩ := handleWithdraw_iff.1 h
    rw [F.post]; exact ⟨rfl, rfl, rfl, rfl, keep_upd⟩
  case claim a =>
    obtain ⟨p, m, e, hd, e1, ex, F⟩ := handleClaim_iff.1 h
    rcases F.out with ⟨_, p', e2, hooks, rest, tk, cpi, _, _, _, g, _⟩ | ⟨_, g, _⟩
    · rw [g]; exact ⟨rfl, rfl, rfl, rfl, keep_upd⟩
    · rw [g]; exact ⟨rfl, rfl, rfl, rfl, fun _ h => h⟩
  case refund a =>
    obtain ⟨p, m, e, q, p', hooks, rest, ex, F⟩ := handleRefund_iff.1 h
    rcases F.out with ⟨_, tk, cpi, _, g, _⟩ | ⟨_, g, _⟩
    · rw [g]; exact ⟨rfl, rfl, rfl, rfl, keep_upd⟩
    · rw [g]; exact ⟨rfl, rfl, rfl, rfl, keep_upd⟩
  case unsold a =>
    obtain ⟨p, c, hd, x, tk, cpi, F⟩ := handleUnsold_iff.1 h
    rw [F.post]; exact ⟨rfl, rfl, rfl, rfl, keep_upd⟩
  case closeEscrow a =>
    obtain ⟨p, e, p', F⟩ := handleCloseEscrow_iff.1 h
    rw [F.post]; exact ⟨rfl, rfl, rfl, rfl, keep_upd⟩
  case creatorWithdraw a =>
    obtain ⟨p, c, hooks, rest, tk, cpi, m, ex, F⟩ := handleCreatorWithdraw_iff.1 h
    rw [F.post]; exact ⟨rfl, rfl, rfl, rfl, keep_upd⟩
  case refresh a =>
    obtain ⟨p, e, e', F⟩ := (handleRefresh_iff (tx := tx)).1 h
    rw [F.post]; exact ⟨rfl, rfl, rfl, rfl, fun _ h => h⟩
  case collectFee a =>
    obtain ⟨p, m, fee, ex, F⟩ := handleCollectFee_iff.1 h
    rcases F.out with ⟨_, hooks, rest, tk, cpi, _, _, g, _⟩ | ⟨_, g, _⟩
    · rw [g]; exact ⟨rfl, rfl, rfl, rfl, keep_upd⟩
    · rw [g]; exact ⟨rfl, rfl, rfl, rfl, keep_upd⟩

theorem WInv.onSale {w : World} {tx : Tx} {i : Ix} {w' : World} {rc : Receipt} (W : WInv w)
    (hi : i.onSale = true) (h : execIx w tx i = .ok (w', rc)) : WInv w' := by
  refine ⟨?_, W.aux.same (execIx_small hi h)⟩
  have C := W.core
  cases i <;> simp only [Ix.onSale] at hi <;> first | cases hi | skip
  case createEscrow a =>
    obtain ⟨p, r, p', G, F⟩ := handleCreateEscrow_iff.1 h
    exact C.create G.presale F (fun _ => ⟨rfl, rfl⟩)
  case createEscrowCreator a =>
    obtain ⟨p, o, r, p', G, F⟩ := handleCreateEscrowCreator_iff.1 h
    exact C.createAny G.presale F (by rw [G.mode]; intro h; cases h)
  case createEscrowMerkle a =>
    obtain ⟨p, o, r, p', G, F⟩ := handleCreateEscrowMerkle_iff.1 h
    exact C.createAny G.presale F (by rw [G.mode]; intro h; cases h)
  case deposit a => exact C.deposit h
  case withdraw a => exact C.withdraw h
  case claim a => exact C.claim h
  case refund a => exact C.refund h
  case unsold a => exact C.unsold h
  case closeEscrow a => exact C.closeEscrow h
  case creatorWithdraw a => exact C.creatorWithdraw h
  case refresh a => exact C.refresh (tx := tx) h
  case collectFee a => exact C.collectFee h

theorem Core.same {w w' : World} (C : Core w) (h1 : w'.presales = w.presales) (h2 : w'.escrows = w.escrows)
    (h3 : w'.tk = w.tk) (h4 : w'.clock = w.clock) : Core w' := by
  refine ⟨?_, ?_, ?_, ?_, ?_, ?_⟩
  · rw [h2]; exact C.nodup
  · rw [h1, h2]; exact C.esc
  · rw [h3]; exact C.amounts
  · rw [h3]; exact C.mints
  · rw [h3]; exact C.vaults
  · rw [h1, h2, h3, h4]; exact C.sale

theorem upd_cases {V : Type} {f : Addr → Option V} {a b : Addr} {v : Option V} {x : V}
    (h : upd f a v b = some x) : (b = a ∧ v = some x) ∨ f b = some x := by
  by_cases hb : b = a
  · subst hb; rw [upd_self] at h; exact Or.inl ⟨rfl, h⟩
  · rw [upd_other _ _ hb] at h; exact Or.inr h

theorem WInv.execIx {w : World} {tx : Tx} {i : Ix} {w' : World} {rc : Receipt} (W : WInv w)
    (h : execIx w tx i = .ok (w', rc)) : WInv w' := by
  by_cases hi : i.onSale = true
  · exact W.onSale hi h
  have C := W.core
  have A := W.aux
  cases i <;> simp only [Ix.onSale, not_true_eq_false] at hi
  case initFixedArgs a =>
    have F := handleInitFixedArgs_iff.1 h
    refine ⟨?_, ?_⟩
    · rw [F.post]; exact C.same rfl rfl rfl rfl
    · rw [F.post]
      refine ⟨?_, A.merkle, A.ops, A.metas⟩
      intro b x hx
      rcases upd_cases hx with ⟨rfl, h1⟩ | h1
      · cases h1; exact ⟨rfl, F.price, F.range.2, boolType_some F.flag⟩
      · exact A.fixed b x h1
  case closeFixedArgs a =>
    obtain ⟨x, F⟩ := handleCloseFixedArgs_iff.1 h
    refine ⟨?_, ?_⟩
    · rw [F.post]; exact C.same rfl rfl rfl rfl
    · rw [F.post]
      refine ⟨?_, A.merkle, A.ops, A.metas⟩
      intro b x hx
      rcases upd_cases hx with ⟨_, h1⟩ | h1
      · cases h1
      · exact A.fixed b x h1
  case initPresale a => exact W.initPresale h
  case createMerkle a =>
    obtain ⟨p, F⟩ := handleCreateMerkle_iff.1 h
    refine ⟨?_, ?_⟩
    · rw [F.post]; exact C.same rfl rfl rfl rfl
    · rw [F.post]
      refine ⟨A.fixed, ?_, A.ops, A.metas⟩
      intro b x hx
      rcases upd_cases hx with ⟨rfl, h1⟩ | h1
      · cases h1; exact ⟨rfl, p, F.presale⟩
      · exact A.merkle b x h1
  case closeMerkle a =>
    obtain ⟨p, c, F⟩ := handleCloseMerkle_iff.1 h
    refine ⟨?_, ?_⟩
    · rw [F.post]; exact C.same rfl rfl rfl rfl
    · rw [F.post]
      refine ⟨A.fixed, ?_, A.ops, A.metas⟩
      intro b x hx
      rcases upd_cases hx with ⟨_, h1⟩ | h1
      · cases h1
      · exact A.merkle b x h1
  case createOperator a =>
    have F := handleCreateOperator_iff.1 h
    refine ⟨?_, ?_⟩
    · rw [F.post]; exact C.same rfl rfl rfl rfl
    · rw [F.post]
      refine ⟨A.fixed, A.merkle, ?_, A.metas⟩
      intro b x hx
      rcases upd_cases hx with ⟨rfl, h1⟩ | h1
      · cases h1; rfl
      · exact A.ops b x h1
  case revokeOperator a =>
    obtain ⟨o, F⟩ := handleRevokeOperator_iff.1 h
    refine ⟨?_, ?_⟩
    · rw [F.post]; exact C.same rfl rfl rfl rfl
    · rw [F.post]
      refine ⟨A.fixed, A.merkle, ?_, A.metas⟩
      intro b x hx
      rcases upd_cases hx with ⟨_, h1⟩ | h1
      · cases h1
      · exact A.ops b x h1
  case createMetadata a =>
    obtain ⟨p, F⟩ := handleCreateMetadata_iff.1 h
    refine ⟨?_, ?_⟩
    · rw [F.post]; exact C.same rfl rfl rfl rfl
    · rw [F.post]
      refine ⟨A.fixed, A.merkle, A.ops, ?_⟩
      intro b x hx
      rcases upd_cases hx with ⟨rfl, h1⟩ | h1
      · cases h1; exact ⟨rfl, p, F.presale⟩
      · exact A.metas b x h1
  case closeMetadata a =>
    obtain ⟨p, m, F⟩ := handleCloseMetadata_iff.1 h
    refine ⟨?_, ?_⟩
    · rw [F.post]; exact C.same rfl rfl rfl rfl
    · rw [F.post]
      refine ⟨A.fixed, A.merkle, A.ops, ?_⟩
      intro b x hx
      rcases upd_cases hx with ⟨_, h1⟩ | h1
      · cases h1
      · exact A.metas b x h1

/-! ## Steps of the environment -/

/-- A change of token accounts and mints that takes nothing from a vault. -/
structure Gentle (k k' : Tokens) : Prop where
  vault : ∀ x t, x.isVault = true → k.toks x = some t → ∃ t', k'.toks x = some t' ∧ t'.mint = t.mint ∧
    t'.owner = t.owner ∧ t'.delegate = t.delegate ∧ t.amount ≤ t'.amount
  fresh : ∀ x, x.isVault = true → k.toks x = none → k'.toks x = none
  amounts : ∀ a t, k'.toks a = some t → t.amount < u64Bound
  mints : ∀ a m, k'.mints a = some m → m.wellFormed = true
  stable : ∀ a m, k.mints a = some m → isSupportedMint m = true →
    ∃ m', k'.mints a = some m' ∧ m'.program = m.program ∧ m'.isNative = m.isNative ∧ Ext.grown m'.exts m.exts

theorem Core.gentle {w : World} {k' : Tokens} (C : Core w) (G : Gentle w.tk k') :
    Core { w with tk := k' } := by
  refine ⟨C.nodup, C.esc, G.amounts, G.mints, ?_, ?_⟩
  · intro x t hv hx
    cases h0 : w.tk.toks x with
    | none => rw [G.fresh x hv h0] at hx; cases hx
    | some t0 =>
      obtain ⟨t', h1, _, h2, h3, _⟩ := G.vault x t0 hv h0
      rw [h1] at hx; cases hx
      rw [h2, h3]; exact C.vaults x t0 hv h0
  · intro a p hp
    have S := C.sale a p hp
    obtain ⟨b, q, hb, hbm, hq, hqm, M⟩ := S.vaults
    obtain ⟨b', b1, b2, _, _, b3⟩ := G.vault _ _ (isVault_base a) hb
    obtain ⟨q', q1, q2, _, _, q3⟩ := G.vault _ _ (isVault_quote a) hq
    refine ⟨S.clock, S.pinv, ⟨b', q', b1, b2.trans hbm, q1, q2.trans hqm, M.mono b3 q3⟩, ?_, ?_, S.origin⟩
    · obtain ⟨m, m1, m2, m3⟩ := S.baseMint
      obtain ⟨m', n1, n2, n3, n4⟩ := G.stable _ _ m1 m2
      exact ⟨m', n1, by rw [supported_congr n2 n3 n4]; exact m2, by rw [n2]; exact m3⟩
    · obtain ⟨m, m1, m2, m3⟩ := S.quoteMint
      obtain ⟨m', n1, n2, n3, n4⟩ := G.stable _ _ m1 m2
      exact ⟨m', n1, by rw [supported_congr n2 n3 n4]; exact m2, by rw [n2]; exact m3⟩

theorem Gentle.setVault {k : Tokens} {v : Addr} {t t' : TokAcct} (hv : k.toks v = some t)
    (h1 : t'.mint = t.mint) (h2 : t'.owner = t.owner) (h3 : t'.delegate = t.delegate)
    (h4 : t.amount ≤ t'.amount) (h5 : t'.amount < u64Bound)
    (ha : ∀ a t, k.toks a = some t → t.amount < u64Bound)
    (hm : ∀ a m, k.mints a = some m → m.wellFormed = true) :
    Gentle k { k with toks := upd k.toks v (some t') } := by
  refine ⟨?_, ?_, ?_, hm, ?_⟩
  · intro x y hx hy
    by_cases he : x = v
    · subst he
      rw [hv] at hy; cases hy
      exact ⟨t', upd_self _ _ _, h1, h2, h3, h4⟩
    · exact ⟨y, by simp only [upd_other _ _ he]; exact hy, rfl, rfl, rfl, Nat.le_refl _⟩
  · intro x hx hy
    have he : x ≠ v := by intro he; rw [he, hv] at hy; cases hy
    simp only [upd_other _ _ he]; exact hy
  · intro x y hy
    rcases upd_cases hy with ⟨_, h⟩ | h
    · cases h; exact h5
    · exact ha x y h
  · intro x m h _
    exact ⟨m, h, rfl, rfl, Ext.grown_refl _⟩

theorem WInv.step {w : World} {op : Op} {w' : World} {rc : Receipt} (W : WInv w)
    (h : step w op = .ok (w', rc)) : WInv w' := by
  have C := W.core
  cases op with
  | tick s =>
    simp only [Verif.step, ok_eq_ok, Prod.mk.injEq] at h
    obtain ⟨rfl, _⟩ := h
    refine ⟨⟨C.nodup, C.esc, C.amounts, C.mints, C.vaults, ?_⟩, W.aux.same ⟨rfl, rfl, rfl, rfl, fun _ h => h⟩⟩
    intro a p hp
    have S := C.sale a p hp
    have := S.clock
    exact ⟨by show 0 ≤ w.clock + (s : Int); omega,
      S.pinv.tick (by show w.clock.toNat ≤ (w.clock + (s : Int)).toNat; omega), S.vaults, S.baseMint,
      S.quoteMint, S.origin⟩
  | setTok a t =>
    simp only [Verif.step, bind_eq_ok, require_eq_ok, pure_eq_ok, exists_const, Prod.mk.injEq] at h
    obtain ⟨h1, h2, rfl, _⟩ := h
    refine ⟨C.gentle ⟨?_, ?_, ?_, C.mints, ?_⟩, W.aux.same ⟨rfl, rfl, rfl, rfl, fun _ h => h⟩⟩
    · intro x y hx hy
      have he : x ≠ a := by rintro rfl; rw [h1] at hx; cases hx
      exact ⟨y, by simp only [upd_other _ _ he]; exact hy, rfl, rfl, rfl, Nat.le_refl _⟩
    · intro x hx hy
      have he : x ≠ a := by rintro rfl; rw [h1] at hx; cases hx
      simp only [upd_other _ _ he]; exact hy
    · intro x y hy
      rcases upd_cases hy with ⟨_, h⟩ | h
      · exact h2 y (by rw [h]; rfl)
      · exact C.amounts x y h
    · intro x m h _
      exact ⟨m, h, rfl, rfl, Ext.grown_refl _⟩
  | donate v n =>
    simp only [Verif.step, bind_eq_ok, require_eq_ok, load_eq_ok, pure_eq_ok, exists_const, Prod.mk.injEq] at h
    obtain ⟨t, h1, h2, rfl, _⟩ := h
    exact ⟨C.gentle (Gentle.setVault h1 rfl rfl rfl (Nat.le_add_right _ _) h2 C.amounts C.mints),
      W.aux.same ⟨rfl, rfl, rfl, rfl, fun _ h => h⟩⟩
  | freezeVault v b =>
    simp only [Verif.step, bind_eq_ok, load_eq_ok, pure_eq_ok, Prod.mk.injEq] at h
    obtain ⟨t, h1, rfl, _⟩ := h
    exact ⟨C.gentle (Gentle.setVault h1 rfl rfl rfl (Nat.le_refl _) (C.amounts v t h1) C.amounts C.mints),
      W.aux.same ⟨rfl, rfl, rfl, rfl, fun _ h => h⟩⟩
  | setMint a m =>
    simp only [Verif.step, bind_eq_ok, require_eq_ok, pure_eq_ok, exists_const, Prod.mk.injEq] at h
    obtain ⟨h1, h2, rfl, _⟩ := h
    refine ⟨C.gentle ⟨?_, ?_, C.amounts, ?_, ?_⟩, W.aux.same ⟨rfl, rfl, rfl, rfl, fun _ h => h⟩⟩
    · intro x y _ hy; exact ⟨y, hy, rfl, rfl, rfl, Nat.le_refl _⟩
    · intro x _ hy; exact hy
    · intro x y hy
      rcases upd_cases hy with ⟨_, h⟩ | h
      · cases h; exact h1
      · exact C.mints x y h
    · intro x m0 hx hs
      by_cases he : x = a
      · subst he
        obtain ⟨g1, g2, g3⟩ := h2 m0 (by rw [hx]; rfl) hs
        exact ⟨m, upd_self _ _ _, g1, g2, g3⟩
      · exact ⟨m0, by simp only [upd_other _ _ he]; exact hx, rfl, rfl, Ext.grown_refl _⟩
  | ix tx i => exact W.execIx h

theorem Genesis.winv {w : World} (G : Genesis w) : WInv w := by
  refine ⟨⟨?_, ?_, G.amounts, G.mints, ?_, ?_⟩, ⟨?_, ?_, ?_, ?_⟩⟩
  · rw [G.escrows]; exact List.nodup_nil
  · rw [G.escrows]; intro x hx; cases hx
  · intro a t hv h; rw [G.vaults a hv] at h; cases h
  · intro a p h; rw [G.presales a] at h; cases h
  · intro a p h; rw [G.fixedArgs a] at h; cases h
  · intro a p h; rw [G.merkleRoots a] at h; cases h
  · intro a p h; rw [G.operators a] at h; cases h
  · intro a p h; rw [G.metadata a] at h; cases h

theorem WInv.apply {w : World} (W : WInv w) (op : Op) : WInv (apply w op) := by
  unfold Verif.apply
  cases h : Verif.step w op with
  | error e => exact W
  | ok x => exact W.step (w' := x.1) (rc := x.2) h

theorem WInv.run {w : World} (W : WInv w) (ops : List Op) : WInv (run w ops) := by
  induction ops generalizing w with
  | nil => exact W
  | cons op ops ih => exact ih (W.apply op)

theorem Reachable.winv {w : World} (h : Reachable w) : WInv w := by
  obtain ⟨w0, ops, G, rfl⟩ := h
  exact G.winv.run ops

/-! ## Histories -/

theorem run_append (w : World) (xs ys : List Op) : run w (xs ++ ys) = run (run w xs) ys := by
  induction xs generalizing w with
  | nil => rfl
  | cons x xs ih => exact ih (Verif.apply w x)

theorem Reachable.run {w : World} (h : Reachable w) (ops : List Op) : Reachable (run w ops) := by
  obtain ⟨w0, ops0, G, rfl⟩ := h
  exact ⟨w0, ops0 ++ ops, G, (run_append _ _ _).symm⟩

theorem Reachable.step {w : World} (h : Reachable w) {op : Op} {w' : World} {rc : Receipt}
    (hs : Verif.step w op = .ok (w', rc)) : Reachable w' := by
  have : w' = Verif.run w [op] := by simp [Verif.run, Verif.apply, hs]
  rw [this]
  exact h.run [op]

theorem Genesis.reachable {w : World} (h : Genesis w) : Reachable w := ⟨w, [], h, rfl⟩

/-- A relation between states that holds across single steps, is reflexive and transitive, holds across
histories. -/
theorem run_rel {R : World → World → Prop} (refl : ∀ w, R w w) (trans : ∀ a b c, R a b → R b c → R a c)
    (hstep : ∀ w op w' rc, WInv w → Verif.step w op = .ok (w', rc) → R w w') {w : World} (W : WInv w)
    (ops : List Op) : R w (Verif.run w ops) := by
  induction ops generalizing w with
  | nil => exact refl w
  | cons op ops ih =>
    refine trans _ _ _ ?_ (ih (W.apply op))
    unfold Verif.apply
    cases h : Verif.step w op with
    | error e => exact refl w
    | ok x => exact hstep w op x.1 x.2 W h

end Verif
