import Verif.Lemmas.Moves
/-!
# Which accounts an instruction can take tokens from
-/

namespace Verif
open Spec

/-- The presale whose quote vault an instruction pays from. -/
def Ix.paysQuote : Ix → Option Addr
  | .withdraw x => some x.presale
  | .refund x => some x.presale
  | .creatorWithdraw x => some x.presale
  | .collectFee x => some x.presale
  | _ => none

/-- The presale whose base vault an instruction pays from. -/
def Ix.paysBase : Ix → Option Addr
  | .claim x => some x.presale
  | .creatorWithdraw x => some x.presale
  | .unsold x => some x.presale
  | _ => none

/-- The authority of a token account, or its delegate within the allowance, signed. -/
def Authorized (tx : Tx) (t : TokAcct) (amount : Nat) : Prop :=
  tx.signed t.owner = true ∨ ∃ d n, t.delegate = some (d, n) ∧ amount ≤ n ∧ tx.signed d = true

/-- Where the tokens an instruction moves can come from. -/
inductive Source (w : World) (tx : Tx) (i : Ix) (src : Addr) (amount : Nat) : Prop
  | nothing (h : amount = 0)
  | user {s : TokAcct} (plain : src.isVault = false) (acct : w.tk.toks src = some s) (auth : Authorized tx s amount)
  | quote {a : Addr} (h : src = .quoteVault a) (pays : i.paysQuote = some a)
  | base {a : Addr} (h : src = .baseVault a) (pays : i.paysBase = some a)

/-- The token accounts an instruction starts from: those of the world, with the two vaults of the presale it
initialises. -/
inductive Opened (w : World) : Ix → Tokens → Prop
  | same (i : Ix) : Opened w i w.tk
  | vaults (x : InitPresaleAcc) (b : w.tk.toks (.baseVault x.presaleKey) = none)
      (q : w.tk.toks (.quoteVault x.presaleKey) = none) :
      Opened w (.initPresale x)
        { w.tk with toks := upd (upd w.tk.toks (.baseVault x.presaleKey) (some (freshVault x.presaleMint)))
                              (.quoteVault x.presaleKey) (some (freshVault x.quoteTokenMint)) }

theorem signed_not_authority {tx : Tx} (h : tx.signed .presaleAuthority = true) : False := by
  simp [Tx.signed, Addr.isKey] at h

theorem user_source {w : World} {tx : Tx} {i : Ix} {k : Tokens} {payer mint src dst : Addr} {prog : TokenProgram}
    {amount : Nat} {hooks : Option (List Addr)} {k' : Tokens} {cpi : Cpi}
    (hv : ∀ a t, a.isVault = true → k.toks a = some t → t.owner = .presaleAuthority ∧ t.delegate = none)
    (hk : ∀ a, a.isVault = false → k.toks a = w.tk.toks a) (hs : tx.signed payer = true)
    (h : transferTokens k payer mint src dst prog amount hooks tx.accept = .ok (k', cpi)) :
    Source w tx i src amount := by
  obtain ⟨s, d, m, dlg, T⟩ := transferTokens_iff.1 h
  have ha := (authorizeSpend_ok T.auth).1
  have hp : src.isVault = false := by
    cases hb : src.isVault with
    | false => rfl
    | true =>
      obtain ⟨h1, h2⟩ := hv _ _ hb T.hs
      rcases ha with h3 | ⟨n, h3, _⟩
      · rw [← h3, h1] at hs; exact (signed_not_authority hs).elim
      · rw [h2] at h3; cases h3
  refine .user hp (by rw [← hk src hp]; exact T.hs) ?_
  rcases ha with h3 | ⟨n, h3, h4⟩
  · exact .inl (by rw [h3]; exact hs)
  · exact .inr ⟨payer, n, h3, h4, hs⟩

/-- What a successful instruction does to token accounts. -/
theorem ix_flow {w w' : World} {tx : Tx} {i : Ix} {rc : Receipt} (W : WInv w)
    (h : execIx w tx i = .ok (w', rc)) :
    ∃ k src amount, Opened w i k ∧ Moved k w'.tk src amount ∧ Source w tx i src amount := by
  have C := W.core
  have same : w'.tk = w.tk → ∃ k src amount, Opened w i k ∧ Moved k w'.tk src amount ∧ Source w tx i src amount :=
    fun e => ⟨w.tk, .key 0, 0, .same i, by rw [e]; exact .refl _ _, .nothing rfl⟩
  have qv : ∀ {a p}, w.presales a = some p → p.quoteTokenVault = .quoteVault a :=
    fun hp => (C.sale _ _ hp).pinv.static.quoteVault
  have bv : ∀ {a p}, w.presales a = some p → p.baseTokenVault = .baseVault a :=
    fun hp => (C.sale _ _ hp).pinv.static.baseVault
  cases i with
  | initFixedArgs a =>
    apply same; have F := handleInitFixedArgs_iff.1 h; rw [F.post]
  | closeFixedArgs a =>
    apply same; obtain ⟨_, F⟩ := handleCloseFixedArgs_iff.1 h; rw [F.post]
  | initPresale a =>
    obtain ⟨bm, qm, p, rem, supply, inc, hooks, rest, tk, cpi, F⟩ := handleInitPresale_iff.1 h
    refine ⟨_, a.payerPresaleToken, inc, .vaults a F.fresh.2.1 F.fresh.2.2,
      by rw [F.post]; exact transfer_moved F.transfer, user_source ?_ ?_ F.signed.2 F.transfer⟩
    · intro x t hx ht
      rcases upd_cases ht with ⟨rfl, h1⟩ | ht
      · cases h1; exact ⟨rfl, rfl⟩
      · rcases upd_cases ht with ⟨rfl, h1⟩ | ht
        · cases h1; exact ⟨rfl, rfl⟩
        · exact C.vaults _ _ hx ht
    · intro x hx
      have h1 : x ≠ .quoteVault a.presaleKey := by rintro rfl; cases hx
      have h2 : x ≠ .baseVault a.presaleKey := by rintro rfl; cases hx
      simp only [upd_other _ _ h1, upd_other _ _ h2]
  | createMerkle a =>
    apply same; obtain ⟨_, F⟩ := handleCreateMerkle_iff.1 h; rw [F.post]
  | closeMerkle a =>
    apply same; obtain ⟨_, _, F⟩ := handleCloseMerkle_iff.1 h; rw [F.post]
  | createEscrow a =>
    apply same; obtain ⟨_, _, _, _, F⟩ := handleCreateEscrow_iff.1 h; rw [F.post]
  | createEscrowCreator a =>
    apply same; obtain ⟨_, _, _, _, _, F⟩ := handleCreateEscrowCreator_iff.1 h; rw [F.post]
  | createEscrowMerkle a =>
    apply same; obtain ⟨_, _, _, _, _, F⟩ := handleCreateEscrowMerkle_iff.1 h; rw [F.post]
  | createOperator a =>
    apply same; have F := handleCreateOperator_iff.1 h; rw [F.post]
  | revokeOperator a =>
    apply same; obtain ⟨_, F⟩ := handleRevokeOperator_iff.1 h; rw [F.post]
  | deposit a =>
    obtain ⟨p, m, e, d, inc, hooks, rest, tk, cpi, F⟩ := handleDeposit_iff.1 h
    exact ⟨w.tk, a.payerQuoteToken, inc, .same _, by rw [F.post]; exact transfer_moved F.transfer,
      user_source C.vaults (fun _ _ => rfl) F.signed F.transfer⟩
  | withdraw a =>
    obtain ⟨p, m, e, p', e', n, hooks, rest, tk, cpi, ex, F⟩ := handleWithdraw_iff.1 h
    exact ⟨w.tk, a.quoteTokenVault, n, .same _, by rw [F.post]; exact transfer_moved F.transfer,
      .quote (by rw [← F.vault.1]; exact qv F.presale) rfl⟩
  | claim a =>
    obtain ⟨p, m, e, hd, e1, ex, F⟩ := handleClaim_iff.1 h
    rcases F.out with ⟨_, p', e', hooks, rest, tk, cpi, _, _, g3, g4, _⟩ | ⟨_, g4, _⟩
    · exact ⟨w.tk, a.baseTokenVault, _, .same _, by rw [g4]; exact transfer_moved g3,
        .base (by rw [← F.vault.1]; exact bv F.presale) rfl⟩
    · apply same; rw [g4]
  | refund a =>
    obtain ⟨p, m, e, q, p', hooks, rest, ex, F⟩ := handleRefund_iff.1 h
    rcases F.out with ⟨_, tk, cpi, g3, g4, _⟩ | ⟨_, g4, _⟩
    · exact ⟨w.tk, a.quoteTokenVault, _, .same _, by rw [g4]; exact transfer_moved g3,
        .quote (by rw [← F.vault.1]; exact qv F.presale) rfl⟩
    · apply same; rw [g4]
  | unsold a =>
    obtain ⟨p, c, hd, n, tk, cpi, F⟩ := handleUnsold_iff.1 h
    exact ⟨w.tk, a.baseTokenVault, n, .same _, by rw [F.post]; exact performUnsold_moved F.perform,
      .base (by rw [← F.vault.1]; exact bv F.presale) rfl⟩
  | closeEscrow a =>
    apply same; obtain ⟨_, _, _, F⟩ := handleCloseEscrow_iff.1 h; rw [F.post]
  | creatorWithdraw a =>
    obtain ⟨p, c, hooks, rest, tk, cpi, m, ex, F⟩ := handleCreatorWithdraw_iff.1 h
    refine ⟨w.tk, c.vault, c.amount, .same _, by rw [F.post]; exact transfer_moved F.transfer, ?_⟩
    have hpay := F.payout
    rcases F.progress with h1 | h1
    · rw [h1] at hpay
      exact .quote ((creatorPayout_completed hpay).2.1.trans (qv F.presale)) rfl
    · rw [h1] at hpay
      exact .base ((creatorPayout_failed hpay).2.1.trans (bv F.presale)) rfl
  | refresh a =>
    apply same; obtain ⟨_, _, _, F⟩ := (handleRefresh_iff (tx := tx)).1 h; rw [F.post]
  | createMetadata a =>
    apply same; obtain ⟨_, F⟩ := handleCreateMetadata_iff.1 h; rw [F.post]
  | closeMetadata a =>
    apply same; obtain ⟨_, _, F⟩ := handleCloseMetadata_iff.1 h; rw [F.post]
  | collectFee a =>
    obtain ⟨p, m, fee, ex, F⟩ := handleCollectFee_iff.1 h
    rcases F.out with ⟨_, hooks, rest, tk, cpi, _, g3, g4, _⟩ | ⟨_, g4, _⟩
    · exact ⟨w.tk, a.quoteTokenVault, _, .same _, by rw [g4]; exact transfer_moved g3,
        .quote (by rw [← F.owner.2.2]; exact qv F.presale) rfl⟩
    · apply same; rw [g4]

theorem Opened.mints {w : World} {i : Ix} {k : Tokens} (O : Opened w i k) : k.mints = w.tk.mints := by
  cases O <;> rfl

/-- Vaults an instruction opens did not exist before; all other accounts are as they were. -/
theorem Opened.keep {w : World} {i : Ix} {k : Tokens} (O : Opened w i k) {a : Addr} {t : TokAcct}
    (h : w.tk.toks a = some t) : k.toks a = some t := by
  cases O with
  | same => exact h
  | vaults x hb hq =>
    have h1 : a ≠ .quoteVault x.presaleKey := by rintro rfl; rw [hq] at h; cases h
    have h2 : a ≠ .baseVault x.presaleKey := by rintro rfl; rw [hb] at h; cases h
    simp only [upd_other _ _ h1, upd_other _ _ h2]; exact h

/-- What can never change about an accepted mint. -/
def SameMint (w w' : World) : Prop :=
  ∀ a m, w.tk.mints a = some m → isSupportedMint m = true →
    ∃ m', w'.tk.mints a = some m' ∧ m'.program = m.program ∧ m'.isNative = m.isNative ∧ Ext.grown m'.exts m.exts

theorem step_sameMint {w w' : World} {op : Op} {rc : Receipt} (W : WInv w) (h : step w op = .ok (w', rc)) :
    SameMint w w' := by
  intro a m hm hs
  cases op with
  | tick s =>
    simp only [Verif.step, ok_eq_ok, Prod.mk.injEq] at h
    obtain ⟨rfl, _⟩ := h
    exact ⟨m, hm, rfl, rfl, Ext.grown_refl _⟩
  | setTok b t =>
    simp only [Verif.step, bind_eq_ok, require_eq_ok, pure_eq_ok, exists_const, Prod.mk.injEq] at h
    obtain ⟨_, _, rfl, _⟩ := h
    exact ⟨m, hm, rfl, rfl, Ext.grown_refl _⟩
  | donate v n =>
    simp only [Verif.step, bind_eq_ok, require_eq_ok, load_eq_ok, pure_eq_ok, exists_const, Prod.mk.injEq] at h
    obtain ⟨_, _, _, rfl, _⟩ := h
    exact ⟨m, hm, rfl, rfl, Ext.grown_refl _⟩
  | freezeVault v b =>
    simp only [Verif.step, bind_eq_ok, load_eq_ok, pure_eq_ok, Prod.mk.injEq] at h
    obtain ⟨_, _, rfl, _⟩ := h
    exact ⟨m, hm, rfl, rfl, Ext.grown_refl _⟩
  | setMint b m1 =>
    simp only [Verif.step, bind_eq_ok, require_eq_ok, pure_eq_ok, exists_const, Prod.mk.injEq] at h
    obtain ⟨_, h2, rfl, _⟩ := h
    by_cases hb : a = b
    · subst hb
      obtain ⟨e1, e2, e3⟩ := h2 m (by rw [hm]; rfl) hs
      exact ⟨m1, upd_self _ _ _, e1, e2, e3⟩
    · exact ⟨m, by simp only [upd_other _ _ hb]; exact hm, rfl, rfl, Ext.grown_refl _⟩
  | ix tx i =>
    obtain ⟨k, src, n, O, M, _⟩ := ix_flow W h
    obtain ⟨m', h1, h2, h3, h4, _⟩ := M.mints a m (by rw [O.mints]; exact hm)
    exact ⟨m', h1, h2, h3, Ext.grown_of_eq h4⟩

theorem run_sameMint {w : World} (W : WInv w) (ops : List Op) : SameMint w (run w ops) := by
  refine run_rel (R := SameMint) ?_ ?_ (fun _ _ _ _ W h => step_sameMint W h) W ops
  · intro w a m hm _; exact ⟨m, hm, rfl, rfl, Ext.grown_refl _⟩
  · intro w1 w2 w3 h1 h2 a m hm hs
    obtain ⟨m', e1, e2, e3, e4⟩ := h1 a m hm hs
    obtain ⟨m'', f1, f2, f3, f4⟩ := h2 a m' e1 (by rw [supported_congr e2 e3 e4]; exact hs)
    exact ⟨m'', f1, f2.trans e2, f3.trans e3, e4.trans f4⟩

end Verif
