import Verif.Lemmas.Flow
import Verif.Lemmas.Origin
import Verif.Props.Ledger
import Verif.Examples
/-!
# Who can do what to whom (C34, C35, C36)
-/

namespace Verif
open Spec

/-! ## C36: token accounts -/

/-- Between `t` and `t'` a token account kept its mint, owner and state and lost nothing. -/
def NotDebited (t t' : TokAcct) : Prop :=
  t'.mint = t.mint ∧ t'.owner = t.owner ∧ t'.frozen = t.frozen ∧ t.amount ≤ t'.amount

/-- **C36.** Whatever instruction is executed, a token account that is not a vault of the program keeps existing
with its mint and owner, and loses tokens only if its owner signed, or its delegate within the allowance. -/
theorem C36_user_accounts {w w' : World} (R : Reachable w) {tx : Tx} {i : Ix} {rc : Receipt}
    (h : step w (.ix tx i) = .ok (w', rc)) {a : Addr} {t : TokAcct} (hv : a.isVault = false)
    (ht : w.tk.toks a = some t) :
    ∃ t', w'.tk.toks a = some t' ∧ (NotDebited t t' ∨
      t'.mint = t.mint ∧ t'.owner = t.owner ∧ t'.frozen = t.frozen ∧
        (tx.signed t.owner = true ∨
          ∃ d n, t.delegate = some (d, n) ∧ tx.signed d = true ∧ t.amount ≤ t'.amount + n)) := by
  obtain ⟨k, src, n, O, M, S⟩ := ix_flow R.winv h
  obtain ⟨t', h1, h2, h3, _, h4, h5⟩ := M.keep a t (O.keep ht)
  refine ⟨t', h1, ?_⟩
  by_cases hs : a = src
  · subst hs
    rw [if_pos rfl] at h5
    cases S with
    | nothing h0 => exact .inl ⟨h2, h3, h4, by omega⟩
    | user _ hacct hauth =>
      rw [ht] at hacct; cases hacct
      refine .inr ⟨h2, h3, h4, ?_⟩
      rcases hauth with hauth | ⟨d, m, g1, g2, g3⟩
      · exact .inl hauth
      · exact .inr ⟨d, m, g1, g3, by omega⟩
    | quote h0 => rw [h0] at hv; cases hv
    | base h0 => rw [h0] at hv; cases hv
  · rw [if_neg hs] at h5
    exact .inl ⟨h2, h3, h4, by omega⟩

/-- **C36**, vaults: the quote vault of a presale is debited only by a withdrawal, refund, creator withdrawal or
fee collection of that presale. -/
theorem C36_quote_vault {w w' : World} (R : Reachable w) {tx : Tx} {i : Ix} {rc : Receipt}
    (h : step w (.ix tx i) = .ok (w', rc)) {a : Addr} {t : TokAcct} (ht : w.tk.toks (.quoteVault a) = some t) :
    ∃ t', w'.tk.toks (.quoteVault a) = some t' ∧ t'.mint = t.mint ∧ t'.owner = t.owner ∧ t'.frozen = t.frozen ∧
      (t.amount ≤ t'.amount ∨ (∃ x, i = .withdraw x ∧ x.presale = a) ∨ (∃ x, i = .refund x ∧ x.presale = a) ∨
        (∃ x, i = .creatorWithdraw x ∧ x.presale = a) ∨ ∃ x, i = .collectFee x ∧ x.presale = a) := by
  obtain ⟨k, src, n, O, M, S⟩ := ix_flow R.winv h
  obtain ⟨t', h1, h2, h3, _, h4, h5⟩ := M.keep _ t (O.keep ht)
  refine ⟨t', h1, h2, h3, h4, ?_⟩
  by_cases hs : Addr.quoteVault a = src
  · subst hs
    rw [if_pos rfl] at h5
    cases S with
    | nothing h0 => exact .inl (by omega)
    | user h0 => cases h0
    | quote h0 hp =>
      cases h0
      right
      cases i <;> simp_all [Ix.paysQuote]
    | base h0 => cases h0
  · rw [if_neg hs] at h5
    exact .inl (by omega)

/-- **C36**, vaults: the base vault of a presale is debited only by a claim, creator withdrawal or unsold-token
action of that presale. -/
theorem C36_base_vault {w w' : World} (R : Reachable w) {tx : Tx} {i : Ix} {rc : Receipt}
    (h : step w (.ix tx i) = .ok (w', rc)) {a : Addr} {t : TokAcct} (ht : w.tk.toks (.baseVault a) = some t) :
    ∃ t', w'.tk.toks (.baseVault a) = some t' ∧ t'.mint = t.mint ∧ t'.owner = t.owner ∧ t'.frozen = t.frozen ∧
      (t.amount ≤ t'.amount ∨ (∃ x, i = .claim x ∧ x.presale = a) ∨
        (∃ x, i = .creatorWithdraw x ∧ x.presale = a) ∨ ∃ x, i = .unsold x ∧ x.presale = a) := by
  obtain ⟨k, src, n, O, M, S⟩ := ix_flow R.winv h
  obtain ⟨t', h1, h2, h3, _, h4, h5⟩ := M.keep _ t (O.keep ht)
  refine ⟨t', h1, h2, h3, h4, ?_⟩
  by_cases hs : Addr.baseVault a = src
  · subst hs
    rw [if_pos rfl] at h5
    cases S with
    | nothing h0 => exact .inl (by omega)
    | user h0 => cases h0
    | quote h0 => cases h0
    | base h0 hp =>
      cases h0
      right
      cases i <;> simp_all [Ix.paysBase]
  · rw [if_neg hs] at h5
    exact .inl (by omega)

/-! ## C34: isolation -/

/-- The presale an instruction names among its accounts. -/
def Ix.names : Ix → Option Addr
  | .initFixedArgs _ => none
  | .closeFixedArgs _ => none
  | .initPresale x => some x.presaleKey
  | .createMerkle x => some x.presale
  | .closeMerkle x => some x.presale
  | .createEscrow x => some x.presale
  | .createEscrowCreator x => some x.presale
  | .createEscrowMerkle x => some x.presale
  | .createOperator _ => none
  | .revokeOperator _ => none
  | .deposit x => some x.presale
  | .withdraw x => some x.presale
  | .claim x => some x.presale
  | .refund x => some x.presale
  | .unsold x => some x.presale
  | .closeEscrow x => some x.presale
  | .creatorWithdraw x => some x.presale
  | .refresh x => some x.presale
  | .createMetadata x => some x.presale
  | .closeMetadata x => some x.presale
  | .collectFee x => some x.presale

theorem opens_names {i : Ix} {a : Addr} (h : i.opens a) : i.names = some a := by
  cases i <;> simp_all [Ix.opens, Ix.names]

theorem Act.names {w : World} {a : Addr} {p p' : Presale} {tx : Tx} {i : Ix} {es' : AMap Addr Escrow}
    (A : Act w a p tx i p' es') : i.names = some a := by
  cases A with
  | opened h => exact opens_names h
  | deposit h => exact congrArg some h
  | withdraw h => exact congrArg some h
  | refreshed h => exact congrArg some h
  | claimed h => exact congrArg some h
  | refunded h => exact congrArg some h
  | closed h => exact congrArg some h
  | creatorWithdrew h => exact congrArg some h
  | collected h => exact congrArg some h
  | unsold h => exact congrArg some h

theorem EChange.names {w : World} {p : Presale} {k : Addr} {e : Escrow} {tx : Tx} {i : Ix} {e' : Option Escrow}
    (A : EChange w p k e tx i e') : i.names = some e.presale := by
  cases A with
  | deposit h => exact congrArg some h
  | withdraw h => exact congrArg some h
  | refreshed h => exact congrArg some h
  | claimed h => exact congrArg some h
  | refunded h => exact congrArg some h
  | closed h => exact congrArg some h

theorem Opening.names {w : World} {p : Presale} {a owner : Addr} {idx cap : Nat} {tx : Tx} {i : Ix}
    (O : Opening w p a owner idx cap tx i) : i.names = some a := by
  cases O with
  | anybody h => exact congrArg some h
  | operator h => exact congrArg some h
  | proof h => exact congrArg some h

/-- **C34.** An instruction that does not name a presale changes neither its state nor its escrows, and takes
nothing from its vaults. -/
theorem C34_isolated {w w' : World} (R : Reachable w) {tx : Tx} {i : Ix} {rc : Receipt}
    (h : step w (.ix tx i) = .ok (w', rc)) {b : Addr} (hb : i.names ≠ some b) :
    w'.presales b = w.presales b ∧
    (∀ k e, e.presale = b → (w'.escrows.get? k = some e ↔ w.escrows.get? k = some e)) ∧
    (∀ t, w.tk.toks (.quoteVault b) = some t → ∃ t', w'.tk.toks (.quoteVault b) = some t' ∧ NotDebited t t') ∧
    (∀ t, w.tk.toks (.baseVault b) = some t → ∃ t', w'.tk.toks (.baseVault b) = some t' ∧ NotDebited t t') := by
  have W := R.winv
  have E := step_effect W h
  have keep : ∀ k e, e.presale = b → w.escrows.get? k = some e → w'.escrows.get? k = some e := by
    intro k e he hk
    rcases E.escrow W hk with h1 | ⟨tx', i', p, hop, _, _, h1⟩
    · exact h1
    · cases hop
      exact (hb (by rw [h1.names, he])).elim
  refine ⟨?_, ?_, ?_, ?_⟩
  · cases E with
    | quiet h1 => rw [h1]
    | @create tx' x q h1 h2 h3 h4 =>
      cases h1
      rw [h4, upd_other]
      rintro rfl
      exact hb rfl
    | @act tx' i' a q q' es' h1 h2 h3 h4 =>
      cases h1
      rw [h4, upd_other]
      rintro rfl
      exact hb h3.names
  · intro k e he
    refine ⟨fun hk' => ?_, keep k e he⟩
    cases hk : w.escrows.get? k with
    | none =>
      obtain ⟨tx', i', p, hop, _, _, _, _, _, O⟩ := step_opening W h hk hk'
      cases hop
      exact (hb (by rw [O.names, he])).elim
    | some e0 =>
      have hid := E.identity W hk hk'
      have := keep k e0 (by rw [← he]; exact hid.presale.symm) hk
      rw [this] at hk'
      exact hk'
  · intro t ht
    obtain ⟨t', h1, h2, h3, h4, h5⟩ := C36_quote_vault R h ht
    refine ⟨t', h1, h2, h3, h4, ?_⟩
    rcases h5 with h5 | ⟨x, rfl, rfl⟩ | ⟨x, rfl, rfl⟩ | ⟨x, rfl, rfl⟩ | ⟨x, rfl, rfl⟩
    · exact h5
    all_goals exact (hb rfl).elim
  · intro t ht
    obtain ⟨t', h1, h2, h3, h4, h5⟩ := C36_base_vault R h ht
    refine ⟨t', h1, h2, h3, h4, ?_⟩
    rcases h5 with h5 | ⟨x, rfl, rfl⟩ | ⟨x, rfl, rfl⟩ | ⟨x, rfl, rfl⟩
    · exact h5
    all_goals exact (hb rfl).elim

/-- The quote vault passed to an instruction. -/
def Ix.quoteVaultArg : Ix → Option Addr
  | .deposit x => some x.quoteTokenVault
  | .withdraw x => some x.quoteTokenVault
  | .refund x => some x.quoteTokenVault
  | .collectFee x => some x.quoteTokenVault
  | _ => none

/-- The base vault passed to an instruction. -/
def Ix.baseVaultArg : Ix → Option Addr
  | .claim x => some x.baseTokenVault
  | .unsold x => some x.baseTokenVault
  | _ => none

/-- The escrow passed to an instruction. -/
def Ix.escrowArg : Ix → Option Addr
  | .deposit x => some x.escrow
  | .withdraw x => some x.escrow
  | .claim x => some x.escrow
  | .refund x => some x.escrow
  | .closeEscrow x => some x.escrow
  | .refresh x => some x.escrow
  | _ => none

/-- **C34.** An instruction that succeeds was given the vaults and an escrow of the presale it names. -/
theorem C34_own_accounts {w w' : World} (R : Reachable w) {tx : Tx} {i : Ix} {rc : Receipt}
    (h : step w (.ix tx i) = .ok (w', rc)) :
    (∀ v, i.quoteVaultArg = some v → ∃ a, i.names = some a ∧ v = .quoteVault a) ∧
    (∀ v, i.baseVaultArg = some v → ∃ a, i.names = some a ∧ v = .baseVault a) ∧
    (∀ k, i.escrowArg = some k → ∃ a e, i.names = some a ∧ w.escrows.get? k = some e ∧ e.presale = a) := by
  have qv : ∀ {a p}, w.presales a = some p → p.quoteTokenVault = .quoteVault a :=
    fun hp => (R.winv.core.sale _ _ hp).pinv.static.quoteVault
  have bv : ∀ {a p}, w.presales a = some p → p.baseTokenVault = .baseVault a :=
    fun hp => (R.winv.core.sale _ _ hp).pinv.static.baseVault
  cases i with
  | deposit x =>
    obtain ⟨p, m, e, d, inc, hooks, rest, tk, cpi, F⟩ := handleDeposit_iff.1 h
    refine ⟨fun v hv => ?_, fun v hv => (by cases hv), fun k hk => ?_⟩
    · cases hv; exact ⟨_, rfl, F.vault.1.symm.trans (qv F.presale)⟩
    · cases hk; exact ⟨_, e, rfl, F.escrow, F.belongs⟩
  | withdraw x =>
    obtain ⟨p, m, e, p', e', n, hooks, rest, tk, cpi, ex, F⟩ := handleWithdraw_iff.1 h
    refine ⟨fun v hv => ?_, fun v hv => (by cases hv), fun k hk => ?_⟩
    · cases hv; exact ⟨_, rfl, F.vault.1.symm.trans (qv F.presale)⟩
    · cases hk; exact ⟨_, e, rfl, F.escrow, F.belongs.1⟩
  | claim x =>
    obtain ⟨p, m, e, hd, e1, ex, F⟩ := handleClaim_iff.1 h
    refine ⟨fun v hv => (by cases hv), fun v hv => ?_, fun k hk => ?_⟩
    · cases hv; exact ⟨_, rfl, F.vault.1.symm.trans (bv F.presale)⟩
    · cases hk; exact ⟨_, e, rfl, F.escrow, F.belongs.1⟩
  | refund x =>
    obtain ⟨p, m, e, q, p', hooks, rest, ex, F⟩ := handleRefund_iff.1 h
    refine ⟨fun v hv => ?_, fun v hv => (by cases hv), fun k hk => ?_⟩
    · cases hv; exact ⟨_, rfl, F.vault.1.symm.trans (qv F.presale)⟩
    · cases hk; exact ⟨_, e, rfl, F.escrow, F.belongs.1⟩
  | closeEscrow x =>
    obtain ⟨p, e, p', F⟩ := handleCloseEscrow_iff.1 h
    refine ⟨fun v hv => (by cases hv), fun v hv => (by cases hv), fun k hk => ?_⟩
    cases hk; exact ⟨_, e, rfl, F.escrow, F.belongs.1⟩
  | refresh x =>
    obtain ⟨p, e, e', F⟩ := (handleRefresh_iff (tx := tx)).1 h
    refine ⟨fun v hv => (by cases hv), fun v hv => (by cases hv), fun k hk => ?_⟩
    cases hk; exact ⟨_, e, rfl, F.escrow, F.belongs⟩
  | unsold x =>
    obtain ⟨p, c, hd, n, tk, cpi, F⟩ := handleUnsold_iff.1 h
    refine ⟨fun v hv => (by cases hv), fun v hv => ?_, fun k hk => (by cases hk)⟩
    cases hv; exact ⟨_, rfl, F.vault.1.symm.trans (bv F.presale)⟩
  | collectFee x =>
    obtain ⟨p, m, fee, ex, F⟩ := handleCollectFee_iff.1 h
    refine ⟨fun v hv => ?_, fun v hv => (by cases hv), fun k hk => (by cases hk)⟩
    cases hv; exact ⟨_, rfl, F.owner.2.2.symm.trans (qv F.presale)⟩
  | _ => exact ⟨fun v hv => (by cases hv), fun v hv => (by cases hv), fun k hk => (by cases hk)⟩

/-! ## C35: entitled parties -/

/-- Instructions reserved to the owner of the escrow they name. -/
def Ix.ownersOnly : Ix → Option Addr
  | .withdraw x => some x.escrow
  | .claim x => some x.escrow
  | .refund x => some x.escrow
  | .closeEscrow x => some x.escrow
  | _ => none

/-- Instructions reserved to the creator of the presale they name. -/
def Ix.creatorsOnly : Ix → Option Addr
  | .creatorWithdraw x => some x.presale
  | .collectFee x => some x.presale
  | .createMerkle x => some x.presale
  | .closeMerkle x => some x.presale
  | .createMetadata x => some x.presale
  | .closeMetadata x => some x.presale
  | _ => none

/-- **C35.** Claim, withdraw, refund and close need the signature of the owner of the escrow; creator withdrawal,
fee collection and whitelist administration that of the creator of the presale; registering an operator that of
the creator registered with it, revoking it that of the creator on record. -/
theorem C35_signatures {w w' : World} {tx : Tx} {i : Ix} {rc : Receipt}
    (h : step w (.ix tx i) = .ok (w', rc)) :
    (∀ k, i.ownersOnly = some k → ∃ e, w.escrows.get? k = some e ∧ tx.signed e.owner = true) ∧
    (∀ a, i.creatorsOnly = some a → ∃ p, w.presales a = some p ∧ tx.signed p.owner = true) ∧
    (∀ x, i = .createOperator x → tx.signed x.creator = true) ∧
    (∀ x, i = .revokeOperator x → ∃ o, w.operators x.operator = some o ∧ tx.signed o.creator = true) := by
  cases i with
  | withdraw x =>
    obtain ⟨p, m, e, p', e', n, hooks, rest, tk, cpi, ex, F⟩ := handleWithdraw_iff.1 h
    refine ⟨fun k hk => ?_, fun a ha => (by cases ha), fun x hx => (by cases hx), fun x hx => (by cases hx)⟩
    cases hk; exact ⟨e, F.escrow, by rw [F.belongs.2]; exact F.signed⟩
  | claim x =>
    obtain ⟨p, m, e, hd, e1, ex, F⟩ := handleClaim_iff.1 h
    refine ⟨fun k hk => ?_, fun a ha => (by cases ha), fun x hx => (by cases hx), fun x hx => (by cases hx)⟩
    cases hk; exact ⟨e, F.escrow, by rw [F.belongs.2]; exact F.signed⟩
  | refund x =>
    obtain ⟨p, m, e, q, p', hooks, rest, ex, F⟩ := handleRefund_iff.1 h
    refine ⟨fun k hk => ?_, fun a ha => (by cases ha), fun x hx => (by cases hx), fun x hx => (by cases hx)⟩
    cases hk; exact ⟨e, F.escrow, by rw [F.belongs.2]; exact F.signed⟩
  | closeEscrow x =>
    obtain ⟨p, e, p', F⟩ := handleCloseEscrow_iff.1 h
    refine ⟨fun k hk => ?_, fun a ha => (by cases ha), fun x hx => (by cases hx), fun x hx => (by cases hx)⟩
    cases hk; exact ⟨e, F.escrow, by rw [F.belongs.2]; exact F.signed⟩
  | creatorWithdraw x =>
    obtain ⟨p, c, hooks, rest, tk, cpi, m, ex, F⟩ := handleCreatorWithdraw_iff.1 h
    refine ⟨fun k hk => (by cases hk), fun a ha => ?_, fun x hx => (by cases hx), fun x hx => (by cases hx)⟩
    cases ha; exact ⟨p, F.presale, by rw [F.owner]; exact F.signed⟩
  | collectFee x =>
    obtain ⟨p, m, fee, ex, F⟩ := handleCollectFee_iff.1 h
    refine ⟨fun k hk => (by cases hk), fun a ha => ?_, fun x hx => (by cases hx), fun x hx => (by cases hx)⟩
    cases ha; exact ⟨p, F.presale, by rw [F.owner.1]; exact F.signed⟩
  | createMerkle x =>
    obtain ⟨p, F⟩ := handleCreateMerkle_iff.1 h
    refine ⟨fun k hk => (by cases hk), fun a ha => ?_, fun x hx => (by cases hx), fun x hx => (by cases hx)⟩
    cases ha; exact ⟨p, F.presale, by rw [F.owner]; exact F.signed⟩
  | closeMerkle x =>
    obtain ⟨p, c, F⟩ := handleCloseMerkle_iff.1 h
    refine ⟨fun k hk => (by cases hk), fun a ha => ?_, fun x hx => (by cases hx), fun x hx => (by cases hx)⟩
    cases ha; exact ⟨p, F.presale, by rw [F.owner]; exact F.signed⟩
  | createMetadata x =>
    obtain ⟨p, F⟩ := handleCreateMetadata_iff.1 h
    refine ⟨fun k hk => (by cases hk), fun a ha => ?_, fun x hx => (by cases hx), fun x hx => (by cases hx)⟩
    cases ha; exact ⟨p, F.presale, by rw [F.owner]; exact F.signed⟩
  | closeMetadata x =>
    obtain ⟨p, m, F⟩ := handleCloseMetadata_iff.1 h
    refine ⟨fun k hk => (by cases hk), fun a ha => ?_, fun x hx => (by cases hx), fun x hx => (by cases hx)⟩
    cases ha; exact ⟨p, F.presale, by rw [F.owner]; exact F.signed⟩
  | createOperator x =>
    have F := handleCreateOperator_iff.1 h
    refine ⟨fun k hk => (by cases hk), fun a ha => (by cases ha), fun x hx => ?_, fun x hx => (by cases hx)⟩
    cases hx; exact F.signed
  | revokeOperator x =>
    obtain ⟨o, F⟩ := handleRevokeOperator_iff.1 h
    refine ⟨fun k hk => (by cases hk), fun a ha => (by cases ha), fun x hx => (by cases hx), fun x hx => ?_⟩
    cases hx; exact ⟨o, F.account, by rw [F.creator]; exact F.signed⟩
  | _ =>
    exact ⟨fun k hk => (by cases hk), fun a ha => (by cases ha), fun x hx => (by cases hx), fun x hx => (by cases hx)⟩

/-- **C35.** Without the signature of its owner an escrow can neither be closed nor lose deposit, fee, claimed or
pending tokens, nor be marked refunded. -/
theorem C35_escrow_safe {w w' : World} (R : Reachable w) {op : Op} {rc : Receipt}
    (h : step w op = .ok (w', rc)) {k : Addr} {e : Escrow} (hk : w.escrows.get? k = some e)
    (hs : ∀ tx i, op = .ix tx i → tx.signed e.owner = false) :
    ∃ e', w'.escrows.get? k = some e' ∧ e'.presale = e.presale ∧ e'.owner = e.owner ∧
      e'.registryIndex = e.registryIndex ∧ e'.depositMaxCap = e.depositMaxCap ∧
      e.totalDeposit ≤ e'.totalDeposit ∧ e.totalDepositFee ≤ e'.totalDepositFee ∧
      e'.totalClaimedToken = e.totalClaimedToken ∧ e.pendingClaimToken ≤ e'.pendingClaimToken ∧
      e'.isRemainingQuoteWithdrawn = e.isRemainingQuoteWithdrawn := by
  have W := R.winv
  have E := step_effect W h
  rcases E.escrow W hk with h1 | ⟨tx, i, p, hop, hp, _, h1⟩
  · exact ⟨e, h1, rfl, rfl, rfl, rfl, Nat.le_refl _, Nat.le_refl _, rfl, Nat.le_refl _, rfl⟩
  · have hno := hs tx i hop
    generalize hget : w'.escrows.get? k = o at h1
    cases h1 with
    | deposit _ _ _ F =>
      refine ⟨_, rfl, ?_⟩
      rw [F.escrow]
      exact ⟨rfl, rfl, rfl, rfl, Nat.le_add_right _ _, Nat.le_add_right _ _, rfl, Nat.le_refl _, rfl⟩
    | withdraw _ _ hsig => rw [hno] at hsig; cases hsig
    | refreshed _ _ hr =>
      exact ⟨_, rfl, rfl, rfl, rfl, rfl, Nat.le_refl _, Nat.le_refl _, rfl, Nat.le_add_right _ _, rfl⟩
    | claimed _ _ hsig => rw [hno] at hsig; cases hsig
    | refunded _ _ hsig => rw [hno] at hsig; cases hsig
    | closed _ _ hsig => rw [hno] at hsig; cases hsig

namespace Ex

/-- A second presale of the same creator and mints. -/
def otherBase : Addr := .key 7
def otherSale : Addr := .presale otherBase bm qm
def twoSales : World :=
  run genesis (prorataOps ++ [.ix (tx [creator, otherBase]) (.initPresale { initArgs 1 0 0 reg1 with base := otherBase }),
    .ix (tx [alice]) (.createEscrow { presale := otherSale, owner := alice, payer := alice })])

def withVault (v : Addr) (op : DepositAcc) : DepositAcc := { op with quoteTokenVault := v }
def withEscrow (v : Addr) (op : DepositAcc) : DepositAcc := { op with escrow := v }

/-- Both sales are there; deposits into one with the vault or the escrow of the other are rejected, and a deposit
into one does not name the other. -/
example : has twoSales (fun p => decide (p.totalDeposit = 1500)) = true ∧ (twoSales.presales otherSale).isSome = true ∧
    works twoSales (deposit alice aliceQuote 10) = true ∧
    works twoSales (.ix (tx [alice]) (.deposit (withVault (.quoteVault otherSale) (depositAcc alice aliceQuote 10)))) =
      false ∧
    works twoSales (.ix (tx [alice]) (.deposit (withEscrow (.escrow otherSale alice 0)
      (depositAcc alice aliceQuote 10)))) = false ∧
    (Ix.deposit (depositAcc alice aliceQuote 10)).names ≠ some otherSale := by
  decide +kernel

/-- Nobody but the owner can claim, withdraw, refund or close, nobody but the creator can take the raise. -/
example : works prorataVested (.ix (tx [alice]) (.claim (claimAcc alice aliceBase))) = true ∧
    works prorataVested (.ix (tx [bob, creator]) (.claim (claimAcc alice aliceBase))) = false ∧
    works prorataOpen (.ix (tx [alice]) (.withdraw (withdrawAcc alice aliceQuote 900))) = true ∧
    works prorataOpen (.ix (tx [bob, creator]) (.withdraw (withdrawAcc alice aliceQuote 900))) = false ∧
    works prorataDone (.ix (tx [alice]) (.refund (refundAcc alice aliceQuote))) = true ∧
    works prorataDone (.ix (tx [bob, creator]) (.refund (refundAcc alice aliceQuote))) = false ∧
    works prorataDone (.ix (tx [bob, alice]) (.creatorWithdraw creatorWithdrawAcc)) = false ∧
    works prorataDone (.ix (tx []) (.refresh ⟨sale, escrowOf alice⟩)) = true ∧
    works prorataOpen (.ix (tx [bob]) (.deposit { depositAcc alice bobQuote 10 with payer := bob })) = true ∧
    works prorataOpen (.ix (tx [bob]) (.deposit { depositAcc alice aliceQuote 10 with payer := bob })) = false := by
  decide +kernel

end Ex

end Verif
