import Verif.SpecEntry
import Verif.Lemmas.Inversion
/-!
# What instructions read and write
-/

namespace Verif
open Spec (Untouched AgreeOn)

/-- Two runs end alike: with the same error, or with related results. -/
def Same {α : Type} (R : α → α → Prop) : Except Err α → Except Err α → Prop
  | .ok a, .ok b => R a b
  | .error e, .error e' => e = e'
  | _, _ => False

theorem Same.bind {α β : Type} {R : α → α → Prop} {S : β → β → Prop} {x y : Except Err α} {f g : α → Except Err β}
    (h : Same R x y) (hf : ∀ a b, R a b → Same S (f a) (g b)) : Same S (x >>= f) (y >>= g) := by
  cases x <;> cases y <;> simp only [Same] at h
  · exact h
  · exact hf _ _ h

theorem Same.step {α β : Type} {S : β → β → Prop} {x : Except Err α} {f g : α → Except Err β}
    (hf : ∀ a, x = .ok a → Same S (f a) (g a)) : Same S (x >>= f) (x >>= g) := by
  cases x with
  | error e => exact rfl
  | ok a => exact hf a rfl

theorem Same.pure {α : Type} {S : α → α → Prop} {a b : α} (h : S a b) :
    Same S (Pure.pure a : Except Err α) (Pure.pure b) := h

theorem Same.ok {α : Type} {R : α → α → Prop} {x y : Except Err α} {a : α} (h : Same R x y) (hx : x = .ok a) :
    ∃ b, y = .ok b ∧ R a b := by
  subst hx
  cases y with
  | error e => exact h.elim
  | ok b => exact ⟨b, rfl, h⟩

/-- Token ledgers after the same operation: what agreed before agrees after. -/
def TokAgree (k k' : Tokens) (x y : Tokens × Cpi) : Prop :=
  x.2 = y.2 ∧ (∀ a, k'.toks a = k.toks a → y.1.toks a = x.1.toks a) ∧
    (∀ a, k'.mints a = k.mints a → y.1.mints a = x.1.mints a)

theorem upd_agree {K V : Type} [DecidableEq K] {f f' : K → V} {a : K} (k : K) (v : V) (h : f' a = f a) :
    upd f' k v a = upd f k v a := by
  unfold upd; split <;> [rfl; exact h]

theorem transferTokens_agree {k k' : Tokens} {authority mint src dst : Addr} {prog : TokenProgram} {amount : Nat}
    {hooks : Option (List Addr)} {accept : Bool} (hm : k'.mints mint = k.mints mint)
    (hs : k'.toks src = k.toks src) (hd : k'.toks dst = k.toks dst) :
    Same (TokAgree k k') (transferTokens k authority mint src dst prog amount hooks accept)
      (transferTokens k' authority mint src dst prog amount hooks accept) := by
  unfold transferTokens transferChecked
  rw [hm, hs, hd]
  split
  · exact rfl
  · refine Same.step fun _ _ => ?_
    split
    · repeat refine Same.step fun _ _ => ?_
      split
      · exact ⟨rfl, fun _ h => h, fun _ h => h⟩
      · refine Same.step fun _ _ => ⟨rfl, fun a h => ?_, fun _ h => h⟩
        exact upd_agree _ _ (upd_agree _ _ h)
    · exact rfl

theorem burnTokens_agree {k k' : Tokens} {authority mint src : Addr} {prog : TokenProgram} {amount : Nat}
    (hm : k'.mints mint = k.mints mint) (hs : k'.toks src = k.toks src) :
    Same (TokAgree k k') (burnTokens k prog src mint authority amount)
      (burnTokens k' prog src mint authority amount) := by
  unfold burnTokens
  rw [hm, hs]
  split
  · repeat refine Same.step fun _ _ => ?_
    exact ⟨rfl, fun a h => upd_agree _ _ h, fun a h => upd_agree _ _ h⟩
  · exact rfl

theorem transferTokens_frame {k k' : Tokens} {authority mint src dst : Addr} {prog : TokenProgram} {amount : Nat}
    {hooks : Option (List Addr)} {accept : Bool} {cpi : Cpi}
    (h : transferTokens k authority mint src dst prog amount hooks accept = .ok (k', cpi)) :
    k'.mints = k.mints ∧ ∀ a, a ≠ src → a ≠ dst → k'.toks a = k.toks a := by
  obtain ⟨s, d, m, dlg, F⟩ := transferTokens_iff.1 h
  rw [F.post]
  split
  · exact ⟨rfl, fun _ _ _ => rfl⟩
  · exact ⟨rfl, fun a h1 h2 => by show upd _ _ _ a = _; rw [upd_other _ _ h2, upd_other _ _ h1]⟩

theorem burnTokens_frame {k k' : Tokens} {authority mint src : Addr} {prog : TokenProgram} {amount : Nat} {cpi : Cpi}
    (h : burnTokens k prog src mint authority amount = .ok (k', cpi)) :
    (∀ a, a ≠ mint → k'.mints a = k.mints a) ∧ ∀ a, a ≠ src → k'.toks a = k.toks a := by
  obtain ⟨s, m, dlg, F⟩ := burnTokens_iff.1 h
  rw [F.post]
  exact ⟨fun a h1 => upd_other _ _ h1, fun a h1 => upd_other _ _ h1⟩

theorem AMap.get?_erase_ne {K V : Type} [DecidableEq K] (m : AMap K V) {k k' : K} (h : k' ≠ k) :
    (m.erase k).get? k' = m.get? k' := by
  induction m with
  | nil => rfl
  | cons x m ih =>
    obtain ⟨k0, v0⟩ := x
    unfold AMap.erase
    split
    · next h0 => simp only [AMap.get?]; rw [if_neg (by rintro rfl; exact h h0)]
    · next h0 => simp only [AMap.get?, ih]

theorem AMap.get?_set_ne {K V : Type} [DecidableEq K] (m : AMap K V) {k k' : K} (v : V) (h : k' ≠ k) :
    (m.set k v).get? k' = m.get? k' := (AMap.get?_set _ _ _ _).trans (if_neg h)

theorem AMap.set_agree {K V : Type} [DecidableEq K] {m m' : AMap K V} {a : K} (k : K) (v : V)
    (h : m'.get? a = m.get? a) : (m'.set k v).get? a = (m.set k v).get? a := by
  rw [AMap.get?_set, AMap.get?_set]; split <;> [rfl; exact h]

theorem Spec.Untouched.refl (w : World) (a : Addr) : Untouched w w a := ⟨rfl, rfl, rfl, rfl, rfl, rfl, rfl, rfl⟩

theorem Spec.Untouched.symm {w w' : World} {a : Addr} (h : Untouched w w' a) : Untouched w' w a :=
  ⟨h.1.symm, h.2.symm, h.3.symm, h.4.symm, h.5.symm, h.6.symm, h.7.symm, h.8.symm⟩

theorem Spec.Untouched.trans {w w' w'' : World} {a : Addr} (h : Untouched w w' a) (h' : Untouched w' w'' a) :
    Untouched w w'' a :=
  ⟨h'.1.trans h.1, h'.2.trans h.2, h'.3.trans h.3, h'.4.trans h.4, h'.5.trans h.5, h'.6.trans h.6,
    h'.7.trans h.7, h'.8.trans h.8⟩


theorem takeVaultAndMint_shape {w : World} {rem : List Addr} {v m : Addr} {e : PErr} {rest : List Addr}
    (h : takeVaultAndMint w rem v m e = .ok rest) : rem = v :: m :: rest := by
  unfold takeVaultAndMint at h
  split at h
  · simp only [bind_eq_ok, require_eq_ok, pure_eq_ok, exists_const] at h
    obtain ⟨_, rfl, rfl, rfl⟩ := h
    rfl
  · cases h

theorem creatorPayout_shape {w : World} {p : Presale} {pr : PresaleProgress} {rem : List Addr} {c : CreatorPayout}
    (h : creatorPayout w p pr rem = .ok c) : rem = c.vault :: c.mint :: c.rest := by
  unfold creatorPayout at h
  split at h
  · simp only [bind_eq_ok, pure_eq_ok] at h
    obtain ⟨rest, h1, rfl⟩ := h
    exact takeVaultAndMint_shape h1
  · simp only [bind_eq_ok, pure_eq_ok] at h
    obtain ⟨rest, h1, rfl⟩ := h
    exact takeVaultAndMint_shape h1
  · cases h

/-- An account declared writable is not among the others. -/
local macro "other " ha:term:max t:term:max : term =>
  `($ha (Spec.wr $t) (by simp [Spec.metas, Spec.declared, Spec.own, Spec.extra]) rfl)

theorem tk_frame {w : World} {tk : Tokens} {src dst a : Addr}
    (F : tk.mints = w.tk.mints ∧ ∀ a, a ≠ src → a ≠ dst → tk.toks a = w.tk.toks a) (h1 : a ≠ src) (h2 : a ≠ dst) :
    tk.mints a = w.tk.mints a ∧ tk.toks a = w.tk.toks a := ⟨congrFun F.1 a, F.2 a h1 h2⟩

/-- An instruction changes only accounts declared writable. -/
theorem execIx_writes (P : ProgIds) {w w' : World} {tx : Tx} {i : Ix} {rc : Receipt}
    (h : execIx w tx i = .ok (w', rc)) :
    w'.env = w.env ∧ w'.clock = w.clock ∧
      ∀ a, (∀ m ∈ Spec.metas P i, m.writable = true → a ≠ m.key) → Untouched w w' a := by
  cases i
  case initFixedArgs x =>
    have F := handleInitFixedArgs_iff.1 h
    rw [F.post]
    exact ⟨rfl, rfl, fun a ha => { Untouched.refl w a with
      fixedArgs := upd_other _ _ (other ha (.fixedPriceArgs x.presale)) }⟩
  case closeFixedArgs x =>
    obtain ⟨_, F⟩ := handleCloseFixedArgs_iff.1 h
    rw [F.post]
    exact ⟨rfl, rfl, fun a ha => { Untouched.refl w a with
      fixedArgs := upd_other _ _ (other ha x.account) }⟩
  case initPresale x =>
    obtain ⟨_, _, _, _, _, _, _, _, _, _, F⟩ := handleInitPresale_iff.1 h
    rw [F.post]
    obtain ⟨h1, h2⟩ := transferTokens_frame F.transfer
    refine ⟨rfl, rfl, fun a ha => { Untouched.refl w a with
      presale := upd_other _ _ (other ha x.presaleKey), mint := congrFun h1 a,
      token := (h2 a (other ha x.payerPresaleToken) (other ha (.baseVault x.presaleKey))).trans ?_ }⟩
    exact (upd_other _ _ (other ha (.quoteVault x.presaleKey))).trans
      (upd_other _ _ (other ha (.baseVault x.presaleKey)))
  case createMerkle x =>
    obtain ⟨_, F⟩ := handleCreateMerkle_iff.1 h
    rw [F.post]
    exact ⟨rfl, rfl, fun a ha => { Untouched.refl w a with
      merkle := upd_other _ _ (other ha (.merkleRoot x.presale x.version)) }⟩
  case closeMerkle x =>
    obtain ⟨_, _, F⟩ := handleCloseMerkle_iff.1 h
    rw [F.post]
    exact ⟨rfl, rfl, fun a ha => { Untouched.refl w a with
      merkle := upd_other _ _ (other ha x.config) }⟩
  case createEscrow x =>
    obtain ⟨_, _, _, _, F⟩ := handleCreateEscrow_iff.1 h
    rw [F.post]
    exact ⟨rfl, rfl, fun a ha => { Untouched.refl w a with
      presale := upd_other _ _ (other ha x.presale)
      escrow := AMap.get?_set_ne _ _ (other ha (.escrow x.presale x.owner 0)) }⟩
  case createEscrowCreator x =>
    obtain ⟨_, _, _, _, _, F⟩ := handleCreateEscrowCreator_iff.1 h
    rw [F.post]
    exact ⟨rfl, rfl, fun a ha => { Untouched.refl w a with
      presale := upd_other _ _ (other ha x.presale)
      escrow := AMap.get?_set_ne _ _ (other ha (.escrow x.presale x.owner x.registryIndex)) }⟩
  case createEscrowMerkle x =>
    obtain ⟨_, _, _, _, _, F⟩ := handleCreateEscrowMerkle_iff.1 h
    rw [F.post]
    exact ⟨rfl, rfl, fun a ha => { Untouched.refl w a with
      presale := upd_other _ _ (other ha x.presale)
      escrow := AMap.get?_set_ne _ _ (other ha (.escrow x.presale x.owner x.registryIndex)) }⟩
  case createOperator x =>
    have F := handleCreateOperator_iff.1 h
    rw [F.post]
    exact ⟨rfl, rfl, fun a ha => { Untouched.refl w a with
      operator := upd_other _ _ (other ha (.operator x.creator x.operatorOwner)) }⟩
  case revokeOperator x =>
    obtain ⟨_, F⟩ := handleRevokeOperator_iff.1 h
    rw [F.post]
    exact ⟨rfl, rfl, fun a ha => { Untouched.refl w a with
      operator := upd_other _ _ (other ha x.operator) }⟩
  case deposit x =>
    obtain ⟨_, _, _, _, _, _, _, _, _, F⟩ := handleDeposit_iff.1 h
    rw [F.post]
    refine ⟨rfl, rfl, fun a ha => ?_⟩
    obtain ⟨h1, h2⟩ := tk_frame (transferTokens_frame F.transfer) (other ha x.payerQuoteToken) (other ha x.quoteTokenVault)
    exact { Untouched.refl w a with
      presale := upd_other _ _ (other ha x.presale), escrow := AMap.get?_set_ne _ _ (other ha x.escrow)
      mint := h1, token := h2 }
  case withdraw x =>
    obtain ⟨_, _, _, _, _, _, _, _, _, _, _, F⟩ := handleWithdraw_iff.1 h
    rw [F.post]
    refine ⟨rfl, rfl, fun a ha => ?_⟩
    obtain ⟨h1, h2⟩ := tk_frame (transferTokens_frame F.transfer) (other ha x.quoteTokenVault) (other ha x.ownerQuoteToken)
    exact { Untouched.refl w a with
      presale := upd_other _ _ (other ha x.presale), escrow := AMap.get?_set_ne _ _ (other ha x.escrow)
      mint := h1, token := h2 }
  case claim x =>
    obtain ⟨_, _, _, _, _, _, F⟩ := handleClaim_iff.1 h
    rcases F.out with ⟨-, _, _, _, _, _, _, -, -, h3, h4, -⟩ | ⟨-, h4, -⟩
    · rw [h4]
      refine ⟨rfl, rfl, fun a ha => ?_⟩
      obtain ⟨h1, h2⟩ := tk_frame (transferTokens_frame h3) (other ha x.baseTokenVault) (other ha x.ownerBaseToken)
      exact { Untouched.refl w a with
        presale := upd_other _ _ (other ha x.presale), escrow := AMap.get?_set_ne _ _ (other ha x.escrow)
        mint := h1, token := h2 }
    · rw [h4]
      exact ⟨rfl, rfl, fun a ha => { Untouched.refl w a with
        escrow := AMap.get?_set_ne _ _ (other ha x.escrow) }⟩
  case refund x =>
    obtain ⟨_, _, _, _, _, _, _, _, F⟩ := handleRefund_iff.1 h
    rcases F.out with ⟨-, _, _, h3, h4, -⟩ | ⟨-, h4, -⟩
    · rw [h4]
      refine ⟨rfl, rfl, fun a ha => ?_⟩
      obtain ⟨h1, h2⟩ := tk_frame (transferTokens_frame h3) (other ha x.quoteTokenVault) (other ha x.ownerQuoteToken)
      exact { Untouched.refl w a with
        presale := upd_other _ _ (other ha x.presale), escrow := AMap.get?_set_ne _ _ (other ha x.escrow)
        mint := h1, token := h2 }
    · rw [h4]
      exact ⟨rfl, rfl, fun a ha => { Untouched.refl w a with
        presale := upd_other _ _ (other ha x.presale), escrow := AMap.get?_set_ne _ _ (other ha x.escrow) }⟩
  case unsold x =>
    obtain ⟨_, _, _, _, _, _, F⟩ := handleUnsold_iff.1 h
    rw [F.post]
    have hp := F.perform
    refine ⟨rfl, rfl, fun a ha => ?_⟩
    unfold performUnsold at hp
    split at hp
    · obtain ⟨h1, h2⟩ := burnTokens_frame hp
      exact { Untouched.refl w a with
        presale := upd_other _ _ (other ha x.presale), mint := h1 a (other ha x.baseMint)
        token := h2 a (other ha x.baseTokenVault) }
    · simp only [bind_eq_ok, Prod.exists] at hp
      obtain ⟨_, _, _, hp⟩ := hp
      obtain ⟨h1, h2⟩ := tk_frame (transferTokens_frame hp) (other ha x.baseTokenVault) (other ha x.creatorBaseToken)
      exact { Untouched.refl w a with presale := upd_other _ _ (other ha x.presale), mint := h1, token := h2 }
  case closeEscrow x =>
    obtain ⟨_, _, _, F⟩ := handleCloseEscrow_iff.1 h
    rw [F.post]
    exact ⟨rfl, rfl, fun a ha => { Untouched.refl w a with
      presale := upd_other _ _ (other ha x.presale), escrow := AMap.get?_erase_ne _ (other ha x.escrow) }⟩
  case creatorWithdraw x =>
    obtain ⟨_, c, _, _, _, _, _, _, F⟩ := handleCreatorWithdraw_iff.1 h
    rw [F.post]
    have hr := creatorPayout_shape F.payout
    refine ⟨rfl, rfl, fun a ha => ?_⟩
    have hv : a ≠ c.vault := ha (Spec.wr c.vault) (by simp [Spec.metas, Spec.extra, hr]) rfl
    obtain ⟨h1, h2⟩ := tk_frame (transferTokens_frame F.transfer) hv (other ha x.ownerToken)
    exact { Untouched.refl w a with presale := upd_other _ _ (other ha x.presale), mint := h1, token := h2 }
  case refresh x =>
    obtain ⟨_, _, _, F⟩ := (handleRefresh_iff (tx := tx)).1 h
    rw [F.post]
    exact ⟨rfl, rfl, fun a ha => { Untouched.refl w a with
      escrow := AMap.get?_set_ne _ _ (other ha x.escrow) }⟩
  case createMetadata x =>
    obtain ⟨_, F⟩ := handleCreateMetadata_iff.1 h
    rw [F.post]
    exact ⟨rfl, rfl, fun a ha => { Untouched.refl w a with
      metadata := upd_other _ _ (other ha (.serverMetadata x.presale)) }⟩
  case closeMetadata x =>
    obtain ⟨_, _, F⟩ := handleCloseMetadata_iff.1 h
    rw [F.post]
    exact ⟨rfl, rfl, fun a ha => { Untouched.refl w a with
      metadata := upd_other _ _ (other ha x.account) }⟩
  case collectFee x =>
    obtain ⟨_, _, _, _, F⟩ := handleCollectFee_iff.1 h
    rcases F.out with ⟨-, _, _, _, _, -, h3, h4, -⟩ | ⟨-, h4, -⟩
    · rw [h4]
      refine ⟨rfl, rfl, fun a ha => ?_⟩
      obtain ⟨h1, h2⟩ := tk_frame (transferTokens_frame h3) (other ha x.quoteTokenVault) (other ha x.feeReceivingAccount)
      exact { Untouched.refl w a with
        presale := upd_other _ _ (other ha x.presale)
        mint := h1, token := h2 }
    · rw [h4]
      exact ⟨rfl, rfl, fun a ha => { Untouched.refl w a with
        presale := upd_other _ _ (other ha x.presale) }⟩


/-- Two runs of an instruction end alike: same receipt, and whatever the ledgers agreed on before they agree on after. -/
def Outcome (w w' : World) (x y : World × Receipt) : Prop :=
  x.2 = y.2 ∧ y.1.env = x.1.env ∧ y.1.clock = x.1.clock ∧ ∀ a, Untouched w w' a → Untouched x.1 y.1 a

/-- A listed account. -/
local macro "at! " A:term:max t:term:max : term =>
  `(Spec.AgreeOn.same $A $t (by simp [Spec.metas, Spec.declared, Spec.own, Spec.extra, Spec.r, Spec.s, Spec.wr, Spec.sw]))

local macro "walk" : tactic => `(tactic| repeat (first | refine Same.step fun _ _ => ?_ | split))

variable {P : ProgIds} {w w' : World} {tx : Tx}

theorem AMap.erase_agree {K V : Type} [DecidableEq K] {m m' : AMap K V} (hn : (AMap.keys m).Nodup)
    (hn' : (AMap.keys m').Nodup) {a : K} (k : K) (h : m'.get? a = m.get? a) :
    (m'.erase k).get? a = (m.erase k).get? a := by
  rw [AMap.get?_erase hn, AMap.get?_erase hn']; split <;> [rfl; exact h]

theorem reads_initFixedArgs {x : InitFixedArgsAcc} (A : AgreeOn ((Spec.metas P (.initFixedArgs x)).map Meta.key) w w') :
    Same (Outcome w w') (handleInitFixedArgs w tx x) (handleInitFixedArgs w' tx x) := by
  unfold handleInitFixedArgs
  rw [(at! A (.fixedPriceArgs x.presale)).fixedArgs]
  walk
  exact ⟨rfl, A.env, A.clock, fun a ha => { ha with fixedArgs := upd_agree _ _ ha.fixedArgs }⟩

theorem reads_closeFixedArgs {x : CloseFixedArgsAcc}
    (A : AgreeOn ((Spec.metas P (.closeFixedArgs x)).map Meta.key) w w') :
    Same (Outcome w w') (handleCloseFixedArgs w tx x) (handleCloseFixedArgs w' tx x) := by
  unfold handleCloseFixedArgs
  rw [(at! A x.account).fixedArgs]
  walk
  exact ⟨rfl, A.env, A.clock, fun a ha => { ha with fixedArgs := upd_agree _ _ ha.fixedArgs }⟩

theorem reads_createMerkle {x : CreateMerkleAcc} (A : AgreeOn ((Spec.metas P (.createMerkle x)).map Meta.key) w w') :
    Same (Outcome w w') (handleCreateMerkle w tx x) (handleCreateMerkle w' tx x) := by
  unfold handleCreateMerkle
  rw [(at! A x.presale).presale, (at! A (.merkleRoot x.presale x.version)).merkle, A.clock]
  walk
  exact ⟨rfl, A.env, rfl, fun a ha => { ha with merkle := upd_agree _ _ ha.merkle }⟩

theorem reads_closeMerkle {x : CloseMerkleAcc} (A : AgreeOn ((Spec.metas P (.closeMerkle x)).map Meta.key) w w') :
    Same (Outcome w w') (handleCloseMerkle w tx x) (handleCloseMerkle w' tx x) := by
  unfold handleCloseMerkle
  rw [(at! A x.presale).presale, (at! A x.config).merkle, A.clock]
  walk
  exact ⟨rfl, A.env, rfl, fun a ha => { ha with merkle := upd_agree _ _ ha.merkle }⟩

theorem reads_createOperator {x : CreateOperatorAcc}
    (A : AgreeOn ((Spec.metas P (.createOperator x)).map Meta.key) w w') :
    Same (Outcome w w') (handleCreateOperator w tx x) (handleCreateOperator w' tx x) := by
  unfold handleCreateOperator
  rw [(at! A (.operator x.creator x.operatorOwner)).operator]
  walk
  exact ⟨rfl, A.env, A.clock, fun a ha => { ha with operator := upd_agree _ _ ha.operator }⟩

theorem reads_revokeOperator {x : RevokeOperatorAcc}
    (A : AgreeOn ((Spec.metas P (.revokeOperator x)).map Meta.key) w w') :
    Same (Outcome w w') (handleRevokeOperator w tx x) (handleRevokeOperator w' tx x) := by
  unfold handleRevokeOperator
  rw [(at! A x.operator).operator]
  walk
  exact ⟨rfl, A.env, A.clock, fun a ha => { ha with operator := upd_agree _ _ ha.operator }⟩

theorem reads_createMetadata {x : CreateMetadataAcc}
    (A : AgreeOn ((Spec.metas P (.createMetadata x)).map Meta.key) w w') :
    Same (Outcome w w') (handleCreateMetadata w tx x) (handleCreateMetadata w' tx x) := by
  unfold handleCreateMetadata
  rw [(at! A x.presale).presale, (at! A (.serverMetadata x.presale)).metadata, A.clock]
  walk
  exact ⟨rfl, A.env, rfl, fun a ha => { ha with metadata := upd_agree _ _ ha.metadata }⟩

theorem reads_closeMetadata {x : CloseMetadataAcc}
    (A : AgreeOn ((Spec.metas P (.closeMetadata x)).map Meta.key) w w') :
    Same (Outcome w w') (handleCloseMetadata w tx x) (handleCloseMetadata w' tx x) := by
  unfold handleCloseMetadata
  rw [(at! A x.presale).presale, (at! A x.account).metadata]
  walk
  exact ⟨rfl, A.env, A.clock, fun a ha => { ha with metadata := upd_agree _ _ ha.metadata }⟩

theorem reads_refresh {x : RefreshAcc} (A : AgreeOn ((Spec.metas P (.refresh x)).map Meta.key) w w') :
    Same (Outcome w w') (handleRefresh w tx x) (handleRefresh w' tx x) := by
  unfold handleRefresh
  rw [(at! A x.presale).presale, (at! A x.escrow).escrow, A.clock]
  walk
  exact ⟨rfl, A.env, rfl, fun a ha => { ha with escrow := AMap.set_agree _ _ ha.escrow }⟩

theorem reads_closeEscrow {x : CloseEscrowAcc} (hn : (AMap.keys w.escrows).Nodup) (hn' : (AMap.keys w'.escrows).Nodup)
    (A : AgreeOn ((Spec.metas P (.closeEscrow x)).map Meta.key) w w') :
    Same (Outcome w w') (handleCloseEscrow w tx x) (handleCloseEscrow w' tx x) := by
  unfold handleCloseEscrow
  rw [(at! A x.presale).presale, (at! A x.escrow).escrow, A.clock]
  walk
  exact ⟨rfl, A.env, rfl, fun a ha => { ha with
    presale := upd_agree _ _ ha.presale, escrow := AMap.erase_agree hn hn' _ ha.escrow }⟩

theorem reads_createEscrowAt {p : Presale} {k o : Addr} {i : Nat} {cap : Option Nat}
    (A : Untouched w w' (.escrow k o i)) (hc : w'.clock = w.clock) (he : w'.env = w.env) :
    Same (Outcome w w') (createEscrowAt w p k o i cap) (createEscrowAt w' p k o i cap) := by
  unfold createEscrowAt
  rw [A.escrow, hc]
  walk
  exact ⟨rfl, he, rfl, fun a ha => { ha with
    presale := upd_agree _ _ ha.presale, escrow := AMap.set_agree _ _ ha.escrow }⟩

theorem reads_createEscrow {x : CreateEscrowAcc} (A : AgreeOn ((Spec.metas P (.createEscrow x)).map Meta.key) w w') :
    Same (Outcome w w') (handleCreateEscrow w tx x) (handleCreateEscrow w' tx x) := by
  unfold handleCreateEscrow
  rw [(at! A x.presale).presale]
  walk
  exact reads_createEscrowAt (at! A (.escrow x.presale x.owner 0)) A.clock A.env

theorem reads_createEscrowCreator {x : CreateEscrowCreatorAcc}
    (A : AgreeOn ((Spec.metas P (.createEscrowCreator x)).map Meta.key) w w') :
    Same (Outcome w w') (handleCreateEscrowCreator w tx x) (handleCreateEscrowCreator w' tx x) := by
  unfold handleCreateEscrowCreator
  rw [(at! A x.presale).presale, (at! A x.operator).operator]
  walk
  exact reads_createEscrowAt (at! A (.escrow x.presale x.owner x.registryIndex)) A.clock A.env

theorem reads_createEscrowMerkle {x : CreateEscrowMerkleAcc}
    (A : AgreeOn ((Spec.metas P (.createEscrowMerkle x)).map Meta.key) w w') :
    Same (Outcome w w') (handleCreateEscrowMerkle w tx x) (handleCreateEscrowMerkle w' tx x) := by
  unfold handleCreateEscrowMerkle
  rw [(at! A x.presale).presale, (at! A x.config).merkle, A.env]
  walk
  exact reads_createEscrowAt (at! A (.escrow x.presale x.owner x.registryIndex)) A.clock A.env


theorem reads_deposit {x : DepositAcc} (A : AgreeOn ((Spec.metas P (.deposit x)).map Meta.key) w w') :
    Same (Outcome w w') (handleDeposit w tx x) (handleDeposit w' tx x) := by
  unfold handleDeposit
  rw [(at! A x.presale).presale, (at! A x.quoteMint).mint, (at! A x.escrow).escrow, A.clock]
  walk
  refine Same.bind (transferTokens_agree (at! A x.quoteMint).mint (at! A x.payerQuoteToken).token
    (at! A x.quoteTokenVault).token) ?_
  rintro ⟨tk, cpi⟩ ⟨tk', cpi'⟩ ⟨h1, h2, h3⟩
  cases h1
  exact ⟨rfl, A.env, rfl, fun a ha => { ha with
    presale := upd_agree _ _ ha.presale, escrow := AMap.set_agree _ _ ha.escrow,
    token := h2 a ha.token, mint := h3 a ha.mint }⟩

theorem reads_withdraw {x : WithdrawAcc} (A : AgreeOn ((Spec.metas P (.withdraw x)).map Meta.key) w w') :
    Same (Outcome w w') (handleWithdraw w tx x) (handleWithdraw w' tx x) := by
  unfold handleWithdraw
  rw [(at! A x.presale).presale, (at! A x.quoteMint).mint, (at! A x.escrow).escrow, A.clock]
  walk
  refine Same.bind (transferTokens_agree (at! A x.quoteMint).mint (at! A x.quoteTokenVault).token
    (at! A x.ownerQuoteToken).token) ?_
  rintro ⟨tk, cpi⟩ ⟨tk', cpi'⟩ ⟨h1, h2, h3⟩
  cases h1
  walk
  exact ⟨rfl, A.env, rfl, fun a ha => { ha with
    presale := upd_agree _ _ ha.presale, escrow := AMap.set_agree _ _ ha.escrow,
    token := h2 a ha.token, mint := h3 a ha.mint }⟩

theorem reads_claim {x : ClaimAcc} (A : AgreeOn ((Spec.metas P (.claim x)).map Meta.key) w w') :
    Same (Outcome w w') (handleClaim w tx x) (handleClaim w' tx x) := by
  unfold handleClaim
  rw [(at! A x.presale).presale, (at! A x.baseMint).mint, (at! A x.escrow).escrow, (at! A x.ownerBaseToken).token,
    A.clock]
  walk
  · refine Same.bind (transferTokens_agree (at! A x.baseMint).mint (at! A x.baseTokenVault).token
      (at! A x.ownerBaseToken).token) ?_
    rintro ⟨tk, cpi⟩ ⟨tk', cpi'⟩ ⟨h1, h2, h3⟩
    cases h1
    exact ⟨rfl, A.env, rfl, fun a ha => { ha with
      presale := upd_agree _ _ ha.presale, escrow := AMap.set_agree _ _ ha.escrow,
      token := h2 a ha.token, mint := h3 a ha.mint }⟩
  · exact ⟨rfl, A.env, rfl, fun a ha => { ha with escrow := AMap.set_agree _ _ ha.escrow }⟩

theorem reads_refund {x : RefundAcc} (A : AgreeOn ((Spec.metas P (.refund x)).map Meta.key) w w') :
    Same (Outcome w w') (handleRefund w tx x) (handleRefund w' tx x) := by
  unfold handleRefund
  rw [(at! A x.presale).presale, (at! A x.quoteMint).mint, (at! A x.escrow).escrow, (at! A x.ownerQuoteToken).token,
    A.clock]
  walk
  · refine Same.bind (transferTokens_agree (at! A x.quoteMint).mint (at! A x.quoteTokenVault).token
      (at! A x.ownerQuoteToken).token) ?_
    rintro ⟨tk, cpi⟩ ⟨tk', cpi'⟩ ⟨h1, h2, h3⟩
    cases h1
    exact ⟨rfl, A.env, rfl, fun a ha => { ha with
      presale := upd_agree _ _ ha.presale, escrow := AMap.set_agree _ _ ha.escrow,
      token := h2 a ha.token, mint := h3 a ha.mint }⟩
  · exact ⟨rfl, A.env, rfl, fun a ha => { ha with
      presale := upd_agree _ _ ha.presale, escrow := AMap.set_agree _ _ ha.escrow }⟩

theorem reads_collectFee {x : CollectFeeAcc} (A : AgreeOn ((Spec.metas P (.collectFee x)).map Meta.key) w w') :
    Same (Outcome w w') (handleCollectFee w tx x) (handleCollectFee w' tx x) := by
  unfold handleCollectFee
  rw [(at! A x.presale).presale, (at! A x.quoteMint).mint, (at! A x.feeReceivingAccount).token, A.clock]
  walk
  · refine Same.bind (transferTokens_agree (at! A x.quoteMint).mint (at! A x.quoteTokenVault).token
      (at! A x.feeReceivingAccount).token) ?_
    rintro ⟨tk, cpi⟩ ⟨tk', cpi'⟩ ⟨h1, h2, h3⟩
    cases h1
    exact ⟨rfl, A.env, rfl, fun a ha => { ha with
      presale := upd_agree _ _ ha.presale, token := h2 a ha.token, mint := h3 a ha.mint }⟩
  · exact ⟨rfl, A.env, rfl, fun a ha => { ha with presale := upd_agree _ _ ha.presale }⟩

theorem reads_performUnsold {x : UnsoldAcc} {act : UnsoldTokenAction} {n : Nat}
    (A : AgreeOn ((Spec.metas P (.unsold x)).map Meta.key) w w') :
    Same (TokAgree w.tk w'.tk) (performUnsold w tx x act n) (performUnsold w' tx x act n) := by
  unfold performUnsold
  split
  · exact burnTokens_agree (at! A x.baseMint).mint (at! A x.baseTokenVault).token
  · walk
    exact transferTokens_agree (at! A x.baseMint).mint (at! A x.baseTokenVault).token (at! A x.creatorBaseToken).token

theorem reads_unsold {x : UnsoldAcc} (A : AgreeOn ((Spec.metas P (.unsold x)).map Meta.key) w w') :
    Same (Outcome w w') (handleUnsold w tx x) (handleUnsold w' tx x) := by
  unfold handleUnsold
  rw [(at! A x.presale).presale, (at! A x.creatorBaseToken).token, A.clock]
  walk
  refine Same.bind (reads_performUnsold A) ?_
  rintro ⟨tk, cpi⟩ ⟨tk', cpi'⟩ ⟨h1, h2, h3⟩
  cases h1
  exact ⟨rfl, A.env, rfl, fun a ha => { ha with
    presale := upd_agree _ _ ha.presale, token := h2 a ha.token, mint := h3 a ha.mint }⟩


theorem takeVaultAndMint_agree {rem : List Addr} {v m : Addr} {e : PErr} (A : ∀ a ∈ rem, Untouched w w' a) :
    takeVaultAndMint w' rem v m e = takeVaultAndMint w rem v m e := by
  unfold takeVaultAndMint
  split
  · rw [(A _ (by simp)).token, (A _ (by simp)).mint]
  · rfl

theorem creatorPayout_agree {p : Presale} {pr : PresaleProgress} {rem : List Addr}
    (A : ∀ a ∈ rem, Untouched w w' a) : creatorPayout w' p pr rem = creatorPayout w p pr rem := by
  unfold creatorPayout
  rw [takeVaultAndMint_agree A, takeVaultAndMint_agree A]

theorem reads_creatorWithdraw {x : CreatorWithdrawAcc}
    (A : AgreeOn ((Spec.metas P (.creatorWithdraw x)).map Meta.key) w w') :
    Same (Outcome w w') (handleCreatorWithdraw w tx x) (handleCreatorWithdraw w' tx x) := by
  have hrem : ∀ a ∈ x.remaining, Untouched w w' a := by
    intro a ha
    refine A.same a ?_
    rw [← List.take_append_drop 1 x.remaining, List.mem_append] at ha
    simp only [Spec.metas, Spec.extra, List.map_append, List.mem_append, List.map_map, Function.comp_def, Spec.r,
      Spec.wr, List.map_id']
    exact Or.inr ha
  unfold handleCreatorWithdraw
  rw [(at! A x.presale).presale, A.clock]
  simp only [creatorPayout_agree hrem]
  refine Same.step fun _ _ => Same.step fun _ _ => Same.step fun _ _ => Same.step fun _ _ => Same.step fun _ _ =>
    Same.step fun _ _ => Same.step fun _ _ => Same.step fun c hc => ?_
  have hr := creatorPayout_shape hc
  have hv : Untouched w w' c.vault := hrem _ (by rw [hr]; simp)
  have hm : Untouched w w' c.mint := hrem _ (by rw [hr]; simp)
  refine Same.step fun _ _ => ?_
  refine Same.bind (transferTokens_agree hm.mint hv.token (at! A x.ownerToken).token) ?_
  rintro ⟨tk, cpi⟩ ⟨tk', cpi'⟩ ⟨h1, h2, h3⟩
  cases h1
  rw [hm.mint]
  walk
  exact ⟨rfl, A.env, rfl, fun a ha => { ha with
    presale := upd_agree _ _ ha.presale, token := h2 a ha.token, mint := h3 a ha.mint }⟩

theorem createVault_agree {f f' : Addr → Option FixedPriceArgs} {key : Addr} {k : InitKeys}
    {a : InitializePresaleArgs} {t : Nat} {rem : List Addr} (h : ∀ a ∈ rem, f' a = f a) :
    processCreatePresaleVault f' key k a t rem = processCreatePresaleVault f key k a t rem := by
  unfold processCreatePresaleVault
  refine congrArg _ (funext fun p => congrArg _ (funext fun hd => ?_))
  unfold Handler.initializePresale
  cases hd <;> try rfl
  cases rem with
  | nil => rfl
  | cons b l => simp only [h b (by simp)]

theorem reads_initPresale {x : InitPresaleAcc} (A : AgreeOn ((Spec.metas P (.initPresale x)).map Meta.key) w w') :
    Same (Outcome w w') (handleInitPresale w tx x) (handleInitPresale w' tx x) := by
  have hrem : ∀ a ∈ x.remaining, w'.fixedArgs a = w.fixedArgs a := by
    intro a ha
    refine (A.same a ?_).fixedArgs
    simp only [Spec.metas, Spec.extra, List.map_append, List.mem_append, List.map_map, Function.comp_def, Spec.r,
      List.map_id']
    exact Or.inr ha
  unfold handleInitPresale
  rw [(at! A x.presaleMint).mint, (at! A x.quoteTokenMint).mint, (at! A x.presaleKey).presale,
    (at! A (.baseVault x.presaleKey)).token, (at! A (.quoteVault x.presaleKey)).token, A.clock]
  simp only [createVault_agree hrem]
  walk
  refine Same.bind (transferTokens_agree (at! A x.presaleMint).mint ?_ ?_) ?_
  · exact upd_agree _ _ (upd_agree _ _ (at! A x.payerPresaleToken).token)
  · have := (at! A (.baseVault x.presaleKey)).token
    generalize Addr.baseVault x.presaleKey = b at this
    exact upd_agree _ _ (upd_agree _ _ this)
  rintro ⟨tk, cpi⟩ ⟨tk', cpi'⟩ ⟨h1, h2, h3⟩
  cases h1
  exact ⟨rfl, A.env, rfl, fun a ha => { ha with
    presale := upd_agree _ _ ha.presale, token := h2 a (upd_agree _ _ (upd_agree _ _ ha.token)),
    mint := h3 a ha.mint }⟩

/-- The outcome of an instruction depends only on the accounts it lists. -/
theorem execIx_reads {i : Ix} (hn : (AMap.keys w.escrows).Nodup) (hn' : (AMap.keys w'.escrows).Nodup)
    (A : AgreeOn ((Spec.metas P i).map Meta.key) w w') :
    Same (Outcome w w') (execIx w tx i) (execIx w' tx i) := by
  cases i with
  | initFixedArgs x => exact reads_initFixedArgs A
  | closeFixedArgs x => exact reads_closeFixedArgs A
  | initPresale x => exact reads_initPresale A
  | createMerkle x => exact reads_createMerkle A
  | closeMerkle x => exact reads_closeMerkle A
  | createEscrow x => exact reads_createEscrow A
  | createEscrowCreator x => exact reads_createEscrowCreator A
  | createEscrowMerkle x => exact reads_createEscrowMerkle A
  | createOperator x => exact reads_createOperator A
  | revokeOperator x => exact reads_revokeOperator A
  | deposit x => exact reads_deposit A
  | withdraw x => exact reads_withdraw A
  | claim x => exact reads_claim A
  | refund x => exact reads_refund A
  | unsold x => exact reads_unsold A
  | closeEscrow x => exact reads_closeEscrow hn hn' A
  | creatorWithdraw x => exact reads_creatorWithdraw A
  | refresh x => exact reads_refresh (tx := tx) A
  | createMetadata x => exact reads_createMetadata A
  | closeMetadata x => exact reads_closeMetadata A
  | collectFee x => exact reads_collectFee A

end Verif
