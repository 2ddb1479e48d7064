import Verif.SpecRename
import Verif.Lemmas.Maps
/-!
# Renaming the keys
-/

namespace Verif
open Spec

variable {s : Equiv.Perm Nat}

/-! ## Addresses and tables -/

theorem Addr.ren_symm (s : Equiv.Perm Nat) (a : Addr) : (a.ren s).ren s.symm = a := by
  induction a <;> simp_all [Addr.ren]

theorem Addr.symm_ren (s : Equiv.Perm Nat) (a : Addr) : (a.ren s.symm).ren s = a := by
  induction a <;> simp_all [Addr.ren]

theorem Addr.ren_inj {a b : Addr} : a.ren s = b.ren s ↔ a = b := by
  constructor
  · intro h
    rw [← Addr.ren_symm s a, h, Addr.ren_symm]
  · rintro rfl; rfl

theorem Addr.ren_isVault (a : Addr) : (a.ren s).isVault = a.isVault := by cases a <;> rfl

theorem Addr.ren_isKey (a : Addr) : (a.ren s).isKey = a.isKey := by cases a <;> rfl

theorem Tx.ren_signed (tx : Tx) (a : Addr) : (tx.ren s).signed (a.ren s) = tx.signed a := by
  have h : a.ren s ∈ tx.signers.map (Addr.ren s) ↔ a ∈ tx.signers := by
    constructor
    · intro h
      obtain ⟨b, hb, e⟩ := List.mem_map.1 h
      rw [Addr.ren_inj] at e
      exact e ▸ hb
    · intro h
      exact List.mem_map.2 ⟨a, h, rfl⟩
  unfold Tx.signed
  rw [Addr.ren_isKey]
  congr 1
  exact decide_eq_decide.2 h

theorem renTable_ren {V : Type} (g : V → V) (f : Addr → Option V) (a : Addr) :
    renTable s g f (a.ren s) = (f a).map g := by
  unfold renTable
  rw [Addr.ren_symm]

theorem renTable_upd {V : Type} (g : V → V) (f : Addr → Option V) (a : Addr) (v : Option V) :
    renTable s g (upd f a v) = upd (renTable s g f) (a.ren s) (v.map g) := by
  funext x
  unfold renTable upd
  by_cases h : x = a.ren s
  · subst h
    rw [Addr.ren_symm, if_pos rfl, if_pos rfl]
  · have h' : x.ren s.symm ≠ a := by
      rintro rfl
      exact h (Addr.symm_ren s x).symm
    rw [if_neg h, if_neg h']

/-- The renamed table of escrows. -/
theorem ren_get? (m : AMap Addr Escrow) (a : Addr) :
    AMap.get? (m.map fun y => (y.1.ren s, y.2.ren s)) (a.ren s) = (AMap.get? m a).map (Escrow.ren s) := by
  induction m with
  | nil => rfl
  | cons x m ih =>
    obtain ⟨k, e⟩ := x
    simp only [List.map_cons, AMap.get?, Addr.ren_inj]
    split
    · rfl
    · exact ih

theorem ren_set (m : AMap Addr Escrow) (a : Addr) (e : Escrow) :
    (AMap.set m a e).map (fun y => (y.1.ren s, y.2.ren s)) =
      AMap.set (m.map fun y => (y.1.ren s, y.2.ren s)) (a.ren s) (e.ren s) := by
  induction m with
  | nil => rfl
  | cons x m ih =>
    obtain ⟨k, e⟩ := x
    simp only [List.map_cons, AMap.set, Addr.ren_inj]
    split
    · rfl
    · rw [List.map_cons, ih]

theorem ren_erase (m : AMap Addr Escrow) (a : Addr) :
    (AMap.erase m a).map (fun y => (y.1.ren s, y.2.ren s)) =
      AMap.erase (m.map fun y => (y.1.ren s, y.2.ren s)) (a.ren s) := by
  induction m with
  | nil => rfl
  | cons x m ih =>
    obtain ⟨k, e⟩ := x
    simp only [List.map_cons, AMap.erase, Addr.ren_inj]
    split
    · rfl
    · rw [List.map_cons, ih]

theorem TokAcct.ren_symm (s : Equiv.Perm Nat) (t : TokAcct) : (t.ren s).ren s.symm = t := by
  obtain ⟨a, b, c, d, e⟩ := t
  cases e <;> simp [TokAcct.ren, Addr.ren_symm]

theorem MintInfo.ren_symm (s : Equiv.Perm Nat) (t : MintInfo) : (t.ren s).ren s.symm = t := by
  obtain ⟨a, b, c, d, e, f⟩ := t
  cases e <;> simp [MintInfo.ren, Addr.ren_symm]

theorem renTable_symm {V : Type} (s : Equiv.Perm Nat) (g h : V → V) (hg : ∀ v, h (g v) = v) (f : Addr → Option V) :
    renTable s.symm h (renTable s g f) = f := by
  funext a
  unfold renTable
  rw [Equiv.symm_symm, Addr.ren_symm]
  cases f a with
  | none => rfl
  | some v => simp [hg]

theorem World.ren_symm (s : Equiv.Perm Nat) (w : World) : (w.ren s).ren s.symm = w := by
  obtain ⟨⟨h, kb⟩, c, p, e, m, o, md, fa, k⟩ := w
  unfold World.ren Tokens.ren
  simp only [World.mk.injEq, Env.mk.injEq, true_and]
  refine ⟨?_, ?_, ?_, ?_, ?_, ?_, ?_, ?_⟩
  · funext a; rw [Equiv.symm_symm, Addr.ren_symm]
  · exact renTable_symm _ _ _ (fun v => by simp [Presale.ren, Addr.ren_symm]) _
  · rw [List.map_map]
    conv => rhs; rw [← List.map_id e]
    refine List.map_congr_left fun y _ => ?_
    simp [Escrow.ren, Addr.ren_symm]
  · exact renTable_symm _ _ _ (fun v => by simp [MerkleRootConfig.ren, Addr.ren_symm]) _
  · exact renTable_symm _ _ _ (fun v => by simp [Operator.ren, Addr.ren_symm]) _
  · exact renTable_symm _ _ _ (fun v => by simp [ServerMetadata.ren, Addr.ren_symm]) _
  · exact renTable_symm _ _ _ (fun v => by simp [FixedPriceArgs.ren, Addr.ren_symm]) _
  · rw [renTable_symm _ _ _ (TokAcct.ren_symm s), renTable_symm _ _ _ (MintInfo.ren_symm s)]

theorem map_ren_symm (s : Equiv.Perm Nat) (l : List Addr) : (l.map (Addr.ren s)).map (Addr.ren s.symm) = l := by
  rw [List.map_map]
  conv => rhs; rw [← List.map_id l]
  exact List.map_congr_left fun a _ => Addr.ren_symm s a

theorem Tx.ren_symm (s : Equiv.Perm Nat) (x : Tx) : (x.ren s).ren s.symm = x := by
  obtain ⟨a, b⟩ := x
  simp only [Tx.ren, map_ren_symm]

/-! ## Lookups -/

theorem ren_table {V : Type} {g : V → V} {f : Addr → Option V} {a : Addr} {v : V} (h : f a = some v) :
    renTable s g f (a.ren s) = some (g v) := by
  rw [renTable_ren, h]; rfl

theorem ren_table_none {V : Type} {g : V → V} {f : Addr → Option V} {a : Addr} (h : f a = none) :
    renTable s g f (a.ren s) = none := by
  rw [renTable_ren, h]; rfl

theorem ren_escrow {m : AMap Addr Escrow} {a : Addr} {e : Escrow} (h : m.get? a = some e) :
    AMap.get? (m.map fun y => (y.1.ren s, y.2.ren s)) (a.ren s) = some (e.ren s) := by
  rw [ren_get?, h]; rfl

theorem ren_escrow_none {m : AMap Addr Escrow} {a : Addr} (h : m.get? a = none) :
    AMap.get? (m.map fun y => (y.1.ren s, y.2.ren s)) (a.ren s) = none := by
  rw [ren_get?, h]; rfl

theorem ren_signed {tx : Tx} {a : Addr} (h : tx.signed a = true) : (tx.ren s).signed (a.ren s) = true := by
  rw [Tx.ren_signed]; exact h

theorem ren_congr {a b : Addr} (h : a = b) : a.ren s = b.ren s := congrArg _ h

theorem ren_ne {a b : Addr} (h : a ≠ b) : a.ren s ≠ b.ren s := fun e => h (Addr.ren_inj.1 e)

/-! ## Payments -/

theorem ren_hookProgram (m : MintInfo) : ((m.ren s).hookProgram = none) = (m.hookProgram = none) := by
  obtain ⟨a, b, c, d, e, f⟩ := m
  unfold MintInfo.hookProgram MintInfo.ren
  cases a <;> simp

theorem ren_canSpend {t : TokAcct} {who : Addr} {n : Nat} (h : CanSpend t who n) :
    CanSpend (t.ren s) (who.ren s) n := by
  obtain ⟨a, b, c, d, e⟩ := t
  rcases h with ⟨k, hd, hk⟩ | ⟨ho, hn⟩
  · refine Or.inl ⟨k, ?_, hk⟩
    simp only at hd
    subst hd
    rfl
  · refine Or.inr ⟨ren_congr ho, ?_⟩
    intro k hk
    cases e with
    | none => cases hk
    | some x =>
      obtain ⟨x1, x2⟩ := x
      simp only [TokAcct.ren, Option.map_some, Option.some.injEq, Prod.mk.injEq, Addr.ren_inj] at hk
      obtain ⟨rfl, rfl⟩ := hk
      exact hn _ rfl

theorem ren_allowanceLeft (t : TokAcct) (who : Addr) (n : Nat) :
    allowanceLeft (t.ren s) (who.ren s) n = (allowanceLeft t who n).map fun d => (d.1.ren s, d.2) := by
  obtain ⟨a, b, c, d, e⟩ := t
  cases e with
  | none => rfl
  | some x =>
    obtain ⟨x1, x2⟩ := x
    simp only [allowanceLeft, TokAcct.ren, Option.map_some, Addr.ren_inj]
    split
    · split <;> rfl
    · rfl

theorem ren_charged {k k' : Tokens} {tx : Tx} {who mint src dst : Addr} {prog : TokenProgram} {n : Nat}
    (h : Charged k tx who mint src dst prog n k') :
    Charged (k.ren s) (tx.ren s) (who.ren s) (mint.ren s) (src.ren s) (dst.ren s) prog n (k'.ren s) := by
  obtain ⟨acc, m, t, d, h1, h2, h3, h4, h5, h6, h7, h8, h9, h10, rfl⟩ := h
  refine ⟨acc, m.ren s, t.ren s, d.ren s, ren_table h1, h2, ren_table h3, ren_congr h4, h5, h6, ren_canSpend h7,
    ren_table h8, h9, h10, ?_⟩
  simp only [Tokens.ren, renTable_upd, ren_allowanceLeft]
  rfl

theorem ren_paidOut {k k' : Tokens} {tx : Tx} {mint vault dst : Addr} {prog : TokenProgram} {n : Nat}
    (h : PaidOut k tx mint vault dst prog n k') :
    PaidOut (k.ren s) (tx.ren s) (mint.ren s) (vault.ren s) (dst.ren s) prog n (k'.ren s) := by
  obtain ⟨acc, m, v, d, h1, h2, h3, h4, h5, h6, h7, h8⟩ := h
  refine ⟨acc, m.ren s, v.ren s, d.ren s, ren_table h1, h2, ren_table h3, h4, ren_table h5, ren_congr h6, h7, ?_⟩
  rcases h8 with ⟨rfl, rfl⟩ | ⟨hne, hlt, rfl⟩
  · exact Or.inl ⟨rfl, rfl⟩
  · refine Or.inr ⟨ren_ne hne, hlt, ?_⟩
    simp only [Tokens.ren, renTable_upd]
    rfl

theorem ren_burntOut {k k' : Tokens} {mint vault : Addr} {prog : TokenProgram} {n : Nat}
    (h : BurntOut k mint vault prog n k') :
    BurntOut (k.ren s) (mint.ren s) (vault.ren s) prog n (k'.ren s) := by
  obtain ⟨m, v, h1, h2, h3, h4, h5, h6, rfl⟩ := h
  refine ⟨m.ren s, v.ren s, ren_table h1, h2, h3, h4, ren_table h5, h6, ?_⟩
  simp only [Tokens.ren, renTable_upd]
  rfl

theorem ren_hooksExact {kind : AccountsType} {m : MintInfo} {l : List Addr} {sl : List RemSlice}
    (h : HooksExact kind m l sl) : HooksExact kind (m.ren s) (l.map (Addr.ren s)) sl := by
  refine ⟨h.kinds, ?_, ?_⟩
  · rw [List.length_map]; exact h.enough
  · have := h.count
    simp only [ren_hookProgram]
    exact this

theorem ren_hooksRight {k : Tokens} {kind : AccountsType} {mint : Addr} {l : List Addr} {sl : List RemSlice}
    (h : HooksRight k kind mint l sl) : HooksRight (k.ren s) kind (mint.ren s) (l.map (Addr.ren s)) sl := by
  obtain ⟨m, h1, h2⟩ := h
  exact ⟨m.ren s, ren_table h1, ren_hooksExact h2⟩

theorem ren_hooksReadable {kind : AccountsType} {l : List Addr} {sl : List RemSlice} (h : HooksReadable kind l sl) :
    HooksReadable kind (l.map (Addr.ren s)) sl :=
  ⟨h.kinds, by rw [List.length_map]; exact h.enough, h.count⟩

/-! ## Instructions -/

theorem ren_initFixedArgs {w w' : World} {tx : Tx} {a : InitFixedArgsAcc} (h : DoesInitFixedArgs w tx a w') :
    DoesInitFixedArgs (w.ren s) (tx.ren s) (a.ren s) (w'.ren s) := by
  obtain ⟨h1, h2, h3, h4, rfl⟩ := h
  refine ⟨ren_signed h1, h2, h3, ren_table_none (a := .fixedPriceArgs a.presale) h4, ?_⟩
  simp only [World.ren, renTable_upd]
  rfl

theorem ren_closeFixedArgs {w w' : World} {tx : Tx} {a : CloseFixedArgsAcc} {c : FixedPriceArgs}
    (h : DoesCloseFixedArgs w tx a w' c) :
    DoesCloseFixedArgs (w.ren s) (tx.ren s) (a.ren s) (w'.ren s) (c.ren s) := by
  obtain ⟨⟨h1, h2⟩, h3, rfl⟩ := h
  refine ⟨⟨ren_table h1, ren_congr h2⟩, ren_signed h3, ?_⟩
  simp only [World.ren, renTable_upd]
  rfl

theorem ren_pricedBy {f : Addr → Option FixedPriceArgs} {key : Addr} {mode : Nat} {l : List Addr} {q : Option Nat}
    {left : List Addr} (h : PricedBy f key mode l q left) :
    PricedBy (renTable s (FixedPriceArgs.ren s) f) (key.ren s) mode (l.map (Addr.ren s)) q (left.map (Addr.ren s)) := by
  rcases h with ⟨hm, hq, rfl⟩ | ⟨h1, h2, acc, x, rfl, hx, hk, hq⟩
  · exact Or.inl ⟨hm, hq, rfl⟩
  · exact Or.inr ⟨h1, h2, acc.ren s, x.ren s, rfl, ren_table hx, ren_congr hk, hq⟩

theorem ren_creatable {w : World} {tx : Tx} {a : InitPresaleAcc} {q : Option Nat} {left : List Addr}
    {bm qm : MintInfo} {src : TokAcct} {gross : Nat} (h : Creatable w tx a q left bm qm src gross) :
    Creatable (w.ren s) (tx.ren s) (a.ren s) q (left.map (Addr.ren s)) (bm.ren s) (qm.ren s) (src.ren s) gross where
  signed := ⟨ren_signed h.signed.1, ren_signed h.signed.2⟩
  fresh := ⟨ren_table_none (a := .presale a.base a.presaleMint a.quoteTokenMint) h.fresh.1,
    ren_table_none (a := .baseVault (.presale a.base a.presaleMint a.quoteTokenMint)) h.fresh.2.1,
    ren_table_none (a := .quoteVault (.presale a.base a.presaleMint a.quoteTokenMint)) h.fresh.2.2⟩
  clock := h.clock
  baseMint := ⟨ren_table h.baseMint.1, h.baseMint.2.1, h.baseMint.2.2⟩
  quoteMint := ⟨ren_table h.quoteMint.1, h.quoteMint.2.1, h.quoteMint.2.2⟩
  priced := ren_pricedBy h.priced
  terms := h.terms
  source := ⟨ren_table h.source.1, ren_congr h.source.2.1, h.source.2.2⟩
  gross := ⟨h.gross.1, h.gross.2.1, ren_canSpend h.gross.2.2⟩
  accepted := h.accepted
  slices := h.slices
  hooks := ren_hooksExact h.hooks

theorem ren_newSale (a : InitPresaleAcc) (c : Option FixedPriceArgs) (now : Nat) :
    newSale (a.ren s) (c.map (FixedPriceArgs.ren s)) now = (newSale a c now).ren s := by
  cases c <;> rfl

theorem ren_initPresale {w w' : World} {tx : Tx} {a : InitPresaleAcc} {c : Option FixedPriceArgs} {left : List Addr}
    {bm qm : MintInfo} {src : TokAcct} {gross : Nat} (h : DoesInitPresale w tx a w' c left bm qm src gross) :
    DoesInitPresale (w.ren s) (tx.ren s) (a.ren s) (w'.ren s) (c.map (FixedPriceArgs.ren s)) (left.map (Addr.ren s))
      (bm.ren s) (qm.ren s) (src.ren s) gross := by
  obtain ⟨h1, h2, h3, rfl⟩ := h
  refine ⟨?_, ?_, h3, ?_⟩
  · have e : (c.map (FixedPriceArgs.ren s)).map FixedPriceArgs.qPrice = c.map FixedPriceArgs.qPrice := by
      cases c <;> rfl
    rw [e]
    exact ren_creatable h1
  · intro x hx
    cases c with
    | none => cases hx
    | some y =>
      cases hx
      obtain ⟨acc, hr, hf⟩ := h2 y rfl
      exact ⟨acc.ren s, congrArg (List.map (Addr.ren s)) hr, ren_table hf⟩
  · simp only [World.ren, Tokens.ren, renTable_upd, InitPresaleAcc.ren, ren_allowanceLeft,
      Option.map_some]
    rw [← InitPresaleAcc.ren, ren_newSale]
    rfl

theorem ren_createMerkle {w w' : World} {tx : Tx} {a : CreateMerkleAcc} {p : Presale}
    (h : DoesCreateMerkle w tx a w' p) : DoesCreateMerkle (w.ren s) (tx.ren s) (a.ren s) (w'.ren s) (p.ren s) := by
  obtain ⟨⟨h1, h2⟩, h3, h4, h5, h6, h7, rfl⟩ := h
  refine ⟨⟨ren_table h1, ren_congr h2⟩, ren_signed h3, h4, ren_table_none (a := .merkleRoot a.presale a.version) h5, h6,
    h7, ?_⟩
  simp only [World.ren, renTable_upd]
  rfl

theorem ren_closeMerkle {w w' : World} {tx : Tx} {a : CloseMerkleAcc} {p : Presale} {c : MerkleRootConfig}
    (h : DoesCloseMerkle w tx a w' p c) :
    DoesCloseMerkle (w.ren s) (tx.ren s) (a.ren s) (w'.ren s) (p.ren s) (c.ren s) := by
  obtain ⟨⟨h1, h2⟩, ⟨h3, h4⟩, h5, h6, h7, rfl⟩ := h
  refine ⟨⟨ren_table h1, ren_congr h2⟩, ⟨ren_table h3, ren_congr h4⟩, ren_ne h5, ren_signed h6, h7, ?_⟩
  simp only [World.ren, renTable_upd]
  rfl

theorem ren_createOperator {w w' : World} {tx : Tx} {a : CreateOperatorAcc} (h : DoesCreateOperator w tx a w') :
    DoesCreateOperator (w.ren s) (tx.ren s) (a.ren s) (w'.ren s) := by
  obtain ⟨h1, h2, rfl⟩ := h
  refine ⟨ren_signed h1, ren_table_none (a := .operator a.creator a.operatorOwner) h2, ?_⟩
  simp only [World.ren, renTable_upd]
  rfl

theorem ren_revokeOperator {w w' : World} {tx : Tx} {a : RevokeOperatorAcc} {o : Operator}
    (h : DoesRevokeOperator w tx a w' o) :
    DoesRevokeOperator (w.ren s) (tx.ren s) (a.ren s) (w'.ren s) (o.ren s) := by
  obtain ⟨⟨h1, h2⟩, h3, rfl⟩ := h
  refine ⟨⟨ren_table h1, ren_congr h2⟩, ren_signed h3, ?_⟩
  simp only [World.ren, renTable_upd]
  rfl

theorem ren_createMetadata {w w' : World} {tx : Tx} {a : CreateMetadataAcc} {p : Presale}
    (h : DoesCreateMetadata w tx a w' p) :
    DoesCreateMetadata (w.ren s) (tx.ren s) (a.ren s) (w'.ren s) (p.ren s) := by
  obtain ⟨⟨h1, h2⟩, h3, h4, h5, h6, h7, rfl⟩ := h
  refine ⟨⟨ren_table h1, ren_congr h2⟩, ren_signed h3, h4, ren_table_none (a := .serverMetadata a.presale) h5, h6, h7, ?_⟩
  simp only [World.ren, renTable_upd]
  rfl

theorem ren_closeMetadata {w w' : World} {tx : Tx} {a : CloseMetadataAcc} {p : Presale} {c : ServerMetadata}
    (h : DoesCloseMetadata w tx a w' p c) :
    DoesCloseMetadata (w.ren s) (tx.ren s) (a.ren s) (w'.ren s) (p.ren s) (c.ren s) := by
  obtain ⟨⟨h1, h2⟩, ⟨h3, h4⟩, h5, h6, rfl⟩ := h
  refine ⟨⟨ren_table h1, ren_congr h2⟩, ⟨ren_table h3, ren_congr h4⟩, ren_ne h5, ren_signed h6, ?_⟩
  simp only [World.ren, renTable_upd]
  rfl

theorem ren_opens {w w' : World} {key owner : Addr} {i cap : Nat} {p : Presale} {r : Registry}
    (h : Opens w key owner i cap w' p r) :
    Opens (w.ren s) (key.ren s) (owner.ren s) i cap (w'.ren s) (p.ren s) r := by
  obtain ⟨h1, h2, h3, h4, h5, rfl⟩ := h
  refine ⟨ren_table h1, h2, h3, ren_escrow_none (a := .escrow key owner i) h4, h5, ?_⟩
  simp only [World.ren, renTable_upd, ren_set]
  rfl

theorem ren_createEscrow {w w' : World} {tx : Tx} {a : CreateEscrowAcc} {p : Presale} {r : Registry}
    (h : DoesCreateEscrow w tx a w' p r) :
    DoesCreateEscrow (w.ren s) (tx.ren s) (a.ren s) (w'.ren s) (p.ren s) r :=
  ⟨ren_signed h.signed, h.mode, ren_opens h.opens⟩

theorem ren_createEscrowCreator {w w' : World} {tx : Tx} {a : CreateEscrowCreatorAcc} {p : Presale} {r : Registry}
    {o : Operator} (h : DoesCreateEscrowCreator w tx a w' p r o) :
    DoesCreateEscrowCreator (w.ren s) (tx.ren s) (a.ren s) (w'.ren s) (p.ren s) r (o.ren s) :=
  ⟨⟨ren_signed h.signed.1, ren_signed h.signed.2⟩, h.mode,
    ⟨ren_table h.operator.1, ren_congr h.operator.2.1, ren_congr h.operator.2.2⟩, h.cap, ren_opens h.opens⟩

theorem ren_createEscrowMerkle {w w' : World} {tx : Tx} {a : CreateEscrowMerkleAcc} {p : Presale} {r : Registry}
    {c : MerkleRootConfig} (h : DoesCreateEscrowMerkle w tx a w' p r c) :
    DoesCreateEscrowMerkle (w.ren s) (tx.ren s) (a.ren s) (w'.ren s) (p.ren s) r (c.ren s) := by
  refine ⟨ren_signed h.signed, h.mode, ⟨ren_table h.root.1, ren_congr h.root.2⟩, h.fits, ?_, h.cap, ren_opens h.opens⟩
  have e : (w.ren s).env.keyBytes (a.ren s).owner = w.env.keyBytes a.owner := congrArg w.env.keyBytes (Addr.ren_symm s _)
  rw [e]
  exact h.listed

theorem ren_afterDeposit (p : Presale) (i : Nat) (r : Registry) (n fee now : Nat) :
    afterDeposit (p.ren s) i r n fee now = (afterDeposit p i r n fee now).ren s := by
  unfold afterDeposit
  by_cases h : EarlyEndAllowed p ∧ p.presaleMaximumCap ≤ p.totalDeposit + n
  · have h' : EarlyEndAllowed (p.ren s) ∧ (p.ren s).presaleMaximumCap ≤ (p.ren s).totalDeposit + n := h
    rw [if_pos h, if_pos h']
    rfl
  · have h' : ¬ (EarlyEndAllowed (p.ren s) ∧ (p.ren s).presaleMaximumCap ≤ (p.ren s).totalDeposit + n) := h
    rw [if_neg h, if_neg h']
    rfl

theorem ren_deposit {w w' : World} {tx : Tx} {a : DepositAcc} {p : Presale} {e : Escrow} {r : Registry} {m : MintInfo}
    {n fee gross : Nat} {k' : Tokens} (h : DoesDeposit w tx a w' p e r m n fee gross k') :
    DoesDeposit (w.ren s) (tx.ren s) (a.ren s) (w'.ren s) (p.ren s) (e.ren s) r (m.ren s) n fee gross (k'.ren s) where
  presale := ren_table h.presale
  escrow := ⟨ren_escrow h.escrow.1, ren_congr h.escrow.2⟩
  registry := h.registry
  accounts := ⟨ren_congr h.accounts.1, ren_congr h.accounts.2⟩
  signed := ren_signed h.signed
  fits := h.fits
  ongoing := h.ongoing
  priced := h.priced
  taken := h.taken
  minimum := h.minimum
  mint := ren_table h.mint
  charge := ⟨h.charge.rate, h.charge.leastFee, h.charge.exact, h.charge.leastGross⟩
  hooks := ren_hooksExact h.hooks
  payment := ren_charged h.payment
  post := by
    rw [h.post]
    simp only [World.ren, renTable_upd, ren_set, Option.map_some, ← ren_afterDeposit]
    rfl

theorem ren_withdraw {w w' : World} {tx : Tx} {a : WithdrawAcc} {p : Presale} {e : Escrow} {r : Registry}
    {n : Nat} {k' : Tokens} (h : DoesWithdraw w tx a w' p e r n k') :
    DoesWithdraw (w.ren s) (tx.ren s) (a.ren s) (w'.ren s) (p.ren s) (e.ren s) r n (k'.ren s) where
  presale := ren_table h.presale
  escrow := ⟨ren_escrow h.escrow.1, ren_congr h.escrow.2.1, ren_congr h.escrow.2.2⟩
  registry := h.registry
  accounts := ⟨ren_congr h.accounts.1, ren_congr h.accounts.2⟩
  signed := ren_signed h.signed
  fits := h.fits
  ongoing := h.ongoing
  allowed := h.allowed
  asked := h.asked
  taken := h.taken
  minimum := h.minimum
  hooks := ren_hooksRight h.hooks
  payment := ren_paidOut h.payment
  post := by
    rw [h.post]
    simp only [World.ren, renTable_upd, ren_set]
    rfl

theorem ren_claim {w w' : World} {tx : Tx} {a : ClaimAcc} {p : Presale} {e : Escrow} {r : Registry}
    {n : Nat} {k' : Tokens} (h : DoesClaim w tx a w' p e r n k') :
    DoesClaim (w.ren s) (tx.ren s) (a.ren s) (w'.ren s) (p.ren s) (e.ren s) r n (k'.ren s) where
  presale := ren_table h.presale
  escrow := ⟨ren_escrow h.escrow.1, ren_congr h.escrow.2.1, ren_congr h.escrow.2.2⟩
  registry := h.registry
  accounts := ⟨ren_congr h.accounts.1, ren_congr h.accounts.2⟩
  signed := ren_signed h.signed
  fits := h.fits
  completed := h.completed
  account := by
    obtain ⟨d, hd⟩ := h.account
    exact ⟨d.ren s, ren_table hd⟩
  due := h.due
  nothing := fun z => congrArg (Tokens.ren s) (h.nothing z)
  payment := fun z => ⟨ren_hooksRight (h.payment z).1, ren_paidOut (h.payment z).2⟩
  post := by
    rw [h.post]
    simp only [World.ren, renTable_upd, ren_set]
    rfl

theorem ren_refresh {w w' : World} {a : RefreshAcc} {p : Presale} {e : Escrow} {r : Registry} {e' : Escrow}
    (h : DoesRefresh w a w' p e r e') :
    DoesRefresh (w.ren s) (a.ren s) (w'.ren s) (p.ren s) (e.ren s) r (e'.ren s) where
  presale := ren_table h.presale
  escrow := ⟨ren_escrow h.escrow.1, ren_congr h.escrow.2⟩
  registry := h.registry
  early := fun z => congrArg (Escrow.ren s) (h.early z)
  completed := fun z => congrArg (Escrow.ren s) (h.completed z)
  post := by
    rw [h.post]
    simp only [World.ren, ren_set]
    rfl

theorem ren_refund {w w' : World} {tx : Tx} {a : RefundAcc} {p : Presale} {e : Escrow} {r : Registry}
    {n : Nat} {k' : Tokens} (h : DoesRefund w tx a w' p e r n k') :
    DoesRefund (w.ren s) (tx.ren s) (a.ren s) (w'.ren s) (p.ren s) (e.ren s) r n (k'.ren s) where
  presale := ren_table h.presale
  escrow := ⟨ren_escrow h.escrow.1, ren_congr h.escrow.2.1, ren_congr h.escrow.2.2⟩
  registry := h.registry
  accounts := ⟨ren_congr h.accounts.1, ren_congr h.accounts.2⟩
  signed := ren_signed h.signed
  fits := h.fits
  phase := h.phase
  first := h.first
  account := by
    obtain ⟨d, hd⟩ := h.account
    exact ⟨d.ren s, ren_table hd⟩
  due := h.due
  readable := ren_hooksReadable h.readable
  nothing := fun z => congrArg (Tokens.ren s) (h.nothing z)
  payment := fun z => ⟨ren_hooksRight (h.payment z).1, ren_paidOut (h.payment z).2⟩
  post := by
    rw [h.post]
    simp only [World.ren, renTable_upd, ren_set]
    rfl

theorem ren_closeEscrow {w w' : World} {tx : Tx} {a : CloseEscrowAcc} {p : Presale} {e : Escrow} {r : Registry}
    (h : DoesCloseEscrow w tx a w' p e r) :
    DoesCloseEscrow (w.ren s) (tx.ren s) (a.ren s) (w'.ren s) (p.ren s) (e.ren s) r where
  presale := ren_table h.presale
  escrow := ⟨ren_escrow h.escrow.1, ren_congr h.escrow.2.1, ren_congr h.escrow.2.2⟩
  registry := h.registry
  receiver := ren_ne h.receiver
  signed := ren_signed h.signed
  empty := h.empty
  settled := h.settled
  claimed := h.claimed
  post := by
    rw [h.post]
    simp only [World.ren, renTable_upd, ren_erase]
    rfl

theorem ren_creatorWithdraw {w w' : World} {tx : Tx} {a : CreatorWithdrawAcc} {p : Presale} {kind : AccountsType}
    {mint vault : Addr} {n : Nat} {left : List Addr} {k' : Tokens}
    (h : DoesCreatorWithdraw w tx a w' p kind mint vault n left k') :
    DoesCreatorWithdraw (w.ren s) (tx.ren s) (a.ren s) (w'.ren s) (p.ren s) kind (mint.ren s) (vault.ren s) n
      (left.map (Addr.ren s)) (k'.ren s) where
  presale := ⟨ren_table h.presale.1, ren_congr h.presale.2⟩
  signed := ren_signed h.signed
  fits := h.fits
  gets := by
    rcases h.gets with ⟨h1, h2, h3, h4, h5⟩ | ⟨h1, h2, h3, h4, h5⟩
    · exact Or.inl ⟨h1, h2, ren_congr h3, ren_congr h4, h5⟩
    · exact Or.inr ⟨h1, h2, ren_congr h3, ren_congr h4, h5⟩
  first := h.first
  accounts := congrArg (List.map (Addr.ren s)) h.accounts
  hooks := ren_hooksRight h.hooks
  payment := ren_paidOut h.payment
  post := by
    rw [h.post]
    simp only [World.ren, renTable_upd]
    rfl

theorem ren_collectFee {w w' : World} {tx : Tx} {a : CollectFeeAcc} {p : Presale} {k' : Tokens}
    (h : DoesCollectFee w tx a w' p k') :
    DoesCollectFee (w.ren s) (tx.ren s) (a.ren s) (w'.ren s) (p.ren s) (k'.ren s) where
  presale := ⟨ren_table h.presale.1, ren_congr h.presale.2⟩
  signed := ren_signed h.signed
  fits := h.fits
  accounts := ⟨ren_congr h.accounts.1, ren_congr h.accounts.2⟩
  account := by
    obtain ⟨d, hd⟩ := h.account
    exact ⟨d.ren s, ren_table hd⟩
  completed := h.completed
  first := h.first
  nothing := fun z => congrArg (Tokens.ren s) (h.nothing z)
  payment := fun z => ⟨ren_hooksRight (h.payment z).1, ren_paidOut (h.payment z).2⟩
  post := by
    rw [h.post]
    simp only [World.ren, renTable_upd]
    rfl

theorem ren_unsold {w w' : World} {tx : Tx} {a : UnsoldAcc} {p : Presale} {d : TokAcct} {k' : Tokens}
    (h : DoesUnsold w tx a w' p d k') :
    DoesUnsold (w.ren s) (tx.ren s) (a.ren s) (w'.ren s) (p.ren s) (d.ren s) (k'.ren s) where
  presale := ren_table h.presale
  fits := h.fits
  accounts := ⟨ren_congr h.accounts.1, ren_congr h.accounts.2.1, ren_congr h.accounts.2.2⟩
  account := ⟨ren_table h.account.1, ren_congr h.account.2.1, ren_congr h.account.2.2⟩
  completed := h.completed
  first := h.first
  left := h.left
  burn := fun z => ren_burntOut (h.burn z)
  refund := fun z => ⟨ren_hooksRight (h.refund z).1, ren_paidOut (h.refund z).2⟩
  post := by
    rw [h.post]
    simp only [World.ren, renTable_upd]
    rfl

/-- What an instruction does, it does under any other names. -/
theorem ren_does {w w' : World} {tx : Tx} {i : Ix} (h : Does w tx i w') :
    Does (w.ren s) (tx.ren s) (i.ren s) (w'.ren s) := by
  cases i with
  | initFixedArgs a => exact ren_initFixedArgs h
  | closeFixedArgs a => obtain ⟨_, h⟩ := h; exact ⟨_, ren_closeFixedArgs h⟩
  | initPresale a => obtain ⟨_, _, _, _, _, _, h⟩ := h; exact ⟨_, _, _, _, _, _, ren_initPresale h⟩
  | createMerkle a => obtain ⟨_, h⟩ := h; exact ⟨_, ren_createMerkle h⟩
  | closeMerkle a => obtain ⟨_, _, h⟩ := h; exact ⟨_, _, ren_closeMerkle h⟩
  | createEscrow a => obtain ⟨_, _, h⟩ := h; exact ⟨_, _, ren_createEscrow h⟩
  | createEscrowCreator a => obtain ⟨_, _, _, h⟩ := h; exact ⟨_, _, _, ren_createEscrowCreator h⟩
  | createEscrowMerkle a => obtain ⟨_, _, _, h⟩ := h; exact ⟨_, _, _, ren_createEscrowMerkle h⟩
  | createOperator a => exact ren_createOperator h
  | revokeOperator a => obtain ⟨_, h⟩ := h; exact ⟨_, ren_revokeOperator h⟩
  | deposit a => obtain ⟨_, _, _, _, _, _, _, _, h⟩ := h; exact ⟨_, _, _, _, _, _, _, _, ren_deposit h⟩
  | withdraw a => obtain ⟨_, _, _, _, _, h⟩ := h; exact ⟨_, _, _, _, _, ren_withdraw h⟩
  | claim a => obtain ⟨_, _, _, _, _, h⟩ := h; exact ⟨_, _, _, _, _, ren_claim h⟩
  | refund a => obtain ⟨_, _, _, _, _, h⟩ := h; exact ⟨_, _, _, _, _, ren_refund h⟩
  | unsold a => obtain ⟨_, _, _, h⟩ := h; exact ⟨_, _, _, ren_unsold h⟩
  | closeEscrow a => obtain ⟨_, _, _, h⟩ := h; exact ⟨_, _, _, ren_closeEscrow h⟩
  | creatorWithdraw a =>
    obtain ⟨_, _, _, _, _, _, _, h⟩ := h
    exact ⟨_, _, _, _, _, _, _, ren_creatorWithdraw h⟩
  | refresh a => obtain ⟨_, _, _, _, h⟩ := h; exact ⟨_, _, _, _, ren_refresh h⟩
  | createMetadata a => obtain ⟨_, h⟩ := h; exact ⟨_, ren_createMetadata h⟩
  | closeMetadata a => obtain ⟨_, _, h⟩ := h; exact ⟨_, _, ren_closeMetadata h⟩
  | collectFee a => obtain ⟨_, _, h⟩ := h; exact ⟨_, _, ren_collectFee h⟩

/-! ## Histories -/

theorem ren_table_some {V : Type} {g : V → V} {f : Addr → Option V} {a : Addr} {v : V} (h : renTable s g f a = some v) :
    ∃ u, f (a.ren s.symm) = some u ∧ v = g u := by
  unfold renTable at h
  cases hf : f (a.ren s.symm) with
  | none => rw [hf] at h; cases h
  | some u => rw [hf] at h; cases h; exact ⟨u, rfl, rfl⟩

theorem ren_genesis {w : World} (g : Genesis w) : Genesis (w.ren s) where
  presales a := by simp only [World.ren, renTable, g.presales]; rfl
  escrows := by simp only [World.ren, g.escrows]; rfl
  merkleRoots a := by simp only [World.ren, renTable, g.merkleRoots]; rfl
  operators a := by simp only [World.ren, renTable, g.operators]; rfl
  metadata a := by simp only [World.ren, renTable, g.metadata]; rfl
  fixedArgs a := by simp only [World.ren, renTable, g.fixedArgs]; rfl
  vaults a h := by
    have : (a.ren s.symm).isVault = true := by rw [Addr.ren_isVault]; exact h
    simp only [World.ren, Tokens.ren, renTable, g.vaults _ this]; rfl
  amounts a t h := by
    obtain ⟨u, hu, rfl⟩ := ren_table_some h
    exact g.amounts _ u hu
  mints a m h := by
    obtain ⟨u, hu, rfl⟩ := ren_table_some h
    exact g.mints _ u hu

theorem ren_outside {w w' : World} (h : Outside w w') : Outside (w.ren s) (w'.ren s) := by
  cases h with
  | time n => exact Outside.time n
  | account a t foreign fits =>
    have e := Outside.account (w := w.ren s) (a.ren s) (t.map (TokAcct.ren s)) (by rw [Addr.ren_isVault]; exact foreign)
      (by
        intro x hx
        cases t with
        | none => cases hx
        | some y => cases hx; exact fits y rfl)
    simp only [World.ren, Tokens.ren, renTable_upd] at e ⊢
    exact e
  | gift a t n there fits =>
    have e := Outside.gift (w := w.ren s) (a.ren s) (t.ren s) n (ren_table there) fits
    simp only [World.ren, Tokens.ren, renTable_upd] at e ⊢
    exact e
  | freeze a t b there =>
    have e := Outside.freeze (w := w.ren s) (a.ren s) (t.ren s) b (ren_table there)
    simp only [World.ren, Tokens.ren, renTable_upd] at e ⊢
    exact e
  | mint a m supply fee kept =>
    have e := Outside.mint (w := w.ren s) (a.ren s) (m.ren s) supply fee (by
      intro old ho had
      obtain ⟨u, hu, rfl⟩ := ren_table_some ho
      rw [Addr.ren_symm] at hu
      exact kept u hu had)
    simp only [World.ren, Tokens.ren, renTable_upd] at e ⊢
    exact e

theorem ren_arises {w : World} (h : Arises w) : Arises (w.ren s) := by
  induction h with
  | empty g => exact .empty (ren_genesis g)
  | outside _ o ih => exact .outside ih (ren_outside o)
  | instruction _ d ih => exact .instruction ih (ren_does d)

/-! ## The bytes of the keys -/

theorem env_creatable {E : Env} {w : World} {tx : Tx} {a : InitPresaleAcc} {q : Option Nat} {left : List Addr}
    {bm qm : MintInfo} {src : TokAcct} {gross : Nat} (h : Creatable w tx a q left bm qm src gross) :
    Creatable { w with env := E } tx a q left bm qm src gross :=
  ⟨h.signed, h.fresh, h.clock, h.baseMint, h.quoteMint, h.priced, h.terms, h.source, h.gross, h.accepted, h.slices,
    h.hooks⟩

theorem env_initFixedArgs {E : Env} {w : World} {tx : Tx} {a : InitFixedArgsAcc} {w' : World} (h : DoesInitFixedArgs
    w tx a w') :
    DoesInitFixedArgs { w with env := E } tx a { w' with env := E } where
  signed := h.signed
  price := h.price
  flag := h.flag
  fresh := h.fresh
  post := by rw [h.post]

theorem env_closeFixedArgs {E : Env} {w : World} {tx : Tx} {a : CloseFixedArgsAcc} {w' : World} {c : FixedPriceArgs}
    (h : DoesCloseFixedArgs w tx a w' c) :
    DoesCloseFixedArgs { w with env := E } tx a { w' with env := E } c where
  account := h.account
  signed := h.signed
  post := by rw [h.post]

theorem env_initPresale {E : Env} {w : World} {tx : Tx} {a : InitPresaleAcc} {w' : World} {c : Option
    FixedPriceArgs} {left : List Addr} {bm : MintInfo} {qm : MintInfo} {src : TokAcct} {gross : Nat} (h :
    DoesInitPresale w tx a w' c left bm qm src gross) :
    DoesInitPresale { w with env := E } tx a { w' with env := E } c left bm qm src gross where
  creatable := env_creatable h.creatable
  priced := h.priced
  least := h.least
  post := by rw [h.post]

theorem env_createMerkle {E : Env} {w : World} {tx : Tx} {a : CreateMerkleAcc} {w' : World} {p : Presale} (h :
    DoesCreateMerkle w tx a w' p) :
    DoesCreateMerkle { w with env := E } tx a { w' with env := E } p where
  presale := h.presale
  signed := h.signed
  fits := h.fits
  fresh := h.fresh
  notOver := h.notOver
  mode := h.mode
  post := by rw [h.post]

theorem env_closeMerkle {E : Env} {w : World} {tx : Tx} {a : CloseMerkleAcc} {w' : World} {p : Presale} {c :
    MerkleRootConfig} (h : DoesCloseMerkle w tx a w' p c) :
    DoesCloseMerkle { w with env := E } tx a { w' with env := E } p c where
  presale := h.presale
  account := h.account
  receiver := h.receiver
  signed := h.signed
  phase := h.phase
  post := by rw [h.post]

theorem env_createOperator {E : Env} {w : World} {tx : Tx} {a : CreateOperatorAcc} {w' : World} (h :
    DoesCreateOperator w tx a w') :
    DoesCreateOperator { w with env := E } tx a { w' with env := E } where
  signed := h.signed
  fresh := h.fresh
  post := by rw [h.post]

theorem env_revokeOperator {E : Env} {w : World} {tx : Tx} {a : RevokeOperatorAcc} {w' : World} {o : Operator} (h :
    DoesRevokeOperator w tx a w' o) :
    DoesRevokeOperator { w with env := E } tx a { w' with env := E } o where
  account := h.account
  signed := h.signed
  post := by rw [h.post]

theorem env_createMetadata {E : Env} {w : World} {tx : Tx} {a : CreateMetadataAcc} {w' : World} {p : Presale} (h :
    DoesCreateMetadata w tx a w' p) :
    DoesCreateMetadata { w with env := E } tx a { w' with env := E } p where
  presale := h.presale
  signed := h.signed
  text := h.text
  fresh := h.fresh
  mode := h.mode
  notOver := h.notOver
  post := by rw [h.post]

theorem env_closeMetadata {E : Env} {w : World} {tx : Tx} {a : CloseMetadataAcc} {w' : World} {p : Presale} {c :
    ServerMetadata} (h : DoesCloseMetadata w tx a w' p c) :
    DoesCloseMetadata { w with env := E } tx a { w' with env := E } p c where
  presale := h.presale
  account := h.account
  receiver := h.receiver
  signed := h.signed
  post := by rw [h.post]

theorem env_opens {E : Env} {w : World} {key : Addr} {owner : Addr} {i : Nat} {cap : Nat} {w' : World} {p : Presale}
    {r : Registry} (h : Opens w key owner i cap w' p r) :
    Opens { w with env := E } key owner i cap { w' with env := E } p r where
  presale := h.presale
  registry := h.registry
  ongoing := h.ongoing
  fresh := h.fresh
  countable := h.countable
  post := by rw [h.post]

theorem env_createEscrow {E : Env} {w : World} {tx : Tx} {a : CreateEscrowAcc} {w' : World} {p : Presale} {r :
    Registry} (h : DoesCreateEscrow w tx a w' p r) :
    DoesCreateEscrow { w with env := E } tx a { w' with env := E } p r where
  signed := h.signed
  mode := h.mode
  opens := env_opens h.opens

theorem env_createEscrowCreator {E : Env} {w : World} {tx : Tx} {a : CreateEscrowCreatorAcc} {w' : World} {p :
    Presale} {r : Registry} {o : Operator} (h : DoesCreateEscrowCreator w tx a w' p r o) :
    DoesCreateEscrowCreator { w with env := E } tx a { w' with env := E } p r o where
  signed := h.signed
  mode := h.mode
  operator := h.operator
  cap := h.cap
  opens := env_opens h.opens

theorem env_deposit {E : Env} {w : World} {tx : Tx} {a : DepositAcc} {w' : World} {p : Presale} {e : Escrow} {r :
    Registry} {m : MintInfo} {n : Nat} {fee : Nat} {gross : Nat} {k' : Tokens} (h : DoesDeposit w tx a w' p e r m n
    fee gross k') :
    DoesDeposit { w with env := E } tx a { w' with env := E } p e r m n fee gross k' where
  presale := h.presale
  escrow := h.escrow
  registry := h.registry
  accounts := h.accounts
  signed := h.signed
  fits := h.fits
  ongoing := h.ongoing
  priced := h.priced
  taken := h.taken
  minimum := h.minimum
  mint := h.mint
  charge := h.charge
  hooks := h.hooks
  payment := h.payment
  post := by rw [h.post]

theorem env_withdraw {E : Env} {w : World} {tx : Tx} {a : WithdrawAcc} {w' : World} {p : Presale} {e : Escrow} {r :
    Registry} {n : Nat} {k' : Tokens} (h : DoesWithdraw w tx a w' p e r n k') :
    DoesWithdraw { w with env := E } tx a { w' with env := E } p e r n k' where
  presale := h.presale
  escrow := h.escrow
  registry := h.registry
  accounts := h.accounts
  signed := h.signed
  fits := h.fits
  ongoing := h.ongoing
  allowed := h.allowed
  asked := h.asked
  taken := h.taken
  minimum := h.minimum
  hooks := h.hooks
  payment := h.payment
  post := by rw [h.post]

theorem env_claim {E : Env} {w : World} {tx : Tx} {a : ClaimAcc} {w' : World} {p : Presale} {e : Escrow} {r :
    Registry} {n : Nat} {k' : Tokens} (h : DoesClaim w tx a w' p e r n k') :
    DoesClaim { w with env := E } tx a { w' with env := E } p e r n k' where
  presale := h.presale
  escrow := h.escrow
  registry := h.registry
  accounts := h.accounts
  signed := h.signed
  fits := h.fits
  completed := h.completed
  account := h.account
  due := h.due
  nothing := h.nothing
  payment := h.payment
  post := by rw [h.post]

theorem env_refresh {E : Env} {w : World} {a : RefreshAcc} {w' : World} {p : Presale} {e : Escrow} {r : Registry}
    {e' : Escrow} (h : DoesRefresh w a w' p e r e') :
    DoesRefresh { w with env := E } a { w' with env := E } p e r e' where
  presale := h.presale
  escrow := h.escrow
  registry := h.registry
  early := h.early
  completed := h.completed
  post := by rw [h.post]

theorem env_refund {E : Env} {w : World} {tx : Tx} {a : RefundAcc} {w' : World} {p : Presale} {e : Escrow} {r :
    Registry} {n : Nat} {k' : Tokens} (h : DoesRefund w tx a w' p e r n k') :
    DoesRefund { w with env := E } tx a { w' with env := E } p e r n k' where
  presale := h.presale
  escrow := h.escrow
  registry := h.registry
  accounts := h.accounts
  signed := h.signed
  fits := h.fits
  phase := h.phase
  first := h.first
  account := h.account
  due := h.due
  readable := h.readable
  nothing := h.nothing
  payment := h.payment
  post := by rw [h.post]

theorem env_closeEscrow {E : Env} {w : World} {tx : Tx} {a : CloseEscrowAcc} {w' : World} {p : Presale} {e : Escrow}
    {r : Registry} (h : DoesCloseEscrow w tx a w' p e r) :
    DoesCloseEscrow { w with env := E } tx a { w' with env := E } p e r where
  presale := h.presale
  escrow := h.escrow
  registry := h.registry
  receiver := h.receiver
  signed := h.signed
  empty := h.empty
  settled := h.settled
  claimed := h.claimed
  post := by rw [h.post]

theorem env_creatorWithdraw {E : Env} {w : World} {tx : Tx} {a : CreatorWithdrawAcc} {w' : World} {p : Presale}
    {kind : AccountsType} {mint : Addr} {vault : Addr} {n : Nat} {left : List Addr} {k' : Tokens} (h :
    DoesCreatorWithdraw w tx a w' p kind mint vault n left k') :
    DoesCreatorWithdraw { w with env := E } tx a { w' with env := E } p kind mint vault n left k' where
  presale := h.presale
  signed := h.signed
  fits := h.fits
  gets := h.gets
  first := h.first
  accounts := h.accounts
  hooks := h.hooks
  payment := h.payment
  post := by rw [h.post]

theorem env_collectFee {E : Env} {w : World} {tx : Tx} {a : CollectFeeAcc} {w' : World} {p : Presale} {k' : Tokens}
    (h : DoesCollectFee w tx a w' p k') :
    DoesCollectFee { w with env := E } tx a { w' with env := E } p k' where
  presale := h.presale
  signed := h.signed
  fits := h.fits
  accounts := h.accounts
  account := h.account
  completed := h.completed
  first := h.first
  nothing := h.nothing
  payment := h.payment
  post := by rw [h.post]

theorem env_unsold {E : Env} {w : World} {tx : Tx} {a : UnsoldAcc} {w' : World} {p : Presale} {d : TokAcct} {k' :
    Tokens} (h : DoesUnsold w tx a w' p d k') :
    DoesUnsold { w with env := E } tx a { w' with env := E } p d k' where
  presale := h.presale
  fits := h.fits
  accounts := h.accounts
  account := h.account
  completed := h.completed
  first := h.first
  left := h.left
  burn := h.burn
  refund := h.refund
  post := by rw [h.post]

/-- Only the entry by Merkle proof depends on the hash function and on how keys are written. -/
theorem env_does {E : Env} {w w' : World} {tx : Tx} {i : Ix} (hb : i.readsBytes = false) (h : Does w tx i w') :
    Does { w with env := E } tx i { w' with env := E } := by
  cases i with
  | initFixedArgs a => exact env_initFixedArgs h
  | closeFixedArgs a => obtain ⟨_, h⟩ := h; exact ⟨_, env_closeFixedArgs h⟩
  | initPresale a => obtain ⟨_, _, _, _, _, _, h⟩ := h; exact ⟨_, _, _, _, _, _, env_initPresale h⟩
  | createMerkle a => obtain ⟨_, h⟩ := h; exact ⟨_, env_createMerkle h⟩
  | closeMerkle a => obtain ⟨_, _, h⟩ := h; exact ⟨_, _, env_closeMerkle h⟩
  | createEscrow a => obtain ⟨_, _, h⟩ := h; exact ⟨_, _, env_createEscrow h⟩
  | createEscrowCreator a => obtain ⟨_, _, _, h⟩ := h; exact ⟨_, _, _, env_createEscrowCreator h⟩
  | createEscrowMerkle a => cases hb
  | createOperator a => exact env_createOperator h
  | revokeOperator a => obtain ⟨_, h⟩ := h; exact ⟨_, env_revokeOperator h⟩
  | deposit a => obtain ⟨_, _, _, _, _, _, _, _, h⟩ := h; exact ⟨_, _, _, _, _, _, _, _, env_deposit h⟩
  | withdraw a => obtain ⟨_, _, _, _, _, h⟩ := h; exact ⟨_, _, _, _, _, env_withdraw h⟩
  | claim a => obtain ⟨_, _, _, _, _, h⟩ := h; exact ⟨_, _, _, _, _, env_claim h⟩
  | refund a => obtain ⟨_, _, _, _, _, h⟩ := h; exact ⟨_, _, _, _, _, env_refund h⟩
  | unsold a => obtain ⟨_, _, _, h⟩ := h; exact ⟨_, _, _, env_unsold h⟩
  | closeEscrow a => obtain ⟨_, _, _, h⟩ := h; exact ⟨_, _, _, env_closeEscrow h⟩
  | creatorWithdraw a => obtain ⟨_, _, _, _, _, _, _, h⟩ := h; exact ⟨_, _, _, _, _, _, _, env_creatorWithdraw h⟩
  | refresh a => obtain ⟨_, _, _, _, h⟩ := h; exact ⟨_, _, _, _, env_refresh h⟩
  | createMetadata a => obtain ⟨_, h⟩ := h; exact ⟨_, env_createMetadata h⟩
  | closeMetadata a => obtain ⟨_, _, h⟩ := h; exact ⟨_, _, env_closeMetadata h⟩
  | collectFee a => obtain ⟨_, _, h⟩ := h; exact ⟨_, _, env_collectFee h⟩

/-! ## There and back -/

theorem FixedPriceArgs.ren_symm (s : Equiv.Perm Nat) (x : FixedPriceArgs) : (x.ren s).ren s.symm = x := by
  simp [FixedPriceArgs.ren, Addr.ren_symm]

theorem Ix.ren_symm (s : Equiv.Perm Nat) (i : Ix) : (i.ren s).ren s.symm = i := by
  cases i <;> simp [Ix.ren, InitFixedArgsAcc.ren, CloseFixedArgsAcc.ren, InitPresaleAcc.ren, CreateMerkleAcc.ren,
    CloseMerkleAcc.ren, CreateOperatorAcc.ren, RevokeOperatorAcc.ren, CreateMetadataAcc.ren, CloseMetadataAcc.ren,
    CreateEscrowAcc.ren, CreateEscrowCreatorAcc.ren, CreateEscrowMerkleAcc.ren, DepositAcc.ren, WithdrawAcc.ren,
    ClaimAcc.ren, RefreshAcc.ren, RefundAcc.ren, CloseEscrowAcc.ren, CreatorWithdrawAcc.ren, CollectFeeAcc.ren,
    UnsoldAcc.ren, Addr.ren_symm, -List.map_map, map_ren_symm]

theorem Op.ren_symm (s : Equiv.Perm Nat) (op : Op) : (op.ren s).ren s.symm = op := by
  cases op with
  | tick n => rfl
  | setTok a t =>
    cases t <;> simp [Op.ren, Addr.ren_symm, TokAcct.ren_symm]
  | donate a n => simp [Op.ren, Addr.ren_symm]
  | freezeVault a b => simp [Op.ren, Addr.ren_symm]
  | setMint a m => simp [Op.ren, Addr.ren_symm, MintInfo.ren_symm]
  | ix tx i => simp only [Op.ren, Tx.ren_symm, Ix.ren_symm]

end Verif
