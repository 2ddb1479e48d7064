import Verif.Model.Lamports
import Verif.Lemmas.Flow
import Verif.Lemmas.Admin
import Verif.Lemmas.Evolve
/-!
# Accounts and lamports across one step
-/

namespace Verif
open Spec

/-- Presence and size of every account agree. -/
structure SameSizes (r : RentEnv) (w w' : World) : Prop where
  presales : ∀ a, (w'.presales a).map (fun p => (p.baseMint, p.quoteMint)) =
    (w.presales a).map (fun p => (p.baseMint, p.quoteMint))
  mints : ∀ a p, w.presales a = some p →
    (w'.tk.mints p.baseMint).map r.vault = (w.tk.mints p.baseMint).map r.vault ∧
    (w'.tk.mints p.quoteMint).map r.vault = (w.tk.mints p.quoteMint).map r.vault
  escrows : ∀ k, (w'.escrows.get? k).isSome = (w.escrows.get? k).isSome
  roots : w'.merkleRoots = w.merkleRoots
  operators : w'.operators = w.operators
  metas : w'.metadata = w.metadata
  fixed : w'.fixedArgs = w.fixedArgs

theorem map_const_congr {α β : Type} {o o' : Option α} (n : β) (h : o'.isSome = o.isSome) :
    o'.map (fun _ => n) = o.map (fun _ => n) := by
  cases o <;> cases o' <;> simp_all

theorem SameSizes.eq {r : RentEnv} {w w' : World} (S : SameSizes r w w') (a : Addr) :
    accountSize r w' a = accountSize r w a := by
  have hp : ∀ a, (w'.presales a).isSome = (w.presales a).isSome := by
    intro a
    have := congrArg Option.isSome (S.presales a)
    simpa using this
  cases a with
  | key n => rfl
  | presaleAuthority => rfl
  | ata o m p => rfl
  | presale b m q => exact map_const_congr _ (hp _)
  | baseVault x =>
    simp only [accountSize]
    have h := S.presales x
    cases h0 : w.presales x with
    | none => rw [h0] at h; simp only [Option.map_none, Option.map_eq_none_iff] at h; rw [h]; rfl
    | some p =>
      rw [h0] at h
      simp only [Option.map_some, Option.map_eq_some_iff, Prod.mk.injEq] at h
      obtain ⟨p', h1, h2, h3⟩ := h
      rw [h1]
      simp only [Option.bind_some, h2]
      exact (S.mints x p h0).1
  | quoteVault x =>
    simp only [accountSize]
    have h := S.presales x
    cases h0 : w.presales x with
    | none => rw [h0] at h; simp only [Option.map_none, Option.map_eq_none_iff] at h; rw [h]; rfl
    | some p =>
      rw [h0] at h
      simp only [Option.map_some, Option.map_eq_some_iff, Prod.mk.injEq] at h
      obtain ⟨p', h1, h2, h3⟩ := h
      rw [h1]
      simp only [Option.bind_some, h3]
      exact (S.mints x p h0).2
  | fixedPriceArgs x => simp only [accountSize, S.fixed]
  | escrow x o i => exact map_const_congr _ (S.escrows _)
  | merkleRoot x v => simp only [accountSize, S.roots]
  | operator c o => simp only [accountSize, S.operators]
  | serverMetadata x => simp only [accountSize, S.metas]

theorem RentEnv.vault_grown (r : RentEnv) {m m' : MintInfo} (h1 : m'.program = m.program)
    (h2 : Ext.grown m'.exts m.exts) : r.vault m' = r.vault m := by
  have key : ∀ e : Ext, e ≠ .tokenMetadata → m'.exts.contains e = m.exts.contains e := by
    intro e he
    rw [Bool.eq_iff_iff, List.contains_iff_mem, List.contains_iff_mem]
    exact ⟨fun h => (h2.2 e h).resolve_right he, h2.1 e⟩
  unfold RentEnv.vault
  rw [h1, key _ (by decide), key _ (by decide)]

theorem sizes_mints {w w' : World} {op : Op} {rc : Receipt} (W : WInv w) (h : step w op = .ok (w', rc))
    (r : RentEnv) {a : Addr} {p : Presale} (hp : w.presales a = some p) :
    (w'.tk.mints p.baseMint).map r.vault = (w.tk.mints p.baseMint).map r.vault ∧
    (w'.tk.mints p.quoteMint).map r.vault = (w.tk.mints p.quoteMint).map r.vault := by
  have S := W.core.sale a p hp
  obtain ⟨m1, h1, h2, _⟩ := S.baseMint
  obtain ⟨m2, h3, h4, _⟩ := S.quoteMint
  obtain ⟨m1', e1, e2, _, e3⟩ := step_sameMint W h _ _ h1 h2
  obtain ⟨m2', f1, f2, _, f3⟩ := step_sameMint W h _ _ h3 h4
  rw [e1, f1, h1, h3]
  simp only [Option.map_some, r.vault_grown e2 e3, r.vault_grown f2 f3, and_self]

theorem Act.escrows_some {w : World} {a : Addr} {p p' : Presale} {tx : Tx} {i : Ix} {es' : AMap Addr Escrow}
    (A : Act w a p tx i p' es') (h1 : creations r w i = []) (h2 : closing i = none) (k : Addr) :
    (es'.get? k).isSome = (w.escrows.get? k).isSome := by
  have key : ∀ (k0 : Addr) (e e' : Escrow), w.escrows.get? k0 = some e →
      ((w.escrows.set k0 e').get? k).isSome = (w.escrows.get? k).isSome := by
    intro k0 e e' h0
    rw [AMap.get?_set]
    split
    · next h => rw [h, h0]; rfl
    · rfl
  cases A with
  | opened by_ =>
    cases i <;> simp_all [Ix.opens, creations]
  | deposit _ he => exact key _ _ _ he
  | withdraw _ he => exact key _ _ _ he
  | refreshed _ he => exact key _ _ _ he
  | claimed _ he => exact key _ _ _ he
  | refunded _ he => exact key _ _ _ he
  | closed => simp [closing] at h2
  | creatorWithdrew => rfl
  | collected => rfl
  | unsold => rfl

/-- Instructions that create or close an account. -/
def Ix.lifecycle : Ix → Bool
  | .deposit _ | .withdraw _ | .claim _ | .refund _ | .unsold _ | .creatorWithdraw _ | .refresh _
  | .collectFee _ => false
  | _ => true

theorem sizes_quiet {w w' : World} {op : Op} {rc : Receipt} (W : WInv w) (h : step w op = .ok (w', rc))
    (r : RentEnv) (hq : ∀ tx i, op = .ix tx i → i.lifecycle = false) : SameSizes r w w' := by
  have hm := fun a p hp => sizes_mints W h r (a := a) (p := p) hp
  have hadm : w'.merkleRoots = w.merkleRoots ∧ w'.operators = w.operators ∧ w'.metadata = w.metadata ∧
      w'.fixedArgs = w.fixedArgs := by
    cases step_admin h with
    | none h1 h2 h3 h4 => exact ⟨h1, h2, h3, h4⟩
    | fixedNew he => have := hq _ _ he; simp [Ix.lifecycle] at this
    | fixedClose he => have := hq _ _ he; simp [Ix.lifecycle] at this
    | rootNew he => have := hq _ _ he; simp [Ix.lifecycle] at this
    | rootClose he => have := hq _ _ he; simp [Ix.lifecycle] at this
    | operatorNew he => have := hq _ _ he; simp [Ix.lifecycle] at this
    | operatorRevoke he => have := hq _ _ he; simp [Ix.lifecycle] at this
    | metaNew he => have := hq _ _ he; simp [Ix.lifecycle] at this
    | metaClose he => have := hq _ _ he; simp [Ix.lifecycle] at this
  obtain ⟨a1, a2, a3, a4⟩ := hadm
  cases step_effect W h with
  | quiet h1 h2 => exact ⟨fun a => by rw [h1], hm, fun k => by rw [h2], a1, a2, a3, a4⟩
  | create he => have := hq _ _ he; simp [Ix.lifecycle] at this
  | act he hp A h1 h2 hc =>
    rename_i tx i a p p' es'
    refine ⟨fun b => ?_, hm, fun k => ?_, a1, a2, a3, a4⟩
    · rw [h1, upd_apply]
      split
      · next hb =>
        subst hb
        rw [hp]
        have ht := A.terms_eq
        have e1 : p'.baseMint = p.baseMint := (congrArg Presale.baseMint ht :)
        have e2 : p'.quoteMint = p.quoteMint := (congrArg Presale.quoteMint ht :)
        simp only [Option.map_some, e1, e2]
      · rfl
    · rw [h2]
      have := hq _ _ he
      refine A.escrows_some (r := r) ?_ ?_ k
      · cases i <;> simp_all [Ix.lifecycle, creations]
      · cases i <;> simp_all [Ix.lifecycle, closing]

/-- Size of the account at `a` after instruction `i`, from the ledger before. -/
def sizeAfter (r : RentEnv) (w : World) (i : Ix) (a : Addr) : Option Nat :=
  if (closing i).map Prod.fst = some a then none
  else
    match (creations r w i).lookup a with
    | some n => some n
    | none => accountSize r w a

theorem opened_size {w w' : World} (r : RentEnv) {p p' : Presale} {rg : Registry} {key owner : Addr} {i : Nat}
    {cap? : Option Nat} {rc : Receipt} (hp : w.presales key = some p)
    (F : CreateEscrowFacts w p key owner i cap? w' rc rg p') (a : Addr) :
    accountSize r w' a = if a = .escrow key owner i then some ESCROW_SPACE else accountSize r w a := by
  obtain ⟨r0, _, _, _, hp'⟩ := increaseEscrowCount_iff.1 F.update
  have e1 : p'.baseMint = p.baseMint := by rw [hp']; rfl
  have e2 : p'.quoteMint = p.quoteMint := by rw [hp']; rfl
  have hpres : ∀ b, (upd w.presales key (some p') b).map (fun p => (p.baseMint, p.quoteMint)) =
      (w.presales b).map (fun p => (p.baseMint, p.quoteMint)) := by
    intro b
    rw [upd_apply]
    split
    · next hb => rw [hb, hp]; simp only [Option.map_some, e1, e2]
    · rfl
  split
  · next ha =>
    subst ha
    rw [F.post]
    simp only [accountSize, AMap.get?_set, if_pos, Option.map_some]
  · next ha =>
    let w1 : World := { w with presales := upd w.presales key (some p') }
    have S : SameSizes r w w1 := ⟨hpres, fun _ _ _ => ⟨rfl, rfl⟩, fun _ => rfl, rfl, rfl, rfl, rfl⟩
    rw [← S.eq a, F.post]
    cases a with
    | escrow x o j =>
      simp only [accountSize, AMap.get?_set, if_neg ha, w1]
    | _ => rfl

theorem closed_size {w w' : World} (W : WInv w) (r : RentEnv) {x : CloseEscrowAcc} {p p' : Presale} {e : Escrow}
    {tx : Tx} {rc : Receipt} (F : CloseEscrowFacts w tx x w' rc p e p') (a : Addr) :
    accountSize r w' a = if x.escrow = a then none else accountSize r w a := by
  obtain ⟨r0, _, _, _, hp'⟩ := decreaseEscrowCount_iff.1 F.update
  have e1 : p'.baseMint = p.baseMint := by rw [hp']; rfl
  have e2 : p'.quoteMint = p.quoteMint := by rw [hp']; rfl
  have hk : x.escrow = .escrow e.presale e.owner e.registryIndex := (W.core.esc _ (AMap.get?_mem F.escrow)).1
  have hpres : ∀ b, (upd w.presales x.presale (some p') b).map (fun p => (p.baseMint, p.quoteMint)) =
      (w.presales b).map (fun p => (p.baseMint, p.quoteMint)) := by
    intro b
    rw [upd_apply]
    split
    · next hb => rw [hb, F.presale]; simp only [Option.map_some, e1, e2]
    · rfl
  split
  · next ha =>
    rw [← ha, hk, F.post]
    simp only [accountSize, AMap.get?_erase W.core.nodup, hk, if_pos, Option.map_none]
  · next ha =>
    let w1 : World := { w with presales := upd w.presales x.presale (some p') }
    have S : SameSizes r w w1 := ⟨hpres, fun _ _ _ => ⟨rfl, rfl⟩, fun _ => rfl, rfl, rfl, rfl, rfl⟩
    rw [← S.eq a, F.post]
    cases a with
    | escrow y o j =>
      simp only [accountSize, AMap.get?_erase W.core.nodup, if_neg (Ne.symm ha), w1]
    | _ => rfl

theorem init_size {w w' : World} (W : WInv w) (r : RentEnv) {tx : Tx} {x : InitPresaleAcc} {rc : Receipt}
    (h : step w (.ix tx (.initPresale x)) = .ok (w', rc)) (a : Addr) :
    accountSize r w' a = sizeAfter r w (.initPresale x) a := by
  have W' := W.step h
  obtain ⟨bm, qm, p, rem, sup, inc, hooks, rest, tk, cpi, F⟩ := handleInitPresale_iff.1 h
  have hp' : w'.presales x.presaleKey = some p := by rw [F.post]; exact upd_self _ _ _
  have hk := (W'.core.sale _ _ hp').pinv.static.key
  simp only [InitPresaleAcc.presaleKey, Addr.presale.injEq] at hk
  obtain ⟨_, hb, hq⟩ := hk
  obtain ⟨m1, e1, e2, _, e3⟩ := step_sameMint W h _ _ F.baseMint F.supportedBase
  obtain ⟨m2, f1, f2, _, f3⟩ := step_sameMint W h _ _ F.quoteMint F.supportedQuote
  have hm := fun a p hp => sizes_mints W h r (a := a) (p := p) hp
  have hpr : ∀ b, b ≠ x.presaleKey → w'.presales b = w.presales b := by
    intro b hb; rw [F.post]; exact upd_other _ _ hb
  unfold sizeAfter
  simp only [closing, Option.map_none, reduceCtorEq, if_false, creations, F.baseMint, F.quoteMint, Option.map_some,
    Option.getD_some]
  cases a with
  | key n => rfl
  | presaleAuthority => rfl
  | ata o m p => rfl
  | presale b m q =>
    by_cases he : Addr.presale b m q = x.presaleKey
    · rw [he, List.lookup_cons_self]
      rw [show x.presaleKey = Addr.presale x.base x.presaleMint x.quoteTokenMint from rfl] at hp' ⊢
      simp only [accountSize, hp', Option.map_some]
    · have h1 : (Addr.presale b m q == x.presaleKey) = false := by simpa using he
      simp only [List.lookup, h1, accountSize, hpr _ he]
      rfl
  | baseVault y =>
    have h1 : (Addr.baseVault y == x.presaleKey) = false := rfl
    have h3 : (Addr.baseVault y == Addr.quoteVault x.presaleKey) = false := rfl
    by_cases he : y = x.presaleKey
    · have h2 : (Addr.baseVault y == Addr.baseVault x.presaleKey) = true := by simpa using he
      subst he
      simp only [List.lookup, h1, h2, accountSize, hp', Option.bind_some, ← hb, e1, Option.map_some,
        r.vault_grown e2 e3]
    · have h2 : (Addr.baseVault y == Addr.baseVault x.presaleKey) = false := by simpa using he
      simp only [List.lookup, h1, h2, h3, accountSize, hpr _ he]
      cases h0 : w.presales y with
      | none => rfl
      | some p0 => exact (hm y p0 h0).1
  | quoteVault y =>
    have h1 : (Addr.quoteVault y == x.presaleKey) = false := rfl
    have h2 : (Addr.quoteVault y == Addr.baseVault x.presaleKey) = false := rfl
    by_cases he : y = x.presaleKey
    · have h3 : (Addr.quoteVault y == Addr.quoteVault x.presaleKey) = true := by simpa using he
      subst he
      simp only [List.lookup, h1, h2, h3, accountSize, hp', Option.bind_some, ← hq, f1, Option.map_some,
        r.vault_grown f2 f3]
    · have h3 : (Addr.quoteVault y == Addr.quoteVault x.presaleKey) = false := by simpa using he
      simp only [List.lookup, h1, h2, h3, accountSize, hpr _ he]
      cases h0 : w.presales y with
      | none => rfl
      | some p0 => exact (hm y p0 h0).2
  | fixedPriceArgs y => rw [F.post]; rfl
  | escrow y o i => rw [F.post]; rfl
  | merkleRoot y v => rw [F.post]; rfl
  | operator c o => rw [F.post]; rfl
  | serverMetadata y => rw [F.post]; rfl

/-- Exactly which accounts exist after a step, and with which sizes. -/
theorem size_after {w w' : World} (W : WInv w) (r : RentEnv) {op : Op} {rc : Receipt}
    (h : step w op = .ok (w', rc)) (a : Addr) :
    accountSize r w' a =
      match op with
      | .ix _ i => sizeAfter r w i a
      | _ => accountSize r w a := by
  by_cases hq : ∀ tx i, op = .ix tx i → i.lifecycle = false
  · rw [(sizes_quiet W h r hq).eq a]
    cases op with
    | ix tx i =>
      have := hq tx i rfl
      cases i <;> first | rfl | (simp [Ix.lifecycle] at this)
    | _ => rfl
  · obtain ⟨tx, i, rfl, hl⟩ : ∃ tx i, op = .ix tx i ∧ i.lifecycle = true := by
      apply Classical.byContradiction
      intro hn
      apply hq
      intro tx i he
      cases hb : i.lifecycle with
      | false => rfl
      | true => exact absurd ⟨tx, i, he, hb⟩ hn
    show accountSize r w' a = sizeAfter r w i a
    cases i with
    | deposit x => simp [Ix.lifecycle] at hl
    | withdraw x => simp [Ix.lifecycle] at hl
    | claim x => simp [Ix.lifecycle] at hl
    | refund x => simp [Ix.lifecycle] at hl
    | unsold x => simp [Ix.lifecycle] at hl
    | creatorWithdraw x => simp [Ix.lifecycle] at hl
    | refresh x => simp [Ix.lifecycle] at hl
    | collectFee x => simp [Ix.lifecycle] at hl
    | initPresale x => exact init_size W r h a
    | createEscrow x =>
      obtain ⟨p, rg, p', G, F⟩ := handleCreateEscrow_iff.1 h
      rw [opened_size r G.presale F]
      by_cases he : a = .escrow x.presale x.owner 0
      · subst he; simp [sizeAfter, closing, creations, DEFAULT_PERMISSIONLESS_REGISTRY_INDEX]
      · rw [if_neg he]
        have h1 : (a == Addr.escrow x.presale x.owner 0) = false := by simpa using he
        simp [sizeAfter, closing, creations, DEFAULT_PERMISSIONLESS_REGISTRY_INDEX, List.lookup, h1]
    | createEscrowCreator x =>
      obtain ⟨p, o, rg, p', G, F⟩ := handleCreateEscrowCreator_iff.1 h
      rw [opened_size r G.presale F]
      by_cases he : a = .escrow x.presale x.owner x.registryIndex
      · subst he; simp [sizeAfter, closing, creations]
      · rw [if_neg he]
        have h1 : (a == Addr.escrow x.presale x.owner x.registryIndex) = false := by simpa using he
        simp [sizeAfter, closing, creations, List.lookup, h1]
    | createEscrowMerkle x =>
      obtain ⟨p, c, rg, p', G, F⟩ := handleCreateEscrowMerkle_iff.1 h
      rw [opened_size r G.presale F]
      by_cases he : a = .escrow x.presale x.owner x.registryIndex
      · subst he; simp [sizeAfter, closing, creations]
      · rw [if_neg he]
        have h1 : (a == Addr.escrow x.presale x.owner x.registryIndex) = false := by simpa using he
        simp [sizeAfter, closing, creations, List.lookup, h1]
    | closeEscrow x =>
      obtain ⟨p, e, p', F⟩ := handleCloseEscrow_iff.1 h
      rw [closed_size W r F]
      simp [sizeAfter, closing, creations]
    | initFixedArgs x =>
      have F := handleInitFixedArgs_iff.1 h
      rw [F.post]
      cases a with
      | fixedPriceArgs y =>
        by_cases he : y = x.presale
        · subst he; simp [sizeAfter, closing, creations, accountSize, upd_apply]
        · have h1 : (Addr.fixedPriceArgs y == Addr.fixedPriceArgs x.presale) = false := by simpa using he
          simp [sizeAfter, closing, creations, accountSize, upd_apply, he, List.lookup, h1]
      | _ => rfl
    | createMerkle x =>
      obtain ⟨p, F⟩ := handleCreateMerkle_iff.1 h
      rw [F.post]
      cases a with
      | merkleRoot y v =>
        by_cases he : Addr.merkleRoot y v = Addr.merkleRoot x.presale x.version
        · rw [he]; simp [sizeAfter, closing, creations, accountSize, upd_apply]
        · have h1 : (Addr.merkleRoot y v == Addr.merkleRoot x.presale x.version) = false := by simpa using he
          simp only [sizeAfter, closing, creations, accountSize, upd_apply, if_neg he, List.lookup, h1]
          rfl
      | _ => rfl
    | createOperator x =>
      have F := handleCreateOperator_iff.1 h
      rw [F.post]
      cases a with
      | operator y v =>
        by_cases he : Addr.operator y v = Addr.operator x.creator x.operatorOwner
        · rw [he]; simp [sizeAfter, closing, creations, accountSize, upd_apply]
        · have h1 : (Addr.operator y v == Addr.operator x.creator x.operatorOwner) = false := by simpa using he
          simp only [sizeAfter, closing, creations, accountSize, upd_apply, if_neg he, List.lookup, h1]
          rfl
      | _ => rfl
    | createMetadata x =>
      obtain ⟨p, F⟩ := handleCreateMetadata_iff.1 h
      rw [F.post]
      cases a with
      | serverMetadata y =>
        by_cases he : Addr.serverMetadata y = Addr.serverMetadata x.presale
        · rw [he]; simp [sizeAfter, closing, creations, accountSize, upd_apply]
        · have h1 : (Addr.serverMetadata y == Addr.serverMetadata x.presale) = false := by simpa using he
          simp only [sizeAfter, closing, creations, accountSize, upd_apply, if_neg he, List.lookup, h1]
          rfl
      | _ => rfl
    | closeFixedArgs x =>
      obtain ⟨c, F⟩ := handleCloseFixedArgs_iff.1 h
      have hk := (W.aux.fixed _ _ F.account).1
      rw [F.post]
      simp only [sizeAfter, closing, creations, Option.map_some, Option.some.injEq, hk, List.lookup]
      cases a with
      | fixedPriceArgs y =>
        simp only [accountSize, upd_apply, eq_comm (a := Addr.fixedPriceArgs c.presale)]
        split <;> rfl
      | _ => rfl
    | closeMerkle x =>
      obtain ⟨p, c, F⟩ := handleCloseMerkle_iff.1 h
      have hk := (W.aux.merkle _ _ F.config).1
      rw [F.post]
      simp only [sizeAfter, closing, creations, Option.map_some, Option.some.injEq, hk, List.lookup]
      cases a with
      | merkleRoot y v =>
        simp only [accountSize, upd_apply, eq_comm (a := Addr.merkleRoot c.presale c.version)]
        split <;> rfl
      | _ => rfl
    | revokeOperator x =>
      obtain ⟨o, F⟩ := handleRevokeOperator_iff.1 h
      have hk := W.aux.ops _ _ F.account
      rw [F.post]
      simp only [sizeAfter, closing, creations, Option.map_some, Option.some.injEq, hk, List.lookup]
      cases a with
      | operator y v =>
        simp only [accountSize, upd_apply, eq_comm (a := Addr.operator o.creator o.owner)]
        split <;> rfl
      | _ => rfl
    | closeMetadata x =>
      obtain ⟨p, m, F⟩ := handleCloseMetadata_iff.1 h
      have hk := (W.aux.metas _ _ F.account).1
      rw [F.post]
      simp only [sizeAfter, closing, creations, Option.map_some, Option.some.injEq, hk, List.lookup]
      cases a with
      | serverMetadata y =>
        simp only [accountSize, upd_apply, eq_comm (a := Addr.serverMetadata m.presale)]
        split <;> rfl
      | _ => rfl

/-! ## Lamports -/

theorem moveLam_iff {lam l : Addr → Nat} {s d : Addr} {n : Nat} :
    moveLam lam s d n = .ok l ↔ s ≠ d ∧ n ≤ lam s ∧ l = upd (upd lam s (lam s - n)) d (lam d + n) := by
  simp only [moveLam, bind_eq_ok, require_eq_ok, pure_eq_ok, exists_const]
  exact ⟨fun ⟨a, b, c⟩ => ⟨a, b, c.symm⟩, fun ⟨a, b, c⟩ => ⟨a, b, c.symm⟩⟩

/-- Rent still due for a list of new accounts. -/
def rentDue (r : RentEnv) (lam : Addr → Nat) (new : List (Addr × Nat)) : Nat :=
  (new.map fun x => r.minimum x.2 - lam x.1).sum

theorem rentDue_congr {r : RentEnv} {l l' : Addr → Nat} {new : List (Addr × Nat)}
    (h : ∀ x ∈ new, l' x.1 = l x.1) : rentDue r l' new = rentDue r l new := by
  unfold rentDue
  congr 1
  apply List.map_congr_left
  intro x hx
  rw [h x hx]

theorem payRent_iff {r : RentEnv} {p : Addr} {new : List (Addr × Nat)} {lam l : Addr → Nat}
    (hn : (new.map Prod.fst).Nodup) (hp : p ∉ new.map Prod.fst) :
    payRent r p new lam = .ok l ↔ rentDue r lam new ≤ lam p ∧
      l = fun a => if a = p then lam p - rentDue r lam new else
        match new.lookup a with
        | some n => max (lam a) (r.minimum n)
        | none => lam a := by
  induction new generalizing lam with
  | nil =>
    simp only [payRent, ok_eq_ok, rentDue, List.map_nil, List.sum_nil, Nat.zero_le, true_and, List.lookup,
      Nat.sub_zero]
    have : (fun a => if a = p then lam p else lam a) = lam := by
      funext a; split
      · next h => rw [h]
      · rfl
    rw [this]
    exact eq_comm
  | cons x new ih =>
    obtain ⟨a, n⟩ := x
    simp only [List.map_cons, List.nodup_cons] at hn
    simp only [List.map_cons, List.mem_cons, not_or] at hp
    simp only [payRent, bind_eq_ok, moveLam_iff]
    have key : ∀ lam1, lam1 = upd (upd lam p (lam p - (r.minimum n - lam a))) a (lam a + (r.minimum n - lam a)) →
        rentDue r lam1 new = rentDue r lam new := by
      intro lam1 h1
      apply rentDue_congr
      intro y hy
      have h2 : y.1 ≠ a := by rintro rfl; exact hn.1 (List.mem_map_of_mem hy)
      have h3 : y.1 ≠ p := by rintro rfl; exact hp.2 (List.mem_map_of_mem hy)
      rw [h1, upd_other _ _ h2, upd_other _ _ h3]
    have hdue : rentDue r lam ((a, n) :: new) = (r.minimum n - lam a) + rentDue r lam new := by
      simp [rentDue]
    constructor
    · rintro ⟨lam1, ⟨_, h2, h3⟩, h4⟩
      rw [ih hn.2 hp.2, key lam1 h3] at h4
      have hp1 : lam1 p = lam p - (r.minimum n - lam a) := by
        rw [h3, upd_other _ _ hp.1, upd_self]
      rw [hp1] at h4
      refine ⟨by rw [hdue]; omega, ?_⟩
      rw [h4.2]
      funext b
      by_cases hb : b = p
      · rw [if_pos hb, if_pos hb, hdue]; omega
      · rw [if_neg hb, if_neg hb]
        by_cases hba : b = a
        · subst hba
          have : new.lookup b = none := by
            rw [List.lookup_eq_none_iff]
            intro y hy
            have : y.1 ≠ b := by rintro rfl; exact hn.1 (List.mem_map_of_mem hy)
            simpa using Ne.symm this
          rw [this, List.lookup_cons_self]
          simp only [h3, upd_self]
          omega
        · have : (b == a) = false := by simpa using hba
          simp only [List.lookup, this]
          rw [h3, upd_other _ _ hba, upd_other _ _ hb]
    · rintro ⟨h1, h2⟩
      rw [hdue] at h1
      refine ⟨_, ⟨hp.1, by omega, rfl⟩, ?_⟩
      rw [ih hn.2 hp.2, key _ rfl]
      have hp1 : upd (upd lam p (lam p - (r.minimum n - lam a))) a (lam a + (r.minimum n - lam a)) p =
          lam p - (r.minimum n - lam a) := by rw [upd_other _ _ hp.1, upd_self]
      rw [hp1]
      refine ⟨by omega, ?_⟩
      rw [h2]
      funext b
      by_cases hb : b = p
      · rw [if_pos hb, if_pos hb, hdue]; omega
      · rw [if_neg hb, if_neg hb]
        by_cases hba : b = a
        · subst hba
          have : new.lookup b = none := by
            rw [List.lookup_eq_none_iff]
            intro y hy
            have : y.1 ≠ b := by rintro rfl; exact hn.1 (List.mem_map_of_mem hy)
            simpa using Ne.symm this
          rw [this, List.lookup_cons_self]
          simp only [upd_self]
          omega
        · have : (b == a) = false := by simpa using hba
          simp only [List.lookup, this]
          rw [upd_other _ _ hba, upd_other _ _ hb]

theorem creations_shape (r : RentEnv) (w : World) (i : Ix) :
    ((creations r w i).map Prod.fst).Nodup ∧ ∀ a, a.isKey = true → a ∉ (creations r w i).map Prod.fst := by
  cases i <;> simp [creations, InitPresaleAcc.presaleKey] <;> intro a ha <;>
    (try refine ⟨?_, ?_, ?_⟩) <;> (rintro rfl; simp [Addr.isKey] at ha)

theorem signer_isKey {tx : Tx} {a : Addr} (h : tx.signed a = true) : a.isKey = true := by
  unfold Tx.signed at h
  exact (Bool.and_eq_true_iff.1 h).2

theorem payer_signed {w w' : World} {tx : Tx} {i : Ix} {rc : Receipt} (h : step w (.ix tx i) = .ok (w', rc))
    {p : Addr} (hp : rentPayer i = some p) : tx.signed p = true := by
  cases i <;> simp only [rentPayer, Option.some.injEq, reduceCtorEq] at hp <;> subst hp
  case initFixedArgs x => exact (handleInitFixedArgs_iff.1 h).signed
  case initPresale x =>
    obtain ⟨_, _, _, _, _, _, _, _, _, _, F⟩ := handleInitPresale_iff.1 h
    exact F.signed.2
  case createMerkle x => obtain ⟨_, F⟩ := handleCreateMerkle_iff.1 h; exact F.signed
  case createEscrow x => obtain ⟨_, _, _, F, _⟩ := handleCreateEscrow_iff.1 h; exact F.signed
  case createEscrowCreator x =>
    obtain ⟨_, _, _, _, F, _⟩ := handleCreateEscrowCreator_iff.1 h; exact F.signed.2
  case createEscrowMerkle x => obtain ⟨_, _, _, _, F, _⟩ := handleCreateEscrowMerkle_iff.1 h; exact F.signed
  case createOperator x => exact (handleCreateOperator_iff.1 h).signed
  case createMetadata x => obtain ⟨_, F⟩ := handleCreateMetadata_iff.1 h; exact F.signed

theorem creations_fresh {w w' : World} {tx : Tx} {i : Ix} {rc : Receipt} (W : WInv w) (r : RentEnv)
    (h : step w (.ix tx i) = .ok (w', rc)) {a : Addr} {n : Nat} (ha : (creations r w i).lookup a = some n) :
    accountSize r w a = none := by
  have hmem : ∀ {a0 : Addr} {n0 : Nat}, [(a0, n0)].lookup a = some n → a = a0 := by
    intro a0 n0 h0
    by_cases he : a = a0
    · exact he
    · have : (a == a0) = false := by simpa using he
      simp [List.lookup, this] at h0
  cases i <;> simp only [creations, reduceCtorEq, List.lookup_nil] at ha
  case initFixedArgs x =>
    obtain rfl := hmem ha
    simp only [accountSize, (handleInitFixedArgs_iff.1 h).fresh, Option.map_none]
  case initPresale x =>
    obtain ⟨_, _, _, _, _, _, _, _, _, _, F⟩ := handleInitPresale_iff.1 h
    have hf := F.fresh.1
    have : a = x.presaleKey ∨ a = .baseVault x.presaleKey ∨ a = .quoteVault x.presaleKey := by
      by_cases h1 : a = x.presaleKey
      · exact .inl h1
      · by_cases h2 : a = .baseVault x.presaleKey
        · exact .inr (.inl h2)
        · by_cases h3 : a = .quoteVault x.presaleKey
          · exact .inr (.inr h3)
          · have e1 : (a == x.presaleKey) = false := by simpa using h1
            have e2 : (a == Addr.baseVault x.presaleKey) = false := by simpa using h2
            have e3 : (a == Addr.quoteVault x.presaleKey) = false := by simpa using h3
            simp [List.lookup, e1, e2, e3] at ha
    rcases this with rfl | rfl | rfl
    · rw [show x.presaleKey = Addr.presale x.base x.presaleMint x.quoteTokenMint from rfl] at hf ⊢
      simp only [accountSize, hf, Option.map_none]
    · simp only [accountSize, hf, Option.bind_none]
    · simp only [accountSize, hf, Option.bind_none]
  case createMerkle x =>
    obtain rfl := hmem ha
    obtain ⟨_, F⟩ := handleCreateMerkle_iff.1 h
    simp only [accountSize, F.fresh, Option.map_none]
  case createEscrow x =>
    obtain rfl := hmem ha
    obtain ⟨_, _, _, _, F⟩ := handleCreateEscrow_iff.1 h
    have := F.fresh
    simp only [accountSize, DEFAULT_PERMISSIONLESS_REGISTRY_INDEX, this, Option.map_none]
  case createEscrowCreator x =>
    obtain rfl := hmem ha
    obtain ⟨_, _, _, _, _, F⟩ := handleCreateEscrowCreator_iff.1 h
    simp only [accountSize, F.fresh, Option.map_none]
  case createEscrowMerkle x =>
    obtain rfl := hmem ha
    obtain ⟨_, _, _, _, _, F⟩ := handleCreateEscrowMerkle_iff.1 h
    simp only [accountSize, F.fresh, Option.map_none]
  case createOperator x =>
    obtain rfl := hmem ha
    simp only [accountSize, (handleCreateOperator_iff.1 h).fresh, Option.map_none]
  case createMetadata x =>
    obtain rfl := hmem ha
    obtain ⟨_, F⟩ := handleCreateMetadata_iff.1 h
    simp only [accountSize, F.fresh, Option.map_none]

theorem closing_present {w w' : World} {tx : Tx} {i : Ix} {rc : Receipt} (W : WInv w) (r : RentEnv)
    (h : step w (.ix tx i) = .ok (w', rc)) {a d : Addr} (ha : closing i = some (a, d)) :
    a ≠ d ∧ a.isKey = false ∧ ∃ n, accountSize r w a = some n := by
  have hsk : ∀ {s : Addr}, tx.signed s = true → ∀ {b : Addr}, b.isKey = false → b ≠ s := by
    rintro s hs b hb rfl
    rw [signer_isKey hs] at hb; cases hb
  cases i <;> simp only [closing, Option.some.injEq, reduceCtorEq, Prod.mk.injEq] at ha <;>
    obtain ⟨rfl, rfl⟩ := ha
  case closeFixedArgs x =>
    obtain ⟨c, F⟩ := handleCloseFixedArgs_iff.1 h
    have hk := (W.aux.fixed _ _ F.account).1
    have hF := F.account
    rw [hk] at hF ⊢
    exact ⟨hsk F.signed rfl, rfl, _, by simp only [accountSize, hF, Option.map_some]; rfl⟩
  case closeMerkle x =>
    obtain ⟨p, c, F⟩ := handleCloseMerkle_iff.1 h
    have hk := (W.aux.merkle _ _ F.config).1
    refine ⟨Ne.symm F.receiver, ?_⟩
    have hF := F.config
    rw [hk] at hF ⊢
    exact ⟨rfl, _, by simp only [accountSize, hF, Option.map_some]; rfl⟩
  case revokeOperator x =>
    obtain ⟨o, F⟩ := handleRevokeOperator_iff.1 h
    have hk := W.aux.ops _ _ F.account
    have hF := F.account
    rw [hk] at hF ⊢
    exact ⟨hsk F.signed rfl, rfl, _, by simp only [accountSize, hF, Option.map_some]; rfl⟩
  case closeEscrow x =>
    obtain ⟨p, e, p', F⟩ := handleCloseEscrow_iff.1 h
    have hk : x.escrow = .escrow e.presale e.owner e.registryIndex := (W.core.esc _ (AMap.get?_mem F.escrow)).1
    refine ⟨Ne.symm F.receiver, ?_⟩
    have hF := F.escrow
    rw [hk] at hF ⊢
    exact ⟨rfl, _, by simp only [accountSize, hF, Option.map_some]; rfl⟩
  case closeMetadata x =>
    obtain ⟨p, m, F⟩ := handleCloseMetadata_iff.1 h
    have hk := (W.aux.metas _ _ F.account).1
    refine ⟨Ne.symm F.receiver, ?_⟩
    have hF := F.account
    rw [hk] at hF ⊢
    exact ⟨rfl, _, by simp only [accountSize, hF, Option.map_some]; rfl⟩

end Verif
