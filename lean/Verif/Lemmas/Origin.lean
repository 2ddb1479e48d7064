import Verif.Lemmas.Evolve
import Mathlib.Data.List.Induction
/-!
# Where presales and escrows come from
-/

namespace Verif
open Spec

theorem run_snoc (w : World) (ops : List Op) (op : Op) : run w (ops ++ [op]) = apply (run w ops) op := by
  rw [run_append]; rfl

theorem apply_ok {w w' : World} {op : Op} {rc : Receipt} (h : step w op = .ok (w', rc)) : apply w op = w' := by
  unfold apply; rw [h]

theorem apply_cases (w : World) (op : Op) : apply w op = w ∨ ∃ rc, step w op = .ok (apply w op, rc) := by
  unfold apply
  cases h : step w op with
  | error e => exact .inl rfl
  | ok x => exact .inr ⟨x.2, rfl⟩

/-- A presale that appears was created by this very step. -/
theorem Effect.presale_new {w w' : World} {op : Op} (E : Effect w op w') {a : Addr} {p : Presale}
    (h0 : w.presales a = none) (h1 : w'.presales a = some p) :
    ∃ tx x, op = .ix tx (.initPresale x) ∧ x.presaleKey = a := by
  cases E with
  | quiet h => rw [h, h0] at h1; cases h1
  | @create tx x q h2 h3 h4 h5 =>
    rw [h5] at h1
    by_cases ha : a = x.presaleKey
    · exact ⟨tx, x, h2, ha.symm⟩
    · rw [upd_other _ _ ha, h0] at h1; cases h1
  | @act tx i b q q' es' h2 h3 h4 h5 =>
    rw [h5] at h1
    by_cases ha : a = b
    · subst ha; rw [h0] at h3; cases h3
    · rw [upd_other _ _ ha, h0] at h1; cases h1

/-- Every presale was created by an initialisation in the history. -/
theorem presale_origin {w0 : World} (G : Genesis w0) (ops : List Op) {a : Addr} {p : Presale}
    (hp : (run w0 ops).presales a = some p) :
    ∃ pre tx x post rc, ops = pre ++ Op.ix tx (.initPresale x) :: post ∧ x.presaleKey = a ∧
      step (run w0 pre) (.ix tx (.initPresale x)) = .ok (run w0 (pre ++ [.ix tx (.initPresale x)]), rc) := by
  induction ops using List.reverseRecOn generalizing p with
  | nil => rw [show run w0 [] = w0 from rfl, G.presales a] at hp; cases hp
  | append_singleton ops op ih =>
    cases h : (run w0 ops).presales a with
    | some q =>
      obtain ⟨pre, tx, x, post, rc, h1, h2, h3⟩ := ih h
      exact ⟨pre, tx, x, post ++ [op], rc, by rw [h1]; simp, h2, h3⟩
    | none =>
      rw [run_snoc] at hp
      rcases apply_cases (run w0 ops) op with h1 | ⟨rc, h1⟩
      · rw [h1, h] at hp; cases hp
      · obtain ⟨tx, x, rfl, h3⟩ := (step_effect (G.winv.run ops) h1).presale_new h hp
        exact ⟨ops, tx, x, [], rc, rfl, h3, by rw [run_snoc]; exact h1⟩

theorem SameIdentity.refl (e : Escrow) : SameIdentity e e := ⟨rfl, rfl, rfl, rfl, rfl⟩

theorem SameIdentity.trans {e e' e'' : Escrow} (h : SameIdentity e e') (h' : SameIdentity e' e'') :
    SameIdentity e e'' :=
  ⟨h'.presale.trans h.presale, h'.owner.trans h.owner, h'.index.trans h.index, h'.cap.trans h.cap,
    h'.created.trans h.created⟩

theorem Effect.identity {w w' : World} {op : Op} (W : WInv w) (E : Effect w op w') {k : Addr} {e e' : Escrow}
    (hk : w.escrows.get? k = some e) (hk' : w'.escrows.get? k = some e') : SameIdentity e e' := by
  rcases E.escrow W hk with h | ⟨tx, i, p, _, _, _, h⟩
  · rw [h] at hk'; cases hk'; exact .refl _
  · exact h.identity e' hk'

/-- The ways of opening an escrow: by anybody in a permissionless sale, by an operator, with a merkle
proof. -/
inductive Opening (w : World) (p : Presale) (a owner : Addr) (idx cap : Nat) (tx : Tx) : Ix → Prop
  | anybody {x : CreateEscrowAcc} {r : Registry} (here : x.presale = a) (owner_ : x.owner = owner)
      (index : idx = 0) (registry : p.registries[0]? = some r) (cap_ : cap = r.buyerMaximumDepositCap)
      (facts : CreateOpenFacts w tx x p) : Opening w p a owner idx cap tx (.createEscrow x)
  | operator {x : CreateEscrowCreatorAcc} {o : Operator} (here : x.presale = a) (owner_ : x.owner = owner)
      (index : x.registryIndex = idx) (cap_ : x.depositCap = cap) (pos : 0 < cap)
      (facts : CreateByOperatorFacts w tx x p o) : Opening w p a owner idx cap tx (.createEscrowCreator x)
  | proof {x : CreateEscrowMerkleAcc} {c : MerkleRootConfig} (here : x.presale = a) (owner_ : x.owner = owner)
      (index : x.registryIndex = idx) (cap_ : x.depositCap = cap) (pos : 0 < cap)
      (facts : CreateByProofFacts w tx x p c) : Opening w p a owner idx cap tx (.createEscrowMerkle x)

theorem opening_new {w w' : World} {p p' : Presale} {a owner k : Addr} {i : Nat} {cap? : Option Nat} {rc : Receipt}
    {r : Registry} {e : Escrow} (F : CreateEscrowFacts w p a owner i cap? w' rc r p')
    (hk : w.escrows.get? k = none) (hk' : w'.escrows.get? k = some e) :
    k = .escrow a owner i ∧
      e = Escrow.initialized a owner w.clock.toNat i (cap?.getD r.buyerMaximumDepositCap) := by
  rw [F.post] at hk'
  have : (w.escrows.set (.escrow a owner i) (Escrow.initialized a owner w.clock.toNat i
    (cap?.getD r.buyerMaximumDepositCap))).get? k = some e := hk'
  rw [AMap.get?_set] at this
  split at this
  · next h => cases this; exact ⟨h, rfl⟩
  · rw [hk] at this; cases this

/-- An escrow that appears: how it was opened. -/
theorem step_opening {w w' : World} (W : WInv w) {op : Op} {rc : Receipt} (hs : step w op = .ok (w', rc))
    {k : Addr} {e : Escrow} (hk : w.escrows.get? k = none) (hk' : w'.escrows.get? k = some e) :
    ∃ tx i p, op = .ix tx i ∧ w.presales e.presale = some p ∧ Ongoing p w.clock ∧ 0 ≤ w.clock ∧
      k = .escrow e.presale e.owner e.registryIndex ∧
      e = Escrow.initialized e.presale e.owner w.clock.toNat e.registryIndex e.depositMaxCap ∧
      Opening w p e.presale e.owner e.registryIndex e.depositMaxCap tx i := by
  have E := step_effect W hs
  have hon : ∀ {p : Presale}, 0 ≤ w.clock → p.getPresaleProgress w.clock.toNat = .ongoing → Ongoing p w.clock := by
    intro p h0 h
    have := progress_ongoing.1 h
    unfold Ongoing
    omega
  cases E with
  | quiet _ h => rw [h, hk] at hk'; cases hk'
  | create _ _ _ _ h => rw [h, hk] at hk'; cases hk'
  | @act tx i b q q' es' h1 h2 h3 h4 h5 h6 =>
    rw [h5] at hk'
    have hop := (h3.escrow_new W.core.nodup hk hk').1
    rw [← h5] at hk'
    subst h1
    refine ⟨tx, i, ?_⟩
    cases i with
    | createEscrow x =>
      obtain ⟨p, r, p', F, G⟩ := handleCreateEscrow_iff.1 hs
      obtain ⟨hk1, he⟩ := opening_new G hk hk'
      subst he
      have hr := getRegistry_eq_ok.1 G.registry
      exact ⟨p, rfl, F.presale, hon G.clock G.progress, G.clock, hk1, rfl, .anybody rfl rfl rfl hr rfl F⟩
    | createEscrowCreator x =>
      obtain ⟨p, o, r, p', F, G⟩ := handleCreateEscrowCreator_iff.1 hs
      obtain ⟨hk1, he⟩ := opening_new G hk hk'
      subst he
      exact ⟨p, rfl, F.presale, hon G.clock G.progress, G.clock, hk1, rfl,
        .operator rfl rfl rfl rfl (G.cap _ rfl).1 F⟩
    | createEscrowMerkle x =>
      obtain ⟨p, o, r, p', F, G⟩ := handleCreateEscrowMerkle_iff.1 hs
      obtain ⟨hk1, he⟩ := opening_new G hk hk'
      subst he
      exact ⟨p, rfl, F.presale, hon G.clock G.progress, G.clock, hk1, rfl,
        .proof rfl rfl rfl rfl (G.cap _ rfl).1 F⟩
    | _ => exact hop.elim

/-- Every open escrow was opened at some point of the history, and kept its identity and cap ever since. -/
theorem escrow_origin {w0 : World} (G : Genesis w0) (ops : List Op) {k : Addr} {e : Escrow}
    (he : (run w0 ops).escrows.get? k = some e) :
    ∃ pre op post rc e0, ops = pre ++ op :: post ∧
      step (run w0 pre) op = .ok (run w0 (pre ++ [op]), rc) ∧ (run w0 pre).escrows.get? k = none ∧
      (run w0 (pre ++ [op])).escrows.get? k = some e0 ∧ SameIdentity e0 e ∧
      ∀ mid rest, post = mid ++ rest →
        ∃ e', (run w0 (pre ++ op :: mid)).escrows.get? k = some e' ∧ SameIdentity e0 e' := by
  induction ops using List.reverseRecOn generalizing e with
  | nil => rw [show run w0 [] = w0 from rfl, G.escrows] at he; cases he
  | append_singleton ops op ih =>
    have W := G.winv.run ops
    cases h : (run w0 ops).escrows.get? k with
    | some e1 =>
      obtain ⟨pre, op', post, rc, e0, h1, h2, h3, h4, h5, h6⟩ := ih h
      have hid : SameIdentity e1 e := by
        rw [run_snoc] at he
        rcases apply_cases (run w0 ops) op with hc | ⟨rc', hc⟩
        · rw [hc, h] at he; cases he; exact .refl _
        · exact (step_effect W hc).identity W h he
      refine ⟨pre, op', post ++ [op], rc, e0, by rw [h1]; simp, h2, h3, h4, h5.trans hid, ?_⟩
      intro mid rest hmr
      rcases List.eq_nil_or_concat rest with rfl | ⟨rest', x, rfl⟩
      · rw [List.append_nil] at hmr
        subst hmr
        refine ⟨e, ?_, h5.trans hid⟩
        rw [show pre ++ op' :: (post ++ [op]) = ops ++ [op] by rw [h1]; simp]
        exact he
      · apply h6 mid rest'
        rw [List.concat_eq_append, ← List.append_assoc] at hmr
        exact (List.append_inj' hmr rfl).1
    | none =>
      rw [run_snoc] at he
      rcases apply_cases (run w0 ops) op with h1 | ⟨rc, h1⟩
      · rw [h1, h] at he; cases he
      · refine ⟨ops, op, [], rc, e, rfl, by rw [run_snoc]; exact h1, h, by rw [run_snoc]; exact he, .refl _, ?_⟩
        intro mid rest hmr
        obtain ⟨rfl, rfl⟩ := List.append_eq_nil_iff.1 hmr.symm
        exact ⟨e, by rw [show ops ++ op :: [] = ops ++ [op] from rfl, run_snoc]; exact he, .refl _⟩

end Verif
