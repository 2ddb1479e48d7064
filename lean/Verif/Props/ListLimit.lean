import Verif.Props.Admin
import Verif.Props.Ledger
import Verif.Lemmas.MachineSale
import Verif.Lemmas.Conserve
import Verif.Props.Squat
/-!
# C101: the list limits the raise

In a whitelisted sale every escrow comes with a cap, from a row of a published list or from an operator
(process_create_permissioned_escrow_with_merkle_proof.rs, process_create_permissioned_escrow_with_creator.rs). A row
opens one escrow at a time, and one that is closed while the sale runs is empty, so the caps of the rows bound what the
sale takes. This
holds of the books at all times, also when buyers claimed, took refunds and closed their escrows.
-/

namespace Verif
open Spec

/-- A row of a whitelist: who may open an escrow, in which registry, with what cap. The buyer is named by an address
or, in the published lists, by the bytes of a key. -/
structure Spec.Row (κ : Type) where
  owner : κ
  registry : Nat
  cap : Nat
  deriving DecidableEq, Repr

/-- The row an escrow belongs to; `kb` is how the list names an address. -/
def Spec.rowOf {κ : Type} (kb : Addr → κ) (e : Escrow) : Row κ := ⟨kb e.owner, e.registryIndex, e.depositMaxCap⟩

/-- The rows of registry `i`. -/
def Spec.rowsFor {κ : Type} (rows : List (Row κ)) (i : Nat) : List (Row κ) := rows.filter fun r => decide (r.registry = i)

/-- What rows allow in total. -/
def Spec.capSum {κ : Type} (rows : List (Row κ)) : Nat := (rows.map Row.cap).sum

theorem sum_subset {α : Type} [DecidableEq α] (f : α → Nat) {xs ys : List α} (hn : xs.Nodup) (hs : xs ⊆ ys) :
    (xs.map f).sum ≤ (ys.map f).sum := by
  induction xs generalizing ys with
  | nil => exact Nat.zero_le _
  | cons x xs ih =>
    have hx : x ∈ ys := hs List.mem_cons_self
    obtain ⟨h1, h2⟩ := List.nodup_cons.1 hn
    have hsub : xs ⊆ ys.erase x := by
      intro y hy
      have hne : y ≠ x := by rintro rfl; exact h1 hy
      exact (List.mem_erase_of_ne hne).2 (hs (List.mem_cons_of_mem _ hy))
    have h3 := ih h2 hsub
    have h4 := ((List.perm_cons_erase hx).map f).sum_nat
    simp only [List.map_cons, List.sum_cons] at h4 ⊢
    omega

/-- The escrows of a registry, one by one. -/
def regEscrows (es : AMap Addr Escrow) (a : Addr) (i : Nat) : List Escrow :=
  (es.filter fun x => decide (x.2.presale = a ∧ x.2.registryIndex = i)).map Prod.snd

theorem escrowSum_list (es : AMap Addr Escrow) (a : Addr) (i : Nat) (f : Escrow → Nat) :
    escrowSum es a i f = ((regEscrows es a i).map f).sum := by
  unfold escrowSum regEscrows
  induction es with
  | nil => rfl
  | cons x es ih =>
    by_cases h : x.2.presale = a ∧ x.2.registryIndex = i
    · rw [List.filter_cons_of_pos (by simpa using h)]
      simp only [List.map_cons, List.sum_cons]
      rw [← ih, if_pos h]
    · rw [List.filter_cons_of_neg (by simpa using h)]
      simp only [List.map_cons, List.sum_cons]
      rw [← ih, if_neg h, Nat.zero_add]

/-- If every escrow of a sale is listed, a registry holds no more than its rows allow. -/
theorem listed_sum {κ : Type} [DecidableEq κ] {w : World} (R : Reachable w) {a : Addr} {kb : Addr → κ} {rows : List (Row κ)}
    (listed : ∀ k e, w.escrows.get? k = some e → e.presale = a → rowOf kb e ∈ rows)
    (apart : ∀ k1 e1 k2 e2, w.escrows.get? k1 = some e1 → w.escrows.get? k2 = some e2 → e1.presale = a →
      e2.presale = a → kb e1.owner = kb e2.owner → e1.owner = e2.owner) (i : Nat) :
    escrowSum w.escrows a i Escrow.totalDeposit ≤ capSum (rowsFor rows i) ∧
    escrowSum w.escrows a i (fun _ => 1) ≤ (rowsFor rows i).length := by
  have hmem : ∀ e ∈ regEscrows w.escrows a i, ∃ k, w.escrows.get? k = some e ∧ e.presale = a ∧ e.registryIndex = i := by
    intro e he
    unfold regEscrows at he
    obtain ⟨x, hx, rfl⟩ := List.mem_map.1 he
    obtain ⟨h1, h2⟩ := List.mem_filter.1 hx
    have h2 := of_decide_eq_true h2
    exact ⟨x.1, AMap.mem_get? R.winv.core.nodup h1, h2.1, h2.2⟩
  have hnod : ((regEscrows w.escrows a i).map (rowOf kb)).Nodup := by
    unfold regEscrows
    rw [List.map_map]
    have hk : (w.escrows.map Prod.fst).Nodup := R.winv.core.nodup
    have hpair := List.pairwise_map.1 hk
    refine List.pairwise_map.2 ?_
    have hf := hpair.filter (fun x => decide (x.2.presale = a ∧ x.2.registryIndex = i))
    refine hf.imp_of_mem ?_
    intro x y hx hy hne heq
    obtain ⟨hx1, hx2⟩ := List.mem_filter.1 hx
    obtain ⟨hy1, hy2⟩ := List.mem_filter.1 hy
    have hx2 := of_decide_eq_true hx2
    have hy2 := of_decide_eq_true hy2
    have gx := AMap.mem_get? R.winv.core.nodup hx1
    have gy := AMap.mem_get? R.winv.core.nodup hy1
    have ho : kb x.2.owner = kb y.2.owner := congrArg Row.owner heq
    exact hne (C41_unique R gx gy (hx2.1.trans hy2.1.symm) (apart _ _ _ _ gx gy hx2.1 hy2.1 ho)
      (hx2.2.trans hy2.2.symm)).1
  have hsub : (regEscrows w.escrows a i).map (rowOf kb) ⊆ rowsFor rows i := by
    intro r hr
    obtain ⟨e, he, rfl⟩ := List.mem_map.1 hr
    obtain ⟨k, h1, h2, h3⟩ := hmem e he
    exact List.mem_filter.2 ⟨listed k e h1 h2, decide_eq_true h3⟩
  have h1 := sum_subset Row.cap hnod hsub
  have h2 := sum_subset (fun _ => 1) hnod hsub
  rw [escrowSum_list, escrowSum_list]
  rw [List.map_map] at h1 h2
  constructor
  · refine Nat.le_trans ?_ h1
    apply List.sum_le_sum
    intro e he
    obtain ⟨k, g1, g2, g3⟩ := hmem e he
    obtain ⟨_, _, _, _, _, _, h, _⟩ := C05_buyer_limits R g1
    exact h
  · have e : ((fun _ => 1) ∘ rowOf kb : Escrow → Nat) = fun _ => 1 := rfl
    rw [e] at h2
    refine Nat.le_trans h2 (Nat.le_of_eq ?_)
    simp

/-- As long as a sale is open before a step, its registries hold what its escrows hold after it, even if the step
ends the sale. -/
theorem step_open_sum {w w' : World} (R : Reachable w) {op : Op} {rc : Receipt} (hs : step w op = .ok (w', rc))
    {a : Addr} {p p' : Presale} (hp : w.presales a = some p) (ho : ¬ Over p w.clock) (hp' : w'.presales a = some p')
    {i : Nat} {r' : Registry} (hr : p'.registries[i]? = some r') :
    r'.totalDeposit = escrowSum w'.escrows a i Escrow.totalDeposit := by
  have R' := R.step hs
  have after : ¬ Over p' w'.clock → r'.totalDeposit = escrowSum w'.escrows a i Escrow.totalDeposit := fun h =>
    (((C03_totals R' hp').2.2.2 i r' hr).2.2.2 h).1
  cases step_effect R.winv hs with
  | quiet h1 h2 h3 =>
    rw [h1, hp] at hp'; cases hp'
    rw [h2]
    exact (((C03_totals R hp).2.2.2 i r' hr).2.2.2 ho).1
  | @create tx x q h1 h2 h3 h4 h5 h6 =>
    have hne : a ≠ x.presaleKey := by rintro rfl; rw [hp] at h2; cases h2
    rw [h4, upd_other _ _ hne, hp] at hp'; cases hp'
    exact after (by rw [h6]; exact ho)
  | @act tx ix b q q' es' h1 h2 h3 h4 h5 h6 =>
    by_cases hb : a = b
    · subst hb
      rw [hp] at h2; cases h2
      rw [h4, upd_self] at hp'; cases hp'
      rcases h3.dates with D | ⟨x, hx, hxa, _⟩
      · refine after ?_
        rw [h6]
        unfold Over at ho ⊢
        rw [D.fin]; exact ho
      · subst h1; subst hx
        obtain ⟨p0, e, r, m, n, f, g, k, D⟩ := (does_deposit R).1 ⟨_, hs⟩
        have d1 := D.presale
        rw [hxa, hp] at d1; cases d1
        have d2 : w'.presales a = some (afterDeposit p e.registryIndex r n f w.clock.toNat) := by
          rw [D.post, ← hxa]; exact upd_self _ _ _
        rw [h4, upd_self] at d2; cases d2
        have hreg : (afterDeposit p e.registryIndex r n f w.clock.toNat).registries =
            p.registries.set e.registryIndex
              { r with totalDeposit := r.totalDeposit + n, totalDepositFee := r.totalDepositFee + f } := by
          unfold afterDeposit; dsimp only; split <;> rfl
        rw [hreg] at hr
        have hes : w'.escrows = w.escrows.set x.escrow
            { e with totalDeposit := e.totalDeposit + n, totalDepositFee := e.totalDepositFee + f } := by
          rw [D.post]
        rw [hes, esum_eq]
        by_cases hi : e.registryIndex = i
        · subst hi
          rw [List.getElem?_set_self (List.getElem?_eq_some_iff.1 D.registry).1] at hr
          cases hr
          have := esum_set_hit (e' := { e with totalDeposit := e.totalDeposit + n, totalDepositFee := e.totalDepositFee + f })
            D.escrow.1 (D.escrow.2.trans hxa) rfl (D.escrow.2.trans hxa) rfl Escrow.totalDeposit
          have hb := (((C03_totals R hp).2.2.2 _ r D.registry).2.2.2 ho).1
          rw [esum_eq] at hb
          simp only at this ⊢
          omega
        · rw [List.getElem?_set_ne hi] at hr
          rw [esum_set_other D.escrow.1 hi (by exact hi)]
          exact (((C03_totals R hp).2.2.2 _ r' hr).2.2.2 ho).1
    · rw [h4, upd_other _ _ hb, hp] at hp'; cases hp'
      exact after (by rw [h6]; exact ho)

/-- If at all times every escrow of a sale is listed, the books of a registry never show more than its rows allow:
neither while buyers deposit nor after they left. -/
theorem listed_registry {κ : Type} [DecidableEq κ] {w0 : World} (G : Genesis w0) (ops : List Op) {a : Addr} {p : Presale}
    (hp : (run w0 ops).presales a = some p) {kb : Addr → κ} {rows : List (Row κ)}
    (listed : ∀ pre post, ops = pre ++ post → ∀ k e, (run w0 pre).escrows.get? k = some e → e.presale = a →
      rowOf kb e ∈ rows)
    (apart : ∀ pre post, ops = pre ++ post → ∀ k1 e1 k2 e2, (run w0 pre).escrows.get? k1 = some e1 →
      (run w0 pre).escrows.get? k2 = some e2 → e1.presale = a → e2.presale = a →
      kb e1.owner = kb e2.owner → e1.owner = e2.owner)
    {i : Nat} {r : Registry} (hr : p.registries[i]? = some r) :
    r.totalDeposit ≤ capSum (rowsFor rows i) ∧ r.totalEscrow ≤ (rowsFor rows i).length := by
  have Rr : ∀ l, Reachable (run w0 l) := fun l => ⟨w0, l, G, rfl⟩
  refine ⟨?_, ?_⟩
  · induction ops using List.reverseRecOn generalizing p r with
    | nil => rw [show run w0 [] = w0 from rfl, G.presales a] at hp; cases hp
    | append_singleton ops op ih =>
      have ih := fun (q : Presale) (hq : (run w0 ops).presales a = some q) (s : Registry)
          (hs : q.registries[i]? = some s) => ih (p := q) (r := s) hq
        (fun pre post h => listed pre (post ++ [op]) (by rw [h, List.append_assoc]))
        (fun pre post h => apart pre (post ++ [op]) (by rw [h, List.append_assoc])) hs
      have now := (listed_sum (Rr (ops ++ [op])) (listed (ops ++ [op]) [] (by simp)) (apart (ops ++ [op]) [] (by simp)) i).1
      have R := Rr ops
      have R' := Rr (ops ++ [op])
      rcases apply_cases (run w0 ops) op with h | ⟨rc, h⟩
      · rw [run_snoc, h] at hp
        exact ih p hp r hr
      · rw [← run_snoc] at h
        have E := step_effect R.winv h
        cases hq : (run w0 ops).presales a with
        | none =>
          refine Nat.le_trans (Nat.le_of_eq ?_) now
          refine (((C03_totals R' hp).2.2.2 i r hr).2.2.2 ?_).1
          cases E with
          | quiet h1 _ _ => rw [h1, hq] at hp; cases hp
          | @create tx x q h1 h2 h3 h4 h5 h6 =>
            by_cases hx : a = x.presaleKey
            · subst hx
              rw [h4, upd_self] at hp; cases hp
              have hd := h3.duration.1
              have hn := h3.startAhead.1
              unfold Over
              rw [h6]
              omega
            · rw [h4, upd_other _ _ hx, hq] at hp; cases hp
          | @act tx ix b q q' es' h1 h2 h3 h4 h5 h6 =>
            by_cases hb : a = b
            · subst hb; rw [hq] at h2; cases h2
            · rw [h4, upd_other _ _ hb, hq] at hp; cases hp
        | some q =>
          by_cases ho : Over q (run w0 ops).clock
          · obtain ⟨p', hp', L⟩ := E.later R.winv hq
            rw [hp] at hp'; cases hp'
            obtain ⟨s, hs, hb⟩ := books_reg (L.frozen ho).symm hr
            have := ih q hq s hs
            have e : s.totalDeposit = r.totalDeposit := (congrArg Registry.totalDeposit hb :)
            omega
          · exact Nat.le_trans (Nat.le_of_eq (step_open_sum R h hq ho hp hr)) now
  · rw [((C03_totals (Rr ops) hp).2.2.2 i r hr).1]
    exact (listed_sum (Rr ops) (listed ops [] (by simp)) (apart ops [] (by simp)) i).2

/-- Sums by registry add up to at most the sum of all rows. -/
theorem sum_by_registry {κ : Type} (rows : List (Row κ)) (h : Row κ → Nat) (f : Registry → Nat) (rs : List Registry) :
    ∀ n, (∀ i r, rs[i]? = some r → f r ≤ ((rowsFor rows (n + i)).map h).sum) →
      (rs.map f).sum ≤ ((rows.filter fun r => decide (n ≤ r.registry)).map h).sum := by
  induction rs with
  | nil => intro n _; exact Nat.zero_le _
  | cons r rs ih =>
    intro n hle
    have h0 := hle 0 r rfl
    have h1 := ih (n + 1) (fun i s hs => by
      have := hle (i + 1) s hs
      rwa [show n + (i + 1) = n + 1 + i by omega] at this)
    have split : ((rows.filter fun r => decide (n ≤ r.registry)).map h).sum =
        ((rowsFor rows n).map h).sum + ((rows.filter fun r => decide (n + 1 ≤ r.registry)).map h).sum := by
      clear hle h0 h1 ih
      unfold rowsFor
      induction rows with
      | nil => rfl
      | cons x rows ih =>
        rcases Nat.lt_trichotomy x.registry n with g | g | g
        · rw [List.filter_cons_of_neg (by simp; omega), List.filter_cons_of_neg (by simp; omega),
            List.filter_cons_of_neg (by simp; omega)]
          exact ih
        · rw [List.filter_cons_of_pos (by simp; omega), List.filter_cons_of_pos (by simp; omega),
            List.filter_cons_of_neg (by simp; omega)]
          simp only [List.map_cons, List.sum_cons]
          omega
        · rw [List.filter_cons_of_pos (by simp; omega), List.filter_cons_of_neg (by simp; omega),
            List.filter_cons_of_pos (by simp; omega)]
          simp only [List.map_cons, List.sum_cons]
          omega
    simp only [List.map_cons, List.sum_cons]
    rw [Nat.add_zero] at h0
    omega

/-- What the rows of a list limit: the deposits and the number of escrows of every registry and of the sale. -/
structure Spec.Limited {κ : Type} (rows : List (Row κ)) (p : Presale) : Prop where
  registry : ∀ i r, p.registries[i]? = some r →
    r.totalDeposit ≤ capSum (rowsFor rows i) ∧ r.totalEscrow ≤ (rowsFor rows i).length
  deposit : p.totalDeposit ≤ capSum rows
  escrow : p.totalEscrow ≤ rows.length

theorem limited {κ : Type} {w : World} (R : Reachable w) {a : Addr} {p : Presale} (hp : w.presales a = some p)
    {rows : List (Row κ)} (h : ∀ i r, p.registries[i]? = some r →
      r.totalDeposit ≤ capSum (rowsFor rows i) ∧ r.totalEscrow ≤ (rowsFor rows i).length) : Limited rows p := by
  obtain ⟨t1, _, t2, _⟩ := C03_totals R hp
  have all : (rows.filter fun r => decide (0 ≤ r.registry)) = rows := by
    apply List.filter_eq_self.2; intro x _; simp
  refine ⟨h, ?_, ?_⟩
  · have := sum_by_registry rows Row.cap Registry.totalDeposit p.registries 0
      (fun i r hr => by rw [Nat.zero_add]; exact (h i r hr).1)
    rw [all, ← t1] at this; exact this
  · have := sum_by_registry rows (fun _ => 1) Registry.totalEscrow p.registries 0
      (fun i r hr => by rw [Nat.zero_add]; simpa using (h i r hr).2)
    rw [all, ← t2] at this; simpa using this

/-- The terms of a presale with an escrow at some time are those it has at the end. -/
theorem prefix_terms {w0 : World} (G : Genesis w0) (pre post : List Op) {a : Addr} {p q : Presale}
    (hp : (run w0 (pre ++ post)).presales a = some p) (hq : (run w0 pre).presales a = some q) :
    q.whitelistMode = p.whitelistMode ∧ q.owner = p.owner := by
  have R : Reachable (run w0 pre) := ⟨w0, pre, G, rfl⟩
  obtain ⟨p', h1, L⟩ := run_later R.winv post hq
  rw [← run_append, hp] at h1; cases h1
  exact ⟨(congrArg Presale.whitelistMode L.terms :).symm, (congrArg Presale.owner L.terms :).symm⟩

/-- **C101.** In a sale with published lists: if every root its creator published is that of a list compiled with the
off-chain tool, with all rows among `rows`, and no two different strings hashed in the course of this collide, then at
all times the sale and each of its registries has taken at most the sum of the caps of these rows, from at most as
many escrows as there are rows. -/
theorem C101_lists {w0 : World} (G : Genesis w0) (ops : List Op) {a : Addr} {p : Presale}
    (hp : (run w0 ops).presales a = some p) (hm : p.whitelistMode = 1)
    (hash32 : ∀ x, (w0.env.hash x).length = 32) (key32 : ∀ a, (w0.env.keyBytes a).length = 32)
    (lists : Bytes → ConfigMerkleTree) (rows : List (Row Bytes))
    (compiled : ∀ tx y, Op.ix tx (.createMerkle y) ∈ ops → y.presale = a → tx.signed p.owner = true →
      (∃ nodes version,
        (∀ n ∈ nodes, n.escrowOwner.length = 32 ∧ n.registryIndex < 256 ∧ n.depositCap < u64Bound) ∧
        ConfigMerkleTree.new w0.env.hash nodes version = .ok (lists y.root) ∧
        (lists y.root).merkleRoot = y.root) ∧
      ∀ n ∈ (lists y.root).treeNodes, (⟨n.escrowOwner, n.registryIndex, n.depositCap⟩ : Row Bytes) ∈ rows)
    (nocollision : ∀ tx x root, Op.ix tx (.createEscrowMerkle x) ∈ ops →
      ∀ u ∈ buildStrings w0.env.hash (lists root).treeNodes,
      ∀ v ∈ checkStrings w0.env.hash (w0.env.keyBytes x.owner) x.registryIndex x.depositCap x.proof,
        w0.env.hash u = w0.env.hash v → u = v)
    (apart : ∀ tx1 x1 tx2 x2, Op.ix tx1 (.createEscrowMerkle x1) ∈ ops → Op.ix tx2 (.createEscrowMerkle x2) ∈ ops →
      w0.env.keyBytes x1.owner = w0.env.keyBytes x2.owner → x1.owner = x2.owner) :
    Limited rows p := by
  have Rr : ∀ l, Reachable (run w0 l) := fun l => ⟨w0, l, G, rfl⟩
  have mode : ∀ pre post, ops = pre ++ post → ∀ k e, (run w0 pre).escrows.get? k = some e → e.presale = a →
      ∃ q, (run w0 pre).presales e.presale = some q ∧ q.whitelistMode = 1 ∧ q.owner = p.owner := by
    intro pre post hops k e he hea
    obtain ⟨_, q, _, hq, _⟩ := C41_place (Rr pre) he
    have hq' := hq
    rw [hea] at hq'
    rw [hops] at hp
    obtain ⟨h1, h2⟩ := prefix_terms G pre post hp hq'
    exact ⟨q, hq, h1.trans hm, h2⟩
  refine limited (Rr ops) hp fun i r hr => listed_registry G ops hp (kb := w0.env.keyBytes) ?_ ?_ hr
  · intro pre post hops k e he hea
    obtain ⟨q, hq, q1, q2⟩ := mode pre post hops k e he hea
    have sub : ∀ o, o ∈ pre → o ∈ ops := fun o ho => by rw [hops]; exact List.mem_append_left _ ho
    obtain ⟨tx, y, m1, m2, m3, n, m4, m5, m6, m7⟩ := C38_on_the_list G pre he hq q1 hash32 key32 lists
      (fun tx y h1 h2 h3 => (compiled tx y (sub _ h1) (h2.trans hea) (by rw [← q2]; exact h3)).1)
      (fun tx x root h => nocollision tx x root (sub _ h))
    have := (compiled tx y (sub _ m1) (m2.trans hea) (by rw [← q2]; exact m3)).2 n m4
    rw [m5, m6, m7] at this
    exact this
  · intro pre post hops k1 e1 k2 e2 h1 h2 g1 g2 hk
    obtain ⟨q1, hq1, m1, _⟩ := mode pre post hops k1 e1 h1 g1
    obtain ⟨q2, hq2, m2, _⟩ := mode pre post hops k2 e2 h2 g2
    obtain ⟨_, _, _, _, tx1, x1, _, _, _, a1, _, _, _, _, _, b1, _⟩ := C38_proof_checked G pre h1 hq1 m1
    obtain ⟨_, _, _, _, tx2, x2, _, _, _, a2, _, _, _, _, _, b2, _⟩ := C38_proof_checked G pre h2 hq2 m2
    have i1 : Op.ix tx1 (.createEscrowMerkle x1) ∈ ops := by rw [hops, a1]; simp
    have i2 : Op.ix tx2 (.createEscrowMerkle x2) ∈ ops := by rw [hops, a2]; simp
    rw [← b1, ← b2] at hk ⊢
    exact apart _ _ _ _ i1 i2 hk

/-- **C101.** In a sale with operators the same holds for the escrows that operators approved by the creator signed
for. -/
theorem C101_operators {w0 : World} (G : Genesis w0) (ops : List Op) {a : Addr} {p : Presale}
    (hp : (run w0 ops).presales a = some p) (hm : p.whitelistMode = 2) (rows : List (Row Addr))
    (signed : ∀ tx1 y tx2 x, Op.ix tx1 (.createOperator y) ∈ ops → tx1.signed p.owner = true → y.creator = p.owner →
      Op.ix tx2 (.createEscrowCreator x) ∈ ops → tx2.signed y.operatorOwner = true → x.presale = a →
      (⟨x.owner, x.registryIndex, x.depositCap⟩ : Row Addr) ∈ rows) :
    Limited rows p := by
  have Rr : ∀ l, Reachable (run w0 l) := fun l => ⟨w0, l, G, rfl⟩
  refine limited (Rr ops) hp fun i r hr => listed_registry G ops hp (kb := id) ?_ (fun _ _ _ _ _ _ _ _ _ _ _ h => h) hr
  intro pre post hops k e he hea
  obtain ⟨_, q, _, hq, _⟩ := C41_place (Rr pre) he
  have hq' := hq
  rw [hea] at hq'
  have hp2 := hp
  rw [hops] at hp2
  obtain ⟨q1, q2⟩ := prefix_terms G pre post hp2 hq'
  obtain ⟨_, tx1, y, _, tx2, x, _, _, _, a1, _, a3, a4, _, a6, a7, a8, a9, a10, _⟩ :=
    C37_operator_approved G pre he hq (q1.trans hm)
  have i1 : Op.ix tx1 (.createOperator y) ∈ ops := by rw [hops, a1]; simp
  have i2 : Op.ix tx2 (.createEscrowCreator x) ∈ ops := by rw [hops, a1]; simp
  have := signed tx1 y tx2 x i1 (by rw [← q2]; exact a3) (a4.trans q2) i2 a6 (a7.trans hea)
  rw [a8, a9, a10] at this
  exact this

/-- **C101.** Hence a sale whose lists, or operators, allow less than its minimum cap ends as failed. Creating it is
not refused for that. -/
theorem C101_short_list {κ : Type} {p : Presale} {rows : List (Row κ)} (L : Limited rows p)
    (short : capSum rows < p.presaleMinimumCap) (now : Int) : ¬ Completed p now ∧ (Over p now → Failed p now) := by
  have h : p.totalDeposit < p.presaleMinimumCap := Nat.lt_of_le_of_lt L.deposit short
  exact ⟨fun c => absurd c.2 (Nat.not_le.2 h), fun o => ⟨o, h⟩⟩

/-! ## The hypotheses are met -/

namespace Ex

def listRows : List (Row Bytes) := [⟨genesis.env.keyBytes alice, 0, 300⟩, ⟨genesis.env.keyBytes bob, 0, 400⟩]

def listOps : List Op :=
  merkleOps ++ [byProof bob (proofOf 1) 400, deposit alice aliceQuote 300, deposit bob bobQuote 1000]

/-- Both rows of the list are used and their caps filled: the limit is reached. -/
example : has (run genesis listOps) (fun p => decide (p.whitelistMode = 1 ∧ p.totalDeposit = 700 ∧ p.totalEscrow = 2)) =
      true ∧ capSum listRows = 700 ∧ capSum (rowsFor listRows 0) = 700 ∧ capSum (rowsFor listRows 1) = 0 := by
  decide +kernel

/-- `C101_lists` applies to that history. -/
example : ∃ p, (run genesis listOps).presales sale = some p ∧ Limited listRows p := by
  have h : has (run genesis listOps) (fun p => decide (p.whitelistMode = 1)) = true := by decide +kernel
  obtain ⟨p, hp, hm⟩ := has_some h
  have hm := of_decide_eq_true hm
  refine ⟨p, hp, C101_lists genesis_ok listOps hp hm (fun x => by simp [genesis]) (fun a => by cases a <;> simp [genesis])
    (fun _ => theTree) listRows ?_ ?_ ?_⟩
  · intro tx y hy _ _
    have : y.root = root := by
      simp [listOps, merkleOps, init, publish, byProof, deposit] at hy
      rw [hy.2]
    rw [this]
    exact ⟨⟨rows, 3, by decide +kernel, by decide +kernel, by decide +kernel⟩, by decide +kernel⟩
  · intro tx x root hx
    simp [listOps, merkleOps, init, publish, byProof, deposit] at hx
    rcases hx with ⟨_, rfl⟩ | ⟨_, rfl⟩ <;> decide +kernel
  · intro tx1 x1 tx2 x2 h1 h2
    simp [listOps, merkleOps, init, publish, byProof, deposit] at h1 h2
    rcases h1 with ⟨_, rfl⟩ | ⟨_, rfl⟩ <;> rcases h2 with ⟨_, rfl⟩ | ⟨_, rfl⟩ <;> decide +kernel

def operatorOps : List Op := authorityOps ++ [deposit alice aliceQuote 1000]

/-- `C101_operators` applies to a sale in which an operator signed for one escrow with a cap of 500. -/
example : ∃ p, (run genesis operatorOps).presales sale = some p ∧ p.totalDeposit = 500 ∧
    Limited [(⟨alice, 0, 500⟩ : Row Addr)] p := by
  have h : has (run genesis operatorOps) (fun p => decide (p.whitelistMode = 2 ∧ p.totalDeposit = 500)) = true := by
    decide +kernel
  obtain ⟨p, hp, hm⟩ := has_some h
  have hm := of_decide_eq_true hm
  refine ⟨p, hp, hm.2, C101_operators genesis_ok operatorOps hp hm.1 _ ?_⟩
  intro tx1 y tx2 x _ _ _ hx _ _
  simp [operatorOps, authorityOps, init, byOperator, deposit] at hx
  rw [hx.2]; simp

def shortOps : List Op :=
  [init 1 2 0 wideReg, .ix (tx [creator]) (.createOperator ⟨operatorKey, creator⟩), .tick 10,
   .ix (tx [operatorKey]) (.createEscrowCreator
      { presale := sale, owner := alice, payer := operatorKey, operator := .operator creator operatorKey,
        operatorOwner := operatorKey, registryIndex := 0, depositCap := 50 }),
   deposit alice aliceQuote 1000, .tick 1000]

/-- An operator signs for a cap of 50 in a sale that needs 100: `C101_short_list` says that it fails. -/
example : ∃ p, (run genesis shortOps).presales sale = some p ∧ p.totalDeposit = 50 ∧
    Failed p (run genesis shortOps).clock := by
  have h : has (run genesis shortOps) (fun p => decide (p.whitelistMode = 2 ∧ p.totalDeposit = 50 ∧
      p.presaleMinimumCap = 100 ∧ (p.presaleEndTime : Int) ≤ (run genesis shortOps).clock)) = true := by
    decide +kernel
  obtain ⟨p, hp, hm⟩ := has_some h
  have hm := of_decide_eq_true hm
  have L : Limited [(⟨alice, 0, 50⟩ : Row Addr)] p := by
    refine C101_operators genesis_ok shortOps hp hm.1 _ ?_
    intro tx1 y tx2 x _ _ _ hx _ _
    simp [shortOps, init, deposit] at hx
    rw [hx.2]; simp
  refine ⟨p, hp, hm.2.1, (C101_short_list L ?_ _).2 hm.2.2.2⟩
  rw [hm.2.2.1]; decide

end Ex

end Verif
