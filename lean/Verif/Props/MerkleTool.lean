import Verif.Lemmas.MerkleAny
import Verif.Props.Merkle
import Verif.Props.Pda
import Verif.Model.MerkleTool
/-!
# C80: the tool that makes the whitelist

Sizes of trees and proofs, the lookup table, the address of the root, and the crate's own proof check.
-/

namespace Verif

open Spec

theorem new_domain {H : Bytes → Bytes} {rows : List TreeNode} {version : Nat} {t : ConfigMerkleTree}
    (h : ConfigMerkleTree.new H rows version = .ok t) : rows ≠ [] ∧ (dedupNodes rows).length ≤ 4294967295 := by
  constructor
  · rintro rfl
    unfold ConfigMerkleTree.new at h
    have e : dedupNodes [] = [] := rfl
    simp only [e, List.map_nil, new_eq, liftPanic, bind, Except.bind, fillProofs, MerkleTree.getRoot, flat_getLast] at h
    rw [top] at h
    simp at h
  · by_contra hc
    unfold ConfigMerkleTree.new at h
    have hf := fillProofs_eq H ((dedupNodes rows).map (TreeNode.hash H)) (dedupNodes rows) 0 (by simp)
    simp only [new_eq, liftPanic, bind, Except.bind, hf] at h
    split at h
    · cases h
    · simp only [ConfigMerkleTree.validate, List.length_mapIdx] at h
      rw [if_pos (by omega)] at h
      cases h

/-- **C80.** Every generated proof has the least number of hashes that can tell so many owners apart, so at most 32. -/
theorem C80_proof_length {H : Bytes → Bytes} {rows : List TreeNode} {version : Nat} {t : ConfigMerkleTree}
    (h : ConfigMerkleTree.new H rows version = .ok t) {n : TreeNode} (hn : n ∈ t.treeNodes) :
    ∃ proof, n.proof = some proof ∧ t.treeNodes.length ≤ 2 ^ proof.length ∧
      (∀ k, t.treeNodes.length ≤ 2 ^ k → proof.length ≤ k) ∧ proof.length ≤ 32 := by
  obtain ⟨hne, hlen⟩ := new_domain h
  obtain ⟨root, htop, hnew⟩ := configTree_eq H rows version hne hlen
  rw [hnew, Except.ok.injEq] at h
  subst h
  simp only [List.mem_mapIdx] at hn
  obtain ⟨j, hj, rfl⟩ := hn
  refine ⟨_, rfl, ?_⟩
  simp only [List.length_mapIdx]
  generalize hl : ((dedupNodes rows).map (TreeNode.hash H)).map (leafHash H) = l
  have hll : l.length = (dedupNodes rows).length := by rw [← hl]; simp
  rw [sibs_length H l j (by omega), ← hll]
  obtain ⟨h1, h2⟩ := pathB_length H true l (by intro e; rw [e] at hll; simp at hll; omega) j
  have least : ∀ k, l.length ≤ 2 ^ k → (pathB H true l j).length ≤ k := by
    intro k hk
    rcases h2 with h2 | h2
    · omega
    · by_contra hc
      have : 2 ^ (k + 1) ≤ 2 ^ (pathB H true l j).length := Nat.pow_le_pow_right (by omega) (by omega)
      rw [Nat.pow_succ] at this
      omega
  exact ⟨h1, least, least 32 (by omega)⟩

/-- **C80.** A tree over `n ≥ 1` leaves has at least `n` and at most `2 n + k` nodes, with `k` the number of levels above the leaves:
what the crate reserves is enough whenever its logarithm is not too small. -/
theorem C80_size (H : Bytes → Bytes) (items : List Bytes) (sorted : Bool) {k : Nat} (hk : items.length ≤ 2 ^ k)
    (hne : items ≠ []) :
    ∃ t, MerkleTree.new H items sorted = .ok t ∧ items.length ≤ t.nodes.length ∧
      t.nodes.length ≤ 2 * items.length + k := by
  refine ⟨_, newB_eq H sorted items, ?_⟩
  have hll : (items.map (leafHash H)).length = items.length := List.length_map _
  obtain ⟨h1, h2⟩ := flatB_length H sorted (items.map (leafHash H)) 0
  obtain ⟨h3, h4⟩ := pathB_length H sorted (items.map (leafHash H)) (by simpa using hne) 0
  rw [hll] at h1 h2 h3 h4
  refine ⟨h1, Nat.le_trans h2 (Nat.add_le_add_left ?_ _)⟩
  rcases h4 with h4 | h4
  · omega
  · by_contra hc
    have : 2 ^ (k + 1) ≤ 2 ^ (pathB H sorted (items.map (leafHash H)) 0).length :=
      Nat.pow_le_pow_right (by omega) (by omega)
    rw [Nat.pow_succ] at this
    omega

theorem toHashmap_foldl (l : List TreeNode) (hnd : (l.map TreeNode.escrowOwner).Nodup) (m : Bytes → Option TreeNode)
    (o : Bytes) :
    l.foldl (fun m n o => if o = n.escrowOwner then some n else m o) m o =
      (l.find? fun n => n.escrowOwner = o).or (m o) := by
  induction l generalizing m with
  | nil => rfl
  | cons n l ih =>
    rw [List.map_cons, List.nodup_cons] at hnd
    rw [List.foldl_cons, ih hnd.2, List.find?_cons]
    by_cases e : n.escrowOwner = o
    · have : l.find? (fun n => n.escrowOwner = o) = none := by
        rw [List.find?_eq_none]
        intro x hx he
        have he : x.escrowOwner = o := by simpa using he
        exact hnd.1 (by rw [e, ← he]; exact List.mem_map_of_mem hx)
      rw [this]
      simp [e]
    · rw [if_neg fun h => e h.symm]
      simp [e]

/-- **C80.** The lookup table and `get_node` agree on every owner, and both give the entry of exactly the owners of the list. -/
theorem C80_lookup {H : Bytes → Bytes} {rows : List TreeNode} {version : Nat} {t : ConfigMerkleTree}
    (h : ConfigMerkleTree.new H rows version = .ok t) (o : Bytes) :
    (∀ n, t.getNode o = .ok n ↔ t.toHashmap o = some n) ∧
    (∀ n, t.toHashmap o = some n ↔ n ∈ t.treeNodes ∧ n.escrowOwner = o) ∧
    (t.toHashmap o = none ↔ o ∉ rows.map TreeNode.escrowOwner) := by
  have h52 := C52_last_row_wins H rows version t h
  have hnd : (t.treeNodes.map TreeNode.escrowOwner).Nodup := by rw [h52.1]; exact firstOccurrences_nodup _
  have hm : t.toHashmap o = t.treeNodes.find? fun n => n.escrowOwner = o := by
    unfold ConfigMerkleTree.toHashmap
    rw [toHashmap_foldl _ hnd, Option.or_none]
  refine ⟨fun n => ?_, fun n => ?_, ?_⟩
  · rw [hm, ConfigMerkleTree.getNode]
    cases t.treeNodes.find? fun n => n.escrowOwner = o with
    | none => simp
    | some x => simp
  · rw [hm]
    constructor
    · intro hf
      exact ⟨List.mem_of_find?_eq_some hf, by simpa using List.find?_some hf⟩
    · rintro ⟨hn, ho⟩
      cases hf : t.treeNodes.find? fun n => n.escrowOwner = o with
      | none => exact absurd (List.find?_eq_none.1 hf n hn) (by simpa using ho)
      | some x =>
        have hx := List.mem_of_find?_eq_some hf
        have hxo : x.escrowOwner = o := by simpa using List.find?_some hf
        rw [List.inj_on_of_nodup_map hnd hx hn (hxo.trans ho.symm)]
  · rw [hm, List.find?_eq_none, ← mem_firstOccurrences, ← h52.1]
    simp

/-- **C80.** The generated file states the version it was asked for and the number of different owners. -/
theorem C80_header {H : Bytes → Bytes} {rows : List TreeNode} {version : Nat} {t : ConfigMerkleTree}
    (h : ConfigMerkleTree.new H rows version = .ok t) :
    t.version = version ∧ t.maxNumNodes = (firstOccurrences (rows.map TreeNode.escrowOwner)).length := by
  obtain ⟨hne, hlen⟩ := new_domain h
  obtain ⟨root, -, hnew⟩ := configTree_eq H rows version hne hlen
  rw [hnew, Except.ok.injEq] at h
  subst h
  refine ⟨rfl, ?_⟩
  rw [← (dedupNodes_spec rows).1, List.length_map]

/-- **C80.** The tool looks for the root where the program stores the root of that version. -/
theorem C80_address {H : Bytes → Bytes} {rows : List TreeNode} {version : Nat} {t : ConfigMerkleTree}
    (ht : ConfigMerkleTree.new H rows version = .ok t) {keys : Nat → Bytes} (hk : ∀ n, (keys n).length = 32)
    {p : Addr} (hp : locate keys p ≠ none) (h : locate keys (.merkleRoot p version) ≠ none) :
    t.rootConfigPubkey ((programEnv keys hk).bytes p) presaleId =
      some ((programEnv keys hk).bytes (.merkleRoot p version)) := by
  obtain ⟨r, hr⟩ := Option.ne_none_iff_exists'.1 h
  obtain ⟨hb, hf⟩ := locate_spec hk _ hr
  have := hf _ _ rfl
  unfold ConfigMerkleTree.rootConfigPubkey
  rw [(C80_header ht).1, leBytes_range, hb]
  exact congrArg (Option.map Prod.fst) this

/-! ## The crate's own proof check -/

theorem findPath_pathB (H : Bytes → Bytes) (m : Bool) (items : List Bytes) {i : Nat} (hi : i < items.length) :
    MerkleTree.findPath { leafCount := items.length, nodes := flatB H m (items.map (leafHash H)) } i =
      .ok (some (pathB H m (items.map (leafHash H)) i)) := by
  unfold MerkleTree.findPath
  have hl : i < (items.map (leafHash H)).length := by simpa using hi
  have := findPathB_eq H m (items.map (leafHash H)) [] i _ none none [] (List.getElem?_eq_getElem hl)
  simp only [List.length_map, List.length_nil, List.nil_append] at this
  rw [if_neg (by simpa using hi), this]
  rfl

theorem upB_get (H : Bytes → Bytes) {l : List Bytes} {i : Nat} {c : Bytes} (hc : l[i]? = some c) :
    (upB H false l)[i / 2]? = some (intermediateHash H ((sides l i).1.getD c) ((sides l i).2.getD c)) := by
  have h : i < l.length := by
    by_contra hcc
    rw [List.getElem?_eq_none (by omega)] at hc
    simp at hc
  obtain ⟨a, b, ha, hb, hg⟩ := pairLevel_get (hashPair H false) l (i / 2) (by omega)
  show (pairLevel (hashPair H false) l)[i / 2]? = _
  rw [hg]
  unfold sides
  by_cases he : i % 2 = 0
  · have h2 : 2 * (i / 2) = i := by omega
    rw [h2] at ha hb
    rw [if_pos he, hb]
    rw [hc] at ha
    cases ha
    rfl
  · have h2 : 2 * (i / 2) = i - 1 := by omega
    have h3 : i - 1 + 1 = i := by omega
    rw [h2] at ha hb
    rw [h3, if_pos h, hc] at hb
    rw [if_neg he, ha]
    cases hb
    rfl

theorem proofVerify_pathB (H : Bytes → Bytes) (l : List Bytes) (i : Nat) (c : Bytes) (hc : l[i]? = some c) :
    proofVerify H (pathB H false l i) c = true := by
  rw [pathB]
  split
  · rfl
  · rw [proofVerify, upB_get H hc]
    simp only [Option.getD_some, if_true]
    exact proofVerify_pathB H (upB H false l) (i / 2) _ (upB_get H hc)
termination_by l.length
decreasing_by rw [upB_length]; omega

namespace Spec

/-- What is hashed when a candidate is put beside the sibling of an entry. -/
def beside (e : ProofEntry) (c : Bytes) : Bytes := 1 :: (e.leftSibling.getD c ++ e.rightSibling.getD c)

end Spec

/-- **C80.** For trees without sorting the crate's proof check accepts the leaf of the path and, with two leaves or more, nothing
else, unless the hash collides on the first step. -/
theorem C80_unsorted (H : Bytes → Bytes) (items : List Bytes) {i : Nat} {x : Bytes} (hx : items[i]? = some x) :
    ∃ t path, MerkleTree.new H items false = .ok t ∧ t.findPath i = .ok (some path) ∧
      proofVerify H path (leafHash H x) = true ∧
      (2 ≤ items.length → ∃ e rest, path = e :: rest ∧ ∀ c,
        (H (beside e c) = H (beside e (leafHash H x)) → beside e c = beside e (leafHash H x)) →
        proofVerify H path c = true → c = leafHash H x) := by
  have hi : i < items.length := by
    by_contra hcc
    rw [List.getElem?_eq_none (by omega)] at hx
    simp at hx
  have hc : (items.map (leafHash H))[i]? = some (leafHash H x) := by rw [List.getElem?_map, hx]; rfl
  refine ⟨_, _, newB_eq H false items, findPath_pathB H false items hi, proofVerify_pathB H _ i _ hc, fun h2 => ?_⟩
  have hll : (items.map (leafHash H)).length = items.length := List.length_map _
  rw [pathB, dif_neg (by omega)]
  refine ⟨_, _, rfl, fun c hcol hv => ?_⟩
  rw [proofVerify, upB_get H hc] at hv
  simp only [Option.getD_some] at hv
  split at hv
  · rename_i he
    have hb := hcol he
    unfold beside at hb
    rw [List.cons.injEq] at hb
    have hb := hb.2
    simp only [sides] at hb
    have hi' : i < (items.map (leafHash H)).length := by omega
    split at hb
    · split at hb
      · rename_i h3
        rw [List.getElem?_eq_getElem h3] at hb
        exact List.append_cancel_right hb
      · rw [hc] at hb
        exact List.append_cancel_right hb
    · rw [List.getElem?_eq_getElem (by omega : i - 1 < (items.map (leafHash H)).length)] at hb
      exact List.append_cancel_left hb
  · cases hv

/-- **C80.** With a single leaf it accepts everything: the path is empty and the root is not compared. -/
theorem C80_single_leaf (H : Bytes → Bytes) (x : Bytes) (sorted : Bool) :
    ∃ t path, MerkleTree.new H [x] sorted = .ok t ∧ t.findPath 0 = .ok (some path) ∧
      ∀ c, proofVerify H path c = true := by
  refine ⟨_, _, newB_eq H sorted [x], findPath_pathB H sorted [x] (by simp), fun c => ?_⟩
  rw [pathB, dif_pos (by simp)]
  rfl

/-- **C80.** For trees with sorting, the ones the whitelist uses, it can refuse the leaf itself. -/
theorem C80_sorted_refused (H : Bytes → Bytes) (x y : Bytes) (hle : bytesLe (leafHash H x) (leafHash H y) = false)
    (hcol : H (1 :: (leafHash H x ++ leafHash H y)) ≠ H (1 :: (leafHash H y ++ leafHash H x))) :
    ∃ t path, MerkleTree.new H [x, y] true = .ok t ∧ t.findPath 0 = .ok (some path) ∧
      proofVerify H path (leafHash H x) = false := by
  refine ⟨_, _, newB_eq H true [x, y], findPath_pathB H true [x, y] (by simp), ?_⟩
  rw [pathB, dif_neg (by simp)]
  have hu : upB H true ([x, y].map (leafHash H)) = [H (1 :: (leafHash H y ++ leafHash H x))] := by
    show [hashPair H true (leafHash H x) (leafHash H y)] = _
    unfold hashPair
    rw [if_pos rfl, hle]
    rfl
  rw [proofVerify, hu]
  exact if_neg hcol

/-! ## Examples -/

/-- With SHA-256 and these two leaves the crate's own check refuses a genuine path. -/
example : bytesLe (leafHash sha256 [2]) (leafHash sha256 [1]) = false ∧
    sha256 (1 :: (leafHash sha256 [2] ++ leafHash sha256 [1])) ≠
      sha256 (1 :: (leafHash sha256 [1] ++ leafHash sha256 [2])) := by decide +kernel

/-- The toy whitelist: three owners, proofs of two hashes. -/
example : ∃ t, ConfigMerkleTree.new toyHash toyRows 0 = .ok t ∧ t.treeNodes.length = 3 ∧
    ∀ n ∈ t.treeNodes, ∃ proof, n.proof = some proof ∧ proof.length = 2 := by
  obtain ⟨t, h1, _, h3⟩ := toyTree
  have hl : t.treeNodes.length = 3 := by
    have := congrArg List.length h3
    simpa using this
  refine ⟨t, h1, hl, fun n hn => ?_⟩
  obtain ⟨proof, hp, ha, hb, _⟩ := C80_proof_length h1 hn
  refine ⟨proof, hp, ?_⟩
  rw [hl] at ha hb
  have h2 := hb 2 (by decide)
  match hk : proof.length, h2 with
  | 0, _ => rw [hk] at ha; omega
  | 1, _ => rw [hk] at ha; omega
  | 2, _ => rfl

/-- A sale's root address in the example. -/
example : locate pointKeys Ex.sale ≠ none ∧ locate pointKeys (.merkleRoot Ex.sale 1) ≠ none := by decide +kernel


end Verif
