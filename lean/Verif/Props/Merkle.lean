import Mathlib.Data.List.Induction
import Verif.Lemmas.Merkle
/-!
# C39 completeness, C40 soundness, C52 duplicate rows
-/

namespace Verif
open Spec

/-! ## C52 -/

theorem insertNode_owners (n : TreeNode) (l : List TreeNode) :
    (insertNode n l).map TreeNode.escrowOwner =
      if n.escrowOwner ∈ l.map TreeNode.escrowOwner then l.map TreeNode.escrowOwner
      else l.map TreeNode.escrowOwner ++ [n.escrowOwner] := by
  induction l with
  | nil => simp [insertNode]
  | cons m ms ih =>
    unfold insertNode
    by_cases h : m.escrowOwner = n.escrowOwner
    · simp [h]
    · rw [if_neg h]
      simp only [List.map_cons, ih, List.mem_cons]
      have h' : n.escrowOwner ≠ m.escrowOwner := fun e => h e.symm
      by_cases h2 : n.escrowOwner ∈ ms.map TreeNode.escrowOwner
      · simp only [h2, or_true, if_true]
      · simp only [h2, h', or_self, if_false, List.cons_append]

theorem mem_insertNode {n x : TreeNode} {l : List TreeNode}
    (hnd : (l.map TreeNode.escrowOwner).Nodup) :
    x ∈ insertNode n l ↔ x = n ∨ (x ∈ l ∧ x.escrowOwner ≠ n.escrowOwner) := by
  induction l with
  | nil => simp [insertNode]
  | cons m ms ih =>
    simp only [List.map_cons, List.nodup_cons] at hnd
    unfold insertNode
    by_cases h : m.escrowOwner = n.escrowOwner
    · rw [if_pos h]
      simp only [List.mem_cons]
      constructor
      · rintro (rfl | hx)
        · exact Or.inl rfl
        · refine Or.inr ⟨Or.inr hx, ?_⟩
          intro e
          exact hnd.1 (by rw [h, ← e]; exact List.mem_map_of_mem hx)
      · rintro (rfl | ⟨rfl | hx, hne⟩)
        · exact Or.inl rfl
        · exact absurd h hne
        · exact Or.inr hx
    · rw [if_neg h]
      simp only [List.mem_cons, ih hnd.2]
      constructor
      · rintro (rfl | rfl | ⟨hx, hne⟩)
        · exact Or.inr ⟨Or.inl rfl, h⟩
        · exact Or.inl rfl
        · exact Or.inr ⟨Or.inr hx, hne⟩
      · rintro (rfl | ⟨rfl | hx, hne⟩)
        · exact Or.inr (Or.inl rfl)
        · exact Or.inl rfl
        · exact Or.inr (Or.inr ⟨hx, hne⟩)

theorem dedupNodes_append (rows : List TreeNode) (n : TreeNode) :
    dedupNodes (rows ++ [n]) = insertNode n (dedupNodes rows) := by
  simp [dedupNodes]

theorem firstOccurrences_append (l : List Bytes) (x : Bytes) :
    firstOccurrences (l ++ [x]) =
      if x ∈ firstOccurrences l then firstOccurrences l else firstOccurrences l ++ [x] := by
  induction l with
  | nil => simp [firstOccurrences]
  | cons y ys ih =>
    simp only [List.cons_append, firstOccurrences, ih, List.mem_cons]
    by_cases hxy : x = y
    · subst hxy
      simp only [true_or, if_true]
      split
      · rfl
      · rw [List.filter_append]; simp
    · by_cases hm : x ∈ firstOccurrences ys
      · simp [hm, hxy]
      · simp [hm, hxy, List.filter_append]

theorem mem_firstOccurrences {l : List Bytes} {x : Bytes} : x ∈ firstOccurrences l ↔ x ∈ l := by
  induction l with
  | nil => simp [firstOccurrences]
  | cons y ys ih =>
    simp only [firstOccurrences, List.mem_cons, List.mem_filter, ih]
    by_cases h : x = y <;> simp [h]

theorem firstOccurrences_nodup (l : List Bytes) : (firstOccurrences l).Nodup := by
  induction l with
  | nil => simp [firstOccurrences]
  | cons y ys ih =>
    simp only [firstOccurrences, List.nodup_cons, List.mem_filter]
    exact ⟨by simp, ih.filter _⟩

/-- The deduplication step: one entry per owner in order of first appearance, each being the last
row of its owner. -/
theorem dedupNodes_spec (rows : List TreeNode) :
    (dedupNodes rows).map TreeNode.escrowOwner = firstOccurrences (rows.map TreeNode.escrowOwner) ∧
    ∀ n, n ∈ dedupNodes rows ↔
      ∃ pre post, rows = pre ++ n :: post ∧ ∀ m ∈ post, m.escrowOwner ≠ n.escrowOwner := by
  induction rows using List.reverseRecOn with
  | nil => simp [dedupNodes, firstOccurrences]
  | append_singleton rows x ih =>
    rw [dedupNodes_append]
    have hnd : ((dedupNodes rows).map TreeNode.escrowOwner).Nodup := by
      rw [ih.1]; exact firstOccurrences_nodup _
    constructor
    · rw [insertNode_owners, ih.1, List.map_append]
      simp only [List.map_cons, List.map_nil]
      rw [firstOccurrences_append]
    · intro n
      rw [mem_insertNode hnd, ih.2]
      constructor
      · rintro (rfl | ⟨⟨pre, post, rfl, hp⟩, hne⟩)
        · exact ⟨rows, [], rfl, by simp⟩
        · refine ⟨pre, post ++ [x], by simp, ?_⟩
          intro m hm
          rcases List.mem_append.1 hm with hm | hm
          · exact hp m hm
          · simp at hm; subst hm; exact fun e => hne e.symm
      · rintro ⟨pre, post, heq, hp⟩
        rcases List.eq_nil_or_concat post with rfl | ⟨post', y, rfl⟩
        · have := List.append_inj_right' heq rfl
          simp at this
          exact Or.inl this.symm
        · rw [List.concat_eq_append] at heq hp
          have e1 : rows ++ [x] = (pre ++ n :: post') ++ [y] := by rw [heq]; simp
          have h1 := List.append_inj_left' e1 rfl
          have h2 := List.append_inj_right' e1 rfl
          simp at h2
          subst h2
          refine Or.inr ⟨⟨pre, post', h1, fun m hm => hp m (by simp [hm])⟩, ?_⟩
          exact fun e => hp x (by simp) e.symm

/-! ## The tree that is built -/

theorem fillProofs_eq (H : Bytes → Bytes) (items : List Bytes) (ns : List TreeNode) :
    ∀ i, i + ns.length = items.length →
    fillProofs { leafCount := items.length, nodes := flat H (items.map (leafHash H)) } i ns =
      .ok (ns.mapIdx (fun j n => { n with proof := some (sibs H (items.map (leafHash H)) (i + j)) })) := by
  induction ns with
  | nil => intro i _; simp [fillProofs]
  | cons n ns ih =>
    intro i hi
    simp only [List.length_cons] at hi
    rw [fillProofs, getProof_eq H items (by omega), ih (i + 1) (by omega)]
    simp only [liftPanic, bind, Except.bind, pure, Except.pure, List.mapIdx_cons, Nat.add_zero]
    congr 3
    funext j n
    simp only [Nat.add_assoc, Nat.add_comm 1 j]

theorem verifyProofLoop_ok (H : Bytes → Bytes) (items : List Bytes) (root : Bytes)
    (hroot : top H (items.map (leafHash H)) = some root) (hs : List Bytes) :
    ∀ i, (∀ j h, hs[j]? = some h → items[i + j]? = some h) → i + hs.length ≤ items.length →
    verifyProofLoop H { leafCount := items.length, nodes := flat H (items.map (leafHash H)) } root i hs
      = .ok () := by
  induction hs with
  | nil => intro i _ _; rfl
  | cons h hs ih =>
    intro i hget hle
    simp only [List.length_cons] at hle
    rw [verifyProofLoop, getProof_eq H items (by omega)]
    have h0 := hget 0 h (by simp)
    simp only [Nat.add_zero] at h0
    have hv := verify_sibs H (items.map (leafHash H)) i (leafHash H h) (by rw [List.getElem?_map, h0]; rfl)
    rw [hroot] at hv
    simp only [Option.some.injEq] at hv
    simp only [liftPanic, bind, Except.bind, merkleVerify, ← hv, beq_self_eq_true, if_true]
    apply ih (i + 1)
    · intro j x hj
      have := hget (j + 1) x (by simpa using hj)
      rw [show i + 1 + j = i + (j + 1) by omega]; exact this
    · omega

/-- The tree the builder returns for a non-empty whitelist. -/
theorem configTree_eq (H : Bytes → Bytes) (rows : List TreeNode) (version : Nat) (hne : rows ≠ [])
    (hlen : (dedupNodes rows).length ≤ 4294967295) :
    ∃ root, top H (((dedupNodes rows).map (TreeNode.hash H)).map (leafHash H)) = some root ∧
      ConfigMerkleTree.new H rows version = .ok
        { merkleRoot := root, version := version, maxNumNodes := (dedupNodes rows).length,
          treeNodes := (dedupNodes rows).mapIdx (fun j n => { n with
            proof := some (sibs H (((dedupNodes rows).map (TreeNode.hash H)).map (leafHash H)) j) }) } := by
  have hspec := dedupNodes_spec rows
  have hnd : ((dedupNodes rows).map TreeNode.escrowOwner).Nodup := by
    rw [hspec.1]; exact firstOccurrences_nodup _
  have hpos : 0 < (dedupNodes rows).length := by
    obtain ⟨r, rs, rfl⟩ := List.exists_cons_of_ne_nil hne
    have : r.escrowOwner ∈ (dedupNodes (r :: rs)).map TreeNode.escrowOwner := by
      rw [hspec.1, mem_firstOccurrences]; simp
    rw [← List.length_map TreeNode.escrowOwner]
    exact List.length_pos_of_mem this
  generalize hD : dedupNodes rows = D at *
  set items := D.map (TreeNode.hash H) with hitems
  have hil : items.length = D.length := by simp [hitems]
  have h0 : 0 < (items.map (leafHash H)).length := by simp [hil, hpos]
  have htop := verify_sibs H (items.map (leafHash H)) 0 _ (List.getElem?_eq_getElem h0)
  generalize verifyLoop H (sibs H (items.map (leafHash H)) 0) (items.map (leafHash H))[0] = root at htop
  refine ⟨root, htop, ?_⟩
  unfold ConfigMerkleTree.new
  simp only [hD]
  rw [← hitems, new_eq]
  have hf := fillProofs_eq H items D 0 (by omega)
  simp only [Nat.zero_add] at hf
  simp only [liftPanic, bind, Except.bind, hf, MerkleTree.getRoot, flat_getLast, htop]
  have hmap : (D.mapIdx (fun j n => { n with proof := some (sibs H (items.map (leafHash H)) j) })).map
      (TreeNode.hash H) = items := by
    rw [hitems]
    apply List.ext_getElem?
    intro j
    simp only [List.getElem?_map, List.getElem?_mapIdx]
    cases D[j]? <;> rfl
  have hown : (D.mapIdx (fun j n => { n with proof := some (sibs H (items.map (leafHash H)) j) })).map
      TreeNode.escrowOwner = D.map TreeNode.escrowOwner := by
    apply List.ext_getElem?
    intro j
    simp only [List.getElem?_map, List.getElem?_mapIdx]
    cases D[j]? <;> rfl
  simp only [ConfigMerkleTree.validate, List.length_mapIdx, hown]
  rw [if_neg (by omega), if_neg (by simp), if_neg (by simpa using hnd)]
  simp only [ConfigMerkleTree.verifyProof, hmap, new_eq, liftPanic, bind, Except.bind,
    MerkleTree.getRoot, flat_getLast, htop, ne_eq, not_true_eq_false, if_false]
  rw [verifyProofLoop_ok H items root htop items 0 (fun j h hj => by simpa using hj) (by simp)]
  rfl

/-- C52: the builder keeps one entry per owner, in order of first appearance, with the values of the
last row of that owner. -/
theorem C52_last_row_wins (H : Bytes → Bytes) (rows : List TreeNode) (version : Nat)
    (t : ConfigMerkleTree) (h : ConfigMerkleTree.new H rows version = .ok t) :
    t.treeNodes.map TreeNode.escrowOwner = firstOccurrences (rows.map TreeNode.escrowOwner) ∧
    ∀ owner registryIndex depositCap,
      (∃ n ∈ t.treeNodes, n.escrowOwner = owner ∧ n.registryIndex = registryIndex ∧
        n.depositCap = depositCap) ↔
      ∃ pre n post, rows = pre ++ n :: post ∧ n.escrowOwner = owner ∧ n.registryIndex = registryIndex ∧
        n.depositCap = depositCap ∧ ∀ m ∈ post, m.escrowOwner ≠ owner := by
  have hspec := dedupNodes_spec rows
  -- `fillProofs` only writes the proofs
  have hfill : ∀ (mt : MerkleTree) (ns : List TreeNode) (i : Nat) (ns' : List TreeNode),
      fillProofs mt i ns = .ok ns' →
      ns'.map (fun n => (n.escrowOwner, n.registryIndex, n.depositCap)) =
        ns.map (fun n => (n.escrowOwner, n.registryIndex, n.depositCap)) := by
    intro mt ns
    induction ns with
    | nil => intro i ns' h; simp [fillProofs] at h; subst h; rfl
    | cons n ns ih =>
      intro i ns' h
      rw [fillProofs] at h
      simp only [bind, Except.bind] at h
      split at h
      · simp at h
      · split at h
        · simp at h
        · next v hv =>
          simp only [pure, Except.pure, Except.ok.injEq] at h
          subst h
          simp [ih _ _ hv]
  unfold ConfigMerkleTree.new at h
  simp only [bind, Except.bind] at h
  split at h
  · simp at h
  split at h
  · simp at h
  next ns' hns' =>
  have hmap := hfill _ _ _ _ hns'
  split at h
  · simp at h
  split at h
  · simp at h
  simp only [pure, Except.pure, Except.ok.injEq] at h
  subst h
  simp only
  constructor
  · rw [← hspec.1]
    have := congrArg (List.map Prod.fst) hmap
    simpa [List.map_map, Function.comp_def] using this
  · intro owner ri dc
    have e1 : (∃ n ∈ ns', n.escrowOwner = owner ∧ n.registryIndex = ri ∧ n.depositCap = dc) ↔
        (owner, ri, dc) ∈ ns'.map (fun n => (n.escrowOwner, n.registryIndex, n.depositCap)) := by
      simp
    rw [e1, hmap]
    simp only [List.mem_map, Prod.mk.injEq]
    constructor
    · rintro ⟨n, hn, h1, h2, h3⟩
      obtain ⟨pre, post, he, hp⟩ := (hspec.2 n).1 hn
      exact ⟨pre, n, post, he, h1, h2, h3, by rw [← h1]; exact hp⟩
    · rintro ⟨pre, n, post, he, h1, h2, h3, hp⟩
      exact ⟨n, (hspec.2 n).2 ⟨pre, post, he, by rw [h1]; exact hp⟩, h1, h2, h3⟩

/-! ## C39 -/

/-- C39: for every hash function and every non-empty whitelist (of at most 2^32 - 1 distinct owners)
the builder succeeds, and the proof it generates for each entry is accepted by the on-chain
verifier against the generated root. -/
theorem C39_completeness (H : Bytes → Bytes) (rows : List TreeNode) (version : Nat) (hne : rows ≠ [])
    (hlen : (firstOccurrences (rows.map TreeNode.escrowOwner)).length ≤ 4294967295) :
    ∃ t, ConfigMerkleTree.new H rows version = .ok t ∧
      ∀ n ∈ t.treeNodes, ∃ proof, n.proof = some proof ∧
        merkleVerify H proof t.merkleRoot
          (H (0 :: H (entryString n.escrowOwner n.registryIndex n.depositCap))) = true := by
  have hspec := dedupNodes_spec rows
  have hlen' : (dedupNodes rows).length ≤ 4294967295 := by
    rw [← hspec.1, List.length_map] at hlen; exact hlen
  obtain ⟨root, htop, hnew⟩ := configTree_eq H rows version hne hlen'
  refine ⟨_, hnew, ?_⟩
  intro n hn
  simp only [List.mem_mapIdx] at hn
  obtain ⟨j, hj, rfl⟩ := hn
  refine ⟨_, rfl, ?_⟩
  have hv := verify_sibs H (((dedupNodes rows).map (TreeNode.hash H)).map (leafHash H)) j
    (leafHash H (TreeNode.hash H (dedupNodes rows)[j])) (by simp [List.getElem?_eq_getElem hj])
  rw [htop] at hv
  simp only [Option.some.injEq] at hv
  unfold merkleVerify
  rw [beq_iff_eq]
  exact hv.symm

/-! ## C40 -/

theorem leBytes_length (n x : Nat) : (leBytes n x).length = n := by
  induction n generalizing x with
  | zero => rfl
  | succ n ih => simp [leBytes, ih]

theorem leBytes_inj (n : Nat) : ∀ x y, x < 256 ^ n → y < 256 ^ n → leBytes n x = leBytes n y → x = y := by
  induction n with
  | zero => intro x y hx hy _; simp at hx hy; omega
  | succ n ih =>
    intro x y hx hy h
    simp only [leBytes, List.cons.injEq] at h
    rw [Nat.pow_succ] at hx hy
    have h1 := ih (x / 256) (y / 256) (Nat.div_lt_of_lt_mul (by rw [Nat.mul_comm]; exact hx))
      (Nat.div_lt_of_lt_mul (by rw [Nat.mul_comm]; exact hy)) h.2
    have h2 : x % 256 = y % 256 := by
      have := congrArg UInt8.toNat h.1
      simpa using this
    omega

theorem entryString_inj {o o' : Bytes} {i i' c c' : Nat} (ho : o.length = o'.length)
    (hi : i < 256) (hi' : i' < 256) (hc : c < u64Bound) (hc' : c' < u64Bound)
    (h : entryString o i c = entryString o' i' c') : o = o' ∧ i = i' ∧ c = c' := by
  unfold entryString at h
  have h1 := List.append_inj_left' h (by simp [leBytes_length])
  have h2 := List.append_inj_right' h (by simp [leBytes_length])
  have h3 := List.append_inj_left h1 ho
  have h4 := List.append_inj_right h1 ho
  rw [u64Bound_eq] at hc hc'
  exact ⟨h3, leBytes_inj 1 i i' (by omega) (by omega) h4,
    leBytes_inj 8 c c' (by norm_num; omega) (by norm_num; omega) h2⟩

theorem innerString_length {l r : Bytes} (hl : l.length = 32) (hr : r.length = 32) :
    (innerString l r).length = 65 := by
  unfold innerString; split <;> simp [hl, hr]

theorem innerString_inj {l r c p : Bytes} (hl : l.length = 32) (hr : r.length = 32)
    (hc : c.length = 32) (hp : p.length = 32) (h : innerString c p = innerString l r) :
    c = l ∨ c = r := by
  unfold innerString at h
  split at h <;> split at h <;> simp only [List.cons.injEq, true_and] at h
  · exact Or.inl (List.append_inj_left h (by omega))
  · exact Or.inr (List.append_inj_left h (by omega))
  · exact Or.inr (List.append_inj_right h (by omega))
  · exact Or.inl (List.append_inj_right h (by omega))

/-- Values occurring in a tree, with the strings they are hashes of. -/
inductive InTree (H : Bytes → Bytes) (leaves : List Bytes) (S : List Bytes) : Bytes → Prop where
  | leaf {x : Bytes} : x ∈ leaves → InTree H leaves S x
  | node {l r : Bytes} : InTree H leaves S l → InTree H leaves S r → innerString l r ∈ S →
      InTree H leaves S (H (innerString l r))

theorem pairLevel_inTree (H : Bytes → Bytes) (leaves S l : List Bytes)
    (hl : ∀ x ∈ l, InTree H leaves S x) (hS : ∀ s ∈ pairLevel innerString l, s ∈ S) :
    ∀ x ∈ up H l, InTree H leaves S x := by
  unfold up
  induction l using pairLevel.induct with
  | case1 => intro x hx; simp [pairLevel] at hx
  | case2 a =>
    intro x hx
    simp only [pairLevel, List.mem_singleton] at hx
    subst hx
    exact .node (hl a (by simp)) (hl a (by simp)) (hS _ (by simp [pairLevel]))
  | case3 a b rest ih =>
    intro x hx
    simp only [pairLevel, List.mem_cons] at hx
    rcases hx with rfl | hx
    · exact .node (hl a (by simp)) (hl b (by simp)) (hS _ (by simp [pairLevel]))
    · exact ih (fun y hy => hl y (by simp [hy])) (fun s hs => hS s (by simp [pairLevel, hs])) x hx

theorem top_inTree (H : Bytes → Bytes) (leaves S l : List Bytes)
    (hl : ∀ x ∈ l, InTree H leaves S x) (hS : ∀ s ∈ upperStrings H l, s ∈ S) (root : Bytes)
    (ht : top H l = some root) : InTree H leaves S root := by
  rw [top] at ht
  split at ht
  · exact hl root (List.mem_of_mem_head? ht)
  · next h =>
    rw [upperStrings] at hS
    simp only [h, dif_neg, not_false_eq_true, List.mem_append] at hS
    exact top_inTree H leaves S (up H l)
      (pairLevel_inTree H leaves S l hl (fun s hs => hS s (Or.inl hs)))
      (fun s hs => hS s (Or.inr hs)) root ht
termination_by l.length
decreasing_by rw [up_length]; omega

/-- Folding a proof up into the tree means starting in the tree. -/
theorem verify_inTree (H : Bytes → Bytes) (hH : ∀ x, (H x).length = 32) (leafStrings S : List Bytes)
    (hls : ∀ s ∈ leafStrings, s.length = 33)
    (proof : List Bytes) (hproof : ∀ p ∈ proof, p.length = 32) :
    ∀ c, c.length = 32 →
    (∀ x ∈ leafStrings ++ S, ∀ y ∈ proofStrings H proof c, H x = H y → x = y) →
    InTree H (leafStrings.map H) S (verifyLoop H proof c) → InTree H (leafStrings.map H) S c := by
  have hlen : ∀ x, InTree H (leafStrings.map H) S x → x.length = 32 := by
    intro x hx
    cases hx with
    | leaf h =>
      obtain ⟨s, _, rfl⟩ := List.mem_map.1 h
      exact hH s
    | node _ _ _ => exact hH _
  induction proof with
  | nil => intro c _ _ h; exact h
  | cons p ps ih =>
    intro c hc hcol h
    rw [verifyLoop_cons] at h
    have hp : p.length = 32 := hproof p (by simp)
    have h' := ih (fun q hq => hproof q (by simp [hq])) (H (innerString c p)) (hH _)
      (fun x hx y hy => hcol x hx y (by simp [proofStrings, hy])) h
    have hmem : innerString c p ∈ proofStrings H (p :: ps) c := by simp [proofStrings]
    generalize hg : H (innerString c p) = v at h'
    cases h' with
    | leaf hv =>
      obtain ⟨s, hs, hsv⟩ := List.mem_map.1 hv
      have := hcol s (by simp [hs]) _ hmem (by rw [hsv, hg])
      have h1 := hls s hs
      rw [this, innerString_length hc hp] at h1
      omega
    | node hl hr hS =>
      rename_i l r
      have := hcol (innerString l r) (by simp [hS]) _ hmem hg.symm
      rcases innerString_inj (hlen l hl) (hlen r hr) hc hp this.symm with rfl | rfl
      · exact hl
      · exact hr

/-- C40: if some proof of any length is accepted by the on-chain verifier against a generated root,
then the checked (owner, registry, cap) is an entry of the whitelist, provided no string hashed by
the check collides with a different string hashed while building the tree. -/
theorem C40_soundness (H : Bytes → Bytes) (hH : ∀ x, (H x).length = 32)
    (rows : List TreeNode) (hrows : ∀ n ∈ rows, n.escrowOwner.length = 32 ∧ n.registryIndex < 256 ∧
      n.depositCap < u64Bound)
    (version : Nat) (t : ConfigMerkleTree) (hnew : ConfigMerkleTree.new H rows version = .ok t)
    (owner : Bytes) (registryIndex depositCap : Nat) (howner : owner.length = 32)
    (hidx : registryIndex < 256) (hcap : depositCap < u64Bound)
    (proof : List Bytes) (hproof : ∀ p ∈ proof, p.length = 32)
    (hcol : ∀ x ∈ buildStrings H t.treeNodes,
      ∀ y ∈ checkStrings H owner registryIndex depositCap proof, H x = H y → x = y)
    (hv : merkleVerify H proof t.merkleRoot
      (H (0 :: H (entryString owner registryIndex depositCap))) = true) :
    ∃ n ∈ t.treeNodes, n.escrowOwner = owner ∧ n.registryIndex = registryIndex ∧
      n.depositCap = depositCap := by
  -- shape of the tree
  have h52 := C52_last_row_wins H rows version t hnew
  have hnodes : ∀ n ∈ t.treeNodes, n.escrowOwner.length = 32 ∧ n.registryIndex < 256 ∧
      n.depositCap < u64Bound := by
    intro n hn
    obtain ⟨pre, m, post, he, h1, h2, h3, _⟩ := (h52.2 _ _ _).1 ⟨n, hn, rfl, rfl, rfl⟩
    have := hrows m (by rw [he]; simp)
    rw [h1, h2, h3] at this
    exact this
  obtain ⟨hmap, htop⟩ : (0 < t.treeNodes.length) ∧
      top H ((t.treeNodes.map (TreeNode.hash H)).map (leafHash H)) = some t.merkleRoot := by
    unfold ConfigMerkleTree.new at hnew
    simp only [bind, Except.bind] at hnew
    split at hnew
    · simp at hnew
    split at hnew
    · simp at hnew
    split at hnew
    · simp at hnew
    split at hnew
    · simp at hnew
    next u hval =>
    simp only [pure, Except.pure, Except.ok.injEq] at hnew
    subst hnew
    simp only [ConfigMerkleTree.validate] at hval
    split at hval
    · simp at hval
    split at hval
    · simp at hval
    split at hval
    · simp at hval
    split at hval
    · next hvp =>
      simp only [ConfigMerkleTree.verifyProof, new_eq, liftPanic, bind, Except.bind,
        MerkleTree.getRoot, flat_getLast] at hvp
      split at hvp
      · simp at hvp
      · next r hr =>
        split at hvp
        · simp at hvp
        · next hne =>
          simp only [ne_eq, not_not] at hne
          subst hne
          refine ⟨?_, hr⟩
          by_contra h0
          simp only [Nat.not_lt, Nat.le_zero, List.length_eq_zero_iff] at h0
          rw [h0] at hr
          simp [top] at hr
    · simp at hval
    · simp at hval
  set strings := t.treeNodes.map (fun n => entryString n.escrowOwner n.registryIndex n.depositCap)
    with hstr
  set leafStrings := strings.map (fun s => (0 : UInt8) :: H s) with hls
  have hleaves : (t.treeNodes.map (TreeNode.hash H)).map (leafHash H) = leafStrings.map H := by
    simp [hls, hstr, TreeNode.hash, nodeHash, leafHash, entryString, Function.comp_def]
  rw [hleaves] at htop
  have hbuild : buildStrings H t.treeNodes = strings ++ leafStrings ++ upperStrings H (leafStrings.map H) :=
    rfl
  rw [hbuild] at hcol
  have hroot : InTree H (leafStrings.map H) (upperStrings H (leafStrings.map H)) t.merkleRoot :=
    top_inTree H _ _ _ (fun x hx => .leaf hx) (fun s hs => hs) _ htop
  unfold merkleVerify at hv
  rw [beq_iff_eq] at hv
  rw [← hv] at hroot
  have hin := verify_inTree H hH leafStrings (upperStrings H (leafStrings.map H))
    (by intro s hs; rw [hls] at hs; obtain ⟨z, _, rfl⟩ := List.mem_map.1 hs; simp [hH])
    proof hproof _ (hH _)
    (fun x hx y hy => hcol x (by
        simp only [List.mem_append] at hx ⊢
        rcases hx with hx | hx
        · exact Or.inl (Or.inr hx)
        · exact Or.inr hx) y (by simp [checkStrings, hy])) hroot
  have hlenIn : ∀ x, InTree H (leafStrings.map H) (upperStrings H (leafStrings.map H)) x →
      x.length = 32 := by
    intro x hx
    cases hx with
    | leaf h =>
      obtain ⟨s, _, rfl⟩ := List.mem_map.1 h
      exact hH s
    | node _ _ _ => exact hH _
  generalize hg : H (0 :: H (entryString owner registryIndex depositCap)) = leaf at hin
  cases hin with
  | leaf hmem =>
    obtain ⟨s, hs, hsv⟩ := List.mem_map.1 hmem
    have e1 := hcol s (by simp [hs]) (0 :: H (entryString owner registryIndex depositCap))
      (by simp [checkStrings]) (by rw [hsv, hg])
    rw [hls] at hs
    obtain ⟨z, hz, rfl⟩ := List.mem_map.1 hs
    simp only [List.cons.injEq, true_and] at e1
    have e2 := hcol z (by simp [hz]) (entryString owner registryIndex depositCap)
      (by simp [checkStrings]) e1
    rw [hstr] at hz
    obtain ⟨n, hn, rfl⟩ := List.mem_map.1 hz
    obtain ⟨k1, k2, k3⟩ := hnodes n hn
    have := entryString_inj (by rw [k1, howner]) k2 hidx k3 hcap e2
    exact ⟨n, hn, this⟩
  | node hl hr hS =>
    rename_i l r
    have e1 := hcol (innerString l r) (by simp [hS]) (0 :: H (entryString owner registryIndex depositCap))
      (by simp [checkStrings]) hg.symm
    have h1 := innerString_length (hlenIn l hl) (hlenIn r hr)
    rw [e1] at h1
    simp [hH] at h1

/-! ## Concrete cases -/

/-- A toy digest with 32-byte values, for the examples. -/
def toyHash (x : Bytes) : Bytes :=
  leBytes 32 (x.foldl (fun a b => (a * 257 + b.toNat + 1) % 2 ^ 256) 7)

/-- Key bytes for the examples. -/
def toyKey (n : Nat) : Bytes := leBytes 32 n

/-- Four rows, three owners: owner 5 appears twice. -/
def toyRows : List TreeNode :=
  [⟨toyKey 5, 0, 100, none⟩, ⟨toyKey 6, 1, 200, none⟩, ⟨toyKey 5, 2, 300, none⟩, ⟨toyKey 7, 0, 50, none⟩]

/-- C39 applies to the toy whitelist. -/
example : ∃ t, ConfigMerkleTree.new toyHash toyRows 0 = .ok t ∧
    ∀ n ∈ t.treeNodes, ∃ proof, n.proof = some proof ∧ merkleVerify toyHash proof t.merkleRoot
      (toyHash (0 :: toyHash (entryString n.escrowOwner n.registryIndex n.depositCap))) = true :=
  C39_completeness toyHash toyRows 0 (by simp [toyRows]) (by decide +kernel)

/-- C52 on the toy whitelist: owner 5 keeps position 0 with the values of row 2. -/
example : dedupNodes toyRows =
    [⟨toyKey 5, 2, 300, none⟩, ⟨toyKey 6, 1, 200, none⟩, ⟨toyKey 7, 0, 50, none⟩] := by
  decide +kernel

theorem toyHash_length (x : Bytes) : (toyHash x).length = 32 := leBytes_length _ _

/-- The root of the toy whitelist. -/
def toyRoot : Bytes :=
  let lf (o i c : Nat) := toyHash (0 :: toyHash (entryString (toyKey o) i c))
  let pr (l r : Bytes) := toyHash (innerString l r)
  pr (pr (lf 5 2 300) (lf 6 1 200)) (pr (lf 7 0 50) (lf 7 0 50))

/-- The proof for owner 6 of the toy whitelist: its left neighbour, then the other half. -/
def toyProof : List Bytes :=
  let lf (o i c : Nat) := toyHash (0 :: toyHash (entryString (toyKey o) i c))
  [lf 5 2 300, toyHash (innerString (lf 7 0 50) (lf 7 0 50))]

/-- The tree of the toy whitelist has root `toyRoot`. -/
theorem toyTree : ∃ t, ConfigMerkleTree.new toyHash toyRows 0 = .ok t ∧ t.merkleRoot = toyRoot ∧
    t.treeNodes.map (fun n => (n.escrowOwner, n.registryIndex, n.depositCap)) =
      [(toyKey 5, 2, 300), (toyKey 6, 1, 200), (toyKey 7, 0, 50)] := by
  have hd : dedupNodes toyRows =
    [⟨toyKey 5, 2, 300, none⟩, ⟨toyKey 6, 1, 200, none⟩, ⟨toyKey 7, 0, 50, none⟩] := by
    decide +kernel
  obtain ⟨root, htop, hnew⟩ := configTree_eq toyHash toyRows 0 (by simp [toyRows])
    (by rw [hd]; decide)
  refine ⟨_, hnew, ?_, ?_⟩
  · rw [hd] at htop
    simp only [List.map_cons, List.map_nil] at htop
    rw [top] at htop
    simp only [up, pairLevel, List.length_cons, List.length_nil] at htop
    rw [dif_neg (by omega), top] at htop
    simp only [up, pairLevel, List.length_cons, List.length_nil] at htop
    rw [dif_neg (by omega), top] at htop
    simp at htop
    exact htop.symm
  · simp [hd]

/-- The hypotheses of C40 are met by the toy whitelist and the proof of owner 6. -/
example : ∃ t, ConfigMerkleTree.new toyHash toyRows 0 = .ok t ∧
    (∀ x ∈ buildStrings toyHash t.treeNodes,
      ∀ y ∈ checkStrings toyHash (toyKey 6) 1 200 toyProof, toyHash x = toyHash y → x = y) ∧
    merkleVerify toyHash toyProof t.merkleRoot
      (toyHash (0 :: toyHash (entryString (toyKey 6) 1 200))) = true := by
  obtain ⟨t, h1, h2, h3⟩ := toyTree
  refine ⟨t, h1, ?_, ?_⟩
  · have hb : buildStrings toyHash t.treeNodes =
        [entryString (toyKey 5) 2 300, entryString (toyKey 6) 1 200, entryString (toyKey 7) 0 50] ++
        [0 :: toyHash (entryString (toyKey 5) 2 300), 0 :: toyHash (entryString (toyKey 6) 1 200),
          0 :: toyHash (entryString (toyKey 7) 0 50)] ++
        upperStrings toyHash [toyHash (0 :: toyHash (entryString (toyKey 5) 2 300)),
          toyHash (0 :: toyHash (entryString (toyKey 6) 1 200)),
          toyHash (0 :: toyHash (entryString (toyKey 7) 0 50))] := by
      have : t.treeNodes.map (fun n => entryString n.escrowOwner n.registryIndex n.depositCap) =
          (t.treeNodes.map (fun n => (n.escrowOwner, n.registryIndex, n.depositCap))).map
            (fun x => entryString x.1 x.2.1 x.2.2) := by simp [Function.comp_def]
      simp only [buildStrings, this, h3, List.map_cons, List.map_nil]
    rw [hb, upperStrings]
    simp only [pairLevel, List.length_cons, List.length_nil]
    rw [dif_neg (by omega), upperStrings]
    simp only [pairLevel, List.length_cons, List.length_nil]
    rw [dif_neg (by omega), upperStrings]
    simp only [List.length_cons, List.length_nil]
    rw [dif_pos (by omega)]
    decide +kernel
  · rw [h2]; decide +kernel

end Verif
