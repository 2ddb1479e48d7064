import Verif.SpecCollision
import Verif.Props.Admin
import Verif.Props.Selectors
/-!
# C111: getting past a whitelist is a collision of SHA-256

C38 and C40 assume that certain strings do not collide. Here nothing is assumed: from a list, and an entry and proof that
the program accepts although the entry is not on the list, a short search finds two different short strings with the
same hash.
-/

namespace Verif
open Spec

theorem collisionIn_some {H : Bytes → Bytes} {xs ys : List Bytes} {x y : Bytes} (h : collisionIn H xs ys = some (x, y)) :
    x ∈ xs ∧ y ∈ ys ∧ x ≠ y ∧ H x = H y := by
  have h1 := List.find?_some h
  have h2 := List.mem_of_find?_eq_some h
  obtain ⟨u, hu, hm⟩ := List.mem_flatMap.1 h2
  obtain ⟨v, hv, e⟩ := List.mem_map.1 hm
  cases e
  have h3 := of_decide_eq_true h1
  exact ⟨hu, hv, h3.1, h3.2⟩

theorem collisionIn_none {H : Bytes → Bytes} {xs ys : List Bytes} (h : collisionIn H xs ys = none) :
    ∀ x ∈ xs, ∀ y ∈ ys, H x = H y → x = y := by
  intro x hx y hy e
  by_contra hne
  have := List.find?_eq_none.1 h (x, y) (List.mem_flatMap.2 ⟨x, hx, List.mem_map.2 ⟨y, hy, rfl⟩⟩)
  exact this (decide_eq_true ⟨hne, e⟩)

theorem entryString_length {o : Bytes} (ho : o.length = 32) (i c : Nat) : (entryString o i c).length = 41 := by
  unfold entryString
  rw [List.length_append, List.length_append, leBytes_length, leBytes_length, ho]

theorem pairLevel_inner {level : List Bytes} (h : ∀ x ∈ level, x.length = 32) :
    ∀ s ∈ pairLevel innerString level, s.length = 65 := by
  induction level using pairLevel.induct with
  | case1 => intro s hs; exact absurd hs List.not_mem_nil
  | case2 a =>
    intro s hs
    rw [List.mem_singleton.1 hs]
    have := h a List.mem_cons_self
    exact innerString_length this this
  | case3 a b rest ih =>
    intro s hs
    rcases List.mem_cons.1 hs with rfl | hs
    · exact innerString_length (h a List.mem_cons_self) (h b (List.mem_cons_of_mem _ List.mem_cons_self))
    · exact ih (fun x hx => h x (List.mem_cons_of_mem _ (List.mem_cons_of_mem _ hx))) s hs

theorem pairLevel_hashed {H : Bytes → Bytes} (hH : ∀ x, (H x).length = 32) {level : List Bytes} :
    ∀ s ∈ pairLevel (fun l r => H (innerString l r)) level, s.length = 32 := by
  induction level using pairLevel.induct with
  | case1 => intro s hs; exact absurd hs List.not_mem_nil
  | case2 a => intro s hs; rw [List.mem_singleton.1 hs]; exact hH _
  | case3 a b rest ih =>
    intro s hs
    rcases List.mem_cons.1 hs with rfl | hs
    · exact hH _
    · exact ih s hs

theorem upperStrings_bounds {H : Bytes → Bytes} (hH : ∀ x, (H x).length = 32) (level : List Bytes)
    (h : ∀ x ∈ level, x.length = 32) :
    (upperStrings H level).length ≤ 2 * level.length ∧ ∀ s ∈ upperStrings H level, s.length = 65 := by
  suffices g : ∀ n (level : List Bytes), level.length = n → (∀ x ∈ level, x.length = 32) →
      (upperStrings H level).length ≤ 2 * (n - 1) ∧ ∀ s ∈ upperStrings H level, s.length = 65 by
    obtain ⟨a, b⟩ := g _ level rfl h
    exact ⟨by omega, b⟩
  intro n
  induction n using Nat.strong_induction_on with
  | _ n ih =>
    intro level hn hl
    rw [upperStrings]
    split
    · exact ⟨Nat.zero_le _, fun s hs => absurd hs List.not_mem_nil⟩
    · rename_i hgt
      have e := pairLevel_length (fun l r => H (innerString l r)) level
      obtain ⟨a, b⟩ := ih ((n + 1) / 2) (by omega) _ (by rw [e, hn]) (pairLevel_hashed hH)
      constructor
      · rw [List.length_append, pairLevel_length, hn]
        omega
      · intro s hs
        rcases List.mem_append.1 hs with hs | hs
        · exact pairLevel_inner hl s hs
        · exact b s hs

theorem proofStrings_bounds {H : Bytes → Bytes} (hH : ∀ x, (H x).length = 32) :
    ∀ (proof : List Bytes) (c : Bytes), c.length = 32 → (∀ q ∈ proof, q.length = 32) →
      (proofStrings H proof c).length = proof.length ∧ ∀ s ∈ proofStrings H proof c, s.length = 65
  | [], _, _, _ => ⟨rfl, fun _ hs => absurd hs List.not_mem_nil⟩
  | q :: qs, c, hc, hq => by
    obtain ⟨a, b⟩ := proofStrings_bounds hH qs (H (innerString c q)) (hH _) fun x hx => hq x (List.mem_cons_of_mem _ hx)
    refine ⟨by simp only [proofStrings, List.length_cons, a], fun s hs => ?_⟩
    rcases List.mem_cons.1 hs with rfl | hs
    · exact innerString_length hc (hq q List.mem_cons_self)
    · exact b s hs

/-- **C111** (effort). The strings searched are few and short: at most four for each row of the list, two more than the
proof has nodes for the check, none longer than 65 bytes. -/
theorem C111_effort (H : Bytes → Bytes) (hH : ∀ x, (H x).length = 32) (nodes : List TreeNode)
    (hnodes : ∀ n ∈ nodes, n.escrowOwner.length = 32) {owner : Bytes} (howner : owner.length = 32) (i c : Nat)
    {proof : List Bytes} (hproof : ∀ q ∈ proof, q.length = 32) :
    (buildStrings H nodes).length ≤ 4 * nodes.length ∧ (checkStrings H owner i c proof).length = proof.length + 2 ∧
    (∀ s ∈ buildStrings H nodes ++ checkStrings H owner i c proof, s.length ≤ 65) := by
  have U := upperStrings_bounds hH
    (((nodes.map (fun n => entryString n.escrowOwner n.registryIndex n.depositCap)).map (fun s => 0 :: H s)).map H)
    (fun x hx => by obtain ⟨y, -, rfl⟩ := List.mem_map.1 hx; exact hH _)
  have Q := proofStrings_bounds hH proof (H (0 :: H (entryString owner i c))) (hH _) hproof
  refine ⟨?_, ?_, ?_⟩
  · have := U.1
    simp only [List.length_map] at this
    simp only [buildStrings, List.length_append, List.length_map]
    omega
  · simp only [checkStrings, List.length_cons, Q.1]
  · intro s hs
    rcases List.mem_append.1 hs with hs | hs
    · rcases List.mem_append.1 hs with hs | hs
      · rcases List.mem_append.1 hs with hs | hs
        · obtain ⟨n, hn, rfl⟩ := List.mem_map.1 hs
          rw [entryString_length (hnodes n hn)]
          omega
        · obtain ⟨u, -, rfl⟩ := List.mem_map.1 hs
          rw [List.length_cons, hH]
          omega
      · exact (U.2 s hs).le
    · rcases List.mem_cons.1 hs with rfl | hs
      · rw [entryString_length howner]
        omega
      rcases List.mem_cons.1 hs with rfl | hs
      · rw [List.length_cons, hH]
        omega
      · exact (Q.2 s hs).le

/-- **C111.** If the program accepts an entry, with some proof, against the root of a compiled list, the entry is on the
list, or the search finds two different strings with the same hash. For every hash with 32 bytes. -/
theorem C111_accepted (H : Bytes → Bytes) (hH : ∀ x, (H x).length = 32) {rows : List TreeNode}
    (hrows : ∀ n ∈ rows, n.escrowOwner.length = 32 ∧ n.registryIndex < 256 ∧ n.depositCap < u64Bound)
    {version : Nat} {t : ConfigMerkleTree} (hnew : ConfigMerkleTree.new H rows version = .ok t)
    {owner : Bytes} {registryIndex depositCap : Nat} (howner : owner.length = 32) (hidx : registryIndex < 256)
    (hcap : depositCap < u64Bound) {proof : List Bytes} (hproof : ∀ p ∈ proof, p.length = 32)
    (hv : merkleVerify H proof t.merkleRoot
      (H (0 :: H (entryString owner registryIndex depositCap))) = true) :
    OnList t.treeNodes owner registryIndex depositCap ∨
    ∃ x y, collisionIn H (buildStrings H t.treeNodes) (checkStrings H owner registryIndex depositCap proof) = some (x, y) ∧
      x ≠ y ∧ H x = H y := by
  cases hc : collisionIn H (buildStrings H t.treeNodes) (checkStrings H owner registryIndex depositCap proof) with
  | some z =>
    obtain ⟨x, y⟩ := z
    obtain ⟨-, -, h1, h2⟩ := collisionIn_some hc
    exact .inr ⟨x, y, rfl, h1, h2⟩
  | none =>
    exact .inl (C40_soundness H hH rows hrows version t hnew owner registryIndex depositCap howner hidx hcap proof hproof
      (collisionIn_none hc) hv)

/-- **C111** (the ledger). Let the hash be SHA-256, and the roots published by the creator roots of compiled lists. Every
escrow of the presale is that of a row of one of these lists; or it was opened, against one of them, with a proof from
which the search finds two different strings with the same SHA-256. -/
theorem C111_escrow {w0 : World} (G : Genesis w0) (ops : List Op) {k : Addr} {e : Escrow} {p : Presale}
    (he : (run w0 ops).escrows.get? k = some e) (hp : (run w0 ops).presales e.presale = some p)
    (hm : p.whitelistMode = 1) (hash : w0.env.hash = sha256) (key32 : ∀ a, (w0.env.keyBytes a).length = 32)
    (lists : Bytes → ConfigMerkleTree)
    (compiled : ∀ tx y, Op.ix tx (.createMerkle y) ∈ ops → y.presale = e.presale → tx.signed p.owner = true →
      ∃ rows version, (∀ n ∈ rows, n.escrowOwner.length = 32 ∧ n.registryIndex < 256 ∧ n.depositCap < u64Bound) ∧
        ConfigMerkleTree.new sha256 rows version = .ok (lists y.root) ∧ (lists y.root).merkleRoot = y.root) :
    ∃ tx y, Op.ix tx (.createMerkle y) ∈ ops ∧ y.presale = e.presale ∧ tx.signed p.owner = true ∧
      (OnList (lists y.root).treeNodes (w0.env.keyBytes e.owner) e.registryIndex e.depositMaxCap ∨
        ∃ tx' z u v, Op.ix tx' (.createEscrowMerkle z) ∈ ops ∧ z.presale = e.presale ∧ z.owner = e.owner ∧
          collisionIn sha256 (buildStrings sha256 (lists y.root).treeNodes)
            (checkStrings sha256 (w0.env.keyBytes e.owner) e.registryIndex e.depositMaxCap z.proof) = some (u, v) ∧
          u ≠ v ∧ sha256 u = sha256 v) := by
  obtain ⟨before, tx1, y, mid, tx2, x, post, rc1, rc2, h1, -, h3, h4, -, h6, h7, h8, h9, h10, h11, h12, h13, -⟩ :=
    C38_proof_checked G ops he hp hm
  have m1 : Op.ix tx1 (.createMerkle y) ∈ ops := by rw [h1]; simp
  have m2 : Op.ix tx2 (.createEscrowMerkle x) ∈ ops := by rw [h1]; simp
  obtain ⟨rows, version, r1, r2, r3⟩ := compiled tx1 y m1 h4 h3
  rw [hash] at h13
  refine ⟨tx1, y, m1, h4, h3, ?_⟩
  rcases C111_accepted sha256 sha256_length r1 r2 (key32 e.owner) h10 h11 h12 (by rw [r3]; exact h13) with h | h
  · exact .inl h
  · obtain ⟨u, v, a, b, c⟩ := h
    exact .inr ⟨tx2, x, u, v, m2, h6, h7, a, b, c⟩

theorem sib_mem {l : List Bytes} {i : Nat} {x : Bytes} (h : sib l i = some x) : x ∈ l := by
  unfold sib at h
  split at h
  · split at h <;> exact List.mem_of_getElem? h
  · exact List.mem_of_getElem? h

/-- What checking a generated proof hashes was hashed when the tree was built, and the proof's nodes are nodes of the
tree. -/
theorem sibs_strings (H : Bytes → Bytes) (hH : ∀ x, (H x).length = 32) (l : List Bytes) (hl : ∀ x ∈ l, x.length = 32)
    (i : Nat) (c : Bytes) (hc : l[i]? = some c) :
    (∀ s ∈ proofStrings H (sibs H l i) c, s ∈ upperStrings H l) ∧ ∀ q ∈ sibs H l i, q.length = 32 := by
  have hi : i < l.length := (List.getElem?_eq_some_iff.1 hc).1
  rw [sibs, upperStrings]
  by_cases h : l.length ≤ 1
  · rw [dif_pos h, dif_pos h]
    exact ⟨fun s hs => absurd hs List.not_mem_nil, fun s hs => absurd hs List.not_mem_nil⟩
  rw [dif_neg h, dif_neg h]
  obtain ⟨x, hx⟩ := sib_some hi
  rw [hx]
  have g := up_get H hi hc hx
  have g' : (pairLevel innerString l)[i / 2]? = some (innerString c x) := up_get id hi hc hx
  have : (up H l).length < l.length := by rw [up_length]; omega
  obtain ⟨a, b⟩ := sibs_strings H hH (up H l) (pairLevel_hashed hH) (i / 2) _ g
  constructor
  · intro s hs
    rcases List.mem_cons.1 hs with rfl | hs
    · exact List.mem_append_left _ (List.mem_of_getElem? g')
    · exact List.mem_append_right _ (a s hs)
  · intro q hq
    rcases List.mem_cons.1 hq with rfl | hq
    · exact hl _ (sib_mem hx)
    · exact b q hq
termination_by l.length

/-- The proof of an entry, what it is accepted for and what checking it hashes. -/
theorem entry_proof (H : Bytes → Bytes) (hH : ∀ x, (H x).length = 32) {rows : List TreeNode}
    (hlen : (firstOccurrences (rows.map TreeNode.escrowOwner)).length ≤ 4294967295)
    {version : Nat} {t : ConfigMerkleTree} (hnew : ConfigMerkleTree.new H rows version = .ok t) {o : Bytes} {i c : Nat}
    (hon : OnList t.treeNodes o i c) :
    ∃ proof, (∀ q ∈ proof, q.length = 32) ∧
      merkleVerify H proof t.merkleRoot (H (0 :: H (entryString o i c))) = true ∧
      ∀ s ∈ checkStrings H o i c proof, s ∈ buildStrings H t.treeNodes := by
  have hne : rows ≠ [] := by
    obtain ⟨pre, n, post, e, -⟩ := ((C52_last_row_wins H rows version t hnew).2 o i c).1 hon
    rw [e]
    simp
  have hd : (dedupNodes rows).length ≤ 4294967295 := by
    rw [← List.length_map (f := TreeNode.escrowOwner), (dedupNodes_spec rows).1]
    exact hlen
  obtain ⟨root, htop, he⟩ := configTree_eq H rows version hne hd
  rw [he] at hnew
  cases hnew
  obtain ⟨n, hn, rfl, rfl, rfl⟩ := hon
  obtain ⟨j, hj, hget⟩ := List.mem_iff_getElem.1 hn
  rw [List.getElem_mapIdx] at hget
  have hj' : j < (dedupNodes rows).length := by rwa [List.length_mapIdx] at hj
  have e1 : n.escrowOwner = (dedupNodes rows)[j].escrowOwner := by rw [← hget]
  have e2 : n.registryIndex = (dedupNodes rows)[j].registryIndex := by rw [← hget]
  have e3 : n.depositCap = (dedupNodes rows)[j].depositCap := by rw [← hget]
  rw [e1, e2, e3]
  set m := (dedupNodes rows)[j] with hm
  have hl : (((dedupNodes rows).map (TreeNode.hash H)).map (leafHash H))[j]? =
      some (H (0 :: H (entryString m.escrowOwner m.registryIndex m.depositCap))) := by
    rw [List.getElem?_map, List.getElem?_map, List.getElem?_eq_getElem hj']
    rfl
  have hleaf : ∀ x ∈ ((dedupNodes rows).map (TreeNode.hash H)).map (leafHash H), x.length = 32 := by
    intro x hx
    obtain ⟨y, -, rfl⟩ := List.mem_map.1 hx
    exact hH _
  obtain ⟨a, b⟩ := sibs_strings H hH _ hleaf j _ hl
  have hv := verify_sibs H _ j _ hl
  rw [htop] at hv
  refine ⟨_, b, ?_, ?_⟩
  · unfold merkleVerify
    rw [← Option.some.inj hv]
    simp
  · have es : ((dedupNodes rows).mapIdx (fun j n => { n with
          proof := some (sibs H (((dedupNodes rows).map (TreeNode.hash H)).map (leafHash H)) j) })).map
            (fun n => entryString n.escrowOwner n.registryIndex n.depositCap) =
        (dedupNodes rows).map (fun n => entryString n.escrowOwner n.registryIndex n.depositCap) := by
      refine List.ext_getElem (by rw [List.length_map, List.length_mapIdx, List.length_map]) fun j h1 h2 => ?_
      rw [List.getElem_map, List.getElem_mapIdx, List.getElem_map]
    have hin : entryString m.escrowOwner m.registryIndex m.depositCap ∈
        (dedupNodes rows).map (fun n => entryString n.escrowOwner n.registryIndex n.depositCap) :=
      List.mem_map.2 ⟨m, List.getElem_mem hj', rfl⟩
    intro s hs
    unfold buildStrings
    simp only [es]
    rcases List.mem_cons.1 hs with rfl | hs
    · exact List.mem_append_left _ (List.mem_append_left _ hin)
    rcases List.mem_cons.1 hs with rfl | hs
    · exact List.mem_append_left _ (List.mem_append_right _ (List.mem_map.2 ⟨_, hin, rfl⟩))
    · refine List.mem_append_right _ ?_
      have := a s hs
      simp only [List.map_map] at this ⊢
      exact this

theorem commits_half (H : Bytes → Bytes) (hH : ∀ x, (H x).length = 32) {rows rows' : List TreeNode}
    (hrows : ∀ n ∈ rows, n.escrowOwner.length = 32 ∧ n.registryIndex < 256 ∧ n.depositCap < u64Bound)
    (hrows' : ∀ n ∈ rows', n.escrowOwner.length = 32 ∧ n.registryIndex < 256 ∧ n.depositCap < u64Bound)
    (hlen : (firstOccurrences (rows.map TreeNode.escrowOwner)).length ≤ 4294967295)
    {version version' : Nat} {t t' : ConfigMerkleTree} (hnew : ConfigMerkleTree.new H rows version = .ok t)
    (hnew' : ConfigMerkleTree.new H rows' version' = .ok t') (same : t.merkleRoot = t'.merkleRoot)
    (hcol : ∀ x ∈ buildStrings H t'.treeNodes, ∀ y ∈ buildStrings H t.treeNodes, H x = H y → x = y)
    {o : Bytes} {i c : Nat} (hon : OnList t.treeNodes o i c) : OnList t'.treeNodes o i c := by
  obtain ⟨proof, h1, h2, h3⟩ := entry_proof H hH hlen hnew hon
  obtain ⟨pre, n, post, e, rfl, rfl, rfl, -⟩ := ((C52_last_row_wins H rows version t hnew).2 o i c).1 hon
  obtain ⟨r1, r2, r3⟩ := hrows n (by rw [e]; simp)
  rw [same] at h2
  exact C40_soundness H hH rows' hrows' version' t' hnew' _ _ _ r1 r2 r3 proof h1
    (fun x hx y hy => hcol x hx y (h3 y hy)) h2

/-- **C111** (commitment). A root stands for one list: two compiled lists with the same root have the same entries, or
the search finds, among the strings hashed for the one and for the other, two different ones with the same hash. -/
theorem C111_commits (H : Bytes → Bytes) (hH : ∀ x, (H x).length = 32) {rows rows' : List TreeNode}
    (hrows : ∀ n ∈ rows, n.escrowOwner.length = 32 ∧ n.registryIndex < 256 ∧ n.depositCap < u64Bound)
    (hrows' : ∀ n ∈ rows', n.escrowOwner.length = 32 ∧ n.registryIndex < 256 ∧ n.depositCap < u64Bound)
    (hlen : (firstOccurrences (rows.map TreeNode.escrowOwner)).length ≤ 4294967295)
    (hlen' : (firstOccurrences (rows'.map TreeNode.escrowOwner)).length ≤ 4294967295)
    {version version' : Nat} {t t' : ConfigMerkleTree} (hnew : ConfigMerkleTree.new H rows version = .ok t)
    (hnew' : ConfigMerkleTree.new H rows' version' = .ok t') (same : t.merkleRoot = t'.merkleRoot) :
    (∀ o i c, OnList t.treeNodes o i c ↔ OnList t'.treeNodes o i c) ∨
    ∃ x y, collisionIn H (buildStrings H t.treeNodes) (buildStrings H t'.treeNodes) = some (x, y) ∧ x ≠ y ∧ H x = H y := by
  cases hc : collisionIn H (buildStrings H t.treeNodes) (buildStrings H t'.treeNodes) with
  | some z =>
    obtain ⟨x, y⟩ := z
    obtain ⟨-, -, h1, h2⟩ := collisionIn_some hc
    exact .inr ⟨x, y, rfl, h1, h2⟩
  | none =>
    have g := collisionIn_none hc
    exact .inl fun o i c =>
      ⟨commits_half H hH hrows hrows' hlen hnew hnew' same fun x hx y hy e => (g y hy x hx e.symm).symm,
        commits_half H hH hrows' hrows hlen' hnew' hnew same.symm g⟩

/-! ## Examples -/

namespace Ex

/-- A hash that shows only the length of the string. -/
def lengthHash (x : Bytes) : Bytes := leBytes 32 x.length

/-- Its tree of the example list. -/
def weakTree : ConfigMerkleTree :=
  match ConfigMerkleTree.new lengthHash rows 3 with
  | .ok t => t
  | .error _ => theTree

def weakProof : List Bytes := ((weakTree.treeNodes[0]?).bind TreeNode.proof).getD []

/-- With that hash somebody who is not on the list is accepted, and the search finds two strings. -/
example : ConfigMerkleTree.new lengthHash rows 3 = .ok weakTree ∧
    merkleVerify lengthHash weakProof weakTree.merkleRoot
      (lengthHash (0 :: lengthHash (entryString (genesis.env.keyBytes (.key 77)) 0 999))) = true ∧
    (weakTree.treeNodes.all fun n => decide (n.escrowOwner ≠ genesis.env.keyBytes (.key 77))) = true ∧
    (collisionIn lengthHash (buildStrings lengthHash weakTree.treeNodes)
      (checkStrings lengthHash (genesis.env.keyBytes (.key 77)) 0 999 weakProof)).isSome = true := by decide +kernel

/-- The example deployment with SHA-256. -/
def shaGenesis : World := { genesis with env := { genesis.env with hash := sha256 } }

theorem shaGenesis_ok : Genesis shaGenesis :=
  let G := genesis_ok
  ⟨G.presales, G.escrows, G.merkleRoots, G.operators, G.metadata, G.fixedArgs, G.vaults, G.amounts, G.mints⟩

def shaTree : ConfigMerkleTree :=
  match ConfigMerkleTree.new sha256 rows 3 with
  | .ok t => t
  | .error _ => theTree

def shaProof : List Bytes := ((shaTree.treeNodes[0]?).bind TreeNode.proof).getD []

/-- The creator publishes the root; Alice opens an escrow with their proof. -/
def shaOps : List Op :=
  [init 1 1 0 wideReg, .ix (tx [creator]) (.createMerkle ⟨sale, creator, shaTree.merkleRoot, 3⟩), .tick 10,
    byProof alice shaProof 300]

/-- The conditions of `C111_escrow` hold in that history. -/
example : hasEsc (run shaGenesis shaOps) (escrowOf alice) (fun e => decide (e.presale = sale ∧ e.depositMaxCap = 300)) = true ∧
    has (run shaGenesis shaOps) (fun p => decide (p.whitelistMode = 1)) = true ∧ shaGenesis.env.hash = sha256 ∧
    (∀ a, (shaGenesis.env.keyBytes a).length = 32) ∧
    (∀ n ∈ rows, n.escrowOwner.length = 32 ∧ n.registryIndex < 256 ∧ n.depositCap < u64Bound) ∧
    ConfigMerkleTree.new sha256 rows 3 = .ok shaTree ∧ shaProof.length = 1 := by
  refine ⟨by decide +kernel, by decide +kernel, rfl, ?_, by decide +kernel, by decide +kernel, by decide +kernel⟩
  intro a; cases a <;> simp [shaGenesis, genesis]

/-- The same rows the other way round have the same root (children are sorted), and no collision is found. -/
example : (match ConfigMerkleTree.new sha256 rows.reverse 4 with
    | .ok t => decide (t.merkleRoot = shaTree.merkleRoot) &&
        (collisionIn sha256 (buildStrings sha256 shaTree.treeNodes) (buildStrings sha256 t.treeNodes)).isNone
    | .error _ => false) = true := by decide +kernel

end Ex

end Verif
