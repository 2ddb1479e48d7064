import Verif.Model.Basic
/-!
# Merkle whitelist

The on-chain verifier (`instructions/create_escrow/process_create_permissioned_escrow_with_merkle_proof.rs`)
and the off-chain `merkle-tree` crate that builds roots and proofs. Everything is over an arbitrary
hash function `H : Bytes → Bytes` standing for `hashv` (SHA-256 of the concatenated slices).
-/

namespace Verif

/-- Byte strings. -/
abbrev Bytes := List UInt8

/-- `<=` on `[u8; 32]` and on `Hash`: lexicographic order on bytes. -/
def bytesLe : Bytes → Bytes → Bool
  | [], _ => true
  | _ :: _, [] => false
  | a :: as, b :: bs => if a.toNat < b.toNat then true else if b.toNat < a.toNat then false else bytesLe as bs

/-- `u64::to_le_bytes` / `u8::to_le_bytes`: `n` little-endian bytes of `x`. -/
def leBytes : Nat → Nat → Bytes
  | 0, _ => []
  | n + 1, x => UInt8.ofNat (x % 256) :: leBytes n (x / 256)

/-- `hashv(&[owner, registry_index, deposit_cap])`: on chain
`process_create_permissioned_escrow_with_merkle_proof.rs:77-81`, off chain
`merkle-tree/src/tree_node.rs:19-25`. -/
def nodeHash (H : Bytes → Bytes) (owner : Bytes) (registryIndex depositCap : Nat) : Bytes :=
  H (owner ++ leBytes 1 registryIndex ++ leBytes 8 depositCap)

/-- `hashv(&[LEAF_PREFIX, x])`: on chain l.82, off chain `merkle-tree/src/merkle_tree.rs:10-14`. -/
def leafHash (H : Bytes → Bytes) (x : Bytes) : Bytes := H (0 :: x)

/-- `hash_intermediate!` (`merkle-tree/src/merkle_tree.rs:16-20`). -/
def intermediateHash (H : Bytes → Bytes) (l r : Bytes) : Bytes := H (1 :: (l ++ r))

/-- Loop of `verify` (`process_create_permissioned_escrow_with_merkle_proof.rs:115-124`). -/
def verifyLoop (H : Bytes → Bytes) : List Bytes → Bytes → Bytes
  | [], c => c
  | p :: ps, c =>
    if bytesLe c p then verifyLoop H ps (H (1 :: (c ++ p)))
    else verifyLoop H ps (H (1 :: (p ++ c)))

/-- `verify` (`process_create_permissioned_escrow_with_merkle_proof.rs:114-127`). -/
def merkleVerify (H : Bytes → Bytes) (proof : List Bytes) (root leaf : Bytes) : Bool :=
  verifyLoop H proof leaf == root

/-! ## `merkle-tree/src/merkle_tree.rs` -/

/-- `MerkleTree` (`merkle_tree.rs:22-26`): all levels in one flat vector. -/
structure MerkleTree where
  leafCount : Nat
  nodes : List Bytes
  deriving DecidableEq, Repr

/-- Checked indexing: Rust panics out of range. -/
def idx (nodes : List Bytes) (i : Nat) : Except Err Bytes :=
  match nodes[i]? with
  | some x => .ok x
  | none => .error .panic

/-- `next_level_len` (`merkle_tree.rs:80-86`). -/
def nextLevelLen (levelLen : Nat) : Nat := if levelLen = 1 then 0 else (levelLen + 1) / 2

theorem nextLevelLen_lt {n : Nat} (h : n ≠ 0) : nextLevelLen n < n := by
  unfold nextLevelLen; split <;> omega

/-- Hash of a pair as the tree builder does it (`merkle_tree.rs:139-152`). -/
def hashPair (H : Bytes → Bytes) (sortedHashes : Bool) (l r : Bytes) : Bytes :=
  if sortedHashes then
    if bytesLe l r then intermediateHash H l r else intermediateHash H r l
  else intermediateHash H l r

/-- Right child of pair `i`: the second node, or the first again if there is none
(`merkle_tree.rs:131-137`). -/
def rightChild (nodes : List Bytes) (prevStart prevLen i : Nat) : Except Err Bytes :=
  if 2 * i + 1 < prevLen then idx nodes (prevStart + 2 * i + 1) else idx nodes (prevStart + 2 * i)

/-- Inner `for i in 0..level_len` (`merkle_tree.rs:129-153`); first argument: iterations left. -/
def buildLevel (H : Bytes → Bytes) (sortedHashes : Bool) (prevStart prevLen : Nat) :
    Nat → Nat → List Bytes → Except Err (List Bytes)
  | 0, _, nodes => .ok nodes
  | n + 1, i, nodes => do
    let l ← idx nodes (prevStart + 2 * i)
    let r ← rightChild nodes prevStart prevLen i
    buildLevel H sortedHashes prevStart prevLen n (i + 1) (nodes ++ [hashPair H sortedHashes l r])

/-- Outer `while level_len > 0` (`merkle_tree.rs:124-158`). -/
def buildLoop (H : Bytes → Bytes) (sortedHashes : Bool) (levelLen levelStart prevLen prevStart : Nat)
    (nodes : List Bytes) : Except Err (List Bytes) :=
  if _h : levelLen = 0 then .ok nodes
  else do
    let nodes' ← buildLevel H sortedHashes prevStart prevLen levelLen 0 nodes
    buildLoop H sortedHashes (nextLevelLen levelLen) (levelStart + levelLen) levelLen levelStart nodes'
termination_by levelLen
decreasing_by exact nextLevelLen_lt (by assumption)

/-- `MerkleTree::new` (`merkle_tree.rs:111-161`); the capacity hint is irrelevant. -/
def MerkleTree.new (H : Bytes → Bytes) (items : List Bytes) (sortedHashes : Bool) :
    Except Err MerkleTree := do
  let nodes ← buildLoop H sortedHashes (nextLevelLen items.length) items.length items.length 0
    (items.map (leafHash H))
  return { leafCount := items.length, nodes := nodes }

/-- `get_root` (`merkle_tree.rs:163-165`). -/
def MerkleTree.getRoot (t : MerkleTree) : Option Bytes := t.nodes.getLast?

/-- `ProofEntry` (`merkle_tree.rs:28-48`). -/
structure ProofEntry where
  target : Bytes
  leftSibling : Option Bytes
  rightSibling : Option Bytes
  deriving DecidableEq, Repr

/-- Siblings of a node within its level, left or right (`merkle_tree.rs:184-194`). -/
def siblingsAt (nodes : List Bytes) (levelLen levelStart nodeIndex : Nat) :
    Except Err (Option Bytes × Option Bytes) :=
  if nodeIndex % 2 = 0 then
    if nodeIndex + 1 < levelLen then
      (idx nodes (levelStart + nodeIndex + 1)).map (fun r => (none, some r))
    else (idx nodes (levelStart + nodeIndex)).map (fun r => (none, some r))
  else (idx nodes (levelStart + nodeIndex - 1)).map (fun l => (some l, none))

/-- Loop of `find_path` (`merkle_tree.rs:172-200`). The slice `level` is read through the flat vector
with the bound `levelLen`. The assertion of `ProofEntry::new` holds by construction. -/
def findPathLoop (nodes : List Bytes) (levelLen levelStart nodeIndex : Nat)
    (lsib rsib : Option Bytes) (path : List ProofEntry) : Except Err (List ProofEntry) :=
  if _h : levelLen = 0 then .ok path
  else do
    let target ← if nodeIndex < levelLen then idx nodes (levelStart + nodeIndex) else .error .panic
    let path' := if lsib.isSome || rsib.isSome then path ++ [⟨target, lsib, rsib⟩] else path
    let (l, r) ← siblingsAt nodes levelLen levelStart nodeIndex
    findPathLoop nodes (nextLevelLen levelLen) (levelStart + levelLen) (nodeIndex / 2) l r path'
termination_by levelLen
decreasing_by exact nextLevelLen_lt (by assumption)

/-- `find_path` (`merkle_tree.rs:167-202`); `none` for an index out of range. -/
def MerkleTree.findPath (t : MerkleTree) (index : Nat) : Except Err (Option (List ProofEntry)) :=
  if index ≥ t.leafCount then .ok none
  else do
    let path ← findPathLoop t.nodes t.leafCount 0 index none none []
    return some path

/-- Loop of `get_proof` (`merkle-tree/src/utils.rs:6-14`). -/
def proofOfPath : List ProofEntry → Except Err (List Bytes)
  | [] => .ok []
  | b :: bs =>
    match b.leftSibling, b.rightSibling with
    | some h, _ => do
      let rest ← proofOfPath bs
      return h :: rest
    | none, some h => do
      let rest ← proofOfPath bs
      return h :: rest
    | none, none => .error .panic

/-- `get_proof` (`merkle-tree/src/utils.rs:3-16`); `expect` panics on an index out of range. -/
def getProof (t : MerkleTree) (index : Nat) : Except Err (List Bytes) := do
  match ← t.findPath index with
  | none => .error .panic
  | some path => proofOfPath path

/-! ## `merkle-tree/src/config_merkle_tree.rs` -/

/-- `TreeNode` (`merkle-tree/src/tree_node.rs:7-16`); the owner is its 32 key bytes. -/
structure TreeNode where
  escrowOwner : Bytes
  registryIndex : Nat
  depositCap : Nat
  proof : Option (List Bytes)
  deriving DecidableEq, Repr

/-- `TreeNode::hash` (`merkle-tree/src/tree_node.rs:19-25`). -/
def TreeNode.hash (H : Bytes → Bytes) (n : TreeNode) : Bytes :=
  nodeHash H n.escrowOwner n.registryIndex n.depositCap

/-- `IndexMap::insert` keyed by owner: replaces the value in place, else appends. -/
def insertNode (n : TreeNode) : List TreeNode → List TreeNode
  | [] => [n]
  | m :: ms => if m.escrowOwner = n.escrowOwner then n :: ms else m :: insertNode n ms

/-- Deduplication by owner (`config_merkle_tree.rs:52-60`). -/
def dedupNodes (rows : List TreeNode) : List TreeNode :=
  rows.foldl (fun acc n => insertNode n acc) []

/-- `ConfigMerkleTree` (`config_merkle_tree.rs:39-46`). -/
structure ConfigMerkleTree where
  merkleRoot : Bytes
  version : Nat
  maxNumNodes : Nat
  treeNodes : List TreeNode
  deriving DecidableEq, Repr

/-- Errors of the crate (`merkle-tree/src/error.rs:3-13`); `panic` for `assert_eq!`, indexing, `expect`. -/
inductive MErr where
  | validation
  | root
  | panic
  deriving DecidableEq, Repr

/-- Lift a panicking computation. -/
def liftPanic {α : Type} : Except Err α → Except MErr α
  | .ok a => .ok a
  | .error _ => .error .panic

/-- Loop filling the proofs (`config_merkle_tree.rs:69-71`). -/
def fillProofs (t : MerkleTree) : Nat → List TreeNode → Except MErr (List TreeNode)
  | _, [] => .ok []
  | i, n :: ns => do
    let p ← liftPanic (getProof t i)
    let rest ← fillProofs t (i + 1) ns
    return { n with proof := some p } :: rest

/-- Loop of `verify_proof` (`config_merkle_tree.rs:172-180`). -/
def verifyProofLoop (H : Bytes → Bytes) (mk : MerkleTree) (root : Bytes) :
    Nat → List Bytes → Except MErr Unit
  | _, [] => .ok ()
  | i, h :: hs => do
    let proof ← liftPanic (getProof mk i)
    if merkleVerify H proof root (leafHash H h) then verifyProofLoop H mk root (i + 1) hs
    else .error .validation

/-- `verify_proof` (`config_merkle_tree.rs:154-183`). -/
def ConfigMerkleTree.verifyProof (H : Bytes → Bytes) (t : ConfigMerkleTree) : Except MErr Unit := do
  let hashed := t.treeNodes.map (TreeNode.hash H)
  let mk ← liftPanic (MerkleTree.new H hashed true)
  match mk.getRoot with
  | none => .error .validation
  | some r =>
    if r ≠ t.merkleRoot then .error .panic
    else verifyProofLoop H mk t.merkleRoot 0 hashed

/-- `validate` (`config_merkle_tree.rs:117-151`); `2^32 - 1` is `4294967295`. -/
def ConfigMerkleTree.validate (H : Bytes → Bytes) (t : ConfigMerkleTree) : Except MErr Unit :=
  if t.maxNumNodes > 4294967295 then .error .validation
  else if t.treeNodes.length ≠ t.maxNumNodes then .error .validation
  else if ¬ (t.treeNodes.map TreeNode.escrowOwner).Nodup then .error .validation
  else
    match t.verifyProof H with
    | .ok () => .ok ()
    | .error .panic => .error .panic
    | .error _ => .error .validation

/-- `ConfigMerkleTree::new` (`config_merkle_tree.rs:51-89`). -/
def ConfigMerkleTree.new (H : Bytes → Bytes) (rows : List TreeNode) (version : Nat) :
    Except MErr ConfigMerkleTree := do
  let nodes := dedupNodes rows
  let tree ← liftPanic (MerkleTree.new H (nodes.map (TreeNode.hash H)) true)
  let nodes' ← fillProofs tree 0 nodes
  match tree.getRoot with
  | none => .error .root
  | some r =>
    let t : ConfigMerkleTree :=
      { merkleRoot := r, version := version, maxNumNodes := nodes'.length, treeNodes := nodes' }
    t.validate H
    return t

/-- `get_node` (`config_merkle_tree.rs:107-115`). -/
def ConfigMerkleTree.getNode (t : ConfigMerkleTree) (owner : Bytes) : Except MErr TreeNode :=
  match t.treeNodes.find? (fun n => n.escrowOwner = owner) with
  | some n => .ok n
  | none => .error .panic

end Verif
