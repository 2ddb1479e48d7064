import Verif.Model.Merkle
import Verif.Model.Pda
/-!
# The rest of the `merkle-tree` crate

What `Model/Merkle.lean` leaves out because the chain does not depend on it: the crate's own proof check, the
capacity it reserves, the lookup table, and the address of the account that stores a root. Reading and writing files
(`config_merkle_tree.rs:91-105`) is not modelled.
-/

namespace Verif

/-- `Proof::verify` (`merkle-tree/src/merkle_tree.rs:59-73`): the candidate replaces the missing sibling of each entry, each hash
must be the entry's target; the root is not looked at. -/
def proofVerify (H : Bytes → Bytes) : List ProofEntry → Bytes → Bool
  | [], _ => true
  | e :: es, c =>
    let h := intermediateHash H (e.leftSibling.getD c) (e.rightSibling.getD c)
    if h = e.target then proofVerify H es h else false

/-- `convert_to_hashmap` (`config_merkle_tree.rs:186-191`): collecting keeps the last entry of a key. -/
def ConfigMerkleTree.toHashmap (t : ConfigMerkleTree) : Bytes → Option TreeNode :=
  t.treeNodes.foldl (fun m n o => if o = n.escrowOwner then some n else m o) (fun _ => none)

/-- `get_merkle_root_config_pubkey` (`config_merkle_tree.rs:193-203`), `none` where it panics. -/
def ConfigMerkleTree.rootConfigPubkey (t : ConfigMerkleTree) (presale programId : Bytes) : Option Bytes :=
  (findPda [ascii "merkle_root", presale, leBytes 8 t.version] programId).map Prod.fst

end Verif
