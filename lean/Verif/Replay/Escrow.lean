import Verif.Replay.Base
/-!
# `tests/test_create_escrow.rs`

Not replayed: `test_initialize_permissionless_escrow_with_invalid_presale_registry_index`, where the caller passes an
address which is not the derived one; here new accounts are always at the derived address, and the check of the
address is in `Model/CallAccounts.lean` (C67).
-/

namespace Verif.Replay.Escrow

open Verif.Replay

def w0 : World := start spl native

def sold (m : Mode) (a : Access) : Option World := after w0 (create w0 (args m a))
def sold5 (m : Mode) (a : Access) : Option World :=
  after w0 (create w0 { args m a with presaleRegistries := fiveRegistries m a })

def newOperator (creator owner : Addr) : Op := .ix (tx [creator]) (.createOperator ⟨owner, creator⟩)

/-- `create_permissioned_escrow_with_creator` -/
def openOperator (creator operatorOwner owner : Addr) (i cap : Nat) : Op :=
  .ix (tx [operatorOwner, user])
    (.createEscrowCreator ⟨sale, owner, .operator creator operatorOwner, operatorOwner, user, i, cap⟩)

def buyerMax (w : World) (i : Nat) : Option Nat := do
  let p ← presale? w
  let r ← p.registries[i]?
  return r.buyerMaximumDepositCap

/-- `test_initialize_escrow_with_invalid_whitelist_mode` -/
def wrongMode : Option Bool := do
  let a ← sold .fixedPrice .authority
  let b ← sold .fixedPrice .merkle
  let c ← sold .fcfs .permissionless
  let c ← after c [newOperator user operator]
  let m ← buyerMax c 0
  return refused a (.p .invalidPresaleWhitelistMode) [openEscrow user] &&
    refused b (.p .invalidPresaleWhitelistMode) [openEscrow user] &&
    refused c (.p .invalidPresaleWhitelistMode) [openOperator user operator user 0 m]

/-- `test_initialize_escrow_when_deposit_closed` -/
def tooLate : Option Bool := do
  let w ← sold .fixedPrice .permissionless
  let p ← presale? w
  return refused (warp w p.presaleEndTime) (.p .presaleNotOpenForDeposit) [openEscrow user]

/-- `test_initialize_permissioned_with_authority_escrow_with_invalid_operator`: the operator of another creator. -/
def wrongOperator : Option Bool := do
  let w ← sold .fixedPrice .authority
  let w ← after w [newOperator user operator, newOperator user1 user2]
  let m ← buyerMax w 0
  return refused w (.p .invalidOperator) [openOperator user1 user2 user1 0 m]

/-- `test_initialize_permissioned_with_authority_escrow` and the same with a registry which is not there -/
def authority : Option Bool := do
  let w ← sold .fixedPrice .authority
  let w ← after w [newOperator user operator]
  let m ← buyerMax w 0
  let w' ← after w [openOperator user operator user 0 m]
  return (w'.escrows.get? (escrowOf user 0)).isSome &&
    refused w (.p .invalidPresaleRegistryIndex) [openOperator user operator user 1 0]

example : wrongMode = some true ∧ tooLate = some true ∧ wrongOperator = some true ∧
    authority = some true := by decide +kernel

/-- `test_initialize_permissioned_with_merkle_proof_escrow_with_invalid_proof` (another's proof),
`…_with_invalid_registry_index` and `test_initialize_permissioned_with_merkle_proof_escrow` -/
def merkle : Option Bool := do
  let w ← sold .fixedPrice .merkle
  let m ← buyerMax w 0
  let t1 ← tree [(user1, 0, m)] 0
  let n1 ← node t1 user1
  let q1 ← n1.proof
  let w1 ← after w [createMerkle t1]
  let t ← tree [(user, 0, m)] 0
  let n ← node t user
  let q ← n.proof
  let w2 ← after w [createMerkle t]
  let w3 ← after w2 [openMerkle t user n.registryIndex n.depositCap q]
  return refused w1 (.p .invalidMerkleProof) [openMerkle t1 user n1.registryIndex n1.depositCap q1] &&
    refused w2 (.p .invalidMerkleProof) [openMerkle t user 1 n.depositCap q] &&
    (w3.escrows.get? (escrowOf user 0)).isSome

example : merkle = some true := by decide +kernel

/-- What both tests with two registries check. -/
def twoEscrows (w : World) : Option Bool := do
  let p ← presale? w
  let r0 ← p.registries[0]?
  let r1 ← p.registries[1]?
  let e0 ← escrow? w user 0
  let e1 ← escrow? w user1 1
  return decide (p.totalEscrow = 2 ∧ r0.totalEscrow = 1 ∧ r1.totalEscrow = 1 ∧ e0.registryIndex = 0 ∧
    e1.registryIndex = 1)

/-- `…_with_different_registry_index_same_tree` -/
def sameTree : Option Bool := do
  let w ← sold5 .fixedPrice .merkle
  let m0 ← buyerMax w 0
  let m1 ← buyerMax w 1
  let t ← tree [(user, 0, m0), (user1, 1, m1)] 0
  let n0 ← node t user
  let q0 ← n0.proof
  let n1 ← node t user1
  let q1 ← n1.proof
  let w ← after w [createMerkle t, openMerkle t user n0.registryIndex n0.depositCap q0,
    openMerkle t user1 n1.registryIndex n1.depositCap q1]
  twoEscrows w

/-- `…_with_different_registry_index_and_tree` -/
def twoTrees : Option Bool := do
  let w ← sold5 .fixedPrice .merkle
  let m0 ← buyerMax w 0
  let m1 ← buyerMax w 1
  let t0 ← tree [(user, 0, m0)] 0
  let t1 ← tree [(user1, 1, m1)] 1
  let n0 ← node t0 user
  let q0 ← n0.proof
  let n1 ← node t1 user1
  let q1 ← n1.proof
  let w ← after w [createMerkle t0, openMerkle t0 user n0.registryIndex n0.depositCap q0, createMerkle t1,
    openMerkle t1 user1 n1.registryIndex n1.depositCap q1]
  twoEscrows w

/-- `…_with_invalid_deposit_cap` -/
def wrongCap : Option Bool := do
  let w ← sold5 .fixedPrice .merkle
  let p ← presale? w
  let r0 ← p.registries[0]?
  let r1 ← p.registries[1]?
  let t ← tree [(user, 0, r0.buyerMaximumDepositCap + 1), (user1, 0, r1.buyerMinimumDepositCap - 1), (user2, 0, 0)] 0
  let w ← after w [createMerkle t]
  let n0 ← node t user
  let q0 ← n0.proof
  let n1 ← node t user1
  let q1 ← n1.proof
  let n2 ← node t user2
  let q2 ← n2.proof
  return refused w (.p .invalidDepositCap) [openMerkle t user n0.registryIndex n0.depositCap q0] &&
    refused w (.p .invalidDepositCap) [openMerkle t user1 n1.registryIndex n1.depositCap q1] &&
    refused w (.p .invalidDepositCap) [openMerkle t user2 n2.registryIndex n2.depositCap q2]

example : sameTree = some true ∧ twoTrees = some true ∧ wrongCap = some true := by decide +kernel

/-- `test_initialize_permissionless_escrow` -/
def permissionless : Option Bool := do
  let w ← sold .fixedPrice .permissionless
  let w ← after w [openEscrow user]
  let p ← presale? w
  let r ← p.registries[0]?
  let e ← escrow? w user 0
  return decide (e.presale = sale ∧ e.owner = user ∧ e.registryIndex = 0 ∧ 0 < e.createdAt ∧ 0 < e.lastRefreshedAt ∧
    e.pendingClaimToken = 0 ∧ p.totalEscrow = 1 ∧ r.totalEscrow = 1)

example : permissionless = some true := by decide +kernel

end Verif.Replay.Escrow
