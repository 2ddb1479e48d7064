import Verif.Replay.Base
/-!
# `tests/test_claim.rs`
-/

namespace Verif.Replay.Claim

open Verif.Replay

def w0 : World := start spl native

/-- `create_escrow_claim_ix` with `refresh_escrow` (`helpers/process_claim.rs:26-123`) -/
def claim (w : World) (owner : Addr) (i : Nat) : List Op := [refresh owner i, claimOnly w owner i]

inductive Cmp where
  | equal | greaterThan

/-- `claim_and_assert` (`:27-101`): the new world, and whether the claimed total and the balance moved as
said. -/
def claimed (w : World) (owner : Addr) (i : Nat) (c : Cmp) (delta : Option Nat) : Option (World × Bool) := do
  let e ← escrow? w owner i
  let w' ← after w (claim w owner i)
  let e' ← escrow? w' owner i
  let b := bal w (baseOf w owner)
  let b' := bal w' (baseOf w owner)
  let moved := match c with
    | .equal => decide (e'.totalClaimedToken = e.totalClaimedToken ∧ b' = b)
    | .greaterThan => decide (e.totalClaimedToken < e'.totalClaimedToken ∧ b < b')
  return (w', moved && decide (∀ d ∈ delta, b' - b = d))

/-- `test_claim_empty_prorata_presale_registries` -/
def emptyRegistry : Option Bool := do
  let w ← after w0 (create w0
    { args .prorata .merkle with presaleRegistries := fiveRegistries .prorata .merkle })
  let p ← presale? w
  let t ← tree [(user, 0, p.presaleMaximumCap), (user1, 1, p.presaleMaximumCap)] 0
  let n ← node t user
  let proof ← n.proof
  let w ← after w [createMerkle t, openMerkle t user n.registryIndex n.depositCap proof]
  let w ← after w (deposit w user 0 n.depositCap)
  let n ← node t user1
  let proof ← n.proof
  let w ← after w [openMerkle t user1 n.registryIndex n.depositCap proof]
  let w := warp w (p.vestingEndTime + 1)
  let (w, a) ← claimed w user 0 .greaterThan none
  let (w, b) ← claimed w user1 1 .equal none
  let e ← escrow? w user1 1
  return a && b && decide (e.totalDeposit = 0)

example : emptyRegistry = some true := by decide +kernel

/-- `test_claim_with_immediate_release`: half a minute after the end of the sale. -/
def immediateRelease : Option Bool := do
  let x := args .fixedPrice .permissionless
  let x := { x with
    lockedVestingParams :=
      { x.lockedVestingParams with
        immediatelyReleaseBps := 5000, immediateReleaseTimestamp := x.presaleParams.presaleEndTime + 60 } }
  let w ← after w0 (create w0 x)
  let w ← after w (deposit w user 0 SOL)
  let p ← presale? w
  let (w, a) ← claimed (warp w p.presaleEndTime) user 0 .equal none
  let (w, b) ← claimed (warp w (p.immediateReleaseTimestamp - 1)) user 0 .equal none
  let (w, c) ← claimed (warp w (p.immediateReleaseTimestamp + 1)) user 0 .greaterThan none
  let (w, d) ← claimed (warp w (p.immediateReleaseTimestamp + 2)) user 0 .equal none
  let (_, e) ← claimed (warp w p.vestingEndTime) user 0 .greaterThan none
  return a && b && c && d && e

example : immediateRelease = some true := by decide +kernel

/-- `test_claim_empty_escrow` -/
def emptyEscrow : Option Bool := do
  let w ← after w0 (create w0 (args .fixedPrice .permissionless) ++ [openEscrow user])
  let w ← after w (deposit w user 0 SOL)
  let p ← presale? w
  let (w, a) ← claimed (warp w (p.vestingEndTime + 1)) user 0 .greaterThan none
  let (_, b) ← claimed w user 0 .equal none
  return a && b

/-- `test_claim_non_completed_presale` -/
def notCompleted : Option Bool := do
  let w ← after w0 (create w0 (args .fixedPrice .permissionless))
  let w ← after w (deposit w user 0 (SOL / 2))
  return refused w (.p .presaleNotOpenForClaim) (claim w user 0)

/-- `test_claim_locked_presale` -/
def locked : Option Bool := do
  let w ← after w0 (create w0 (args .fixedPrice .permissionless))
  let w ← after w (deposit w user 0 SOL)
  let p ← presale? w
  let (_, a) ← claimed (warp w p.presaleEndTime) user 0 .equal none
  return a

example : emptyEscrow = some true ∧ notCompleted = some true ∧ locked = some true := by decide +kernel

/-- `test_claim_token2022` and `test_claim_permissionless_presale`: two halves, claimed halfway and at the
end of vesting. -/
def halves (b q : MintInfo) (m : Mode) : Option Bool := do
  let w := start b q
  let w ← after w (create w (args m .permissionless))
  let p ← presale? w
  let a0 := p.presaleMaximumCap / 2
  let w ← after w (deposit w user 0 a0)
  let w ← after w (deposit w user1 0 (p.presaleMaximumCap - a0))
  let w := warp w (p.vestingEndTime - p.vestDuration / 2)
  let (w, a) ← claimed w user 0 .greaterThan none
  let (w, b) ← claimed w user1 0 .greaterThan none
  let w := warp w p.vestingEndTime
  let (w, c) ← claimed w user 0 .greaterThan none
  let (w, d) ← claimed w user1 0 .greaterThan none
  let (_, e) ← claimed w user 0 .equal none
  return a && b && c && d && e

example : halves t22HookFee t22HookFee .prorata = some true ∧ halves spl native .fixedPrice = some true := by
  decide +kernel

/-- One claim of the tests with several registries: the amount is the dripped share, computed with the tests'
formula; `sold` is the whole registry or what was bought at the fixed price. -/
def shareClaim (m : Mode) (w : World) (owner : Addr) (i : Nat) : Option (World × Bool) := do
  let p ← presale? w
  let r ← p.registries[i]?
  let e ← escrow? w owner i
  let sold := match m with
    | .fixedPrice => r.totalDeposit * 2 ^ 64 / p.raw0
    | _ => r.presaleSupply
  let dripped := sold * min (w.clock.toNat - p.vestingStartTime) p.vestDuration / p.vestDuration
  let expected := dripped * e.totalDeposit / r.totalDeposit
  let (w', a) ← claimed w owner i .greaterThan (some expected)
  let p' ← presale? w'
  let r' ← p'.registries[i]?
  return (w', a && decide (p'.totalClaimedToken - p.totalClaimedToken = expected) &&
    decide (r'.totalClaimedToken - r.totalClaimedToken = expected))

/-- `test_claim_permissioned_{fcfs,prorata,fixed_price}_presale_with_multiple_presale_registries`: deposits
of one, two and three sixths of the cap, rounded up. -/
def shares (m : Mode) : Option Bool := do
  let w ← after w0 (create w0 { args m .merkle with presaleRegistries := fiveRegistries m .merkle })
  let p ← presale? w
  let t ← tree [(user, 0, SOL), (user1, 1, SOL), (user2, 1, SOL)] 0
  let w ← after w [createMerkle t]
  let n0 ← node t user
  let n1 ← node t user1
  let n2 ← node t user2
  let q0 ← n0.proof
  let q1 ← n1.proof
  let q2 ← n2.proof
  let w ← after w [openMerkle t user 0 SOL q0, openMerkle t user1 1 SOL q1, openMerkle t user2 1 SOL q2]
  let w ← after w (deposit w user 0 ((p.presaleMaximumCap * 1 + 5) / 6))
  let w ← after w (deposit w user1 1 ((p.presaleMaximumCap * 2 + 5) / 6))
  let w ← after w (deposit w user2 1 ((p.presaleMaximumCap * 3 + 5) / 6))
  let w := warp w (p.vestingEndTime - p.vestDuration / 2)
  let (w, a) ← shareClaim m w user 0
  let (w, b) ← shareClaim m w user1 1
  let (_, c) ← shareClaim m w user2 1
  return a && b && c

example : shares .fcfs = some true ∧ shares .prorata = some true ∧ shares .fixedPrice = some true := by
  decide +kernel

end Verif.Replay.Claim
