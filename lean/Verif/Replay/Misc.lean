import Verif.Replay.Base
/-!
# `tests/test_misc.rs`, `tests/test_close_merkle_root_config.rs`,
`tests/test_create_permissioned_server_metadata.rs`, `tests/test_fixed_token_price_extra_params.rs`
-/

namespace Verif.Replay.Misc

open Verif.Replay

def w0 : World := start spl native

/-! ## `test_validate_locked_vesting_args` -/

def vests (bps lock vest stamp : Nat) : Bool :=
  match LockedVestingArgs.validate
      { immediatelyReleaseBps := bps, lockDuration := lock, vestDuration := vest,
        immediateReleaseTimestamp := stamp, paddingIsZero := true } 1700000000 with
  | .ok _ => true
  | .error _ => false

example :
    [vests 10000 0 0 1700000001, vests 10000 0 0 1700000000,
     vests 5000 60 60 1699999999, vests 5000 60 60 1700000000, vests 5000 60 60 1700000120,
     vests 5000 60 60 1700000121, vests 0 60 60 1700000030, vests 0 60 60 1700000000] =
    [false, true, false, true, true, false, false, true] := by decide +kernel

/-- `test_calculate_q_price_from_ui_price`: one unit of quote buys a hundred tokens. -/
example : 10 ^ 9 * 2 ^ 64 / price = 100 * 10 ^ 6 := by decide +kernel

/-! ## Closing whitelists -/

/-- `setup` (`test_close_merkle_root_config.rs:33-106`): a sale which starts in a second. -/
def setup : Option (World × ConfigMerkleTree) := do
  let x := args .fixedPrice .merkle
  let w ← after w0 (create w0 { x with presaleParams := { x.presaleParams with presaleStartTime := now + 1 } })
  let p ← presale? w
  let t ← tree [(user, 0, p.presaleMaximumCap)] 0
  let w ← after w [createMerkle t]
  return (w, t)

def closeMerkle (creator presale : Addr) : Op :=
  .ix (tx [creator]) (.closeMerkle ⟨presale, .merkleRoot sale 0, creator, creator⟩)

/-- `test_close_merkle_root_config_when_presale_ongoing`, `_invalid_creator` -/
def cannotClose : Option Bool := do
  let (w, _) ← setup
  let p ← presale? w
  return refused (warp w p.presaleStartTime) (.p .presaleOngoing) [closeMerkle user sale] &&
    refused w (.p .invalidCreatorAccount) [closeMerkle user1 sale]

/-- `test_close_merkle_roof_config_invalid_presale`: another presale's. -/
def otherPresale : Option Bool := do
  let (w, _) ← setup
  let other : Addr := .presale user1 base quote
  let w ← after w
    [.setTok (.ata user1 base .splToken)
       (some { mint := base, owner := user1, amount := 10 ^ 15, frozen := false, delegate := none }),
     .ix (tx [user1]) (.initFixedArgs ⟨user1, user1, other, 0, price⟩),
     .ix (tx [user1]) (.initPresale
       { presaleMint := base, quoteTokenMint := quote, payerPresaleToken := .ata user1 base .splToken,
         creator := user1, base := user1, payer := user1, baseTokenProgram := .splToken,
         quoteTokenProgram := .splToken, args := args .fixedPrice .permissionless,
         remaining := [.fixedPriceArgs other], slices := [⟨.transferHookBase, 0⟩] })]
  return refused w (.x .constraint) [closeMerkle user other]

/-- The account is gone. -/
def gone (w : World) : Option Bool := do
  let w ← after w [closeMerkle user sale]
  return (w.merkleRoots (.merkleRoot sale 0)).isNone

/-- `test_close_merkle_root_config_presale_{not_started,failed,completed}_success` (the last two are the same
test) -/
def closes : Option Bool := do
  let (w, _) ← setup
  let p ← presale? w
  let a ← gone w
  let b ← gone (warp w p.presaleEndTime)
  return a && b && decide (p.getPresaleProgress now = .notStarted) &&
    decide (p.getPresaleProgress p.presaleEndTime = .failed)

/-- `test_close_merkle_root_config_presale_success` -/
def closesCompleted : Option Bool := do
  let (w, t) ← setup
  let p ← presale? w
  let w := warp w p.presaleStartTime
  let n ← node t user
  let proof ← n.proof
  let w ← after w [openMerkle t user 0 n.depositCap proof]
  let w ← after w (deposit w user 0 n.depositCap)
  let p ← presale? w
  let a ← gone w
  return a && decide (p.getPresaleProgress w.clock.toNat = .completed)

example : cannotClose = some true ∧ otherPresale = some true ∧ closes = some true ∧
    closesCompleted = some true := by decide +kernel

/-! ## Server metadata -/

def url : Bytes := "https://example.com/proof.json".toUTF8.toList
def createMetadata : Op := .ix (tx [user]) (.createMetadata ⟨sale, user, url⟩)

/-- `test_create_permissioned_server_metadata`, `test_close_permissioned_server_metadata` -/
def metadata : Option Bool := do
  let w ← after w0 (create w0 (args .fixedPrice .merkle) ++ [createMetadata])
  let m ← w.metadata (.serverMetadata sale)
  let w' ← after w [.ix (tx [user]) (.closeMetadata ⟨sale, .serverMetadata sale, user, user⟩)]
  return decide (m.presale = sale ∧ m.serverUrl = url) && (w'.metadata (.serverMetadata sale)).isNone

/-- `test_create_permissioned_server_metadata_with_permissionless_presale` -/
def noMetadata : Option Bool := do
  let w ← after w0 (create w0 (args .fixedPrice .permissionless))
  return refused w (.p .invalidPresaleWhitelistMode) [createMetadata]

example : metadata = some true ∧ noMetadata = some true := by decide +kernel

/-! ## Fixed-price parameters -/

/-- `test_initialize_fixed_token_price_with_invalid_extra_params` -/
example : refused w0 (.p .invalidTokenPrice) [fixedArgs 0 1] = true ∧
    refused w0 (.p .invalidType) [fixedArgs price 2] = true := by decide +kernel

def closeFixed (owner : Addr) : Op := .ix (tx [owner]) (.closeFixedArgs ⟨.fixedPriceArgs sale, owner⟩)

/-- `test_initialize_fixed_token_price_extra_params`, `test_close_fixed_token_price_extra_params` and
`test_non_owner_cannot_close_fixed_token_price_extra_params` -/
def fixedParams : Option Bool := do
  let w ← after w0 [fixedArgs price 0]
  let x ← w.fixedArgs (.fixedPriceArgs sale)
  let w' ← after w [closeFixed user]
  return decide (x.qPrice = price ∧ x.owner = user ∧ x.disableWithdraw = 0) &&
    (w'.fixedArgs (.fixedPriceArgs sale)).isNone && refused w (.x .constraint) [closeFixed user1]

example : fixedParams = some true := by decide +kernel

end Verif.Replay.Misc
