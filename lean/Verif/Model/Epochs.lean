import Verif.Model.Instructions
/-!
# Transfer fees by epoch

The ledger of `Model/World.lean` keeps, for each mint, the transfer fee of the current epoch, and lets it change at any
time. Here the fee comes from where Token-2022 keeps it: a configuration with an older and a newer fee, the second in
force from its epoch on. A change is announced two epochs ahead.

Simplifications: epochs are unbounded numbers; who may announce a change is not modelled (anybody may); the fees
withheld in token accounts are not either.
-/

namespace Verif

/-- `TransferFee` of spl-token-2022: the fee and the first epoch in which it applies. -/
structure EpochFee where
  epoch : Nat
  fee : TransferFee
  deriving DecidableEq, Repr

/-- `TransferFeeConfig` of spl-token-2022, without authorities and withheld amount. -/
structure FeeConfig where
  older : EpochFee
  newer : EpochFee
  deriving DecidableEq, Repr

/-- `TransferFeeConfig::get_epoch_fee` (spl-token-2022), called in `token2022.rs:153`. -/
def FeeConfig.during (c : FeeConfig) (epoch : Nat) : TransferFee :=
  if epoch ≥ c.newer.epoch then c.newer.fee else c.older.fee

/-- `process_initialize_transfer_fee_config` (spl-token-2022): both fees are the one given, from this epoch on. -/
def FeeConfig.new (epoch : Nat) (f : TransferFee) : FeeConfig :=
  { older := { epoch, fee := f }, newer := { epoch, fee := f } }

/-- `process_set_transfer_fee` (spl-token-2022): a newer fee already in force becomes the older one, one not yet in
force is dropped; the fee given starts two epochs later. -/
def FeeConfig.announce (c : FeeConfig) (epoch : Nat) (f : TransferFee) : FeeConfig :=
  { older := if c.newer.epoch ≤ epoch then c.newer else c.older
    newer := { epoch := epoch + 2, fee := f } }

/-- The range `process_set_transfer_fee` and `process_initialize_transfer_fee_config` allow. -/
def TransferFee.inRange (f : TransferFee) : Bool :=
  decide (f.basisPoints ≤ MAX_FEE_BASIS_POINTS) && decide (f.maximumFee < u64Bound)

/-- The ledger with the epoch (`Clock::get()?.epoch`, `token2022.rs:152`) and the fee configurations of mints. -/
structure EWorld where
  w : World
  epoch : Nat
  configs : AMap Addr FeeConfig

/-- The fee a mint should have in `epoch`. -/
def EWorld.feeIn (e : EWorld) (epoch : Nat) (a : Addr) : Option TransferFee :=
  (e.configs.get? a).map (·.during epoch)

/-- What can happen: anything of `Op`, except that other changes of a mint leave its fee alone; the next epoch; a mint
with a fee is created; a change of fee is announced. -/
inductive EOp where
  | op (o : Op)
  | nextEpoch
  | newMint (a : Addr) (m : MintInfo) (f : TransferFee)
  | announce (a : Addr) (f : TransferFee)
  deriving Repr

/-- One step. -/
def estep (e : EWorld) : EOp → Except Err (EWorld × Receipt)
  | .op o => do
    match o with
    | .setMint a m => require (m.fee = e.feeIn e.epoch a) (.x .constraint)
    | _ => pure ()
    let (w', rc) ← step e.w o
    return ({ e with w := w' }, rc)
  | .nextEpoch =>
    let mints := fun a => (e.w.tk.mints a).map fun m => { m with fee := e.feeIn (e.epoch + 1) a }
    .ok ({ e with
      w := { e.w with tk := { e.w.tk with mints := mints } }
      epoch := e.epoch + 1 }, noReceipt)
  | .newMint a m f => do
    require (e.w.tk.mints a = none) (.x .constraint)
    require (f.inRange = true) (.x .constraint)
    let (w', rc) ← step e.w (.setMint a { m with fee := some f })
    return ({ e with w := w', configs := e.configs.set a (FeeConfig.new e.epoch f) }, rc)
  | .announce a f => do
    let c ← load (e.configs.get? a)
    require (f.inRange = true) (.x .constraint)
    return ({ e with configs := e.configs.set a (c.announce e.epoch f) }, noReceipt)

/-- A failed step changes nothing. -/
def eapply (e : EWorld) (o : EOp) : EWorld :=
  match estep e o with
  | .ok (e', _) => e'
  | .error _ => e

/-- Execute a history. -/
def erun (e : EWorld) : List EOp → EWorld
  | [] => e
  | o :: os => erun (eapply e o) os

/-- An empty deployment in any epoch; the mints there are may have any configurations within range. -/
structure EGenesis (e : EWorld) : Prop where
  genesis : Genesis e.w
  fees : ∀ a m, e.w.tk.mints a = some m → m.fee = e.feeIn e.epoch a
  range : ∀ a c, e.configs.get? a = some c → c.older.fee.inRange = true ∧ c.newer.fee.inRange = true

/-- States reachable from an empty deployment. -/
def EReachable (e : EWorld) : Prop := ∃ e0 os, EGenesis e0 ∧ e = erun e0 os

end Verif
