import Verif.Model.Instructions
/-!
# Token-2022 account extensions: required memos and the CPI guard

The ledger of `Model/World.lean` together with the two Token-2022 extensions of token accounts that can make a
transfer by a program fail: *memo transfer* (an incoming transfer must directly follow a memo) and *CPI guard* (the
owner's tokens cannot be moved by a call from another program). The program answers the first by writing a memo
before a transfer to an account that asks for one.

Simplifications: only the calls into the memo and token programs are recorded, in order; the event written by
`emit_cpi!` comes after them and does not matter to either extension.
-/

namespace Verif

/-- The ledger with the extension flags of token accounts: `memo` is `require_incoming_transfer_memos` of the
memo-transfer extension, `guard` is `lock_cpi` of the CPI guard (`false` if the extension is absent). -/
structure XWorld where
  w : World
  memo : Addr → Bool
  guard : Addr → Bool

/-- Token program of a token account: that of its mint. -/
def Tokens.programOf (k : Tokens) (a : Addr) : Option TokenProgram :=
  (k.toks a).bind fun t => (k.mints t.mint).map MintInfo.program

/-- A call made by the program. -/
inductive XCall where
  /-- the memo program, with this text -/
  | memo (text : String)
  /-- a token program -/
  | token (c : Cpi)
  deriving DecidableEq, Repr

/-- `PRESALE_MEMO` (`token2022.rs:16`). -/
def PRESALE_MEMO : String := "Presale"

/-- The memo context passed to the transfer functions: `Some` with `PRESALE_MEMO` in `process_withdraw.rs:98-101`,
`process_claim.rs:85-88`, `process_withdraw_remaining_quote.rs:85-88`, `process_creator_withdraw.rs:188-191`,
`process_creator_collect_fee.rs:71-74`, `process_perform_unsold_base_token_action.rs:102-105`; `None` in
`process_deposit.rs:92` and `process_initialize_presale.rs:149`. No other instruction transfers tokens. -/
def memoContext : Ix → Option String
  | .withdraw _ | .claim _ | .refund _ | .creatorWithdraw _ | .collectFee _ | .unsold _ => some PRESALE_MEMO
  | _ => none

/-- `is_transfer_memo_required` (`token2022.rs:230-247`). -/
def XWorld.memoRequired (x : XWorld) (a : Addr) : Bool :=
  match x.w.tk.programOf a with
  | some .splToken2022 => x.memo a
  | _ => false

/-- The calls made for one token operation (`token2022.rs:286-291, 347-352`; burning writes no memo). -/
def XWorld.callsFor (x : XWorld) (ctx : Option String) : Cpi → List XCall
  | .transfer mint src dst authority amount fee =>
    match ctx with
    | some text =>
      if x.memoRequired dst then [.memo text, .token (.transfer mint src dst authority amount fee)]
      else [.token (.transfer mint src dst authority amount fee)]
    | none => [.token (.transfer mint src dst authority amount fee)]
  | .burn mint src amount => [.token (.burn mint src amount)]

/-- Token-2022, memo transfer: the call before must have been a memo (`check_previous_sibling_instruction_is_memo`). -/
def XWorld.memoRule (x : XWorld) (dst : Addr) : Option XCall → Bool
  | some (.memo _) => true
  | _ => !x.memoRequired dst

/-- Token-2022, CPI guard: a call from a program cannot move the tokens of a guarded account on the authority of its
owner; a delegate may. -/
def XWorld.guardRule (x : XWorld) (src authority : Addr) : Bool :=
  match x.w.tk.programOf src, x.w.tk.toks src with
  | some .splToken2022, some t =>
    match t.delegate with
    | some (d, _) => if d = authority then true else !x.guard src
    | none => !x.guard src
  | _, _ => true

/-- Both rules, call by call; `prev` is the call before. -/
def XWorld.allowed (x : XWorld) : Option XCall → List XCall → Except Err Unit
  | _, [] => .ok ()
  | prev, c :: cs => do
    match c with
    | .memo _ => pure ()
    | .token (.transfer _ src dst authority _ _) => do
      require (x.memoRule dst prev = true) (.x .constraint)
      require (x.guardRule src authority = true) (.x .constraint)
    | .token (.burn _ src _) => require (x.guardRule src .presaleAuthority = true) (.x .constraint)
    x.allowed (some c) cs

/-- The calls an instruction makes, given the token operations it performs. -/
def XWorld.calls (x : XWorld) (i : Ix) (cpis : List Cpi) : List XCall :=
  cpis.flatMap (x.callsFor (memoContext i))

/-- Execute an instruction: as before, except that Token-2022 may refuse. Neither extension is changed by a
transfer. -/
def xexec (x : XWorld) (tx : Tx) (i : Ix) : Except Err (XWorld × Receipt × List XCall) := do
  let (w', rc) ← execIx x.w tx i
  let calls := x.calls i rc.cpis
  x.allowed none calls
  return ({ x with w := w' }, rc, calls)

/-- What can happen: anything of `Op`, or the owner of a token account other than a vault changes its
extensions. (Vaults belong to a program address; only the presale program could ask for their extensions to be
changed, and it never does.) -/
inductive XOp where
  | op (o : Op)
  | setMemo (a : Addr) (b : Bool)
  | setGuard (a : Addr) (b : Bool)
  deriving Repr

/-- One step. -/
def xstep (x : XWorld) : XOp → Except Err (XWorld × Receipt × List XCall)
  | .op (.ix tx i) => xexec x tx i
  | .op o => do
    let (w', rc) ← step x.w o
    return ({ x with w := w' }, rc, [])
  | .setMemo a b => do
    require (a.isVault = false) (.x .constraint)
    return ({ x with memo := upd x.memo a b }, noReceipt, [])
  | .setGuard a b => do
    require (a.isVault = false) (.x .constraint)
    return ({ x with guard := upd x.guard a b }, noReceipt, [])

/-- A failed step changes nothing. -/
def xapply (x : XWorld) (o : XOp) : XWorld :=
  match xstep x o with
  | .ok (x', _) => x'
  | .error _ => x

/-- Execute a history. -/
def xrun (x : XWorld) : List XOp → XWorld
  | [] => x
  | o :: os => xrun (xapply x o) os

/-- States reachable from an empty deployment with any extensions on token accounts; an address at which there is
no account yet has none. -/
def XReachable (x : XWorld) : Prop :=
  ∃ x0 os, Genesis x0.w ∧ (∀ a, a.isVault = true → x0.memo a = false ∧ x0.guard a = false) ∧ x = xrun x0 os

end Verif
