import Verif.Model.Instructions
/-!
# Independent specifications

Small definitions the property theorems are stated with. None of them calls a function of the
model that computes the quantity being specified.
-/

namespace Verif.Spec

/-- `k` is `⌈a / b⌉`. -/
def IsCeilDiv (k a b : Nat) : Prop := a ≤ k * b ∧ k * b < a + b

/-- `k` is `⌊a / b⌋`. -/
def IsFloorDiv (k a b : Nat) : Prop := k * b ≤ a ∧ a < k * b + b

/-- Whole base units that `quote` quote units buy at the price `q / 2^64` quote units per base unit. -/
def tokensAtPrice (q quote : Nat) : Nat := quote * 2 ^ 64 / q

/-- Number of accounts announced by a slice list. -/
def announced (slices : List RemSlice) : Nat := (slices.map RemSlice.length).sum

/-- `o` is what a slice list says about kind `k`: nothing if every slice of that kind is empty,
otherwise the accounts at the position of the single non-empty slice of that kind. -/
def SliceOf (k : AccountsType) (slices : List RemSlice) (rem : List Addr) :
    Option (List Addr) → Prop
  | none => ∀ s ∈ slices, s.accountsType = k → s.length = 0
  | some l => ∃ pre s post, slices = pre ++ s :: post ∧ s.accountsType = k ∧ s.length ≠ 0 ∧
      (∀ s' ∈ pre ++ post, s'.accountsType = k → s'.length = 0) ∧
      l = (rem.drop (announced pre)).take s.length

/-! ## Merkle trees -/

/-- One level up: neighbours are paired, an odd last node with itself. -/
def pairLevel {α : Type} (g : Bytes → Bytes → α) : List Bytes → List α
  | [] => []
  | [a] => [g a a]
  | a :: b :: rest => g a b :: pairLevel g rest

/-- The string hashed for an inner node with children `l` and `r`: prefix 1, then the smaller child. -/
def innerString (l r : Bytes) : Bytes := if bytesLe l r then 1 :: (l ++ r) else 1 :: (r ++ l)

theorem pairLevel_length {α : Type} (g : Bytes → Bytes → α) (l : List Bytes) :
    (pairLevel g l).length = (l.length + 1) / 2 := by
  induction l using pairLevel.induct with
  | case1 => simp [pairLevel]
  | case2 a => simp [pairLevel]
  | case3 a b rest ih => simp only [pairLevel, List.length_cons, ih]; omega

/-- All strings hashed above a level. -/
def upperStrings (H : Bytes → Bytes) (level : List Bytes) : List Bytes :=
  if _h : level.length ≤ 1 then []
  else pairLevel innerString level ++
    upperStrings H (pairLevel (fun l r => H (innerString l r)) level)
termination_by level.length
decreasing_by rw [pairLevel_length]; omega

/-- The string hashed for a whitelist entry: 32 key bytes, one index byte, eight cap bytes. -/
def entryString (owner : Bytes) (registryIndex depositCap : Nat) : Bytes :=
  owner ++ leBytes 1 registryIndex ++ leBytes 8 depositCap

/-- All strings hashed while building the tree of a list of entries. -/
def buildStrings (H : Bytes → Bytes) (entries : List TreeNode) : List Bytes :=
  let strings := entries.map (fun n => entryString n.escrowOwner n.registryIndex n.depositCap)
  let leaves := strings.map (fun s => 0 :: H s)
  strings ++ leaves ++ upperStrings H (leaves.map H)

/-- All strings hashed while checking a proof. -/
def proofStrings (H : Bytes → Bytes) : List Bytes → Bytes → List Bytes
  | [], _ => []
  | p :: ps, c => innerString c p :: proofStrings H ps (H (innerString c p))

/-- All strings hashed by the on-chain check of an entry. -/
def checkStrings (H : Bytes → Bytes) (owner : Bytes) (registryIndex depositCap : Nat)
    (proof : List Bytes) : List Bytes :=
  let s := entryString owner registryIndex depositCap
  s :: (0 :: H s) :: proofStrings H proof (H (0 :: H s))

/-- Distinct values in order of first appearance. -/
def firstOccurrences : List Bytes → List Bytes
  | [] => []
  | x :: xs => x :: (firstOccurrences xs).filter (· ≠ x)

/-! ## Release schedule -/

/-- Part of `sold` tokens that is released at once. -/
def immediatePart (sold bps : Nat) : Nat := sold * bps / 10000

/-- Part of `vested` tokens that has dripped out at time `t`. -/
def dripped (vested start duration t : Nat) : Nat :=
  if t < start then 0
  else if duration = 0 then vested
  else vested * min (t - start) duration / duration

/-- What a deposit of `d` out of `total` may have claimed at time `t` from `sold` tokens: its floored
share of the immediate part, from `imm` on, plus its floored share of the dripped part. -/
def claimable (bps imm sold start duration t d total : Nat) : Nat :=
  if d = 0 ∨ total = 0 then 0
  else (if imm ≤ t then immediatePart sold bps * d / total else 0) +
    dripped (sold - immediatePart sold bps) start duration t * d / total

/-- Tokens a registry has sold. Modes 1 (pro-rata) and 2 (first come, first served) sell the whole
registry supply to whoever deposited; otherwise tokens are sold at the price in `raw0`, up to the
registry supply. -/
def sold (p : Presale) (r : Registry) : Nat :=
  if p.presaleMode = 1 ∨ p.presaleMode = 2 then (if r.totalDeposit = 0 then 0 else r.presaleSupply)
  else min (tokensAtPrice p.raw0 r.totalDeposit) r.presaleSupply

/-- Cumulative amount escrow `e` of registry `r` may have claimed at time `t`. -/
def claimableAt (p : Presale) (r : Registry) (e : Escrow) (t : Nat) : Nat :=
  claimable p.immediateReleaseBps p.immediateReleaseTimestamp (sold p r) p.vestingStartTime
    p.vestDuration t e.totalDeposit r.totalDeposit

/-- Everything escrow `e` will ever be able to claim. -/
def entitlement (p : Presale) (r : Registry) (e : Escrow) : Nat :=
  if e.totalDeposit = 0 ∨ r.totalDeposit = 0 then 0
  else immediatePart (sold p r) p.immediateReleaseBps * e.totalDeposit / r.totalDeposit +
    (sold p r - immediatePart (sold p r) p.immediateReleaseBps) * e.totalDeposit / r.totalDeposit

/-! ## Deposits -/

/-- What the limits of its registry and of the whitelist still let escrow `e` deposit. -/
def personalQuota (r : Registry) (e : Escrow) : Nat :=
  min r.buyerMaximumDepositCap e.depositMaxCap - e.totalDeposit

/-- Quote tokens that pay for the `n` base units a registry has left at price `q`. -/
def costOf (q n : Nat) : Nat := (n * q + (2 ^ 64 - 1)) / 2 ^ 64

/-- What escrow `e` of registry `r` may still deposit. Pro-rata sales (mode 1) have no cap on deposits;
the others stop at the maximum cap; fixed-price sales also stop once a registry is sold out. -/
def remainingQuota (p : Presale) (r : Registry) (e : Escrow) : Nat :=
  if p.presaleMode = 1 then personalQuota r e
  else if p.presaleMode = 2 then min (p.presaleMaximumCap - p.totalDeposit) (personalQuota r e)
  else if sold p r = r.presaleSupply then 0
  else min (min (p.presaleMaximumCap - p.totalDeposit) (personalQuota r e))
    (costOf p.raw0 (r.presaleSupply - sold p r))

/-- `n` is the least amount that buys as much as `offered` at price `q`. -/
structure LeastCharge (q offered n : Nat) : Prop where
  le : n ≤ offered
  same : tokensAtPrice q n = tokensAtPrice q offered
  least : ∀ less, less < n → tokensAtPrice q less < tokensAtPrice q offered

/-- The principal taken when a deposit of at most `asked` is requested. -/
def DepositTaken (p : Presale) (r : Registry) (e : Escrow) (asked n : Nat) : Prop :=
  if p.presaleMode = 1 ∨ p.presaleMode = 2 then n = min asked (remainingQuota p r e)
  else LeastCharge p.raw0 (min asked (remainingQuota p r e)) n

/-- Withdrawals are part of the terms: always in pro-rata sales, never in first-come-first-served ones,
in fixed-price sales unless the creator disabled them (first byte of the second data word). -/
def WithdrawAllowed (p : Presale) : Prop :=
  p.presaleMode = 1 ∨ (p.presaleMode ≠ 2 ∧ p.raw1 % 256 = 0)

/-- What is charged for a principal of `n`: `fee` is the least fee at the rate of the registry, `gross` the least
amount from which the mint's own fee leaves principal and fee. -/
structure Charge (m : MintInfo) (bps n fee gross : Nat) : Prop where
  rate : IsCeilDiv fee ((n + fee) * bps) 10000
  leastFee : ∀ f g, IsCeilDiv f (g * bps) 10000 → n + f ≤ g → n + fee ≤ g
  exact : gross - m.transferFee gross = n + fee
  leastGross : ∀ other, other - m.transferFee other = n + fee → gross ≤ other

/-- What is left of a fixed-price registry can be paid for with a 64-bit amount. -/
def Payworthy (p : Presale) (r : Registry) : Prop :=
  p.presaleMode = 1 ∨ p.presaleMode = 2 ∨ costOf p.raw0 (r.presaleSupply - sold p r) < 2 ^ 64

/-! ## Refunds of an oversubscribed pro-rata sale -/

/-- Deposits above the maximum cap. -/
def surplus (p : Presale) : Nat := p.totalDeposit - p.presaleMaximumCap

/-- Part of the surplus that belongs to a registry. -/
def registrySurplus (p : Presale) (r : Registry) : Nat := surplus p * r.totalDeposit / p.totalDeposit

/-- Fees of a registry that are given back. -/
def registryFeeRefund (p : Presale) (r : Registry) : Nat :=
  r.totalDepositFee * registrySurplus p r / r.totalDeposit

/-- Deposit given back to an escrow of a completed sale. -/
def refundDeposit (p : Presale) (r : Registry) (e : Escrow) : Nat :=
  if p.presaleMode = 1 then e.totalDeposit * registrySurplus p r / r.totalDeposit else 0

/-- Fee given back to an escrow of a completed sale. -/
def refundFee (p : Presale) (r : Registry) (e : Escrow) : Nat :=
  if p.presaleMode = 1 then e.totalDepositFee * registryFeeRefund p r / r.totalDepositFee else 0

/-- Fees the creator may collect from a completed sale. -/
def collectableFee (p : Presale) : Nat :=
  if p.presaleMode = 1 then (p.registries.map (fun r => r.totalDepositFee - registryFeeRefund p r)).sum
  else p.totalDepositFee

/-- What the creator raises in a completed sale. -/
def raise (p : Presale) : Nat := min p.totalDeposit p.presaleMaximumCap

/-- Tokens sold by all registries. -/
def totalSold (p : Presale) : Nat := (p.registries.map (sold p)).sum

/-- What an escrow that has not been refunded gets back in quote tokens after the sale: everything if the
minimum cap was missed, its part of the surplus otherwise. -/
def owedRefund (p : Presale) (r : Registry) (e : Escrow) : Nat :=
  if p.totalDeposit < p.presaleMinimumCap then e.totalDeposit + e.totalDepositFee
  else refundDeposit p r e + refundFee p r e

/-! ## Terms of a sale -/

/-- A registry with everything that changes during a sale blanked out. -/
def registryTerms (r : Registry) : Registry :=
  { r with totalDeposit := 0, totalEscrow := 0, totalClaimedToken := 0, totalRefundedQuoteToken := 0,
           totalDepositFee := 0 }

/-- A presale with everything that may change after creation blanked out: counters, flags, and the four
timestamps an early finish moves. -/
def terms (p : Presale) : Presale :=
  { p with presaleEndTime := 0, vestingStartTime := 0, vestingEndTime := 0, immediateReleaseTimestamp := 0,
           totalDeposit := 0, totalEscrow := 0, totalClaimedToken := 0, totalRefundedQuoteToken := 0,
           totalDepositFee := 0, depositFeeCollected := 0, hasCreatorWithdrawn := 0,
           isUnsoldTokenActionPerformed := 0, registries := p.registries.map registryTerms }

/-- `p'` is `p` with the sale possibly ended earlier; the release dates keep their distance to the end. -/
structure Shifted (p p' : Presale) : Prop where
  earlier : p'.presaleEndTime ≤ p.presaleEndTime
  dates : (p'.presaleEndTime = p.presaleEndTime ∧ p'.vestingStartTime = p.vestingStartTime ∧
      p'.vestingEndTime = p.vestingEndTime ∧ p'.immediateReleaseTimestamp = p.immediateReleaseTimestamp) ∨
    (p'.vestingStartTime = p'.presaleEndTime + p'.lockDuration ∧
      p'.vestingEndTime = p'.presaleEndTime + p'.lockDuration + p'.vestDuration ∧
      p'.immediateReleaseTimestamp =
        p'.presaleEndTime + (p.immediateReleaseTimestamp - p.presaleEndTime))

/-! ## Creation -/

/-- What the documentation promises of a registry in use. -/
structure DocumentedRegistry (p : Presale) (r : Registry) : Prop where
  supply : 0 < r.presaleSupply
  order : r.buyerMinimumDepositCap ≤ r.buyerMaximumDepositCap
  positive : 0 < r.buyerMaximumDepositCap
  within : r.buyerMaximumDepositCap ≤ p.presaleMaximumCap
  fee : r.depositFeeBps ≤ 5000
  /-- in whitelisted sales individual limits are set by the whitelist alone -/
  dynamicWhitelisted : (p.whitelistMode = 1 ∨ p.whitelistMode = 2) → (p.presaleMode = 1 ∨ p.presaleMode = 2) →
    r.buyerMinimumDepositCap = 1 ∧ r.buyerMaximumDepositCap = p.presaleMaximumCap
  fixedWhitelisted : (p.whitelistMode = 1 ∨ p.whitelistMode = 2) → p.presaleMode ≠ 1 → p.presaleMode ≠ 2 →
    IsCeilDiv r.buyerMinimumDepositCap p.raw0 (2 ^ 64) ∧ r.buyerMaximumDepositCap = p.presaleMaximumCap
  /-- the smallest and the largest deposit buy something -/
  buyable : p.presaleMode ≠ 1 → p.presaleMode ≠ 2 →
    0 < tokensAtPrice p.raw0 r.buyerMinimumDepositCap ∧ tokensAtPrice p.raw0 r.buyerMaximumDepositCap < 2 ^ 64

/-- What the documentation promises of a presale created at time `now`. -/
structure Documented (now : Nat) (p : Presale) : Prop where
  slots : p.registries.length = 5
  count : 1 ≤ p.totalPresaleRegistryCount ∧ p.totalPresaleRegistryCount ≤ 5
  several : 1 < p.totalPresaleRegistryCount → p.whitelistMode = 1 ∨ p.whitelistMode = 2
  used : ∀ i r, p.registries[i]? = some r → i < p.totalPresaleRegistryCount → DocumentedRegistry p r
  unused : ∀ i r, p.registries[i]? = some r → p.totalPresaleRegistryCount ≤ i → r = Registry.fresh
  supply : p.presaleSupply = (p.registries.map Registry.presaleSupply).sum
  supplyFits : p.presaleSupply < 2 ^ 64
  caps : 0 < p.presaleMinimumCap ∧ p.presaleMinimumCap ≤ p.presaleMaximumCap ∧ p.presaleMaximumCap < 2 ^ 64
  createdAt : p.createdAt = now
  startAhead : now ≤ p.presaleStartTime ∧ p.presaleStartTime ≤ now + 30 * 24 * 3600
  duration : p.presaleStartTime + 60 ≤ p.presaleEndTime ∧
    p.presaleEndTime ≤ p.presaleStartTime + 30 * 24 * 3600
  delays : p.lockDuration + p.vestDuration < 10 * 365 * 24 * 3600
  rate : p.immediateReleaseBps ≤ 10000
  /-- either no release terms at all, or a schedule following the end of the sale -/
  schedule : (p.lockDuration = 0 ∧ p.vestDuration = 0 ∧ p.immediateReleaseBps = 0 ∧
      p.immediateReleaseTimestamp = 0 ∧ p.vestingStartTime = 0 ∧ p.vestingEndTime = 0) ∨
    (p.vestingStartTime = p.presaleEndTime + p.lockDuration ∧
      p.vestingEndTime = p.vestingStartTime + p.vestDuration ∧
      (p.immediateReleaseTimestamp = 0 ∨
        (p.presaleEndTime ≤ p.immediateReleaseTimestamp ∧ p.immediateReleaseTimestamp ≤ p.vestingEndTime)) ∧
      (p.immediateReleaseBps = 10000 → p.lockDuration = 0 ∧ p.vestDuration = 0) ∧
      (p.immediateReleaseBps < 10000 → 0 < p.lockDuration ∨ 0 < p.vestDuration) ∧
      (p.immediateReleaseBps = 0 →
        p.immediateReleaseTimestamp = 0 ∨ p.immediateReleaseTimestamp = p.presaleEndTime))
  /-- bytes naming no mode are stored only if the decoder treats them as the default -/
  mode : p.presaleMode ≤ 2 ∨ unknownModeIsDefault = true
  whitelist : p.whitelistMode ≤ 2 ∨ unknownWhitelistIsDefault = true
  price : p.presaleMode ≠ 1 → p.presaleMode ≠ 2 → 0 < p.raw0 ∧ p.raw0 < 2 ^ 128 ∧
    tokensAtPrice p.raw0 p.presaleMaximumCap ≤ p.presaleSupply ∧
    tokensAtPrice p.raw0 p.presaleMinimumCap < tokensAtPrice p.raw0 p.presaleMaximumCap
  /-- nothing has happened yet -/
  counters : p.totalDeposit = 0 ∧ p.totalEscrow = 0 ∧ p.totalClaimedToken = 0 ∧
    p.totalRefundedQuoteToken = 0 ∧ p.totalDepositFee = 0 ∧ p.depositFeeCollected = 0 ∧
    p.hasCreatorWithdrawn = 0 ∧ p.isUnsoldTokenActionPerformed = 0
  blank : ∀ r ∈ p.registries, r = registryTerms r

/-! ## Phases -/

/-- The sale is over at time `now`. -/
def Over (p : Presale) (now : Int) : Prop := (p.presaleEndTime : Int) ≤ now

/-- The sale is over and reached its minimum cap. -/
def Completed (p : Presale) (now : Int) : Prop := Over p now ∧ p.presaleMinimumCap ≤ p.totalDeposit

/-- The sale is over and missed its minimum cap. -/
def Failed (p : Presale) (now : Int) : Prop := Over p now ∧ p.totalDeposit < p.presaleMinimumCap

/-- The sale accepts deposits. -/
def Ongoing (p : Presale) (now : Int) : Prop :=
  (p.presaleStartTime : Int) ≤ now ∧ now < (p.presaleEndTime : Int)

/-- Whether filling the cap ends the sale: never in pro-rata sales (mode 1), otherwise unless the creator
disabled it. The flag is the first data byte of first-come-first-served sales and the second byte of the
second data word of fixed-price sales. -/
def EarlyEndAllowed (p : Presale) : Prop :=
  (p.presaleMode = 2 ∧ p.raw0 % 256 = 0) ∨
  (p.presaleMode ≠ 1 ∧ p.presaleMode ≠ 2 ∧ p.raw1 / 256 % 256 = 0)

/-! ## Token movements -/

/-- `t'` is the account `t` with another balance (and possibly a smaller allowance). -/
def SameAccount (t t' : TokAcct) : Prop := t'.mint = t.mint ∧ t'.owner = t.owner ∧ t'.frozen = t.frozen

/-- Between `k` and `k'`, exactly `amount` units of `mint` left `src` for `dst`, which received them less
the transfer fee of the mint; no other account and no mint changed. Paying an account to itself changes
nothing. -/
def Transferred (k k' : Tokens) (mint src dst : Addr) (amount : Nat) : Prop :=
  k'.mints = k.mints ∧ (∀ x, x ≠ src → x ≠ dst → k'.toks x = k.toks x) ∧
  ∃ m s d s' d', k.mints mint = some m ∧ k.toks src = some s ∧ k.toks dst = some d ∧
    k'.toks src = some s' ∧ k'.toks dst = some d' ∧ s.mint = mint ∧ d.mint = mint ∧
    SameAccount s s' ∧ SameAccount d d' ∧ amount ≤ s.amount ∧
    (src = dst → k' = k) ∧
    (src ≠ dst → s'.amount + amount = s.amount ∧ d'.amount + m.transferFee amount = d.amount + amount)

/-- Between `k` and `k'`, exactly `amount` units of `mint` were burnt from `src`; nothing else changed. -/
def Burnt (k k' : Tokens) (mint src : Addr) (amount : Nat) : Prop :=
  (∀ x, x ≠ src → k'.toks x = k.toks x) ∧ (∀ x, x ≠ mint → k'.mints x = k.mints x) ∧
  ∃ m s m' s', k.mints mint = some m ∧ k.toks src = some s ∧ k'.mints mint = some m' ∧
    k'.toks src = some s' ∧ s.mint = mint ∧ SameAccount s s' ∧ s'.amount + amount = s.amount ∧
    m'.supply + amount = m.supply ∧ m'.program = m.program ∧ m'.fee = m.fee

/-! ## What a payout needs from outside the program -/

/-- The hook accounts passed with an instruction fit mint `m`: nothing if the mint has no transfer hook,
one non-empty slice of the right kind otherwise. -/
def HooksFit (kind : AccountsType) (m : MintInfo) (remaining : List Addr) (slices : List RemSlice) : Prop :=
  if m.hookProgram = none then slices = []
  else ∃ n, slices = [⟨kind, n⟩] ∧ 0 < n ∧ n < 256 ∧ n ≤ remaining.length

/-- Nothing outside the program stands in the way of paying `amount` units of `mint` from `vault` to `dst`:
the right token program and hook accounts are passed, hooks accept, neither account is frozen, the
receiving account exists, holds this mint and does not overflow. -/
structure Payable (k : Tokens) (tx : Tx) (kind : AccountsType) (mint vault dst : Addr) (prog : TokenProgram)
    (remaining : List Addr) (slices : List RemSlice) (amount : Nat) : Prop where
  accepted : tx.accept = true
  program : ∀ m, k.mints mint = some m → m.program = prog
  hooks : ∀ m, k.mints mint = some m → HooksFit kind m remaining slices
  thawed : ∀ v, k.toks vault = some v → v.frozen = false
  receiver : ∃ d, k.toks dst = some d ∧ d.mint = mint ∧ d.frozen = false ∧
    ∀ m, k.mints mint = some m → d.amount + (amount - m.transferFee amount) < 2 ^ 64

/-! ## Sums over escrows -/

/-- Sum of `f` over the escrows of presale `a` in registry `i`. -/
def escrowSum (es : AMap Addr Escrow) (a : Addr) (i : Nat) (f : Escrow → Nat) : Nat :=
  (es.map (fun x => if x.2.presale = a ∧ x.2.registryIndex = i then f x.2 else 0)).sum

/-- Sum of `f` over all escrows of presale `a`. -/
def saleSum (es : AMap Addr Escrow) (a : Addr) (f : Escrow → Nat) : Nat :=
  (es.map (fun x => if x.2.presale = a then f x.2 else 0)).sum

/-- Quote tokens still to be given back to an escrow after the sale. -/
def refundDue (p : Presale) (e : Escrow) : Nat :=
  match p.registries[e.registryIndex]? with
  | some r => if e.isRemainingQuoteWithdrawn = 1 then 0 else owedRefund p r e
  | none => 0

/-- Base tokens an escrow of a completed sale has still to receive, now or later. -/
def claimDue (p : Presale) (e : Escrow) : Nat :=
  match p.registries[e.registryIndex]? with
  | some r => entitlement p r e - e.totalClaimedToken
  | none => 0

end Verif.Spec
