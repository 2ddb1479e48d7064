# Formal model of the Meteora presale program (Lean 4)

Source under study: `/repo` (Rust, Anchor): `programs/presale/src/**` and `merkle-tree/src/**`.
The code was read as text; nothing was built or executed. Paths below are relative to
`/repo/programs/presale/src` unless they start with `merkle-tree/`.

## 1. Layout

| file (`lean/Verif/…`) | content |
|---|---|
| `Model/Basic.lean` | errors, checked integer arithmetic (`math/safe_math.rs`), constants, addresses, finite maps |
| `Model/Math.lean` | `math/claim_math.rs`, `math/fee_math.rs`, price arithmetic of `presale_mode_handler/fixed_price_presale.rs` |
| `Model/State.lean` | `state/*.rs`: presale, registry, escrow, merkle root config, operator, metadata, fixed-price args |
| `Model/Handlers.lean` | `presale_mode_handler/*.rs` |
| `Model/Params.lean` | `instructions/initialize_presale/params.rs` |
| `Model/Token.lean` | `token2022.rs` and the part of SPL Token / Token-2022 the program relies on |
| `Model/World.lean` | the ledger: all program accounts, token accounts, mints, clock |
| `Model/Instructions.lean` | every instruction of `lib.rs`, with its account constraints; `step`, `run`, `Reachable` |
| `Model/Lamports.lean` | rent paid for and recovered from accounts, on top of `World`; `cstep`, `crun`, `CReachable` |
| `Model/Transactions.lean` | transactions of several instructions, with common signers, at one time; `exec`, `trun`, `TReachable` |
| `Model/Codec.lean`, `Model/Layout.lean` | byte formats; the layout of each account type (`state/*.rs`) and `repr(C)` offsets |
| `Model/Data.lean` | instruction data: selectors and Borsh arguments of each instruction |
| `Model/Entry.lean` | the entry point: account lists with privileges, contexts in field order, instruction data |
| `Model/Sha256.lean`, `Model/Selectors.lean` | SHA-256 and Anchor's discriminators of account types, instructions and events |
| `Model/Pda.lean` | finding derived addresses: base58, the Ed25519 point test, `create_program_address`, `find_program_address`, the authority |
| `Model/MerkleTool.lean` | the rest of the `merkle-tree` crate: `Proof::verify`, lookup table, address of the root |
| `Model/Process.lean` | the program on bytes: accounts decoded, call bound, changes written back |
| `Model/Proptests.lean` | bodies of the project's property tests of the price and fee arithmetic |
| `Model/Epochs.lean` | Token-2022 fee configurations, epochs and announced changes of a transfer fee |
| `Model/Hooks.lean` | the handlers cut at their token operation, hook programs with state, histories with them (C86) |
| `Model/TokenData.lean` | mints and token accounts as bytes, and the checks of `token2022.rs` on them |
| `Model/RentCheck.lean` | the runtime's rent check at the end of a transaction; `rexec`, `RReachable` |
| `Model/EventData.lean` | the bytes of emitted events |
| `Model/Extensions.lean` | Token-2022 account extensions: required memos and the CPI guard |
| `Model/Seeds.lean` | addresses as 32-byte strings: seeds, bump, program id, hash |
| `Model/Merkle.lean` | on-chain verifier and the `merkle-tree` crate, over an arbitrary hash function |
| `Spec.lean`, `SpecExact.lean`, `SpecTally.lean`, `SpecEvents.lean`, `SpecEntry.lean`, `SpecWindup.lean`, `SpecCreate.lean`, `SpecMachine.lean`, `SpecErrors.lean`, `SpecExtensions.lean`, `SpecReceipts.lean`, `SpecBytes.lean`, `SpecSelectors.lean`, `SpecEventBytes.lean`, `SpecCurve.lean`, `SpecBank.lean`, `SpecEpochs.lean`, `SpecShare.lean`, `SpecHooks.lean`, `SpecTokenData.lean`, `SpecDust.lean`, `SpecRent.lean`, `SpecMore.lean`, `SpecDonate.lean`, `SpecLife.lean`, `SpecOrder.lean`, `SpecRename.lean`, `SpecSettle.lean`, `SpecDelay.lean`, `SpecInsiders.lean`, `SpecUndo.lean`, `SpecLists.lean`, `SpecPledge.lean`, `SpecBooks.lean`, `SpecWire.lean`, `SpecCollision.lean`, `SpecIndexer.lean`, `SpecNumbering.lean`, `SpecStatement.lean`, `SpecTerms.lean`, `SpecRate.lean`, `SpecTold.lean` | small independent specifications: phases, shares, rounding, obligations to buyers and creator, token movements, outside conditions, documented constraints, tallies over histories, events, account lists of clients |
| `Lemmas/Basic … Maps, Token` | arithmetic, finite maps, one inversion lemma per token instruction |
| `Lemmas/Inversion, Core, Loops, Init` | each handler succeeds if and only if its listed facts hold |
| `Lemmas/Inv, PInv, WInv, Preserve, Reach` | the inductive invariant of the ledger and its preservation by every operation |
| `Lemmas/Step, Evolve, After, Origin` | what one operation can change; what a run can change; where accounts come from |
| `Lemmas/Sums, Exact, End, Conserve, Flow, Moves, Admin, NoPanic, Tally, Lamports` | budgets, exact payouts, conservation, sources of debits, administration, absence of panics, tallies, account sizes and rent |
| `Lemmas/Codec, Layout, Fits, Decoding` | formats can be read back; sizes; every stored number fits its field; where decoding errors come from |
| `Lemmas/Frame` | which accounts each instruction reads and writes |
| `Lemmas/Accept, AcceptInit` | token checks and argument validation succeed if and only if the independent conditions hold |
| `Lemmas/Machine, MachineAdmin, MachineSale, MachineAfter, MachineInit` | each handler against the reference semantics |
| `Lemmas/Utf8` | the UTF-8 check accepts exactly the encodings of character sequences |
| `Lemmas/Ed25519` | `2^255 - 19` is prime; the point test accepts exactly encodings of points |
| `Lemmas/MerkleAny` | the tree builder and paths in both modes |
| `Lemmas/Hooks` | a handler cut at its token operation does what the whole one does |
| `Lemmas/TokenData` | readers of extension entries against `SpecTokenData.lean` |
| `Lemmas/Donate` | two ledgers that differ in vault balances take the same steps (C92) |
| `Lemmas/Life` | refunds and closings of one escrow over a history (C93) |
| `Lemmas/Order` | two deposits change places (C94) |
| `Lemmas/Settle` | two settling instructions change places (C99) |
| `Lemmas/Rename` | the reference semantics under other names (C95) |
| `Lemmas/Delay` | the reference semantics at another time (C102) |
| `Lemmas/Offsets` | what a format reads at an offset, for each way formats are combined |
| `Lemmas/Errors, ErrorsAdmin, ErrorsSale, ErrorsAfter, ErrorsInit` | which error codes each handler returns and why |
| `Replay/*.lean` | the project's tests, replayed in the model (section 8) |
| `Examples.lean` | concrete reachable worlds, used for the non-vacuity examples |
| `Props/*.lean` | theorems `Cxx_…`, with examples showing their hypotheses are met |

## 2. Modelling conventions

* Machine integers are `Nat`; every operation that can overflow in Rust is an explicit check with
  an error result (`MathOverflow`). Types of stored fields (`u64`, `u128`, …) appear as bounds
  enforced by those checks and at instruction-argument decoding. `Result` is `Except Err`;
  `unreachable!()` and `unwrap()` failures are the explicit error `Err.panic`.
* An instruction either returns a new ledger and its event or an error; on error the ledger is
  unchanged (atomicity of Solana transactions is trusted, see section 3). Multi-instruction
  transactions are a layer on top (`Model/Transactions.lean`); C63 shows that they reach the same states, so
  that theorems about single steps and histories of steps hold for them.
* Program-derived addresses are free constructors of an address type (`Addr`), so distinct seeds
  give distinct addresses; C65 derives this from the seed strings, up to collisions of the hash. Ordinary keys, and keys/PDAs of other programs, are `Addr.key n`.
* Signatures: an instruction carries its set of signers. Only `Addr.key _` can sign from outside;
  the presale authority PDA signs only inside the program.
* The environment is adversarial: between instructions the clock may advance by any amount (never
  backwards), token accounts not controlled by the program may change arbitrarily, vaults may
  receive donations or be frozen, mints may change transfer fee, hook and supply at any time.
  The exact rules are those of `step` on the operations `tick`, `setTok`, `donate`, `freezeVault`,
  `setMint`. The program and native flag of a mint that the program would accept are fixed, and its list
  of extensions can only grow by metadata (`Ext.grown`; Token-2022 adds no other to an existing mint). A transaction carries a flag `accept`: false means a transfer hook, CPI guard or other
  extension of a user account refuses the transfer.
* The world contains an arbitrary environment `env`: the hash function of the merkle tree and the
  byte encoding of keys. Nothing is assumed of them except where a theorem says so (C38, C40).
* Lamports are a separate layer (`Model/Lamports.lean`, C62): the rent-exempt minimum is an arbitrary function of
  the account size, `init` tops the new address up to it, `close` empties the account. Wrapped native tokens count
  as tokens. Transaction fees and all movements outside the program are arbitrary, except that nobody else can
  debit an account of the program or the token program.
* Accounts are values; their bytes are a separate layer (C64). There are infinitely many symbolic addresses and
  only `2^256` byte strings, so the assignment of strings to addresses (`Keys`) is arbitrary and separates only
  the addresses a theorem mentions; `C64_applies` shows that one always exists. Discriminators are arbitrary
  distinct strings of eight bytes. Arguments are checked when decoded: integers in range, vectors and strings
  shorter than `2^32`, proof nodes of 32 bytes, strings in UTF-8 (rejection: `Err.x .deserialize`).
* Account lists are a separate layer (`Model/Entry.lean`, C67, C68). The order in which Anchor reports failed checks is
  not kept there, nor `executable` flags and the accounts a transfer hook touches.
* Each successful step returns a receipt: the event emitted and the token-program calls made. C50
  counts token movements from the latter, not from the program's counters.
* Byte values with no enum variant: `TryFromPrimitive` of `num_enum` either rejects them or maps
  them to the marked default variant, depending on crate internals that are not in `/repo`. The
  model leaves this open (an opaque Boolean), so each theorem holds for both behaviours.
  `UnsoldTokenAction` derives `FromPrimitive`: unknown bytes mean `Refund`.

## 3. Trusted base

* Lean's kernel; each theorem depends on at most the axioms `propext`, `Classical.choice`,
  `Quot.sound` (checked with `#print axioms`, listed in section 6).
* The faithfulness of the hand-written model (each definition cites the Rust lines it models).
* Solana/Anchor behaviour that is not in `/repo`: transaction atomicity, account ownership and
  discriminator checks, `init` failing on existing accounts, `has_one`/`constraint`/`seeds` checks,
  no re-entrancy, monotone `Clock::unix_timestamp` (C97 shows that it is needed, C98 how much of it), `Error` equality comparing error codes.
* SPL Token / Token-2022 behaviour that is not in `/repo`: `transfer_checked`, `burn`, the transfer
  fee formulas `calculate_fee`, `calculate_inverse_fee`, the rules of the memo-transfer and CPI-guard extensions
  (written from the published source).
* Transfer hooks are programs in `Model/Hooks.lean`. What such a program can do by calling others is taken to be changes
  of token accounts that are not vaults, tokens sent to vaults, freezing and changes of SPL Token mints. That Token-2022
  and the presale program cannot be called from it is the runtime's rule against re-entrancy and is assumed.
* The runtime's check that no account is left with too little for its size is a further layer
  (`Model/RentCheck.lean`, C90), with sizes of accounts of other programs chosen freely per transaction; C90 shows
  that it takes no ledger away and never stops a payout.
* Not modelled: compute limits and the `Display`/IDL/CLI parts. `sync_native` needs no rule of its own: on a vault it credits
  tokens (`Op.donate`), elsewhere it is a change of a token account. Token-account delegates are modelled.
* Success theorems (C26, C27, C28, C48, C51, C58) have outside conditions on tokens only: `Spec.Payable`,
  `Spec.Collectable` and the conditions of C28. They never assume that a vault holds enough for a
  payout; that follows from solvency. `Spec.Collectable` does assume room in the vault for a deposit.

## 4. Plan per property

* C01, C02, C03, C04, C05, C11: one inductive invariant over all operations (`Lemmas/Inv*.lean`),
  stated per presale over its account, its open escrows and its two vault balances; the property
  theorems read it off in terms of independent obligation functions in `Spec.lean`.
* C06, C25, C33: exact pre/post relation of the instruction plus the transfer-fee lemma (C42).
* C07, C08, C42: integer arithmetic theorems for all inputs.
* C09, C10, C15, C20, C21: integer/rational bounds; C09, C15, C20, C21 lifted to reachable states.
* C12, C13, C14, C46, C51: closed form of the cumulative claim, monotonicity, invariants.
* C16, C17, C18, C32: step-wise frame theorems lifted to all continuations (`run`).
* C19, C22, C23, C24, C50: at-most-once and exact-amount theorems over traces.
* C26, C27, C28, C30, C48: liveness, i.e. success of the instruction in every reachable state under
  explicit environment hypotheses; C48 is false in full generality (see 5), C58 is the exact statement.
* C29, C31, C34, C35, C36, C37, C38, C41, C44, C45, C49: safety theorems for each instruction, lifted to
  reachable states.
* C39, C40, C52: induction over trees/lists for an arbitrary hash function; C40 assumes only that
  the strings hashed while building and verifying do not collide.
* C53: creation stores what was asked. C54: every source of a panic is excluded by the invariant.
* C55: budget of the base tokens. C56, C57: see 5.
* C59, C60: `SpecEvents.lean` reads each event as a statement about the ledger before and after and folds the
  log; one lemma per instruction, then induction over the history.
* C61: floor arithmetic for groups on top of the exact claim totals (C13) and refund formula (C19).
* C62: the lamport layer refines the ledger both ways; what each instruction does to account sizes
  (`Lemmas/Lamports.lean`, `size_after`) gives its lamport movements.
* C63: simulation between transactions and steps in both directions; induction over the instruction list.
* C64: formats are composed from combinators with laws (read back, length, totality); `Lemmas/Fits.lean` and the
  invariant bound every stored number.
* C65: induction over addresses; lengths separate the kinds, fixed-width fields the members of a kind.
* C66: laws of the argument formats; one pass over all handlers shows that decoding errors come from the argument
  checks only.
* C67: binding code inverted field by field against the client's list; per handler, accounts written. C68: per handler,
  the run is rewritten to read the other ledger; commutation from reads and writes.
* C69: one escrow is settled by C26/C27/C30 (claim, refund, close) under conditions preserved by every payment; induction
  over the number of escrows; then the creator's three steps (C28). Exact amounts from the conservation lemmas.
* C70: induction over later histories from C35; solvency (C01, C02) gives the balances.
* C71: every check of the creation path turned into an equivalence with the independent terms, loops by induction.
* C72: each handler shown equivalent to its clause of `SpecMachine.lean` under the invariant; then induction over histories in both directions.
* C73: a small logic of error codes (`Errs S x`: if `x` ends in a code, the code is in `S`) pushed through every handler; failures excluded by the invariant disappear. `C73_occurs` gives a history for every remaining code.
* C74: a layer over the ledger with the two extension flags; the shape of every instruction's token operations (one transfer in, one transfer or burn out of a vault, or none) reduces both rules to the paying account. Vaults are program addresses, so their flags cannot change (a rule of the layer).
* C75: C72 plus the record of every instruction written as a function of the ledger before and after; added when a mutant (closing event naming another receiver of the rent) passed C59, which only relates events to the ledger.
* C76: reading by offset is compositional (`Lemmas/Offsets.lean`); the offsets of `SpecBytes.lean` are absolute numbers. Added when a mutant (two fields of the escrow exchanged in both directions of the format) passed C64, which only relates writing to reading.
* C77: SHA-256 is computed by the kernel (`decide +kernel`) on every preimage and compared with literal bytes obtained independently. C64, C65 and C76 stay stated for any eight-byte discriminators that differ.
* C76_carries: arguments by name, so that the model's own tuples of arguments are not trusted.
* C78: as C76, with the ranges of every emitted field proved from the invariants of reachable worlds. C78_told reconstructs the event itself from the declarations of `events.rs`; added when a mutant that swapped the bytes of the two unsold actions passed C78_recorded, which uses the model's own list of fields.
* C79: the test of curve25519-dalek (written from its published source) is proved equivalent to the curve equation over `ZMod (2^255-19)`; primality by Lucas certificates whose powers the kernel computes. The model of transactions lets only keys sign (`Tx.signed`); C79_only_keys_sign justifies it. That a signature is accepted only under a key that decodes to a point is the runtime's.
* C80: levels in both modes. Found: `Proof::verify` is not a check for the trees the whitelist uses (C80_single_leaf, C80_sorted_refused); nothing in `/repo` calls it.
* C81: forward and backward simulation between bytes and ledger on top of C64, C66, C67 and C68; per handler, a new account mentions only addresses that came with the call.
* C82: tokens for an amount and cost of tokens form a Galois connection; the test bodies are evaluated with it.
* C83: invariant that the ledger shows the fees of the epoch (a new epoch is a list of mint changes), then one recursion shared by configuration and specification.
* C84: invariant over sales and escrows together: a registry has sold a token for each unit cost it took in; at whole prices all deposits are multiples of the price.
* C85: from C16, C17 and C18 for what is final; from the invariant of C84 for caps out of reach.
* C86: cut each handler at its transfer and show that the rest of it reads nothing a hook can change.
* C87: invariant over histories from the creation on (C18); arithmetic in ℚ from C15 and C20.
* C88: induction over the entries (`Spec.Holds`); C88_ledger ties the bytes to the mints of the other models. The readers of spl-token-2022 are from its source, which is not in `/repo`: that they are so is assumed. The table of extension types is a parameter.
* C89: sums of floors with the number of positive weights instead of the number of escrows; the witnesses are reachable sales evaluated by the kernel. They only show that a bound proved elsewhere is the least.
* C90: the accounts a transaction touches are computed; all others keep lamports and size. Own addresses: an invariant along the instructions, from C62's minimum. The single instruction combines this with C62_moves.
* C91: monotonicity of floored shares `x * d / T` in `d` and `T` together, applied twice for the nested floors; the terms fix everything but deposits.
* C92: simulation between two ledgers with a fixed difference `d` in vault balances; solvency (C01, C02) of the second ledger gives enough for each payout, and no handler reads a vault balance. The step lemma is used in both directions, with `d` and `-d`.
* C93: induction over the history with the tally of C50, adding the refunds of an escrow while it exists and what it had been paid when it was closed after the end; a closed escrow cannot come back once its sale is over.
* C94: in the reference semantics (C72) the two orders of a pair of deposits give the same ledger, since quotas only shrink and what fitted after the other deposit fits before it; then induction over permutations. Witnesses for the two provisos.
* C95: each relation of the reference semantics (C72) is preserved by renaming, since addresses are only compared and derived; hence reachability, steps and histories. Renaming back gives the converse.
* C96: C31 (bounds on the dates) with C32 (terms are kept, the end only moves earlier), C15, C26, C27; the bounds are met by the slowest sale possible.
* C97: two concrete histories, one second back each, against C01 and C02.
* C98: the invariant mentions the clock only through the end of the sale, its creation and the last refresh of each escrow, so it survives any change of the clock respecting these; C01, C02, C13, C26, C27 follow from the invariant alone.
* C99: every settling instruction is an effect (amounts added to counters, flags raised, one escrow changed, one vault debited, one account credited); effects of different tasks commute, and each instruction sees nothing of what the other changes; both directions by the reference semantics of C72; then induction on the permutation.
* C100: a deposit into a full sale would break C04 afterwards; only withdrawals lower the total and they need an open sale, while a full sale that may end early is over (C87); induction on the history. The squatter is a concrete history, and C25 shows that every such sale lets them go.
* C101: at every moment the open escrows of a registry are different rows (C38, C37, C41), so a sub-multiset bounds their deposits (C05); the books equal that sum until the sale is over (C03) and do not change afterwards; induction on the history.
* C102: the relation of C72 is shown to be preserved by the shift, instruction by instruction; the shift by a natural number is undone by the opposite one, which gives the other direction; induction on the history. The invariant needed is that no sale ends at date 0, the date that stands for none.
* C103: what creators took out equals what the flags of the sale say (induction on the history); sums over a group of people are sums over its escrows (C93); the budget of C21. The dilution and the self-funded sale are concrete histories.
* C104: the reference machine (C72) for the deposit and then for the withdrawal; the sums cancel; what the vault received covers the payment.
* C105: induction on the later history with the invariant that the escrow is there, with the same cap, and still holds what cannot be taken out, or that it is gone and the sale is over.
* C106: induction on the history for the dates (C18), then C58 and the exact reference of C72 for opening and depositing.
* C107: induction on the history: while the sale is open the escrows keep what is pledged (step effects), their sum is bounded by the recorded total (C03); after the end the total is frozen.
* C108: C15 and C20 in rationals as for C87, with the registry total at most the total and the raise at most the maximum cap; the terms do not change later.
* C109: at the moment a sale ends the totals are the sums over the escrows (C03 and the deposit that fills it), afterwards they are frozen; all amounts are functions of them.
* C110: composition of C76/C77 (data), C67 (account lists), C81 (bytes), C72 and C75 (reference machine and record); bytes are determined by the ledger they stand for.
* C111: C40 with its condition replaced by a search; the strings of a generated proof's check are strings of the tree.
* C112: C01 to C05 carried to the bytes by C81 and read off with the offsets of C76.
* C113: as C109, with sums over registries taken along a permutation; the part about one registry needs no sum.
* C114: the effect of one token call on a balance, then induction over the history; who took it from the records
  (C75), the evolution of the sale and the flags.
* C115: C114 and C50 give the balance in terms of the counters; the bounds are those of C01 and C02.
* C116: totals compared as in C109; every rounded amount is monotone in price, supply, dates and cap.
* C117: as C116; within the cap every surplus is zero.
* C118: an early end keeps the distances of all dates to the end (C18); sums as in C117.
* C119: invariant of escrows and registries; deposits pay at the rate rounded up, withdrawals leave the fee.
* C120: C60 through C78_told, by induction over the history.
* C43: list theorem. C47: arithmetic theorem plus a reachable counterexample for split deposits.

## 5. Deviations of the code, settled by proofs

1. A validated fixed-price sale may reject every deposit: the registry quota computes
   `remaining_base * q_price` and casts the quotient to `u64`, which validation does not bound
   (`C48_room_but_blocked`, `C58_blocked`).
2. A fixed-price sale without withdrawals can get stuck below its minimum cap for ever when earlier small
   purchases leave a rest that buys nothing (`C47_stuck_forever`, `C47_can_get_stuck`).
3. Withdrawals do not return the deposit fee (`C25_withdraw`); it is returned only if the sale
   fails, or pro rata.
4. Unknown `unsold_token_action` bytes are accepted and act as `Refund`; the declared error for it can
   never occur.
5. `close_fixed_price_presale_args` returns without calling its handler: the event is never emitted.
6. The whitelist builder keeps only the last row of an owner (`C52_last_row_wins`), so one owner cannot be
   whitelisted in two registries with one tree.
7. Unsold tokens of the native mint cannot be burnt, so with the action `Burn` they stay in the vault
   (`C56_native_never_burnt`).
8. Anybody can create the fixed-price parameter account of a presale before its creator does, and the
   creation then uses the planted price (`C57_anybody_sets_price`, `C57_planted_price_binds`). A creator who
   sends both instructions in one transaction gets a failure instead of a wrong price (`C63_price`,
   `C63_price_blocked`), and can use another base key.
9. Events (C59): `EvtDeposit.owner` is the payer, who need not own the escrow
   (`C59_deposit_owner_is_payer`); `EvtPresaleVaultCreate` reports the requested start time even if it has
   passed; withdrawals, claims, refunds and creator payouts are reported net of the transfer fee, unsold
   tokens gross; `EvtEscrowCreate` does not name the registry; revoking an operator emits nothing.
10. No instruction closes a presale or its vaults: their rent is never recovered (`C62_locked`). The rent of an
    escrow goes to a receiver chosen by its owner, whoever paid it (`C62_closing_pays`).
11. Neither the owner of an escrow nor the creator of a presale signs when it is written down, and any address is accepted,
    including the program's own. Money booked for an address nobody can sign for is lost (`C70_stranded`,
    `C70_creator_stranded`); by C69 this and 7 are the only ways for money owed to
    stay in the vaults as long as the tokens themselves can be moved and received.
12. A randomised test of the project asserts that the maximum cap computed from the supply buys exactly the supply. It
    is false for prices below one quote unit per token (`C82_last_deposit_fails`); the program itself does not rely on
    it.
13. One of the audits reports that buyers of a fixed-price sale may end up with no token and no way to get their money
    back. The fix checks that the smallest deposit buys a token and rounds what is taken and given back. That suffices
    under the conditions of `C84_at_least_one`. Otherwise it does not: if a part is released at once, the two parts are
    rounded separately, and with withdrawals at a price that is not whole, what is given back is worth more than the
    tokens returned (`C84_nothing`). What is lost is at most three tokens and one quote unit per buyer (C09).
14. A fixed-price sale may allow withdrawals and at the same time stay open when it is full. Then somebody can fill it
    at the start, keep everybody else out, withdraw in the last second, so that the sale fails, and get the fee back
    as well (`C100_squat`). With either option set otherwise this is impossible (`C100_full_stays`).
15. Nothing keeps the creator of a sale from depositing into it. The deposit comes back as raise and fee, so the minimum
    cap can be reached without any outside money (`C103_alone`), and where the supply is shared out a creator can take
    a part of it from the buyers for free shortly before the end (`C103_dilution`). This needs no privilege, and a
    check of the key would not help since keys are free; at a fixed price the buyers lose at most the rounding of C09 by it.
16. The source advises to correct a wrong whitelist by publishing one with a higher version. While the sale is open the
    old root cannot be removed and stays valid, and anybody can open an escrow for its owner and deposit into it. So anybody
    can tie a buyer to the cap of the old list by one unit paid in for them (`C105_tie`); before that the buyer can
    change by closing and reopening (`C105_change`). Where a higher cap was the mistake, the higher cap stays usable.
17. The account that receives a payout is not checked, so it can be a vault, even the one that pays. The payout then counts
    as made and the tokens can never be moved again (`C115_lost`). Only who signs for the payout loses by it.

Sources of panics covered by C54: `process_close_escrow.rs:46`, `token2022.rs:120` and `:123`,
`fcfs_presale.rs:87`, the indexing in `presale.rs:239`. The conversion in `presale.rs:183` cannot fail by
construction of the model (the raw data has a fixed size).

## 6. Axioms

Obtained with `#print axioms` for every theorem named in `MANIFEST.json`. No theorem uses any other axiom.

* none: C64_no_gaps.
* `propext` only: C101_short_list, C103_alone, C103_dilution, C108_no_best_price, C108_worst_attained, C116_split, C32_fields, C58_terms_suffice, C64_kinds, C78_faithful, C82_last_deposit_fails, C84_nothing,
  C87_price_per_registry, C89_dust_attained, C89_price_sharp, C96_sharp, C97_base, C97_quote, C99_close_last.
* `propext`, `Quot.sound`: C104_rounds, C111_effort, C114_statement, C24_anybody, C35_signatures, C43_parse_exact, C45_fcfs_written, C45_fixed_written, C49_fixed_created, C49_fixed_kept,
  C49_metadata_kept, C49_operator_created, C49_operator_kept, C52_last_row_wins, C57_anybody_sets_price,
  C59_deposit_owner_is_payer, C59_silent, C62_refines, C63_all_or_nothing, C63_inside, C63_price_blocked,
  C63_same_states, C64_loads, C67_binds, C67_lamports, C67_refines, C67_signers, C67_writes, C74_conservative,
  C75_functional, C80_lookup, C86_consulted, C86_instruction, C86_ledger, C86_no_reentry, C88_written, C90_refines, C92_brim.
* `propext`, `Classical.choice`, `Quot.sound`: all others.

## 7. Mutation tests

`seeded/LOG.jsonl` records wrong programs tried against the theorems: each line names the definition edited in a
scratch copy, the edit, the claim it should break, the theorems that no longer compiled and what was tightened.

## 8. Replayed tests

`Replay/*.lean` repeats the project's tests (`programs/presale/tests/*.rs` and the unit tests in `src/`) in the model:
the same creation arguments, the same calls in the same order, and the same expectations about stored values, balances and
error codes. These are tests of the model against what the authors observed of the program, not proofs, and no claim
rests on them. All of them agree. Differences: the clock is fixed and can be set to any time, token accounts are there
from the start and wrapping of native tokens is left out, the hash is a toy, unique keys are small numbers, and where the
tests compute with floating point the resulting integers are written down. Not replayed: one test which passes a wrong
address for a new account (the model computes that address; see C67), and two which only print.

## 9. Findings of the audits

`/repo/audits` holds three reports. What they found, and the theorems that settle it for the code at hand:

| Finding | Settled by |
| --- | --- |
| outcome changed after the cap is reached | C85_reached_is_final, C16_irreversible |
| escrow of a failed sale cannot be closed | C30_close_after_refund, C30_windup_failed |
| closing an escrow while fees are booked | C29_close |
| account of the claimer not writable | C67_sufficient, C67_writes |
| division by zero without vesting | C26_claim_succeeds, C54_no_panic |
| no full release at once | C71_created_iff |
| fixed-price buyers left without tokens | C84_at_least_one; not entirely: C84_nothing, item 13 of section 5 |
| limits not checked on withdrawal | C05_buyer_limits |
| claims blocked by refreshing | C46_refresh, C26_claim_succeeds |
| metadata cannot be closed in some phases | C49_metadata_kept, C72 |
| residues of rounding stay in the vault | C55_base_budget, C15_full_entitlement |
| price of zero | C49_fixed_created |
| old whitelist roots cannot be disabled | C49_root_kept; still so while the sale is open: C85_root_stands |
| one registry uses up the supply of another | C11_registry_within_sold, C85_registries_apart |
| maximum cap out of reach | acknowledged by the authors: C85_cap_out_of_reach, C47_stuck_forever |

## 10. What the README and the changelog say

| Statement | Theorems |
| --- | --- |
| any SPL token, including Token-2022 | too much said: C44_safe_mints, C71_created_iff |
| up to 5 registries with limits per buyer | C31_constraints, C05_buyer_limits |
| maximum cap limits what is raised | C87_raise, C04_hard_cap |
| below the minimum cap the sale failed | C16_irreversible, C19_failed_refund |
| sale ends at the end time, or early when the cap is reached | C87_end; a cap may be out of reach, C85_cap_out_of_reach |
| price is quote over base | C87_price; differs per registry, C87_price_per_registry |
| surplus of pro-rata sales is refunded | C20_refund, C27_refund_succeeds |
| unsold tokens are burnt or returned | C24_unsold |
| permissionless or whitelisted | C37_operator_approved, C38_on_the_list |
| locking and vesting | C10_exact_share, C12_monotone, C14_nothing_early, C15_full_entitlement |
| presale tokens come from the creator | from the payer, whoever that is: C36_base_vault, C57_anybody_sets_price |
| deposits and withdrawals at a fixed price are rounded down | C08_least_charge, C06_deposit, C25_withdraw |
| `withdraw_remaining_quote` only for pro-rata | not only: also in failed sales of any mode, C17_phases, C27_refund_succeeds |
| changelog: dates of vesting | C18_early_finish, C12_schedule_fixed |
| changelog: parameters validated, caps within reach | C49_fixed_created, C47_single_deposit_reaches_minimum |
| changelog: registries keep to their own supply | C11_registry_within_sold, C85_registries_apart |
| changelog: withdrawals and early end can be disabled | C25_never, C87_end |
| changelog: roots can be closed | C49_root_kept |
| changelog: data of the mode | C45_mode_data |
| changelog: limits of whitelisted sales | C87_whitelisted_limits |
