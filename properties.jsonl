{"id": "C01", "title": "Quote vault is always solvent", "statement": "At every point of every history the presale's quote vault holds at least everything still owed in quote tokens: while the sale is open, all recorded deposits and deposit fees; after a failed sale, deposit plus fee of every escrow that has not been refunded; after a completed sale, the creator's raise (if not yet withdrawn), the collectable fees (if not yet collected) and every escrow's outstanding pro-rata refund. Hence no payout instruction can ever fail because the vault is short.", "quantifier": "every finite history of instructions (any order, any signers, any accounts, any argument values, any clock advances, any outside token activity) starting from an empty deployment", "why_tests_cant": "Solvency depends on the interleaving of deposits, withdrawals, refunds, creator payouts and on integer rounding for all amounts; a test fixes one history and a few amounts.", "anchors": ["programs/presale/src/instructions/process_withdraw_remaining_quote.rs:handle_withdraw_remaining_quote", "programs/presale/src/instructions/process_creator_withdraw.rs:handle_creator_withdraw", "programs/presale/src/instructions/process_creator_collect_fee.rs", "programs/presale/src/state/presale.rs:validate_and_get_escrow_remaining_quote", "programs/presale/src/state/presale_registry.rs:get_finalized_presale_remaining_quote"]}
{"id": "C02", "title": "Base vault is always solvent", "statement": "At every point of every history the presale's base vault holds at least the tokens still owed: the full supply until the sale ends; after a failed sale the full supply until the creator takes it back; after a completed sale the unsold tokens (until refunded or burnt) plus, for every open escrow, its final entitlement minus what it already claimed. Claiming, burning, refunding unsold tokens in any order can never starve a buyer.", "quantifier": "every finite history of instructions (any order, any signers, any accounts, any argument values, any clock advances, any outside token activity) starting from an empty deployment", "why_tests_cant": "Depends on all orders of claim, unsold-token action and close, for all vesting schedules and deposit distributions.", "anchors": ["programs/presale/src/instructions/process_claim.rs:handle_claim", "programs/presale/src/instructions/process_perform_unsold_base_token_action.rs", "programs/presale/src/instructions/process_creator_withdraw.rs", "programs/presale/src/presale_mode_handler/mod.rs:process_claim_full_presale_supply_by_share"]}
{"id": "C03", "title": "Recorded totals equal the sum over buyers", "statement": "Until the sale ends, the presale's total deposit, total fee and escrow count equal the sums over its registries, and each registry's totals equal the sums over the escrows open in it; after the end the recorded totals are frozen and bound the sums over open escrows.", "quantifier": "every finite history of instructions (any order, any signers, any accounts, any argument values, any clock advances, any outside token activity) starting from an empty deployment", "why_tests_cant": "An accounting invariant over unbounded numbers of escrows and operations.", "anchors": ["programs/presale/src/state/presale.rs:deposit", "programs/presale/src/state/presale.rs:withdraw", "programs/presale/src/state/presale_registry.rs", "programs/presale/src/state/escrow.rs"]}
{"id": "C04", "title": "Hard cap is never exceeded in fixed-price and FCFS sales", "statement": "In fixed-price and first-come-first-served presales the recorded total deposit never exceeds the maximum cap.", "quantifier": "every finite history of instructions (any order, any signers, any accounts, any argument values, any clock advances, any outside token activity) starting from an empty deployment", "why_tests_cant": "Must hold for every interleaving of deposits by any number of buyers.", "anchors": ["programs/presale/src/presale_mode_handler/fcfs_presale.rs:get_remaining_deposit_quota", "programs/presale/src/presale_mode_handler/fixed_price_presale.rs:get_remaining_deposit_quota", "programs/presale/src/instructions/process_deposit.rs"]}
{"id": "C05", "title": "Per-buyer limits are always respected", "statement": "An escrow's deposit is at all times either zero or between the registry's buyer minimum and buyer maximum, and never above the personal cap fixed when the escrow was created (the whitelisted cap or the registry maximum).", "quantifier": "every finite history of instructions (any order, any signers, any accounts, any argument values, any clock advances, any outside token activity) starting from an empty deployment", "why_tests_cant": "Deposits and partial withdrawals can be combined in any order; tests only try a few sequences.", "anchors": ["programs/presale/src/state/escrow.rs:get_remaining_deposit_quota", "programs/presale/src/state/presale_registry.rs:validate_escrow_deposit", "programs/presale/src/instructions/process_deposit.rs", "programs/presale/src/instructions/process_withdraw.rs"]}
{"id": "C06", "title": "Deposit charges exactly principal plus fee and never more than asked", "statement": "A successful deposit credits the escrow with a positive principal not above the requested maximum nor above the remaining quota, records the registry fee for it, and increases the quote vault by exactly principal plus fee, whatever transfer fee the quote mint levies.", "quantifier": "every reachable state, every requested amount, every mint transfer-fee configuration", "why_tests_cant": "Needs all amounts, fee rates and transfer-fee settings at once.", "anchors": ["programs/presale/src/instructions/process_deposit.rs:handle_deposit", "programs/presale/src/token2022.rs:calculate_transfer_fee_included_amount"]}
{"id": "C07", "title": "Deposit fee law", "statement": "For every principal and every fee rate below 100% the fee equals the fee rate applied to the gross amount rounded up, the gross amount is the smallest whose net covers the principal, the fee is monotone in the principal, is at most the principal for rates up to the 50% limit, and splitting a deposit never lowers the total fee.", "quantifier": "every u64 principal and every fee rate", "why_tests_cant": "Rounding identities over all integers.", "anchors": ["programs/presale/src/math/fee_math.rs:calculate_deposit_fee_included_amount", "programs/presale/src/state/presale_registry.rs:calculate_deposit_fee_included_amount"]}
{"id": "C08", "title": "Fixed price: buyer is charged the least amount that buys the same tokens", "statement": "In fixed-price sales the amount actually taken is at most the amount offered, buys exactly as many base tokens as the offered amount would, and no smaller amount does; the program's internal sanity check can never reject.", "quantifier": "every u64 amount and every non-zero 128-bit price", "why_tests_cant": "Integer rounding over the full domain of amounts and 64.64 prices.", "anchors": ["programs/presale/src/presale_mode_handler/fixed_price_presale.rs:calculate_quote_token_without_surplus"]}
{"id": "C09", "title": "Fixed price: nobody buys below the price and dilution is bounded", "statement": "In a completed fixed-price sale the tokens an escrow can ever claim, valued at the price, never exceed its deposit; and a registry is never oversold by more than the rounding slack of one quote unit plus the price of one base unit.", "quantifier": "every finite history of instructions (any order, any signers, any accounts, any argument values, any clock advances, any outside token activity) starting from an empty deployment", "why_tests_cant": "Depends on every sequence of deposits and withdrawals in the registry and every price.", "anchors": ["programs/presale/src/presale_mode_handler/fixed_price_presale.rs:get_escrow_cumulative_claimable_token", "programs/presale/src/presale_mode_handler/fixed_price_presale.rs:get_remaining_deposit_quota"]}
{"id": "C10", "title": "Claims follow the exact pro-rata vesting schedule up to dust", "statement": "At any time after completion the cumulative amount an escrow may have claimed differs from its exact rational share (deposit over registry deposit, times sold tokens, times the released fraction) by less than one base unit upwards and less than four base units downwards; once the immediate part is released it never exceeds the exact share.", "quantifier": "every deposit distribution, immediate-release rate, lock and vest duration and every time", "why_tests_cant": "A rational-arithmetic bound over all parameters.", "anchors": ["programs/presale/src/math/claim_math.rs"]}
{"id": "C11", "title": "A registry never pays out more than it sold", "statement": "For each registry the sum of all claims ever paid plus all outstanding entitlements never exceeds the tokens sold by that registry, which never exceeds the registry's own supply; so one registry cannot consume another's tokens.", "quantifier": "every finite history of instructions (any order, any signers, any accounts, any argument values, any clock advances, any outside token activity) starting from an empty deployment", "why_tests_cant": "Sum over unboundedly many escrows and all claim schedules.", "anchors": ["programs/presale/src/presale_mode_handler/fixed_price_presale.rs:get_total_base_token_sold", "programs/presale/src/math/claim_math.rs", "programs/presale/src/state/presale.rs:claim"]}
{"id": "C12", "title": "Claimable amount never decreases over time", "statement": "After completion the cumulative claimable amount of every escrow is non-decreasing in time and unaffected by any other party's instruction, so a refresh or claim never underflows.", "quantifier": "every reachable completed sale, every pair of times, every intermediate instruction", "why_tests_cant": "Quantifies over all times and interleavings.", "anchors": ["programs/presale/src/math/claim_math.rs:calculate_cumulative_claimable_amount_for_user", "programs/presale/src/presale_mode_handler/mod.rs"]}
{"id": "C13", "title": "Claim outcome is independent of the claim history", "statement": "After a successful claim at a given time the total the buyer has received depends only on that time, not on how many claims or refreshes (by anybody) happened before; claiming twice at the same time pays nothing the second time.", "quantifier": "every finite history of instructions (any order, any signers, any accounts, any argument values, any clock advances, any outside token activity) starting from an empty deployment", "why_tests_cant": "All schedules of claims and refreshes.", "anchors": ["programs/presale/src/instructions/process_claim.rs", "programs/presale/src/instructions/process_refresh_escrow.rs"]}
{"id": "C14", "title": "Locked tokens cannot leave early", "statement": "No base token can be claimed before completion; before the immediate-release time no immediate part, and before the vesting start no vested part, is claimable.", "quantifier": "every finite history of instructions (any order, any signers, any accounts, any argument values, any clock advances, any outside token activity) starting from an empty deployment", "why_tests_cant": "Must exclude every way of getting tokens early.", "anchors": ["programs/presale/src/math/claim_math.rs", "programs/presale/src/instructions/process_claim.rs"]}
{"id": "C15", "title": "Everything is claimable once vesting ends", "statement": "From the vesting end on, the cumulative claimable amount is constant and equal to the buyer's full entitlement, which is within two base units of its exact share of the sold tokens.", "quantifier": "every reachable completed sale, every time at or after the vesting end", "why_tests_cant": "Needs all schedules, including sales whose end was moved by an early finish.", "anchors": ["programs/presale/src/math/claim_math.rs", "programs/presale/src/instructions/initialize_presale/params.rs", "programs/presale/src/state/presale.rs:recalculate_presale_timing"]}
{"id": "C16", "title": "Sale outcome is irreversible", "statement": "Progress only moves forward: once a sale is completed it stays completed and once failed it stays failed, whatever happens later; a sale that has started never becomes not-started.", "quantifier": "every finite history of instructions (any order, any signers, any accounts, any argument values, any clock advances, any outside token activity) starting from an empty deployment", "why_tests_cant": "Quantifies over all continuations, including early finishes that rewrite the end time.", "anchors": ["programs/presale/src/state/presale.rs:get_presale_progress", "programs/presale/src/state/presale.rs:advance_progress_to_completed"]}
{"id": "C17", "title": "Phase gating of money movements", "statement": "Deposits, withdrawals and escrow creation succeed only while the sale is ongoing; claims, fee collection and unsold-token action only after completion; creator withdrawal only after the end; leftover-quote refunds only after failure, or after completion of a pro-rata sale.", "quantifier": "every finite history of instructions (any order, any signers, any accounts, any argument values, any clock advances, any outside token activity) starting from an empty deployment", "why_tests_cant": "Every state and argument combination.", "anchors": ["programs/presale/src/instructions/process_deposit.rs", "programs/presale/src/instructions/process_withdraw.rs", "programs/presale/src/instructions/process_claim.rs", "programs/presale/src/instructions/process_creator_withdraw.rs"]}
{"id": "C18", "title": "Early finish shifts the schedule rigidly", "statement": "A deposit that fills the cap of a fixed-price or FCFS sale (early finish not disabled) completes the sale at that instant; lock, vesting and immediate-release delays relative to the end are preserved; no other instruction ever changes the schedule; the recomputation never overflows.", "quantifier": "every finite history of instructions (any order, any signers, any accounts, any argument values, any clock advances, any outside token activity) starting from an empty deployment", "why_tests_cant": "All schedules and fill times.", "anchors": ["programs/presale/src/state/presale.rs:recalculate_presale_timing", "programs/presale/src/presale_mode_handler/mod.rs:end_presale_if_max_cap_reached"]}
{"id": "C19", "title": "Failed sale refunds every buyer in full, once", "statement": "After a failed sale each escrow's refund pays exactly its recorded deposit plus fee, exactly once, and afterwards the refund instruction always fails for that escrow.", "quantifier": "every finite history of instructions (any order, any signers, any accounts, any argument values, any clock advances, any outside token activity) starting from an empty deployment", "why_tests_cant": "All orders of refunds among any number of buyers.", "anchors": ["programs/presale/src/instructions/process_withdraw_remaining_quote.rs", "programs/presale/src/state/presale.rs:validate_and_get_escrow_remaining_quote"]}
{"id": "C20", "title": "Pro-rata oversubscription refund is fair and paid once", "statement": "In a completed pro-rata sale each escrow is refunded at most its exact proportional share of the surplus and falls short of it by less than two quote units; its fee refund is at most its fee scaled by its registry's refund ratio and falls short by less than two units; never more than its deposit and fee; it is paid at most once and the amount does not depend on who refunds first.", "quantifier": "every finite history of instructions (any order, any signers, any accounts, any argument values, any clock advances, any outside token activity) starting from an empty deployment", "why_tests_cant": "All deposit distributions and refund orders.", "anchors": ["programs/presale/src/state/presale_registry.rs:get_finalized_presale_remaining_quote", "programs/presale/src/state/presale.rs:validate_and_get_escrow_remaining_quote"]}
{"id": "C21", "title": "Sale budget balances", "statement": "In a completed sale the creator's raise plus all collectable fees plus all refunds never exceed total deposits plus total fees, and at most a rounding remainder bounded by the number of registries and escrows is left behind.", "quantifier": "every finite history of instructions (any order, any signers, any accounts, any argument values, any clock advances, any outside token activity) starting from an empty deployment", "why_tests_cant": "Sum over all escrows with nested integer division.", "anchors": ["programs/presale/src/instructions/process_creator_withdraw.rs", "programs/presale/src/state/presale.rs:get_total_collected_fee"]}
{"id": "C22", "title": "Creator withdraws exactly the raise or the supply, once", "statement": "Over any history the creator withdrawal succeeds at most once per presale, only with the creator's signature; in a completed sale it debits the quote vault by min(total deposit, maximum cap), in a failed one it debits the base vault by the whole supply.", "quantifier": "every finite history of instructions (any order, any signers, any accounts, any argument values, any clock advances, any outside token activity) starting from an empty deployment", "why_tests_cant": "At-most-once over all histories.", "anchors": ["programs/presale/src/instructions/process_creator_withdraw.rs"]}
{"id": "C23", "title": "Fees are collected at most once and only from completed sales", "statement": "Over any history fee collection succeeds at most once per presale, only signed by the creator and only after completion; it debits the quote vault by total fees minus the fees reserved for refunds.", "quantifier": "every finite history of instructions (any order, any signers, any accounts, any argument values, any clock advances, any outside token activity) starting from an empty deployment", "why_tests_cant": "At-most-once over all histories.", "anchors": ["programs/presale/src/instructions/process_creator_collect_fee.rs", "programs/presale/src/state/presale.rs:get_total_collected_fee"]}
{"id": "C24", "title": "Unsold tokens are disposed of at most once and exactly", "statement": "Over any history the unsold-token action succeeds at most once per presale, only after completion, and removes from the base vault exactly supply minus sold: burnt if the creator chose burn, otherwise sent to the creator's associated token account; anybody may trigger it but nobody can redirect it.", "quantifier": "every finite history of instructions (any order, any signers, any accounts, any argument values, any clock advances, any outside token activity) starting from an empty deployment", "why_tests_cant": "At-most-once, every caller.", "anchors": ["programs/presale/src/instructions/process_perform_unsold_base_token_action.rs"]}
{"id": "C25", "title": "Buyers can exit while the sale is open where allowed", "statement": "A withdrawal debits the vault and credits the owner's side by the same amount, never more than requested nor than deposited; FCFS sales and fixed-price sales with withdrawal disabled never allow it; where allowed the owner of an escrow can always take out its whole deposit during the sale. The deposit fee is not returned by a withdrawal.", "quantifier": "every finite history of instructions (any order, any signers, any accounts, any argument values, any clock advances, any outside token activity) starting from an empty deployment", "why_tests_cant": "Liveness for every reachable state.", "anchors": ["programs/presale/src/instructions/process_withdraw.rs", "programs/presale/src/presale_mode_handler/fixed_price_presale.rs:suggest_withdraw_amount"]}
{"id": "C26", "title": "A claim never fails for arithmetic or funding reasons", "statement": "In every reachable completed sale the owner of an escrow can claim: given a usable destination account (and a hook that agrees), the instruction succeeds.", "quantifier": "every finite history of instructions (any order, any signers, any accounts, any argument values, any clock advances, any outside token activity) starting from an empty deployment", "why_tests_cant": "Absence of overflow, underflow and shortfall in all reachable states.", "anchors": ["programs/presale/src/instructions/process_claim.rs", "programs/presale/src/math/claim_math.rs"]}
{"id": "C27", "title": "A refund never fails for arithmetic or funding reasons", "statement": "In every reachable failed sale, and every reachable completed pro-rata sale, the owner of an escrow that has not been refunded can take the refund, given a usable destination account.", "quantifier": "every finite history of instructions (any order, any signers, any accounts, any argument values, any clock advances, any outside token activity) starting from an empty deployment", "why_tests_cant": "Absence of overflow, underflow and shortfall in all reachable states.", "anchors": ["programs/presale/src/instructions/process_withdraw_remaining_quote.rs"]}
{"id": "C28", "title": "Creator payouts never fail for arithmetic or funding reasons", "statement": "In every reachable ended sale the creator who has not withdrawn can withdraw, and in every reachable completed sale the creator who has not collected fees can collect them, given usable destination accounts; the unsold-token action can be performed whenever something is unsold and, if it is to be burnt, the mint is one the token program can burn (C56 covers the exception).", "quantifier": "every finite history of instructions (any order, any signers, any accounts, any argument values, any clock advances, any outside token activity) starting from an empty deployment", "why_tests_cant": "Absence of overflow, underflow and shortfall in all reachable states.", "anchors": ["programs/presale/src/instructions/process_creator_withdraw.rs", "programs/presale/src/instructions/process_creator_collect_fee.rs", "programs/presale/src/instructions/process_perform_unsold_base_token_action.rs"]}
{"id": "C29", "title": "Closing an escrow never forfeits value", "statement": "If an escrow is closed, then at that moment nothing was owed to its owner: during the sale its deposit and fee are zero; after failure it has been refunded or has nothing; after completion its whole final entitlement has been claimed and any refund taken.", "quantifier": "every finite history of instructions (any order, any signers, any accounts, any argument values, any clock advances, any outside token activity) starting from an empty deployment", "why_tests_cant": "Every reachable state in which close is accepted, including the interplay of immediate release and vesting end.", "anchors": ["programs/presale/src/instructions/process_close_escrow.rs"]}
{"id": "C30", "title": "Escrows can be wound up, and the closing panic is unreachable", "statement": "In every reachable state: after vesting ended in a completed sale an owner can claim, take the refund if any, and close; after a failed sale an owner can refund and close; closing never hits the unreachable branch for not-started sales.", "quantifier": "every finite history of instructions (any order, any signers, any accounts, any argument values, any clock advances, any outside token activity) starting from an empty deployment", "why_tests_cant": "Liveness over all reachable states.", "anchors": ["programs/presale/src/instructions/process_close_escrow.rs"]}
{"id": "C31", "title": "Every existing presale satisfies the documented constraints", "statement": "Every presale that exists was created with: positive supply in each of 1 to 5 registries (more than one only if permissioned), 0 < minimum cap <= maximum cap, buyer limits ordered and within the cap, fee rate at most 50%, duration between 60 s and 30 days, start at most 30 days ahead and not in the past, lock plus vesting below 10 years, a consistent release schedule, and in fixed-price sales a non-zero price with enough supply for the maximum cap.", "quantifier": "every finite history of instructions (any order, any signers, any accounts, any argument values, any clock advances, any outside token activity) starting from an empty deployment", "why_tests_cant": "All argument combinations of the initialisation instruction.", "anchors": ["programs/presale/src/instructions/initialize_presale/params.rs", "programs/presale/src/instructions/initialize_presale/process_create_presale_vault.rs", "programs/presale/src/presale_mode_handler/fixed_price_presale.rs:initialize_presale"]}
{"id": "C32", "title": "Terms of a sale are immutable", "statement": "After creation, no instruction changes a presale's owner, mints, vaults, caps, supply, registry limits and fee rates, mode, price, whitelist mode, release rate or durations; the end time can only move earlier and only through an early finish; presale accounts never disappear.", "quantifier": "every finite history of instructions (any order, any signers, any accounts, any argument values, any clock advances, any outside token activity) starting from an empty deployment", "why_tests_cant": "Frame property over every instruction.", "anchors": ["programs/presale/src/state/presale.rs", "programs/presale/src/lib.rs"]}
{"id": "C33", "title": "The full supply is in the vault before anybody can deposit", "statement": "A successful initialisation puts exactly the sum of registry supplies into a fresh base vault controlled only by the program, regardless of the mint's transfer fee.", "quantifier": "every initialisation argument and mint configuration", "why_tests_cant": "All transfer-fee settings and supplies.", "anchors": ["programs/presale/src/instructions/initialize_presale/process_initialize_presale.rs", "programs/presale/src/token2022.rs:calculate_transfer_fee_included_amount"]}
{"id": "C34", "title": "Presales are isolated from one another", "statement": "An instruction naming one presale never changes another presale's state or escrows and never decreases another presale's vaults; passing another presale's vault or escrow is rejected.", "quantifier": "every finite history of instructions (any order, any signers, any accounts, any argument values, any clock advances, any outside token activity) starting from an empty deployment", "why_tests_cant": "All account substitutions.", "anchors": ["programs/presale/src/instructions/process_deposit.rs:DepositCtx", "programs/presale/src/instructions/process_claim.rs:ClaimCtx", "programs/presale/src/instructions/process_withdraw.rs:WithdrawCtx"]}
{"id": "C35", "title": "Only the entitled party can act", "statement": "Claim, withdraw, refund and close on an escrow succeed only with its owner's signature; creator withdrawal, fee collection, whitelist administration and operator management only with the presale creator's signature; no one else can reduce an escrow's deposit or close it.", "quantifier": "every finite history of instructions (any order, any signers, any accounts, any argument values, any clock advances, any outside token activity) starting from an empty deployment", "why_tests_cant": "All signer sets and account combinations.", "anchors": ["programs/presale/src/instructions/process_claim.rs", "programs/presale/src/instructions/process_withdraw.rs", "programs/presale/src/instructions/process_close_escrow.rs", "programs/presale/src/instructions/process_creator_withdraw.rs", "programs/presale/src/instructions/process_create_operator.rs"]}
{"id": "C36", "title": "User token accounts are debited only with their authority's signature", "statement": "Whatever instruction is executed, a token account that is not a presale vault loses tokens only if its authority signed; presale vaults lose tokens only through the payout instructions of their own presale.", "quantifier": "every finite history of instructions (any order, any signers, any accounts, any argument values, any clock advances, any outside token activity) starting from an empty deployment", "why_tests_cant": "All instructions and account substitutions.", "anchors": ["programs/presale/src/token2022.rs:transfer_from_user", "programs/presale/src/token2022.rs:transfer_from_presale_to_user"]}
{"id": "C37", "title": "Authority-whitelisted escrows need an operator approved by the creator", "statement": "In an authority-whitelisted presale every escrow was created with the signature of an operator whom the presale's creator had registered and not revoked at that time, and with the cap that operator chose within the registry limits.", "quantifier": "every finite history of instructions (any order, any signers, any accounts, any argument values, any clock advances, any outside token activity) starting from an empty deployment", "why_tests_cant": "All sequences of operator registration, revocation and escrow creation.", "anchors": ["programs/presale/src/instructions/create_escrow/process_create_permissioned_escrow_with_creator.rs", "programs/presale/src/instructions/process_create_operator.rs", "programs/presale/src/instructions/process_revoke_operator.rs"]}
{"id": "C38", "title": "Merkle-whitelisted escrows need a proof against the creator's root", "statement": "In a merkle-whitelisted presale every escrow was created with a proof that verifies, against a root the creator published for this presale, the exact owner, registry and cap stored in the escrow.", "quantifier": "every finite history of instructions (any order, any signers, any accounts, any argument values, any clock advances, any outside token activity) starting from an empty deployment", "why_tests_cant": "All sequences of root publication, closing and escrow creation.", "anchors": ["programs/presale/src/instructions/create_escrow/process_create_permissioned_escrow_with_merkle_proof.rs", "programs/presale/src/instructions/process_create_merkle_root_config.rs"]}
{"id": "C39", "title": "Merkle tree completeness", "statement": "For every non-empty whitelist, every entry's generated proof is accepted by the on-chain verifier against the generated root.", "quantifier": "every list of whitelist entries of any length, every hash function", "why_tests_cant": "Trees of every size and shape, including duplicated last nodes.", "anchors": ["merkle-tree/src/merkle_tree.rs", "merkle-tree/src/config_merkle_tree.rs", "programs/presale/src/instructions/create_escrow/process_create_permissioned_escrow_with_merkle_proof.rs:verify"]}
{"id": "C40", "title": "Merkle whitelist soundness", "statement": "Any (owner, registry, cap) for which some proof of any length verifies against a generated root is an entry of the whitelist, unless two distinct byte strings hashed while building or verifying collide.", "quantifier": "every whitelist, every claimed entry, every proof of every length", "why_tests_cant": "Adversarial proofs of every length.", "anchors": ["merkle-tree/src/merkle_tree.rs", "merkle-tree/src/tree_node.rs", "programs/presale/src/instructions/create_escrow/process_create_permissioned_escrow_with_merkle_proof.rs:verify"]}
{"id": "C41", "title": "At most one escrow per presale, owner and registry", "statement": "At any time there is at most one open escrow per (presale, owner, registry); escrows of permissionless presales are always in registry zero with the registry maximum as cap; an escrow always belongs to an existing presale and an initialised registry.", "quantifier": "every finite history of instructions (any order, any signers, any accounts, any argument values, any clock advances, any outside token activity) starting from an empty deployment", "why_tests_cant": "All histories of create and close.", "anchors": ["programs/presale/src/instructions/create_escrow/process_create_escrow.rs", "programs/presale/src/instructions/create_escrow/process_create_permissionless_escrow.rs"]}
{"id": "C42", "title": "Transfer-fee inversion is exact", "statement": "For every amount and every Token-2022 transfer-fee setting, if the fee-included amount is computed then the recipient receives exactly the requested amount after the token program deducts its fee, and the computed amount is the least such; the internal consistency panic is unreachable.", "quantifier": "every u64 amount, every fee rate up to 100% and every maximum fee", "why_tests_cant": "Rounding identity over the full domain.", "anchors": ["programs/presale/src/token2022.rs:calculate_transfer_fee_included_amount"]}
{"id": "C43", "title": "Hook account parsing is exact", "statement": "Parsing of remaining accounts consumes exactly the announced accounts, in order, assigns each slice to its announced kind, and rejects too few accounts, duplicate kinds and kinds not allowed by the instruction.", "quantifier": "every slice description and every remaining-account list", "why_tests_cant": "Lists of all lengths.", "anchors": ["programs/presale/src/token2022.rs:parse_remaining_accounts_for_transfer_hook"]}
{"id": "C44", "title": "Only safe mints are admitted", "statement": "A presale can only exist for mints that are SPL mints, or Token-2022 mints other than the Token-2022 native mint carrying only transfer-fee, transfer-hook and metadata extensions.", "quantifier": "every finite history of instructions (any order, any signers, any accounts, any argument values, any clock advances, any outside token activity) starting from an empty deployment", "why_tests_cant": "All extension sets.", "anchors": ["programs/presale/src/token2022.rs:is_supported_mint"]}
{"id": "C45", "title": "Stored mode data always decodes to what was configured", "statement": "For every presale that exists, decoding the stored mode byte and raw mode data yields exactly the mode, price and disable flags given at creation, at every later time; mode decoding never fails.", "quantifier": "every finite history of instructions (any order, any signers, any accounts, any argument values, any clock advances, any outside token activity) starting from an empty deployment", "why_tests_cant": "All 128-bit prices and flag combinations; frame over all instructions.", "anchors": ["programs/presale/src/presale_mode_handler/fixed_price_presale.rs:FixedPricePresaleHandler", "programs/presale/src/presale_mode_handler/fcfs_presale.rs", "programs/presale/src/presale_mode_handler/mod.rs:get_presale_mode_handler"]}
{"id": "C46", "title": "Refresh is harmless", "statement": "Anybody's refresh of an escrow moves no tokens, changes only the pending amount and the refresh timestamp, never changes what the owner will have received after their next claim, and never fails in a reachable completed sale.", "quantifier": "every finite history of instructions (any order, any signers, any accounts, any argument values, any clock advances, any outside token activity) starting from an empty deployment", "why_tests_cant": "All placements of refreshes in a history.", "anchors": ["programs/presale/src/instructions/process_refresh_escrow.rs"]}
{"id": "C47", "title": "A validated fixed-price sale can reach its minimum cap", "statement": "For every fixed-price configuration that passes validation, a single deposit of the maximum cap into the empty sale is charged at least the minimum cap. (Whether smaller deposits may leave the sale permanently stuck below the minimum cap is settled as well.)", "quantifier": "every validated price and cap pair", "why_tests_cant": "All prices and caps; rounding of the last purchasable unit.", "anchors": ["programs/presale/src/presale_mode_handler/fixed_price_presale.rs:ensure_gap_between_min_and_max_presale_cap"]}
{"id": "C48", "title": "Deposits succeed whenever there is room", "statement": "In an ongoing sale with remaining quota, a deposit within the buyer's limits by a payer with funds succeeds.", "quantifier": "every finite history of instructions (any order, any signers, any accounts, any argument values, any clock advances, any outside token activity) starting from an empty deployment", "why_tests_cant": "Absence of overflow in all reachable states.", "anchors": ["programs/presale/src/instructions/process_deposit.rs", "programs/presale/src/presale_mode_handler/fixed_price_presale.rs:get_remaining_deposit_quota"]}
{"id": "C49", "title": "Administrative accounts follow their life cycle", "statement": "Merkle roots, operators, server metadata and fixed-price parameter accounts are created only by the party documented, in the documented phase, hold what was given, are never overwritten, and disappear only on the documented party's request.", "quantifier": "every finite history of instructions (any order, any signers, any accounts, any argument values, any clock advances, any outside token activity) starting from an empty deployment", "why_tests_cant": "All orders of administrative instructions.", "anchors": ["programs/presale/src/instructions/process_create_merkle_root_config.rs", "programs/presale/src/instructions/process_close_merkle_root_config.rs", "programs/presale/src/instructions/process_create_operator.rs", "programs/presale/src/instructions/process_revoke_operator.rs", "programs/presale/src/instructions/process_create_permissioned_server_metadata.rs", "programs/presale/src/instructions/process_close_merkle_proof_metadata.rs", "programs/presale/src/instructions/process_initialize_extra_presale_params.rs", "programs/presale/src/instructions/process_close_extra_presale_params.rs"]}
{"id": "C50", "title": "Reported statistics equal what happened", "statement": "For every history the presale's total-claimed and total-refunded counters equal the sums of the amounts of all successful claims and refunds of that presale.", "quantifier": "every finite history of instructions (any order, any signers, any accounts, any argument values, any clock advances, any outside token activity) starting from an empty deployment", "why_tests_cant": "Trace property over unbounded histories.", "anchors": ["programs/presale/src/state/presale.rs:claim", "programs/presale/src/state/presale.rs:update_total_refunded_quote_token"]}
{"id": "C51", "title": "A buyer's final payout does not depend on others' later actions", "statement": "Once a sale has ended, an escrow's refund and its claim schedule are fixed: no instruction by any other party changes the amounts its owner will receive or whether the owner can receive them.", "quantifier": "every finite history of instructions (any order, any signers, any accounts, any argument values, any clock advances, any outside token activity) starting from an empty deployment", "why_tests_cant": "All interleavings after the end.", "anchors": ["programs/presale/src/state/presale.rs:validate_and_get_escrow_remaining_quote", "programs/presale/src/math/claim_math.rs"]}
{"id": "C52", "title": "Duplicate whitelist rows: the last one wins", "statement": "Building the whitelist tree keeps one entry per owner address, in order of first appearance, with the values of the last row of that owner.", "quantifier": "every list of rows", "why_tests_cant": "All lists.", "anchors": ["merkle-tree/src/config_merkle_tree.rs:new"]}
{"id": "C53", "title": "A presale is created exactly as asked", "statement": "A successful initialisation stores exactly the requested terms: creator, mints, caps, end, whitelist and presale mode, unsold-token action, lock and vesting terms, and for each registry its supply, buyer limits and fee rate; the start is the requested one or the present if that has passed.", "quantifier": "for all reachable states and all initialize_presale arguments and accounts", "why_tests_cant": "Swapped or truncated fields only show for particular argument combinations; tests use a handful.", "anchors": ["programs/presale/src/instructions/initialize_presale/process_initialize_presale.rs:83-174", "programs/presale/src/state/presale.rs"]}
{"id": "C54", "title": "No instruction can panic", "statement": "In every state the program can reach, no instruction with any accounts, signers and arguments ends in a panic: every unreachable!, unwrap and unchecked operation of the modelled code is guarded by an earlier check or an invariant.", "quantifier": "every reachable state and every instruction with any accounts, signers and argument values", "why_tests_cant": "Panics hide behind combinations of phase, mode and argument values; a test only tries the combinations its author thought of.", "anchors": ["programs/presale/src/instructions/process_close_escrow.rs:46", "programs/presale/src/presale_mode_handler/fcfs_presale.rs", "programs/presale/src/token2022.rs:120"]}
{"id": "C55", "title": "The sold tokens are handed out up to rounding", "statement": "In a completed sale the tokens already claimed plus the tokens still due to all buyers never exceed the tokens sold, and fall short of them by at most two units per escrow that existed when the sale ended.", "quantifier": "every finite history of instructions (any order, any signers, any accounts, any argument values, any clock advances, any outside token activity) starting from an empty deployment", "why_tests_cant": "A bound on accumulated rounding over any number of buyers and claims cannot be established by samples.", "anchors": ["programs/presale/src/math/claim_math.rs", "programs/presale/src/presale_mode_handler/mod.rs"]}
{"id": "C56", "title": "Unsold tokens of the native mint that are to be burnt are stranded", "statement": "The program admits the native mint of SPL Token (wrapped SOL) as base mint together with the burn action; in such a presale the unsold-token action fails in every continuation of every reachable state, so the unsold tokens can never leave the vault through it.", "quantifier": "every reachable state, every continuation, every caller and all accounts passed", "why_tests_cant": "That no continuation whatsoever succeeds is a statement about all histories.", "anchors": ["programs/presale/src/token2022.rs:18-41", "programs/presale/src/instructions/process_perform_unsold_base_token_action.rs"]}
{"id": "C57", "title": "Fixed-price parameters are not authenticated", "statement": "While the parameter account of a presale address does not exist, anybody can create it with any price, flag and owner; from then on, as long as the recorded owner does not sign, it cannot be replaced or removed, and every fixed-price presale created at that address, by whomever, has the price and withdrawal flag in it.", "quantifier": "every reachable state, every price, flag, payer and owner, and every later history without the recorded owner's signature", "why_tests_cant": "Tests create the parameters and the presale as the same honest party; that nobody else can interfere, or how far they can, is a statement about all histories and all signers.", "anchors": ["programs/presale/src/instructions/process_initialize_extra_presale_params.rs:handle_initialize_fixed_price_presale_args", "programs/presale/src/instructions/process_close_extra_presale_params.rs", "programs/presale/src/presale_mode_handler/fixed_price_presale.rs:initialize_presale"]}
{"id": "C58", "title": "Exactly when an open sale accepts a deposit", "statement": "In an open sale, a deposit whose prescribed amount is positive and lifts the escrow to its registry's minimum succeeds whenever it can be paid, provided the unsold rest of a fixed-price registry costs less than 2^64 quote units; while that rest costs more, no deposit into the registry succeeds. The proviso holds throughout if the whole registry supply costs less than 2^64.", "quantifier": "every finite history of instructions (any order, any signers, any accounts, any argument values, any clock advances, any outside token activity) starting from an empty deployment; every deposit", "why_tests_cant": "Absence of every other overflow or rejection in all reachable states; both directions.", "anchors": ["programs/presale/src/instructions/process_deposit.rs", "programs/presale/src/presale_mode_handler/fixed_price_presale.rs:get_remaining_deposit_quota"]}
{"id": "C59", "title": "Every event tells the truth", "statement": "Whatever event a successful instruction emits, its fields describe the change made by that very instruction: the accounts, the recorded amounts, the new totals, the tokens that moved out of or into the vault (net of what the token program withheld where the event reports a net amount) and the signer. Only closing a price account and revoking an operator emit nothing, and they touch no token, sale or escrow. The address called owner in EvtDeposit is the payer, not the owner of the escrow.", "quantifier": "every finite history of instructions (any order, any signers, any accounts, any argument values, any clock advances, any outside token activity) starting from an empty deployment; every instruction", "why_tests_cant": "All 17 events in all reachable states, for every fee configuration and every signer.", "anchors": ["programs/presale/src/events.rs", "programs/presale/src/instructions/process_deposit.rs", "programs/presale/src/instructions/process_claim.rs", "programs/presale/src/instructions/process_creator_withdraw.rs"]}
{"id": "C60", "title": "The event log determines the totals", "statement": "Folding the events of a whole history in order reproduces, for every sale, its total deposits, deposit fees, open escrows, claimed tokens, refunds and the three one-time flags, and for every open escrow its deposits, fees, claimed and pending tokens and its refund flag; a closed escrow leaves nothing behind for its successor at the same address.", "quantifier": "every finite history of instructions (any order, any signers, any accounts, any argument values, any clock advances, any outside token activity) starting from an empty deployment; every sale and every escrow", "why_tests_cant": "Histories of any length; any change of a total without a matching event anywhere would break it.", "anchors": ["programs/presale/src/events.rs", "programs/presale/src/state/presale.rs", "programs/presale/src/state/escrow.rs"]}
{"id": "C61", "title": "Equal treatment; splitting a deposit never pays", "statement": "In an ended sale, of two escrows of the same registry the one with the larger deposit has, after both claim at the same time, claimed at least as much, and equal deposits have claimed exactly the same, whatever happened before and in between. A group of escrows that together deposited as much as one escrow of the same registry may never have claimed more tokens than it and at most two units less per additional member; refunds of deposits of an oversubscribed sale likewise, losing at most a unit per additional member.", "quantifier": "every finite history of instructions starting from an empty deployment; every pair or group of escrows of one registry; every claim time", "why_tests_cant": "Quantifies over groups of any size, every deposit split and every pair of continuations; rounding makes counterexamples rare.", "anchors": ["programs/presale/src/state/escrow.rs", "programs/presale/src/state/presale.rs", "programs/presale/src/presale_mode_handler/mod.rs"]}
{"id": "C62", "title": "Rent: who pays lamports, who gets them, and what stays locked", "statement": "Taking lamports into account changes nothing about the ledger: every ledger reachable with rent is reachable without, and conversely given payers with lamports. An instruction succeeds exactly if the program accepts it and its payer can pay the rent still due for the accounts it creates. An instruction debits only its signed payer and the account it closes; a new account gets exactly the rent-exempt minimum (or what it already held), a closed one is emptied into the receiver named by the instruction, nobody else gains, no lamport appears or disappears, and an instruction that neither creates nor closes an account moves none. Every account of the program is rent-exempt at all times. The lamports of a sale and its two vaults never decrease, so the rent paid for them is never returned.", "quantifier": "every finite history of instructions and outside lamport movements starting from an empty deployment; every rent function; every account", "why_tests_cant": "Quantifies over all rent parameters, initial balances and histories; tests use one rent setting and wealthy payers.", "anchors": ["programs/presale/src/instructions/initialize_presale/process_initialize_presale.rs", "programs/presale/src/instructions/process_close_escrow.rs", "programs/presale/src/instructions/process_close_merkle_root_config.rs"]}
{"id": "C63", "title": "Transactions of several instructions", "statement": "A transaction of any number of instructions of this and other programs happens entirely or not at all. Transactions reach exactly the states single operations reach, and each instruction inside a transaction, even one that aborts later, runs in such a state, so all other properties carry over. Within a transaction the phase of a sale is constant, except that a deposit of that transaction may complete an ongoing sale that may end early. A creator who names the price and creates the fixed-price sale in one transaction gets exactly that price for ever, or nothing happens. After vesting, a buyer can claim, take the refund and close the escrow in one transaction.", "quantifier": "every finite history of transactions of any length starting from an empty deployment; every transaction; every sale", "why_tests_cant": "Quantifies over all instruction lists mixed with instructions of other programs and over aborts at any position.", "anchors": ["programs/presale/src/lib.rs", "programs/presale/src/instructions/initialize_presale/process_initialize_presale.rs", "programs/presale/src/instructions/process_initialize_extra_presale_params.rs"]}
{"id": "C64", "title": "Accounts as bytes", "statement": "Every account of every reachable state, written to bytes by its declared layout (packed zero-copy structs, Borsh for the server metadata, little-endian integers, eight-byte discriminator) and read back, is unchanged: every number fits its machine type. The bytes take exactly the space reserved at creation. Bytes of one account type are never read as another type, no zero-copy content of the right length and discriminator is refused, two different accounts never have the same bytes, and the layouts leave no implicit gaps whether u128 is aligned to 8 or 16 bytes.", "quantifier": "every reachable state with a clock below 2^64, every account type, every account, every assignment of 32-byte strings to addresses that separates those the account mentions, every byte string", "why_tests_cant": "Quantifies over all reachable account contents, including sums of unboundedly many deposits, and over all byte strings.", "anchors": ["programs/presale/src/state/presale.rs", "programs/presale/src/state/presale_registry.rs", "programs/presale/src/state/escrow.rs", "programs/presale/src/state/fixed_price_presale_params.rs", "programs/presale/src/state/merkle_root_config.rs", "programs/presale/src/state/operator.rs", "programs/presale/src/state/permissioned_server_metadata.rs"]}
{"id": "C65", "title": "Derived addresses are distinct", "statement": "Any two different addresses the program uses (presale, vaults, price parameters, escrow, merkle root, operator, server metadata, authority, associated token account, plain key) have different 32-byte strings, unless SHA-256 collides on the strings hashed for them or hits a key: the strings hashed for two kinds of address differ in length whatever the bumps, and those of one kind determine the seeds. The numbers in the seeds of every account of a reachable state fit the one and eight bytes used for them. Account bytes (C64) can be taken with these addresses.", "quantifier": "every set of addresses closed under the addresses they are derived from, every hash function, bump choice, key string and program id; every reachable state", "why_tests_cant": "Quantifies over all nested addresses and all hash functions; collisions of seed strings are invisible to random tests.", "anchors": ["programs/presale/src/constants.rs", "programs/presale/src/const_pda.rs", "programs/presale/src/instructions/initialize_presale/process_initialize_presale.rs", "programs/presale/src/instructions/process_create_merkle_root_config.rs", "programs/presale/src/instructions/create_escrow/process_create_permissioned_escrow_with_creator.rs"]}
{"id": "C66", "title": "Instruction data", "statement": "A call written as instruction data (eight-byte selector and Borsh arguments) is read back as the same call, whatever bytes follow; different calls never share data; whatever is read has every number, length and string within its type. An instruction reports a decoding error exactly if no data at all are read as that call, so every call that succeeds can be made and no argument range is lost or added by the model.", "quantifier": "every instruction, all arguments, all byte strings, all ledgers", "why_tests_cant": "Quantifies over all byte strings and all argument values, including unbounded vectors and strings.", "anchors": ["programs/presale/src/lib.rs", "programs/presale/src/instructions/initialize_presale/params.rs", "programs/presale/src/token2022.rs", "programs/presale/src/instructions/process_initialize_extra_presale_params.rs"]}
{"id": "C67", "title": "Account lists: privileges declared, needed and used", "statement": "Called with an ordered list of accounts (address, signer flag, writable flag) and instruction data, the program accepts exactly the lists of the interface description: the declared accounts in order, each with at least its declared privileges, then the remaining accounts; every account reaches the field meant for it. Every success of an instruction is obtained by the call with exactly the declared privileges and signatures. A call changes no program account, token account, mint or lamports under an address not listed as writable.", "quantifier": "all account lists, all instruction data, all ledgers, all instructions", "why_tests_cant": "Quantifies over all account lists including repeated and surplus accounts, all flag combinations and all ledgers.", "anchors": ["programs/presale/src/lib.rs", "programs/presale/src/instructions/process_deposit.rs", "programs/presale/src/instructions/process_creator_withdraw.rs", "programs/presale/src/instructions/initialize_presale/process_initialize_presale.rs", "programs/presale/src/instructions/process_close_escrow.rs"]}
{"id": "C68", "title": "Isolation and order independence", "statement": "The outcome of a call, including which error it reports, depends only on the contents of the accounts it lists, the clock and the environment. Two calls neither of which writes an account listed by the other commute: in either order both succeed with the same receipts and every address holds the same afterwards.", "quantifier": "all reachable ledgers, all pairs of calls", "why_tests_cant": "Relates two runs on different ledgers and two interleavings for all ledgers and calls.", "anchors": ["programs/presale/src/lib.rs", "programs/presale/src/instructions/process_deposit.rs", "programs/presale/src/instructions/process_creator_withdraw.rs", "programs/presale/src/instructions/initialize_presale/process_initialize_presale.rs", "programs/presale/src/instructions/process_close_escrow.rs"]}
{"id": "C69", "title": "A finished sale can be wound up completely", "statement": "Whenever a sale is over and vested, its creator and the owners of its escrows can sign and have usable token accounts, and the vaults are not frozen, there is a sequence of instructions, all successful and signed by these people only, after which every escrow of the sale is closed, the creator has received raise (or supply), fees and unsold tokens, and the two vaults have lost exactly what they owed, so that nothing is owed any more. The only exception is a burn of unsold tokens of the native mint.", "quantifier": "all reachable ledgers, any number of escrows, all presale modes and outcomes, all token balances and transfer fees", "why_tests_cant": "Existence of a complete settlement from every reachable state with any number of escrows, by induction over the escrows left.", "anchors": ["programs/presale/src/instructions/process_claim.rs", "programs/presale/src/instructions/process_withdraw_remaining_quote.rs", "programs/presale/src/instructions/process_close_escrow.rs", "programs/presale/src/instructions/process_creator_withdraw.rs", "programs/presale/src/instructions/process_creator_collect_fee.rs", "programs/presale/src/instructions/process_perform_unsold_base_token_action.rs"]}
{"id": "C70", "title": "Money booked for somebody who cannot sign stays for ever", "statement": "As long as its owner does not sign, an escrow stays open, keeps what was paid in and receives nothing. Owners and creators need not sign when they are written down; if they are addresses nobody can sign for, they have never received anything, and whatever they have a right to (deposits and fees of a failed sale, tokens and surplus, raise and fees, supply) lies in the vaults in every later state.", "quantifier": "all reachable ledgers, all later histories", "why_tests_cant": "Concerns all later histories of any length by any parties.", "anchors": ["programs/presale/src/instructions/create_escrow/process_create_permissionless_escrow.rs", "programs/presale/src/instructions/initialize_presale/process_initialize_presale.rs", "programs/presale/src/instructions/process_deposit.rs"]}
{"id": "C71", "title": "Exactly which presales can be created", "statement": "initialize_presale succeeds if and only if: the terms are acceptable (caps, times, modes, releases, each registry's supply, deposit limits and fee, and for a fixed price that every registry's minimum and maximum buy whole tokens and the supply covers the cap), the accounts it creates do not exist, both mints are supported, base and payer signed, a price account is given exactly for fixed-price sales, and the payer's account can be charged the supply including the transfer fee with matching hook accounts. So no acceptable sale is refused and no unacceptable one is admitted.", "quantifier": "all reachable ledgers, transactions, arguments and account lists", "why_tests_cant": "Equivalence over all arguments of all sizes, both directions.", "anchors": ["programs/presale/src/instructions/initialize_presale/process_initialize_presale.rs", "programs/presale/src/instructions/initialize_presale/params.rs", "programs/presale/src/presale_mode_handler", "programs/presale/src/token2022.rs"]}
{"id": "C72", "title": "The program is exactly the reference machine", "statement": "There is a short reference semantics that says for each of the 21 instructions, in terms of the sale's phase, the buyer's entitlement and refund, the smallest sufficient charge and so on, when the instruction may happen and what the ledger is afterwards. In every reachable ledger the program accepts an instruction with a given result if and only if the reference semantics relates the ledger to that result; it refuses if and only if no result is related; and the reachable ledgers are exactly those that arise from an empty one in the reference semantics. None of the reference conditions mentions counters overflowing, vaults running dry or vault authority: those cannot fail.", "quantifier": "all reachable ledgers, all transactions and instructions, all results; all histories", "why_tests_cant": "Equivalence of two transition systems over all states and inputs.", "anchors": ["programs/presale/src/lib.rs", "programs/presale/src/instructions", "programs/presale/src/state", "programs/presale/src/presale_mode_handler", "programs/presale/src/token2022.rs"]}
{"id": "C73", "title": "Error codes tell the truth", "statement": "When the program refuses an instruction with one of its own error codes, what the code says is the case: for every instruction and code there is a condition on the ledger and the arguments (sale over or not over, limits violated, wrong vault or mint, missing hook accounts, ...) that holds whenever that code is returned. Each instruction returns only the codes listed for it; the codes UndeterminedError and InvalidUnsoldTokenAction are never returned, every other code can be; and the arithmetic code MathOverflow is returned only by creating a sale, opening an escrow and depositing, never when somebody takes out what they are owed.", "quantifier": "all reachable ledgers, all transactions, instructions and error codes", "why_tests_cant": "Says for every refusal in every state what must hold; tests see single refusals.", "anchors": ["programs/presale/src/errors.rs", "programs/presale/src/instructions", "programs/presale/src/presale_mode_handler", "programs/presale/src/token2022.rs"]}
{"id": "C74", "title": "Required memos and CPI guards lock nobody out", "statement": "Token-2022 accounts may require a memo before incoming transfers and may forbid programs to spend from them (CPI guard). Whatever owners do with these extensions at any time: an instruction succeeds exactly if it would succeed without them and it does not spend, as owner, from a guarded account of the signer; its effect and token operations are then the same; each transfer to an account that requires memos comes directly after the memo 'Presale', and no other memo is written. Hence no withdrawal, claim, refund, creator withdrawal, fee collection or unsold-token action is ever refused because of these extensions; vaults never have them; and a refused deposit works once the guard is turned off.", "quantifier": "all reachable ledgers with any settings of both extensions, changed at any time, all transactions and instructions", "why_tests_cant": "Ranges over all ledgers, extension settings and instructions, including settings changed in the middle of a sale.", "anchors": ["programs/presale/src/token2022.rs:16", "programs/presale/src/token2022.rs:230", "programs/presale/src/token2022.rs:286", "programs/presale/src/token2022.rs:347", "programs/presale/src/instructions"]}
{"id": "C75", "title": "Events and token operations are exactly those of the reference", "statement": "In every reachable state an instruction succeeds with ledger w' and record (event and token operations) rc if and only if the reference semantics relates the state to w' and rc is the record of that change: which event, every address and amount in it, which transfers and burns with which source, destination, authority, amount and withheld fee, and none if there is nothing to pay. The record is a function of instruction, ledger before and ledger after.", "quantifier": "all reachable ledgers, all transactions, instructions, results and records", "why_tests_cant": "An equivalence over all states and instructions; tests compare single events.", "anchors": ["programs/presale/src/events.rs", "programs/presale/src/instructions", "programs/presale/src/token2022.rs"]}
{"id": "C76", "title": "Every field lies at its offset", "statement": "Data is read as an account of a kind if and only if it begins with the kind's discriminator and has at least the kind's size (the metadata's text complete and UTF-8), and then each field is the little-endian number, address or byte string at the offset listed in the specification. Data is taken as a call of an instruction if and only if it begins with the instruction's selector and holds its arguments, and then each argument is the one at its offset. Conversely every account of a reachable ledger and every call in range, once written, has its fields at these offsets.", "quantifier": "all byte strings, all kinds of accounts, all instructions, all reachable ledgers", "why_tests_cant": "All byte strings of all lengths; tests decode with the program's own types, so swapped fields go unnoticed.", "anchors": ["programs/presale/src/state", "programs/presale/src/instructions/initialize_presale/params.rs:43", "programs/presale/src/lib.rs:55", "programs/presale/src/token2022.rs:159"]}
{"id": "C77", "title": "Discriminators are the listed bytes and keep everything apart", "statement": "The first eight bytes of the SHA-256 of Anchor's preimages (account:Name, global:function, event:Name, anchor:event and anchor:idl) are the listed bytes for every account type, instruction and event. No two account types, no two instructions and no two events share them, no instruction is taken for Anchor's own, and none is zero, so fresh zeroed data is read as no account. With them account data is read, and instruction data taken, exactly as laid out byte by byte.", "quantifier": "all account types, instructions and events, all byte strings", "why_tests_cant": "Clients in tests take the discriminators from the same generated code; a clash or a renamed type is seen only by comparing against independent bytes for all pairs.", "anchors": ["programs/presale/src/lib.rs:52", "programs/presale/src/state", "programs/presale/src/events.rs"]}
{"id": "C78", "title": "Emitted events tell observers exactly what was recorded", "statement": "Data of a self-call is read as an event if and only if it begins with the event tag and the discriminator of an event and is long enough, and then each field is the little-endian number or address at its listed offset. The bytes the program emits in a reachable world, whatever follows them, are read as exactly the recorded event; two emitted events with the same bytes are the same event; and no data is at once an event and an instruction.", "quantifier": "all byte strings, all reachable worlds, all instructions that emit an event", "why_tests_cant": "Tests decode with the program's own types and look at a few events; all values of all fields and all data are needed.", "anchors": ["programs/presale/src/events.rs", "programs/presale/src/lib.rs:52"]}
{"id": "C79", "title": "Nobody holds the key of a derived address", "statement": "An address found from seeds is the SHA-256 of the seeds with the largest bump for which the hash is no point of the curve Ed25519, so no private key and no signature for it exist; it is found unless all 255 hashes are points, because the seeds of every kind of address are within the limits. Signing with its seeds and bump gives the same address. The authority over all vaults is the listed 32 bytes with bump 255, for which the program signs and nobody else can. Only addresses that are keys can sign a transaction, and different addresses have different bytes provided only that keys are different points and SHA-256 does not collide.", "quantifier": "all seeds, programs and addresses, all bytes of keys", "why_tests_cant": "Absence of a point of the curve over a field of 2^255-19 elements, for every derived address; needs primality and Euler's criterion, not samples.", "anchors": ["programs/presale/src/const_pda.rs:7", "programs/presale/src/macros.rs:1", "programs/presale/src/constants.rs:26", "programs/presale/src/lib.rs:37", "programs/presale/src/token2022.rs:346"]}
{"id": "C80", "title": "The whitelist tool: short proofs, agreeing lookups, and the limits of its own proof check", "statement": "Every proof the tool generates has the least number of hashes that can tell the owners apart, at most 32; a tree over n leaves and k levels has at most 2n+k nodes. The lookup table and get_node agree and give exactly the owners of the list. The generated file states its version and the number of owners, and the tool derives the address at which the program stores the root of that version. The crate's own Proof::verify accepts the leaf of a path and nothing else in unsorted trees with two leaves or more, but accepts everything for a single leaf and can refuse a genuine leaf of a sorted tree, the kind the whitelist uses.", "quantifier": "all hash functions, all lists of rows, all candidates", "why_tests_cant": "All sizes of lists, all candidates; the tests only build a few trees and never call Proof::verify.", "anchors": ["merkle-tree/src/merkle_tree.rs:59", "merkle-tree/src/merkle_tree.rs:88", "merkle-tree/src/config_merkle_tree.rs:107", "merkle-tree/src/config_merkle_tree.rs:186", "merkle-tree/src/config_merkle_tree.rs:193"]}
{"id": "C81", "title": "The program on bytes does exactly what the ledger does", "statement": "The byte machine keeps the program's accounts as byte strings, is called with 32-byte account keys and instruction data, decodes only the listed accounts, and writes back only what a call changed in writable ones. Each call on bytes and on the state they stand for fails with the same error or succeeds with the same receipt, and the new bytes stand for the new state. From an empty deployment, whatever is called and whatever happens outside, the bytes stand for a reachable state, which they determine; conversely every history of the ledger can be carried out on bytes by the calls clients make. The first 200 bytes of a presale account never change.", "quantifier": "all account key strings, all instruction data, all account lists, all histories", "why_tests_cant": "It is a refinement between two machines over all byte strings and all interleavings.", "anchors": ["programs/presale/src/lib.rs:51", "programs/presale/src/state/presale.rs:80", "programs/presale/src/state/escrow.rs:3"]}
{"id": "C82", "title": "The project's own property tests, for all inputs", "statement": "The randomised test of the surplus-free amount passes for every price and amount; the one of the gap between the caps passes for every price up to 2^127 and every supply; the two deposit-fee tests pass for every amount and rate whose gross amount fits; the least amount asked of a buyer buys at least one token, exactly one at a price of one or more. The randomised test of the last deposit passes exactly if the price is at least one quote unit per token or some whole amount buys exactly the supply; otherwise an assertion fails or a conversion panics.", "quantifier": "all prices, amounts, rates and supplies", "why_tests_cant": "The tests draw the price evenly from 1 to 2^127, so a price below one, where two assertions are false, comes up once in 2^63 draws.", "anchors": ["programs/presale/src/presale_mode_handler/fixed_price_presale.rs:426", "programs/presale/src/presale_mode_handler/fixed_price_presale.rs:56", "programs/presale/src/math/fee_math.rs:38"]}
{"id": "C83", "title": "Transfer fees change only by epoch and with notice", "statement": "With Token-2022's configuration of an older and a newer fee in place of an arbitrary current fee, every reachable state is a state of the ledger model. The fee of a mint is the last announced one whose two epochs of notice passed without another announcement and are over, or the one it had. Within an epoch no history changes what a transfer of an accepted mint costs; no fee announced from now on applies before two epochs have begun. Announcing anew in every epoch postpones any change for ever.", "quantifier": "all histories of instructions, environment steps, epochs and announcements, any number of mints and epochs", "why_tests_cant": "The tests run within one epoch and never change a fee.", "anchors": ["programs/presale/src/token2022.rs:138", "programs/presale/src/token2022.rs:152"]}
{"id": "C84", "title": "Whoever keeps a fixed-price deposit gets tokens, and when not", "statement": "In a fixed-price sale where withdrawals are off, or the price is at most one quote unit or a whole number of them, a deposit covering the price of n single tokens entitles to n tokens, or n-1 if only part is released at once. So if all is released at once or nothing before vesting, every buyer with a deposit gets at least one token. In any fixed-price sale, a deposit worth three tokens and one quote unit gets at least one. Neither condition can be left out: there are sales that succeed in which buyers paid at least the price of a token and get nothing.", "quantifier": "all reachable states, sales, registries, escrows, prices and histories of deposits and withdrawals", "why_tests_cant": "Whether rounding leaves somebody with nothing depends on everyone's deposits and withdrawals; the audit found one case and the fix was tested on it only.", "anchors": ["programs/presale/src/presale_mode_handler/fixed_price_presale.rs:56", "programs/presale/src/presale_mode_handler/fixed_price_presale.rs:337", "programs/presale/src/presale_mode_handler/fixed_price_presale.rs:341", "programs/presale/src/math/claim_math.rs:70"]}
{"id": "C85", "title": "What the audits found stays fixed", "statement": "Once a sale that may end early reaches its maximum, nobody gets in or out any more, not even within the same transaction or second, and it stays completed with the same total. A sale at a whole price that does not divide its maximum cap never reaches it and never ends early, whatever happens. What an escrow is entitled to changes only by deposits into its own registry and withdrawals from it. A root of a whitelist that exists while the sale is open stays valid until the sale is over.", "quantifier": "all reachable states, later histories, registries and prices", "why_tests_cant": "Each finding was a history nobody had thought of; the tests added with the fixes run single histories.", "anchors": ["programs/presale/src/presale_mode_handler/fixed_price_presale.rs:337", "programs/presale/src/instructions/process_deposit.rs:45", "programs/presale/src/instructions/process_withdraw.rs:55", "programs/presale/src/instructions/process_close_merkle_root_config.rs:36"]}
{"id": "C86", "title": "Transfer hooks cannot interfere with a sale except by refusing", "statement": "A transfer hook is an arbitrary program with its own state that runs in the middle of an instruction, after the tokens moved and before the handler goes on. Whatever it does, an instruction that succeeds has the same record and leaves every account of the program as it would without the hook, no vault holds less, and the ledger is one that can come about without hooks. The hook is asked at every transfer of its mint, once; it cannot call the presale program or Token-2022; an instruction succeeds exactly when it does without hooks and the hook accepts.", "quantifier": "all hook programs, states of them, ledgers, instructions and histories", "why_tests_cant": "The tests use one hook, which counts. The property is about every program somebody may put behind a mint.", "anchors": ["programs/presale/src/token2022.rs:271", "programs/presale/src/token2022.rs:336", "programs/presale/src/instructions/process_withdraw.rs:91", "programs/presale/src/instructions/process_creator_withdraw.rs:181"]}
{"id": "C87", "title": "What the README and the changelog promise", "statement": "A sale ends at the time its creator asked for, except that a sale which may end early and has reached its maximum has ended before. With one registry and no fixed price a buyer pays the raise over the supply per token, up to rounding in favour of the sale; with several registries the price differs between them. A creator's withdrawal is between the two caps or is the unsold supply of a failed sale. In a whitelisted sale every registry's upper limit is the maximum cap and its lower limit the least useful deposit.", "quantifier": "all reachable states, all histories after a creation, all buyers and registries", "why_tests_cant": "The documentation speaks of all sales; tests run some.", "anchors": ["README.md:45", "README.md:68", "README.md:72", "README.md:77", "CHANGELOG.md:34", "CHANGELOG.md:42", "programs/presale/src/presale_mode_handler/fcfs_presale.rs:64"]}
{"id": "C88", "title": "No extension of a mint can be hidden in its bytes", "statement": "A Token-2022 mint is accepted exactly if its data is that of an initialised mint and every entry behind it, to the last, is a transfer fee, a transfer hook, a metadata pointer or metadata; an entry of any other type anywhere keeps it out, whatever types the version of the library knows. The fee charged is the one the first fee entry records for the epoch, the hook run is the second half of the first hook entry unless zero, and metadata changes neither. What Token-2022 writes is read back exactly. A token account requires memos exactly if its memo entry is not zero.", "quantifier": "all byte strings, all tables of extension types, all epochs", "why_tests_cant": "Byte strings are unbounded; tests use mints made by the token program with a few extensions.", "anchors": ["programs/presale/src/token2022.rs:18", "programs/presale/src/token2022.rs:138", "programs/presale/src/token2022.rs:230", "programs/presale/src/token2022.rs:249"]}
{"id": "C89", "title": "How much rounding leaves behind, exactly", "statement": "In a completed pro-rata sale the raise, the collectable fees and all refunds leave less than two quote units for each escrow that held something at the end, and one unit less for each registry with deposits; the tokens claimed and due miss what was sold by less than two units per depositor and two less for each registry with deposits; both bounds are attained. A fixed-price sale with one registry never takes more than its supply is worth plus one base unit. The bounds of C09, C10, C15 and C20 cannot be lowered by a unit: reachable sales come within a fraction of them.", "quantifier": "all reachable states with a completed sale; existence for the attained bounds", "why_tests_cant": "A bound over all numbers of buyers and all amounts; that it is the least such bound needs both a proof and a witness.", "anchors": ["programs/presale/src/state/presale.rs:438", "programs/presale/src/state/presale.rs:527", "programs/presale/src/presale_mode_handler/prorata_presale.rs:60", "programs/presale/src/presale_mode_handler/fixed_price_presale.rs:28"]}
{"id": "C90", "title": "The runtime's rent check never stands in the way of a payout", "statement": "The runtime refuses a transaction that leaves an account with lamports below the rent-exempt minimum for its size, unless it was so before and neither grew nor gained. Addresses derived by the program always pass, whatever instructions a transaction contains, unless lamports are sent to them from outside in it. An instruction sent alone goes through exactly when the program accepts it, its payer has the rent due and is left with nothing or enough, and the receiver of a closed account ends with enough for its own size; so instructions that create nothing are unaffected as long as the receiver is no larger than the closed account. Every ledger reachable without the check is reachable with it.", "quantifier": "all reachable states, all transactions of any length, all monotone rent functions, all sizes of other accounts", "why_tests_cant": "Tests run with rich wallets; the claim is about every balance and every combination of instructions.", "anchors": ["programs/presale/src/instructions/create_escrow/process_create_permissionless_escrow.rs:23", "programs/presale/src/instructions/process_close_escrow.rs:13", "programs/presale/src/instructions/initialize_presale/process_initialize_presale.rs:25"]}
{"id": "C91", "title": "Depositing more never hurts the depositor and never helps the others", "statement": "Of two sales that differ only in one buyer's deposit, the one with the larger deposit gives that buyer at least as many tokens, in the end and at every moment, at least as large a refund, and keeps at least as much of the deposit. Where the supply of a registry is shared out (pro-rata and first come first served), no other escrow gets more tokens in it, and escrows of other registries get exactly the same; refunds of the others do not fall by more than one unit of rounding, and that unit can be lost.", "quantifier": "all pairs of reachable sales with the same terms, all deposits and differences, all times; existence for the lost unit", "why_tests_cant": "It compares two runs for every pair of amounts; nested rounding makes monotonicity anything but obvious.", "anchors": ["programs/presale/src/state/presale.rs", "programs/presale/src/presale_mode_handler/prorata_presale.rs", "programs/presale/src/presale_mode_handler/fixed_price_presale.rs", "programs/presale/src/state/presale_registry.rs"]}
{"id": "C92", "title": "Tokens sent straight to a vault influence nothing and stay there", "statement": "Anybody can send tokens to a vault without going through the program. Striking all such gifts from a history leaves every other step possible, with the same events and the same token-program calls, and a ledger that differs only in the vault balances, by exactly what was given. Conversely, scattering gifts over a history changes the outcome of no other operation as long as every vault stays below 2^64. The vaults hold everything given on top of everything still owed, so nobody can ever take a gift out. With a vault next to 2^64 a deposit that was possible is refused.", "quantifier": "all reachable ledgers, all histories, all gifts; existence for the full vault", "why_tests_cant": "It compares two unbounded histories step by step, for every instruction and every amount; a single read of a vault balance anywhere in the program would break it.", "anchors": ["programs/presale/src/token2022.rs", "programs/presale/src/instructions/process_deposit.rs", "programs/presale/src/instructions/process_withdraw.rs", "programs/presale/src/instructions/process_claim.rs", "programs/presale/src/instructions/process_creator_withdraw.rs", "programs/presale/src/instructions/process_perform_unsold_base_token_action.rs"]}
{"id": "C93", "title": "The account of every escrow over its whole life balances", "statement": "Over any history, and across closing and reopening the account, the quote tokens an escrow gets back by withdrawals and refunds together never exceed what was paid in for it. While it is open its past refunds are exactly what its flag says. After a failed sale an escrow that was refunded or closed has got back exactly everything and no tokens. After a completed sale an escrow that is gone either had withdrawn everything before the end or was served in full: its refund and its whole entitlement were paid. At a fixed price the tokens received, valued at the price, never exceed what was paid in and not given back.", "quantifier": "all histories from any genesis, all escrow addresses", "why_tests_cant": "It adds up token-program calls over unbounded histories, including histories in which the account disappears and comes back.", "anchors": ["programs/presale/src/instructions/process_deposit.rs", "programs/presale/src/instructions/process_withdraw.rs", "programs/presale/src/instructions/process_claim.rs", "programs/presale/src/instructions/process_withdraw_remaining_quote.rs", "programs/presale/src/instructions/process_close_escrow.rs"]}
{"id": "C94", "title": "While there is room, the order of deposits does not matter", "statement": "If deposits into different escrows of a sale all succeed one after another, each taking all that the buyer's own limits allow, then they succeed in the same way in every other order and leave exactly the same ledger, provided that at a fixed price the deposits do not pay for more than the registries offer and no paying account has its own owner as delegate. In a pro-rata sale every successful deposit is taken in full, so that any order will do. Both provisos are needed.", "quantifier": "all reachable states, all lists of deposits and all permutations of them, all three modes", "why_tests_cant": "It compares the whole ledger over all permutations of arbitrarily many deposits.", "anchors": ["programs/presale/src/instructions/process_deposit.rs", "programs/presale/src/state/presale.rs", "programs/presale/src/presale_mode_handler/fixed_price_presale.rs"]}
{"id": "C95", "title": "No key is special", "statement": "The program treats all keys alike. If all ordinary keys (people, mints, token accounts, hook programs) are renamed by a permutation, an operation succeeds exactly if the renamed one succeeds in the renamed ledger, the resulting ledgers correspond, and so do whole histories. Hence people whom the ledger does not tell apart have the same powers: no key is built into the program. The one exception is entering by a Merkle proof, which depends on the bytes of the key; people stay indistinguishable until something is done that mentions them.", "quantifier": "all permutations of the keys, all reachable states, all operations and histories", "why_tests_cant": "Absence of a privileged key is a statement about all keys; a test can only try some.", "anchors": ["programs/presale/src/lib.rs", "programs/presale/src/instructions"]}
{"id": "C96", "title": "Nobody waits longer than a fixed time", "statement": "Sixty days after its creation every sale has succeeded or failed for good, and ten years (less a second) after that everything any buyer is entitled to is released, whatever was done meanwhile; counted from any deposit it is thirty days and ten years more. Past that horizon one signature of the buyer obtains their whole entitlement in a completed sale, or their money back in a failed one. Neither bound can be lowered.", "quantifier": "all reachable states, all presales and escrows, all later histories", "why_tests_cant": "A bound on waiting over all parameters and all later histories cannot be sampled; the dates also move during a sale.", "anchors": ["programs/presale/src/instructions/initialize_presale/params.rs:160-225", "programs/presale/src/constants.rs:5-9", "programs/presale/src/state/presale.rs"]}
{"id": "C97", "title": "The clock must not run backwards", "statement": "The program keeps no record of the phase a sale has reached, so its solvency rests on the runtime's clock never running backwards. One second backwards, once, is enough: a sale whose unsold tokens were returned reopens and sells tokens its vault no longer holds, and a sale whose raise was withdrawn reopens and pays deposits back out of what is due to others.", "quantifier": "existence of histories; the resulting ledgers are shown unreachable under a clock that only advances", "why_tests_cant": "The tests run on a clock that only advances; the theorem makes the assumption explicit and shows it is needed.", "anchors": ["programs/presale/src/state/presale.rs", "programs/presale/src/instructions/process_deposit.rs", "programs/presale/src/instructions/process_withdraw.rs"]}
{"id": "C98", "title": "How far the clock may go back", "statement": "The clock may even be put back, any number of times, as long as no ended sale is reopened and nothing is thrown back before a time recorded in it (creation of a sale, last refresh of an escrow). Under such a clock both vaults still cover everything owed, claims and refunds still succeed for their owners, and claims still pay exactly what has been released by the time shown. One second before the last refresh a claim fails until the clock has caught up.", "quantifier": "all histories of operations interleaved with tolerable changes of the clock", "why_tests_cant": "It ranges over all interleavings of operations with clock adjustments of any size.", "anchors": ["programs/presale/src/state/presale.rs", "programs/presale/src/state/escrow.rs", "programs/presale/src/instructions/process_claim.rs"]}
{"id": "C99", "title": "The order of settlement does not matter", "statement": "Take any list of claims, refunds, refreshes, closings of escrows, creator withdrawals, fee collections and dealings with unsold supply, of one sale or several, each with a task of its own and none about an escrow another one closes, none paying into a vault. If they all succeed one after another at one moment, then they succeed in every other order, and the resulting ledger is the same in every account. So nobody is shut out by others settling first. Closing an escrow and claiming from it do depend on their order.", "quantifier": "all reachable ledgers, all such lists of any length, all permutations", "why_tests_cant": "The number of orders grows with the factorial of the number of instructions, and they may concern any number of sales, escrows and mints.", "anchors": ["programs/presale/src/instructions/process_claim.rs", "programs/presale/src/instructions/process_withdraw_remaining_quote.rs", "programs/presale/src/instructions/process_close_escrow.rs", "programs/presale/src/instructions/process_creator_withdraw.rs", "programs/presale/src/instructions/process_creator_collect_fee.rs", "programs/presale/src/instructions/process_perform_unsold_base_token_action.rs", "programs/presale/src/instructions/process_refresh_escrow.rs"]}
{"id": "C100", "title": "Whoever fills a sale is bound, and when not", "statement": "A sale with a limit on the total that has reached it takes no further deposit from anybody. If its terms do not allow withdrawals the total never falls, and unless the terms both allow withdrawals and keep the sale open when it is full, the total of a full sale never changes again. A fixed-price sale may be created with both: then whoever holds a deposit can take all of it back while the sale is open, and there is a sale that somebody fills at once, that nobody can join until its last second, in which they withdraw, so that it fails, and in the end they have every token they had before.", "quantifier": "all reachable ledgers, all sales, all later histories; one concrete history for the squatter", "why_tests_cant": "That nobody can join or leave concerns every transaction of every signer in every later history.", "anchors": ["programs/presale/src/presale_mode_handler/fixed_price_presale.rs", "programs/presale/src/instructions/process_deposit.rs", "programs/presale/src/instructions/process_withdraw.rs", "programs/presale/src/state/presale.rs"]}
{"id": "C101", "title": "The whitelist limits the raise", "statement": "In a sale with published lists, if every root the creator published is that of a compiled list and no hashed strings collide, the books of the sale and of each registry never show more deposits than the caps of the rows add up to, nor more escrows than there are rows, whatever buyers deposit, withdraw, close and open again, and also after the end. In a sale with operators the same holds for the escrows that approved operators signed for. A sale whose rows add up to less than its minimum cap can only fail; creating it is not refused.", "quantifier": "all initial ledgers, all histories, all lists of any length, all buyers", "why_tests_cant": "The bound is over every interleaving of openings, deposits, withdrawals and closings by any number of buyers, and over all lists.", "anchors": ["programs/presale/src/instructions/create_escrow/process_create_permissioned_escrow_with_merkle_proof.rs", "programs/presale/src/instructions/create_escrow/process_create_permissioned_escrow_with_creator.rs", "programs/presale/src/instructions/process_close_escrow.rs", "merkle-tree/src/config_merkle_tree.rs"]}
{"id": "C102", "title": "No date is special", "statement": "The program looks at differences of dates only. If the whole ledger and all dates asked for are put off by any number of seconds, every history takes the same course: the same operations succeed and are refused, the same amounts move, and the resulting ledger is the same with all dates put off. (A date of 0 stands for none and stays 0; the deployment must not be at time 0 and the clock must stay below 2^62.)", "quantifier": "all initial ledgers with a positive clock, all histories, all delays", "why_tests_cant": "It relates two executions over every history and every delay; tests run at a few fixed times and cannot exclude a date with special treatment.", "anchors": ["programs/presale/src/state/presale.rs", "programs/presale/src/instructions/initialize_presale/process_initialize_presale.rs", "programs/presale/src/state/escrow.rs"]}
{"id": "C103", "title": "Insiders deposit for free", "statement": "Over any history, what the creator of a sale and any group of buyers take out of it together beyond what they paid in is at most what everybody else paid in and did not get back; once a completed sale is settled it is exactly that, up to the rounding of C21. So insiders cannot take money of the others beyond the others' payments, but their own deposits cost them nothing: there is a sale that completes with the creator's money alone and gives it all back, and there are two histories that differ only in a deposit of the creator into their own sale in which everybody ends up with the same quote tokens but the buyer with half the tokens.", "quantifier": "all initial ledgers, all histories, all groups of people", "why_tests_cant": "The account is over every history and every group of any size; the free dilution compares two whole histories.", "anchors": ["programs/presale/src/instructions/process_deposit.rs", "programs/presale/src/instructions/process_creator_withdraw.rs", "programs/presale/src/instructions/process_creator_collect_fee.rs", "programs/presale/src/presale_mode_handler/prorata_presale.rs", "programs/presale/src/presale_mode_handler/fcfs_presale.rs"]}
{"id": "C104", "title": "A withdrawal takes a deposit back", "statement": "After a deposit that has not ended a sale whose terms allow withdrawals, the owner of the escrow can withdraw exactly what the deposit put in if and only if the payment itself is possible, and the ledger is then the one before the deposit except for the payments and the fee on record. The account that paid loses exactly the deposit fee and what the mint withholds both ways, and the vault keeps exactly the deposit fee. Where neither the registry nor the mint takes a fee, the ledger is literally the one before the deposit, and so it can be done any number of times without a trace.", "quantifier": "all reachable ledgers, all deposits, all amounts, any number of rounds", "why_tests_cant": "The equality is between whole ledgers, for every state in which a deposit can be made; a test compares the fields it thinks of in the states it sets up.", "anchors": ["programs/presale/src/instructions/process_deposit.rs", "programs/presale/src/instructions/process_withdraw.rs", "programs/presale/src/state/presale.rs", "programs/presale/src/state/escrow.rs"]}
{"id": "C105", "title": "A corrected whitelist does not replace the old one", "statement": "As long as a sale is open no published root can be taken back. Anybody may open the escrow of anybody listed under any of the published roots, with the cap written there and without the owner's consent. As long as nothing has been paid in, the owner can close the escrow and open it anew with the cap of another list, changing nothing else. But once it holds a fee, or a deposit in a sale without withdrawals, which anybody can pay in, it stays open with its cap until the end of the sale, and under its address never more than that cap is deposited, whatever anybody does. So there is a sale in which a stranger, by paying one unit, ties somebody to the cap of the list that was to be corrected.", "quantifier": "all reachable ledgers, all lists and proofs, all later histories", "why_tests_cant": "That nobody can ever get around the old cap is a statement about every later history.", "anchors": ["programs/presale/src/instructions/create_escrow/process_create_escrow.rs", "programs/presale/src/instructions/create_escrow/process_create_permissioned_escrow_with_merkle_proof.rs", "programs/presale/src/instructions/process_close_merkle_root_config.rs", "programs/presale/src/instructions/process_close_escrow.rs", "programs/presale/src/instructions/process_deposit.rs"]}
{"id": "C106", "title": "Nobody is kept out of a pro-rata sale", "statement": "Nothing that anybody does moves the dates or the limits of a pro-rata sale. Until the announced end a deposit brings every escrow up to the amount asked for or its cap, however much the others deposited. In a sale without whitelist everybody can, whatever the others did, opened or paid in before, bring their escrow up to the amount asked for or the buyer maximum by the two instructions open and deposit, provided the tokens can be paid. (Sales with a limit on the total can be filled by others: C100.)", "quantifier": "all reachable ledgers, all later histories of all others, all buyers and amounts", "why_tests_cant": "The adversary's history is arbitrary; a test tries a few.", "anchors": ["programs/presale/src/presale_mode_handler/prorata_presale.rs", "programs/presale/src/instructions/create_escrow/process_create_permissionless_escrow.rs", "programs/presale/src/instructions/process_deposit.rs", "programs/presale/src/state/presale.rs"]}
{"id": "C107", "title": "Who stays decides whether a sale succeeds", "statement": "As long as nobody withdraws from certain escrows, the total of the sale never falls below what is in them, whatever else happens, before and after the end. So if those who stay hold the minimum cap between them the sale cannot fail. Conversely, in a sale with withdrawals whoever holds so much that the rest is below the minimum cap can leave until the end, alone or as a group one after another, and unless others pay in afterwards the sale fails.", "quantifier": "all reachable ledgers, all groups of escrows, all later histories without withdrawals from them", "why_tests_cant": "Quantifies over the behaviour of everybody outside the group for the rest of the sale.", "anchors": ["programs/presale/src/instructions/process_withdraw.rs", "programs/presale/src/instructions/process_close_escrow.rs", "programs/presale/src/state/presale.rs", "programs/presale/src/state/presale_registry.rs"]}
{"id": "C108", "title": "The worst price is known in advance", "statement": "In a sale without fixed price nobody knows when depositing how many tokens they will get. But whatever happens later, if the sale completes, what it keeps of a deposit is at most the maximum cap over the supply of the registry per token due, up to two tokens and two units of rounding; both numbers are fixed at the start. The bound is attained. With one registry there is also a best price, the minimum cap over the supply; with several registries there is none, somebody alone in a registry gets its whole supply for one unit.", "quantifier": "all reachable ledgers, all later histories, all escrows, FCFS and pro-rata", "why_tests_cant": "A bound over every way the rest of the sale may go.", "anchors": ["programs/presale/src/state/escrow.rs", "programs/presale/src/presale_mode_handler/fcfs_presale.rs", "programs/presale/src/presale_mode_handler/prorata_presale.rs", "programs/presale/src/state/presale.rs", "README.md"]}
{"id": "C109", "title": "How the money came in does not matter", "statement": "Take two sales, in two histories, on which the same numbers were agreed. If when they end the same deposits and fees stand in each registry, whoever made them, in whatever order and in however many deposits and withdrawals, then whatever happens afterwards both have succeeded or both have failed, raise, collectable fees and tokens sold are the same, and any two escrows with the same deposit and fee in the same registry are due the same tokens and refund, at every moment if the release dates agree.", "quantifier": "all pairs of histories, sales and escrows; all continuations", "why_tests_cant": "Compares all histories with each other.", "anchors": ["programs/presale/src/state/presale.rs", "programs/presale/src/state/presale_registry.rs", "programs/presale/src/state/escrow.rs", "programs/presale/src/presale_mode_handler/prorata_presale.rs", "programs/presale/src/math/claim_math.rs"]}
{"id": "C110", "title": "From the delivered bytes to the reference machine", "statement": "Take account bytes that stand for a reachable ledger (as those of every history from an empty deployment do) and any call delivered as 32-byte keys with signer and writable flags and instruction data. The program succeeds, leaving certain bytes and a certain record of events and token operations, if and only if the data begin with an instruction's listed selector, hold its arguments at the listed offsets, the keys are its declared accounts in order with at least the declared privileges, the reference machine allows that instruction in that ledger with those signatures, the bytes stand for the machine's result and the record is that of the change. It refuses if and only if there is no such instruction. A call asks for at most one instruction, and whatever the reference machine allows can be had by some call.", "quantifier": "all histories of calls on bytes, all calls (keys, flags, data), all reachable ledgers", "why_tests_cant": "Equivalence over all byte strings and all histories.", "anchors": ["programs/presale/src/lib.rs", "programs/presale/src/instructions", "programs/presale/src/state"]}
{"id": "C111", "title": "Getting past a whitelist is a SHA-256 collision", "statement": "With nothing assumed of the hash but its length: if the program accepts an entry with any proof against the root of a compiled list, the entry is on the list, or a search through the strings hashed while building the list and checking the proof (at most four per row and two more than the proof has nodes, none longer than 65 bytes) finds two different ones with the same hash. In a deployment with SHA-256 every escrow of a merkle-whitelisted presale is that of a row of a list whose root the creator published, or it was opened with a proof from which that search finds a collision of SHA-256. A root stands for one list: two lists with the same root have the same entries, or the search finds a collision among their strings.", "quantifier": "all hash functions with 32 bytes, lists, entries, proofs of any length, histories", "why_tests_cant": "A reduction over all proofs and lists; no test can try an attacker's proofs.", "anchors": ["programs/presale/src/instructions/create_escrow/process_create_permissioned_escrow_with_merkle_proof.rs", "merkle-tree/src/merkle_tree.rs", "merkle-tree/src/config_merkle_tree.rs", "merkle-tree/src/tree_node.rs"]}
{"id": "C112", "title": "A sale read from raw account data adds up", "statement": "After any history of calls on bytes, fetch the program's accounts and read numbers at their offsets. There is exactly one list (up to order) of escrow accounts. In the data of every sale the deposits, fees and number of escrows are the sums over its five registries; each registry's number of escrows is the number of escrow accounts that name the sale and the registry, and its deposits and fees are their sums until the end time in the data, and bound them after. The data of every escrow name an existing sale and registry and keep its limits. The data of every sale name its vaults, which hold the recorded deposits and fees and the supply until the end, and after a failed sale the deposits and fees of every escrow not marked as refunded.", "quantifier": "all histories of calls on bytes, all accounts", "why_tests_cant": "Holds of the raw bytes after every history.", "anchors": ["programs/presale/src/state/presale.rs", "programs/presale/src/state/presale_registry.rs", "programs/presale/src/state/escrow.rs"]}
{"id": "C113", "title": "The numbers of registries do not matter, and other registries only through the total", "statement": "Take two sales, in two histories, on which the same was agreed except that the registries are numbered differently, and which end with the same deposits and fees in corresponding registries. Whatever happens afterwards, both have succeeded or both have failed, raise, collectable fees and tokens sold are the same, and two escrows with the same deposit and fee in corresponding registries are due the same tokens and refund. Moreover, whatever is offered and deposited in the other registries, escrows with the same deposit in two registries of the same supply and deposits are due the same tokens at every moment, if mode, price and schedule agree; and the same refund if also total deposit and caps agree.", "quantifier": "all pairs of histories, sales, registries and escrows; all permutations of registry numbers; all continuations", "why_tests_cant": "Compares all pairs of histories under all renumberings.", "anchors": ["programs/presale/src/state/presale.rs", "programs/presale/src/state/presale_registry.rs", "programs/presale/src/presale_mode_handler/prorata_presale.rs", "programs/presale/src/math/claim_math.rs"]}
{"id": "C114", "title": "The bank statement of every vault", "statement": "Whatever the history, what a vault holds at the end is what it held at the beginning plus what the recorded calls of the token programs put in and what was sent straight to it, less what the calls took out. From an empty deployment on, everything that ever left the quote vault of a sale was withdrawn or refunded to a buyer or was taken, once each, by the creator as raise or as fees; everything the calls put in was deposited by a buyer or paid out of some vault by the program itself. Everything that left the base vault was claimed, or was the unsold part, or went back to the creator of a failed sale, once each; everything the calls put in is the supply, once, or was paid in by the program itself. So both balances are known to the last token.", "quantifier": "all histories, sales and vaults; equalities, not bounds; gifts, frozen vaults, transfer fees and payments of a vault to itself included", "why_tests_cant": "An equality over every token call of every history.", "anchors": ["programs/presale/src/token2022.rs", "programs/presale/src/instructions/process_claim.rs", "programs/presale/src/instructions/process_creator_withdraw.rs", "programs/presale/src/instructions/process_creator_collect_fee.rs", "programs/presale/src/instructions/process_perform_unsold_base_token_action.rs"]}
{"id": "C115", "title": "What is paid into a vault from outside its sale is lost for ever", "statement": "Besides deposits and supply, a vault can receive tokens sent straight to it and payouts this program makes into it, because the accounts receiving a claim, refund, withdrawal, raise or fee may be vaults, even the paying one. All of that comes on top of what is owed: the rest of the balance is exactly deposits and fees less refunds and what the creator took (supply less claims and what else was taken), and covers all outstanding dues; while the sale is open it is exactly the deposits with fees, respectively the supply; in a failed sale the base vault holds exactly the supply or nothing. Whatever happens later, the balance never falls below what was given and paid back, so nobody ever gets it out; a creator who has the fees paid into the vault loses them.", "quantifier": "all histories from an empty deployment, all continuations, sales and both vaults", "why_tests_cant": "Needs every continuation of every history.", "anchors": ["programs/presale/src/instructions/process_creator_collect_fee.rs:29-30", "programs/presale/src/instructions/process_creator_withdraw.rs:25-26", "programs/presale/src/instructions/process_claim.rs", "programs/presale/src/instructions/process_withdraw_remaining_quote.rs"]}
{"id": "C116", "title": "Better terms never make a buyer worse off", "statement": "Take two sales in the same mode that end with the same deposits and fees in each registry. If the second asks no higher price and has no smaller supply in any registry, it sells no fewer tokens, and with the same part released at once every escrow is entitled to no fewer tokens than its counterpart, and may have claimed no fewer at any moment if no date of the schedule is later; rounding never turns this around. If the part released at once differs, an escrow may lose one token, never more, and one is possible. With the same minimum and a maximum cap no smaller, both succeed or both fail, raise and collectable fees are no smaller, the raise grows by no more than the cap, and no escrow is refunded more.", "quantifier": "all pairs of histories, of sales ended with the same entries, and all continuations", "why_tests_cant": "Compares any two histories through several layers of rounding.", "anchors": ["programs/presale/src/instructions/process_claim.rs", "programs/presale/src/instructions/process_withdraw_remaining_quote.rs", "programs/presale/src/instructions/process_creator_withdraw.rs", "programs/presale/src/instructions/process_creator_collect_fee.rs"]}
{"id": "C117", "title": "The three kinds of sale compared", "statement": "Take two sales with the same caps, supplies and part released at once that end with the same deposits and fees in each registry. If the first is not pro-rata, or its deposits do not exceed the cap, then whatever the kind of the second, both succeed or both fail, both raise exactly the deposits, all fees are collectable in both, and escrows with the same deposit and fee are refunded the same: everything if the sale failed, otherwise nothing. If the second is pro-rata or first come, first served, it sells no fewer tokens than the first, no escrow of the first is entitled to more than its counterpart in the second, at every moment if no date is later; and if the first is of one of these two kinds as well, all these amounts are equal. So within the cap a pro-rata sale and a sale first come, first served are the same, and a fixed price never gives more tokens.", "quantifier": "all pairs of histories, of sales of any kinds ended with the same entries, and all continuations", "why_tests_cant": "Compares any two histories of different code paths.", "anchors": ["programs/presale/src/presale_mode_handler/prorata_presale.rs", "programs/presale/src/presale_mode_handler/fcfs_presale.rs", "programs/presale/src/presale_mode_handler/fixed_price_presale.rs"]}
{"id": "C118", "title": "Only the time since the end counts", "statement": "What can be claimed a given time after the end of a sale is fixed from its creation on by the agreed delays: immediate release after the end, lock and vesting. It stays so whether the sale ends early or not, also for sales without release terms, whose dates are all zero until an early end sets them. Hence an early end only brings everything forward: two sales with the same caps, supplies, part released at once and delays, both handing out the whole supply or both at the same price, that end with the same entries, one earlier than the other, let escrows with the same deposit claim the same at every time after their own end.", "quantifier": "all reachable states and continuations; all pairs of histories, escrows and times", "why_tests_cant": "Compares histories that end at different times, at every moment afterwards.", "anchors": ["programs/presale/src/state/presale.rs", "programs/presale/src/instructions/process_claim.rs"]}
{"id": "C119", "title": "Fees on record are at the fee rate, up to rounding", "statement": "In every reachable state the fees on record of an escrow are no less than the fee rate of its registry applied to deposit and fees together, whatever deposits and withdrawals led there, and no less than the fee of a single deposit of the same amount. The same holds for every registry as a whole, and, after the rounding of all refunds, for what is kept of a registry in an oversubscribed pro-rata sale: the fees kept are no less than the rate of deposits and fees kept. In the other direction, after any history the fees of an escrow are at most the rate of all that was ever paid in for it plus less than one unit for each payment.", "quantifier": "all reachable states and histories, escrows and registries", "why_tests_cant": "An invariant over all histories through three layers of rounding.", "anchors": ["programs/presale/src/instructions/process_deposit.rs", "programs/presale/src/state/presale.rs", "programs/presale/src/state/escrow.rs"]}
{"id": "C120", "title": "The bytes of the log determine the totals", "statement": "An observer who is given only the byte strings of the program's self-calls over a whole history, and who knows only the declarations of events.rs, reads exactly the events emitted in their order, and by folding them knows every sale's deposits, fees, open escrows, claims, refunds and one-time payouts and every escrow's deposits, fees, claims, pending tokens and refund. Two histories with the same byte strings agree on these totals for every sale and escrow that exists in both. The calls of the program's own instructions are never taken for events.", "quantifier": "all histories from all empty deployments, of any length", "why_tests_cant": "Quantifies over all histories and over everything an observer could read from the bytes.", "anchors": ["programs/presale/src/events.rs", "programs/presale/src/lib.rs:52", "programs/presale/src/state/presale.rs"]}
