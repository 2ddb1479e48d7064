{"claims": [
 {"property": "C01", "status": "proved", "theorems": ["Verif.C01_quote_solvent"], "note": "Every reachable state."},
 {"property": "C02", "status": "proved", "theorems": ["Verif.C02_base_solvent"], "note": "Every reachable state."},
 {"property": "C03", "status": "proved", "theorems": ["Verif.C03_totals", "Verif.C03_frozen"], "note": "Totals add up over registries and escrows; after the end they are frozen over every history."},
 {"property": "C04", "status": "proved", "theorems": ["Verif.C04_hard_cap"], "note": ""},
 {"property": "C05", "status": "proved", "theorems": ["Verif.C05_buyer_limits", "Verif.C05_cap_fixed"], "note": "Limits in every reachable state; the personal cap is the one fixed by the opening instruction in the history."},
 {"property": "C06", "status": "proved", "theorems": ["Verif.C06_deposit"], "note": "A successful deposit, from any reachable state: amount, quota, fee, records, payer and vault balances"},
 {"property": "C07", "status": "proved", "theorems": ["Verif.C07_fee_law", "Verif.C07_fee_domain", "Verif.C07_fee_shape"], "note": "Arithmetic law of the deposit fee for all deposits and fee rates."},
 {"property": "C08", "status": "proved", "theorems": ["Verif.C08_least_charge"], "note": "Fixed-price charge is the least amount buying the same number of base units."},
 {"property": "C09", "status": "proved", "theorems": ["Verif.C09_price_paid", "Verif.C09_not_oversold"], "note": "Also a lower bound on what the buyer gets for the deposit."},
 {"property": "C10", "status": "proved", "theorems": ["Verif.C10_exact_share", "Verif.C10_received"], "note": "For every time, and for the total right after a claim."},
 {"property": "C11", "status": "proved", "theorems": ["Verif.C11_registry_within_sold"], "note": ""},
 {"property": "C12", "status": "proved", "theorems": ["Verif.C12_schedule_fixed", "Verif.C12_monotone"], "note": ""},
 {"property": "C13", "status": "proved", "theorems": ["Verif.C13_claim", "Verif.C13_total", "Verif.C13_path_independent", "Verif.C13_twice"], "note": ""},
 {"property": "C14", "status": "proved", "theorems": ["Verif.C14_nothing_early", "Verif.C14_no_claim"], "note": ""},
 {"property": "C15", "status": "proved", "theorems": ["Verif.C15_full_entitlement"], "note": ""},
 {"property": "C16", "status": "proved", "theorems": ["Verif.C16_irreversible"], "note": "Over every history from every reachable state."},
 {"property": "C17", "status": "proved", "theorems": ["Verif.C17_phases"], "note": "For every instruction that moves money or opens or closes escrows."},
 {"property": "C18", "status": "proved", "theorems": ["Verif.C18_early_finish", "Verif.C18_only_deposits", "Verif.C18_no_overflow"], "note": "Early finish, its exclusivity to deposits, and absence of overflow."},
 {"property": "C19", "status": "proved", "theorems": ["Verif.C19_failed_refund", "Verif.C19_refund_once"], "note": "Exact amount of a failed-sale refund, and no second refund over any continuation."},
 {"property": "C20", "status": "proved", "theorems": ["Verif.C20_refund", "Verif.C20_exact_share", "Verif.C20_order_independent", "Verif.C19_refund_once"], "note": "Refund of a pro-rata sale within one raw unit per floor of the exact rational share, independent of the order, once."},
 {"property": "C21", "status": "proved", "theorems": ["Verif.C21_budget", "Verif.C21_failed"], "note": "Upper bound and remainder bounded by two units per escrow at the end plus one per registry; exact (zero remainder) for modes other than pro-rata; exact for failed sales."},
 {"property": "C22", "status": "proved", "theorems": ["Verif.C22_withdraw", "Verif.C22_once"], "note": ""},
 {"property": "C23", "status": "proved", "theorems": ["Verif.C23_collect", "Verif.C23_once", "Verif.C23_reserved"], "note": ""},
 {"property": "C24", "status": "proved", "theorems": ["Verif.C24_unsold", "Verif.C24_once", "Verif.C24_anybody"], "note": ""},
 {"property": "C25", "status": "proved", "theorems": ["Verif.C25_withdraw", "Verif.C25_never", "Verif.C25_exit"], "note": "Exact effect of a withdrawal; never where the terms forbid it; full exit always possible (outside conditions listed in Spec.Payable)"},
 {"property": "C26", "status": "proved", "theorems": ["Verif.C26_claim_succeeds"], "note": "Outside conditions collected in Spec.Payable."},
 {"property": "C27", "status": "proved", "theorems": ["Verif.C27_refund_succeeds"], "note": "Outside conditions are those of Spec.Payable."},
 {"property": "C28", "status": "proved", "theorems": ["Verif.C28_withdraw_succeeds", "Verif.C28_collect_succeeds", "Verif.C28_unsold_succeeds"], "note": "Outside conditions in Spec.Payable and UnsoldPossible."},
 {"property": "C29", "status": "proved", "theorems": ["Verif.C29_close"], "note": ""},
 {"property": "C30", "status": "proved", "theorems": ["Verif.C30_close_succeeds", "Verif.C30_close_after_claim", "Verif.C30_close_after_refund", "Verif.C30_windup_completed", "Verif.C30_windup_failed", "Verif.C30_no_panic", "Verif.C30_escrow_means_started"], "note": "Liveness is under Spec.Payable (the token programs accept the payout); the closing panic is unreachable."},
 {"property": "C31", "status": "proved", "theorems": ["Verif.C31_documented", "Verif.C31_constraints"], "note": ""},
 {"property": "C32", "status": "proved", "theorems": ["Verif.C32_terms_immutable", "Verif.C32_fields"], "note": "Over every history; C32_fields spells out what equality of terms means."},
 {"property": "C33", "status": "proved", "theorems": ["Verif.C33_supply_in_vault"], "note": "Exact vault contents after creation for every transfer-fee setting."},
 {"property": "C34", "status": "proved", "theorems": ["Verif.C34_isolated", "Verif.C34_own_accounts"], "note": "In every reachable state an instruction leaves the state, the escrows and the vault balances of every presale it does not name as they were, and succeeds only with vaults and escrow of the presale it names."},
 {"property": "C35", "status": "proved", "theorems": ["Verif.C35_signatures", "Verif.C35_escrow_safe"], "note": "Signatures needed per instruction, and without its owner's signature an escrow only grows."},
 {"property": "C36", "status": "proved", "theorems": ["Verif.C36_user_accounts", "Verif.C36_quote_vault", "Verif.C36_base_vault"], "note": "Ordinary accounts are debited only with the signature of the owner or of a delegate within its allowance; vaults only by payout instructions of their own presale."},
 {"property": "C37", "status": "proved", "theorems": ["Verif.C37_operator_approved"], "note": "Over whole histories: the registration signed by the creator, the unrevoked interval, and the opening signed by the operator are exhibited in the history."},
 {"property": "C38", "status": "proved", "theorems": ["Verif.C38_proof_checked", "Verif.C38_on_the_list"], "note": "Over whole histories, with the published root and the verified proof exhibited; combined with the soundness of the tree under collision-freedom of the strings actually hashed."},
 {"property": "C39", "status": "proved", "theorems": ["Verif.C39_completeness"], "note": "For every hash function."},
 {"property": "C40", "status": "proved", "theorems": ["Verif.C40_soundness"], "note": "Relative to no collision between strings hashed at build time and at check time."},
 {"property": "C41", "status": "proved", "theorems": ["Verif.C41_unique", "Verif.C41_at_most_one", "Verif.C41_place"], "note": ""},
 {"property": "C42", "status": "proved", "theorems": ["Verif.C42_inversion_exact", "Verif.C42_panic_unreachable"], "note": ""},
 {"property": "C43", "status": "proved", "theorems": ["Verif.C43_parse_exact", "Verif.C43_parse_accepts_iff"], "note": ""},
 {"property": "C44", "status": "proved", "theorems": ["Verif.C44_safe_mints"], "note": ""},
 {"property": "C45", "status": "proved", "theorems": ["Verif.C45_mode_data", "Verif.C45_always_decodes", "Verif.C45_fcfs_written", "Verif.C45_fixed_written"], "note": "Decoding after any later history equals the configuration; every presale has such an origin; writing mode data over any earlier data changes exactly the bytes meant."},
 {"property": "C46", "status": "proved", "theorems": ["Verif.C46_refresh"], "note": ""},
 {"property": "C47", "status": "proved", "theorems": ["Verif.C47_single_deposit_reaches_minimum", "Verif.C47_first_deposit_reaches", "Verif.C47_stuck_forever", "Verif.C47_can_get_stuck"], "note": "Validated terms let one deposit of the maximum cap reach the minimum; in a running one-registry sale likewise. Smaller deposits can leave a sale without withdrawals stuck below its minimum for ever, shown in general and by a concrete reachable sale."},
 {"property": "C48", "status": "partial", "theorems": ["Verif.C48_deposit_succeeds_partial", "Verif.C48_room_but_blocked"], "note": "False as stated: a validated fixed-price sale whose whole supply costs 2^64 or more rejects every deposit (C48_room_but_blocked). With the condition Payworthy it holds; see C58 for the exact statement."},
 {"property": "C49", "status": "proved", "theorems": ["Verif.C49_root_created", "Verif.C49_root_kept", "Verif.C49_operator_created", "Verif.C49_operator_kept", "Verif.C49_metadata_created", "Verif.C49_metadata_kept", "Verif.C49_fixed_created", "Verif.C49_fixed_kept"], "note": "For each kind of account: creation and removal characterised for every step, no change otherwise. For fixed-price parameters the documented party of creation is anybody (see C57)."},
 {"property": "C50", "status": "proved", "theorems": ["Verif.C50_sale", "Verif.C50_registry", "Verif.C50_escrow", "Verif.C50_nothing_before"], "note": "Totals are read off the token-program calls in the receipts of all successful steps of the history. Also for registries, escrows, and for deposits less withdrawals."},
 {"property": "C51", "status": "proved", "theorems": ["Verif.C51_amounts_fixed", "Verif.C51_claim", "Verif.C51_refund"], "note": "Amounts, schedule, phase and the ability to collect are fixed once the sale is over, whatever operations others perform. Success of the payout assumes only the token-side conditions of Spec.Payable (receiver account, hook, freeze), not any vault balance."},
 {"property": "C52", "status": "proved", "theorems": ["Verif.C52_last_row_wins"], "note": ""},
 {"property": "C53", "status": "proved", "theorems": ["Verif.C53_created_as_asked"], "note": "Field by field."},
 {"property": "C54", "status": "proved", "theorems": ["Verif.C54_no_panic", "Verif.C54_no_panic_in_history", "Verif.C42_panic_unreachable"], "note": "Every unreachable!, failing unwrap and out-of-range index of the modelled code is the error value panic; it never comes out of a step in a reachable state. Examples show each panic appearing once its guard is removed."},
 {"property": "C55", "status": "proved", "theorems": ["Verif.C55_base_budget"], "note": ""},
 {"property": "C56", "status": "proved", "theorems": ["Verif.C56_native_never_burnt"], "note": "A weakness of the program; reachable instance Ex.nativeDone."},
 {"property": "C57", "status": "proved", "theorems": ["Verif.C57_anybody_sets_price", "Verif.C57_planted_price_binds"], "note": "A property of the code that a creator would not want: shown with a general theorem and a concrete history in which somebody else sets the price."},
 {"property": "C58", "status": "proved", "theorems": ["Verif.C48_deposit_succeeds_partial", "Verif.C58_blocked", "Verif.C58_terms_suffice"], "note": "The payment conditions Spec.Collectable concern only tokens and accounts outside the program."},
 {"property": "C59", "status": "proved", "theorems": ["Verif.C59_events_true", "Verif.C59_silent", "Verif.C59_deposit_owner_is_payer"], "note": "Spec in SpecEvents.lean (Says)."},
 {"property": "C60", "status": "proved", "theorems": ["Verif.C60_log_sale", "Verif.C60_log_escrow", "Verif.C60_log_absent"], "note": "Views and log reading in SpecEvents.lean."},
 {"property": "C61", "status": "proved", "theorems": ["Verif.C61_larger_gets_more", "Verif.C61_split_claims", "Verif.C61_split_refunds"], "note": "The two-unit bound is attained in Ex.splitDone."},
 {"property": "C62", "status": "proved", "theorems": ["Verif.C62_refines", "Verif.C62_complete", "Verif.C62_succeeds_iff", "Verif.C62_moves", "Verif.C62_rent_exempt", "Verif.C62_locked", "Verif.C62_closing_pays"], "note": "Lamport layer Model/Lamports.lean over the ledger; transaction fees and other outside movements are arbitrary."},
 {"property": "C63", "status": "proved", "theorems": ["Verif.C63_all_or_nothing", "Verif.C63_same_states", "Verif.C63_inside", "Verif.C63_phase", "Verif.C63_price", "Verif.C63_price_blocked", "Verif.C63_windup"], "note": "Transaction layer Model/Transactions.lean; atomicity itself is Solana behaviour."},
 {"property": "C64", "status": "proved", "theorems": ["Verif.C64_round_trip", "Verif.C64_size", "Verif.C64_kinds", "Verif.C64_rewrite", "Verif.C64_loads", "Verif.C64_injective", "Verif.C64_no_gaps", "Verif.C64_applies"], "note": "Layouts are transcribed by hand from the declared fields; discriminator values are arbitrary distinct strings."},
 {"property": "C65", "status": "proved", "theorems": ["Verif.C65_distinct", "Verif.C65_kinds", "Verif.C65_reachable_fit", "Verif.C65_keys", "Verif.C65_seeds", "Verif.C65_derived"], "note": "Collision freedom of the hash on the strings involved is a hypothesis, as it must be; bumps and program ids are arbitrary. C65_seeds lists the seeds with their bytes."},
 {"property": "C66", "status": "proved", "theorems": ["Verif.C66_round_trip", "Verif.C66_sound", "Verif.C66_refused_iff", "Verif.C66_expressible", "Verif.C66_unambiguous", "Verif.C66_text", "Verif.C66_stored_text"], "note": "Selector values are arbitrary distinct strings; account lists are not part of the data. Texts are characterised as encodings of character sequences."},
 {"property": "C67", "status": "proved", "theorems": ["Verif.C67_binds", "Verif.C67_signers", "Verif.C67_sufficient", "Verif.C67_refines", "Verif.C67_writes", "Verif.C67_lamports"], "note": "Entry point over account lists; binding characterised exactly, declared privileges suffice and are never exceeded."},
 {"property": "C68", "status": "proved", "theorems": ["Verif.C68_reads", "Verif.C68_commute"], "note": "Outcome including errors depends only on listed accounts; non-conflicting calls commute."},
 {"property": "C69", "status": "proved", "theorems": ["Verif.C69_windup", "Verif.C69_nothing_owed", "Verif.C69_eventually"], "note": "Existence of a complete settlement from every reachable over-and-vested state, exact amounts, nothing owed afterwards; also from any state after enough time."},
 {"property": "C70", "status": "proved", "theorems": ["Verif.C70_escrow_kept", "Verif.C70_never_paid", "Verif.C70_stranded", "Verif.C70_creator_never_paid", "Verif.C70_creator_stranded"], "note": "Escrow kept without its owner's signature; unsignable owners and creators never paid; balances stay. Reachable examples of both."},
 {"property": "C71", "status": "proved", "theorems": ["Verif.C71_created_iff"], "note": "Both directions, for every reachable ledger; the terms are a separate specification (SpecCreate.lean)."},
 {"property": "C72", "status": "proved", "theorems": ["Verif.C72_does_iff", "Verif.C72_refused_iff", "Verif.C72_functional", "Verif.C72_reachable_iff"], "note": "Both directions for all 21 instructions; refusal, determinism and equality of the reachable ledgers follow. The reference semantics (SpecMachine.lean) is separate from the handlers; it shares with the model the account records and the proof format of the whitelist tree."},
 {"property": "C73", "status": "proved", "theorems": ["Verif.C73_error_reason", "Verif.C73_codes", "Verif.C73_never", "Verif.C73_no_overflow", "Verif.C73_occurs"], "note": "Reasons per instruction and code in SpecErrors.lean; only the codes of the program itself, not those of Anchor and the token programs."},
 {"property": "C74", "status": "proved", "theorems": ["Verif.C74_exec", "Verif.C74_payouts", "Verif.C74_unguard", "Verif.C74_ledger", "Verif.C74_vaults", "Verif.C74_conservative"], "note": "Model/Extensions.lean: ledger plus the two extension flags; rules of Token-2022 written from its published source."},
 {"property": "C75", "status": "proved", "theorems": ["Verif.C75_step_iff", "Verif.C75_functional"], "note": ""},
 {"property": "C76", "status": "proved", "theorems": ["Verif.C76_account", "Verif.C76_call", "Verif.C76_written", "Verif.C76_sent", "Verif.C76_carries"], "note": "Offsets are absolute numbers written from the Rust declarations; formats of the model do not occur in the specification. Arguments by name in SpecTold.lean."},
 {"property": "C77", "status": "proved", "theorems": ["Verif.C77_bytes", "Verif.C77_distinct", "Verif.C77_zeroed", "Verif.C77_account", "Verif.C77_call"], "note": "The table of bytes is literal in SpecSelectors.lean; SHA-256 is modelled and evaluated by the kernel."},
 {"property": "C78", "status": "proved", "theorems": ["Verif.C78_reads", "Verif.C78_inert", "Verif.C78_faithful", "Verif.C78_recorded", "Verif.C78_injective", "Verif.C78_told"], "note": "Events of every instruction; offsets are literal in SpecEventBytes.lean, the meaning of every field in SpecTold.lean. The clock is assumed below 2^64, as an i64 is."},
 {"property": "C79", "status": "proved", "theorems": ["Verif.C79_found", "Verif.C79_not_found", "Verif.C79_seeds_fit", "Verif.C79_address", "Verif.C79_only_keys_sign", "Verif.C79_distinct", "Verif.C79_missing", "Verif.C79_authority", "Verif.C79_event_authority"], "note": "Ed25519 point test, SHA-256 and base58 are modelled; collision-freeness of SHA-256 is a hypothesis only of C79_distinct."},
 {"property": "C80", "status": "proved", "theorems": ["Verif.C80_proof_length", "Verif.C80_size", "Verif.C80_lookup", "Verif.C80_header", "Verif.C80_address", "Verif.C80_unsorted", "Verif.C80_single_leaf", "Verif.C80_sorted_refused"], "note": "File input and output of the tool is not modelled."},
 {"property": "C81", "status": "proved", "theorems": ["Verif.C81_call", "Verif.C81_sound", "Verif.C81_determined", "Verif.C81_complete", "Verif.C81_identity_bytes"], "note": "Refinement in both directions. Token accounts, mints and the clock are kept decoded. Completeness assumes that the addresses a history mentions have their own 32-byte strings (C64/C79)."},
 {"property": "C82", "status": "proved", "theorems": ["Verif.C82_without_surplus", "Verif.C82_gap", "Verif.C82_last_deposit", "Verif.C82_last_deposit_fails", "Verif.C82_fee", "Verif.C82_base_lamport"], "note": "Test bodies transcribed in Model/Proptests.lean; the last-deposit test is characterised exactly and refuted below price one."},
 {"property": "C83", "status": "proved", "theorems": ["Verif.C83_ledger", "Verif.C83_in_force", "Verif.C83_created", "Verif.C83_notice", "Verif.C83_quote", "Verif.C83_postponed"], "note": "Epochs are unbounded numbers and anybody may announce a change; withheld fees are not modelled."},
 {"property": "C84", "status": "proved", "theorems": ["Verif.C84_tokens", "Verif.C84_at_least_one", "Verif.C84_safe_amount", "Verif.C84_nothing"], "note": "Proved with exact conditions; C84_nothing shows by reachable witnesses that neither condition can be dropped."},
 {"property": "C85", "status": "proved", "theorems": ["Verif.C85_reached_is_final", "Verif.C85_cap_out_of_reach", "Verif.C85_registries_apart", "Verif.C85_root_stands"], "note": "Also see DESIGN.md section 9 for the findings settled by other claims."},
 {"property": "C86", "status": "proved", "theorems": ["Verif.C86_instruction", "Verif.C86_ledger", "Verif.C86_consulted", "Verif.C86_no_reentry", "Verif.C86_exact", "Verif.C86_counter"], "note": "for all hook programs with their own state; in Model/Hooks.lean every handler is cut at its transfer and the hook runs in between"},
 {"property": "C87", "status": "proved", "theorems": ["Verif.C87_end", "Verif.C87_price", "Verif.C87_price_per_registry", "Verif.C87_raise", "Verif.C87_whitelisted_limits"], "note": "README and changelog as specification; the price formula holds for one registry, witness that it does not for two"},
 {"property": "C88", "status": "proved", "theorems": ["Verif.C88_unique", "Verif.C88_answer", "Verif.C88_accepts", "Verif.C88_nothing_hidden", "Verif.C88_fee", "Verif.C88_hook", "Verif.C88_metadata_inert", "Verif.C88_ledger", "Verif.C88_grown", "Verif.C88_written", "Verif.C88_memo", "Verif.C88_memo_error"], "note": "bytes of mints and token accounts; the library's readers are modelled, its table of extension types is a parameter"},
 {"property": "C89", "status": "proved", "theorems": ["Verif.C89_quote_dust", "Verif.C89_base_dust", "Verif.C89_dust_attained", "Verif.C89_one_registry", "Verif.C89_claim_below", "Verif.C89_claim_above", "Verif.C89_share_below", "Verif.C89_refund_below", "Verif.C89_fee_below", "Verif.C89_price_sharp"], "note": "Both budget bounds with their exact constants, attained; sharpness of the bounds of C09, C10, C15 and C20 by reachable witnesses."},
 {"property": "C90", "status": "proved", "theorems": ["Verif.C90_check", "Verif.C90_refines", "Verif.C90_own_accounts", "Verif.C90_succeeds_iff", "Verif.C90_payouts", "Verif.C90_complete"], "note": "Layer above transactions; sizes of foreign accounts are arbitrary, the minimum only has to be monotone."},
 {"property": "C91", "status": "proved", "theorems": ["Verif.C91_more_tokens", "Verif.C91_more_back", "Verif.C91_not_cheaper", "Verif.C91_others_tokens", "Verif.C91_others_back", "Verif.C91_unit_lost"], "note": "Compares two sales; only the first has to be reachable where the second is determined by it."},
 {"property": "C92", "status": "proved", "theorems": ["Verif.C92_step", "Verif.C92_without", "Verif.C92_with", "Verif.C92_kept", "Verif.C92_brim"], "note": "Simulation over whole histories, both ways; gifts stay on top of what is owed."},
 {"property": "C93", "status": "proved", "theorems": ["Verif.C93_no_profit", "Verif.C93_open", "Verif.C93_failed", "Verif.C93_completed", "Verif.C93_price"], "note": "sums over token-program calls of whole histories, per escrow address"},
 {"property": "C94", "status": "proved", "theorems": ["Verif.C94_any_order", "Verif.C94_prorata_full", "Verif.C94_prorata", "Verif.C94_supply_needed", "Verif.C94_delegate_needed"], "note": "any permutation of deposits taken in full gives the same ledger; pro-rata without further conditions; both provisos shown necessary by witnesses"},
 {"property": "C95", "status": "proved", "theorems": ["Verif.C95_reachable", "Verif.C95_step", "Verif.C95_refused", "Verif.C95_history", "Verif.C95_strangers", "Verif.C95_stay_strangers"], "note": "Renaming of ordinary keys by any permutation; derived addresses follow their seeds. The fixed program ids are not keys of the model. That addresses derived from different seeds differ is the idealisation of DESIGN.md."},
 {"property": "C96", "status": "proved", "theorems": ["Verif.C96_decided", "Verif.C96_released", "Verif.C96_from_open", "Verif.C96_from_deposit", "Verif.C96_exit", "Verif.C96_sharp"], "note": "bounds on waiting, from creation and from any deposit; sharp; the exit itself is C26/C27"},
 {"property": "C97", "status": "proved", "theorems": ["Verif.C97_base", "Verif.C97_quote", "Verif.C97_unreachable"], "note": "concrete histories: the monotone clock is a needed assumption"},
 {"property": "C98", "status": "proved", "theorems": ["Verif.C98_quote_solvent", "Verif.C98_base_solvent", "Verif.C98_claim", "Verif.C98_refund", "Verif.C98_limit"], "note": "solvency, claims and refunds under a clock that may go back within limits; second limit shown necessary, first is C97"},
 {"property": "C99", "status": "proved", "theorems": ["Verif.C99_any_order", "Verif.C99_same_ledger", "Verif.C99_first", "Verif.C99_close_last"], "note": "Over every reachable ledger and every list: any permutation of independent settling instructions succeeds with the same ledger; closing before claiming is the exception shown by a witness."},
 {"property": "C100", "status": "proved", "theorems": ["Verif.C100_full_refuses", "Verif.C100_total_grows", "Verif.C100_full_stays", "Verif.C100_squat_exit", "Verif.C100_squat"], "note": "The squatter is a finding about the code; DESIGN.md section 5, item 14."},
 {"property": "C101", "status": "proved", "theorems": ["Verif.C101_lists", "Verif.C101_operators", "Verif.C101_short_list"], "note": "Lists under the collision-freeness condition of C38; operators without conditions."},
 {"property": "C102", "status": "proved", "theorems": ["Verif.C102_history", "Verif.C102_step", "Verif.C102_refused"], "note": "Equivariance under time shifts, both ways, for every history from a deployment at a positive clock and below 2^62."},
 {"property": "C103", "status": "proved", "theorems": ["Verif.C103_bound", "Verif.C103_settled", "Verif.C103_dilution", "Verif.C103_alone"], "note": "C103_dilution and C103_alone are witnesses: participation of the creator in their own sale is not prevented."},
 {"property": "C104", "status": "proved", "theorems": ["Verif.C104_undo", "Verif.C104_cost", "Verif.C104_no_trace", "Verif.C104_rounds"], "note": "Exact condition for taking a deposit back and the exact ledger that results; its cost in tokens; without fees the ledger is literally the same, any number of times. A deposit that ends the sale cannot be taken back (example)."},
 {"property": "C105", "status": "proved", "theorems": ["Verif.C105_root_stays", "Verif.C105_anybody", "Verif.C105_tied", "Verif.C105_change", "Verif.C105_tie"], "note": "Roots stay while the sale is open; anybody can use any row; a pinned escrow keeps its cap in every later history; before that the owner can change; concrete sale in which a stranger ties a buyer to the old cap."},
 {"property": "C106", "status": "proved", "theorems": ["Verif.C106_dates", "Verif.C106_lifts", "Verif.C106_in"], "note": "Conditions on tokens: CanPay (every amount up to the one asked for can be paid, fees included). Fewer than 2^64 - 1 escrows."},
 {"property": "C107", "status": "proved", "theorems": ["Verif.C107_counts", "Verif.C107_succeeds", "Verif.C107_sinks", "Verif.C107_sinks_together"], "note": "Pledges count, suffice for success; a single holder or a group leaving one after another can make the sale fail."},
 {"property": "C108", "status": "proved", "theorems": ["Verif.C108_worst_price", "Verif.C108_best_price", "Verif.C108_worst_attained", "Verif.C108_no_best_price"], "note": "Whatever happens later, no escrow of a completed sale without fixed price pays more than maximum cap / registry supply per token due (up to rounding); attained. One registry: not less than minimum cap / supply; several registries: no such bound (witness)."},
 {"property": "C109", "status": "proved", "theorems": ["Verif.C109_outcome"], "note": "Two histories with the same agreed numbers and the same standing deposits at the end lead to the same outcome for creator and buyers, whatever happens afterwards."},
 {"property": "C110", "status": "proved", "theorems": ["Verif.C110_call", "Verif.C110_refused", "Verif.C110_history", "Verif.C110_served", "Verif.C110_asks_one"], "note": "Joins the layers: selectors and offsets, account lists, account bytes, reference machine, record of events and token operations."},
 {"property": "C111", "status": "proved", "theorems": ["Verif.C111_accepted", "Verif.C111_escrow", "Verif.C111_commits", "Verif.C111_effort"], "note": "Explicit reduction instead of an assumption; the search is a function and its effort is bounded."},
 {"property": "C112", "status": "proved", "theorems": ["Verif.C112_totals", "Verif.C112_limits", "Verif.C112_vaults", "Verif.C112_found"], "note": "C01 to C05 for somebody who only reads bytes."},
 {"property": "C113", "status": "proved", "theorems": ["Verif.C113_numbers", "Verif.C113_own_registry"], "note": "Two theorems; examples beside them swap the registries, and change the other one."},
 {"property": "C114", "status": "proved", "theorems": ["Verif.C114_statement", "Verif.C114_quote", "Verif.C114_base"], "note": "Equalities for every vault over every history, with every amount attributed; C114_statement needs no reachability."},
 {"property": "C115", "status": "proved", "theorems": ["Verif.C115_quote", "Verif.C115_base", "Verif.C115_lost"], "note": "Strengthens C92_kept: payouts made into a vault are lost as well, and the remaining balance is exact."},
 {"property": "C116", "status": "proved", "theorems": ["Verif.C116_terms", "Verif.C116_cap", "Verif.C116_split"], "note": "Two sales compared. C116_terms: supply, price and dates; C116_cap: maximum cap; C116_split: the one token by which entitlements can differ when the part released at once differs is attained by a concrete pair of sales."},
 {"property": "C117", "status": "proved", "theorems": ["Verif.C117_money", "Verif.C117_tokens"], "note": "C117_money: caps, raise, fees and refunds; C117_tokens: tokens sold, entitlements and claims at every moment. Examples compare sales of all three kinds."},
 {"property": "C118", "status": "proved", "theorems": ["Verif.C118_since_end", "Verif.C118_early"], "note": "C118_since_end: one sale over any history; C118_early: two sales, one of which ended early."},
 {"property": "C119", "status": "proved", "theorems": ["Verif.C119_escrow", "Verif.C119_registry", "Verif.C119_no_more"], "note": "C119_escrow: every escrow, also against a single payment; C119_registry: every registry, before and after refunds; C119_no_more: bound from above over any history."},
 {"property": "C120", "status": "proved", "theorems": ["Verif.C120_log", "Verif.C120_sale", "Verif.C120_escrow", "Verif.C120_same", "Verif.C120_same_escrow", "Verif.C120_calls"], "note": "The clock at the end is assumed below 2^64 and the addresses mentioned are assumed to have their own 32-byte strings, as in C64 and C78."}
]}
