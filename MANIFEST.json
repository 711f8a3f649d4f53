{
 "claims": [
  {
   "property": "C01",
   "status": "proved",
   "theorems": [
    "CyclesLedger.C01_supply_is_sum"
   ],
   "note": "Total supply equals the sum of balances"
  },
  {
   "property": "C02",
   "status": "proved",
   "theorems": [
    "CyclesLedger.C02_balances_replay",
    "CyclesLedger.C02_supply_replay"
   ],
   "note": "Balances are exactly the replay of the block log"
  },
  {
   "property": "C03",
   "status": "proved",
   "theorems": [
    "CyclesLedger.C03_no_overdraft"
   ],
   "note": "No overdraft at any point of the log"
  },
  {
   "property": "C04",
   "status": "proved",
   "theorems": [
    "CyclesLedger.C04_transfer_effect"
   ],
   "note": "A successful transfer moves exactly amount and costs exactly one fee"
  },
  {
   "property": "C05",
   "status": "proved",
   "theorems": [
    "CyclesLedger.C05_refused_no_effect"
   ],
   "note": "A rejected request changes nothing"
  },
  {
   "property": "C06",
   "status": "proved",
   "theorems": [
    "CyclesLedger.C06_deposit"
   ],
   "note": "Deposit credits exactly the attached cycles minus the fee"
  },
  {
   "property": "C07",
   "status": "proved",
   "theorems": [
    "CyclesLedger.C07_surplus_kept",
    "CyclesLedger.C07_solvent",
    "CyclesLedger.C07_honesty_needed"
   ],
   "note": "Solvency: the cycles backing the ledger always cover the supply"
  },
  {
   "property": "C08",
   "status": "proved",
   "theorems": [
    "CyclesLedger.C08_supply_of_request",
    "CyclesLedger.C08_supply_of_failed_start",
    "CyclesLedger.C08_supply_of_callback",
    "CyclesLedger.C08_supply_otherwise"
   ],
   "note": "Total supply changes only by the documented amounts"
  },
  {
   "property": "C09",
   "status": "proved",
   "theorems": [
    "CyclesLedger.C09_at_most_once"
   ],
   "note": "At-most-once execution with created_at_time"
  },
  {
   "property": "C10",
   "status": "proved",
   "theorems": [
    "CyclesLedger.C10_duplicate_truthful"
   ],
   "note": "A Duplicate answer is truthful"
  },
  {
   "property": "C11",
   "status": "proved",
   "theorems": [
    "CyclesLedger.C11_repeated"
   ],
   "note": "Repeating a request inside the window is always answered Duplicate"
  },
  {
   "property": "C12",
   "status": "proved",
   "theorems": [
    "CyclesLedger.C12_block_only_in_window",
    "CyclesLedger.C12_answers"
   ],
   "note": "created_at_time window is exact"
  },
  {
   "property": "C13",
   "status": "proved",
   "theorems": [
    "CyclesLedger.C13_created_again"
   ],
   "note": "A repeated create_canister reports the canister that was created"
  },
  {
   "property": "C14",
   "status": "proved",
   "theorems": [
    "CyclesLedger.C14_needs_allowance",
    "CyclesLedger.C14_exact_use",
    "CyclesLedger.C14_own_no_use"
   ],
   "note": "Spending on behalf consumes exactly amount plus fee of a valid allowance"
  },
  {
   "property": "C15",
   "status": "proved",
   "theorems": [
    "CyclesLedger.C15_only_by_allowance",
    "CyclesLedger.C15_callbacks_lower_nothing"
   ],
   "note": "Nobody else can spend your cycles"
  },
  {
   "property": "C16",
   "status": "proved",
   "theorems": [
    "CyclesLedger.C16_allowances_replay"
   ],
   "note": "Allowances are exactly the replay of the block log"
  },
  {
   "property": "C17",
   "status": "proved",
   "theorems": [
    "CyclesLedger.C17_expired_not_spent",
    "CyclesLedger.C17_log"
   ],
   "note": "An expired approval can never be spent"
  },
  {
   "property": "C18",
   "status": "partial",
   "theorems": [
    "CyclesLedger.C18_refuted",
    "CyclesLedger.C18_reported_partial"
   ],
   "note": "The code violates the property at t = expires_at: allowance() still reports the amount (expiry < now) while check_allowance refuses it (expiry <= now). C18_refuted is the witness; C18_reported_partial proves the property at every other time. C56 states and proves exactly what is reported."
  },
  {
   "property": "C19",
   "status": "proved",
   "theorems": [
    "CyclesLedger.C19_approve_effect"
   ],
   "note": "approve overwrites, with compare-and-swap"
  },
  {
   "property": "C20",
   "status": "proved",
   "theorems": [
    "CyclesLedger.C20_no_self_allowance"
   ],
   "note": "No allowance between accounts of one owner"
  },
  {
   "property": "C21",
   "status": "proved",
   "theorems": [
    "CyclesLedger.C21_prune_keeps_live",
    "CyclesLedger.C21_queue_matches"
   ],
   "note": "Pruning never removes a live allowance"
  },
  {
   "property": "C22",
   "status": "proved",
   "theorems": [
    "CyclesLedger.C22_all",
    "CyclesLedger.C22_page",
    "CyclesLedger.C22_continue",
    "CyclesLedger.C22_paging",
    "CyclesLedger.C22_no_repetition",
    "CyclesLedger.C22_complete"
   ],
   "note": "icrc103_get_allowances lists exactly the live allowances"
  },
  {
   "property": "C23",
   "status": "proved",
   "theorems": [
    "CyclesLedger.C23_failed_withdraw",
    "CyclesLedger.C23_successful_withdraw"
   ],
   "note": "A failed withdrawal is refunded"
  },
  {
   "property": "C24",
   "status": "proved",
   "theorems": [
    "CyclesLedger.C24_allowance_refunded",
    "CyclesLedger.C24_allowance_untouched"
   ],
   "note": "A failed withdraw_from / create_canister_from also refunds the allowance"
  },
  {
   "property": "C25",
   "status": "partial",
   "theorems": [
    "CyclesLedger.C25_refuted",
    "CyclesLedger.C25_trap_only_if_partial",
    "CyclesLedger.C25_trap_iff_partial",
    "CyclesLedger.C25_own_account"
   ],
   "note": "The code violates the property: C25_refuted is a reachable system (200 approvals expiring in the same nanosecond) in which the callback of a failed withdraw_from traps and the refund is lost. C25_trap_only_if_partial lists exactly the circumstances in which it can trap; C25_own_account proves the property for withdraw and create_canister."
  },
  {
   "property": "C26",
   "status": "proved",
   "theorems": [
    "CyclesLedger.C26_call_made"
   ],
   "note": "A started withdrawal burns amount+fee and sends exactly amount"
  },
  {
   "property": "C27",
   "status": "proved",
   "theorems": [
    "CyclesLedger.C27_told_apart",
    "CyclesLedger.C27_fits",
    "CyclesLedger.C27_decodes",
    "CyclesLedger.C27_distinct",
    "CyclesLedger.C27_never_duplicates"
   ],
   "note": "Withdraw memos fit, decode, and never clash"
  },
  {
   "property": "C28",
   "status": "proved",
   "theorems": [
    "CyclesLedger.C28_failed_create",
    "CyclesLedger.C28_failed_create_from",
    "CyclesLedger.C28_successful_create"
   ],
   "note": "create_canister refunds exactly what the CMC returned minus the fee"
  },
  {
   "property": "C29",
   "status": "proved",
   "theorems": [
    "CyclesLedger.C29_creation_argument"
   ],
   "note": "A created canister is controlled by the caller unless the caller says otherwise"
  },
  {
   "property": "C30",
   "status": "proved",
   "theorems": [
    "CyclesLedger.C30_append_only",
    "CyclesLedger.C30_index_stable",
    "CyclesLedger.C30_ok_index",
    "CyclesLedger.C30_ok_index_of_call",
    "CyclesLedger.C30_failed_index_of_call",
    "CyclesLedger.C30_failed_index_of_request"
   ],
   "note": "The log is append-only and indices are stable"
  },
  {
   "property": "C31",
   "status": "proved",
   "theorems": [
    "CyclesLedger.C31_hash_chain"
   ],
   "note": "The log is a hash chain"
  },
  {
   "property": "C32",
   "status": "proved",
   "theorems": [
    "CyclesLedger.C32_certified",
    "CyclesLedger.C32_unforgeable",
    "CyclesLedger.C32_roots"
   ],
   "note": "The tip certificate always describes the last block"
  },
  {
   "property": "C33",
   "status": "proved",
   "theorems": [
    "CyclesLedger.C33_tamper_evident",
    "CyclesLedger.C33_ledger_log"
   ],
   "note": "Tamper evidence"
  },
  {
   "property": "C34",
   "status": "partial",
   "theorems": [
    "CyclesLedger.C34_get_blocks_partial",
    "CyclesLedger.C34_refuted",
    "CyclesLedger.C34_refuted_limit"
   ],
   "note": "The code violates the property: ranges of 2^64 blocks or more are silently skipped (C34_refuted), and with a configured limit near 2^64 the end of a range overflows (C34_refuted_limit). C34_get_blocks_partial proves it for lengths below 2^64 and log length + limit below 2^64; C58 states and proves what happens to the longer ranges."
  },
  {
   "property": "C35",
   "status": "proved",
   "theorems": [
    "CyclesLedger.C35_timestamps_monotone"
   ],
   "note": "Block timestamps never go backwards"
  },
  {
   "property": "C36",
   "status": "proved",
   "theorems": [
    "CyclesLedger.C36_hashable",
    "CyclesLedger.C36_identified"
   ],
   "note": "Transactions are identified by their content"
  },
  {
   "property": "C37",
   "status": "proved",
   "theorems": [
    "CyclesLedger.C37_value_round_trip",
    "CyclesLedger.C37_stable_round_trip",
    "CyclesLedger.C37_every_block"
   ],
   "note": "Blocks survive the ICRC-3 value encoding"
  },
  {
   "property": "C38",
   "status": "proved",
   "theorems": [
    "CyclesLedger.C38_round_trip",
    "CyclesLedger.C38_to_cbor",
    "CyclesLedger.C38_from_cbor",
    "CyclesLedger.C38_too_deep",
    "CyclesLedger.C38_back",
    "CyclesLedger.C38_proper"
   ],
   "note": "CBOR and generic values convert back and forth"
  },
  {
   "property": "C39",
   "status": "proved",
   "theorems": [
    "CyclesLedger.C39_memo_bounded",
    "CyclesLedger.C39_long_memo_refused"
   ],
   "note": "Memos in the log are bounded"
  },
  {
   "property": "C40",
   "status": "proved",
   "theorems": [
    "CyclesLedger.C40_block_fee"
   ],
   "note": "Every block charges exactly the ledger fee"
  },
  {
   "property": "C41",
   "status": "proved",
   "theorems": [
    "CyclesLedger.C41_preserved",
    "CyclesLedger.C41_init_refused"
   ],
   "note": "Upgrades preserve everything observable"
  },
  {
   "property": "C42",
   "status": "proved",
   "theorems": [
    "CyclesLedger.C42_traps"
   ],
   "note": "Update endpoints trap only as documented"
  },
  {
   "property": "C43",
   "status": "partial",
   "theorems": [
    "CyclesLedger.C43_valid_iff_partial",
    "CyclesLedger.C43_refuted"
   ],
   "note": "The code violates the property for a transfer to oneself when balance + amount does not fit 128 bits (the credit is checked before the debit): C43_refuted. C43_valid_iff_partial proves the equivalence in all other cases."
  },
  {
   "property": "C44",
   "status": "partial",
   "theorems": [
    "CyclesLedger.C44_badFee_first_partial",
    "CyclesLedger.C44_refuted"
   ],
   "note": "The code violates the property for amounts of 2^128 and more, which are answered InsufficientFunds before the fee is looked at: C44_refuted. C44_badFee_first_partial proves it for all other amounts."
  },
  {
   "property": "C45",
   "status": "partial",
   "theorems": [
    "CyclesLedger.C45_queries",
    "CyclesLedger.C45_history_partial",
    "CyclesLedger.C45_unstamped",
    "CyclesLedger.C45_refuted"
   ],
   "note": "The code violates the property for requests with a created_at_time: the subaccount as written goes into the transaction hash, so a request that is a Duplicate in one writing is accepted in the other (C45_refuted). C45_queries covers queries; C45_unstamped proves it without exception for histories without created_at_time; C45_history_partial proves it for all histories that agree on what is a duplicate."
  },
  {
   "property": "C46",
   "status": "proved",
   "theorems": [
    "CyclesLedger.C46_round_trip",
    "CyclesLedger.C46_accepted",
    "CyclesLedger.C46_exact"
   ],
   "note": "Compact accounts round-trip"
  },
  {
   "property": "C47",
   "status": "proved",
   "theorems": [
    "CyclesLedger.C47_approvals",
    "CyclesLedger.C47_transactions",
    "CyclesLedger.C47_nothing_else"
   ],
   "note": "Pruning is bounded and makes progress"
  },
  {
   "property": "C48",
   "status": "partial",
   "theorems": [
    "CyclesLedger.C48_no_empty_balances_partial",
    "CyclesLedger.C48_refuted"
   ],
   "note": "The code violates the property: a credit of zero cycles to an account without entry stores a zero balance (C48_refuted). C48_no_empty_balances_partial proves it for logs without zero credits; C59 states and proves exactly which balances are stored."
  },
  {
   "property": "C49",
   "status": "proved",
   "theorems": [
    "CyclesLedger.C49_entries",
    "CyclesLedger.C49_keys"
   ],
   "note": "Deduplication data is bounded by the window"
  },
  {
   "property": "C50",
   "status": "proved",
   "theorems": [
    "CyclesLedger.C50_transfer",
    "CyclesLedger.C50_withdraw_start",
    "CyclesLedger.C50_withdraw_end",
    "CyclesLedger.C50_create_start",
    "CyclesLedger.C50_create_end"
   ],
   "note": "Error conversion for owner endpoints loses nothing and never traps"
  },
  {
   "property": "C51",
   "status": "proved",
   "theorems": [
    "CyclesLedger.C51_bad_receiver_refused",
    "CyclesLedger.C51_only_bad_receiver"
   ],
   "note": "Withdrawals to user principals are refused"
  },
  {
   "property": "C52",
   "status": "proved",
   "theorems": [
    "CyclesLedger.C52_taken_le_approved"
   ],
   "note": "Spender total is bounded by approvals"
  },
  {
   "property": "C53",
   "status": "proved",
   "theorems": [
    "CyclesLedger.C53_order_irrelevant"
   ],
   "note": "Outstanding calls never interfere"
  },
  {
   "property": "C54",
   "status": "proved",
   "theorems": [
    "CyclesLedger.C54_index_encoding",
    "CyclesLedger.C54_injective",
    "CyclesLedger.C54_shortest"
   ],
   "note": "The certified block index encoding is injective"
  },
  {
   "property": "C55",
   "status": "proved",
   "theorems": [
    "CyclesLedger.C55_refusals_true"
   ],
   "note": "Every error answer is true"
  },
  {
   "property": "C56",
   "status": "proved",
   "theorems": [
    "CyclesLedger.C56_reported_exactly",
    "CyclesLedger.C56_replay"
   ],
   "note": "Exactly what icrc2_allowance reports"
  },
  {
   "property": "C57",
   "status": "proved",
   "theorems": [
    "CyclesLedger.C57_authorised",
    "CyclesLedger.C57_log"
   ],
   "note": "Every block has an authorised origin"
  },
  {
   "property": "C58",
   "status": "proved",
   "theorems": [
    "CyclesLedger.C58_get_blocks"
   ],
   "note": "Exactly what icrc3_get_blocks returns"
  },
  {
   "property": "C59",
   "status": "proved",
   "theorems": [
    "CyclesLedger.C59_stored_balances"
   ],
   "note": "Exactly which balances are stored"
  },
  {
   "property": "C60",
   "status": "proved",
   "theorems": [
    "CyclesLedger.C60_approve_iff"
   ],
   "note": "Exactly which approvals are granted"
  },
  {
   "property": "C61",
   "status": "proved",
   "theorems": [
    "CyclesLedger.C61_burn_iff"
   ],
   "note": "Exactly which withdrawals and canister creations are started"
  },
  {
   "property": "C62",
   "status": "proved",
   "theorems": [
    "CyclesLedger.C62_approvals",
    "CyclesLedger.C62_transactions"
   ],
   "note": "Accepted requests remove what has expired"
  },
  {
   "property": "C63",
   "status": "proved",
   "theorems": [
    "CyclesLedger.C63_transfer_iff"
   ],
   "note": "Exactly which transfers succeed"
  },
  {
   "property": "C64",
   "status": "proved",
   "theorems": [
    "CyclesLedger.C64_code_of_callback",
    "CyclesLedger.C64_code_of_request"
   ],
   "note": "A failed call is reported with its own rejection code"
  },
  {
   "property": "C65",
   "status": "proved",
   "theorems": [
    "CyclesLedger.C65_believed",
    "CyclesLedger.C65_accepted"
   ],
   "note": "A client that verifies a served log knows the ledger's balances"
  },
  {
   "property": "C66",
   "status": "proved",
   "theorems": [
    "CyclesLedger.C66_truthful",
    "CyclesLedger.C66_limited"
   ],
   "note": "icrc3_get_blocks never lies"
  },
  {
   "property": "C67",
   "status": "partial",
   "theorems": [
    "CyclesLedger.C67_types",
    "CyclesLedger.C67_declared_partial",
    "CyclesLedger.C67_refuted"
   ],
   "note": "The code violates the property: icrc3_supported_block_types does not list 1xfer, the type of a transfer by the owner (C67_refuted). C67_declared_partial proves it for all other blocks, C67_types that every served value has the type of its operation."
  },
  {
   "property": "C68",
   "status": "proved",
   "theorems": [
    "CyclesLedger.C68_exact",
    "CyclesLedger.C68_one_fee",
    "CyclesLedger.C68_history",
    "CyclesLedger.C68_block_fee"
   ],
   "note": "The ledger keeps exactly the fees"
  },
  {
   "property": "C69",
   "status": "proved",
   "theorems": [
    "CyclesLedger.C69_installs",
    "CyclesLedger.C69_installed"
   ],
   "note": "Installation mints exactly the initial balances"
  },
  {
   "property": "C70",
   "status": "proved",
   "theorems": [
    "CyclesLedger.C70_fee",
    "CyclesLedger.C70_unit",
    "CyclesLedger.C70_memo",
    "CyclesLedger.C70_blocks",
    "CyclesLedger.C70_index",
    "CyclesLedger.C70_index_upgrade"
   ],
   "note": "The advertised parameters are the enforced ones"
  },
  {
   "property": "C71",
   "status": "proved",
   "theorems": [
    "CyclesLedger.C71_upgrades_invisible",
    "CyclesLedger.C71_config_irrelevant",
    "CyclesLedger.C71_config_kept"
   ],
   "note": "Upgrades are invisible"
  },
  {
   "property": "C72",
   "status": "proved",
   "theorems": [
    "CyclesLedger.C72_refunds_repay",
    "CyclesLedger.C72_account_totals"
   ],
   "note": "Every refund repays a burn, and no burn is repaid twice"
  },
  {
   "property": "C73",
   "status": "proved",
   "theorems": [
    "CyclesLedger.C73_balance_safe",
    "CyclesLedger.C73_transfer_unspoiled",
    "CyclesLedger.C73_approval_unspoiled",
    "CyclesLedger.C73_burn_unspoiled"
   ],
   "note": "Strangers cannot spoil a request"
  },
  {
   "property": "C74",
   "status": "proved",
   "theorems": [
    "CyclesLedger.C74_sums",
    "CyclesLedger.C74_order_irrelevant"
   ],
   "note": "Balances do not depend on the order of the transactions"
  },
  {
   "property": "C75",
   "status": "proved",
   "theorems": [
    "CyclesLedger.C75_routes",
    "CyclesLedger.C75_log_gauges",
    "CyclesLedger.C75_account_gauges",
    "CyclesLedger.C75_no_alarm",
    "CyclesLedger.C75_dedup_gauges"
   ],
   "note": "The reported sizes are right and the self-check never fires"
  },
  {
   "property": "C76",
   "status": "proved",
   "theorems": [
    "CyclesLedger.C76_conserved",
    "CyclesLedger.C76_call",
    "CyclesLedger.C76_answer",
    "CyclesLedger.C76_arrive",
    "CyclesLedger.C76_distinct"
   ],
   "note": "The depositor neither loses nor creates cycles"
  },
  {
   "property": "C77",
   "status": "proved",
   "theorems": [
    "CyclesLedger.C77_exact",
    "CyclesLedger.C77_solvent",
    "CyclesLedger.C77_rejection_unsafe"
   ],
   "note": "The ledger with the fake CMC"
  },
  {
   "property": "C78",
   "status": "proved",
   "theorems": [
    "CyclesLedger.C78_round_trip",
    "CyclesLedger.C78_injective",
    "CyclesLedger.C78_other_versions",
    "CyclesLedger.C78_history"
   ],
   "note": "The configuration survives in stable memory"
  },
  {
   "property": "C79",
   "status": "proved",
   "theorems": [
    "CyclesLedger.C79_agree",
    "CyclesLedger.C79_from_empty"
   ],
   "note": "The reference ledger of the tests is right"
  },
  {
   "property": "C80",
   "status": "proved",
   "theorems": [
    "CyclesLedger.C80_padding",
    "CyclesLedger.C80_whole_message",
    "CyclesLedger.C80_encodings",
    "CyclesLedger.C80_signed",
    "CyclesLedger.C80_layout",
    "CyclesLedger.C80_fips",
    "CyclesLedger.C80_roots",
    "CyclesLedger.C80_client"
   ],
   "note": "The properties hold of the real hash"
  },
  {
   "property": "C81",
   "status": "proved",
   "theorems": [
    "CyclesLedger.C81_transfer",
    "CyclesLedger.C81_approve",
    "CyclesLedger.C81_burn",
    "CyclesLedger.C81_deposit",
    "CyclesLedger.C81_one_answer"
   ],
   "note": "Which answer a request gets"
  },
  {
   "property": "C82",
   "status": "proved",
   "theorems": [
    "CyclesLedger.C82_queries",
    "CyclesLedger.C82_step",
    "CyclesLedger.C82_run"
   ],
   "note": "The log decides"
  },
  {
   "property": "C83",
   "status": "proved",
   "theorems": [
    "CyclesLedger.C83_only_shrinks",
    "CyclesLedger.C83_revoked",
    "CyclesLedger.C83_stays_revoked"
   ],
   "note": "A revoked allowance stays revoked"
  },
  {
   "property": "C84",
   "status": "proved",
   "theorems": [
    "CyclesLedger.C84_withdraw",
    "CyclesLedger.C84_everything",
    "CyclesLedger.C84_transfer",
    "CyclesLedger.C84_revoke"
   ],
   "note": "The owner can always leave"
  },
  {
   "property": "C85",
   "status": "proved",
   "theorems": [
    "CyclesLedger.C85_alarms",
    "CyclesLedger.C85_zero_approval",
    "CyclesLedger.C85_pruned",
    "CyclesLedger.C85_passes",
    "CyclesLedger.C85_bound",
    "CyclesLedger.C85_trap",
    "CyclesLedger.C85_buffers",
    "CyclesLedger.C85_upgrade",
    "CyclesLedger.C85_page"
   ],
   "note": "The log raises no false alarm"
  },
  {
   "property": "C86",
   "status": "proved",
   "theorems": [
    "CyclesLedger.C86_block",
    "CyclesLedger.C86_transaction",
    "CyclesLedger.C86_needed"
   ],
   "note": "The hash of a block survived the change of its encoding"
  },
  {
   "property": "C87",
   "status": "proved",
   "theorems": [
    "CyclesLedger.C87_schema",
    "CyclesLedger.C87_log",
    "CyclesLedger.C87_accepted"
   ],
   "note": "Blocks follow the ICRC-3 schema"
  },
  {
   "property": "C88",
   "status": "proved",
   "theorems": [
    "CyclesLedger.C88_step",
    "CyclesLedger.C88_blocks",
    "CyclesLedger.C88_storage"
   ],
   "note": "Storage is paid for"
  },
  {
   "property": "C89",
   "status": "partial",
   "theorems": [
    "CyclesLedger.C89_repetition_partial",
    "CyclesLedger.C89_refuted",
    "CyclesLedger.C89_refuted_approve"
   ],
   "note": "The code violates the property twice: creation_args are not part of the transaction of create_canister(_from) (C89_refuted), and approvals of 2^128-1 cycles and more are the same transaction (C89_refuted_approve). C89_repetition_partial proves it for everything else, i.e. equality of the calls up to these two differences."
  },
  {
   "property": "C90",
   "status": "proved",
   "theorems": [
    "CyclesLedger.C90_run",
    "CyclesLedger.C90_determined"
   ],
   "note": "The ledger is a list of blocks"
  },
  {
   "property": "C91",
   "status": "proved",
   "theorems": [
    "CyclesLedger.C91_poor",
    "CyclesLedger.C91_penalized"
   ],
   "note": "A penalty takes exactly the fee"
  },
  {
   "property": "C92",
   "status": "proved",
   "theorems": [
    "CyclesLedger.C92_readable",
    "CyclesLedger.C92_empty"
   ],
   "note": "The certificate is readable"
  },
  {
   "property": "C93",
   "status": "proved",
   "theorems": [
    "CyclesLedger.C93_faithful",
    "CyclesLedger.C93_progress",
    "CyclesLedger.C93_caught_up"
   ],
   "note": "Followers of the log are not misled"
  },
  {
   "property": "C94",
   "status": "proved",
   "theorems": [
    "CyclesLedger.C94_recorded",
    "CyclesLedger.C94_one_index",
    "CyclesLedger.C94_one_effect",
    "CyclesLedger.C94_final"
   ],
   "note": "Repeating a request is safe"
  },
  {
   "property": "C95",
   "status": "proved",
   "theorems": [
    "CyclesLedger.C95_one_fate",
    "CyclesLedger.C95_fate"
   ],
   "note": "Every withdrawal has exactly one fate"
  },
  {
   "property": "C96",
   "status": "partial",
   "theorems": [
    "CyclesLedger.C96_duplicate_partial",
    "CyclesLedger.C96_refuted"
   ],
   "note": "The code violates the property: the entry of a failed and refunded withdrawal stays in the table of transactions, so repeating it is answered Duplicate for a day although nothing was sent (C96_refuted). C96_duplicate_partial proves that the named block records the same withdrawal and that its cycles were or are being sent, unless its call failed, was lost or could not be sent."
  },
  {
   "property": "C97",
   "status": "proved",
   "theorems": [
    "CyclesLedger.C97_block",
    "CyclesLedger.C97_message",
    "CyclesLedger.C97_price"
   ],
   "note": "Blocks are small"
  },
  {
   "property": "C98",
   "status": "proved",
   "theorems": [
    "CyclesLedger.C98_named",
    "CyclesLedger.C98_fate"
   ],
   "note": "A duplicate creation names the canister exactly if there is one"
  },
  {
   "property": "C99",
   "status": "partial",
   "theorems": [
    "CyclesLedger.C99_executes",
    "CyclesLedger.C99_panics_partial",
    "CyclesLedger.C99_consistent",
    "CyclesLedger.C99_accepted_partial",
    "CyclesLedger.C99_refuted"
   ],
   "note": "The generator violates the property. C99_refuted: with the parameters of its own test it reaches a state in which it panics (an approval of less than the fee, then a transfer with it), and it draws a call the ledger refuses (a second equal approval). C99_panics_partial says exactly when it panics; C99_accepted_partial says exactly which drawn calls are refused; C99_executes and C99_consistent hold without exception."
  },
  {
   "property": "C100",
   "status": "proved",
   "theorems": [
    "CyclesLedger.C100_in_full",
    "CyclesLedger.C100_keys",
    "CyclesLedger.C100_survives",
    "CyclesLedger.C100_first",
    "CyclesLedger.C100_bytes",
    "CyclesLedger.C100_price"
   ],
   "note": "Nothing is lost in stable memory"
  },
  {
   "property": "C101",
   "status": "proved",
   "theorems": [
    "CyclesLedger.C101_metrics",
    "CyclesLedger.C101_values",
    "CyclesLedger.C101_logs",
    "CyclesLedger.C101_complete",
    "CyclesLedger.C101_size"
   ],
   "note": "The pages /metrics and /logs can be read"
  },
  {
   "property": "C102",
   "status": "proved",
   "theorems": [
    "CyclesLedger.C102_updates",
    "CyclesLedger.C102_queries",
    "CyclesLedger.C102_lifecycle",
    "CyclesLedger.C102_writable",
    "CyclesLedger.C102_unambiguous",
    "CyclesLedger.C102_only_messages",
    "CyclesLedger.C102_any_types",
    "CyclesLedger.C102_nothing_invented",
    "CyclesLedger.C102_no_amount",
    "CyclesLedger.C102_time_ignored",
    "CyclesLedger.C102_short_subaccount",
    "CyclesLedger.C102_upgrade_ignored"
   ],
   "note": "What callers write is what the ledger reads"
  },
  {
   "property": "C103",
   "status": "proved",
   "theorems": [
    "CyclesLedger.C103_replies",
    "CyclesLedger.C103_replied",
    "CyclesLedger.C103_unambiguous",
    "CyclesLedger.C103_right_method",
    "CyclesLedger.C103_end_to_end",
    "CyclesLedger.C103_any_bytes",
    "CyclesLedger.C103_no_message",
    "CyclesLedger.C103_every_message",
    "CyclesLedger.C103_queries",
    "CyclesLedger.C103_answers_unambiguous"
   ],
   "note": "From bytes to bytes: the caller reads the result of what the caller wrote"
  },
  {
   "property": "C104",
   "status": "proved",
   "theorems": [
    "CyclesLedger.C104_sent",
    "CyclesLedger.C104_passed_on",
    "CyclesLedger.C104_answer",
    "CyclesLedger.C104_answer_sound",
    "CyclesLedger.C104_unknown",
    "CyclesLedger.C104_any_response",
    "CyclesLedger.C104_created",
    "CyclesLedger.C104_unknown_unsafe"
   ],
   "note": "What other canisters are sent, and how their answers are read"
  },
  {
   "property": "C105",
   "status": "proved",
   "theorems": [
    "CyclesLedger.C105_sendable",
    "CyclesLedger.C105_one_reading",
    "CyclesLedger.C105_end_to_end",
    "CyclesLedger.C105_audit"
   ],
   "note": "The blocks a client downloads are those of the ledger, byte for byte"
  },
  {
   "property": "C106",
   "status": "proved",
   "theorems": [
    "CyclesLedger.C106_constants",
    "CyclesLedger.C106_standards",
    "CyclesLedger.C106_metadata",
    "CyclesLedger.C106_certificate",
    "CyclesLedger.C106_http",
    "CyclesLedger.C106_no_message",
    "CyclesLedger.C106_audit"
   ],
   "note": "What the ledger says about itself can be read, byte for byte"
  },
  {
   "property": "C107",
   "status": "proved",
   "theorems": [
    "CyclesLedger.C107_approvals",
    "CyclesLedger.C107_transactions",
    "CyclesLedger.C107_gone"
   ],
   "note": "What has expired goes away"
  },
  {
   "property": "C108",
   "status": "proved",
   "theorems": [
    "CyclesLedger.C108_life",
    "CyclesLedger.C108_input",
    "CyclesLedger.C108_replies",
    "CyclesLedger.C108_install",
    "CyclesLedger.C108_no_message",
    "CyclesLedger.C108_installed_as_written",
    "CyclesLedger.C108_upgrade_safe",
    "CyclesLedger.C108_upgrade",
    "CyclesLedger.C108_upgraded_as_written",
    "CyclesLedger.C108_nothing_invented"
   ],
   "note": "A life in bytes"
  },
  {
   "property": "C109",
   "status": "proved",
   "theorems": [
    "CyclesLedger.C109_balances",
    "CyclesLedger.C109_allowances",
    "CyclesLedger.C109_history"
   ],
   "note": "Bystanders"
  },
  {
   "property": "C110",
   "status": "proved",
   "theorems": [
    "CyclesLedger.C110_unaffected",
    "CyclesLedger.C110_commute"
   ],
   "note": "Independent requests"
  },
  {
   "property": "C111",
   "status": "proved",
   "theorems": [
    "CyclesLedger.C111_calls",
    "CyclesLedger.C111_queries",
    "CyclesLedger.C111_needed"
   ],
   "note": "Saying more says nothing"
  },
  {
   "property": "C112",
   "status": "proved",
   "theorems": [
    "CyclesLedger.C112_updates",
    "CyclesLedger.C112_queries",
    "CyclesLedger.C112_lifecycle",
    "CyclesLedger.C112_calls",
    "CyclesLedger.C112_one",
    "CyclesLedger.C112_install",
    "CyclesLedger.C112_cmc"
   ],
   "note": "Requests are read by coercion"
  },
  {
   "property": "C113",
   "status": "proved",
   "theorems": [
    "CyclesLedger.C113_hashes",
    "CyclesLedger.C113_timestamps",
    "CyclesLedger.C113_same",
    "CyclesLedger.C113_pruned"
   ],
   "note": "What the test build shows"
  },
  {
   "property": "C114",
   "status": "proved",
   "theorems": [
    "CyclesLedger.C114_reads",
    "CyclesLedger.C114_understood",
    "CyclesLedger.C114_conserved",
    "CyclesLedger.C114_answer",
    "CyclesLedger.C114_life"
   ],
   "note": "The depositor in bytes"
  },
  {
   "property": "C115",
   "status": "proved",
   "theorems": [
    "CyclesLedger.C115_last",
    "CyclesLedger.C115_answered",
    "CyclesLedger.C115_unreadable",
    "CyclesLedger.C115_told",
    "CyclesLedger.C115_ledger"
   ],
   "note": "The fake CMC in bytes"
  },
  {
   "property": "C116",
   "status": "proved",
   "theorems": [
    "CyclesLedger.C116_conserved",
    "CyclesLedger.C116_solvent",
    "CyclesLedger.C116_created",
    "CyclesLedger.C116_told",
    "CyclesLedger.C116_refused",
    "CyclesLedger.C116_kept",
    "CyclesLedger.C116_settles",
    "CyclesLedger.C116_unfair",
    "CyclesLedger.C116_rejected"
   ],
   "note": "Ledger and fake CMC together in bytes"
  }
 ]
}