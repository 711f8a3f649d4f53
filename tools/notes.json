{
 "C18": {
  "status": "partial",
  "note": "The code violates the property at t = expires_at: allowance() still reports the amount (expiry < now) while check_allowance refuses it (expiry <= now). C18_refuted is the witness; C18_reported_partial proves the property at every other time. C56 states and proves exactly what is reported."
 },
 "C25": {
  "status": "partial",
  "note": "The code violates the property: C25_refuted is a reachable system (200 approvals expiring in the same nanosecond) in which the callback of a failed withdraw_from traps and the refund is lost. C25_trap_only_if_partial lists exactly the circumstances in which it can trap; C25_own_account proves the property for withdraw and create_canister."
 },
 "C34": {
  "status": "partial",
  "note": "The code violates the property: ranges of 2^64 blocks or more are silently skipped (C34_refuted), and with a configured limit near 2^64 the end of a range overflows (C34_refuted_limit). C34_get_blocks_partial proves it for lengths below 2^64 and log length + limit below 2^64; C58 states and proves what happens to the longer ranges."
 },
 "C43": {
  "status": "partial",
  "note": "The code violates the property for a transfer to oneself when balance + amount does not fit 128 bits (the credit is checked before the debit): C43_refuted. C43_valid_iff_partial proves the equivalence in all other cases."
 },
 "C44": {
  "status": "partial",
  "note": "The code violates the property for amounts of 2^128 and more, which are answered InsufficientFunds before the fee is looked at: C44_refuted. C44_badFee_first_partial proves it for all other amounts."
 },
 "C45": {
  "status": "partial",
  "note": "The code violates the property for requests with a created_at_time: the subaccount as written goes into the transaction hash, so a request that is a Duplicate in one writing is accepted in the other (C45_refuted). C45_queries covers queries; C45_unstamped proves it without exception for histories without created_at_time; C45_history_partial proves it for all histories that agree on what is a duplicate."
 },
 "C48": {
  "status": "partial",
  "note": "The code violates the property: a credit of zero cycles to an account without entry stores a zero balance (C48_refuted). C48_no_empty_balances_partial proves it for logs without zero credits; C59 states and proves exactly which balances are stored."
 },
 "C67": {
  "status": "partial",
  "note": "The code violates the property: icrc3_supported_block_types does not list 1xfer, the type of a transfer by the owner (C67_refuted). C67_declared_partial proves it for all other blocks, C67_types that every served value has the type of its operation."
 },
 "C89": {
  "status": "partial",
  "note": "The code violates the property twice: creation_args are not part of the transaction of create_canister(_from) (C89_refuted), and approvals of 2^128-1 cycles and more are the same transaction (C89_refuted_approve). C89_repetition_partial proves it for everything else, i.e. equality of the calls up to these two differences."
 },
 "C96": {
  "status": "partial",
  "note": "The code violates the property: the entry of a failed and refunded withdrawal stays in the table of transactions, so repeating it is answered Duplicate for a day although nothing was sent (C96_refuted). C96_duplicate_partial proves that the named block records the same withdrawal and that its cycles were or are being sent, unless its call failed, was lost or could not be sent."
 },
 "C99": {
  "status": "partial",
  "note": "The generator violates the property. C99_refuted: with the parameters of its own test it reaches a state in which it panics (an approval of less than the fee, then a transfer with it), and it draws a call the ledger refuses (a second equal approval). C99_panics_partial says exactly when it panics; C99_accepted_partial says exactly which drawn calls are refused; C99_executes and C99_consistent hold without exception."
 }
}