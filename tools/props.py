#!/usr/bin/env python3
"""Generates /verif/properties.jsonl (one JSON object per line)."""
import json, os
S="cycles-ledger/src/storage.rs"; M="cycles-ledger/src/main.rs"; L="cycles-ledger/src/lib.rs"
P=[]
def p(id,title,statement,quant,why,anchors):
    P.append(dict(id=id,title=title,statement=statement,quantifier=quant,why_tests_cant=why,anchors=anchors))
HIST="every install argument and every finite history of update calls, callbacks of outstanding inter-canister calls (in any interleaving), upgrades and time advances"
p("C01","Total supply equals the sum of balances",
  "After any history, icrc1_total_supply equals the sum of icrc1_balance_of over all accounts, and that sum never exceeds 2^128-1.",
  HIST,"Tests compare the two numbers after a few chosen calls; the claim is about every history and every interleaving of callbacks.",
  [S+": State::credit, State::debit, compute_total_supply", M+": icrc1_total_supply"])
p("C02","Balances are exactly the replay of the block log",
  "After any history, the balance of every account equals the balance obtained by folding the blocks returned by icrc3_get_blocks from the first to the last with the ICRC-1/2/3 meaning of mint, burn, xfer and approve blocks (fee taken from the block, or from its transaction when the block has none).",
  HIST+"; every account","An index canister depends on this for every log ever produced; tests check a handful of logs.",
  [S+": process_transaction, effective_fee, transfer, approve, withdraw, create_canister, mint, reimburse"])
p("C03","No overdraft at any point of the log",
  "Replaying any prefix of the block log never drives any account's balance below zero.",
  HIST+"; every prefix of the log; every account","Requires looking at all prefixes of all logs.",
  [S+": check_debit_from_account, debit, transfer, withdraw, create_canister, approve"])
p("C04","A successful transfer moves exactly amount and costs exactly one fee",
  "If icrc1_transfer / icrc2_transfer_from returns Ok(i) then the sender's balance drops by amount+fee, the receiver's rises by amount (net -fee when they are the same account, however its subaccount is written), no other balance changes, the total supply drops by exactly the fee, and exactly one block, at index i, is appended and it records this transfer.",
  "every reachable state, caller, argument and time","Aliased sender/receiver, default-subaccount spellings and extreme balances form an unbounded input space.",
  [S+": transfer", M+": execute_transfer, icrc1_transfer, icrc2_transfer_from"])
p("C05","A rejected request changes nothing",
  "If icrc1_transfer, icrc2_transfer_from, icrc2_approve or deposit returns an error or traps, or withdraw/withdraw_from/create_canister/create_canister_from is refused before the outgoing call, the ledger state (balances, allowances, log, deduplication data, certificate) is exactly what it was.",
  "every reachable state, caller, argument and time","Every error path at every state has to be covered, including errors raised late in the function.",
  [S+": transfer, approve, withdraw, create_canister, process_transaction", M])
p("C06","Deposit credits exactly the attached cycles minus the fee",
  "deposit with c attached cycles succeeds only if c > fee; then the account's balance rises by c-fee, the returned balance is the new balance, the returned index is that of the one new mint block, and nothing else changes; with c <= fee the call is rejected and no cycles are kept.",
  "every reachable state, amount of attached cycles, account, memo","Unbounded amounts, boundary at the fee and at 2^128.",
  [S+": deposit, mint, reimburse", M+": deposit"])
p("C07","Solvency: the cycles backing the ledger always cover the supply",
  "Counting cycles accepted by deposit, attached to outgoing calls and refunded by them, the cycles held are always at least the total supply, provided the initial balances were backed and every callee refund is at least what it reports; the surplus (collected fees) never decreases.",
  HIST,"A single bad interleaving of refund and withdrawal would break it; tests exercise one in-flight call at a time.",
  [S+": withdraw, create_canister, reimburse, deposit"])
p("C08","Total supply changes only by the documented amounts",
  "Each operation changes the total supply by exactly: transfer/approve -fee, deposit +(cycles-fee), withdraw/create_canister start -(amount+fee), failed withdraw/create +(returned-fee) when positive and a further -fee when the allowance is also refunded.",
  "every reachable state and every operation","Must hold for every state and amount.",
  [S+": debit, credit, withdraw, create_canister, reimburse, reimburse_approval"])
p("C09","At-most-once execution with created_at_time",
  "The block log never contains two blocks with the same transaction when that transaction carries a created_at_time, no matter when and how often the request is repeated (including after pruning).",
  HIST+"; every pair of blocks","Deduplication interacts with pruning limits and with time over unbounded histories.",
  [S+": check_duplicate, emit_block, prune_transactions, validate_created_at_time, is_before_transaction_window"])
p("C10","A Duplicate answer is truthful",
  "If any endpoint answers Duplicate{duplicate_of: i}, block i exists and contains exactly the requested transaction (unless the request exhibits a SHA-256 collision).",
  "every reachable state and request","Quantifies over all histories and requests.",
  [S+": check_duplicate, transaction_hashes"])
p("C11","Repeating a request inside the window is always answered Duplicate",
  "If block i holds a transaction whose created_at_time c satisfies now <= c + 24h + 60s, then submitting that same request again is answered Duplicate of exactly i and changes nothing.",
  "every reachable state, block and later time inside the window","Needs an invariant tying the log to the deduplication tables across pruning.",
  [S+": prune_transactions, check_duplicate"])
p("C12","created_at_time window is exact",
  "A request with created_at_time c produces a block only if c-60s <= now <= c+24h+60s; TooOld is answered only when now > c+24h+60s and CreatedInFuture only when c > now+60s (with u64 saturation at the ends).",
  "every u64 c and now","Boundary and saturation over the full 64-bit range.",
  [S+": validate_created_at_time"])
p("C13","A repeated create_canister reports the canister that was created",
  "After create_canister (or _from) with a created_at_time succeeded with canister id p in block i, an identical request inside the window is answered Duplicate{i, Some(p)}, and no second canister creation is attempted.",
  "every history between success and repetition","Involves arbitrary interleavings between the call, its callback and pruning.",
  [S+": create_canister (success branch), transaction_hashes"])
p("C14","Spending on behalf consumes exactly amount plus fee of a valid allowance",
  "icrc2_transfer_from, withdraw_from and create_canister_from by a spender account different from `from` proceed only if an unexpired allowance of at least amount+fee exists, and reduce it by exactly amount+fee keeping its expiry; allowances of other pairs are unchanged up to expiry.",
  "every reachable state, spender, amount, time","Unbounded amounts, expiry boundary and histories.",
  [S+": check_allowance, use_allowance"])
p("C15","Nobody else can spend your cycles",
  "An update message by caller p lowers the balance of an account owned by q != p only if some account of p held an unexpired allowance from that account covering the whole decrease; callbacks of outstanding calls never lower any balance.",
  HIST+"; every account","An access-control claim ranges over all callers and all states.",
  [M+": all update endpoints", S+": transfer, withdraw, create_canister, check_allowance"])
p("C16","Allowances are exactly the replay of the block log",
  "After any history and for every pair of accounts, the spendable allowance at any later time equals the one computed by folding the approve/xfer/burn blocks of the log, with an allowance counting as zero from its expires_at on.",
  HIST+"; every pair; every later time","Pruning, overwriting and partial use interact over unbounded histories.",
  [S+": record_approval, use_allowance, prune_approvals"])
p("C17","An expired approval can never be spent",
  "If an approval's expires_at is <= the ledger time of a request then no spend on behalf of it succeeds, whether or not it has been pruned.",
  "every state and time","Depends on pruning backlog (limit 100 per call), so on histories.",
  [S+": check_allowance, prune_approvals"])
p("C18","icrc2_allowance reports what can be spent",
  "The allowance reported by icrc2_allowance at time t is exactly the amount the spender could spend at time t.",
  "every reachable state, pair, and time t","Boundary t = expires_at; only a universally quantified statement exposes it.",
  [S+": allowance, check_allowance", M+": icrc2_allowance"])
p("C19","approve overwrites, with compare-and-swap",
  "A successful icrc2_approve(amount, expires_at) makes the allowance exactly min(amount, 2^128-1) with that expiry (removed when zero), regardless of the previous one, costs one fee, appends one block; it succeeds with expected_allowance e only if the current reported allowance is e.",
  "every reachable state and argument","All previous allowances and all argument combinations.",
  [S+": approve, record_approval", M+": icrc2_approve"])
p("C20","No allowance between accounts of one owner",
  "No reachable state has an allowance from an account to a spender account of the same owner, nor one involving the management canister principal.",
  HIST,"Invariant over all histories including allowance refunds.",
  [S+": approve, reimburse_approval"])
p("C21","Pruning never removes a live allowance",
  "Running the pruning step at time now leaves every allowance whose expiry is absent or > now unchanged, and the expiration bookkeeping always matches the stored approvals one-to-one (the internal invariant check never logs).",
  HIST,"Queue/approval consistency is a history property.",
  [S+": prune_approvals, record_approval, use_allowance, check_invariants"])
p("C22","icrc103_get_allowances lists exactly the live allowances",
  "The result is, in key order, the first min(take,500) unexpired allowances of the requested owner at or after the requested account (strictly after (from, prev_spender) when prev_spender is given); repeatedly continuing from the last returned pair enumerates every one exactly once.",
  "every reachable state, argument and page size","Pagination completeness ranges over all sets of allowances and page sizes.",
  [S+": get_allowances, to_account_pair", M+": icrc103_get_allowances"])
p("C23","A failed withdrawal is refunded",
  "If the deposit_cycles call of a withdraw fails, the account is credited amount-fee (when positive) by one mint block stamped with the callback time, whatever happened in between; nothing is credited if it succeeds.",
  "every interleaving between the call and its callback","Unbounded interleavings.",
  [S+": withdraw, reimburse"])
p("C24","A failed withdraw_from / create_canister_from also refunds the allowance",
  "When the refund exceeds one fee and the original approval has not expired, the spender's allowance becomes (current unexpired allowance) + (refunded amount - fee), capped at 2^128-1, recorded by one approve block that costs the account one fee; otherwise the allowance is untouched.",
  "every interleaving between the call and its callback","The owner may re-approve, revoke or let expire in between.",
  [S+": reimburse_approval, withdraw, create_canister"])
p("C25","Processing a failed withdrawal never traps",
  "The callback that processes the reply of a withdraw/create_canister call never traps, so the refund is never lost (given that total cycles fit 128 bits).",
  "every interleaving, every pruning backlog, every callback time","Needs >200 expired approvals and an exact timestamp coincidence; no test would hit it.",
  [S+": reimburse_approval, approve (Expired check), prune_approvals limit"])
p("C26","A started withdrawal burns amount+fee and sends exactly amount",
  "When withdraw/withdraw_from/create_canister/create_canister_from issues its outgoing call, exactly amount+fee was removed from `from`, one burn block at the reported index was appended, exactly `amount` cycles are attached, and the call goes to the requested canister (resp. the CMC).",
  "every reachable state and argument","All amounts and states.",
  [S+": withdraw, create_canister"])
p("C27","Withdraw memos fit, decode, and never clash",
  "The memo of a withdraw block is at most 32 bytes for every receiver principal, decodes back to that receiver, and differs from the memos used for create_canister, refunds and penalties; hence a withdraw and a create_canister request are never taken for duplicates of each other.",
  "every principal (0..29 bytes)","2^232 principals.",
  ["cycles-ledger/src/memo.rs: encode_withdraw_memo, validate_memo", S+": CREATE_CANISTER_MEMO, PENALIZE_MEMO, REFUND_MEMO"])
p("C28","create_canister refunds exactly what the CMC returned minus the fee",
  "On a CMC error with refund r (or a failed call, r = amount; or RefundFailed, r = 0) the account is credited r-fee when positive, by one mint block; on success nothing is credited.",
  "every outcome and interleaving","All refund values and interleavings.",
  [S+": create_canister"])
p("C29","A created canister is controlled by the caller unless the caller says otherwise",
  "The argument sent to the CMC always names controllers: the caller's list if given, else exactly the caller; all other settings and the subnet selection are passed through unchanged.",
  "every creation argument and caller","All combinations of optional fields.",
  [S+": create_canister (argument construction)"])
p("C30","The log is append-only and indices are stable",
  "No operation, callback or upgrade removes or alters a block; an index returned by any endpoint (success, or block fields of an error) always refers to the block that recorded that very operation.",
  HIST,"All future histories.",
  [S+": emit_block, process_transaction"])
p("C31","The log is a hash chain",
  "The first block has no parent hash and every other block's phash is the hash of its predecessor.",
  HIST,"All histories, including upgrades in between.",
  [S+": emit_block, last_block_hash, compute_last_block_hash_and_hash_tree"])
p("C32","The tip certificate always describes the last block",
  "After any history the certified data is the root of the hash tree holding the index and hash of the last block, and equal certified roots imply equal index and hash unless SHA-256 collides.",
  HIST,"All histories including upgrades (the tree is rebuilt, the certified data is not set again).",
  [S+": populate_last_block_hash_and_hash_tree, emit_block, root_hash, get_tip_certificate"])
p("C33","Tamper evidence",
  "Two valid block logs whose last blocks have the same hash are identical block for block, unless SHA-256 collides.",
  "every pair of logs","Universal over logs; rests on injectivity of the block encoding.",
  [S+": Block::to_value, Block::hash, Transaction::to_value"])
p("C34","icrc3_get_blocks returns exactly the requested existing blocks, up to the limit",
  "The result lists, for the requested ranges in order, the existing blocks with their ids, truncated to max_blocks_per_request in total, together with the log length.",
  "every state, every list of ranges with arbitrary naturals, every configured limit","Arbitrary-precision starts/lengths, u64 overflow at extreme limits.",
  [S+": get_blocks"])
p("C35","Block timestamps never go backwards",
  "Along the log, block timestamps are non-decreasing and never exceed the current time.",
  HIST,"All interleavings (callbacks use a fresh timestamp).",
  [S+": process_transaction, withdraw, create_canister"])
p("C36","Transactions are identified by their content",
  "Two transactions have the same transaction hash only if they are identical, unless SHA-256 collides; and every transaction can be hashed.",
  "every pair of transactions","Infinite domain; the representation-independent hash is not injective across value types.",
  [S+": Transaction::hash", L+": ciborium_to_generic_value"])
p("C37","Blocks survive the ICRC-3 value encoding",
  "Decoding the ICRC-3 value of any block gives back the block.",
  "every block with u64/u128 fields","Infinite domain.",
  [S+": Block::to_value, Block::from_value, FlattenedTransaction", L])
p("C38","CBOR and generic values convert back and forth",
  "Whenever a generic value converts to a CBOR value, converting back yields the same generic value; nesting deeper than the limit is rejected in both directions. A CBOR value that is read is written back unchanged exactly if it is in the form the ledger itself writes.",
  "every value","Unbounded trees.",
  [L+": ciborium_to_generic_value, generic_to_ciborium_value"])
p("C39","Memos in the log are bounded",
  "Every block's memo is at most 32 bytes; a request with a longer memo never succeeds.",
  HIST,"All histories and memos.",
  ["cycles-ledger/src/memo.rs: validate_memo", S+": process_transaction"])
p("C40","Every block charges exactly the ledger fee",
  "In every block the fee charged (block fee, else transaction fee) is the ledger fee for xfer, approve and burn blocks and zero for mint blocks.",
  HIST,"All histories.",
  [S+": effective_fee, process_transaction"])
p("C41","Upgrades preserve everything observable",
  "An upgrade leaves balances, total supply, allowances, log, deduplication and tip certificate as they were; only the requested configuration fields change.",
  "every reachable state and upgrade argument","The in-memory cache is rebuilt from stable memory in every reachable state.",
  [S+": STATE initialisation", M+": post_upgrade"])
p("C42","Update endpoints trap only as documented",
  "In reachable states icrc1_transfer/icrc2_transfer_from trap only for a memo over 32 bytes, icrc2_approve only for self-approval or such a memo, deposit only when cycles <= fee, the memo is too long or the supply would overflow, and withdraw/create_canister requests never trap before the outgoing call.",
  HIST+"; every argument","Shows that the 'should not happen' branches are unreachable in every state.",
  [S, L+": *_error_to_*_error"])
p("C43","A valid transfer succeeds",
  "icrc1_transfer/icrc2_transfer_from succeeds if and only if: it is not a duplicate, no account is owned by the management canister, the fee is absent or right, created_at_time is in the window, the memo is at most 32 bytes, the balance covers amount+fee and (on behalf) the allowance does.",
  "every reachable state and argument","Completeness over all inputs.",
  [S+": transfer"])
p("C44","BadFee takes precedence over InsufficientFunds",
  "A transfer, transfer_from or approve with a wrong fee is never answered InsufficientFunds.",
  "every state and argument","Arguments are arbitrary-precision naturals.",
  [M+": execute_transfer, icrc2_approve", S+": transfer, approve"])
p("C45","Accounts are identified up to the default subaccount",
  "Writing the default subaccount explicitly or omitting it makes no difference to balances, allowances or the effect of any request on them.",
  "every state and account","All operations and states.",
  [S+": to_account_key, transfer, approve, check_allowance"])
p("C46","Compact accounts round-trip",
  "Decoding the compact encoding of an account gives the account back; malformed tuples are rejected.",
  "every account / byte-string tuple","Infinite domain.",
  ["cycles-ledger/src/compact_account.rs"])
p("C47","Pruning is bounded and makes progress",
  "One pruning step removes at most 100 approvals and 100000 deduplication entries, only expired ones, oldest first, and removes all expired ones when there are no more than that.",
  "every reachable state and time","All backlogs.",
  [S+": prune, prune_approvals, prune_transactions"])
p("C48","Storage holds no empty balances",
  "An account whose balance is zero occupies no storage (the number of stored balances is the number of accounts with a positive balance).",
  HIST,"Needs a zero-amount transfer to a fresh account; claim ranges over all histories.",
  [S+": credit, debit"])
p("C49","Deduplication data is bounded by the window",
  "Every retained deduplication entry refers to an existing block with that transaction and created_at_time; entries of transactions still inside the window are never dropped.",
  HIST,"All histories and pruning backlogs.",
  [S+": emit_block, prune_transactions"])
p("C50","Error conversion for owner endpoints loses nothing and never traps",
  "icrc1_transfer, withdraw and create_canister return the error of the underlying operation unchanged (field by field) and never hit the InsufficientAllowance trap.",
  "every reachable state and argument","All errors in all states.",
  [L+": transfer_from_error_to_transfer_error, withdraw_from_error_to_withdraw_error, create_canister_from_error_to_create_canister_error"])
p("C51","Withdrawals to user principals are refused",
  "withdraw/withdraw_from to a self-authenticating principal (29 bytes, last byte 2) or of amount 0 is refused with no effect; other receivers are not refused for that reason.",
  "every principal and state","2^232 principals.",
  [S+": is_self_authenticating, withdraw"])
p("C52","Spender total is bounded by approvals",
  "Over any history, the total that blocks show a spender took from an account (amount plus fees) never exceeds the total amount ever approved to it on that account.",
  HIST+"; every pair","Sum over unbounded histories.",
  [S+": use_allowance, record_approval"])
p("C53","Outstanding calls never interfere",
  "Two outstanding withdraw/create calls can be answered in either order with the same resulting balances, and processing one never changes what refund the other gives.",
  "every pair of outstanding calls in every reachable state","Interleavings.",
  [S+": withdraw, create_canister, reimburse"])
p("C54","The certified block index encoding is injective",
  "LEB128 encoding of the block index decodes back to the index for every index.",
  "every natural","2^64 values; the unit test checks four.",
  [S+": populate_last_block_hash_and_hash_tree"])
p("C55","Every error answer is true",
  "Each error field reported by a refused request describes the ledger at that moment: InsufficientFunds carries the actual balance and it does not cover amount+fee, InsufficientAllowance carries an allowance that does not cover it, BadFee the ledger fee, TooOld/CreatedInFuture/Expired the right comparison with the ledger time, AllowanceChanged the current allowance.",
  "every reachable state, every request and every error answer","All errors over all states and arguments.",
  [S+": transfer, approve, withdraw, create_canister"])
p("C56","Exactly what icrc2_allowance reports",
  "icrc2_allowance at time t reports the allowance obtained by replaying the log, with its expiry, up to and including the instant t = expires_at, and zero after; at that very instant it may also be zero, namely if the allowance has been pruned already. It differs from the spendable amount at no other time.",
  "every reachable state, pair of accounts and time from the present on","Boundary instant of every approval.",
  [S+": allowance, check_allowance"])
p("C57","Every block has an authorised origin",
  "Every block in the log is an initial balance, or was added by a message at the time the block is stamped with: a transfer, burn or approve by the owner of the account charged or by the named spender; a mint by a deposit of exactly that amount plus the fee, or by the failure of an outgoing call that returned exactly that amount plus the fee; a restored allowance only for the spender of such a failed call.",
  "every install argument, finite history and block",
  "Tests check single endpoints; this covers all blocks of all interleavings, including refund blocks written by callbacks.",
  [S+": transfer, approve, penalize, reimburse, withdraw, create_canister",M+": all update endpoints"])
p("C58","Exactly what icrc3_get_blocks returns",
  "icrc3_get_blocks ignores every requested range whose length does not fit 64 bits and otherwise lists the existing blocks of the ranges in order with their ids, truncated to max_blocks_per_request in total, together with the log length, as long as log length plus limit is below 2^64.",
  "every state with log length + limit < 2^64, every list of ranges with arbitrary naturals","Arbitrary-precision starts and lengths.",
  [S+": get_blocks"])
p("C59","Exactly which balances are stored",
  "An account has an entry in the table of balances if and only if its balance is positive, or a block credited it with zero cycles while it was empty and no later block changed its balance.",
  HIST,"Needs zero-amount credits at arbitrary points of arbitrary histories, and the absence of other entries.",
  [S+": credit, debit"])

p("C60","Exactly which approvals are granted",
 "icrc2_approve succeeds if and only if the request is no duplicate, the two owners differ and neither is the management canister, an expected_allowance equals the reported one, the fee is absent or right, the memo is at most 32 bytes, created_at_time is in the window, the balance covers the fee, and expires_at (if any) lies in the future.",
 "For all reachable states and approve requests whose hash does not clash with one in the log.",
 "The acceptance condition is a conjunction over the whole state and request; tests sample a few combinations and cannot show that no other request is accepted or refused.",
 [S+": approve, allowance, process_transaction", M+": icrc2_approve"])
p("C61","Exactly which withdrawals and canister creations are started",
 "withdraw, withdraw_from, create_canister and create_canister_from issue their call if and only if the request is no duplicate, created_at_time is in the window, the balance covers amount plus fee, an allowance (when on behalf) does too, and, for withdrawals, the amount is positive and the receiver is not a self-authenticating principal.",
 "For all reachable states and burn requests whose hash does not clash with one in the log.",
 "Same as C60: an equivalence over all states and requests.",
 [S+": withdraw, create_canister, check_allowance", M+": withdraw, withdraw_from, create_canister, create_canister_from"])
p("C62","Accepted requests remove what has expired",
 "After every accepted request an expired approval is still stored only if more than 100 were stored before, and a deduplication entry older than the window only if there were more than 100000; that many others were then removed.",
 "For all reachable states and all accepted requests.",
 "The bound concerns arbitrarily large backlogs built up over arbitrarily long histories.",
 [S+": prune, prune_approvals, prune_transactions", M+": execute_transfer, icrc2_approve"])
p("C63","Exactly which transfers succeed",
 "icrc1_transfer/icrc2_transfer_from succeeds if and only if the conditions of C43 hold and it is not a transfer from an account to itself for which balance plus amount exceeds 128 bits.",
 "For all reachable states and transfer requests whose hash does not clash with one in the log.",
 "An equivalence over all states and requests; C43 as stated is wrong only in a corner no test reaches.",
 [S+": transfer, check_credit_to_account", M+": execute_transfer"])
p("C64","A failed call is reported with its own rejection code",
 "The answer to a withdraw, withdraw_from or create_canister_from whose outgoing call failed carries the reject code of that call, Unknown for an unrecognised one, SysTransient if the call could not be made, and CanisterError if the answer could not be decoded or the CMC itself reports an error.",
 "For all states, outstanding calls and answers for which the callback does not trap, and for all requests whose call cannot be sent.",
 "The code has to survive every branch of the refund logic; tests exercise one code on one branch.",
 [S+": withdraw, create_canister, call_error_to_reject", "cycles-ledger/src/endpoints.rs: RejectionCode"])
p("C65","A client that verifies a served log knows the ledger's balances",
 "A client that reads block values by the field names of ICRC-3, checks that each names the hash of the one before, and checks the hash of the last against the certified tree, accepts the log and tree the ledger serves; and whatever it accepts, whoever handed it over, is the log of the ledger, and the balances, supply and allowances it computes are those of the ledger, unless SHA-256 collides.",
 HIST+"; and for all values and hash trees handed to the client.",
 "The claim is about every forged log and tree, not about the ones a test tampers with.",
 [S+": Block::to_value, emit_block, State::compute_last_block_hash_and_hash_tree, get_tip_certificate", M+": icrc3_get_blocks, icrc3_get_tip_certificate"])
p("C66","icrc3_get_blocks never lies",
 "Whatever ranges are requested and whatever the configured limit, every block returned is the block of the log with the id it is returned under, at most max_blocks_per_request are returned, and the log length returned is the number of blocks.",
 "For all states and requests, including the ranges and limits C34 excludes.",
 "Ranges near 2^64 make the arithmetic wrap; tests use small ones.",
 [S+": get_blocks", M+": icrc3_get_blocks"])
p("C67","The block types served are the block types declared",
 "Every block of the log has one of the types listed by icrc3_supported_block_types, and its type (read off the served value) is that of its operation.",
 HIST,
 "It relates one endpoint to every block that any other endpoint may ever write.",
 [M+": icrc3_supported_block_types", S+": Block::to_value, Transaction::to_value"])
p("C68","The ledger keeps exactly the fees",
 "Every message changes the surplus (cycles held minus total supply) by exactly the fees stated in the blocks it adds, plus, when an outgoing call failed, the part of the returned cycles that is not credited: one fee, or all of them if less than a fee came back. Every block's fee is the ledger fee, except that refunds are free.",
 HIST+"; the bound of one fee assumes that the CMC returns exactly what it reports and that the callback does not trap.",
 "An exact balance over arbitrarily long interleavings of calls and callbacks; tests check single differences.",
 [S+": mint, transfer, approve, withdraw, create_canister, reimburse", M+": deposit"])
p("C69","Installation mints exactly the initial balances",
 "The canister can be installed if and only if the initial balances add up to less than 2^128; then the log holds one mint per entry in order, every account has exactly what the list gives it (however often and however it is written), no fee is charged, there are no allowances, and the configuration is the one given.",
 "For all install arguments and times.",
 "Lists of any length with repeated accounts and sums at the 128-bit boundary.",
 [M+": init", S+": mint"])
p("C70","The advertised parameters are the enforced ones",
 "No name is listed twice in icrc1_metadata; name, symbol and decimals are those of their endpoints and a token is 10^12 cycles. The fee, the maximal memo length and the maximal number of blocks per request in icrc1_metadata (and icrc1_fee) are those charged in every block, accepted in every request and used by icrc3_get_blocks; the index principal in the metadata (as text and as blob) and that of icrc106_get_index_principal are the same, and change only as an upgrade says.",
 HIST+"; and for all principals.",
 "It relates what is advertised to every request that is ever accepted; the text form has to be right for all principals.",
 [M+": icrc1_metadata, icrc1_fee, icrc106_get_index_principal, post_upgrade"])
p("C71","Upgrades are invisible",
 "A history and the same history without its upgrades give the same answers to everything that is not an upgrade, and lead to the same log, balances, allowances, deduplication data, certificate, outstanding calls and cycles; no request or callback depends on the configuration or changes it.",
 HIST+"; and for all continuations with any number of upgrades anywhere in them.",
 "It compares every history with another one; a test compares single upgrades at chosen moments.",
 [M+": post_upgrade", "cycles-ledger/src/storage.rs: Cache, CACHE, read_state, mutate_state"])
p("C72","Every refund repays a burn, and no burn is repaid twice",
 "The refunds in the log (all fee-less mints after the initial balances) can be matched one by one, without exception, with distinct earlier burns from the very accounts they credit; none of those is a burn whose call is outstanding. A failed withdrawal is repaid exactly less one fee; a failed canister creation is repaid at most that, if the cycles minting canister does not claim more than it was sent. Hence no account ever gets back, or has under way, more than was burned from it.",
 HIST+"; and for all accounts.",
 "Double refunds would need rare interleavings of callbacks; the matching is over the whole log of any history.",
 ["cycles-ledger/src/storage.rs: withdraw, create_canister, reimburse, reimburse_approval"])
p("C73","Strangers cannot spoil a request",
 "Let S be principals that neither own an account, nor can spend from it, nor have a burn from it under way. Whatever they do, in whatever order, and whatever answers arrive meanwhile: they remain such strangers, the account's balance does not fall, and a transfer, approval, withdrawal or canister creation the owner could have made before is still accepted (as long as created_at_time is in the window, the approval has not expired and names no expected_allowance, no transaction of the log has the same hash without being the same, and a transfer of the account to itself does not overflow).",
 HIST+"; for all accounts, all sets of strangers and all continuations made of their requests, callbacks, lost callbacks and upgrades.",
 "It quantifies over everything any number of attackers can do.",
 ["cycles-ledger/src/storage.rs: process_transaction, check_allowance, use_allowance, reimburse_approval, check_duplicate, prune"])
p("C74","Balances do not depend on the order of the transactions",
 "All balances and the total supply are sums over the transactions in the log, taken in any order: two ledgers that recorded the same transactions in different orders agree on every balance and on the supply.",
 "all pairs of reachable systems whose logs hold the same transactions up to order; all accounts",
 "All pairs of histories and all permutations.",
 ["cycles-ledger/src/storage.rs: process_transaction, credit, debit"])
p("C75","The reported sizes are right and the self-check never fires",
 "http_request answers /metrics and /logs, with or without a query string, and nothing else. Each gauge shows the nearest f64 (the exact number below 2^53) to the number it is named after: blocks in the log, supply recomputed from the log, accounts with a stored balance, approvals, approvals with an expiry; the two deduplication gauges agree and lie between the number of blocks with a created_at_time still in the window and the number of all blocks with one. The check after pruning never reports more queue entries than approvals.",
 "every reachable state; every URL", "All states, and all numbers up to 2^128 for the rounding.",
 ["cycles-ledger/src/main.rs: http_request, encode_state_metrics","cycles-ledger/src/storage.rs: prune, check_invariants"])
p("C76","The depositor neither loses nor creates cycles",
 "A call of the depositor takes exactly the requested cycles from it or, if they are not there, is refused without effect. The ledger executes the call once: either a new block of its own credits the requested account with the cycles less the fee and the requested memo, and that is what the depositor answers; or the ledger is unchanged, all cycles come back and the depositor traps. The cycles of depositor and ledger together are unchanged by all of this.",
 "every history of the depositor and a reachable ledger with any other events in between", "Any number of calls in flight, interleaved with anything else.",
 ["depositor/src/main.rs: deposit","cycles-ledger/src/main.rs: deposit"])
p("C77","The ledger with the fake CMC",
 "The fake CMC returns exactly what the ledger takes as returned unless it was told to claim more than it was sent or its own canister creation was rejected. Without these two the ledger stays solvent after every history. A canister creation rejected inside the CMC, after it accepted the cycles, makes the ledger insolvent without anybody reporting a wrong number.",
 "every reachable state, every outstanding call, every state of the fake CMC, every sequence of answers of the management canister", "All amounts, states and sequences of answers.",
 ["fake-cmc/src/main.rs: create_canister","cycles-ledger/src/storage.rs: create_canister"])
p("C78","The configuration survives in stable memory",
 "What Config writes to stable memory is read back as the same configuration; different configurations are stored differently; a configuration stored without the optional fields, with unknown fields or in another field order is still read. After every history the configuration is the installed one with exactly the changes requested by the upgrades, in order.",
 "every configuration of 64-bit limit, 128-bit amounts and fewer than 2^64 balances; every history", "The test uses one configuration without index canister and without balances.",
 ["cycles-ledger/src/config.rs: impl Storable for Config","cycles-ledger/src/storage.rs: mutate_config","cycles-ledger/src/main.rs: post_upgrade"])
p("C79","The reference ledger of the tests is right",
 "CyclesLedgerInMemory, against which the tests compare the ledger, executes without error or panic every call that the ledger accepts, and after every history agrees with it on the total supply, all balances and all allowances, provided that no granted allowance expires, amounts fit 128 bits, nobody spends on behalf of their own account, outgoing calls succeed, and only the calls the reference ledger knows are made. Outside these limits the two differ.",
 "every history of deposits, transfers, approvals, transfers on behalf, withdrawals, answers, lost answers and upgrades, after any installation", "The test runs ten generated calls.",
 ["cycles-ledger/tests/gen.rs: impl IsCyclesLedger for CyclesLedgerInMemory","cycles-ledger/tests/tests.rs: check_ledger_state","cycles-ledger/src/storage.rs: process_transaction"])
p("C80","The properties hold of the real hash",
 "SHA-256 is computed as FIPS 180-4 defines it, for every message; it pads messages unambiguously (a one bit, as few zeros as possible, the length in the last eight bytes) and takes in every block of the padded message; the SLEB128 and LEB128 encodings used in the representation-independent hash are decodable, also when mixed, and a reader of signed numbers reads the number that was written. Hence everything proved for arbitrary primitives holds with them; in particular a client that accepts a certified log knows balances, supply and allowances, whichever way integers are encoded, unless one of the strings it hashed collides under SHA-256 with one that the ledger hashed.",
 "all messages; all numbers; every reachable state of the ledger with these primitives", "All messages and all logs; the tests hash a few values.",
 ["cycles-ledger/src/storage.rs: Transaction::hash, Block::hash"])
p("C81","Which answer a request gets",
 "Every request is answered by the first applicable rule of a fixed list (e.g. for transfers: amount beyond 128 bits, fee beyond 128 bits, duplicate, management canister, wrong fee, overflow with fee, expired approval, insufficient allowance, insufficient funds, self-transfer overflow, memo too long (trap), too old, in the future), and carried out if no rule applies. The list leaves exactly one answer; only for a request that is too old and was executed before, the ledger may or may not remember the duplicate (and which canister a duplicate creation names is C98).",
 "every reachable state and every request, however many faults it has", "All combinations of faults of a request and all states.",
 ["cycles-ledger/src/main.rs: execute_transfer, icrc2_approve, execute_withdraw, execute_create_canister, deposit","cycles-ledger/src/storage.rs: transfer, approve, withdraw, create_canister, check_duplicate, process_transaction"])
p("C82","The log decides",
 "Two ledgers with the same log, clock and outstanding calls answer the queries for balances, supply, allowances, listings of allowances and blocks alike, accept the same requests, append the same blocks, make the same calls and keep doing so; whatever else is stored (indexes, queues, caches, hash tables, certificates) makes no difference, except by a hash collision, for an approval with expected_allowance at the very instant an approval expires, or when cleaning up a failed call traps.",
 "all pairs of reachable systems with the same log; all messages and all continuations", "All pairs of histories and all continuations.",
 ["cycles-ledger/src/storage.rs: State, process_transaction, check_allowance, prune, get_allowances, get_blocks"])
p("C83","A revoked allowance stays revoked",
 "Unless the owner approves again, what a spender may take from an account, its allowance plus the cycles of its calls under way, only shrinks: by amount and fee with every transfer, by at least the fee with every withdrawal or canister creation, as long as the cycles minting canister does not claim to return more than it was sent. An approval of zero takes the allowance away; if no call of the spender is under way then, it can never again take anything, whatever anybody else does.",
 "every reachable state, pair of accounts and continuation without a further approval of the pair by the owner", "All continuations with any number of callers, answers and failures.",
 ["cycles-ledger/src/storage.rs: approve, record_approval, use_allowance, reimburse_approval"])
p("C84","The owner can always leave",
 "Whatever happened before, the owner of an account can withdraw any positive amount the balance covers together with the fee, in particular everything but one fee, to any canister; can transfer it to any other account; and can revoke any allowance for one fee.",
 "every reachable state, account, receiver and amount; unless transaction hashes clash", "All histories before and all amounts.",
 ["cycles-ledger/src/storage.rs: withdraw, transfer, approve"])
p("C85","The log raises no false alarm",
 "The self-checks of the ledger never complain: unless two transactions of the log have the same hash, the only high-priority message is the one about an approval of nothing, and it is written exactly for accepted approvals of zero where nothing was stored. An accepted request writes at most one further message, with the exact number (1 to 100) of approvals that had expired and that it removed. Refunds prune more than once: every message that does not trap reports exactly the passes it makes (none, one, two or three), each of a hundred expired approvals or all there are. /logs shows the last thousand messages of each priority since the last upgrade; a trapped request leaves none.",
 "every reachable state, message and history, upgrades included", "That an alarm is never raised is a statement about all histories.",
 ["cycles-ledger/src/storage.rs: check_invariants, prune, prune_approvals, record_approval, check_duplicate","cycles-ledger/src/logs.rs","cycles-ledger/src/main.rs: http_request"])
p("C86","The hash of a block survived the change of its encoding",
 "If the representation-independent hash treats 64-bit integers and naturals alike, the hash of every block is the hash of the value its serialization reads as (the way it was computed before FI-1247), and the hash that identifies a transaction for deduplication is the hash of the transaction as published. If it does not, some transaction is hashed differently, or SHA-256 collides.",
 "every block, transaction and hash function", "Infinite domain; the proptest hashes 2048 random blocks.",
 ["cycles-ledger/src/storage.rs: Block::hash, Transaction::hash, test_block_ser_to_value_and_hash","cycles-ledger/src/lib.rs: ciborium_to_generic_value"])
p("C87","Blocks follow the ICRC-3 schema",
 "The values that blocks are published as are exactly the values of the ICRC-3 schema with the items of ICRC-1 and ICRC-2 transactions: which items are required, optional and allowed for each operation, of which type and width. Every value of the schema is read as the block it is the value of.",
 "every block with u64/u128 fields; every value", "Infinite domain; the proptest validates 2048 random blocks and never the converse.",
 ["cycles-ledger/src/storage.rs: Block::to_value, Transaction::to_value, Block::from_value, test_block_schema"])
p("C88","Storage is paid for",
 "Every block that is added costs the fee of 100000000 cycles, which the ledger keeps: the fees of the blocks added, the supply and the cycles under way are never more than the supply at the start and the cycles deposited since. The accounts and allowances stored are together no more than the blocks, the expiries queued no more than the allowances, the transactions remembered no more than the blocks. (The answers of the cycles minting canister are assumed honest, and the IC not to return more cycles than were sent.)",
 "every reachable state, every history", "Tests check single fees; that no sequence of requests, refunds included, adds blocks or entries without paying is a statement about all histories.",
 ["cycles-ledger/src/storage.rs: deposit, transfer, approve, reimburse, reimburse_approval, process_block", "cycles-ledger/src/config.rs: FEE"])
p("C89","A duplicate is a repetition",
 "A caller who is told Duplicate has made the very same call before: the same endpoint, caller and arguments, and the block named was recorded for it.",
 "every history, every request, unless two transactions have the same hash", "Needs injectivity from calls to transactions over all arguments and endpoints.",
 ["cycles-ledger/src/storage.rs: check_duplicate, withdraw, create_canister, approve", "cycles-ledger/src/main.rs: icrc2_approve", "INTERFACE_SPECIFICATION.md: create_canister"])
p("C90","The ledger is a list of blocks",
 "The ledger behaves like a reference ledger whose state is only the list of blocks, the clock, the outstanding calls, its cycles and two settings, and which reads balances, supply and allowances off the list each time: whatever happens from the installation on, the reference ledger can give the same answers in the same order, and then shows the same list, balances, supply, allowances, calls, cycles and settings. The reference ledger leaves open only whether expired allowances and outdated transactions are remembered, and what is a duplicate when hashes collide; where none of these matters, each message has exactly one outcome.",
 "every installation and every history of messages, answers, lost answers and upgrades", "Refinement of a specification by the whole program over all histories; the tests compare ten generated calls with a reference that knows no errors.",
 ["cycles-ledger/src/storage.rs: State, deposit, transfer, approve, withdraw, create_canister, process_transaction, reimburse, prune","cycles-ledger/src/main.rs: init, post_upgrade, deposit, execute_transfer, icrc2_approve, execute_withdraw, execute_create_canister"])
p("C91","A penalty takes exactly the fee",
 "penalize, which no endpoint calls yet, is safe to call whenever: it never traps; it leaves an account with less than the fee alone; from any other it burns exactly the fee, in one block that is chained to the last one and certified, and returns the index and hash of that block; balances, supply and allowances are again those of the log, and no other account is affected.",
 "every reachable state and account", "No test and no endpoint executes this function.",
 ["cycles-ledger/src/storage.rs: penalize"])
p("C92","The certificate is readable",
 "The bytes of hash_tree that icrc3_get_tip_certificate serves are one CBOR item in the hash tree format of the IC specification and can be read as one tree only: one with the certified root, which holds under last_block_index the index and under last_block_hash the hash of the last block. They are at most 88 bytes. Before the first block the tree is empty.",
 "every reachable state with less than 2^64 blocks, every certificate of the subnet", "The test reads one certificate of one log.",
 ["cycles-ledger/src/storage.rs: get_tip_certificate, populate_last_block_hash_and_hash_tree","cycles-ledger/src/main.rs: icrc3_get_tip_certificate"])
p("C93","Followers of the log are not misled",
 "A client that keeps a copy of the log and extends it by asking icrc3_get_blocks for what comes next always holds a beginning of the log, whatever happens to the ledger in between and whatever lengths it asks for; every answer brings the blocks asked for up to the advertised limit; and once the ledger rests it has the whole log after finitely many questions.",
 "every reachable state, every interleaving of questions with update calls, callbacks, upgrades and time advances (for progress: log length plus limit below 2^64)", "Tests ask a log that does not grow meanwhile.",
 ["cycles-ledger/src/storage.rs: get_blocks","cycles-ledger/src/main.rs: icrc3_get_blocks"])
p("C94","Repeating a request is safe",
 "A request with created_at_time may be repeated by a client that does not know whether it arrived. All answers that name a block, positive, Duplicate, failed with the block of the burn, or given after an outgoing call, name the same block, and this block records exactly the request, then and for ever after. At most one of the repetitions has any effect. And once the time of the request has run out (24 hours and a minute), what the log says about it is final.",
 "every reachable state, every history of update calls, callbacks, upgrades and time advances, every request; transactions that collide under SHA-256 aside", "Tests repeat one request once; here any number of repetitions, at any time, with anything in between.",
 ["cycles-ledger/src/storage.rs: process_transaction, prune_transactions, withdraw, create_canister","cycles-ledger/src/main.rs: icrc1_transfer, icrc2_transfer_from, icrc2_approve, withdraw, withdraw_from, create_canister, create_canister_from"])
p("C95","Every withdrawal has exactly one fate",
 "Every burn in the log has exactly one of five fates: its outgoing call is outstanding, was answered well, was answered badly, its callback was lost, or it could not be sent in the first place. None is forgotten and none is settled twice.",
 "every install argument and every finite history", "Tests follow one withdrawal at a time.",
 ["cycles-ledger/src/storage.rs: withdraw, create_canister, reimburse","cycles-ledger/src/main.rs: withdraw, withdraw_from, create_canister, create_canister_from"])
p("C96","Duplicate means that the withdrawal is done",
 "A client that repeats a withdrawal (or canister creation) and is told that it is a duplicate of block i can take it that the cycles of block i have been sent or are being sent.",
 "every history and every burn request", "Requires a failed call, and then a repetition of its request.",
 ["cycles-ledger/src/storage.rs: process_transaction, reimburse, withdraw"])
p("C97","Blocks are small",
 "Every block of the log takes at most 361 bytes of stable memory, which the longest transfer on behalf of another attains; one message adds at most three blocks and so at most 1083 bytes; and every byte of the log has cost at least 100000000/361, about 277000, cycles, taken from the supply or deposited.",
 "every reachable state, every message (for the price: every history whose answers are honest and give nothing away)", "Tests never look at the size of what is stored, and the longest block needs seven fields at their limits at once.",
 ["cycles-ledger/src/storage.rs: Block, Transaction, Operation, Cbor, emit_block, reimburse","cycles-ledger/src/compact_account.rs","cycles-ledger/src/memo.rs: validate_memo"])
p("C98","A duplicate creation names the canister exactly if there is one",
 "A caller who repeats a canister creation and is told that it is a duplicate of block i is told a canister if and only if the cycles minting canister answered the call of block i with a new canister, and then it is that canister. So for creations, unlike withdrawals (C96), Duplicate tells whether the first attempt succeeded.",
 "every installation, every history, every repeated creation; transactions that collide under SHA-256 aside", "Tests repeat one successful and no failed, lost or outstanding creation.",
 ["cycles-ledger/src/storage.rs: create_canister, check_duplicate, prune_transactions"])
p("C99","The calls the tests generate are valid",
 "arb_cycles_ledger_call_state never panics, whatever it draws, and the ledger accepts every call it draws and agrees with the reference ledger after it. (Refuted: it panics exactly if the depositor has left some cycles but less than the fee, if somebody with funds has granted an allowance below the fee, or if nobody has funds; the ledger refuses, of what is drawn, exactly the deposits of just the fee, the withdrawals of nothing, and the repetitions of a call with the same created_at_time. What is drawn is always executed by the reference ledger, and the two agree after every call, answer and upgrade.)",
 "every sequence of draws, from every number of cycles of 128 bits, at every time; every ledger installed without balances, as long as no generated allowance expires", "The generator is random: its own test makes ten draws, a few hundred times, and meets none of the bad states.",
 ["cycles-ledger/tests/gen.rs: arb_cycles_ledger_call_state, arb_cycles_ledger_call_state_from, test","cycles-ledger/tests/tests.rs: test_upgrade_preserves_state, check_ledger_state"])
p("C100","Nothing is lost in stable memory",
 "The state that the next version of the canister builds from the bytes in stable memory is the state that was left: the eight memories do not overlap, every balance, allowance, date of expiry, time and index is stored in full, every key has bytes of its own, every block and the configuration are read as they were written. The contents are at most 741 bytes for each block of the log (78 for an account, 150 for an allowance, 135 more if it expires, 87 for a request that may not be repeated, 8 and at most 361 for the block), so that every 741 bytes have cost at least 100000000 cycles.",
 "every configuration whose numbers fit their types, every history, as long as the log has fewer than 2^64 blocks (for the price: every history whose answers are honest and give nothing away)", "Tests upgrade ledgers with a few small amounts and owners of one or two lengths; an amount that does not fit or a key that is confused with another needs unusual values.",
 ["cycles-ledger/src/storage.rs: BLOCK_LOG_INDEX_MEMORY_ID … CONFIG_MEMORY_ID, AccountKey, BlockLog, Balances, TransactionHashes, TransactionTimeStamps, ConfigCell, Approvals, ExpirationQueue, STATE, Cbor, compute_total_supply"])
p("C101","The pages /metrics and /logs can be read",
 "The page /metrics, read by a reader of the Prometheus text format, has exactly eleven samples with different names, all with the time in milliseconds (up to the year 2262). The numbers are the stable memory in pages and bytes, the cycles held, and the ledger's blocks, accounts, approvals, expiring approvals and total supply; numbers below 2^53 are exact, larger ones differ by less than about one part in 2^52 and have a nearest f64 in common with the true number. The page /logs, read by a JSON reader, is an object with a list of entries: the messages about approvals of nothing and about one to a hundred pruned approvals, with file and line; without an upgrade its times are those of the last thousand messages of either priority. It has less than 310 000 characters.",
 "every reachable state, every amount of memory and cycles, every history without a hash collision","Tests fetch the pages of small ledgers and look for one or two lines; numbers beyond 2^53, full buffers and characters that need escaping never occur.",
 ["cycles-ledger/src/main.rs: http_request, encode_metrics, encode_state_metrics","cycles-ledger/src/logs.rs: Log, LogEntry, Priority, P0, P1"])
p("C102","What callers write is what the ledger reads",
 "However a caller writes the argument of a call as a Candid message (with its own table of types, which may be recursive and contain functions and services, leaving options out or writing them bare, with fields the ledger does not know and further arguments), the ledger reads exactly that argument; this holds for the eight update calls, the queries with arguments, installation and upgrades, and every argument of an update call can be written. Values of any types make a message, and bytes are a message in one way only; the ledger reads the messages, in whatever length their numbers are written, and refuses all other bytes. What the ledger reads for an update call was written: amounts, accounts and principals under their names and in their types, options if they are taken to be present. Without an amount of type nat nothing is executed, and a subaccount of fewer than 32 bytes is refused. But options of another type than expected are ignored: a created_at_time that is not a nat64 is taken as absent, so that the transfer is not protected against repetition, and an upgrade argument that is not a variant is taken as none.",
 "every message, every argument, every way to write it", "Tests call through the same library that the ledger decodes with, so all their messages have the same types and order of fields.",
 ["cycles-ledger/src/endpoints.rs: LedgerArgs, UpgradeArgs, DepositArg, WithdrawArgs, WithdrawFromArgs, CreateCanisterArgs, CreateCanisterFromArgs, GetBlocksArg","cycles-ledger/src/config.rs: Config","cycles-ledger/src/main.rs: init, post_upgrade, the arguments of the endpoints","cycles-ledger/cycles-ledger.did: lines 1-327"])
p("C103","From bytes to bytes: the caller reads the result of what the caller wrote",
 "An update call written as cycles-ledger.did says (in any way that C102 allows) executes exactly the message meant; if the call is answered, the answer can be sent as a Candid message of the type given for the method, and a client of that interface can take the bytes for one result only, which is the result of the message. Nothing is answered just if the message traps or waits for another canister; the answer that comes later is one of the method called. Every time in an error is the time of the execution and fits 64 bits. Every message of a caller can be sent. Calls with any bytes whatever lead only to reachable states, and one that cannot be read changes nothing; in particular if its bytes are not a Candid message. Queries of balance, supply, fee, allowance, allowances and index canister are answered, from bytes to bytes, with the values of the block log and the configuration.",
 "every reachable state, every message of bytes, every result and every way to read it", "One test compares the exported interface with cycles-ledger.did, which says nothing about values; the others read replies with the library that wrote them.",
 ["cycles-ledger/src/main.rs: the update and query endpoints","cycles-ledger/src/endpoints.rs: WithdrawError, WithdrawFromError, CreateCanisterError, CreateCanisterFromError, CreateCanisterSuccess, DepositResult","cycles-ledger/cycles-ledger.did: lines 15-393"])
p("C104","What other canisters are sent, and how their answers are read",
 "Every call of the ledger can be sent as a Candid message for the method of the callee, and the message says that call and no other. A caller who asks in bytes for a withdrawal or a canister and has to wait has made the ledger send exactly one call with exactly the amount asked for: deposit_cycles of the management canister with canister_id the canister named, or create_canister of the CMC with the settings and subnet the caller gave and controllers as in C29. Whatever way the CMC writes its answer, it is read as meant, and a canister is taken to be created, cycles to be returned or lost only if the answer says so; if it says that a canister was created, the caller is answered with the block of the burn and that canister. An answer of a case the ledger does not know, and anything else that cannot be read, is taken for a failed call, i.e. for a full refund, even if the cycles were kept. Whatever bytes other canisters answer, only reachable states are reached.",
 "every reachable state, every call and every answer, every way to write them", "Tests use the fake CMC only, which shares its Rust types with the ledger; no test writes an answer in another way or with another case.",
 ["cycles-ledger/src/storage.rs: execute_withdraw, execute_create_canister","cycles-ledger/src/endpoints.rs: CmcCreateCanisterArgs, SubnetSelection, CmcCreateCanisterError","fake-cmc/fake-cmc.did: lines 1-40"])
p("C105","The blocks a client downloads are those of the ledger, byte for byte",
 "Every answer of icrc3_get_blocks can be sent as a Candid message in which the types are as declared in cycles-ledger.did (Value is recursive, the callback is a function), and there is such a table of types. Bytes can be taken for one length of the log and one list of numbered blocks only, whatever their table of types. A client who asks in bytes, in any way to write the ranges, and looks for the fields by name in the bytes that come back finds the length of the log and exactly the requested blocks with their numbers, up to the configured limit (ranges of 2^64 and more are skipped). A client who asks for everything, replays and verifies what it found in the bytes against the certified hash, gets every balance, the supply and every spendable allowance.",
 "every state, every list of ranges and every way to write it, every table of types, every log within the limit of one request","Tests read blocks with the library that wrote them and compare a few fields of a few blocks; none reads the recursive type with another table.",
 ["cycles-ledger/src/endpoints.rs: BlockWithId, ArchivedBlocks, GetBlocksResult, GetBlocksFn","cycles-ledger/src/storage.rs: get_blocks","cycles-ledger/src/main.rs: icrc3_get_blocks","cycles-ledger/cycles-ledger.did: lines 125-169"])
p("C106","What the ledger says about itself can be read, byte for byte",
 "However a caller writes the argument, the answers of the queries for name, symbol, decimals, minting account, standards, block types, metadata, certificate and archives can be sent as Candid messages, and however they are sent a client of cycles-ledger.did takes them for one value only: the name Trillion Cycles, 12 decimals, no minting account, no archives, the six standards with the URLs of their texts, metadata without repeated names whose limits are those in force and which names the index canister if there is one, the certificate with a tree that holds index and hash of the last block under the certified data. A request for /metrics or /logs, with or without parameters and in any encoding of the URL, is answered with status 200, the right type, the length of the body in bytes and the page in UTF-8; any other path with 404. Bytes that are no Candid message are answered by none of the queries. A client with nothing but the bytes of the answers of icrc3_get_blocks and icrc3_get_tip_certificate and the certified data can verify the log and compute every balance, the supply and every allowance.",
 "every state (certificate and audit: every reachable state), every way to write request and answer, every URL","Tests read the answers with the library that wrote them; no test fetches a page with parameters or with a URL that is not ASCII, and none does the audit from bytes.",
 ["cycles-ledger/src/main.rs: icrc1_name, icrc1_symbol, icrc1_decimals, icrc1_minting_account, supported_standards, icrc3_supported_block_types, icrc1_metadata, http_request, icrc3_get_tip_certificate, icrc3_get_archives","cycles-ledger/src/endpoints.rs: SupportedStandard, SupportedBlockType, DataCertificate, GetArchivesArgs, GetArchivesResult","cycles-ledger/cycles-ledger.did: lines 85-86, 135-177, 304-322, 368-388"])
p("C107","What has expired goes away",
 "Take any time T in the past of a state and any further events, of whatever kind. If some approvals that had expired by T are still stored at the end, then at the start there were that many and a hundred more for every request accepted since; likewise entries for deduplication out of the window at T, with a hundred thousand. So none is left once a request has been accepted for every hundred (hundred thousand) of them, and nothing that has expired ever comes back.",
 "every reachable state, every T up to its time, every list of further events","The removal of a backlog larger than one pruning step takes many thousand requests and hours of simulated time; events in between (refunds, upgrades, rejected requests) are not combined with it in tests.",
 ["cycles-ledger/src/storage.rs: prune_approvals, prune_transactions, prune, record_approval, reimburse_approval"])
p("C108","A life in bytes",
 "Whatever bytes the canister is installed with, and whatever bytes reach it later as calls, as responses of other canisters or as arguments of upgrades: if it is installed at all, its states are those that typed messages lead to, one message for each thing that arrives (for a call the message that is written, of the same caller, for a response a callback of the call it responds to, with the cycles that come back), so everything proved about these holds; every reply can be sent in the type of its method. It is installed exactly by arguments that say Init with balances below 2^128 in total, and then the limit, the index canister and every balance it starts with are written in the argument. Bytes that are no Candid message neither install nor upgrade anything. An upgrade never changes anything but the configuration, whatever its bytes; limit and index become what is written, are left alone if nothing is written, and change only if the argument says so; Init is refused. What the ledger reads in the argument of a query or in the settings of a canister to be created (the controllers above all) is written there.",
 "every sequence of byte strings, every way to write the arguments","Tests install with a few arguments written by the library that reads them; arguments that are malformed, of another type or for another endpoint are not tried.",
 ["cycles-ledger/src/main.rs: init, post_upgrade, the endpoints","cycles-ledger/src/endpoints.rs: LedgerArgs, UpgradeArgs, ChangeIndexId, CmcCreateCanisterArgs","cycles-ledger/src/config.rs: Config"])
p("C109","Bystanders",
 "A message changes no balance except those of the accounts it is about (the account charged and the one credited; for the answer of another canister the account that the cycles came from), and no allowance except the one it is about (that of the caller on the account they name, or the one they set), whether it succeeds, is refused, traps or gives cycles back. Over a whole history the balance of an account is the same as long as no message is about it, and so is an allowance until it expires.",
 "every reachable state, message, account, spender and history","Tests look at the accounts they moved cycles between; that nothing else moved, and that trimming, refunds and upgrades touch nobody else, needs all accounts in all states.",
 ["cycles-ledger/src/storage.rs: transfer, approve, deposit, withdraw, create_canister, reimburse, reimburse_approval, prune, credit, debit, record_approval, use_allowance"])
p("C110","Independent requests",
 "Whether a request is accepted depends on nothing that others do. After any history that is neither about the account it charges nor about the allowance it uses, it is accepted exactly if it would have been accepted at that time without this history. Two requests that charge different accounts, neither paying into the account that the other charges, can come in either order: both are accepted or refused as they would be alone, and afterwards the log holds the same transactions and every balance, every allowance and the supply is the same, also if both pay into the same third account.",
 "every reachable state, every history, every pair of requests (whose outgoing call, if any, can be sent; no collision of transaction hashes; an approval with an expected allowance not at the very instant at which this allowance expires)","The claim quantifies over everything that can happen between two messages; the log, the pruning, the deduplication and the accounts all change in between.",
 ["cycles-ledger/src/storage.rs: transfer, approve, withdraw, create_canister, process_transaction, check_transaction, prune, deduplicate, credit, debit"])
p("C111","Saying more says nothing",
 "Take any call or query and leave out, of the record in its argument, fields that the method does not know and optional fields that are null or hold something of another type (a number where bytes are asked for, a nat where a nat64 is asked for), and any further arguments: it has the same effect and gets the same reply, whether it succeeds or not. Fields that are not optional are needed: without one of them a call traps and a query is not answered.",
 "every state, every call and every query with a record as its argument, every choice of such fields","Tests write arguments with the Rust types that read them, so that no argument ever has a field too many, a field of another type or a field too few.",
 ["cycles-ledger/src/endpoints.rs: DepositArg, WithdrawArgs, WithdrawFromArgs, CreateCanisterArgs, CreateCanisterFromArgs","cycles-ledger/src/main.rs: the endpoints","cycles-ledger/cycles-ledger.did: the argument types"])
p("C112","Requests are read by coercion",
 "For every byte string, the argument that an update call, a query, an installation or an upgrade takes is exactly what the Candid specification says it is: the bytes are a message, the type sent is a subtype of the type in cycles-ledger.did, and the argument is the value that the value sent is coerced to (fields found by their labels, missing or ill-typed optional fields null, options added where they are left out, variants matched by label, further fields and arguments ignored). If there is no such value, or it is none of the arguments (a subaccount that is not of 32 bytes, an initial balance above 2^128), a call and an upgrade trap and nothing is installed. A call asks for one thing only. The replies of the CMC are read in the same way; what cannot be read is taken for a failed call.",
 "every byte string, every method","Tests write arguments with the library that reads them; the rules of subtyping and coercion are about all types a client may send and all values of them.",
 ["cycles-ledger/cycles-ledger.did: the argument types","cycles-ledger/src/endpoints.rs: the argument types, LedgerArgs, UpgradeArgs, CmcCreateCanisterArgs","cycles-ledger/src/main.rs: the endpoints, init, post_upgrade","cycles-ledger/src/config.rs: Config"])
p("C113","What the test build shows",
 "The two queries of the test build show the deduplication as it is, however the argument is written and the answer is sent. get_transaction_hashes lists blocks with a created_at_time, each once and under the hash of its transaction; get_transaction_timestamps lists blocks with their created_at_time, by increasing time and each once; both list the same blocks, and none whose time is still in the window (a day and the permitted drift) is missing. If fewer than 100000 are listed when a request is accepted, all that are listed afterwards are in the window.",
 "every reachable state without a collision of transaction hashes, every way to write request and answer","The tests of pruning and deduplication are stated with these queries, so they cannot tell whether the queries show what is there; they look at a few blocks.",
 ["cycles-ledger/src/main.rs: get_transaction_hashes, get_transaction_timestamps","cycles-ledger/src/storage.rs: transaction_hashes, transaction_timestamps, prune_transactions"])
p("C114","The depositor in bytes",
 "The depositor reads its arguments, and the answers of the ledger, as their bytes say at the types of depositor.did; what it passes on is read by the ledger as account and memo that were asked for, and the ledger's answer is read back as it was given, however both are encoded. A history in bytes leads where the typed history leads, with the calls whose bytes cannot be read left out. No cycles appear or vanish between depositor and ledger. If the depositor answers, the caller can take the answer for one block index and balance only, and this block credits the account written in a call made to the depositor with the cycles written there less the fee; the depositor never traps on an answer of the ledger, and if the ledger rejected the call, the cycles are back.",
 "every byte string a caller may send, every encoder of the depositor and of the ledger, every history","The tests call the depositor with one encoder on both sides and well-formed arguments; no test sends it bytes of another type or looks at what is on the way between the canisters.",
 ["depositor/src/main.rs: init, deposit","depositor/src/endpoints.rs: InitArg, DepositArg","depositor/depositor.did","cycles-ledger/src/endpoints.rs: DepositArg, DepositResult","cycles-ledger/src/main.rs: deposit"])
p("C115","The fake CMC in bytes",
 "After every history of calls, in bytes, the fake CMC does what they say at the types of fake-cmc.did. A failure it was told to answer with is the answer, with its texts, to the next request with enough cycles and to no other; a later order replaces an earlier one, and requests with too few cycles or that cannot be read use none up and keep no cycles. Without an order the answer is the first canister that the management canister creates, which is asked for the settings in the request. last_create_canister_args tells what the last request with enough cycles asked for, and traps if there was none. With the ledger: any bytes of a creation that the ledger sends are read as what the ledger asks for, and any bytes of the answer are taken by the ledger as what the fake CMC says; the cycles that the ledger takes as returned are those returned, unless the fake CMC was told to claim more than it was sent or rejects the call since the management canister rejected its own.",
 "every history of byte strings, every reachable state of the ledger, every way to write request and answer, every sequence of answers of the management canister","The integration tests of canister creation trust the fake CMC; it has no tests of its own, and orders, requests with too few cycles and requests that cannot be read are never combined.",
 ["fake-cmc/src/main.rs: create_canister, fail_next_create_canister_with, last_create_canister_args, get_icp_xdr_conversion_rate","fake-cmc/src/lib.rs: State, IcpXdrConversionRateResponse","fake-cmc/fake-cmc.did","cycles-ledger/src/storage.rs: create_canister"])
p("C116","Ledger and fake CMC together in bytes",
 "In the set-up of the integration tests, where the creations of the ledger go to the fake CMC, with calls, orders and answers in bytes that arrive in any order: the cycles of the ledger, those carried by its outstanding calls and those accepted by the fake CMC are together changed only by an executed deposit, by the cycles attached, and by a withdrawal that the management canister does not reject, by those it carries. If the fake CMC is never told to claim a refund above the least number of cycles it takes, and its creations are not rejected, the cycles of the ledger cover the total supply at all times; without either of the two conditions they need not. Whoever is told by the ledger that a canister was created has got one: the management canister created just this one for the fake CMC, which took all cycles of the call for it, and the block told is that of the burn. Conversely the caller is told of the canister once it is created. When the fake CMC refuses a request of the owner of an account, for too few cycles or as ordered, the account gets what it claims to return less the fee, the caller is told of the blocks, and the claim is true unless it is above the cycles of the call. When it keeps the cycles as ordered, none come back, the ledger does not change, and the caller is told of the block of the burn alone. No call of the ledger can get stuck: from every state, if the calls arrive and are answered, with at most two events for each, nothing is outstanding in the end.",
 "every installation of the ledger, every history of byte strings and interleaving of calls, every encoder of the ledger and of the fake CMC, every sequence of answers of the management canister","The integration tests run one creation at a time and compare balances afterwards; they never have several creations with the fake CMC at once, nor count the cycles on the way.",
 ["cycles-ledger/tests/tests.rs: install_fake_cmc, TestEnv::setup","fake-cmc/src/main.rs: create_canister, fail_next_create_canister_with","cycles-ledger/src/storage.rs: create_canister, withdraw","cycles-ledger/src/main.rs: create_canister, create_canister_from"])
with open(os.path.join(os.path.dirname(__file__),"..","properties.jsonl"),"w") as f:
    for x in P: f.write(json.dumps(x)+"\n")
print(len(P))
