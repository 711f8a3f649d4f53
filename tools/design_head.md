# Formal model of dfinity/cycles-ledger — design

Lean 4.33.0, project in `/verif/lean`, no Mathlib needed. The code in `/repo` is
read as text; the theorems are about the Lean model only. Regenerate this file
with `python3 tools/design.py` (it appends the axiom table to `tools/design_head.md`).

## 1. What is modelled

| Rust | Lean module | notes |
|---|---|---|
| constants, `Config`, `Account`, `Principal`, `Operation`, `Transaction`, `Block`, error enums, arguments | `Model/Types` | error *message texts* dropped, error codes kept |
| `ic_stable_structures::StableBTreeMap` | `Base/Order`, `Base/SMap` | strictly sorted association list; order of principals is (length, bytes) |
| `StableLog` | `List Block` | append at the end |
| `lib.rs` value conversions, `compact_account.rs`, `Transaction::to_value`, `Block::to_value`, `memo.rs` | `Model/Value` | at the level of generic values; memo at byte level |
| `from_value`, serde of the flattened transaction and block | `Model/Decode` | |
| `Cbor<Block>`: the bytes of a block in stable memory (`ciborium`) | `Model/Wire` | via `ciborium::Value`; shortest heads |
| representation-independent hash, `Transaction::hash`, `Block::hash` | `Model/Hash` | SHA-256 is an arbitrary function to 32 bytes (`class Crypto`); the real one is the instance `Model/Sha256` |
| hash tree, certified data, `icrc3_get_tip_certificate` | `Model/Cert`, `Model/Certificate` | the two-label `RbTree`; the CBOR of the tree |
| `storage.rs`: state and every function used by an endpoint | `Model/Storage` | function by function |
| `main.rs` endpoints, `init`, `post_upgrade` | `Model/Endpoints` | |
| inter-canister calls, callbacks, interleaving, cycles held, upgrades, traps | `Model/System` | |
| `http_request` routes, gauges, `check_invariants` | `Model/Metrics` | the text is in `Model/Pages` |
| text of `/metrics` and `/logs` | `Model/Pages` | `ic-metrics-encoder`, `serde_json` and `{}` of an `f64` written down from their documentation (not in /repo); texts of the messages that never occur left open |
| readers of JSON and of the Prometheus format | `Spec/Json` | independent of the model; no white space, no fractions |
| arguments as Candid bytes, `Decode!` | `Model/Candid` | candid 0.10 (not in /repo) written down from the Candid specification; recursive types unfolded to trees deeper than any value or expected type; signatures of functions and services read and dropped; no types of future versions; UTF-8 unchecked; no limits on work, nor on the size of numbers in the header and of lengths (64 bits in the library) |
| calls and replies as Candid bytes | `Model/CandidReply` | as above; which bytes are sent for a typed value is left open (any message of it); the texts in errors are arbitrary; blocks are in `Model/CandidBlocks`, self-description and pages in `Model/CandidMeta` |
| calls to other canisters and their answers as Candid bytes | `Model/CandidCalls` | as above; any reply to `deposit_cycles` counts as success (the management canister replies with an empty message); texts in the errors of the CMC are dropped |
| the answer of `icrc3_get_blocks` as Candid bytes | `Model/CandidBlocks` | values looked at through the table of types; which table the library builds is left open (any in which the types are as declared) |
| installation, upgrades, and the history of the canister in bytes | `Model/Life` | puts the models of calls and responses together; nothing new is simplified |
| self-description, certificate, archives and HTTP as Candid bytes | `Model/CandidMeta` | `ic-canisters-http-types` (not in /repo) written down from its documentation; the logo and the body of a 404 are left open |
| queries of the test build (feature `testing`) | `Model/CandidTest` | |
| `impl Storable for Config` | `Model/ConfigStore` | serde derive of `Config`, `Account`, `Principal` (binary) |
| stable memory: memory ids, `Storable` forms of keys and values, `STATE` built from memory | `Model/Stable` | forms as in `ic-stable-structures` 0.6.9 (not in /repo); entries of the B-trees without nodes; no headers |
| `tests/gen.rs` `CyclesLedgerInMemory` | `Model/Oracle` | hash maps as functions |
| `tests/gen.rs` generator of calls | `Model/Generator` | which values can be drawn, without probabilities and shrinking |
| `depositor`, `fake-cmc` | `Model/Helpers` | test helpers, composed with the ledger |
| `depositor` in bytes | `Model/CandidHelpers` | as `Model/Candid`; an encoder is any function to messages of the value |
| `fake-cmc` in bytes | `Model/CandidFake` | as `Model/Candid`; the answers of the management canister to it are values |
| ledger and `fake-cmc` together (`tests/tests.rs` `TestEnv`) | `Model/CandidEnv` | every call is answered once; the other canisters of the tests are left out |
| `icrc1_metadata`, `icrc1_fee`, `icrc3_supported_block_types`, `Principal::to_text` | `Model/Meta` | |

Every definition cites the file and lines it models.

Numbers are `Nat` with the Rust checked/saturating/wrapping operations written
out and the 64/128-bit limits explicit. Candid `nat` is `Nat`; candid `nat64`
is `UInt64`; attached cycles are `Fin 2^128`. `get_blocks` uses wrapping u64
addition because the release build wraps.

A Rust function that mutates state returns `Res σ ε α`: `ok a s`, `err e s` (the
state at the point of the error — *not* rolled back, exactly like a Rust
`Err`), or `trap` (the IC rolls the message back). "An error leaves the state
unchanged" is thus a theorem, not a consequence of the representation.

`System` holds the ledger, the clock, the cycles held and the outstanding
calls. An `Event` is the time elapsed since the previous event and a message:
one of the update calls by any caller with any argument, an answer to an
outstanding call (any reply or rejection, any refund), the loss of a callback,
an upgrade with any argument. `Reachable` = installed with any initial
balances that do not trap, followed by any events.

## 2. Specification side

`Verif/Spec` is the vocabulary of the theorem statements. It mentions blocks and
API data, not the model's state-changing functions:

* `Spec/Replay` — balances, supply and allowances obtained by folding a block log.
* `Spec/Request` — what a request asks for: the transaction it describes, charged account, validity.
* `Spec/Rules` — the endpoints as lists of rules, of which the first that applies gives the answer.
* `Spec/Machine` — the reference ledger: a transition relation over the list of blocks, in which nothing else is stored.
* `Spec/Digest` — what a SHA-256 collision is.
* `Spec/Cbor` — CBOR values and their nesting, `Spec/Writing` — two ways to write the same account.
* `Spec/Client` — a client that only sees served values: reads by field name, verifies hashes, replays.
* `Spec/Fips` — SHA-256 as in FIPS 180-4, on bit vectors, with computed constants.
* `Spec/Tree` — the CBOR format of hash trees.
* `Spec/Candid` — Candid from the side of the writer: which bytes are a message, which typed values stand for the arguments in `cycles-ledger.did`; `Spec/CandidReply` — the same for the results; `Spec/CandidCalls` — the same for the calls to other canisters, after `fake-cmc.did`; `Spec/CandidBlocks` — the same with references into the table of types, for `GetBlocksResult`; `Spec/CandidMeta` — self-description and pages; `Spec/Life` — what a message mentions, for installation, upgrades, queries and canister settings.
* `Spec/Text` — reading of a principal's textual form.

Some property files add a few lines of their own next to the theorem
(`Spec.collected`, `Spec.given`, …).

## 3. Properties and how each is proved

Shared machinery in `Verif/Proof`: exact description of what every function
does to the state (`Effects`, `Appended`, `Exec`, `Results`, `Cases`), the
invariants of reachable systems (`Inv`, `SysInv`, `Pending`, `Keys`, `Dedup`,
`Prune`, `Allow`, `Origin`), injectivity of the hash preimages (`HashInj`,
`TxHash`, `Fields`), codecs (`Values`, `Codec`, `Wire`, `Leb`, `Text`), the
congruence of all endpoints under rewriting of accounts (`Alike`, `AlikeSys`)
and under a change of the configuration (`Config`),
the verifying client (`Client`). Property theorems are in `Verif/Props` only;
`Proof/Toy` is a computable instance of `Crypto` with a small history
(`demo`), used by the `example`s next to the theorems.

* C01, C03, C07, C20, C21, C31, C32, C35, C39, C40, C49, C57: invariants by induction over events.
* C02, C16, C52, C59, C68, C69, C74: refinement — the state is the replay of the log.
* C04, C05, C06, C08, C14, C15, C19, C26, C51, C55: exact effect of one message in an arbitrary reachable state.
* C43, C60, C61, C63: exact conditions of success.
* C09, C10, C11, C13: invariant tying log, hash table, timestamp table and clock.
* C12: arithmetic with saturation. C17, C18, C56: decision logic on stored approvals.
* C22: induction over the sorted map. C34, C58, C66: induction over the requested ranges.
* C23, C24, C25, C28, C53, C64, C72: the callback in an arbitrary reachable state; an outstanding call survives arbitrary events in between.
* C27, C37, C38, C46, C54, C70: round trips. C29, C50: laws of one function.
* C30: prefix monotonicity. C33, C36, C65: equality or an explicit SHA-256 collision among the strings actually hashed.
* C41: the cache rebuilt after an upgrade is the old cache. C73: combines C15, C16, C57 with the exact conditions of C60, C61, C63. C71: simulation between a history and the same history without upgrades. C42: trap-freedom from the invariant.
* C75: counting over the sorted maps, rounding to `f64`. C76: invariant of the two canisters. C77: case analysis, then C07. C78: the CBOR reader undoes the writer; the configuration is a fold over the upgrades. C79: simulation, one step per message. C80: the real primitives are an instance of `Crypto`; FIPS and ICRC-3 test vectors beside it. C81: the endpoint and the list of rules walked through together. C82: the characterisations C60, C61, C63 depend on the log only (lemmas `same_…`). C83: the sum of allowance and outstanding calls as a decreasing quantity. C84: from C60, C61, C63. C85: invariant (the alarms are about broken invariants); the sweep removes a counted prefix of the expiration queue; the buffers by induction over the events. C86: two maps with the same keys and values of equal hashes are hashed alike. C87: the fields of a map determine it; case analysis over the operations. C88: case analysis over the messages as for C07, then induction over the history; the keys stored are the receivers and allowances of distinct blocks. C89: from C10 and the origin of blocks; calls are recovered from their transactions. C90: forward simulation, one lemma per message (`Proof/Machine`); determinism by inverting two steps. C91: composition of the effects of `debit` and `emit_block`. C92: the CBOR reader undoes the writer. C93: C66 and C30 along the interleaving. C94: from C09, C10, C12, C30 and the origin of blocks. C95: the call of a burn is added with it and removed once; the block numbers of outstanding calls differ. C97: the lengths of the encoding, field by field, with the invariants on memos and amounts; the price from C88. C98: the table of transaction hashes followed along the history; C95 for uniqueness. C99: invariant of the generator (any balances are together at most the supply, which with the depositor's cycles fits 128 bits); C79 for the agreement, C60, C61, C63 for the acceptance. C100: every `Storable` form is read as it was written, by its construction from pairs; invariants for the ranges of the stored numbers; C37 for blocks, C78 for the configuration, C41 for the cache; sizes from C88 and C97. C101: the readers undo the writers; rounding as in C75. C102: the reader undoes the writer, by induction on types (a type unfolded deeply enough contains every type without recursion whole, by the pigeonhole principle, and is deeper than any value in so many bytes, as a type does not recur in a value without a byte in between); one lemma per argument type in each direction. C103: one lemma per result type that says it is written as the interface says and one that says it is not written like another; the times in errors from the description of each endpoint. C104: as C102 and C103; labels increase in every type of a message, so the case taken is the one that was checked. C105: values and references into the table by mutual recursion; a reader follows the table, so that bytes determine table, reference and value, and these what is found; then C58 and C65. C106: as C103; UTF-8 is injective and no byte of another character is a question mark; then C70, C92, C105.
* C44: order of the checks. C45: simulation between two systems fed the same requests in different writings.
* C47, C62: induction on the pruning loop. C107: induction on the events, with C62. C108: C41, C69 and C102–C104 put together, and soundness of the remaining readers. C109: from C02, C16 and what the blocks of a message are (C57). C110: from C109, the conditions of acceptance (C60, C61, C63) and replay (C02, C16). C111: a struct is read field by field, and each field is found in both records or says nothing. C112: each reader is compared with subtyping and coercion (`Below`, `Coerces` in `Spec/CandidCoerce`, by structural recursion on the type expected), type by type from the parts. C113: from C49 and C62. C114: the state of the depositor in bytes is related to the typed one of C76 event by event. C115: induction on the calls for what is due; C77 and C104 for the ledger. C48, C67: see below. C116: invariant (each call with the fake CMC remembers the orders before it), then C07, C115.

### Properties the code violates

For each the original statement is kept, the negation is proved with a concrete
reachable witness (`Cnn_refuted`) and the rest is proved as `Cnn_…_partial`;
where possible a further property says exactly what does hold.

* **C18**: `allowance()` compares `expires_at < now`, spending compares `<=`: at `t = expires_at` an allowance is reported that cannot be spent (or, once another request has pruned it, is not reported). Exact: C56.
* **C25**: a callback of a failed `withdraw_from` can trap: the stored approval expires at this very nanosecond, two hundred other expired approvals are in front of it in the expiration queue (the refund prunes twice a hundred), so `approve` is called with an expiry it refuses. The refund is lost. `C25_trap_iff_partial` says exactly when a callback traps (collisions aside): this, a refund at the last nanosecond of the clock, or a supply beyond 128 bits. It never happens on own accounts (`C25_own_account`).
* **C34**: ranges with a length of 2^64 or more are skipped silently; with a configured limit near 2^64 the end of a range wraps. Exact: C58; never untruthful: C66.
* **C43**: a transfer to oneself is refused (trap) when balance + amount exceeds 128 bits because the credit precedes the debit. Exact: C63.
* **C44**: amounts ≥ 2^128 are answered `InsufficientFunds` before the fee is looked at.
* **C45**: with `created_at_time`, an explicit and an omitted default subaccount hash differently, so the duplicate check distinguishes them. Without: `C45_unstamped`.
* **C48**: a zero credit to an account without entry stores a zero balance. Exact: C59.
* **C67**: `icrc3_supported_block_types` omits `1xfer`.
* **C89**: the transaction of a `create_canister(_from)` does not contain `creation_args`, so a request for a canister with other settings or on another subnet is answered `Duplicate` (with the canister created for the first); approvals of 2^128 - 1 and more are the same transaction. These are the only two cases.
* **C96**: a failed and refunded withdrawal stays in the table of transactions; a client whose answer got lost and who repeats it is told `Duplicate` although nothing was sent, and has to look for the refund in the log. Exact: C95; for canister creations, `Duplicate` does tell: C98.
* **C99**: the generator of the tests' calls can panic and can draw calls that the ledger refuses; each is improbable, so that the tests pass. The comment at gen.rs:452 (`deposit requires that the amount is >= FEE`) is wrong: the amount has to exceed the fee.

### Other observations made while modelling

* `INTERFACE_SPECIFICATION.md` says depositing is free but at least 100M cycles must be attached; the code charges the fee and refuses exactly 100M (C06).
* `create_canister` trusts the CMC's reported `refund_amount` instead of `msg_cycles_refunded`; solvency needs an honest CMC (`C07_honesty_needed`). A CMC reply that does not decode refunds everything. A *rejection* is taken as a full refund as well, which the IC guarantees only if the callee has not accepted the cycles before rejecting: `C77_rejection_unsafe` derives insolvency from a CMC that never misreports.
* The duplicate check precedes the too-old check. `withdraw` checks amount 0 and self-authenticating receivers before the duplicate check and does not check denied principals; `create_canister` allows amount 0 and its deduplication ignores `creation_args`.
* Initial mints record the fee in the fee field of the operation although no fee is charged.
* Restoring an allowance after a failed `…_from` re-grants it even if the owner revoked it in the meantime (C24 states what the allowance becomes).
* `approve` with `expires_at = 0` is never accepted. `penalize` is unused. Pruning runs on success only.
* The conversion of `withdraw` errors drops `withdraw_from_block` fields (C50).
* The generator of the tests (`tests/gen.rs`) can draw calls that its reference ledger executes but the ledger refuses (a deposit of exactly the fee, a withdrawal of 0, repeated calls with one `created_at_time`), and computes `balance - FEE` without a check in `arb_transfer_from`; the reference ledger ignores expiry and demands an allowance from an owner spending from their own account (examples beside C79).
* Options of an unexpected type are dropped silently by Candid decoding (C102): a transfer with `created_at_time : nat` is executed without deduplication, an upgrade with `max_blocks_per_request : nat` succeeds and changes nothing.
* An answer of the CMC of an unknown case is a full refund, too: `C104_unknown_unsafe`.
* `post_upgrade` does not set certified data again (it survives the upgrade).

## 4. Trusted base

* Lean's kernel and the axioms listed per theorem in section 6 (at most `propext`, `Classical.choice`, `Quot.sound`); no axiom of our own, no `sorry`, no `native_decide`, no `bv_decide`. Concrete witnesses use `decide +kernel`, i.e. kernel reduction.
* The faithfulness of the reading of the Rust code, of the IC (a trap rolls the message back; messages are atomic between awaits; time never decreases; a callback runs at most once) and of the library functions used (`StableBTreeMap` is a sorted map, `StableLog` a list, `RbTree` hashing, `ciborium`).
* `class Crypto` has two parameters: `digest : List UInt8 → List UInt8` of length 32 and `intEnc`, the byte encoding of integers in the representation-independent hash, of which only decodability is assumed. All theorems hold for every such pair; nothing is assumed about collisions — the statements name them.
* Two assumptions appear as hypotheses where needed: callees return at least what they report (C07, `Spec.Fair` in C68).

## 5. Not modelled

* The text of the log messages that are never written (C85), the logo. Candid bytes: C102, C108, C111, C112, C114–C116 (arguments), C103, C105, C106, C113 (results), C104, C115 (other canisters); limits of the Candid library on work and nesting are not modelled.
* Nodes of the B-trees, headers of the stable structures and of the memory manager, memory growth failure, instruction limits. The state is kept as data; the bytes of its keys, values, blocks and configuration are modelled separately (`Model/Stable`, `Model/Wire`, `Model/ConfigStore`) and shown lossless (C37, C78, C100).
* SHA-256 is an arbitrary function in all theorems but C80, where it is written out (`Model/Sha256`, from FIPS 180-4; on 32-bit words as numbers). That it has no known collisions is nowhere assumed. Negative integers of the SLEB128 encoding never occur. Whether the library hashes `Int` with LEB128 or SLEB128 is left open (its source is not in the repository; the proptest at storage.rs:2640 can only pass if it behaves like LEB128, see C86).
* Cycles burnt by the IC for computation and storage (the solvency statement counts only cycles moved by messages).
* Outstanding callbacks surviving an upgrade is assumed; `lostCallback` covers their loss.

## 5a. Wrong programs

`seeded/LOG.jsonl` records edits of the model that imitate bugs, one per line. `failed` lists the property
theorems that no longer check in the edited copy, directly or because a lemma they rest on fails.
As a proof can break although its statement is still true, `refuted` lists the theorems whose
*statement* was shown false of the edited program by a concrete instance checked by the kernel.

