import Verif.Model.Endpoints
/-!
# HTTP interface and self-check: cycles-ledger/src/main.rs:486-610, storage.rs:757-777

Left out: the text the metrics encoder writes around name and value, the gauges about stable memory
and the canister's own cycles (585-605: numbers of the IC, not of the state), the
JSON of the log entries (their content is in `Model/Log.lean`).
-/
namespace CyclesLedger

/-- Rust's `n as f64` for an unsigned integer: to the nearest number with a significand of 53
bits, ties to the even significand.  The result is a whole number (and finite, as 128 bits fit). -/
def f64OfNat (n : Nat) : Nat :=
  let sh := n.log2 - 52
  let q := n / 2 ^ sh
  let r := n % 2 ^ sh
  if 2 * r < 2 ^ sh ∨ (2 * r = 2 ^ sh ∧ q % 2 = 0) then q * 2 ^ sh else (q + 1) * 2 ^ sh

/-- `encode_state_metrics` (main.rs:532-583). -/
def stateMetrics (s : State) : List (String × Nat) :=
  [("cycles_ledger_number_of_blocks", f64OfNat s.blocks.length),
   ("cycles_ledger_number_of_balances", f64OfNat s.balances.len),
   ("cycles_ledger_number_of_transaction_hashes", f64OfNat s.transactionHashes.len),
   ("cycles_ledger_number_of_transaction_timestamps", f64OfNat s.transactionTimestamps.len),
   ("cycles_ledger_number_of_approvals", f64OfNat s.approvals.len),
   ("cycles_ledger_number_of_approval_expiration_entries", f64OfNat s.expirationQueue.len),
   ("cycles_ledger_total_supply", f64OfNat s.cache.totalSupply)]

/-- `check_invariants` (storage.rs:768-777): whether the alarm is written to the log. -/
def checkInvariantsAlarm (s : State) : Bool := decide (s.expirationQueue.len > s.approvals.len)

/-- `HttpRequest::path` (ic-canisters-http-types): the URL up to the first question mark. -/
def httpPath (url : List Char) : List Char := url.takeWhile (· ≠ '?')

/-- What `http_request` answers with. -/
inductive HttpAnswer where
  | metrics (gauges : List (String × Nat))
  | logs
  | notFound
  deriving DecidableEq

/-- `http_request` (main.rs:486-530). -/
def httpRequest (s : State) (url : List Char) : HttpAnswer :=
  if httpPath url = "/metrics".toList then .metrics (stateMetrics s)
  else if httpPath url = "/logs".toList then .logs
  else .notFound

end CyclesLedger
