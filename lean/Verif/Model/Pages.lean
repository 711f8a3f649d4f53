import Verif.Model.Log
/-!
# The pages `/metrics` and `/logs`, character by character: main.rs:486-605, logs.rs

`Model/Metrics.lean` and `Model/Log.lean` say which gauges and which log entries there are; here
is the text they are served as.  The formats are those of `ic-metrics-encoder` 1.1.1 and
`serde_json`, which are not part of /repo.

The headers of the answers are in `Model/CandidMeta`.  The texts of those messages of which C85 says that they are
never written are a parameter.
-/
namespace CyclesLedger

abbrev Page := List Char

/-- `{}` for an unsigned number. -/
def decimal (n : Nat) : Page := Nat.toDigits 10 n

/-- `{}` for a signed number. -/
def signed : Int → Page
  | .ofNat n => decimal n
  | .negSucc n => '-' :: decimal (n + 1)

/-- `{}` for an `f64` writes as few significant digits as tell it from every other `f64` and then
zeros: `18446744073709551616` is written `18446744073709552000`.  Of the multiples of a power of ten
next to `v` the ones that are read as `v` are candidates, the nearer one wins (if both are as near,
the upper one; nothing depends on this). -/
def shortest : Nat → Nat → Nat
  | 0, v => v
  | k + 1, v =>
    let p := 10 ^ (k + 1)
    let lo := v / p * p
    let hi := lo + p
    if f64OfNat lo = v ∧ (f64OfNat hi ≠ v ∨ v - lo < hi - v) then lo
    else if f64OfNat hi = v then hi
    else shortest k v

/-- The number written for an `f64` that is a whole number below `10 ^ 40`. -/
def shown (v : Nat) : Nat := shortest 39 v

/-! ## `/metrics` -/

/-- `ic_cdk::api::time() as i64 / 1_000_000` (main.rs:490). -/
def metricsTime (now : Nat) : Int :=
  Int.tdiv (if now < 9223372036854775808 then (now : Int) else (now : Int) - 18446744073709551616)
    1000000

/-- `encode_header`. -/
def headerText (name help : String) : Page :=
  "# HELP ".toList ++ name.toList ++ ' ' :: help.toList ++ '\n' ::
  "# TYPE ".toList ++ name.toList ++ " gauge\n".toList

/-- The line with a value. -/
def sampleText (time : Int) (name : String) (value : Nat) : Page :=
  name.toList ++ ' ' :: decimal value ++ ' ' :: signed time ++ ['\n']

/-- `encode_gauge`. -/
def gaugeText (time : Int) (g : String × Nat × String) : Page :=
  headerText g.1 g.2.2 ++ sampleText time g.1 (shown g.2.1)

/-- The help texts of `encode_state_metrics` (main.rs:547-581), in order. -/
def stateHelp : List String :=
  ["Total number of blocks stored in the stable memory.",
   "Total number of balances stored in the stable memory.",
   "Total number of transaction hashes stored in the stable memory.",
   "Total number of transaction timestamps stored in the stable memory.",
   "Total number of approvals stored in the stable memory.",
   "Total number of approval expiration entries in the stable memory.",
   "Total cycles supply."]

/-- `encode_metrics` (main.rs:585-605): `pages` is what `stable_size` returns, `cycles` the
canister's balance of cycles. -/
def metricsPage (pages cycles now : Nat) (s : State) : Page :=
  let t := metricsTime now
  gaugeText t ("cycles_ledger_stable_memory_pages", f64OfNat pages,
    "Size of the stable memory allocated by this canister measured in 64K Wasm pages.") ++
  gaugeText t ("cycles_ledger_stable_memory_bytes", f64OfNat (pages * 64 * 1024),
    "Size of the stable memory allocated by this canister.") ++
  gaugeText t ("cycles_ledger_cycle_balance", f64OfNat cycles,
    "Cycle balance on this canister.") ++
  (headerText "cycle_balance" "Cycle balance on this canister." ++
    sampleText t "cycle_balance{canister=\"cycles-ledger\"}" (shown (f64OfNat cycles))) ++
  ((stateMetrics s).zip stateHelp).flatMap (fun g => gaugeText t (g.1.1, g.1.2, g.2))

/-! ## `/logs` -/

/-- A hexadecimal digit. -/
def hexDigit (n : Nat) : Char := Nat.digitChar n

/-- `serde_json`: how a character of a string is written. -/
def jsonChar (c : Char) : Page :=
  if c = '"' then ['\\', '"']
  else if c = '\\' then ['\\', '\\']
  else if c.toNat = 8 then ['\\', 'b']
  else if c.toNat = 9 then ['\\', 't']
  else if c.toNat = 10 then ['\\', 'n']
  else if c.toNat = 12 then ['\\', 'f']
  else if c.toNat = 13 then ['\\', 'r']
  else if c.toNat < 32 then ['\\', 'u', '0', '0', hexDigit (c.toNat / 16), hexDigit (c.toNat % 16)]
  else [c]

/-- A string. -/
def jsonString (s : List Char) : Page := '"' :: s.flatMap jsonChar ++ ['"']

/-- `Priority` as JSON: the name of the variant (logs.rs:11-15). -/
def Priority.name : Priority → List Char
  | .p0 => "P0".toList
  | .p1 => "P1".toList

/-- `line!()` of a `log!` in storage.rs. -/
def LogMsg.line : LogMsg → Nat
  | .queueTooLong _ _ => 770
  | .mintOverflow => 890
  | .transactionNotHashed => 1520
  | .zeroApproval => 2187
  | .approvalMissing _ => 2280
  | .prunedApprovals _ => 2288
  | .blockMissing _ _ => 2312
  | .blockNotHashed _ => 2325
  | .hashMissing _ _ => 2336
  | .otherBlock _ _ _ => 2350

/-- The text of a message; `other` gives the texts of the remaining ones. -/
def LogMsg.text (other : LogMsg → List Char) : LogMsg → List Char
  | .zeroApproval => "[record_approval]: amount was set to 0".toList
  | .prunedApprovals n => "Pruned ".toList ++ decimal n ++ " approvals".toList
  | m => other m

/-- `file!()`. -/
def LOG_FILE : List Char := "cycles-ledger/src/storage.rs".toList

/-- `LogEntry` (logs.rs:17-24), serialised. -/
def entryJson (other : LogMsg → List Char) (e : Nat × Priority × LogMsg) : Page :=
  "{\"timestamp\":".toList ++ decimal e.1 ++
  ",\"priority\":".toList ++ jsonString e.2.1.name ++
  ",\"file\":".toList ++ jsonString LOG_FILE ++
  ",\"line\":".toList ++ decimal e.2.2.line ++
  ",\"message\":".toList ++ jsonString (e.2.2.text other) ++ ['}']

/-- A list, separated by commas. -/
def commas : List Page → Page
  | [] => []
  | [p] => p
  | p :: t => p ++ ',' :: commas t

/-- `serde_json::to_string(&Log)` (main.rs:503-525). -/
def logsJson (other : LogMsg → List Char) (b : LogBuffers) : Page :=
  "{\"entries\":[".toList ++ commas ((logsPage b).map (entryJson other)) ++ "]}".toList

end CyclesLedger
