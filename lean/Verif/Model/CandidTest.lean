import Verif.Model.CandidMeta
/-!
# The queries of the test build

cycles-ledger/src/main.rs:624-646, compiled under the feature `testing`: the two tables of the
deduplication as maps. A `BTreeMap<K, V>` is a `vec record { K; V }` by increasing key, `[u8; 32]` is
`vec nat8` and `()` is `null`.
-/
namespace CyclesLedger.Candid

/-- The answers, `none` if the argument cannot be read. The tables are sorted by key, so filling a
`BTreeMap` from them (629-633, 641-645) changes nothing. -/
def showTest (y : Sys) (method : String) (bytes : Bytes) : Option (Ty × Val) :=
  if method = "get_transaction_hashes" then
    (readMessage bytes).map (fun _ => (.vec (tyPair (.vec (.fixed .nat8)) (.fixed .nat64)),
      putVec (fun e => putPair (putBlob e.1.val) (.fixed (toLE 8 e.2.1)))
        y.ledger.transactionHashes.entries))
  else if method = "get_transaction_timestamps" then
    (readMessage bytes).map (fun _ => (.vec (tyPair (tyPair (.fixed .nat64) (.fixed .nat64)) .null),
      putVec (fun e => putPair (putPair (.fixed (toLE 8 e.1.1)) (.fixed (toLE 8 e.1.2))) .null)
        y.ledger.transactionTimestamps.entries))
  else none

end CyclesLedger.Candid
