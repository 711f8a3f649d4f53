import Verif.Model.Endpoints
import Verif.Model.ConfigStore
/-!
# What is in stable memory, in bytes

`storage.rs` keeps everything but the cache in stable memory: eight virtual memories
(storage.rs:45-52), a log, five B-tree maps and a cell (storage.rs:58-70).  `Model/Storage.lean`
keeps their contents as values.  Here are the bytes these values are stored as, and the values
that the next version of the canister reads from them (storage.rs:705-730).

The byte forms of keys and values are those of the `Storable` instances of
`ic-stable-structures` 0.6.9, which is not part of /repo.

Simplified: of a B-tree the entries are kept, not the nodes; the offsets of the log are numbers;
headers and the table of the memory manager are left out.
-/
namespace CyclesLedger

/-! ## `Storable` types of bounded size -/

/-- A bounded `Storable`: `BOUND = Bounded { max_size, is_fixed_size }`, `to_bytes`, and
`from_bytes`, where `none` is a panic. -/
structure Storable (A : Type) where
  max : Nat
  fixed : Bool
  toBytes : A → Bytes
  ofBytes : Bytes → Option A

/-- `impl Storable for u128`, `u64`: big-endian, of fixed size. -/
def storableUInt (len : Nat) : Storable Nat where
  max := len
  fixed := true
  toBytes n := beBytes len n
  ofBytes b := if b.length = len then some (Cbor.beNat b) else none

/-- `impl Storable for ()`. -/
def storableUnit : Storable Unit where
  max := 0
  fixed := true
  toBytes _ := []
  ofBytes b := if b = [] then some () else none

/-- `impl Storable for Principal`: the raw bytes, at most 29. -/
def storablePrincipal : Storable Principal where
  max := 29
  fixed := false
  toBytes p := p.bytes
  ofBytes b := if h : b.length ≤ 29 then some ⟨b, h⟩ else none

/-- `impl Storable for [u8; 32]`. -/
def storableBytes32 : Storable Bytes32 where
  max := 32
  fixed := true
  toBytes b := b.val
  ofBytes b := if h : b.length = 32 then some ⟨b, h⟩ else none

/-- `impl Storable for Option<T>`: the bytes of the value and a 1, or a 0. -/
def storableOption {A : Type} (sa : Storable A) : Storable (Option A) where
  max := sa.max + 1
  fixed := false
  toBytes o := match o with
    | some a => sa.toBytes a ++ [1]
    | none => [0]
  ofBytes b := match b.getLast? with
    | some 1 => (sa.ofBytes b.dropLast).map some
    | some 0 => if b.length = 1 then some none else none
    | _ => none

/-- `bytes_to_store_size`: how many bytes tell the size of a component. -/
def Storable.sizeLen {A : Type} (sa : Storable A) : Nat :=
  if sa.fixed then 0 else if sa.max ≤ 255 then 1 else if sa.max ≤ 65535 then 2 else 4

/-- `impl Storable for (A, B)`: room for the largest `A`, room for the largest `B`, and the sizes
of those components that are not of fixed size. -/
def storablePair {A B : Type} (sa : Storable A) (sb : Storable B) : Storable (A × B) where
  max := sa.max + sb.max + sa.sizeLen + sb.sizeLen
  fixed := sa.fixed && sb.fixed
  toBytes x :=
    let a := sa.toBytes x.1
    let b := sb.toBytes x.2
    (a ++ List.replicate (sa.max - a.length) 0) ++ ((b ++ List.replicate (sb.max - b.length) 0) ++
      (beBytes sa.sizeLen a.length ++ beBytes sb.sizeLen b.length))
  ofBytes bs :=
    if bs.length = sa.max + sb.max + sa.sizeLen + sb.sizeLen then
      let la := if sa.fixed then sa.max
        else Cbor.beNat ((bs.drop (sa.max + sb.max)).take sa.sizeLen)
      let lb := if sb.fixed then sb.max
        else Cbor.beNat ((bs.drop (sa.max + sb.max + sa.sizeLen)).take sb.sizeLen)
      match sa.ofBytes (bs.take la), sb.ofBytes ((bs.drop sa.max).take lb) with
      | some a, some b => some (a, b)
      | _, _ => none
    else none

/-- `AccountKey = (Principal, [u8; 32])` (storage.rs:58). -/
def storableAccountKey : Storable AccountKey := storablePair storablePrincipal storableBytes32
/-- `ApprovalKey` (storage.rs:68). -/
def storableApprovalKey : Storable ApprovalKey := storablePair storableAccountKey storableAccountKey
/-- The balances (storage.rs:60). -/
def storableBalance : Storable Nat := storableUInt 16
/-- The allowances, `(u128, u64)` (storage.rs:69). -/
def storableAllowance : Storable (Nat × Nat) := storablePair (storableUInt 16) (storableUInt 8)
/-- The keys of the queue, `(u64, ApprovalKey)` (storage.rs:70). -/
def storableQueueKey : Storable (Nat × ApprovalKey) :=
  storablePair (storableUInt 8) storableApprovalKey
/-- The values of `transaction_hashes`, `(u64, Option<Principal>)` (storage.rs:62). -/
def storableHashEntry : Storable (Nat × Option Principal) :=
  storablePair (storableUInt 8) (storableOption storablePrincipal)
/-- The keys of `transaction_timestamps`, `(u64, u64)` (storage.rs:63). -/
def storableTimestampKey : Storable (Nat × Nat) := storablePair (storableUInt 8) (storableUInt 8)

/-! ## The memories -/

def BLOCK_LOG_INDEX_MEMORY_ID : Nat := 1
def BLOCK_LOG_DATA_MEMORY_ID : Nat := 2
def BALANCES_MEMORY_ID : Nat := 3
def APPROVALS_MEMORY_ID : Nat := 4
def EXPIRATION_QUEUE_MEMORY_ID : Nat := 5
def TRANSACTION_HASH_MEMORY_ID : Nat := 6
def TRANSACTION_TIMESTAMP_MEMORY_ID : Nat := 7
def CONFIG_MEMORY_ID : Nat := 8

/-- What a virtual memory holds: the offsets at which the entries of a log end, the entries
themselves one after the other, the entries of a B-tree in order, or the value of a cell. -/
inductive Region where
  | index (ends : List Nat)
  | data (bytes : Bytes)
  | tree (entries : List (Bytes × Bytes))
  | cell (bytes : Bytes)

/-- The virtual memories by id; `none`: never written. -/
abbrev Memory := Nat → Option Region

def Memory.write (m : Memory) (id : Nat) (r : Region) : Memory :=
  fun j => if j = id then some r else m j

/-- `StableLog`: where the entries end, if the first starts at `at`. -/
def logEnds : Nat → List Bytes → List Nat
  | _, [] => []
  | start, e :: t => (start + e.length) :: logEnds (start + e.length) t

/-- `StableLog::iter`: the bytes between two consecutive offsets. -/
def logEntries (bytes : Bytes) : Nat → List Nat → List Bytes
  | _, [] => []
  | start, stop :: t => ((bytes.drop start).take (stop - start)) :: logEntries bytes stop t

/-- A B-tree, written. -/
def SMap.toRegion {K V : Type} [TotOrd K] (sk : Storable K) (sv : Storable V) (m : SMap K V) :
    Region :=
  .tree (m.entries.map (fun e => (sk.toBytes e.1, sv.toBytes e.2)))

/-- The map with these entries. -/
def SMap.ofEntries {K V : Type} [TotOrd K] (sk : Storable K) (sv : Storable V) :
    List (Bytes × Bytes) → Option (SMap K V)
  | [] => some .empty
  | e :: t =>
    match sk.ofBytes e.1, sv.ofBytes e.2, SMap.ofEntries sk sv t with
    | some k, some v, some m => some (m.insert k v)
    | _, _, _ => none

/-- `StableBTreeMap::init`: a memory that was never written is an empty map. -/
def SMap.ofRegion {K V : Type} [TotOrd K] (sk : Storable K) (sv : Storable V) :
    Option Region → Option (SMap K V)
  | none => some .empty
  | some (.tree es) => SMap.ofEntries sk sv es
  | some _ => none

/-- `BlockLog::init`, all blocks read. -/
def blocksOfRegions : Option Region → Option Region → Option (List Block)
  | none, _ => some []
  | some (.index ends), some (.data bytes) => readAllBytes (logEntries bytes 0 ends)
  | _, _ => none
where
  readAllBytes : List Bytes → Option (List Block)
    | [] => some []
    | e :: t =>
      match Block.ofBytes e, readAllBytes t with
      | some b, some bs => some (b :: bs)
      | _, _ => none

/-- `ConfigCell::init(…, Config::default())` (storage.rs:714). -/
def configOfRegion : Option Region → Option Config
  | none => some Config.default
  | some (.cell b) => Config.ofBytes b
  | some _ => none

/-- Stable memory, when the state is `s`. -/
def State.toMemory (s : State) : Memory :=
  let m : Memory := fun _ => none
  let log := s.blocks.map Block.toBytes
  let m := m.write BLOCK_LOG_INDEX_MEMORY_ID (.index (logEnds 0 log))
  let m := m.write BLOCK_LOG_DATA_MEMORY_ID (.data log.flatten)
  let m := m.write BALANCES_MEMORY_ID (s.balances.toRegion storableAccountKey storableBalance)
  let m := m.write CONFIG_MEMORY_ID (.cell s.config.toBytes)
  let m := m.write APPROVALS_MEMORY_ID
    (s.approvals.toRegion storableApprovalKey storableAllowance)
  let m := m.write TRANSACTION_HASH_MEMORY_ID
    (s.transactionHashes.toRegion storableBytes32 storableHashEntry)
  let m := m.write TRANSACTION_TIMESTAMP_MEMORY_ID
    (s.transactionTimestamps.toRegion storableTimestampKey storableUnit)
  m.write EXPIRATION_QUEUE_MEMORY_ID
    (s.expirationQueue.toRegion storableQueueKey storableUnit)

/-- `STATE` is built from stable memory (storage.rs:705-730); `none` is a panic.  The certified
data are not in the canister's memory. -/
def State.ofMemory [Crypto] (m : Memory) (certifiedData : Option Hash) : Option State := do
  let blocks ← blocksOfRegions (m BLOCK_LOG_INDEX_MEMORY_ID) (m BLOCK_LOG_DATA_MEMORY_ID)
  let balances ← SMap.ofRegion storableAccountKey storableBalance (m BALANCES_MEMORY_ID)
  let tip := computeTip blocks
  let config ← configOfRegion (m CONFIG_MEMORY_ID)
  let approvals ← SMap.ofRegion storableApprovalKey storableAllowance (m APPROVALS_MEMORY_ID)
  let transactionHashes ← SMap.ofRegion storableBytes32 storableHashEntry
    (m TRANSACTION_HASH_MEMORY_ID)
  let transactionTimestamps ← SMap.ofRegion storableTimestampKey storableUnit
    (m TRANSACTION_TIMESTAMP_MEMORY_ID)
  let expirationQueue ← SMap.ofRegion storableQueueKey storableUnit (m EXPIRATION_QUEUE_MEMORY_ID)
  some { blocks, balances, approvals, expirationQueue, transactionHashes, transactionTimestamps
         config, cache := ⟨tip.1, computeTotalSupply balances, tip.2⟩, certifiedData }

end CyclesLedger
