import Verif.Model.Value
/-!
# Representation-independent hashing

`icrc_ledger_types::icrc::generic_value::Value::hash` (called at storage.rs:188,
493) and what it is built from.  SHA-256 is an arbitrary function to 32 bytes:
theorems that need collision resistance say "or here is a collision".
-/
namespace CyclesLedger

/-- Unsigned LEB128 (`leb128::write::unsigned`, storage.rs:788; `candid::Nat::encode`). -/
def leb128 (n : Nat) : Bytes :=
  if h : n < 128 then [UInt8.ofNat n]
  else UInt8.ofNat (n % 128 + 128) :: leb128 (n / 128)
  termination_by n
  decreasing_by omega

/-- Value denoted by a little-endian string of base-128 digits with continuation
bits; this is how an unsigned LEB128 reader decodes the bytes. -/
def ofLeb128 : Bytes → Nat
  | [] => 0
  | b :: bs => b.toNat % 128 + 128 * ofLeb128 bs

/-- The cryptographic primitives of the dependencies, left abstract.

* `digest` is SHA-256 (crate `sha2`).
* `intEnc` is how `Value::hash` encodes a non-negative `Int`.  Its only law is that
an unsigned LEB128 reader gets the number back; both `candid::Int::encode`
(SLEB128) and plain LEB128 satisfy it. -/
class Crypto where
  digest : Bytes → Hash
  intEnc : Nat → Bytes
  intEnc_decodes : ∀ n, ofLeb128 (intEnc n) = n

variable [Crypto]

/-- SHA-256. -/
def sha (b : Bytes) : Hash := Crypto.digest b

/-- Insertion into a sorted list (used by `isort`). -/
def insertSorted (x : Bytes) : List Bytes → List Bytes
  | [] => [x]
  | y :: t => if listLt y x then y :: insertSorted x t else x :: y :: t

/-- `Vec::sort` on byte strings. -/
def isort : List Bytes → List Bytes
  | [] => []
  | x :: t => insertSorted x (isort t)

mutual
/-- `Value::hash` (icrc-ledger-types; the representation-independent hash of ICRC-3). -/
def Value.hash (v : Value) : Hash :=
  match v with
  | .nat n => sha (leb128 n)
  | .int i => sha (Crypto.intEnc i.toNat)
  | .blob b => sha b
  | .text t => sha t
  | .array vs => sha (hashList vs).flatten
  | .map kvs => sha (isort (hashMap kvs)).flatten
/-- Hashes of the elements of an array. -/
def hashList (vs : List Value) : List Bytes :=
  match vs with
  | [] => []
  | v :: t => v.hash.val :: hashList t
/-- Key hash followed by value hash, for each entry of a map. -/
def hashMap (kvs : List (Text × Value)) : List Bytes :=
  match kvs with
  | [] => []
  | (k, v) :: t => ((sha k).val ++ v.hash.val) :: hashMap t
end

/-- `Transaction::hash` (storage.rs:182-194): through serde and
`ciborium_to_generic_value`, `none` if the conversion fails. -/
def Transaction.hash (t : Transaction) : Option Hash :=
  match cborToGeneric t.toCbor 0 with
  | .ok v => some v.hash
  | .error _ => none

/-- `Block::hash` (storage.rs:492-494). -/
def Block.hash (b : Block) : Hash := b.toValue.hash

end CyclesLedger
