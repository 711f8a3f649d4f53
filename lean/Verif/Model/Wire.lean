import Verif.Model.Decode
import Verif.Spec.Cbor
/-!
# Blocks in stable memory

`Cbor<Block>` (storage.rs:793-825): `ciborium::ser::into_writer` and
`ciborium::de::from_reader`.  Writing is modelled as writing the `ciborium::Value` of the
block, reading as reading a `ciborium::Value` and deserializing it; the crate goes straight
between the struct and the bytes.
-/
namespace CyclesLedger

/-- `n` as `len` big-endian bytes (`uN::to_be_bytes`). -/
def beBytes : Nat → Nat → Bytes
  | 0, _ => []
  | len + 1, n => beBytes len (n / 256) ++ [UInt8.ofNat (n % 256)]

/-- A head in its shortest form (`ciborium-ll`, `Header` to `Title`). -/
def cborHead (major n : Nat) : Bytes :=
  if n < 24 then [UInt8.ofNat (major * 32 + n)]
  else if n < 256 then UInt8.ofNat (major * 32 + 24) :: beBytes 1 n
  else if n < 65536 then UInt8.ofNat (major * 32 + 25) :: beBytes 2 n
  else if n < 4294967296 then UInt8.ofNat (major * 32 + 26) :: beBytes 4 n
  else UInt8.ofNat (major * 32 + 27) :: beBytes 8 n

mutual
/-- `ciborium::ser::into_writer` on a value.  Floats, which the ledger does not have, are
written at full width here. -/
def CVal.encode (c : CVal) : Bytes :=
  match c with
  | .int i => if 0 ≤ i then cborHead 0 i.toNat else cborHead 1 (-1 - i).toNat
  | .bytes b => cborHead 2 b.length ++ b
  | .text t => cborHead 3 t.length ++ t
  | .array vs => cborHead 4 vs.length ++ encodeList vs
  | .map kvs => cborHead 5 kvs.length ++ encodePairs kvs
  | .bool b => [if b then 0xf5 else 0xf4]
  | .null => [0xf6]
  | .float bits => 0xfb :: beBytes 8 bits.toNat
  | .tag t v => cborHead 6 t ++ v.encode
/-- The elements of an array. -/
def encodeList (vs : List CVal) : Bytes :=
  match vs with
  | [] => []
  | v :: t => v.encode ++ encodeList t
/-- The entries of a map. -/
def encodePairs (kvs : List (CVal × CVal)) : Bytes :=
  match kvs with
  | [] => []
  | (k, v) :: t => k.encode ++ (v.encode ++ encodePairs t)
end

/-- `Cbor::<Block>::to_bytes` (storage.rs:813-817). -/
def Block.toBytes (b : Block) : Bytes := b.toCbor.encode

/-- `Cbor::<Block>::from_bytes` (storage.rs:819-821); `none` is the panic. -/
def Block.ofBytes (b : Bytes) : Option Block :=
  match Cbor.read b with
  | some c => Block.ofCbor c
  | none => none

end CyclesLedger
