import Verif.Model.Value
/-!
# Reading blocks back

`Deserialize` for `Block` and `Transaction` from a `ciborium::Value`, and
`Block::from_value` (storage.rs:462-471).

The deserializers are `#[derive(Deserialize)]` (serde) over `ciborium::Value`.  Modelled:
the keys of a struct are text, a known key occurring twice is an error, unknown keys are
ignored, a missing `Option` field is `None`, `null` is `None`, integers may be given as
bignums, other tags are skipped.  Left out (read as an error): byte strings given as arrays
of integers, fields named by number; the encoders below never produce those.
-/
namespace CyclesLedger

/-- The value under all tags. -/
def stripTags : CVal → CVal
  | .tag _ v => stripTags v
  | v => v

/-- `deserialize_u64`/`deserialize_u128` of `ciborium::Value`: an integer or a positive
bignum that fits. -/
def readNat (max : Nat) (c : CVal) : Option Nat :=
  match c with
  | .int i => if 0 ≤ i ∧ i.toNat ≤ max then some i.toNat else none
  | .tag t (.bytes b) =>
    if t = TAG_BIGNUM ∧ ofBytesBE b ≤ max then some (ofBytesBE b) else none
  | _ => none

/-- `ByteBuf::deserialize`. -/
def readBytes (c : CVal) : Option Bytes :=
  match stripTags c with
  | .bytes b => some b
  | _ => none

/-- `String::deserialize`. -/
def readText (c : CVal) : Option Text :=
  match stripTags c with
  | .text t => some t
  | _ => none

/-- `Option::<T>::deserialize`. -/
def readOpt {A : Type} (f : CVal → Option A) (c : CVal) : Option (Option A) :=
  match c with
  | .null => some none
  | c => (f c).map some

/-- Elements of a `Vec<ByteBuf>`. -/
def readBytesList : List CVal → Option (List Bytes)
  | [] => some []
  | c :: t =>
    match readBytes c, readBytesList t with
    | some b, some bs => some (b :: bs)
    | _, _ => none

/-- `compact_account::deserialize` (compact_account.rs:70-76). -/
def readAccount (c : CVal) : Option Account :=
  match stripTags c with
  | .array vs =>
    match readBytesList vs with
    | some bs => Account.ofCompact bs
    | none => none
  | _ => none

/-- `phash::deserialize` (storage.rs:2824-2835), the `Some` case. -/
def readHash (c : CVal) : Option Hash :=
  match readBytes c with
  | some b => if h : b.length = 32 then some ⟨b, h⟩ else none
  | none => none

/-- The values given for field `k`. -/
def pick (k : Text) (kvs : List (CVal × CVal)) : List CVal :=
  kvs.filterMap (fun e => match e.1 with
    | .text k' => if k' = k then some e.2 else none
    | _ => none)

/-- Are all the keys text? -/
def textKeys (kvs : List (CVal × CVal)) : Bool :=
  kvs.all (fun e => match e.1 with
    | .text _ => true
    | _ => false)

/-- A mandatory field. -/
def field {A : Type} (kvs : List (CVal × CVal)) (k : Text) (f : CVal → Option A) : Option A :=
  match pick k kvs with
  | [v] => f v
  | _ => none

/-- An optional field. -/
def fieldOpt {A : Type} (kvs : List (CVal × CVal)) (k : Text) (f : CVal → Option A) :
    Option (Option A) :=
  match pick k kvs with
  | [] => some none
  | [v] => readOpt f v
  | _ => none

/-- `Deserialize for FlattenedTransaction` (storage.rs:307-343). -/
def Flat.ofCbor (c : CVal) : Option Flat :=
  match stripTags c with
  | .map kvs =>
    if textKeys kvs then do
      let createdAtTime ← fieldOpt kvs kTs (readNat U64MAX)
      let memo ← fieldOpt kvs kMemo readBytes
      let op ← field kvs kOp readText
      let frm ← fieldOpt kvs kFrom readAccount
      let to ← fieldOpt kvs kTo readAccount
      let spender ← fieldOpt kvs kSpender readAccount
      let amount ← field kvs kAmt (readNat U128MAX)
      let fee ← fieldOpt kvs kFee (readNat U128MAX)
      let expectedAllowance ← fieldOpt kvs kExpectedAllowance (readNat U128MAX)
      let expiresAt ← fieldOpt kvs kExpiresAt (readNat U64MAX)
      some ⟨createdAtTime, memo, op, frm, to, spender, amount, fee, expectedAllowance, expiresAt⟩
    else none
  | _ => none

/-- `Deserialize for Transaction` (storage.rs:85-87, `serde(try_from)`). -/
def Transaction.ofCbor (c : CVal) : Option Transaction :=
  match Flat.ofCbor c with
  | some f => f.unflatten
  | none => none

/-- `Deserialize for Block` (storage.rs:448-459). -/
def Block.ofCbor (c : CVal) : Option Block :=
  match stripTags c with
  | .map kvs =>
    if textKeys kvs then do
      let transaction ← field kvs kTx Transaction.ofCbor
      let timestamp ← field kvs kTs (readNat U64MAX)
      let phash ← fieldOpt kvs kPhash readHash
      let effectiveFee ← fieldOpt kvs kFee (readNat U128MAX)
      some ⟨transaction, timestamp, phash, effectiveFee⟩
    else none
  | _ => none

/-- `Block::from_value` (storage.rs:462-471). -/
def Block.fromValue (v : Value) : Option Block :=
  match genericToCbor v 0 with
  | some c => Block.ofCbor c
  | none => none

end CyclesLedger
