import Verif.Model.Types
/-!
# Generic values, CBOR values, and their conversions

* `Value`: `icrc::generic_value::Value` restricted to the constructors the ledger uses.
* `CVal`: `ciborium::Value`.
* the two conversions of cycles-ledger/src/lib.rs:38-140.
Text is its UTF-8 byte string (Rust orders `String`s bytewise).
-/
namespace CyclesLedger

abbrev Text := Bytes

/-- `icrc_ledger_types::icrc::generic_value::Value`. Maps are `BTreeMap`s: lists
kept strictly sorted by `mapInsert`. `Nat64` is rejected by the conversions
(lib.rs:138) and never built, so it is left out. -/
inductive Value where
  | nat (n : Nat)
  | int (i : Int)
  | blob (b : Bytes)
  | text (t : Text)
  | array (vs : List Value)
  | map (kvs : List (Text × Value))

/-- `ciborium::Value`. -/
inductive CVal where
  | int (i : Int)
  | bytes (b : Bytes)
  | text (t : Text)
  | array (vs : List CVal)
  | map (kvs : List (CVal × CVal))
  | bool (b : Bool)
  | null
  | float (bits : UInt64)
  | tag (t : Nat) (v : CVal)

/-- `BTreeMap::insert`. -/
def mapInsert {V : Type} : List (Text × V) → Text → V → List (Text × V) := SMap.insertL

/-- Little-endian base-256 digits, no trailing zero digit. -/
def leDigits (n : Nat) : Bytes :=
  if h : n = 0 then [] else UInt8.ofNat (n % 256) :: leDigits (n / 256)
  termination_by n
  decreasing_by omega

/-- `BigUint::to_bytes_be` (`0` is the single byte `0`). -/
def toBytesBE (n : Nat) : Bytes := if n = 0 then [0] else (leDigits n).reverse

/-- Value of little-endian digits. -/
def ofLE : Bytes → Nat
  | [] => 0
  | b :: bs => b.toNat + 256 * ofLE bs

/-- `BigUint::from_bytes_be`. -/
def ofBytesBE (b : Bytes) : Nat := ofLE b.reverse

/-- `VALUE_DEPTH_LIMIT` (lib.rs:22). -/
def VALUE_DEPTH_LIMIT : Nat := 64
/-- `known_tags::SELF_DESCRIBED` (lib.rs:146). -/
def TAG_SELF_DESCRIBED : Nat := 55799
/-- `known_tags::BIGNUM` (lib.rs:149). -/
def TAG_BIGNUM : Nat := 2

/-- `ValueDecodingError` (lib.rs:25-36). -/
inductive DecErr where
  | depthLimitExceeded
  | unsupportedKeyType
  | unsupportedTag (t : Nat)
  | unsupportedValueType
  deriving DecidableEq

mutual
/-- `ciborium_to_generic_value` (lib.rs:38-96). -/
def cborToGeneric (v : CVal) (depth : Nat) : Except DecErr Value :=
  if depth ≥ VALUE_DEPTH_LIMIT then .error .depthLimitExceeded
  else match v with
    | .int i => if i < 0 then .error .unsupportedValueType else .ok (.int i)
    | .bytes b => .ok (.blob b)
    | .text t => .ok (.text t)
    | .array vs =>
      match cborToGenericList vs (depth + 1) with
      | .ok vs' => .ok (.array vs')
      | .error e => .error e
    | .map kvs =>
      match cborToGenericMap kvs (depth + 1) [] with
      | .ok m => .ok (.map m)
      | .error e => .error e
    | .bool _ => .error .unsupportedValueType
    | .null => .error .unsupportedValueType
    | .float _ => .error .unsupportedValueType
    | .tag t v =>
      if t = TAG_SELF_DESCRIBED then cborToGeneric v (depth + 1)
      else if t = TAG_BIGNUM then
        match v with
        | .bytes b => .ok (.nat (ofBytesBE b))
        | _ => .error .unsupportedValueType
      else .error (.unsupportedTag t)
/-- lib.rs:59-62: the elements, stopping at the first error. -/
def cborToGenericList (vs : List CVal) (depth : Nat) : Except DecErr (List Value) :=
  match vs with
  | [] => .ok []
  | v :: t =>
    match cborToGeneric v depth with
    | .error e => .error e
    | .ok v' =>
      match cborToGenericList t depth with
      | .error e => .error e
      | .ok t' => .ok (v' :: t')
/-- lib.rs:65-73: the entries, collected into a `BTreeMap` (later entries win). -/
def cborToGenericMap (kvs : List (CVal × CVal)) (depth : Nat) (acc : List (Text × Value)) :
    Except DecErr (List (Text × Value)) :=
  match kvs with
  | [] => .ok acc
  | (k, v) :: t =>
    match k with
    | .text k' =>
      match cborToGeneric v depth with
      | .error e => .error e
      | .ok v' => cborToGenericMap t depth (mapInsert acc k' v')
    | _ => .error .unsupportedKeyType
end

mutual
/-- `generic_to_ciborium_value` (lib.rs:98-140); `none` is any error.
`ciborium::value::Integer` holds `-2^64 ..= 2^64-1`. -/
def genericToCbor (v : Value) (depth : Nat) : Option CVal :=
  if depth ≥ VALUE_DEPTH_LIMIT then none
  else match v with
    | .int i => if i < 0 then none else if i.toNat ≤ U64MAX then some (.int i) else none
    | .blob b => some (.bytes b)
    | .text t => some (.text t)
    | .array vs =>
      match genericToCborList vs (depth + 1) with
      | some vs' => some (.array vs')
      | none => none
    | .map kvs =>
      match genericToCborMap kvs (depth + 1) with
      | some m => some (.map m)
      | none => none
    | .nat n => some (.tag TAG_BIGNUM (.bytes (toBytesBE n)))
/-- lib.rs:114-121. -/
def genericToCborList (vs : List Value) (depth : Nat) : Option (List CVal) :=
  match vs with
  | [] => some []
  | v :: t =>
    match genericToCbor v depth with
    | none => none
    | some v' =>
      match genericToCborList t depth with
      | none => none
      | some t' => some (v' :: t')
/-- lib.rs:124-131. -/
def genericToCborMap (kvs : List (Text × Value)) (depth : Nat) : Option (List (CVal × CVal)) :=
  match kvs with
  | [] => some []
  | (k, v) :: t =>
    match genericToCbor v depth with
    | none => none
    | some v' =>
      match genericToCborMap t depth with
      | none => none
      | some t' => some ((.text k, v') :: t')
end

/-! ## Field names (UTF-8) -/
/-- "ts" -/ def kTs : Text := [0x74, 0x73]
/-- "memo" -/ def kMemo : Text := [0x6d, 0x65, 0x6d, 0x6f]
/-- "op" -/ def kOp : Text := [0x6f, 0x70]
/-- "from" -/ def kFrom : Text := [0x66, 0x72, 0x6f, 0x6d]
/-- "to" -/ def kTo : Text := [0x74, 0x6f]
/-- "spender" -/ def kSpender : Text := [0x73, 0x70, 0x65, 0x6e, 0x64, 0x65, 0x72]
/-- "amt" -/ def kAmt : Text := [0x61, 0x6d, 0x74]
/-- "fee" -/ def kFee : Text := [0x66, 0x65, 0x65]
/-- "expected_allowance" -/
def kExpectedAllowance : Text :=
  [0x65, 0x78, 0x70, 0x65, 0x63, 0x74, 0x65, 0x64, 0x5f,
   0x61, 0x6c, 0x6c, 0x6f, 0x77, 0x61, 0x6e, 0x63, 0x65]
/-- "expires_at" -/
def kExpiresAt : Text := [0x65, 0x78, 0x70, 0x69, 0x72, 0x65, 0x73, 0x5f, 0x61, 0x74]
/-- "tx" -/ def kTx : Text := [0x74, 0x78]
/-- "phash" -/ def kPhash : Text := [0x70, 0x68, 0x61, 0x73, 0x68]
/-- "mint" -/ def opMint : Text := [0x6d, 0x69, 0x6e, 0x74]
/-- "xfer" -/ def opXfer : Text := [0x78, 0x66, 0x65, 0x72]
/-- "burn" -/ def opBurn : Text := [0x62, 0x75, 0x72, 0x6e]
/-- "approve" -/ def opApprove : Text := [0x61, 0x70, 0x70, 0x72, 0x6f, 0x76, 0x65]

/-! ## Accounts as values -/

/-- `CompactAccount::from` (compact_account.rs:19-27). -/
def Account.compact (a : Account) : List Bytes :=
  match a.subaccount with
  | none => [a.owner.bytes]
  | some sub => [a.owner.bytes, sub.val]

/-- `TryFrom<CompactAccount> for Account` (compact_account.rs:29-61). -/
def Account.ofCompact (elems : List Bytes) : Option Account :=
  match elems with
  | [] => none
  | [p] => if h : p.length ≤ 29 then some ⟨⟨p, h⟩, none⟩ else none
  | [p, sub] =>
    if h : p.length ≤ 29 then
      if h' : sub.length = 32 then some ⟨⟨p, h⟩, some ⟨sub, h'⟩⟩ else none
    else none
  | _ => none

/-- `account_to_value` (storage.rs:94-100). -/
def accountToValue (a : Account) : Value := .array (a.compact.map .blob)

/-- The optional entry of a map. -/
def optInsert {V A : Type} (m : List (Text × V)) (k : Text) (o : Option A) (f : A → V) :
    List (Text × V) :=
  match o with
  | none => m
  | some a => mapInsert m k (f a)

/-- `Transaction::to_value` (storage.rs:103-180). -/
def Transaction.toValue (t : Transaction) : Value :=
  let m := optInsert [] kTs t.createdAtTime .nat
  let m := optInsert m kMemo t.memo .blob
  match t.operation with
  | .mint to amount fee =>
    let m := mapInsert m kOp (.text opMint)
    let m := mapInsert m kTo (accountToValue to)
    let m := mapInsert m kAmt (.nat amount)
    let m := mapInsert m kFee (.nat fee)
    .map m
  | .transfer frm to spender amount fee =>
    let m := mapInsert m kOp (.text opXfer)
    let m := mapInsert m kFrom (accountToValue frm)
    let m := mapInsert m kTo (accountToValue to)
    let m := optInsert m kSpender spender accountToValue
    let m := mapInsert m kAmt (.nat amount)
    let m := optInsert m kFee fee .nat
    .map m
  | .burn frm spender amount =>
    let m := mapInsert m kOp (.text opBurn)
    let m := mapInsert m kFrom (accountToValue frm)
    let m := optInsert m kSpender spender accountToValue
    let m := mapInsert m kAmt (.nat amount)
    .map m
  | .approve frm spender amount expectedAllowance expiresAt fee =>
    let m := mapInsert m kOp (.text opApprove)
    let m := mapInsert m kFrom (accountToValue frm)
    let m := mapInsert m kSpender (accountToValue spender)
    let m := mapInsert m kAmt (.nat amount)
    let m := optInsert m kExpectedAllowance expectedAllowance .nat
    let m := optInsert m kExpiresAt expiresAt .nat
    let m := optInsert m kFee fee .nat
    .map m

/-- `Block::to_value` (storage.rs:473-490). -/
def Block.toValue (b : Block) : Value :=
  let m := mapInsert [] kTx b.transaction.toValue
  let m := mapInsert m kTs (.nat b.timestamp)
  let m := optInsert m kPhash b.phash (fun h => .blob h.val)
  let m := optInsert m kFee b.effectiveFee .nat
  .map m

/-! ## Serde: `Transaction`/`Block` to and from `ciborium::Value` -/

/-- `FlattenedTransaction` (storage.rs:307-343). -/
structure Flat where
  createdAtTime : Option Nat
  memo : Option Bytes
  op : Text
  frm : Option Account
  to : Option Account
  spender : Option Account
  amount : Nat
  fee : Option Nat
  expectedAllowance : Option Nat
  expiresAt : Option Nat

/-- `From<Transaction> for FlattenedTransaction` (storage.rs:395-446). -/
def Transaction.flatten (t : Transaction) : Flat :=
  match t.operation with
  | .mint to amount fee =>
    ⟨t.createdAtTime, t.memo, opMint, none, some to, none, amount, some fee, none, none⟩
  | .transfer frm to spender amount fee =>
    ⟨t.createdAtTime, t.memo, opXfer, some frm, some to, spender, amount, fee, none, none⟩
  | .burn frm spender amount =>
    ⟨t.createdAtTime, t.memo, opBurn, some frm, none, spender, amount, none, none, none⟩
  | .approve frm spender amount ea exp fee =>
    ⟨t.createdAtTime, t.memo, opApprove, some frm, none, some spender, amount, fee, ea, exp⟩

/-- `TryFrom<FlattenedTransaction> for Transaction` (storage.rs:345-393). -/
def Flat.unflatten (f : Flat) : Option Transaction :=
  if f.op = opBurn then
    match f.frm with
    | none => none
    | some frm => some ⟨.burn frm f.spender f.amount, f.createdAtTime, f.memo⟩
  else if f.op = opMint then
    match f.to, f.fee with
    | some to, some fee => some ⟨.mint to f.amount fee, f.createdAtTime, f.memo⟩
    | _, _ => none
  else if f.op = opXfer then
    match f.frm, f.to with
    | some frm, some to => some ⟨.transfer frm to f.spender f.amount f.fee, f.createdAtTime, f.memo⟩
    | _, _ => none
  else if f.op = opApprove then
    match f.frm, f.spender with
    | some frm, some sp =>
      some ⟨.approve frm sp f.amount f.expectedAllowance f.expiresAt f.fee, f.createdAtTime, f.memo⟩
    | _, _ => none
  else none

/-- ciborium's serializer on an unsigned integer: `Integer` if it fits 64 bits,
else a tag-2 bignum (`serialize_u64`, `serialize_u128`). -/
def cborNat (n : Nat) : CVal :=
  if n ≤ U64MAX then .int n else .tag TAG_BIGNUM (.bytes (toBytesBE n))

/-- `compact_account::serialize` (compact_account.rs:63-68). -/
def cborAccount (a : Account) : CVal := .array (a.compact.map .bytes)

/-- A struct field with `skip_serializing_if = "Option::is_none"`. -/
def optField {A : Type} (k : Text) (o : Option A) (f : A → CVal) : List (CVal × CVal) :=
  match o with
  | none => []
  | some a => [(.text k, f a)]

/-- `#[derive(Serialize)]` on `FlattenedTransaction` (storage.rs:307-343): the
fields in declaration order. -/
def Flat.toCbor (f : Flat) : CVal :=
  .map (optField kTs f.createdAtTime cborNat
    ++ optField kMemo f.memo .bytes
    ++ [(.text kOp, .text f.op)]
    ++ optField kFrom f.frm cborAccount
    ++ optField kTo f.to cborAccount
    ++ optField kSpender f.spender cborAccount
    ++ [(.text kAmt, cborNat f.amount)]
    ++ optField kFee f.fee cborNat
    ++ optField kExpectedAllowance f.expectedAllowance cborNat
    ++ optField kExpiresAt f.expiresAt cborNat)

/-- `Serialize for Transaction` (storage.rs:85-87, `serde(into)`). -/
def Transaction.toCbor (t : Transaction) : CVal := t.flatten.toCbor

/-- `Serialize for Block` (storage.rs:448-459): `tx`, `ts`, `phash`, `fee`. -/
def Block.toCbor (b : Block) : CVal :=
  .map ([(.text kTx, b.transaction.toCbor), (.text kTs, cborNat b.timestamp)]
    ++ optField kPhash b.phash (fun h => .bytes h.val)
    ++ optField kFee b.effectiveFee cborNat)

end CyclesLedger
