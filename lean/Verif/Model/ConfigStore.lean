import Verif.Model.Wire
/-!
# The configuration in stable memory: `impl Storable for Config` (config.rs:50-64)

`#[derive(Serialize, Deserialize)]` on `Config` (config.rs:23-38) and on the `Account` of
icrc-ledger-types: structs are maps from field names, `None` is `null`, tuples and byte arrays
(`[u8; 32]`) are arrays.  `Principal` of candid is a byte string in binary formats.
-/
namespace CyclesLedger

/-- Text of ASCII characters. -/
def asciiText (s : String) : Text := s.toList.map (fun c => UInt8.ofNat c.toNat)

def kMaxBlocks : Text := asciiText "max_blocks_per_request"
def kIndexId : Text := asciiText "index_id"
def kInitialBalances : Text := asciiText "initial_balances"
def kOwner : Text := asciiText "owner"
def kSubaccount : Text := asciiText "subaccount"

/-- `Serialize for Option<T>`. -/
def cborOpt {A : Type} (f : A → CVal) : Option A → CVal
  | none => .null
  | some a => f a

/-- `Serialize for Principal` (candid, not human readable). -/
def cborPrincipal (p : Principal) : CVal := .bytes p.bytes

/-- `Serialize for [u8; 32]`. -/
def cborSubaccount (s : Subaccount) : CVal := .array (s.val.map (fun b => cborNat b.toNat))

/-- `Serialize for Account` (icrc-ledger-types). -/
def cborIcrcAccount (a : Account) : CVal :=
  .map [(.text kOwner, cborPrincipal a.owner), (.text kSubaccount, cborOpt cborSubaccount a.subaccount)]

/-- `Serialize for (Account, u128)`. -/
def cborBalance (b : Account × Nat) : CVal := .array [cborIcrcAccount b.1, cborNat b.2]

/-- `Serialize for Config`. -/
def Config.toCbor (c : Config) : CVal :=
  .map [(.text kMaxBlocks, cborNat c.maxBlocksPerRequest),
    (.text kIndexId, cborOpt cborPrincipal c.indexId),
    (.text kInitialBalances, cborOpt (fun l => .array (l.map cborBalance)) c.initialBalances)]

/-- `Config::to_bytes` (config.rs:51-55). -/
def Config.toBytes (c : Config) : Bytes := c.toCbor.encode

/-- All elements of an array. -/
def readAll {A : Type} (f : CVal → Option A) : List CVal → Option (List A)
  | [] => some []
  | c :: t =>
    match f c, readAll f t with
    | some a, some l => some (a :: l)
    | _, _ => none

/-- `Deserialize for Principal` (candid): at most 29 bytes. -/
def readPrincipal (c : CVal) : Option Principal :=
  match readBytes c with
  | some b => if h : b.length ≤ 29 then some ⟨b, h⟩ else none
  | none => none

/-- `Deserialize for [u8; 32]`. -/
def readSubaccount (c : CVal) : Option Subaccount :=
  match stripTags c with
  | .array vs =>
    match readAll (readNat 255) vs with
    | some l => if h : (l.map UInt8.ofNat).length = 32 then some ⟨l.map UInt8.ofNat, h⟩ else none
    | none => none
  | _ => none

/-- `Deserialize for Account` (icrc-ledger-types). -/
def readIcrcAccount (c : CVal) : Option Account :=
  match stripTags c with
  | .map kvs =>
    if textKeys kvs then do
      let owner ← field kvs kOwner readPrincipal
      let subaccount ← fieldOpt kvs kSubaccount readSubaccount
      some ⟨owner, subaccount⟩
    else none
  | _ => none

/-- `Deserialize for (Account, u128)`. -/
def readBalance (c : CVal) : Option (Account × Nat) :=
  match stripTags c with
  | .array [a, n] =>
    match readIcrcAccount a, readNat U128MAX n with
    | some a, some n => some (a, n)
    | _, _ => none
  | _ => none

/-- `Vec::<(Account, u128)>::deserialize`. -/
def readBalances (c : CVal) : Option (List (Account × Nat)) :=
  match stripTags c with
  | .array vs => readAll readBalance vs
  | _ => none

/-- `Deserialize for Config`. -/
def Config.ofCbor (c : CVal) : Option Config :=
  match stripTags c with
  | .map kvs =>
    if textKeys kvs then do
      let maxBlocks ← field kvs kMaxBlocks (readNat U64MAX)
      let indexId ← fieldOpt kvs kIndexId readPrincipal
      let initialBalances ← fieldOpt kvs kInitialBalances readBalances
      some ⟨maxBlocks, indexId, initialBalances⟩
    else none
  | _ => none

/-- `Config::from_bytes` (config.rs:57-60); `none` is the panic. -/
def Config.ofBytes (b : Bytes) : Option Config :=
  match Cbor.read b with
  | some c => Config.ofCbor c
  | none => none

end CyclesLedger
