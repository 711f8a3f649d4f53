import Verif.Model.Value
import Verif.Spec.Replay
/-!
# A client of the block log

What an index canister or wallet makes of the generic values `icrc3_get_blocks` serves: a
reader written after the ICRC-3 standard and the field names documented there, not after the
encoders of the ledger.  It is strict: a value with a missing, mistyped or unknown field is
not a block.
-/
namespace CyclesLedger
namespace Client

/-- ASCII text. -/
def ascii (s : String) : Text := s.toList.map (fun c => UInt8.ofNat c.toNat)

/-- The value of a field. -/
def get (kvs : List (Text × Value)) (k : String) : Option Value :=
  match kvs.find? (fun e => e.1 = ascii k) with
  | some e => some e.2
  | none => none

/-- A field that must be there, read by `f`. -/
def need {A : Type} (kvs : List (Text × Value)) (k : String) (f : Value → Option A) : Option A :=
  match get kvs k with
  | some v => f v
  | none => none

/-- A field that may be there. -/
def may {A : Type} (kvs : List (Text × Value)) (k : String) (f : Value → Option A) :
    Option (Option A) :=
  match get kvs k with
  | some v => (f v).map some
  | none => some none

/-- No other fields than these. -/
def only (kvs : List (Text × Value)) (ks : List String) : Bool :=
  kvs.all (fun e => decide (e.1 ∈ ks.map ascii))

def nat : Value → Option Nat
  | .nat n => some n
  | _ => none

def blob : Value → Option Bytes
  | .blob b => some b
  | _ => none

def hash : Value → Option Hash
  | .blob b => if h : b.length = 32 then some ⟨b, h⟩ else none
  | _ => none

/-- An account: a principal, or a principal and a subaccount of 32 bytes. -/
def account : Value → Option Account
  | .array [.blob p] => if h : p.length ≤ 29 then some ⟨⟨p, h⟩, none⟩ else none
  | .array [.blob p, .blob sub] =>
    if h : p.length ≤ 29 then
      if h' : sub.length = 32 then some ⟨⟨p, h⟩, some ⟨sub, h'⟩⟩ else none
    else none
  | _ => none

/-- The operation, by the field `op`, with the fields it may have. -/
def operation (kvs : List (Text × Value)) : Option (Operation × List String) :=
  match get kvs "op" with
  | some (.text op) =>
    if op = ascii "mint" then do
      let to ← need kvs "to" account
      let amt ← need kvs "amt" nat
      let fee ← need kvs "fee" nat
      some (.mint to amt fee, ["to", "amt", "fee"])
    else if op = ascii "burn" then do
      let frm ← need kvs "from" account
      let spender ← may kvs "spender" account
      let amt ← need kvs "amt" nat
      some (.burn frm spender amt, ["from", "spender", "amt"])
    else if op = ascii "xfer" then do
      let frm ← need kvs "from" account
      let to ← need kvs "to" account
      let spender ← may kvs "spender" account
      let amt ← need kvs "amt" nat
      let fee ← may kvs "fee" nat
      some (.transfer frm to spender amt fee, ["from", "to", "spender", "amt", "fee"])
    else if op = ascii "approve" then do
      let frm ← need kvs "from" account
      let spender ← need kvs "spender" account
      let amt ← need kvs "amt" nat
      let expected ← may kvs "expected_allowance" nat
      let expires ← may kvs "expires_at" nat
      let fee ← may kvs "fee" nat
      some (.approve frm spender amt expected expires fee,
        ["from", "spender", "amt", "expected_allowance", "expires_at", "fee"])
    else none
  | _ => none

/-- A transaction. -/
def transaction : Value → Option Transaction
  | .map kvs => do
    let op ← operation kvs
    let ts ← may kvs "ts" nat
    let memo ← may kvs "memo" blob
    if only kvs ("op" :: "ts" :: "memo" :: op.2) then some ⟨op.1, ts, memo⟩ else none
  | _ => none

/-- A block. -/
def block : Value → Option Block
  | .map kvs => do
    let tx ← need kvs "tx" transaction
    let ts ← need kvs "ts" nat
    let phash ← may kvs "phash" hash
    let fee ← may kvs "fee" nat
    if only kvs ["tx", "ts", "phash", "fee"] then some ⟨tx, ts, phash, fee⟩ else none
  | _ => none

/-- The blocks of a log, if all of them can be read. -/
def log : List Value → Option (List Block)
  | [] => some []
  | v :: vs =>
    match block v, log vs with
    | some b, some bs => some (b :: bs)
    | _, _ => none

/-- The parent hash a block value names. -/
def parent : Value → Option Value
  | .map kvs => get kvs "phash"
  | _ => none

/-- ICRC-3, "Block Log": the type of a block without field `btype` is told by `tx.op`. -/
def blockType : Value → Option String
  | .map kvs =>
    match get kvs "tx" with
    | some (.map tx) =>
      match get tx "op" with
      | some (.text op) =>
        if op = ascii "mint" then some "1mint"
        else if op = ascii "burn" then some "1burn"
        else if op = ascii "xfer" then
          if (get tx "spender").isSome then some "2xfer" else some "1xfer"
        else if op = ascii "approve" then some "2approve"
        else none
      | _ => none
    | _ => none
  | _ => none

end Client
end CyclesLedger
