import Verif.Model.Endpoints
import Verif.Model.Value
/-!
# The arguments of the endpoints as Candid messages

What `candid::Decode!` makes of the bytes of a call, for the argument types of the endpoints
(endpoints.rs:31-82, 201-207, 249-294; config.rs:23-38; `icrc-ledger-types` 0.1.12 for the ICRC
types), after candid 0.10.20.  The library is not part of /repo: this file follows the Candid
specification and the documented behaviour of the library.

The types in the header of a message may be recursive.  They are unfolded to trees, of a depth that
neither a value in so many bytes nor a type that an endpoint expects can reach; below is `cut`.

Simplified: the signatures of functions and services are read and then dropped, as no endpoint
expects functions or services; types of future versions of Candid are refused; a record that
contains itself, of which there are no values, is not identified with `empty`; text is not checked to
be UTF-8; the bounds of the library on the work done for a message, and on the size of lengths and of
the numbers in the header (64 bits), are left out.
-/
namespace CyclesLedger.Candid

/-- The hash of a field name: the number that stands for it in a message. -/
def label (name : String) : Nat :=
  name.toList.foldl (fun h c => (h * 223 + c.toNat) % 4294967296) 0

/-- The types of values of fixed size. -/
inductive Fixed where
  | nat8 | nat16 | nat32 | nat64 | int8 | int16 | int32 | int64 | float32 | float64
  deriving DecidableEq

/-- Bytes of such a value. -/
def Fixed.width : Fixed → Nat
  | .nat8 => 1 | .nat16 => 2 | .nat32 => 4 | .nat64 => 8
  | .int8 => 1 | .int16 => 2 | .int32 => 4 | .int64 => 8
  | .float32 => 4 | .float64 => 8

mutual
/-- Types. -/
inductive Ty where
  | null | bool | nat | int | text | reserved | principal
  | empty | func | service | cut
  | fixed (f : Fixed)
  | opt (t : Ty)
  | vec (t : Ty)
  | record (fs : Fields)
  | variant (fs : Fields)
/-- Labels and types of the fields of a record, or of the cases of a variant. -/
inductive Fields where
  | nil
  | cons (label : Nat) (t : Ty) (rest : Fields)
end

mutual
/-- Values.  The fields of a record are in the order of its type; a variant is the position of its
case in the type, and its content.  Numbers of fixed size, and integers, are kept as their bytes. -/
inductive Val where
  | null
  | bool (b : Bool)
  | nat (n : Nat)
  | int (bs : Bytes)
  | text (bs : Bytes)
  | reserved
  | principal (bs : Bytes)
  | service (bs : Bytes)
  | func (bs name : Bytes)
  | fixed (bs : Bytes)
  | none
  | some (v : Val)
  | vec (vs : Vals)
  | record (vs : Vals)
  | variant (i : Nat) (v : Val)
inductive Vals where
  | nil
  | cons (v : Val) (rest : Vals)
end

def Fields.ofList : List (Nat × Ty) → Fields
  | [] => .nil
  | (l, t) :: rest => .cons l t (ofList rest)

def Vals.ofList : List Val → Vals
  | [] => .nil
  | v :: rest => .cons v (ofList rest)

def Vals.toList : Vals → List Val
  | .nil => []
  | .cons v rest => v :: rest.toList

/-! ## Reading bytes -/

/-- Unsigned LEB128. -/
def unleb : Bytes → Option (Nat × Bytes)
  | [] => none
  | b :: bs =>
    if b.toNat < 128 then some (b.toNat, bs)
    else match unleb bs with
      | none => none
      | some (n, rest) => some (b.toNat - 128 + 128 * n, rest)

/-- Signed LEB128. -/
def unsleb : Bytes → Option (Int × Bytes)
  | [] => none
  | b :: bs =>
    if b.toNat < 64 then some ((b.toNat : Int), bs)
    else if b.toNat < 128 then some ((b.toNat : Int) - 128, bs)
    else match unsleb bs with
      | none => none
      | some (n, rest) => some ((b.toNat : Int) - 128 + 128 * n, rest)

/-- The bytes of one LEB128 number. -/
def unint : Bytes → Option (Bytes × Bytes)
  | [] => none
  | b :: bs =>
    if b.toNat < 128 then some ([b], bs)
    else match unint bs with
      | none => none
      | some (x, rest) => some (b :: x, rest)

/-- The first `n` bytes. -/
def takeBytes (n : Nat) (bs : Bytes) : Option (Bytes × Bytes) :=
  if n ≤ bs.length then some (bs.take n, bs.drop n) else none

/-- A length and that many bytes. -/
def takeBlob (bs : Bytes) : Option (Bytes × Bytes) :=
  match unleb bs with
  | none => none
  | some (n, rest) => takeBytes n rest

/-- `n` times the same. -/
def readMany {A : Type} (f : Bytes → Option (A × Bytes)) : Nat → Bytes → Option (List A × Bytes)
  | 0, bs => some ([], bs)
  | n + 1, bs =>
    match f bs with
    | none => none
    | some (a, rest) =>
      match readMany f n rest with
      | none => none
      | some (as, rest) => some (a :: as, rest)

/-- The bytes of a principal. -/
def readId (bs : Bytes) : Option (Bytes × Bytes) :=
  match bs with
  | [] => none
  | b :: rest =>
    if b = 1 then
      match takeBlob rest with
      | none => none
      | some (p, rest) => if p.length ≤ 29 then some (p, rest) else none
    else none

/-- A function: a principal and the name of a method. -/
def readFun (bs : Bytes) : Option ((Bytes × Bytes) × Bytes) :=
  match bs with
  | [] => none
  | b :: rest =>
    if b = 1 then
      match readId rest with
      | none => none
      | some (p, rest) => (takeBlob rest).map (fun m => ((p, m.1), m.2))
    else none

mutual
/-- A value of a type. -/
def readVal : Ty → Bytes → Option (Val × Bytes)
  | .null, bs => some (.null, bs)
  | .reserved, bs => some (.reserved, bs)
  | .bool, bs =>
    match bs with
    | [] => none
    | b :: rest =>
      if b = 0 then some (.bool false, rest) else if b = 1 then some (.bool true, rest) else none
  | .nat, bs => (unleb bs).map (fun p => (.nat p.1, p.2))
  | .int, bs => (unint bs).map (fun p => (.int p.1, p.2))
  | .text, bs => (takeBlob bs).map (fun p => (.text p.1, p.2))
  | .principal, bs => (readId bs).map (fun p => (.principal p.1, p.2))
  | .service, bs => (readId bs).map (fun p => (.service p.1, p.2))
  | .func, bs => (readFun bs).map (fun p => (.func p.1.1 p.1.2, p.2))
  | .empty, _ => none
  | .cut, _ => none
  | .fixed f, bs => (takeBytes f.width bs).map (fun p => (.fixed p.1, p.2))
  | .opt t, bs =>
    match bs with
    | [] => none
    | b :: rest =>
      if b = 0 then some (.none, rest)
      else if b = 1 then (readVal t rest).map (fun p => (.some p.1, p.2))
      else none
  | .vec t, bs =>
    match unleb bs with
    | none => none
    | some (n, rest) =>
      (readMany (fun bs => readVal t bs) n rest).map (fun p => (.vec (Vals.ofList p.1), p.2))
  | .record fs, bs => (readRecord fs bs).map (fun p => (.record p.1, p.2))
  | .variant fs, bs =>
    match unleb bs with
    | none => none
    | some (i, rest) => (readCase fs i rest).map (fun p => (.variant i p.1, p.2))
def readRecord : Fields → Bytes → Option (Vals × Bytes)
  | .nil, bs => some (.nil, bs)
  | .cons _ t fs, bs =>
    match readVal t bs with
    | none => none
    | some (v, rest) => (readRecord fs rest).map (fun p => (.cons v p.1, p.2))
def readCase : Fields → Nat → Bytes → Option (Val × Bytes)
  | .nil, _, _ => none
  | .cons _ t _, 0, bs => readVal t bs
  | .cons _ _ fs, i + 1, bs => readCase fs i bs
end

/-! ## The header -/

/-- An entry of the table of types; a type is referred to by its code if it is simple, and
otherwise by its position in the table. -/
inductive Comp where
  | opt (r : Int)
  | vec (r : Int)
  | record (fs : List (Nat × Int))
  | variant (fs : List (Nat × Int))
  | func (args results : List Int) (notes : Bytes)
  | service (methods : List (Bytes × Int))

def readField (bs : Bytes) : Option ((Nat × Int) × Bytes) :=
  match unleb bs with
  | none => none
  | some (l, rest) => (unsleb rest).map (fun p => ((l, p.1), p.2))

/-- Labels strictly increase. -/
def increasing : List (Nat × Int) → Bool
  | [] => true
  | [_] => true
  | a :: b :: rest => decide (a.1 < b.1) && increasing (b :: rest)

def readFields (bs : Bytes) : Option (List (Nat × Int) × Bytes) :=
  match unleb bs with
  | none => none
  | some (n, rest) =>
    match readMany readField n rest with
    | none => none
    | some (fs, rest) => if increasing fs then some (fs, rest) else none

def readRefs (bs : Bytes) : Option (List Int × Bytes) :=
  match unleb bs with
  | none => none
  | some (n, rest) => readMany unsleb n rest

/-- Arguments and results of a function, and at most one annotation. -/
def readFunc (bs : Bytes) : Option (Comp × Bytes) :=
  match readRefs bs with
  | none => none
  | some (as, bs) =>
    match readRefs bs with
    | none => none
    | some (rs, bs) =>
      match takeBlob bs with
      | none => none
      | some (notes, bs) =>
        if notes.length ≤ 1 ∧ (∀ n ∈ notes, 1 ≤ n.toNat ∧ n.toNat ≤ 3) then
          some (.func as rs notes, bs)
        else none

def readMethod (bs : Bytes) : Option ((Bytes × Int) × Bytes) :=
  match takeBlob bs with
  | none => none
  | some (name, rest) => (unsleb rest).map (fun p => ((name, p.1), p.2))

/-- One name comes before another. -/
def before : Bytes → Bytes → Bool
  | _, [] => false
  | [], _ :: _ => true
  | a :: as, b :: bs => decide (a < b) || (a == b && before as bs)

/-- Names strictly increase. -/
def rising : List (Bytes × Int) → Bool
  | [] => true
  | [_] => true
  | a :: b :: rest => before a.1 b.1 && rising (b :: rest)

def readService (bs : Bytes) : Option (Comp × Bytes) :=
  match unleb bs with
  | none => none
  | some (n, rest) =>
    match readMany readMethod n rest with
    | none => none
    | some (ms, rest) => if rising ms then some (.service ms, rest) else none

def readComp (bs : Bytes) : Option (Comp × Bytes) :=
  match unsleb bs with
  | none => none
  | some (op, rest) =>
    if op = -18 then (unsleb rest).map (fun p => (.opt p.1, p.2))
    else if op = -19 then (unsleb rest).map (fun p => (.vec p.1, p.2))
    else if op = -20 then (readFields rest).map (fun p => (.record p.1, p.2))
    else if op = -21 then (readFields rest).map (fun p => (.variant p.1, p.2))
    else if op = -22 then readFunc rest
    else if op = -23 then readService rest
    else none

/-- The simple type of a code. -/
def simple (r : Int) : Option Ty :=
  if r = -1 then some .null
  else if r = -2 then some .bool
  else if r = -3 then some .nat
  else if r = -4 then some .int
  else if r = -5 then some (.fixed .nat8)
  else if r = -6 then some (.fixed .nat16)
  else if r = -7 then some (.fixed .nat32)
  else if r = -8 then some (.fixed .nat64)
  else if r = -9 then some (.fixed .int8)
  else if r = -10 then some (.fixed .int16)
  else if r = -11 then some (.fixed .int32)
  else if r = -12 then some (.fixed .int64)
  else if r = -13 then some (.fixed .float32)
  else if r = -14 then some (.fixed .float64)
  else if r = -15 then some .text
  else if r = -16 then some .reserved
  else if r = -17 then some .empty
  else if r = -24 then some .principal
  else none

/-- A reference: the code of a simple type, or a position in the table. -/
def refers (table : List Comp) (r : Int) : Bool :=
  if r < 0 then (simple r).isSome else decide (r.toNat < table.length)

/-- A reference to a function. -/
def isFunc (table : List Comp) (r : Int) : Bool :=
  decide (0 ≤ r) && match table[r.toNat]? with
    | some (.func _ _ _) => true
    | _ => false

/-- The references in an entry of the table; the methods of a service are functions. -/
def closed (table : List Comp) : Comp → Bool
  | .opt r => refers table r
  | .vec r => refers table r
  | .record fs => fs.all (fun f => refers table f.2)
  | .variant fs => fs.all (fun f => refers table f.2)
  | .func as rs _ => as.all (refers table) && rs.all (refers table)
  | .service ms => ms.all (fun m => isFunc table m.2)

def resolveFields (f : Int → Option Ty) : List (Nat × Int) → Option Fields
  | [] => some .nil
  | (l, r) :: rest =>
    match f r with
    | none => none
    | some t => (resolveFields f rest).map (fun fs => .cons l t fs)

/-- The type a reference stands for, unfolded to a depth. -/
def resolve (table : List Comp) : Nat → Int → Option Ty
  | 0, _ => some .cut
  | k + 1, r =>
    if r < 0 then simple r
    else match table[r.toNat]? with
      | none => none
      | some (.opt r) => (resolve table k r).map .opt
      | some (.vec r) => (resolve table k r).map .vec
      | some (.record fs) => (resolveFields (fun r => resolve table k r) fs).map .record
      | some (.variant fs) => (resolveFields (fun r => resolve table k r) fs).map .variant
      | some (.func _ _ _) => some .func
      | some (.service _) => some .service

/-- A depth that no value in `n` bytes reaches, nor any type that is expected. -/
def enough (table : List Comp) (n : Nat) : Nat := (table.length + 1) * (n + 17)

/-- All of a list, or nothing. -/
def allSome {A B : Type} (f : A → Option B) : List A → Option (List B)
  | [] => some []
  | a :: as =>
    match f a with
    | none => none
    | some b => (allSome f as).map (fun bs => b :: bs)

/-- The values after the header. -/
def readArgs : List Ty → Bytes → Option (List (Ty × Val) × Bytes)
  | [], bs => some ([], bs)
  | t :: ts, bs =>
    match readVal t bs with
    | none => none
    | some (v, rest) => (readArgs ts rest).map (fun p => ((t, v) :: p.1, p.2))

/-- A message: `DIDL`, the table of types, the types of the arguments, the arguments; nothing may
be left. -/
def readMessage (message : Bytes) : Option (List (Ty × Val)) :=
  match takeBytes 4 message with
  | none => none
  | some (magic, bs) =>
    if magic ≠ [68, 73, 68, 76] then none
    else match unleb bs with
      | none => none
      | some (n, bs) =>
      match readMany readComp n bs with
      | none => none
      | some (table, bs) =>
      match unleb bs with
      | none => none
      | some (k, bs) =>
      match readMany unsleb k bs with
      | none => none
      | some (refs, bs) =>
      if ¬ table.all (closed table) then none
      else match allSome (resolve table (enough table message.length)) refs with
      | none => none
      | some types =>
      match readArgs types bs with
      | some (args, []) => some args
      | _ => none

/-! ## Subtyping -/

/-- The type of a field. -/
def Fields.find (l : Nat) : Fields → Option Ty
  | .nil => none
  | .cons l' t rest => if l = l' then some t else rest.find l

/-- May be left out of a record. -/
def Ty.optional : Ty → Bool
  | .null => true
  | .reserved => true
  | .opt _ => true
  | _ => false

def Fields.within : Fields → Fields → Bool
  | .nil, _ => true
  | .cons l _ rest, gs => (gs.find l).isSome && rest.within gs

mutual
/-- Whether a value of the type `wire` is accepted where the first type is expected (which is never a
function or a service). -/
def accepts : Ty → (wire : Ty) → Bool
  | .opt _, _ => true
  | .reserved, _ => true
  | .null, w => match w with | .null => true | .empty => true | _ => false
  | .bool, w => match w with | .bool => true | .empty => true | _ => false
  | .nat, w => match w with | .nat => true | .empty => true | _ => false
  | .int, w => match w with | .nat => true | .int => true | .empty => true | _ => false
  | .text, w => match w with | .text => true | .empty => true | _ => false
  | .principal, w => match w with | .principal => true | .empty => true | _ => false
  | .fixed f, w => match w with | .fixed g => decide (f = g) | .empty => true | _ => false
  | .vec t, w => match w with | .vec u => accepts t u | .empty => true | _ => false
  | .record fs, w => match w with | .record gs => acceptsRecord fs gs | .empty => true | _ => false
  | .variant fs, w =>
    match w with
    | .variant gs => gs.within fs && acceptsCases fs gs
    | .empty => true
    | _ => false
  | .empty, w => match w with | .empty => true | _ => false
  | .func, _ => false
  | .service, _ => false
  | .cut, _ => false
/-- Every field expected is there, or may be left out. -/
def acceptsRecord : Fields → Fields → Bool
  | .nil, _ => true
  | .cons l t rest, gs =>
    (match gs.find l with
      | some u => accepts t u
      | none => t.optional) && acceptsRecord rest gs
/-- The cases in common agree. -/
def acceptsCases : Fields → Fields → Bool
  | .nil, _ => true
  | .cons l t rest, gs =>
    (match gs.find l with
      | some u => accepts t u
      | none => true) && acceptsCases rest gs
end

/-! ## Rust types -/

/-- A Rust type that can be read from Candid: the type it asks for, what is made of a value of a
given type, and what is made of a missing one. -/
structure Des (A : Type) where
  ty : Ty
  get : Ty → Val → Option A
  missing : Option A := none

/-- `Nat`. -/
def desNat : Des Nat where
  ty := .nat
  get := fun _ v => match v with | .nat n => some n | _ => none

/-- `u128`: a `nat` that fits. -/
def desU128 : Des Nat where
  ty := .nat
  get := fun _ v => match v with | .nat n => toU128 n | _ => none

/-- `u64`. -/
def desU64 : Des UInt64 where
  ty := .fixed .nat64
  get := fun _ v => match v with | .fixed bs => some (UInt64.ofNat (ofLE bs)) | _ => none

/-- `String`. -/
def desText : Des Bytes where
  ty := .text
  get := fun _ v => match v with | .text bs => some bs | _ => none

/-- `Principal`. -/
def desPrincipal : Des Principal where
  ty := .principal
  get := fun _ v =>
    match v with
    | .principal bs => if h : bs.length ≤ 29 then some ⟨bs, h⟩ else none
    | _ => none

/-- The bytes of a `vec nat8`. -/
def Vals.bytes : Vals → Option Bytes
  | .nil => some []
  | .cons (.fixed [b]) rest => rest.bytes.map (fun bs => b :: bs)
  | .cons _ _ => none

/-- `ByteBuf`, the content of a `Memo`. -/
def desBlob : Des Bytes where
  ty := .vec (.fixed .nat8)
  get := fun _ v => match v with | .vec vs => vs.bytes | _ => none

/-- `[u8; 32]`. -/
def desSubaccount : Des Subaccount where
  ty := .vec (.fixed .nat8)
  get := fun w v =>
    match desBlob.get w v with
    | some bs => if h : bs.length = 32 then some ⟨bs, h⟩ else none
    | none => none

/-- What is made of something that is there: what is asked for, or nothing if it is of another
type. -/
def desSome {A : Type} (d : Des A) (w : Ty) (v : Val) : Option (Option A) :=
  if accepts d.ty w then (d.get w v).map some else some none

/-- `Option<T>`: null, an optional value, or the value itself. -/
def desOpt {A : Type} (d : Des A) : Des (Option A) where
  ty := .opt d.ty
  get := fun w v =>
    match w with
    | .null => some none
    | .reserved => some none
    | .opt w =>
      match v with
      | .some v => desSome d w v
      | .none => some none
      | _ => none
    | w => desSome d w v
  missing := some none

/-- `Vec<T>`. -/
def desVec {A : Type} (d : Des A) : Des (List A) where
  ty := .vec d.ty
  get := fun w v =>
    match w, v with
    | .vec w, .vec vs => allSome (d.get w) vs.toList
    | _, _ => none

/-- Type and value of a field of a record. -/
def findField (l : Nat) : Fields → Vals → Option (Ty × Val)
  | .cons l' t fs, .cons v vs => if l = l' then some (t, v) else findField l fs vs
  | _, _ => none

/-- A field of a struct; fields not asked for are skipped. -/
def fieldAt {A : Type} (d : Des A) (l : Nat) (w : Ty) (v : Val) : Option A :=
  match w, v with
  | .record fs, .record vs =>
    match findField l fs vs with
    | some (t, x) => d.get t x
    | none => d.missing
  | _, _ => none

def field {A : Type} (d : Des A) (name : String) (w : Ty) (v : Val) : Option A :=
  fieldAt d (label name) w v

/-- The type of a struct. -/
def struct (l : List (String × Ty)) : Ty := .record (Fields.ofList (l.map (fun f => (label f.1, f.2))))

/-- The type of an enum. -/
def enum (l : List (String × Ty)) : Ty := .variant (Fields.ofList (l.map (fun f => (label f.1, f.2))))

def Fields.get? : Fields → Nat → Option (Nat × Ty)
  | .nil, _ => none
  | .cons l t _, 0 => some (l, t)
  | .cons _ _ rest, i + 1 => rest.get? i

/-- The case of an enum: its label, and type and value of its content. -/
def theCase (w : Ty) (v : Val) : Option (Nat × Ty × Val) :=
  match w, v with
  | .variant fs, .variant i x => (fs.get? i).map (fun f => (f.1, f.2, x))
  | _, _ => none

/-- `Decode!` for an endpoint of one argument: a message for more is fine, the rest is ignored. -/
def decode {A : Type} (d : Des A) (bs : Bytes) : Option A :=
  match readMessage bs with
  | none => none
  | some [] => d.missing
  | some ((w, v) :: _) => if accepts d.ty w then d.get w v else none

/-! ## The arguments -/

/-- `icrc1::account::Account`. -/
def desAccount : Des Account where
  ty := struct [("owner", desPrincipal.ty), ("subaccount", (desOpt desSubaccount).ty)]
  get := fun w v => do
    let owner ← field desPrincipal "owner" w v
    let subaccount ← field (desOpt desSubaccount) "subaccount" w v
    return ⟨owner, subaccount⟩

/-- `DepositArg` (endpoints.rs:45-49). -/
def desDeposit : Des DepositArg where
  ty := struct [("to", desAccount.ty), ("memo", (desOpt desBlob).ty)]
  get := fun w v => do
    let to ← field desAccount "to" w v
    let memo ← field (desOpt desBlob) "memo" w v
    return ⟨to, memo⟩

/-- `icrc1::transfer::TransferArg`. -/
def desTransfer : Des TransferArgs where
  ty := struct [("from_subaccount", (desOpt desSubaccount).ty), ("to", desAccount.ty),
    ("fee", (desOpt desNat).ty), ("created_at_time", (desOpt desU64).ty),
    ("memo", (desOpt desBlob).ty), ("amount", desNat.ty)]
  get := fun w v => do
    let fromSubaccount ← field (desOpt desSubaccount) "from_subaccount" w v
    let to ← field desAccount "to" w v
    let fee ← field (desOpt desNat) "fee" w v
    let createdAtTime ← field (desOpt desU64) "created_at_time" w v
    let memo ← field (desOpt desBlob) "memo" w v
    let amount ← field desNat "amount" w v
    return ⟨fromSubaccount, to, amount, fee, memo, createdAtTime⟩

/-- `icrc2::transfer_from::TransferFromArgs`. -/
def desTransferFrom : Des TransferFromArgs where
  ty := struct [("spender_subaccount", (desOpt desSubaccount).ty), ("from", desAccount.ty),
    ("to", desAccount.ty), ("amount", desNat.ty), ("fee", (desOpt desNat).ty),
    ("memo", (desOpt desBlob).ty), ("created_at_time", (desOpt desU64).ty)]
  get := fun w v => do
    let spenderSubaccount ← field (desOpt desSubaccount) "spender_subaccount" w v
    let frm ← field desAccount "from" w v
    let to ← field desAccount "to" w v
    let amount ← field desNat "amount" w v
    let fee ← field (desOpt desNat) "fee" w v
    let memo ← field (desOpt desBlob) "memo" w v
    let createdAtTime ← field (desOpt desU64) "created_at_time" w v
    return ⟨spenderSubaccount, frm, to, amount, fee, memo, createdAtTime⟩

/-- `icrc2::approve::ApproveArgs`. -/
def desApprove : Des ApproveArgs where
  ty := struct [("from_subaccount", (desOpt desSubaccount).ty), ("spender", desAccount.ty),
    ("amount", desNat.ty), ("expected_allowance", (desOpt desNat).ty),
    ("expires_at", (desOpt desU64).ty), ("fee", (desOpt desNat).ty),
    ("memo", (desOpt desBlob).ty), ("created_at_time", (desOpt desU64).ty)]
  get := fun w v => do
    let fromSubaccount ← field (desOpt desSubaccount) "from_subaccount" w v
    let spender ← field desAccount "spender" w v
    let amount ← field desNat "amount" w v
    let expectedAllowance ← field (desOpt desNat) "expected_allowance" w v
    let expiresAt ← field (desOpt desU64) "expires_at" w v
    let fee ← field (desOpt desNat) "fee" w v
    let memo ← field (desOpt desBlob) "memo" w v
    let createdAtTime ← field (desOpt desU64) "created_at_time" w v
    return ⟨fromSubaccount, spender, amount, expectedAllowance, expiresAt, fee, memo, createdAtTime⟩

/-- `WithdrawArgs` (endpoints.rs:64-71). -/
def desWithdraw : Des WithdrawArgs where
  ty := struct [("from_subaccount", (desOpt desSubaccount).ty), ("to", desPrincipal.ty),
    ("created_at_time", (desOpt desU64).ty), ("amount", desNat.ty)]
  get := fun w v => do
    let fromSubaccount ← field (desOpt desSubaccount) "from_subaccount" w v
    let to ← field desPrincipal "to" w v
    let createdAtTime ← field (desOpt desU64) "created_at_time" w v
    let amount ← field desNat "amount" w v
    return ⟨fromSubaccount, to, createdAtTime, amount⟩

/-- `WithdrawFromArgs` (endpoints.rs:74-82). -/
def desWithdrawFrom : Des WithdrawFromArgs where
  ty := struct [("spender_subaccount", (desOpt desSubaccount).ty), ("from", desAccount.ty),
    ("to", desPrincipal.ty), ("created_at_time", (desOpt desU64).ty), ("amount", desNat.ty)]
  get := fun w v => do
    let spenderSubaccount ← field (desOpt desSubaccount) "spender_subaccount" w v
    let frm ← field desAccount "from" w v
    let to ← field desPrincipal "to" w v
    let createdAtTime ← field (desOpt desU64) "created_at_time" w v
    let amount ← field desNat "amount" w v
    return ⟨spenderSubaccount, frm, to, createdAtTime, amount⟩

/-- `LogVisibility` of ic_cdk 0.19. -/
def desLogVisibility : Des LogVisibility where
  ty := enum [("controllers", .null), ("public", .null),
    ("allowed_viewers", (desVec desPrincipal).ty)]
  get := fun w v =>
    match theCase w v with
    | none => none
    | some (l, t, x) =>
      if l = label "controllers" then some .controllers
      else if l = label "public" then some .pub
      else if l = label "allowed_viewers" then
        ((desVec desPrincipal).get t x).map .allowedViewers
      else none

/-- `EnvironmentVariable` of ic_cdk 0.19. -/
def desVariable : Des (Bytes × Bytes) where
  ty := struct [("name", desText.ty), ("value", desText.ty)]
  get := fun w v => do
    let name ← field desText "name" w v
    let value ← field desText "value" w v
    return (name, value)

/-- `CanisterSettings` of ic_cdk 0.19. -/
def desSettings : Des CanisterSettings where
  ty := struct [("controllers", (desOpt (desVec desPrincipal)).ty),
    ("compute_allocation", (desOpt desNat).ty), ("memory_allocation", (desOpt desNat).ty),
    ("freezing_threshold", (desOpt desNat).ty), ("reserved_cycles_limit", (desOpt desNat).ty),
    ("log_visibility", (desOpt desLogVisibility).ty), ("wasm_memory_limit", (desOpt desNat).ty),
    ("wasm_memory_threshold", (desOpt desNat).ty),
    ("environment_variables", (desOpt (desVec desVariable)).ty)]
  get := fun w v => do
    let controllers ← field (desOpt (desVec desPrincipal)) "controllers" w v
    let computeAllocation ← field (desOpt desNat) "compute_allocation" w v
    let memoryAllocation ← field (desOpt desNat) "memory_allocation" w v
    let freezingThreshold ← field (desOpt desNat) "freezing_threshold" w v
    let reservedCyclesLimit ← field (desOpt desNat) "reserved_cycles_limit" w v
    let logVisibility ← field (desOpt desLogVisibility) "log_visibility" w v
    let wasmMemoryLimit ← field (desOpt desNat) "wasm_memory_limit" w v
    let wasmMemoryThreshold ← field (desOpt desNat) "wasm_memory_threshold" w v
    let environmentVariables ← field (desOpt (desVec desVariable)) "environment_variables" w v
    return ⟨controllers, computeAllocation, memoryAllocation, freezingThreshold,
      reservedCyclesLimit, wasmMemoryLimit, wasmMemoryThreshold, logVisibility,
      environmentVariables⟩

/-- `SubnetFilter` (endpoints.rs:256-259). -/
def desFilter : Des (Option Bytes) where
  ty := struct [("subnet_type", (desOpt desText).ty)]
  get := fun w v => field (desOpt desText) "subnet_type" w v

/-- The content of `SubnetSelection::Subnet` (endpoints.rs:266). -/
def desSubnet : Des Principal where
  ty := struct [("subnet", desPrincipal.ty)]
  get := fun w v => field desPrincipal "subnet" w v

/-- `SubnetSelection` (endpoints.rs:261-267). -/
def desSelection : Des SubnetSelection where
  ty := enum [("Filter", desFilter.ty), ("Subnet", desSubnet.ty)]
  get := fun w v =>
    match theCase w v with
    | none => none
    | some (l, t, x) =>
      if l = label "Filter" then (desFilter.get t x).map .filter
      else if l = label "Subnet" then (desSubnet.get t x).map .subnet
      else none

/-- `CmcCreateCanisterArgs` (endpoints.rs:250-254). -/
def desCmcArgs : Des CmcArgs where
  ty := struct [("subnet_selection", (desOpt desSelection).ty),
    ("settings", (desOpt desSettings).ty)]
  get := fun w v => do
    let subnetSelection ← field (desOpt desSelection) "subnet_selection" w v
    let settings ← field (desOpt desSettings) "settings" w v
    return ⟨subnetSelection, settings⟩

/-- `CreateCanisterArgs` (endpoints.rs:270-280). -/
def desCreate : Des CreateCanisterArgs where
  ty := struct [("from_subaccount", (desOpt desSubaccount).ty),
    ("created_at_time", (desOpt desU64).ty), ("amount", desNat.ty),
    ("creation_args", (desOpt desCmcArgs).ty)]
  get := fun w v => do
    let fromSubaccount ← field (desOpt desSubaccount) "from_subaccount" w v
    let createdAtTime ← field (desOpt desU64) "created_at_time" w v
    let amount ← field desNat "amount" w v
    let creationArgs ← field (desOpt desCmcArgs) "creation_args" w v
    return ⟨fromSubaccount, createdAtTime, amount, creationArgs⟩

/-- `CreateCanisterFromArgs` (endpoints.rs:283-294). -/
def desCreateFrom : Des CreateCanisterFromArgs where
  ty := struct [("from", desAccount.ty), ("spender_subaccount", (desOpt desSubaccount).ty),
    ("created_at_time", (desOpt desU64).ty), ("amount", desNat.ty),
    ("creation_args", (desOpt desCmcArgs).ty)]
  get := fun w v => do
    let frm ← field desAccount "from" w v
    let spenderSubaccount ← field (desOpt desSubaccount) "spender_subaccount" w v
    let createdAtTime ← field (desOpt desU64) "created_at_time" w v
    let amount ← field desNat "amount" w v
    let creationArgs ← field (desOpt desCmcArgs) "creation_args" w v
    return ⟨frm, spenderSubaccount, createdAtTime, amount, creationArgs⟩

/-- `icrc2::allowance::AllowanceArgs`: owner and spender. -/
def desAllowance : Des (Account × Account) where
  ty := struct [("account", desAccount.ty), ("spender", desAccount.ty)]
  get := fun w v => do
    let account ← field desAccount "account" w v
    let spender ← field desAccount "spender" w v
    return (account, spender)

/-- `icrc103::GetAllowancesArgs`: from, previous spender, take. -/
def desGetAllowances : Des (Option Account × Option Account × Option Nat) where
  ty := struct [("from_account", (desOpt desAccount).ty), ("prev_spender", (desOpt desAccount).ty),
    ("take", (desOpt desNat).ty)]
  get := fun w v => do
    let frm ← field (desOpt desAccount) "from_account" w v
    let prev ← field (desOpt desAccount) "prev_spender" w v
    let take ← field (desOpt desNat) "take" w v
    return (frm, prev, take)

/-- `GetBlocksArg` (endpoints.rs:201-205). -/
def desRange : Des GetBlocksArg where
  ty := struct [("start", desNat.ty), ("length", desNat.ty)]
  get := fun w v => do
    let start ← field desNat "start" w v
    let length ← field desNat "length" w v
    return ⟨start, length⟩

/-- `GetBlocksArgs` (endpoints.rs:207). -/
def desGetBlocks : Des (List GetBlocksArg) := desVec desRange

/-- `(Account, u128)`: a tuple is a record with the labels 0 and 1. -/
def desBalance : Des (Account × Nat) where
  ty := .record (Fields.ofList [(0, desAccount.ty), (1, desU128.ty)])
  get := fun w v => do
    let account ← fieldAt desAccount 0 w v
    let amount ← fieldAt desU128 1 w v
    return (account, amount)

/-- `Config` (config.rs:23-38). -/
def desConfig : Des Config where
  ty := struct [("max_blocks_per_request", desU64.ty), ("index_id", (desOpt desPrincipal).ty),
    ("initial_balances", (desOpt (desVec desBalance)).ty)]
  get := fun w v => do
    let maxBlocks ← field desU64 "max_blocks_per_request" w v
    let indexId ← field (desOpt desPrincipal) "index_id" w v
    let initialBalances ← field (desOpt (desVec desBalance)) "initial_balances" w v
    return ⟨maxBlocks.toNat, indexId, initialBalances⟩

/-- `ChangeIndexId` (endpoints.rs:16-20). -/
def desChange : Des ChangeIndexId where
  ty := enum [("Unset", .null), ("SetTo", desPrincipal.ty)]
  get := fun w v =>
    match theCase w v with
    | none => none
    | some (l, t, x) =>
      if l = label "Unset" then some .unset
      else if l = label "SetTo" then (desPrincipal.get t x).map .setTo
      else none

/-- `UpgradeArgs` (endpoints.rs:31-35). -/
def desUpgrade : Des UpgradeArgs where
  ty := struct [("max_blocks_per_request", (desOpt desU64).ty),
    ("change_index_id", (desOpt desChange).ty)]
  get := fun w v => do
    let maxBlocks ← field (desOpt desU64) "max_blocks_per_request" w v
    let change ← field (desOpt desChange) "change_index_id" w v
    return ⟨maxBlocks, change⟩

/-- `LedgerArgs` (endpoints.rs:37-41). -/
inductive LedgerArgs where
  | init (config : Config)
  | upgrade (args : Option UpgradeArgs)

def desLedger : Des LedgerArgs where
  ty := enum [("Init", desConfig.ty), ("Upgrade", (desOpt desUpgrade).ty)]
  get := fun w v =>
    match theCase w v with
    | none => none
    | some (l, t, x) =>
      if l = label "Init" then (desConfig.get t x).map .init
      else if l = label "Upgrade" then ((desOpt desUpgrade).get t x).map .upgrade
      else none

/-- What `post_upgrade` is given (main.rs:53). -/
def upgradeArg : Option LedgerArgs → PostUpgradeArg
  | none => .none
  | some (.upgrade u) => .upgrade u
  | some (.init c) => .init c

end CyclesLedger.Candid
