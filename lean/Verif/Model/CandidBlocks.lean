import Verif.Model.CandidReply
/-!
# The answer of `icrc3_get_blocks` as a Candid message

`GetBlocksResult` (endpoints.rs:186-240, storage.rs:2366-2404) and the generic `Value` of
`icrc-ledger-types`, after candid 0.10.20.  `Value` is a recursive type, and `callback` a function:
a message refers to types by their positions in its table, which may lead back to themselves.  The
table that the library builds is left open: any table in which the types are as declared.
-/
namespace CyclesLedger.Candid

/-- The types that `GetBlocksResult` consists of. -/
inductive Name where
  | nat | int | nat8 | nat64 | text
  | blob | value | values | pair | pairs
  | block | blocks | range | ranges | callback | archived | archives | result
  deriving DecidableEq

/-- The declaration of a type.  A simple type is its code. -/
inductive Decl where
  | code (r : Int)
  | vec (n : Name)
  | record (fs : List (Nat × Name))
  | variant (fs : List (Nat × Name))
  | func (args results : List Name) (notes : Bytes)

/-- Named fields or cases, by increasing label. -/
def named (l : List (String × Name)) : List (Nat × Name) :=
  sortFields (l.map (fun f => (label f.1, f.2)))

/-- The cases of `Value` (icrc-ledger-types 0.1.12, `icrc::generic_value::Value`). -/
def casesValue : List (String × Name) :=
  [("Nat", .nat), ("Nat64", .nat64), ("Int", .int), ("Blob", .blob), ("Text", .text),
   ("Array", .values), ("Map", .pairs)]

/-- The declarations (endpoints.rs:186-240). -/
def Name.decl : Name → Decl
  | .nat => .code (-3)
  | .int => .code (-4)
  | .nat8 => .code (-5)
  | .nat64 => .code (-8)
  | .text => .code (-15)
  | .blob => .vec .nat8
  | .value => .variant (named casesValue)
  | .values => .vec .value
  | .pair => .record [(0, .text), (1, .value)]
  | .pairs => .vec .pair
  | .block => .record (named [("id", .nat), ("block", .value)])
  | .blocks => .vec .block
  | .range => .record (named [("start", .nat), ("length", .nat)])
  | .ranges => .vec .range
  | .callback => .func [.ranges] [.result] [1]
  | .archived => .record (named [("args", .ranges), ("callback", .callback)])
  | .archives => .vec .archived
  | .result => .record
      (named [("log_length", .nat), ("blocks", .blocks), ("archived_blocks", .archives)])

/-- One for one. -/
def Pointwise {A B : Type} (rel : A → B → Prop) : List A → List B → Prop
  | [], l => l = []
  | a :: as, l => ∃ b bs, l = b :: bs ∧ rel a b ∧ Pointwise rel as bs

/-- The references that `is` relates to a type lead to its declaration. -/
def Decl.At (table : List Comp) (is : Name → Int → Prop) : Decl → Int → Prop
  | .code c, r => r = c
  | .vec n, r => ∃ s, 0 ≤ r ∧ table[r.toNat]? = some (.vec s) ∧ is n s
  | .record fs, r => ∃ l, 0 ≤ r ∧ table[r.toNat]? = some (.record l) ∧
      Pointwise (fun f g => f.1 = g.1 ∧ is f.2 g.2) fs l
  | .variant fs, r => ∃ l, 0 ≤ r ∧ table[r.toNat]? = some (.variant l) ∧
      Pointwise (fun f g => f.1 = g.1 ∧ is f.2 g.2) fs l
  | .func as rs notes, r => ∃ k l, 0 ≤ r ∧ table[r.toNat]? = some (.func k l notes) ∧
      Pointwise is as k ∧ Pointwise is rs l

/-- The reference `r` stands for the type `n`. -/
def Stands (table : List Comp) (n : Name) (r : Int) : Prop :=
  ∃ is : Name → Int → Prop, is n r ∧ ∀ n r, is n r → n.decl.At table is r

/-! ## Values -/

/-- `int`: signed LEB128. -/
def slebInt (i : Int) : Bytes :=
  if h : -64 ≤ i ∧ i < 64 then [UInt8.ofNat (i % 128).toNat]
  else UInt8.ofNat (128 + (i % 128).toNat) :: slebInt (i / 128)
  termination_by i.natAbs
  decreasing_by omega

/-- The case `name` of a `Value`. -/
def valueCase (name : String) (v : Val) : Val :=
  .variant ((named casesValue).findIdx (fun c => c.1 == label name)) v

mutual
/-- `Value`. -/
def putValue (v : Value) : Val :=
  match v with
  | .nat n => valueCase "Nat" (.nat n)
  | .int i => valueCase "Int" (.int (slebInt i))
  | .blob b => valueCase "Blob" (putBlob b)
  | .text t => valueCase "Text" (.text t)
  | .array vs => valueCase "Array" (.vec (putValues vs))
  | .map kvs => valueCase "Map" (.vec (putPairs kvs))
/-- `Vec<Value>`. -/
def putValues (vs : List Value) : Vals :=
  match vs with
  | [] => .nil
  | v :: rest => .cons (putValue v) (putValues rest)
/-- `BTreeMap<String, Value>`. -/
def putPairs (kvs : List (Text × Value)) : Vals :=
  match kvs with
  | [] => .nil
  | (k, v) :: rest => .cons (.record (.cons (.text k) (.cons (putValue v) .nil))) (putPairs rest)
end

/-- A struct: names and values. -/
def recOf (l : List (String × Val)) : Val :=
  .record (Vals.ofList ((sortFields (l.map (fun f => (label f.1, f.2)))).map Prod.snd))

/-- `GetBlocksResult` (storage.rs:2399-2403). -/
def putBlocks (r : Nat × List (Nat × Value)) : Val :=
  recOf [("log_length", .nat r.1),
    ("blocks", putVec (fun b => recOf [("id", .nat b.1), ("block", putValue b.2)]) r.2),
    ("archived_blocks", .vec .nil)]

/-- `icrc3_get_blocks` (main.rs:290-293): the value, or `none` if the argument cannot be read. -/
def answerBlocks (y : Sys) (bytes : Bytes) : Option Val :=
  (decode desGetBlocks bytes).map (fun args => putBlocks (getBlocks y.ledger args))

end CyclesLedger.Candid
