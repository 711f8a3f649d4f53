import Verif.Model.Candid
import Verif.Model.Sha256
/-!
# Candid messages as their authors write them

The Candid specification, from the side of the writer: which bytes a list of typed values may be
sent as, and which typed values stand for the arguments in `cycles-ledger.did` (lines 1-327).  A
writer is free to choose the table of types, to leave optional fields out, to write them without
`opt`, to add fields the ledger does not know, and to add further arguments.
-/
namespace CyclesLedger.Spec.Candid
open CyclesLedger.Candid (Ty Fields Val Vals Fixed Comp LedgerArgs)

/-- A name read as digits in base 223. -/
def digits223 : List Char → Nat
  | [] => 0
  | c :: cs => c.toNat * 223 ^ cs.length + digits223 cs

/-- The label of a field name. -/
def nameHash (name : String) : Nat := digits223 name.toList % 2 ^ 32

/-! ## Bytes

Numbers may be written in more bytes than they need. -/

/-- The number that unsigned LEB128 bytes stand for. -/
def Unsigned : Bytes → Nat → Prop
  | [], _ => False
  | b :: bs, n => (b.toNat < 128 ∧ bs = [] ∧ n = b.toNat) ∨
      (128 ≤ b.toNat ∧ ∃ m, Unsigned bs m ∧ n = b.toNat - 128 + 128 * m)

/-- The number that signed LEB128 bytes stand for. -/
def Signed : Bytes → Int → Prop
  | [], _ => False
  | [b], i => (b.toNat < 64 ∧ i = b.toNat) ∨ (64 ≤ b.toNat ∧ b.toNat < 128 ∧ i = b.toNat - 128)
  | b :: bs, i => 128 ≤ b.toNat ∧ ∃ j, Signed bs j ∧ i = b.toNat - 128 + 128 * j

/-- One after the other. -/
def Many {A : Type} (w : A → Bytes → Prop) : List A → Bytes → Prop
  | [], bs => bs = []
  | a :: as, bs => ∃ x y, bs = x ++ y ∧ w a x ∧ Many w as y

/-- How many, and one after the other. -/
def Counted {A : Type} (w : A → Bytes → Prop) (l : List A) (bs : Bytes) : Prop :=
  ∃ x y, bs = x ++ y ∧ Unsigned x l.length ∧ Many w l y

/-- The length, and the bytes. -/
def Sized (b bs : Bytes) : Prop := ∃ x, bs = x ++ b ∧ Unsigned x b.length

/-- A reference to a type: a code below zero, or a position in the table. -/
def RefBytes (r : Int) (bs : Bytes) : Prop := Signed bs r

def FieldBytes (f : Nat × Int) (bs : Bytes) : Prop :=
  ∃ x y, bs = x ++ y ∧ Unsigned x f.1 ∧ RefBytes f.2 y

def MethodBytes (m : Bytes × Int) (bs : Bytes) : Prop :=
  ∃ x y, bs = x ++ y ∧ Sized m.1 x ∧ RefBytes m.2 y

/-- An entry of the table: its code and what it is made of. -/
def CompBytes (c : Comp) (bs : Bytes) : Prop :=
  ∃ x y, bs = x ++ y ∧ match c with
    | .opt r => Signed x (-18) ∧ RefBytes r y
    | .vec r => Signed x (-19) ∧ RefBytes r y
    | .record fs => Signed x (-20) ∧ Counted FieldBytes fs y
    | .variant fs => Signed x (-21) ∧ Counted FieldBytes fs y
    | .func as rs notes => Signed x (-22) ∧ ∃ a b d, y = a ++ (b ++ d) ∧ Counted RefBytes as a ∧
        Counted RefBytes rs b ∧ Sized notes d
    | .service ms => Signed x (-23) ∧ Counted MethodBytes ms y

mutual
/-- The bytes of a value. -/
def ValBytes : Val → Bytes → Prop
  | .null, bs => bs = []
  | .reserved, bs => bs = []
  | .bool b, bs => bs = [if b then 1 else 0]
  | .nat n, bs => Unsigned bs n
  | .int i, bs => bs = i
  | .text t, bs => Sized t bs
  | .principal p, bs => ∃ x, bs = 1 :: x ∧ Sized p x
  | .service p, bs => ∃ x, bs = 1 :: x ∧ Sized p x
  | .func p name, bs => ∃ x y, bs = 1 :: 1 :: (x ++ y) ∧ Sized p x ∧ Sized name y
  | .fixed b, bs => bs = b
  | .none, bs => bs = [0]
  | .some v, bs => ∃ x, bs = 1 :: x ∧ ValBytes v x
  | .vec vs, bs => ∃ x y, bs = x ++ y ∧ Unsigned x vs.toList.length ∧ ValsBytes vs y
  | .record vs, bs => ValsBytes vs bs
  | .variant i v, bs => ∃ x y, bs = x ++ y ∧ Unsigned x i ∧ ValBytes v y
def ValsBytes : Vals → Bytes → Prop
  | .nil, bs => bs = []
  | .cons v vs, bs => ∃ x y, bs = x ++ y ∧ ValBytes v x ∧ ValsBytes vs y
end

/-! ## Bytes, written as short as possible -/

/-- A reference to a type: a code below zero, or a position in the table. -/
def ref (r : Int) : Bytes := if r < 0 then [UInt8.ofNat (128 + r).toNat] else sleb128 r.toNat

def field (f : Nat × Int) : Bytes := leb128 f.1 ++ ref f.2

def method (m : Bytes × Int) : Bytes := leb128 m.1.length ++ (m.1 ++ ref m.2)

/-- An entry of the table. -/
def comp : Comp → Bytes
  | .opt r => 0x6e :: ref r
  | .vec r => 0x6d :: ref r
  | .record fs => 0x6c :: (leb128 fs.length ++ fs.flatMap field)
  | .variant fs => 0x6b :: (leb128 fs.length ++ fs.flatMap field)
  | .func as rs notes => 0x6a :: (leb128 as.length ++ (as.flatMap ref ++ (leb128 rs.length ++
      (rs.flatMap ref ++ (leb128 notes.length ++ notes)))))
  | .service ms => 0x69 :: (leb128 ms.length ++ ms.flatMap method)

mutual
/-- The bytes of a value. -/
def value : Val → Bytes
  | .null => []
  | .reserved => []
  | .bool b => [if b then 1 else 0]
  | .nat n => leb128 n
  | .int bs => bs
  | .text bs => leb128 bs.length ++ bs
  | .principal bs => 1 :: (leb128 bs.length ++ bs)
  | .service bs => 1 :: (leb128 bs.length ++ bs)
  | .func bs name => 1 :: 1 :: (leb128 bs.length ++ (bs ++ (leb128 name.length ++ name)))
  | .fixed bs => bs
  | .none => [0]
  | .some v => 1 :: value v
  | .vec vs => leb128 vs.toList.length ++ values vs
  | .record vs => values vs
  | .variant i v => leb128 i ++ value v
def values : Vals → Bytes
  | .nil => []
  | .cons v vs => value v ++ values vs
end

/-- The bytes of a signed number: all but the last have the top bit set. -/
def Continued : Bytes → Prop
  | [] => False
  | [b] => b.toNat < 128
  | b :: bs => 128 ≤ b.toNat ∧ Continued bs

/-- The code of a type of fixed size. -/
def fixedCode : Fixed → Int
  | .nat8 => -5 | .nat16 => -6 | .nat32 => -7 | .nat64 => -8
  | .int8 => -9 | .int16 => -10 | .int32 => -11 | .int64 => -12
  | .float32 => -13 | .float64 => -14

/-! ## The table of types

Entries refer to each other, and may lead back to themselves. -/

/-- Position `r` of the table holds `c`. -/
def At (table : List Comp) (r : Int) (c : Comp) : Prop := 0 ≤ r ∧ table[r.toNat]? = some c

/-- A reference to something: a simple type, or an entry of the table. -/
def Refers (table : List Comp) (r : Int) : Prop :=
  (-17 ≤ r ∧ r ≤ -1) ∨ r = -24 ∨ ∃ c, At table r c

/-- Fields by increasing label. -/
def FieldsOk (table : List Comp) (fs : List (Nat × Int)) : Prop :=
  fs.Pairwise (fun a b => a.1 < b.1) ∧ ∀ f ∈ fs, Refers table f.2

/-- An entry that may be in the table. -/
def CompOk (table : List Comp) : Comp → Prop
  | .opt r => Refers table r
  | .vec r => Refers table r
  | .record fs => FieldsOk table fs
  | .variant fs => FieldsOk table fs
  | .func as rs notes => (∀ r ∈ as, Refers table r) ∧ (∀ r ∈ rs, Refers table r) ∧
      notes ∈ [[], [1], [2], [3]]
  | .service ms => ms.Pairwise (fun a b => a.1 < b.1) ∧
      ∀ m ∈ ms, ∃ as rs notes, At table m.2 (.func as rs notes)

mutual
/-- A value of the type that the reference stands for. -/
def Typed (table : List Comp) : Val → Int → Prop
  | .null, r => r = -1
  | .bool _, r => r = -2
  | .nat _, r => r = -3
  | .int bs, r => r = -4 ∧ Continued bs
  | .text _, r => r = -15
  | .reserved, r => r = -16
  | .principal bs, r => r = -24 ∧ bs.length ≤ 29
  | .service bs, r => bs.length ≤ 29 ∧ ∃ ms, At table r (.service ms)
  | .func bs _, r => bs.length ≤ 29 ∧ ∃ as rs notes, At table r (.func as rs notes)
  | .fixed bs, r => ∃ f : Fixed, r = fixedCode f ∧ bs.length = f.width
  | .none, r => ∃ s, At table r (.opt s)
  | .some v, r => ∃ s, At table r (.opt s) ∧ Typed table v s
  | .vec vs, r => ∃ s, At table r (.vec s) ∧ TypedEach table vs s
  | .record vs, r => ∃ fs, At table r (.record fs) ∧ TypedAll table vs fs
  | .variant i v, r => ∃ fs f, At table r (.variant fs) ∧ fs[i]? = some f ∧ Typed table v f.2
def TypedEach (table : List Comp) : Vals → Int → Prop
  | .nil, _ => True
  | .cons v vs, s => Typed table v s ∧ TypedEach table vs s
def TypedAll (table : List Comp) : Vals → List (Nat × Int) → Prop
  | .nil, fs => fs = []
  | .cons v vs, fs => ∃ f rest, fs = f :: rest ∧ Typed table v f.2 ∧ TypedAll table vs rest
end

mutual
/-- The type that the reference stands for, unfolded to a tree of depth `k`; what is below is cut. -/
def Unfolds (table : List Comp) : Ty → (k : Nat) → Int → Prop
  | .cut, k, _ => k = 0
  | .null, k, r => 0 < k ∧ r = -1
  | .bool, k, r => 0 < k ∧ r = -2
  | .nat, k, r => 0 < k ∧ r = -3
  | .int, k, r => 0 < k ∧ r = -4
  | .fixed f, k, r => 0 < k ∧ r = fixedCode f
  | .text, k, r => 0 < k ∧ r = -15
  | .reserved, k, r => 0 < k ∧ r = -16
  | .empty, k, r => 0 < k ∧ r = -17
  | .principal, k, r => 0 < k ∧ r = -24
  | .func, k, r => 0 < k ∧ ∃ as rs notes, At table r (.func as rs notes)
  | .service, k, r => 0 < k ∧ ∃ ms, At table r (.service ms)
  | .opt t, k, r => ∃ j s, k = j + 1 ∧ At table r (.opt s) ∧ Unfolds table t j s
  | .vec t, k, r => ∃ j s, k = j + 1 ∧ At table r (.vec s) ∧ Unfolds table t j s
  | .record fs, k, r => ∃ j l, k = j + 1 ∧ At table r (.record l) ∧ UnfoldsAll table fs j l
  | .variant fs, k, r => ∃ j l, k = j + 1 ∧ At table r (.variant l) ∧ UnfoldsAll table fs j l
def UnfoldsAll (table : List Comp) : Fields → Nat → List (Nat × Int) → Prop
  | .nil, _, l => l = []
  | .cons lb t fs, k, l =>
    ∃ s rest, l = (lb, s) :: rest ∧ Unfolds table t k s ∧ UnfoldsAll table fs k rest
end

/-- The arguments are of the types referred to. -/
def Arguments (table : List Comp) (k : Nat) : List Int → List (Ty × Val) → Prop
  | [], args => args = []
  | r :: rs, args =>
    ∃ t v rest, args = (t, v) :: rest ∧ Unfolds table t k r ∧ Typed table v r ∧
      Arguments table k rs rest

/-- A message, written as short as possible. -/
def message (table : List Comp) (refs : List Int) (args : List (Ty × Val)) : Bytes :=
  [68, 73, 68, 76] ++ (leb128 table.length ++ (table.flatMap comp ++
    (leb128 refs.length ++ (refs.flatMap ref ++ args.flatMap (fun a => value a.2)))))

/-- A message: the letters `DIDL`, the table, the references, the values. -/
def MessageBytes (table : List Comp) (refs : List Int) (args : List (Ty × Val)) (bs : Bytes) : Prop :=
  ∃ x y z, bs = [68, 73, 68, 76] ++ (x ++ (y ++ z)) ∧ Counted CompBytes table x ∧
    Counted RefBytes refs y ∧ Many (fun a => ValBytes a.2) args z

/-- The bytes `bs` are one of the ways to send the arguments `args`.  The depth that types are unfolded
to is more than any of the values has. -/
def IsMessage (bs : Bytes) (args : List (Ty × Val)) : Prop :=
  ∃ table refs, (∀ c ∈ table, CompOk table c) ∧
    Arguments table ((table.length + 1) * (bs.length + 17)) refs args ∧
    MessageBytes table refs args bs

/-! ## How arguments are written -/

/-- Ways to write the values of a type of the ledger. -/
abbrev Way (A : Type) : Type := A → Ty → Val → Prop

/-- Some value can be written in the type. -/
def Fits {A : Type} (w : Way A) (t : Ty) : Prop := ∃ x v, w x t v

def wNat : Way Nat := fun n t v => t = .nat ∧ v = .nat n

/-- The `k` bytes of a number, the lowest first. -/
def le : Nat → Nat → Bytes
  | 0, _ => []
  | k + 1, n => UInt8.ofNat (n % 256) :: le k (n / 256)

def wU64 : Way UInt64 := fun n t v => t = .fixed .nat64 ∧ v = .fixed (le 8 n.toNat)

def wText : Way Bytes := fun bs t v => t = .text ∧ v = .text bs

def wPrincipal : Way Principal := fun p t v => t = .principal ∧ v = .principal p.bytes

/-- Without bytes, the type may also be `vec empty`. -/
def wBlob : Way Bytes := fun bs t v =>
  (t = .vec (.fixed .nat8) ∨ t = .vec .empty ∧ bs = []) ∧ v = .vec (Vals.ofList (bs.map (fun b => .fixed [b])))

def wSubaccount : Way Subaccount := fun s => wBlob s.val

/-- `null`, `opt`, or the value itself. -/
def wOpt {A : Type} (w : Way A) : Way (Option A) := fun o t v =>
  (o = none ∧ (t = .null ∨ t = .reserved ∨ (∃ u, t = .opt u) ∧ v = .none)) ∨
  (∃ x u y, o = some x ∧ t = .opt u ∧ v = .some y ∧ w x u y) ∨
  (∃ x, o = some x ∧ w x t v)

/-- One value after the other. -/
def Each {A : Type} (w : Way A) (t : Ty) : List A → List Val → Prop
  | [], vs => vs = []
  | a :: as, vs => ∃ x xs, vs = x :: xs ∧ w a t x ∧ Each w t as xs

/-- A vector of a type the elements can be written in. -/
def wVec {A : Type} (w : Way A) : Way (List A) := fun as t v =>
  ∃ u xs, t = .vec u ∧ v = .vec (Vals.ofList xs) ∧ Fits w u ∧ Each w u as xs

/-- A record with the fields `s`, by increasing label. -/
def Record (s : List (Nat × Ty × Val)) (t : Ty) (v : Val) : Prop :=
  s.Pairwise (fun a b => a.1 < b.1) ∧
    t = .record (Fields.ofList (s.map (fun f => (f.1, f.2.1)))) ∧
    v = .record (Vals.ofList (s.map (fun f => f.2.2)))

/-- One of the fields is `x`. -/
def HasAt {A : Type} (w : Way A) (s : List (Nat × Ty × Val)) (l : Nat) (x : A) : Prop :=
  ∃ t v, (l, t, v) ∈ s ∧ w x t v

def Has {A : Type} (w : Way A) (s : List (Nat × Ty × Val)) (name : String) (x : A) : Prop :=
  HasAt w s (nameHash name) x

/-- There is no such field. -/
def Lacks (s : List (Nat × Ty × Val)) (name : String) : Prop := ∀ f ∈ s, f.1 ≠ nameHash name

/-- One of the fields is `o`, or `o` is nothing and there is no such field. -/
def HasOpt {A : Type} (w : Way A) (s : List (Nat × Ty × Val)) (name : String) (o : Option A) :
    Prop :=
  Has (wOpt w) s name o ∨ (o = none ∧ Lacks s name)

/-- The case `name`, with content `x` of type `u`, of a variant type that has no cases but those
known, and each with a type its content could be written in. -/
def Case (known : List (String × (Ty → Prop))) (name : String) (u : Ty) (x : Val) (t : Ty)
    (v : Val) : Prop :=
  ∃ cs i, t = .variant (Fields.ofList cs) ∧ cs.Pairwise (fun a b => a.1 < b.1) ∧
    (∀ c ∈ cs, ∃ k ∈ known, c.1 = nameHash k.1 ∧ k.2 c.2) ∧
    cs[i]? = some (nameHash name, u) ∧ v = .variant i x

def IsNull (t : Ty) : Prop := t = .null

/-! ## `cycles-ledger.did` -/

/-- `Account` (line 1). -/
def wAccount : Way Account := fun a t v => ∃ s, Record s t v ∧
  Has wPrincipal s "owner" a.owner ∧ HasOpt wSubaccount s "subaccount" a.subaccount

/-- `AllowanceArgs` (3). -/
def wAllowance : Way (Account × Account) := fun a t v => ∃ s, Record s t v ∧
  Has wAccount s "account" a.1 ∧ Has wAccount s "spender" a.2

/-- `ApproveArgs` (5-14). -/
def wApprove : Way ApproveArgs := fun a t v => ∃ s, Record s t v ∧
  HasOpt wSubaccount s "from_subaccount" a.fromSubaccount ∧ Has wAccount s "spender" a.spender ∧
  Has wNat s "amount" a.amount ∧ HasOpt wNat s "expected_allowance" a.expectedAllowance ∧
  HasOpt wU64 s "expires_at" a.expiresAt ∧ HasOpt wNat s "fee" a.fee ∧
  HasOpt wBlob s "memo" a.memo ∧ HasOpt wU64 s "created_at_time" a.createdAtTime

/-- `DepositArgs` (26-29). -/
def wDeposit : Way DepositArg := fun a t v => ∃ s, Record s t v ∧
  Has wAccount s "to" a.to ∧ HasOpt wBlob s "memo" a.memo

/-- `WithdrawArgs` (40-45). -/
def wWithdraw : Way WithdrawArgs := fun a t v => ∃ s, Record s t v ∧
  Has wNat s "amount" a.amount ∧ HasOpt wSubaccount s "from_subaccount" a.fromSubaccount ∧
  Has wPrincipal s "to" a.to ∧ HasOpt wU64 s "created_at_time" a.createdAtTime

/-- `WithdrawFromArgs` (61-67). -/
def wWithdrawFrom : Way WithdrawFromArgs := fun a t v => ∃ s, Record s t v ∧
  HasOpt wSubaccount s "spender_subaccount" a.spenderSubaccount ∧ Has wAccount s "from" a.frm ∧
  Has wPrincipal s "to" a.to ∧ Has wNat s "amount" a.amount ∧
  HasOpt wU64 s "created_at_time" a.createdAtTime

/-- `TransferArgs` (87-94). -/
def wTransfer : Way TransferArgs := fun a t v => ∃ s, Record s t v ∧
  HasOpt wSubaccount s "from_subaccount" a.fromSubaccount ∧ Has wAccount s "to" a.to ∧
  Has wNat s "amount" a.amount ∧ HasOpt wNat s "fee" a.fee ∧ HasOpt wBlob s "memo" a.memo ∧
  HasOpt wU64 s "created_at_time" a.createdAtTime

/-- `TransferFromArgs` (105-113). -/
def wTransferFrom : Way TransferFromArgs := fun a t v => ∃ s, Record s t v ∧
  HasOpt wSubaccount s "spender_subaccount" a.spenderSubaccount ∧ Has wAccount s "from" a.frm ∧
  Has wAccount s "to" a.to ∧ Has wNat s "amount" a.amount ∧ HasOpt wNat s "fee" a.fee ∧
  HasOpt wBlob s "memo" a.memo ∧ HasOpt wU64 s "created_at_time" a.createdAtTime

/-- An entry of `GetBlocksArgs` (154). -/
def wRange : Way GetBlocksArg := fun a t v => ∃ s, Record s t v ∧
  Has wNat s "start" a.start ∧ Has wNat s "length" a.length

/-- An entry of `initial_balances` (182): a record without names, and the number fits in 128 bits. -/
def wBalance : Way (Account × Nat) := fun a t v => ∃ s, Record s t v ∧
  HasAt wAccount s 0 a.1 ∧ HasAt wNat s 1 a.2 ∧ a.2 < 2 ^ 128

/-- `InitArgs` (179-183). -/
def wConfig : Way Config := fun c t v => ∃ s, Record s t v ∧
  (∃ n : UInt64, n.toNat = c.maxBlocksPerRequest ∧ Has wU64 s "max_blocks_per_request" n) ∧
  HasOpt wPrincipal s "index_id" c.indexId ∧
  HasOpt (wVec wBalance) s "initial_balances" c.initialBalances

/-- `ChangeIndexId` (185-188). -/
def wChange : Way ChangeIndexId := fun c t v =>
  let known := [("Unset", IsNull), ("SetTo", Fits wPrincipal)]
  match c with
  | .unset => Case known "Unset" .null .null t v
  | .setTo p => ∃ u x, Case known "SetTo" u x t v ∧ wPrincipal p u x

/-- `UpgradeArgs` (190-193). -/
def wUpgrade : Way UpgradeArgs := fun a t v => ∃ s, Record s t v ∧
  HasOpt wU64 s "max_blocks_per_request" a.maxBlocksPerRequest ∧
  HasOpt wChange s "change_index_id" a.changeIndexId

/-- `LedgerArgs` (195-198). -/
def wLedger : Way LedgerArgs := fun a t v =>
  let known := [("Init", Fits wConfig), ("Upgrade", Fits (wOpt wUpgrade))]
  match a with
  | .init c => ∃ u x, Case known "Init" u x t v ∧ wConfig c u x
  | .upgrade o => ∃ u x, Case known "Upgrade" u x t v ∧ wOpt wUpgrade o u x

/-- `EnvironmentVariable` (224-227). -/
def wVariable : Way (Bytes × Bytes) := fun a t v => ∃ s, Record s t v ∧
  Has wText s "name" a.1 ∧ Has wText s "value" a.2

/-- `LogVisibility` (229-233). -/
def wLogVisibility : Way LogVisibility := fun a t v =>
  let known := [("controllers", IsNull), ("public", IsNull),
    ("allowed_viewers", Fits (wVec wPrincipal))]
  match a with
  | .controllers => Case known "controllers" .null .null t v
  | .pub => Case known "public" .null .null t v
  | .allowedViewers l => ∃ u x, Case known "allowed_viewers" u x t v ∧ wVec wPrincipal l u x

/-- `CanisterSettings` (235-245). -/
def wSettings : Way CanisterSettings := fun a t v => ∃ s, Record s t v ∧
  HasOpt (wVec wPrincipal) s "controllers" a.controllers ∧
  HasOpt wNat s "compute_allocation" a.computeAllocation ∧
  HasOpt wNat s "memory_allocation" a.memoryAllocation ∧
  HasOpt wNat s "freezing_threshold" a.freezingThreshold ∧
  HasOpt wNat s "reserved_cycles_limit" a.reservedCyclesLimit ∧
  HasOpt wNat s "wasm_memory_limit" a.wasmMemoryLimit ∧
  HasOpt wNat s "wasm_memory_threshold" a.wasmMemoryThreshold ∧
  HasOpt wLogVisibility s "log_visibility" a.logVisibility ∧
  HasOpt (wVec wVariable) s "environment_variables" a.environmentVariables

/-- `SubnetFilter` (256-258). -/
def wFilter : Way (Option Bytes) := fun o t v => ∃ s, Record s t v ∧
  HasOpt wText s "subnet_type" o

/-- The content of `Subnet` (249-251). -/
def wSubnet : Way Principal := fun p t v => ∃ s, Record s t v ∧ Has wPrincipal s "subnet" p

/-- `SubnetSelection` (247-254). -/
def wSelection : Way SubnetSelection := fun a t v =>
  let known := [("Filter", Fits wFilter), ("Subnet", Fits wSubnet)]
  match a with
  | .filter o => ∃ u x, Case known "Filter" u x t v ∧ wFilter o u x
  | .subnet p => ∃ u x, Case known "Subnet" u x t v ∧ wSubnet p u x

/-- `CmcCreateCanisterArgs` (215-222). -/
def wCmcArgs : Way CmcArgs := fun a t v => ∃ s, Record s t v ∧
  HasOpt wSettings s "settings" a.settings ∧
  HasOpt wSelection s "subnet_selection" a.subnetSelection

/-- `CreateCanisterArgs` (200-205). -/
def wCreate : Way CreateCanisterArgs := fun a t v => ∃ s, Record s t v ∧
  HasOpt wSubaccount s "from_subaccount" a.fromSubaccount ∧
  HasOpt wU64 s "created_at_time" a.createdAtTime ∧ Has wNat s "amount" a.amount ∧
  HasOpt wCmcArgs s "creation_args" a.creationArgs

/-- `CreateCanisterFromArgs` (207-213). -/
def wCreateFrom : Way CreateCanisterFromArgs := fun a t v => ∃ s, Record s t v ∧
  Has wAccount s "from" a.frm ∧ HasOpt wSubaccount s "spender_subaccount" a.spenderSubaccount ∧
  HasOpt wU64 s "created_at_time" a.createdAtTime ∧ Has wNat s "amount" a.amount ∧
  HasOpt wCmcArgs s "creation_args" a.creationArgs

/-- `GetAllowancesArgs` (323-327). -/
def wGetAllowances : Way (Option Account × Option Account × Option Nat) := fun a t v =>
  ∃ s, Record s t v ∧ HasOpt wAccount s "from_account" a.1 ∧
    HasOpt wAccount s "prev_spender" a.2.1 ∧ HasOpt wNat s "take" a.2.2

/-! ## What a message mentions -/

/-- A record with the fields `s`. -/
def Fielded (s : List (Nat × Ty × Val)) (t : Ty) (v : Val) : Prop :=
  t = .record (Fields.ofList (s.map (fun f => (f.1, f.2.1)))) ∧
    v = .record (Vals.ofList (s.map (fun f => f.2.2)))

/-- If `o` is something, the record says so. -/
def Says {A : Type} (w : Way A) (s : List (Nat × Ty × Val)) (name : String) (o : Option A) : Prop :=
  ∀ x, o = some x → Has (wOpt w) s name (some x)

def mAccount : Way Account := fun a t v => ∃ s, Fielded s t v ∧
  Has wPrincipal s "owner" a.owner ∧ Says wSubaccount s "subaccount" a.subaccount

def mApprove : Way ApproveArgs := fun a t v => ∃ s, Fielded s t v ∧
  Says wSubaccount s "from_subaccount" a.fromSubaccount ∧ Has mAccount s "spender" a.spender ∧
  Has wNat s "amount" a.amount ∧ Says wNat s "expected_allowance" a.expectedAllowance ∧
  Says wU64 s "expires_at" a.expiresAt ∧ Says wNat s "fee" a.fee ∧
  Says wBlob s "memo" a.memo ∧ Says wU64 s "created_at_time" a.createdAtTime

def mDeposit : Way DepositArg := fun a t v => ∃ s, Fielded s t v ∧
  Has mAccount s "to" a.to ∧ Says wBlob s "memo" a.memo

def mWithdraw : Way WithdrawArgs := fun a t v => ∃ s, Fielded s t v ∧
  Has wNat s "amount" a.amount ∧ Says wSubaccount s "from_subaccount" a.fromSubaccount ∧
  Has wPrincipal s "to" a.to ∧ Says wU64 s "created_at_time" a.createdAtTime

def mWithdrawFrom : Way WithdrawFromArgs := fun a t v => ∃ s, Fielded s t v ∧
  Says wSubaccount s "spender_subaccount" a.spenderSubaccount ∧ Has mAccount s "from" a.frm ∧
  Has wPrincipal s "to" a.to ∧ Has wNat s "amount" a.amount ∧
  Says wU64 s "created_at_time" a.createdAtTime

def mTransfer : Way TransferArgs := fun a t v => ∃ s, Fielded s t v ∧
  Says wSubaccount s "from_subaccount" a.fromSubaccount ∧ Has mAccount s "to" a.to ∧
  Has wNat s "amount" a.amount ∧ Says wNat s "fee" a.fee ∧ Says wBlob s "memo" a.memo ∧
  Says wU64 s "created_at_time" a.createdAtTime

def mTransferFrom : Way TransferFromArgs := fun a t v => ∃ s, Fielded s t v ∧
  Says wSubaccount s "spender_subaccount" a.spenderSubaccount ∧ Has mAccount s "from" a.frm ∧
  Has mAccount s "to" a.to ∧ Has wNat s "amount" a.amount ∧ Says wNat s "fee" a.fee ∧
  Says wBlob s "memo" a.memo ∧ Says wU64 s "created_at_time" a.createdAtTime

/-- Without the arguments for the CMC. -/
def mCreate : Way CreateCanisterArgs := fun a t v => ∃ s, Fielded s t v ∧
  Says wSubaccount s "from_subaccount" a.fromSubaccount ∧
  Says wU64 s "created_at_time" a.createdAtTime ∧ Has wNat s "amount" a.amount

def mCreateFrom : Way CreateCanisterFromArgs := fun a t v => ∃ s, Fielded s t v ∧
  Has mAccount s "from" a.frm ∧ Says wSubaccount s "spender_subaccount" a.spenderSubaccount ∧
  Says wU64 s "created_at_time" a.createdAtTime ∧ Has wNat s "amount" a.amount

end CyclesLedger.Spec.Candid
