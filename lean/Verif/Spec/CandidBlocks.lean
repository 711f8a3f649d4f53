import Verif.Spec.Candid
import Verif.Model.CandidBlocks
/-!
# Blocks in Candid messages, as a client reads them

Messages whose types may be recursive: values are looked at through the table of types of the
message, from the positions given for them.  What a client finds is described after
`cycles-ledger.did`, lines 125-133 and 154-169; fields and cases are found by name, and further
fields are ignored.
-/
namespace CyclesLedger.Spec.Candid
open CyclesLedger.Candid (Val Vals Comp)

/-- The message with this table of types, and the value `v` of the type at `r`. -/
def Sends (bs : Bytes) (table : List Comp) (r : Int) (v : Val) : Prop :=
  (∀ e ∈ table, CompOk table e) ∧ -24 ≤ r ∧ Typed table v r ∧
  bs = [68, 73, 68, 76] ++ (leb128 table.length ++ (table.flatMap comp ++
    (leb128 1 ++ (ref r ++ value v))))

/-! ## What is found -/

/-- Ways to find something in a value of the type at a reference. -/
abbrev Find (A : Type) : Type := A → Int → Val → Prop

def fNat : Find Nat := fun n r v => r = -3 ∧ v = .nat n

def fText : Find Bytes := fun t r v => r = -15 ∧ v = .text t

def fInt : Find Int := fun i r v => ∃ bs, r = -4 ∧ v = .int bs ∧ Signed bs i

/-- The elements of a vector. -/
def fVec {A : Type} (table : List Comp) (w : Find A) : Find (List A) := fun as r v =>
  ∃ s xs, At table r (.vec s) ∧ v = .vec (Vals.ofList xs) ∧
    as.length = xs.length ∧ ∀ p ∈ as.zip xs, w p.1 s p.2

/-- `vec nat8`. -/
def fBlob (table : List Comp) : Find Bytes := fVec table (fun b s x => s = -5 ∧ x = .fixed [b])

/-- The field with this label. -/
def fField (table : List Comp) (l : Nat) (w : Int → Val → Prop) (r : Int) (v : Val) : Prop :=
  ∃ fs xs, ∃ i : Nat, ∃ s x, At table r (.record fs) ∧ v = .record (Vals.ofList xs) ∧
    fs[i]? = some (l, s) ∧ xs[i]? = some x ∧ w s x

/-- The case with this name. -/
def fCase (table : List Comp) (name : String) (w : Int → Val → Prop) (r : Int) (v : Val) : Prop :=
  ∃ fs, ∃ i : Nat, ∃ s x, At table r (.variant fs) ∧ v = .variant i x ∧
    fs[i]? = some (nameHash name, s) ∧ w s x

mutual
/-- `Value` (125-133). -/
def fValue (table : List Comp) (v : Value) : Int → Val → Prop :=
  match v with
  | .nat n => fCase table "Nat" (fNat n)
  | .int i => fCase table "Int" (fInt i)
  | .blob b => fCase table "Blob" (fBlob table b)
  | .text t => fCase table "Text" (fText t)
  | .array vs => fCase table "Array" (fun r x => ∃ s xs, At table r (.vec s) ∧
      x = .vec xs ∧ fValues table vs s xs)
  | .map kvs => fCase table "Map" (fun r x => ∃ s xs, At table r (.vec s) ∧
      x = .vec xs ∧ fPairs table kvs s xs)
/-- The elements of an array. -/
def fValues (table : List Comp) (vs : List Value) : Int → Vals → Prop :=
  match vs with
  | [] => fun _ xs => xs = .nil
  | v :: rest => fun s xs => ∃ x more, xs = .cons x more ∧ fValue table v s x ∧
      fValues table rest s more
/-- The elements of a map: records without names. -/
def fPairs (table : List Comp) (kvs : List (Text × Value)) : Int → Vals → Prop :=
  match kvs with
  | [] => fun _ xs => xs = .nil
  | (k, v) :: rest => fun s xs => ∃ x more, xs = .cons x more ∧ fField table 0 (fText k) s x ∧
      fField table 1 (fValue table v) s x ∧ fPairs table rest s more
end

/-- `record { id : nat; block : Value }` (161). -/
def fBlock (table : List Comp) : Find (Nat × Value) := fun b r v =>
  fField table (nameHash "id") (fNat b.1) r v ∧ fField table (nameHash "block") (fValue table b.2) r v

/-- `GetBlocksResult` (156-169): the length of the log, and blocks. -/
def fResult (table : List Comp) : Find (Nat × List (Nat × Value)) := fun a r v =>
  fField table (nameHash "log_length") (fNat a.1) r v ∧
  fField table (nameHash "blocks") (fVec table (fBlock table) a.2) r v ∧
  fField table (nameHash "archived_blocks") (fVec table (fun (_ : Unit) _ _ => True) []) r v

/-- A client finds these blocks in the bytes. -/
def FindsBlocks (bs : Bytes) (a : Nat × List (Nat × Value)) : Prop :=
  ∃ table r v, Sends bs table r v ∧ fResult table a r v

end CyclesLedger.Spec.Candid
