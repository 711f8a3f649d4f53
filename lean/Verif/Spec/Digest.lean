import Verif.Model.Cert
/-!
# What goes through SHA-256

"Unless SHA-256 collides" means: unless two *different* byte strings, one hashed for the
first object and the other for the second, have the same digest.  The strings hashed for an
object are listed here.
-/
namespace CyclesLedger
namespace Spec

variable [Crypto]

mutual
/-- The byte strings hashed to hash a value (ICRC-3, representation-independent hash). -/
def hashed (v : Value) : List Bytes :=
  match v with
  | .nat n => [leb128 n]
  | .int i => [Crypto.intEnc i.toNat]
  | .blob b => [b]
  | .text t => [t]
  | .array vs => (hashList vs).flatten :: hashedList vs
  | .map kvs => (isort (hashMap kvs)).flatten :: hashedMap kvs
/-- Those of the elements of an array. -/
def hashedList (vs : List Value) : List Bytes :=
  match vs with
  | [] => []
  | v :: t => hashed v ++ hashedList t
/-- Those of the keys and values of a map. -/
def hashedMap (kvs : List (Text × Value)) : List Bytes :=
  match kvs with
  | [] => []
  | (k, v) :: t => k :: (hashed v ++ hashedMap t)
end

/-- The byte strings hashed for the digest of a hash tree. -/
def treeHashed : HashTree → List Bytes
  | .empty => [sepEmpty]
  | .fork l r => (sepFork ++ l.digest.val ++ r.digest.val) :: (treeHashed l ++ treeHashed r)
  | .labeled k t => (sepLabeled ++ k ++ t.digest.val) :: treeHashed t
  | .leaf b => [sepLeaf ++ b]
  | .pruned _ => []

/-- Two different strings, one from each list, with the same digest. -/
def ShaCollision (xs ys : List Bytes) : Prop := ∃ x ∈ xs, ∃ y ∈ ys, x ≠ y ∧ sha x = sha y

end Spec
end CyclesLedger
