import Verif.Model.Hash
/-!
# Certified tip

`ic_certified_map::RbTree` as used by the ledger (storage.rs:81, 646-664, 782-791)
and the hash trees it is digested to.
-/
namespace CyclesLedger

/-- Node colour of the left-leaning red-black tree in `ic_certified_map::rbtree`. -/
inductive Color where | red | black
  deriving DecidableEq

/-- `ic_certified_map::RbTree<&str, Vec<u8>>` (values only; cached subtree hashes are
recomputed by `RbTree.hashTree`). -/
inductive RbTree where
  | nil
  | node (c : Color) (l : RbTree) (k : Text) (v : Bytes) (r : RbTree)
  deriving DecidableEq

namespace RbTree

def isRed : RbTree → Bool
  | .node .red _ _ _ _ => true
  | _ => false

/-- `rotate_left` (ic-certified-map rbtree). -/
def rotateLeft : RbTree → RbTree
  | .node c l k v (.node _ rl rk rv rr) => .node c (.node .red l k v rl) rk rv rr
  | t => t

/-- `rotate_right` (ic-certified-map rbtree). -/
def rotateRight : RbTree → RbTree
  | .node c (.node _ ll lk lv lr) k v r => .node c ll lk lv (.node .red lr k v r)
  | t => t

def flip : RbTree → RbTree
  | .node .red l k v r => .node .black l k v r
  | .node .black l k v r => .node .red l k v r
  | .nil => .nil

/-- `flip_colors` (ic-certified-map rbtree). -/
def flipColors : RbTree → RbTree
  | .node c l k v r => flip (.node c (flip l) k v (flip r))
  | .nil => .nil

/-- `balance` after an insertion (ic-certified-map rbtree). -/
def balance (t : RbTree) : RbTree :=
  let t := match t with
    | .node _ l _ _ r => if isRed r && !isRed l then rotateLeft t else t
    | .nil => .nil
  let t := match t with
    | .node _ (.node .red (.node .red _ _ _ _) _ _ _) _ _ _ => rotateRight t
    | _ => t
  match t with
  | .node _ l _ _ r => if isRed l && isRed r then flipColors t else t
  | .nil => .nil

/-- Recursive part of `RbTree::insert`. -/
def insertRec : RbTree → Text → Bytes → RbTree
  | .nil, k, v => .node .red .nil k v .nil
  | .node c l k' v' r, k, v =>
    if listLt k k' then balance (.node c (insertRec l k v) k' v' r)
    else if k = k' then balance (.node c l k' v r)
    else balance (.node c l k' v' (insertRec r k v))

/-- `RbTree::insert`: the root is blackened. -/
def insert (t : RbTree) (k : Text) (v : Bytes) : RbTree :=
  match insertRec t k v with
  | .node _ l k v r => .node .black l k v r
  | .nil => .nil

end RbTree

/-- `ic_certified_map::HashTree`. -/
inductive HashTree where
  | empty
  | fork (l r : HashTree)
  | labeled (label : Bytes) (t : HashTree)
  | leaf (b : Bytes)
  | pruned (h : Hash)
  deriving DecidableEq

/-- "\x11ic-hashtree-empty" -/
def sepEmpty : Bytes := [0x11, 0x69, 0x63, 0x2d, 0x68, 0x61, 0x73, 0x68, 0x74, 0x72, 0x65, 0x65,
  0x2d, 0x65, 0x6d, 0x70, 0x74, 0x79]
/-- "\x10ic-hashtree-fork" -/
def sepFork : Bytes := [0x10, 0x69, 0x63, 0x2d, 0x68, 0x61, 0x73, 0x68, 0x74, 0x72, 0x65, 0x65,
  0x2d, 0x66, 0x6f, 0x72, 0x6b]
/-- "\x13ic-hashtree-labeled" -/
def sepLabeled : Bytes := [0x13, 0x69, 0x63, 0x2d, 0x68, 0x61, 0x73, 0x68, 0x74, 0x72, 0x65, 0x65,
  0x2d, 0x6c, 0x61, 0x62, 0x65, 0x6c, 0x65, 0x64]
/-- "\x10ic-hashtree-leaf" -/
def sepLeaf : Bytes := [0x10, 0x69, 0x63, 0x2d, 0x68, 0x61, 0x73, 0x68, 0x74, 0x72, 0x65, 0x65,
  0x2d, 0x6c, 0x65, 0x61, 0x66]

variable [Crypto]

/-- `HashTree::digest` (IC interface specification, "certificates"). -/
def HashTree.digest : HashTree → Hash
  | .empty => sha sepEmpty
  | .fork l r => sha (sepFork ++ l.digest.val ++ r.digest.val)
  | .labeled k t => sha (sepLabeled ++ k ++ t.digest.val)
  | .leaf b => sha (sepLeaf ++ b)
  | .pruned h => h

omit [Crypto] in
/-- `three_way_fork` (ic-certified-map rbtree). -/
def threeWayFork (l m r : HashTree) : HashTree :=
  match l, r with
  | .empty, .empty => m
  | l, .empty => .fork l m
  | .empty, r => .fork m r
  | l, r => .fork l (.fork m r)

omit [Crypto] in
/-- The full hash tree of an `RbTree`; it is also the `value_range` witness over a
range that covers every key (storage.rs:630-633). -/
def RbTree.hashTree : RbTree → HashTree
  | .nil => .empty
  | .node _ l k v r => threeWayFork l.hashTree (.labeled k (.leaf v)) r.hashTree

/-- `AsHashTree::root_hash` (storage.rs:649-651). -/
def RbTree.rootHash (t : RbTree) : Hash := t.hashTree.digest

omit [Crypto] in
/-- Look a label up in a hash tree, as a client verifying a certificate does
(IC interface specification, `lookup`): the leaf under the label. -/
def HashTree.lookup : HashTree → Bytes → Option Bytes
  | .labeled k (.leaf v), k' => if k = k' then some v else none
  | .fork l r, k' =>
    match l.lookup k' with
    | some v => some v
    | none => r.lookup k'
  | _, _ => none

/-- "last_block_index" -/
def kLastBlockIndex : Text := [0x6c, 0x61, 0x73, 0x74, 0x5f, 0x62, 0x6c, 0x6f, 0x63, 0x6b, 0x5f,
  0x69, 0x6e, 0x64, 0x65, 0x78]
/-- "last_block_hash" -/
def kLastBlockHash : Text := [0x6c, 0x61, 0x73, 0x74, 0x5f, 0x62, 0x6c, 0x6f, 0x63, 0x6b, 0x5f,
  0x68, 0x61, 0x73, 0x68]

omit [Crypto] in
/-- `populate_last_block_hash_and_hash_tree` (storage.rs:782-791). -/
def populateTree (t : RbTree) (lastBlockIndex : Nat) (lastBlockHash : Hash) : RbTree :=
  (t.insert kLastBlockIndex (leb128 lastBlockIndex)).insert kLastBlockHash lastBlockHash.val

/-- `State::compute_last_block_hash_and_hash_tree` (storage.rs:653-664). -/
def computeTip (blocks : List Block) : Option Hash × RbTree :=
  match blocks.getLast? with
  | none => (none, .nil)
  | some b => (some b.hash, populateTree .nil (blocks.length - 1) b.hash)

end CyclesLedger
