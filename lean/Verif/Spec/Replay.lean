import Verif.Model.Types
/-!
# Specification: what a block log means

How an ICRC-3 index reads the log, independently of the ledger's own tables:
balances, supply and allowances are folds over the blocks.
-/
namespace CyclesLedger.Spec

/-- Which account is meant: its owner and subaccount, where an omitted subaccount is the default
one. -/
def idOf (a : Account) : AccountKey := (a.owner, a.subaccount.getD zeroSub)

/-- The fee a block charges: the block's `fee` field if there is one, else the fee named in
the transaction; a mint charges no account. -/
def fee (b : Block) : Nat :=
  match b.transaction.operation with
  | .mint _ _ _ => 0
  | .transfer _ _ _ _ f => b.effectiveFee.getD (f.getD 0)
  | .burn _ _ _ => b.effectiveFee.getD 0
  | .approve _ _ _ _ _ f => b.effectiveFee.getD (f.getD 0)

/-- Change of the balance of `k` by a block. -/
def delta (b : Block) (k : AccountKey) : Int :=
  match b.transaction.operation with
  | .mint to amount _ => if idOf to = k then amount else 0
  | .transfer frm to _ amount _ =>
    (if idOf to = k then (amount : Int) else 0) - (if idOf frm = k then (amount : Int) + fee b else 0)
  | .burn frm _ amount => - (if idOf frm = k then (amount : Int) + fee b else 0)
  | .approve frm _ _ _ _ _ => - (if idOf frm = k then (fee b : Int) else 0)

/-- Balance of `k` after the blocks of a log. -/
def balance (bs : List Block) (k : AccountKey) : Int := (bs.map (fun b => delta b k)).sum

/-- Change of the total supply by a block. -/
def supplyDelta (b : Block) : Int :=
  match b.transaction.operation with
  | .mint _ amount _ => amount
  | .transfer _ _ _ _ _ => - (fee b : Int)
  | .burn _ _ amount => - ((amount : Int) + fee b)
  | .approve _ _ _ _ _ _ => - (fee b : Int)

/-- Total supply after the blocks of a log. -/
def supply (bs : List Block) : Int := (bs.map supplyDelta).sum

/-- What a block adds to the account `k`, before fees; `none` if it is not the receiver. -/
def credits (b : Block) (k : AccountKey) : Option Nat :=
  match b.transaction.operation with
  | .mint to amount _ => if idOf to = k then some amount else none
  | .transfer _ to _ amount _ => if idOf to = k then some amount else none
  | _ => none

/-- Some block credits the account `k` with nothing, leaves it empty, and no later block changes
its balance. -/
def EmptyCredit (bs : List Block) (k : AccountKey) : Prop :=
  ∃ pre b suf, bs = pre ++ b :: suf ∧ credits b k = some 0 ∧ balance (pre ++ [b]) k = 0 ∧
    ∀ c ∈ suf, delta c k = 0

/-- Allowances: amount and expiry (`0`: never) by owner account and spender. -/
abbrev AllowFn := ApprovalKey → Option (Nat × Nat)

/-- Take `x` off an allowance; an allowance that reaches zero is gone. -/
def spend (f : AllowFn) (key : ApprovalKey) (x : Nat) : AllowFn := fun k =>
  if k = key then
    match f k with
    | some (a, e) => if a ≤ x then none else some (a - x, e)
    | none => none
  else f k

/-- Which allowance a block spends from, and how much: only a spender whose account
is not the `from` account itself needs an allowance. -/
def spends (b : Block) : Option (ApprovalKey × Nat) :=
  match b.transaction.operation with
  | .transfer frm _ (some sp) amount _ =>
    if idOf sp = idOf frm then none else some ((idOf frm, idOf sp), amount + fee b)
  | .burn frm (some sp) amount =>
    if idOf sp = idOf frm then none else some ((idOf frm, idOf sp), amount + fee b)
  | _ => none

/-- Change of the allowances by a block. -/
def allowStep (f : AllowFn) (b : Block) : AllowFn :=
  match b.transaction.operation with
  | .approve frm sp amount _ exp _ => fun k =>
    if k = (idOf frm, idOf sp) then (if amount = 0 then none else some (amount, exp.getD 0)) else f k
  | _ =>
    match spends b with
    | some (key, x) => spend f key x
    | none => f

/-- Allowances after the blocks of a log. -/
def allowances (bs : List Block) : AllowFn := bs.foldl allowStep (fun _ => none)

/-- The part of an allowance that can be spent at time `now`. -/
def live (now : Nat) : Option (Nat × Nat) → Nat
  | none => 0
  | some (a, e) => if e = 0 ∨ now < e then a else 0


end CyclesLedger.Spec
