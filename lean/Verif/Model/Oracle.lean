import Verif.Model.System
/-!
# The reference ledger of the project's own tests: `CyclesLedgerInMemory` (tests/gen.rs:156-324)

A hash map is a function to `Option`.  Accounts are compared as icrc-ledger-types does
(`PartialEq`, `Hash`: owner and effective subaccount), so the maps are indexed by
`Account.key`.  `depositor_cycles`, which only guides the
generator of calls, is in `Model/Generator`.  The tests are built with overflow checks: an overflow is a panic.
-/
namespace CyclesLedger

/-- `CyclesLedgerInMemory` (tests/gen.rs:157-163). -/
structure Oracle where
  balances : AccountKey → Option Nat
  allowances : ApprovalKey → Option Nat
  totalSupply : Nat

namespace Oracle

/-- `CyclesLedgerInMemory::default()`. -/
def empty : Oracle := ⟨fun _ => none, fun _ => none, 0⟩

/-- `balances.insert`. -/
def setBalance (o : Oracle) (a : Account) (x : Nat) : Oracle :=
  { o with balances := fun k => if k = a.key then some x else o.balances k }

/-- `allowances.insert`. -/
def setAllowance (o : Oracle) (a sp : Account) (x : Nat) : Oracle :=
  { o with allowances := fun k =>
    if k = (a.key, sp.key) then some x else o.allowances k }

/-- `amount.0.to_u128().ok_or(..)`. -/
def toU128 (x : Nat) : Option Nat := if x ≤ U128MAX then some x else none

/-- `Transfer` (tests/gen.rs:256-285). -/
def transfer (o : Oracle) (frm to : Account) (amount : Nat) : Option Oracle := do
  let old ← o.balances frm.key
  let amount ← toU128 amount
  let new ← checkedSub old amount
  let new ← checkedSub new FEE
  let o := o.setBalance frm new
  let new ← checkedAdd ((o.balances to.key).getD 0) amount
  let o := o.setBalance to new
  let supply ← checkedSub o.totalSupply FEE
  some { o with totalSupply := supply }

/-- `IsCyclesLedger::execute` (tests/gen.rs:178-324); `none` is an error or a panic.  Other
messages are not part of the reference ledger. -/
def execute (o : Oracle) (m : Msg) : Option Oracle :=
  match m with
  | .approve caller args => do
    let frm : Account := ⟨caller, args.fromSubaccount⟩
    let old ← o.balances frm.key
    let new ← checkedSub old FEE
    let o := o.setBalance frm new
    let amount ← toU128 args.amount
    let o := o.setAllowance frm args.spender amount
    let supply ← checkedSub o.totalSupply FEE
    some { o with totalSupply := supply }
  | .deposit _ cycles arg => do
    let amount ← checkedSub cycles.val FEE
    let new ← checkedAdd ((o.balances arg.to.key).getD 0) amount
    let o := o.setBalance arg.to new
    let supply ← checkedAdd o.totalSupply amount
    some { o with totalSupply := supply }
  | .withdraw caller args _ => do
    let frm : Account := ⟨caller, args.fromSubaccount⟩
    let old ← o.balances frm.key
    let amount ← toU128 args.amount
    let total ← checkedAdd amount FEE
    let new ← checkedSub old total
    let o := o.setBalance frm new
    let supply ← checkedSub o.totalSupply total
    some { o with totalSupply := supply }
  | .transfer caller args => o.transfer ⟨caller, args.fromSubaccount⟩ args.to args.amount
  | .transferFrom caller args => do
    let o ← o.transfer args.frm args.to args.amount
    let sp : Account := ⟨caller, args.spenderSubaccount⟩
    let old ← o.allowances (args.frm.key, sp.key)
    let amount ← toU128 args.amount
    let new ← checkedSub old amount
    let new ← checkedSub new FEE
    some (o.setAllowance args.frm sp new)
  | _ => none

end Oracle
end CyclesLedger
