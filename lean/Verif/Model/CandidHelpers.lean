import Verif.Model.CandidCalls
import Verif.Model.Helpers
/-!
# The depositor in bytes: depositor/src/main.rs

`Model/Helpers` with the arguments, the calls to the ledger and the answers as Candid messages.  Which
bytes are sent for a value is left to an encoder, one for each canister.
-/
namespace CyclesLedger.Candid

/-- `InitArg` of the depositor (depositor/src/endpoints.rs:5-8). -/
def desDepositorInit : Des Principal where
  ty := struct [("ledger_id", desPrincipal.ty)]
  get := fun w v => field desPrincipal "ledger_id" w v

/-- `DepositArg` of the depositor (depositor/src/endpoints.rs:10-15): cycles, account and memo. -/
def desDepositor : Des (Nat × Account × Option Bytes) where
  ty := struct [("cycles", desU128.ty), ("to", desAccount.ty), ("memo", (desOpt desBlob).ty)]
  get := fun w v => do
    let cycles ← field desU128 "cycles" w v
    let to ← field desAccount "to" w v
    let memo ← field (desOpt desBlob) "memo" w v
    return (cycles, to, memo)

/-- `DepositResult` (cycles-ledger/src/endpoints.rs:51-55) as the depositor reads it: block index and
balance. -/
def desDepositResult : Des (Nat × Nat) where
  ty := struct [("block_index", desNat.ty), ("balance", desNat.ty)]
  get := fun w v => do
    let blockIndex ← field desNat "block_index" w v
    let balance ← field desNat "balance" w v
    return (blockIndex, balance)

/-- The argument of a call of the depositor. -/
def depositorArg (bytes : Bytes) : Option DepositorArg :=
  match decode desDepositor bytes with
  | none => none
  | some (n, to, memo) => if h : n < U128MAX + 1 then some ⟨⟨n, h⟩, to, memo⟩ else none

/-- `DepositArg` of the ledger as the depositor writes it (depositor/src/main.rs:33-36). -/
def tyDepositArg : Ty := recTy [("to", tyAccount), ("memo", .opt (.vec (.fixed .nat8)))]

def putDepositArg (a : DepositArg) : Val :=
  recVal [("to", tyAccount, putAccount a.to), ("memo", .opt (.vec (.fixed .nat8)), putOpt putBlob a.memo)]

/-- A call of the depositor: on its way, with its cycles; answered; or rejected, with the cycles on
their way back. -/
inductive WireCall where
  | sent (cycles : Fin (U128MAX + 1)) (bytes : Bytes)
  | replied (bytes : Bytes)
  | rejected (cycles : Fin (U128MAX + 1))
  deriving DecidableEq

/-- As `Duo`. -/
structure WireDuo where
  sys : Sys
  self : Principal
  cycles : Nat
  calls : List WireCall

/-- As `DuoEvent`; the depositor is called with bytes. -/
inductive WireEvent where
  | ledger (e : Event)
  | call (bytes : Bytes)
  | arrive (dt i : Nat)
  | answer (i : Nat)

/-- What the caller of the depositor gets. -/
inductive WireReply where
  | replied (t : Ty) (v : Val)
  | trapped
  | nothing

variable [Crypto]

/-- One event.  `deposit` of the depositor (depositor/src/main.rs:29-45): an argument that cannot be
read traps; the argument for the ledger is encoded (33-39); an answer that cannot be read traps (42),
and is encoded again if it can (44).  `put` encodes for the depositor, `put'` for the ledger. -/
def WireDuo.step (put put' : Ty × Val → Bytes) (d : WireDuo) : WireEvent → WireDuo × WireReply
  | .ledger e => ({ d with sys := (d.sys.step e).1 }, .nothing)
  | .call bytes =>
    match depositorArg bytes with
    | none => (d, .trapped)
    | some arg =>
      if arg.cycles.val ≤ d.cycles then
        ({ d with cycles := d.cycles - arg.cycles.val
                  calls := d.calls ++ [.sent arg.cycles
                    (put (tyDepositArg, putDepositArg ⟨arg.to, arg.memo⟩))] }, .nothing)
      else (d, .trapped)
  | .arrive dt i =>
    match d.calls[i]? with
    | some (.sent n bytes) =>
      let out := d.sys.receive dt ⟨"deposit", d.self, n, bytes, none⟩
      match reply [] out.2 with
      | some a => ({ d with sys := out.1, calls := d.calls.set i (.replied (put' a)) }, .nothing)
      | none => ({ d with sys := out.1, calls := d.calls.set i (.rejected n) }, .nothing)
    | _ => (d, .nothing)
  | .answer i =>
    match d.calls[i]? with
    | some (.replied bytes) =>
      match decode desDepositResult bytes with
      | some r => ({ d with calls := d.calls.eraseIdx i }, .replied tyDeposit (putDeposit r.1 r.2))
      | none => ({ d with calls := d.calls.eraseIdx i }, .trapped)
    | some (.rejected n) =>
      ({ d with cycles := d.cycles + n.val, calls := d.calls.eraseIdx i }, .trapped)
    | _ => (d, .nothing)

/-- The state after a list of events. -/
def WireDuo.run (put put' : Ty × Val → Bytes) (d : WireDuo) : List WireEvent → WireDuo
  | [] => d
  | e :: es => WireDuo.run put put' (d.step put put' e).1 es

end CyclesLedger.Candid
