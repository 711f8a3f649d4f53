import Verif.Model.System
/-!
# The helper canisters of the tests: depositor/src/main.rs, fake-cmc/src/main.rs

The depositor sends cycles of its own to the ledger's `deposit`.  The fake CMC stands in for the
cycles minting canister.
-/
namespace CyclesLedger

/-! ## depositor -/

/-- `DepositArg` of the depositor (depositor/src/endpoints.rs:10-15). -/
structure DepositorArg where
  cycles : Fin (U128MAX + 1)
  to : Account
  memo : Option Bytes
  deriving DecidableEq

/-- What the ledger's response to the call of the depositor is: none yet, the reply, or a
rejection. -/
inductive DepositorCall where
  | sent (arg : DepositorArg)
  | replied (arg : DepositorArg) (blockIndex balance : Nat)
  | rejected (arg : DepositorArg)
  deriving DecidableEq

/-- The depositor (its principal and its cycles, without those that travel with calls), its calls
that have not been completed, and the ledger. -/
structure Duo where
  sys : Sys
  self : Principal
  cycles : Nat
  calls : List DepositorCall

/-- What the caller of the depositor sees. -/
inductive DepositorReply where
  | ok (blockIndex balance : Nat)
  | trapped
  | nothing
  deriving DecidableEq

/-- `ledger` is any event of the ledger that does not come from the depositor.  `call` is a call of
the depositor's `deposit`, `arrive` the execution of its call by the ledger, `answer` the delivery
of the response. -/
inductive DuoEvent where
  | ledger (e : Event)
  | call (arg : DepositorArg)
  | arrive (dt i : Nat)
  | answer (i : Nat)

variable [Crypto]

/-- One event.  `deposit` of the depositor (depositor/src/main.rs:29-45): the call is sent with the
cycles asked for (30-39); if they are not there it cannot be sent and `expect` traps (40).  A
rejected call brings the cycles back and traps (40), a reply is handed on (41-44).  The IC credits
returned cycles even if the callback traps. -/
def Duo.step (d : Duo) : DuoEvent → Duo × DepositorReply
  | .ledger e => ({ d with sys := (d.sys.step e).1 }, .nothing)
  | .call arg =>
    if arg.cycles.val ≤ d.cycles then
      ({ d with cycles := d.cycles - arg.cycles.val, calls := d.calls ++ [.sent arg] }, .nothing)
    else (d, .trapped)
  | .arrive dt i =>
    match d.calls[i]? with
    | some (.sent arg) =>
      let out := d.sys.step ⟨dt, .deposit d.self arg.cycles ⟨arg.to, arg.memo⟩⟩
      match out.2 with
      | .deposit idx bal =>
        ({ d with sys := out.1, calls := d.calls.set i (.replied arg idx bal) }, .nothing)
      | _ => ({ d with sys := out.1, calls := d.calls.set i (.rejected arg) }, .nothing)
    | _ => (d, .nothing)
  | .answer i =>
    match d.calls[i]? with
    | some (.replied _ idx bal) => ({ d with calls := d.calls.eraseIdx i }, .ok idx bal)
    | some (.rejected arg) =>
      ({ d with cycles := d.cycles + arg.cycles.val, calls := d.calls.eraseIdx i }, .trapped)
    | _ => (d, .nothing)

/-- The state after a list of events. -/
def Duo.run (d : Duo) : List DuoEvent → Duo
  | [] => d
  | e :: es => Duo.run (d.step e).1 es

omit [Crypto]

/-! ## fake-cmc -/

/-- `CmcCreateCanisterError` as set by `fail_next_create_canister_with` (fake-cmc/src/main.rs:79-82). -/
inductive CmcFailure where
  | refunded (amount : Fin (U128MAX + 1))
  | refundFailed
  deriving DecidableEq

/-- `State` (fake-cmc/src/lib.rs:8-12). -/
structure FakeCmc where
  lastArgs : Option CmcArgs
  failNext : Option CmcFailure
  deriving DecidableEq

/-- Wrapping subtraction of `u128`s (the release build does not check). -/
def wrapSub128 (a b : Nat) : Nat := if b ≤ a then a - b else a + (U128MAX + 1) - b

/-- How the management canister's `create_canister` ended: a new canister, "canister id already
exists" (then the fake CMC tries again), or another rejection. -/
inductive MgmtAnswer where
  | created (canister : Principal)
  | taken
  | rejected

/-- `create_canister` up to its first reply or call (fake-cmc/src/main.rs:27-53): the state, the
cycles accepted and the reply, if there is one already. -/
def FakeCmc.start (c : FakeCmc) (args : CmcArgs) (cycles : Nat) :
    FakeCmc × Nat × Option CmcResult :=
  if cycles < 100000000000 then (c, 0, some (.refunded cycles))
  else
    let c := { c with lastArgs := some args }
    match c.failNext with
    | some (.refunded r) =>
      ({ c with failNext := none }, min cycles (wrapSub128 cycles r.val), some (.refunded r.val))
    | some .refundFailed => ({ c with failNext := none }, cycles, some .refundFailed)
    | none => (c, cycles, none)

/-- The loop around the call to the management canister (55-77): a `panic!` is a rejection with
code `CanisterError`.  `none` if the answers run out. -/
def FakeCmc.create : List MgmtAnswer → Option CmcResult
  | [] => none
  | .created p :: _ => some (.created p)
  | .taken :: rest => FakeCmc.create rest
  | .rejected :: _ => some (.callError (.rejected (some .canisterError)))

/-- Everything together: the reply and the cycles that come back with it.  Cycles that have been
accepted stay accepted even if the call is rejected after an `await`. -/
def FakeCmc.answer (c : FakeCmc) (args : CmcArgs) (cycles : Nat) (mgmt : List MgmtAnswer) :
    Option (FakeCmc × CmcResult × Nat) :=
  match c.start args cycles with
  | (c, accepted, some r) => some (c, r, cycles - accepted)
  | (c, accepted, none) => (FakeCmc.create mgmt).map (fun r => (c, r, cycles - accepted))

end CyclesLedger
