import Verif.Model.Endpoints
/-!
# The canister on the IC: messages, callbacks, upgrades, time

One `Event` is one message execution.  A trap discards the message's changes.
`withdraw`/`create_canister` suspend at their inter-canister call; the callback is a
separate later event, and any number of other events may come in between.
-/
namespace CyclesLedger

/-- Which endpoint is waiting for its inter-canister call. -/
inductive CallKind where
  | withdraw | withdrawFrom | createCanister | createCanisterFrom
  deriving DecidableEq

/-- Method and argument of an outgoing call. -/
inductive CallBody where
  | depositCycles (canister : Principal)
  | createCanister (args : CmcArgs)
  deriving DecidableEq

/-- An outgoing call: whom, what, and the cycles attached. -/
structure OutCall where
  callee : Principal
  body : CallBody
  cycles : Nat
  deriving DecidableEq

/-- `deposit_cycles` of the management canister (storage.rs:1800-1801). -/
def depositCyclesCall (to : Principal) (amount : Nat) : OutCall :=
  ⟨managementCanister, .depositCycles to, amount⟩

/-- `CMC_PRINCIPAL`, rkp4c-7iaaa-aaaaa-aaaca-cai (storage.rs:54). -/
def cmcPrincipal : Principal := ⟨[0, 0, 0, 0, 0, 0, 0, 4, 1, 1], by decide⟩

/-- `create_canister` of the CMC (storage.rs:1955-1988). -/
def createCanisterCall (caller : Principal) (args : Option CmcArgs) (amount : Nat) : OutCall :=
  ⟨cmcPrincipal, .createCanister (cmcArgument args caller), amount⟩

/-- An outstanding call to the management canister or the CMC, and what the suspended
endpoint remembers. -/
structure Pending where
  kind : CallKind
  data : Suspended
  call : OutCall
  deriving DecidableEq

/-- The ledger canister, its clock, its outstanding calls, and its cycle balance
(`cycles` counts what the messages modelled here add and remove; execution charges
are not modelled, see DESIGN.md). -/
structure Sys where
  ledger : State
  now : Nat
  pending : List Pending
  cycles : Int

/-- What the called canister/management canister answers. `refund` is the number of
cycles the IC returns with the response. -/
inductive Answer where
  | depositCycles (rejection : Option CallError)
  | cmc (result : CmcResult) (refund : Nat)

/-- Messages. `sync` is a call that fails before it is sent (`CallPerformFailed`,
`InsufficientLiquidCycleBalance`): the endpoint then carries on in the same message. -/
inductive Msg where
  | deposit (caller : Principal) (cycles : Fin (U128MAX + 1)) (arg : DepositArg)
  | transfer (caller : Principal) (args : TransferArgs)
  | transferFrom (caller : Principal) (args : TransferFromArgs)
  | approve (caller : Principal) (args : ApproveArgs)
  | withdraw (caller : Principal) (args : WithdrawArgs) (sync : Option CallError)
  | withdrawFrom (caller : Principal) (args : WithdrawFromArgs) (sync : Option CallError)
  | createCanister (caller : Principal) (args : CreateCanisterArgs) (sync : Option CallError)
  | createCanisterFrom (caller : Principal) (args : CreateCanisterFromArgs)
      (sync : Option CallError)
  | callback (i : Nat) (answer : Answer)
  | lostCallback (i : Nat)
  | upgrade (arg : PostUpgradeArg)

/-- A message, preceded by `dt` nanoseconds. -/
structure Event where
  dt : Nat
  msg : Msg

instance {ε α : Type} [DecidableEq ε] [DecidableEq α] : DecidableEq (Except ε α)
  | .ok a, .ok b => if h : a = b then isTrue (h ▸ rfl) else isFalse (fun e => by cases e; exact h rfl)
  | .error a, .error b =>
    if h : a = b then isTrue (h ▸ rfl) else isFalse (fun e => by cases e; exact h rfl)
  | .ok _, .error _ => isFalse (fun e => by cases e)
  | .error _, .ok _ => isFalse (fun e => by cases e)

/-- What the caller of the message, or of the endpoint a callback belongs to, sees. -/
inductive Reply where
  | trapped
  | suspended
  | silent
  | deposit (blockIndex balance : Nat)
  | transfer (r : Except TransferError Nat)
  | transferFrom (r : Except TransferFromError Nat)
  | approve (r : Except ApproveError Nat)
  | withdraw (r : Except WithdrawError Nat)
  | withdrawFrom (r : Except WithdrawFromError Nat)
  | createCanister (r : Except CreateCanisterError (Nat × Principal))
  | createCanisterFrom (r : Except CreateCanisterFromError (Nat × Principal))
  deriving DecidableEq

variable [Crypto]

omit [Crypto] in
/-- Commit the result of a synchronous endpoint. -/
def Sys.commit {ε α : Type} (y : Sys) (r : Res State ε α) (reply : Except ε α → Reply) :
    Sys × Reply :=
  match r with
  | .trap => (y, .trapped)
  | .ok a s => ({ y with ledger := s }, reply (.ok a))
  | .err e s => ({ y with ledger := s }, reply (.error e))

/-- Finish a withdrawal (either endpoint) and reply (main.rs:312-337). -/
def finishWithdraw (y : Sys) (s : State) (kind : CallKind) (p : Suspended)
    (result : Option CallError) : Sys × Reply :=
  match kind with
  | .withdraw =>
    y.commit ((withdrawFinish s p result y.now).mapErr withdrawFromErrorToWithdrawError) .withdraw
  | _ => y.commit (withdrawFinish s p result y.now) .withdrawFrom

/-- Finish a canister creation (either endpoint) and reply (main.rs:355-391). -/
def finishCreate (y : Sys) (s : State) (kind : CallKind) (p : Suspended) (result : CmcResult) :
    Sys × Reply :=
  match kind with
  | .createCanister =>
    y.commit ((createCanisterFinish s p result y.now).mapErr createFromErrorToCreateError)
      .createCanister
  | _ => y.commit (createCanisterFinish s p result y.now) .createCanisterFrom

/-- Send the `deposit_cycles` call, or carry on if it cannot be sent
(storage.rs:1800-1802). -/
def sendWithdraw (y : Sys) (r : Res State WithdrawFromError Suspended) (kind : CallKind)
    (to : Principal) (sync : Option CallError) : Sys × Reply :=
  match r with
  | .trap => (y, .trapped)
  | .err e s =>
    match kind with
    | .withdraw => y.commit ((Res.err e s : Res State WithdrawFromError Nat).mapErr
        withdrawFromErrorToWithdrawError) .withdraw
    | _ => y.commit (.err e s : Res State WithdrawFromError Nat) .withdrawFrom
  | .ok p s =>
    match sync with
    | none =>
      let call := depositCyclesCall to p.amount
      ({ y with ledger := s, pending := y.pending ++ [⟨kind, p, call⟩]
                cycles := y.cycles - call.cycles }, .suspended)
    | some code => finishWithdraw y s kind p (some code)

/-- Send the `create_canister` call to the CMC, or carry on if it cannot be sent
(storage.rs:1985-1990). -/
def sendCreate (y : Sys) (r : Res State CreateCanisterFromError Suspended) (kind : CallKind)
    (caller : Principal) (args : Option CmcArgs) (sync : Option CallError) : Sys × Reply :=
  match r with
  | .trap => (y, .trapped)
  | .err e s =>
    match kind with
    | .createCanister => y.commit ((Res.err e s :
        Res State CreateCanisterFromError (Nat × Principal)).mapErr
        createFromErrorToCreateError) .createCanister
    | _ => y.commit (.err e s : Res State CreateCanisterFromError (Nat × Principal))
        .createCanisterFrom
  | .ok p s =>
    match sync with
    | none =>
      let call := createCanisterCall caller args p.amount
      ({ y with ledger := s, pending := y.pending ++ [⟨kind, p, call⟩]
                cycles := y.cycles - call.cycles }, .suspended)
    | some code => finishCreate y s kind p (.callError code)

/-- One message at the current time. -/
def Sys.exec (y : Sys) (m : Msg) : Sys × Reply :=
  match m with
  | .deposit _ cycles arg =>
    match depositEndpoint y.ledger arg cycles.val y.now with
    | .ok (idx, bal) s => ({ y with ledger := s, cycles := y.cycles + cycles.val }, .deposit idx bal)
    | .err e _ => nomatch e
    | .trap => (y, .trapped)
  | .transfer caller args => y.commit (icrc1Transfer y.ledger caller args y.now) .transfer
  | .transferFrom caller args => y.commit (icrc2TransferFrom y.ledger caller args y.now) .transferFrom
  | .approve caller args => y.commit (icrc2Approve y.ledger caller args y.now) .approve
  | .withdraw caller args sync =>
    sendWithdraw y (executeWithdraw y.ledger ⟨caller, args.fromSubaccount⟩ args.to none args.amount
      (opt64 args.createdAtTime) y.now) .withdraw args.to sync
  | .withdrawFrom caller args sync =>
    sendWithdraw y (executeWithdraw y.ledger args.frm args.to
      (some ⟨caller, args.spenderSubaccount⟩) args.amount (opt64 args.createdAtTime) y.now)
      .withdrawFrom args.to sync
  | .createCanister caller args sync =>
    sendCreate y (executeCreateCanister y.ledger ⟨caller, args.fromSubaccount⟩ none args.amount
      (opt64 args.createdAtTime) y.now) .createCanister caller args.creationArgs sync
  | .createCanisterFrom caller args sync =>
    sendCreate y (executeCreateCanister y.ledger args.frm (some ⟨caller, args.spenderSubaccount⟩)
      args.amount (opt64 args.createdAtTime) y.now) .createCanisterFrom caller
      args.creationArgs sync
  | .callback i answer =>
    match y.pending[i]? with
    | none => (y, .silent)
    | some p =>
      match p.kind, answer with
      | .withdraw, .depositCycles r | .withdrawFrom, .depositCycles r =>
        let y := { y with pending := y.pending.eraseIdx i
                          cycles := y.cycles + (if r.isSome then (p.call.cycles : Int) else 0) }
        finishWithdraw y y.ledger p.kind p.data r
      | .createCanister, .cmc r refund | .createCanisterFrom, .cmc r refund =>
        let y := { y with pending := y.pending.eraseIdx i, cycles := y.cycles + refund }
        finishCreate y y.ledger p.kind p.data r
      | _, _ => (y, .silent)
  | .lostCallback i => ({ y with pending := y.pending.eraseIdx i }, .silent)
  | .upgrade arg =>
    match postUpgrade y.ledger arg with
    | none => (y, .trapped)
    | some s => ({ y with ledger := s }, .silent)

omit [Crypto] in
/-- Time passes; the IC clock is a `u64` and never goes back. -/
def Sys.tick (y : Sys) (dt : Nat) : Sys := { y with now := min (y.now + dt) U64MAX }

/-- One event. -/
def Sys.step (y : Sys) (e : Event) : Sys × Reply := (y.tick e.dt).exec e.msg

/-- The state after a list of events. -/
def Sys.run (y : Sys) : List Event → Sys
  | [] => y
  | e :: es => Sys.run (y.step e).1 es

/-- Installation of the canister at time `now` with `cycles` cycles on it. -/
def Sys.init (config : Config) (now : Nat) (cycles : Nat) : Option Sys :=
  (initLedger config (min now U64MAX)).map (fun s => ⟨s, min now U64MAX, [], cycles⟩)

/-- The systems that can come about: install, then any events. -/
def Reachable (y : Sys) : Prop :=
  ∃ config now cycles y0 es, Sys.init config now cycles = some y0 ∧ y = y0.run es

end CyclesLedger
