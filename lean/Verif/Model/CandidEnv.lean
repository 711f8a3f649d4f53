import Verif.Model.CandidFake
import Verif.Model.Life
/-!
# The ledger and the fake CMC together, in bytes

The set-up of `cycles-ledger/tests/tests.rs` (332-349, 390-410): the fake CMC is installed at the id of the CMC,
so the creations of the ledger go to it.  Both are as in `Model/Life` and `Model/CandidFake`.  Calls to
the fake CMC arrive in any order and are answered in any order; the test queries do not change
anything.  Every call of the ledger is answered once (`lost` of `Model/Life` is left out).
-/
namespace CyclesLedger.Candid

/-- `kept` are the cycles that the fake CMC has accepted; `seen` has an entry for each outstanding call
of the ledger: `none`, or what the fake CMC has accepted of its cycles and what it does next. -/
structure WireEnv where
  sys : Sys
  cmc : WireCmc
  kept : Nat
  seen : List (Option (Nat × Begun))

inductive EnvEvent where
  /-- Somebody calls the ledger. -/
  | call (dt : Nat) (c : Call)
  /-- The ledger is upgraded. -/
  | upgrade (dt : Nat) (bytes : Bytes)
  /-- Somebody calls `fail_next_create_canister_with`. -/
  | order (bytes : Bytes)
  /-- Outstanding call `i` of the ledger reaches the fake CMC. -/
  | arrive (i : Nat)
  /-- The fake CMC has got these answers from the management canister and answers. -/
  | answer (dt i : Nat) (mgmt : List MgmtAnswer)
  /-- The management canister answers `deposit_cycles`. -/
  | deposited (dt i : Nat) (r : Response)

/-- The response to the ledger; `put` encodes for the fake CMC. -/
def fakeResponse (put : Ty × Val → Bytes) : Option (Ty × Val) → Response
  | some a => .reply (put a)
  | none => .reject (some .canisterError)

variable [Crypto]

/-- One event, and the answer of the ledger to its caller.  `put` encodes for the ledger, `put'` for
the fake CMC. -/
def WireEnv.step (put put' : Ty × Val → Bytes) (w : WireEnv) : EnvEvent → WireEnv × Reply
  | .call dt c =>
    let out := w.sys.receive dt c
    ({ w with sys := out.1
              seen := w.seen ++ List.replicate (out.1.pending.length - w.sys.pending.length) none },
      out.2)
  | .upgrade dt bytes => ({ w with sys := (w.sys.upgradeWith dt bytes).1 }, .silent)
  | .order bytes => ({ w with cmc := w.cmc.step (.failNext bytes) }, .silent)
  | .arrive i =>
    match w.sys.pending[i]?, w.seen[i]? with
    | some p, some none =>
      match p.call.body with
      | .createCanister args =>
        let out := w.cmc.begin (put (sentCall (.createCanister args)).2) p.call.cycles
        ({ w with cmc := out.1, kept := w.kept + out.2.1, seen := w.seen.set i (some out.2) }, .silent)
      | .depositCycles _ => (w, .silent)
    | _, _ => (w, .silent)
  | .answer dt i mgmt =>
    match w.sys.pending[i]?, w.seen[i]? with
    | some p, some (some (accepted, b)) =>
      match b.answer mgmt with
      | some o =>
        let out := w.sys.respond dt i (fakeResponse put' o) (p.call.cycles - accepted)
        ({ w with sys := out.1, seen := w.seen.eraseIdx i }, out.2)
      | none => (w, .silent)
    | _, _ => (w, .silent)
  | .deposited dt i r =>
    match w.sys.pending[i]? with
    | some p =>
      match p.call.body with
      | .depositCycles _ =>
        let out := w.sys.respond dt i r 0
        ({ w with sys := out.1, seen := w.seen.eraseIdx i }, out.2)
      | .createCanister _ => (w, .silent)
    | none => (w, .silent)

/-- The state after a list of events. -/
def WireEnv.run (put put' : Ty × Val → Bytes) (w : WireEnv) : List EnvEvent → WireEnv
  | [] => w
  | e :: es => WireEnv.run put put' (w.step put put' e).1 es

end CyclesLedger.Candid
