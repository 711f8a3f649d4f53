import Verif.Model.CandidCalls
/-!
# The life of the canister in bytes

What reaches the canister from the day it is installed: calls, responses to its own calls, and
upgrades, all of which are bytes.
-/
namespace CyclesLedger.Candid

/-- What reaches the canister; `lost` is a response whose callback never runs, as in `Msg`. -/
inductive Input where
  | call (c : Call)
  | response (i : Nat) (r : Response) (refund : Nat)
  | lost (i : Nat)
  | upgrade (bytes : Bytes)

/-- `init` (main.rs:32-50): the CDK decodes a `LedgerArgs`; `none` is the trap, and then there is no
canister. -/
def _root_.CyclesLedger.Sys.install [Crypto] (bytes : Bytes) (now cycles : Nat) : Option Sys :=
  match decode desLedger bytes with
  | some (.init config) => Sys.init config now cycles
  | some (.upgrade _) => none
  | none => none

/-- `post_upgrade` (main.rs:52-71): the CDK decodes an `Option<LedgerArgs>`.  If it traps, the canister
stays as it was. -/
def _root_.CyclesLedger.Sys.upgradeWith [Crypto] (y : Sys) (dt : Nat) (bytes : Bytes) : Sys × Reply :=
  match decode (desOpt desLedger) bytes with
  | some o => y.step ⟨dt, .upgrade (upgradeArg o)⟩
  | none => (y.tick dt, .trapped)

/-- Something arrives after `dt` nanoseconds. -/
def _root_.CyclesLedger.Sys.take [Crypto] (y : Sys) (dt : Nat) : Input → Sys × Reply
  | .call c => y.receive dt c
  | .response i r refund => y.respond dt i r refund
  | .lost i => y.step ⟨dt, .lostCallback i⟩
  | .upgrade bytes => y.upgradeWith dt bytes

/-- The state after a list of such things. -/
def _root_.CyclesLedger.Sys.live [Crypto] (y : Sys) : List (Nat × Input) → Sys
  | [] => y
  | (dt, i) :: rest => Sys.live (y.take dt i).1 rest

end CyclesLedger.Candid
