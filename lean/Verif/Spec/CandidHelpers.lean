import Verif.Spec.CandidCoerce
import Verif.Model.CandidHelpers
/-!
# The depositor as `depositor/depositor.did` describes it
-/
namespace CyclesLedger.Spec.Candid
open CyclesLedger.Candid (Ty Val)

/-- `DepositArg` (depositor.did, line 2). -/
def Did.depositorArg : Ty := Did.record [("to", Did.account), ("memo", .opt Did.blob), ("cycles", .nat)]
/-- `DepositResult` (3). -/
def Did.depositResult : Ty := Did.record [("balance", .nat), ("block_index", .nat)]
/-- `InitArg` (4). -/
def Did.depositorInit : Ty := Did.record [("ledger_id", .principal)]

def Mean.depositorArg (a : DepositorArg) : Val :=
  Mean.record [Mean.account a.to, Mean.opt Mean.blob a.memo, .nat a.cycles.val]
/-- Block index and balance. -/
def Mean.depositResult (r : Nat × Nat) : Val := Mean.record [.nat r.2, .nat r.1]
def Mean.depositorInit (p : Principal) : Val := Mean.record [Mean.principal p]

/-- An encoder: whatever can be sent is sent in one of the ways to send it. -/
def Encoder (put : Ty × Val → Bytes) : Prop :=
  ∀ t v, (∃ bs, IsMessage bs [(t, v)]) → IsMessage (put (t, v)) [(t, v)]

end CyclesLedger.Spec.Candid
