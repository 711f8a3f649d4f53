import Verif.Model.CandidReply
/-!
# The calls of the ledger to other canisters as Candid messages

What is sent with `deposit_cycles` of the management canister and `create_canister` of the cycles
minting canister (CMC), and how the answer of the CMC is read.  Types as in `Model/Candid` and
`Model/CandidReply`; ic_cdk 0.19 for the types of the management canister.
-/
namespace CyclesLedger.Candid

/-- `DepositCyclesArgs` of ic_cdk (storage.rs:1802). -/
def tyDepositCycles : Ty := recTy [("canister_id", .principal)]

def putDepositCycles (p : Principal) : Val := recVal [("canister_id", .principal, putPrincipal p)]

/-- `LogVisibility` of ic_cdk. -/
def casesVisibility : List (String × Ty) :=
  [("controllers", .null), ("public", .null), ("allowed_viewers", .vec .principal)]

def putVisibility : LogVisibility → Val
  | .controllers => enumVal casesVisibility "controllers" .null
  | .pub => enumVal casesVisibility "public" .null
  | .allowedViewers l => enumVal casesVisibility "allowed_viewers" (putVec putPrincipal l)

/-- `EnvironmentVariable` of ic_cdk. -/
def tyVariable : Ty := recTy [("name", .text), ("value", .text)]

def putVariable (a : Bytes × Bytes) : Val :=
  recVal [("name", .text, .text a.1), ("value", .text, .text a.2)]

/-- `CanisterSettings` of ic_cdk. -/
def tySettings : Ty :=
  recTy [("controllers", .opt (.vec .principal)), ("compute_allocation", .opt .nat),
    ("memory_allocation", .opt .nat), ("freezing_threshold", .opt .nat),
    ("reserved_cycles_limit", .opt .nat), ("log_visibility", .opt (enumTy casesVisibility)),
    ("wasm_memory_limit", .opt .nat), ("wasm_memory_threshold", .opt .nat),
    ("environment_variables", .opt (.vec tyVariable))]

def putSettings (a : CanisterSettings) : Val :=
  recVal [("controllers", .opt (.vec .principal), putOpt (putVec putPrincipal) a.controllers),
    ("compute_allocation", .opt .nat, putOpt .nat a.computeAllocation),
    ("memory_allocation", .opt .nat, putOpt .nat a.memoryAllocation),
    ("freezing_threshold", .opt .nat, putOpt .nat a.freezingThreshold),
    ("reserved_cycles_limit", .opt .nat, putOpt .nat a.reservedCyclesLimit),
    ("log_visibility", .opt (enumTy casesVisibility), putOpt putVisibility a.logVisibility),
    ("wasm_memory_limit", .opt .nat, putOpt .nat a.wasmMemoryLimit),
    ("wasm_memory_threshold", .opt .nat, putOpt .nat a.wasmMemoryThreshold),
    ("environment_variables", .opt (.vec tyVariable),
      putOpt (putVec putVariable) a.environmentVariables)]

/-- `SubnetSelection` (endpoints.rs:256-267). -/
def casesSelection : List (String × Ty) :=
  [("Filter", recTy [("subnet_type", .opt .text)]), ("Subnet", recTy [("subnet", .principal)])]

def putSelection : SubnetSelection → Val
  | .filter o => enumVal casesSelection "Filter" (recVal [("subnet_type", .opt .text, putOpt .text o)])
  | .subnet p => enumVal casesSelection "Subnet" (recVal [("subnet", .principal, putPrincipal p)])

/-- `CmcCreateCanisterArgs` (endpoints.rs:250-254). -/
def tyCmcArgs : Ty :=
  recTy [("subnet_selection", .opt (enumTy casesSelection)), ("settings", .opt tySettings)]

def putCmcArgs (a : CmcArgs) : Val :=
  recVal [("subnet_selection", .opt (enumTy casesSelection), putOpt putSelection a.subnetSelection),
    ("settings", .opt tySettings, putOpt putSettings a.settings)]

/-- Method, and type and value of the argument, of an outgoing call (storage.rs:1801-1802,
1982-1988). -/
def sentCall : CallBody → String × Ty × Val
  | .depositCycles p => ("deposit_cycles", tyDepositCycles, putDepositCycles p)
  | .createCanister a => ("create_canister", tyCmcArgs, putCmcArgs a)

/-- `CmcCreateCanisterError` (endpoints.rs:297-308), without the texts. -/
inductive CmcError where
  | refunded (refundAmount : Nat)
  | refundFailed
  deriving DecidableEq

/-- The content of `Refunded`. -/
def desRefunded : Des Nat where
  ty := struct [("refund_amount", desU128.ty), ("create_error", desText.ty)]
  get := fun w v => do
    let refundAmount ← field desU128 "refund_amount" w v
    let _ ← field desText "create_error" w v
    return refundAmount

/-- The content of `RefundFailed`. -/
def desRefundFailed : Des Unit where
  ty := struct [("create_error", desText.ty), ("refund_error", desText.ty)]
  get := fun w v => do
    let _ ← field desText "create_error" w v
    let _ ← field desText "refund_error" w v
    return ()

def desCmcError : Des CmcError where
  ty := enum [("Refunded", desRefunded.ty), ("RefundFailed", desRefundFailed.ty)]
  get := fun w v =>
    match theCase w v with
    | none => none
    | some (l, t, x) =>
      if l = label "Refunded" then (desRefunded.get t x).map .refunded
      else if l = label "RefundFailed" then (desRefundFailed.get t x).map (fun _ => .refundFailed)
      else none

/-- `Result<Principal, CmcCreateCanisterError>` (storage.rs:1982-1985). -/
def desCmcReply : Des (Except CmcError Principal) where
  ty := enum [("Ok", desPrincipal.ty), ("Err", desCmcError.ty)]
  get := fun w v =>
    match theCase w v with
    | none => none
    | some (l, t, x) =>
      if l = label "Ok" then (desPrincipal.get t x).map .ok
      else if l = label "Err" then (desCmcError.get t x).map .error
      else none

/-- What a called canister responds: bytes, or a rejection. -/
inductive Response where
  | reply (bytes : Bytes)
  | reject (code : Option RejectCode)

/-- The outcome of the call to the CMC (storage.rs:1985-2011). -/
def cmcOutcome : Response → CmcResult
  | .reject code => .callError (.rejected code)
  | .reply bytes =>
    match decode desCmcReply bytes with
    | some (.ok p) => .created p
    | some (.error (.refunded n)) => .refunded n
    | some (.error .refundFailed) => .refundFailed
    | none => .callError .candidDecodeFailed

/-- The outcome of `deposit_cycles` (storage.rs:1801-1806).  The management canister replies with an
empty message only, which is read without failure; so no reply is taken for a failure here. -/
def depositOutcome : Response → Option CallError
  | .reject code => some (.rejected code)
  | .reply _ => none

/-- A response to call `i` arrives after `dt` nanoseconds, with `refund` cycles. -/
def _root_.CyclesLedger.Sys.respond [Crypto] (y : Sys) (dt i : Nat) (r : Response) (refund : Nat) :
    Sys × Reply :=
  match y.pending[i]? with
  | none => (y.tick dt, .silent)
  | some p =>
    match p.kind with
    | .withdraw | .withdrawFrom => y.step ⟨dt, .callback i (.depositCycles (depositOutcome r))⟩
    | .createCanister | .createCanisterFrom =>
      y.step ⟨dt, .callback i (.cmc (cmcOutcome r) refund)⟩

end CyclesLedger.Candid
