import Verif.Model.CandidMeta
import Verif.Model.CandidCalls
import Verif.Model.Helpers
/-!
# The fake CMC in bytes: fake-cmc/src/main.rs, fake-cmc/src/lib.rs

`FakeCmc` of `Model/Helpers` with arguments and answers as Candid messages, and the texts of the
errors.  The answers of the management canister stay values: whether it created the canister, has one
with this id, or rejected the call otherwise.
-/
namespace CyclesLedger.Candid

/-- The content of `Refunded`, with its text (endpoints.rs:297-308). -/
def desRefundedWith : Des (Nat × Bytes) where
  ty := desRefunded.ty
  get := fun w v => do
    let refundAmount ← field desU128 "refund_amount" w v
    let why ← field desText "create_error" w v
    return (refundAmount, why)

/-- The content of `RefundFailed`, with its texts. -/
def desRefundFailedWith : Des (Bytes × Bytes) where
  ty := desRefundFailed.ty
  get := fun w v => do
    let why ← field desText "create_error" w v
    let why' ← field desText "refund_error" w v
    return (why, why')

/-- `CmcCreateCanisterError` (endpoints.rs:297-308). -/
inductive CmcErrorWith where
  | refunded (r : Nat × Bytes)
  | refundFailed (r : Bytes × Bytes)
  deriving DecidableEq

def desCmcErrorWith : Des CmcErrorWith where
  ty := desCmcError.ty
  get := fun w v =>
    match theCase w v with
    | none => none
    | some (l, t, x) =>
      if l = label "Refunded" then (desRefundedWith.get t x).map .refunded
      else if l = label "RefundFailed" then (desRefundFailedWith.get t x).map .refundFailed
      else none

/-- `State` (fake-cmc/src/lib.rs:8-12). -/
structure WireCmc where
  lastArgs : Option CmcArgs
  failNext : Option CmcErrorWith
  deriving DecidableEq

/-- `State::default()` (main.rs:20-22). -/
def WireCmc.init : WireCmc := ⟨none, none⟩

/-- What `create_canister` does next, after its first part. -/
inductive Begun where
  | trapped
  | failed (e : CmcErrorWith)
  | creating (args : CmcArgs)
  deriving DecidableEq

/-- `create_canister` up to its first answer or call (main.rs:26-53): the state, the cycles accepted
and what comes next.  An argument that cannot be read is a trap.  The subtraction wraps (release
build), and no more is accepted than is available. -/
def WireCmc.begin (c : WireCmc) (bytes : Bytes) (cycles : Nat) : WireCmc × Nat × Begun :=
  match decode desCmcArgs bytes with
  | none => (c, 0, .trapped)
  | some args =>
    if cycles < 100000000000 then
      (c, 0, .failed (.refunded (cycles, utf8 "Insufficient cycles attached.")))
    else
      match c.failNext with
      | some (.refunded r) =>
        (⟨some args, none⟩, min cycles (wrapSub128 cycles r.1), .failed (.refunded r))
      | some (.refundFailed r) => (⟨some args, none⟩, cycles, .failed (.refundFailed r))
      | none => (⟨some args, none⟩, cycles, .creating args)

/-- `Result<Principal, CmcCreateCanisterError>` (main.rs:27). -/
def casesFakeError : List (String × Ty) :=
  [("Refunded", recTy [("refund_amount", .nat), ("create_error", .text)]),
    ("RefundFailed", recTy [("create_error", .text), ("refund_error", .text)])]

def putFakeError : CmcErrorWith → Val
  | .refunded r => enumVal casesFakeError "Refunded"
      (recVal [("refund_amount", .nat, .nat r.1), ("create_error", .text, .text r.2)])
  | .refundFailed r => enumVal casesFakeError "RefundFailed"
      (recVal [("create_error", .text, .text r.1), ("refund_error", .text, .text r.2)])

def tyFakeReply : Ty := enumTy (casesResult .principal (enumTy casesFakeError))

def putFakeReply : Except CmcErrorWith Principal → Val :=
  putResult .principal (enumTy casesFakeError) putPrincipal putFakeError

/-- The loop (main.rs:57-80) over the answers of the management canister: `none` if they run out,
`some none` for a `panic!`. -/
def createLoop : List MgmtAnswer → Option (Option (Ty × Val))
  | [] => none
  | .created p :: _ => some (some (tyFakeReply, putFakeReply (.ok p)))
  | .taken :: rest => createLoop rest
  | .rejected :: _ => some none

/-- The answer: a value, or a rejection with code `CanisterError`. -/
def Begun.answer (mgmt : List MgmtAnswer) : Begun → Option (Option (Ty × Val))
  | .trapped => some none
  | .failed e => some (some (tyFakeReply, putFakeReply (.error e)))
  | .creating _ => createLoop mgmt

/-- The argument of each call to the management canister (main.rs:14-18, 58-61), all cycles attached
(65). -/
def tyComplete : Ty :=
  recTy [("settings", .opt tySettings), ("sender_canister_version", .opt (.fixed .nat64))]

def putComplete (a : CmcArgs) (version : Nat) : Val :=
  recVal [("settings", .opt tySettings, putOpt putSettings a.settings),
    ("sender_canister_version", .opt (.fixed .nat64),
      putOpt (fun n => .fixed (toLE 8 n)) (some version))]

/-- The update calls. -/
inductive CmcEvent where
  | create (bytes : Bytes) (cycles : Nat)
  | failNext (bytes : Bytes)

/-- `create_canister` changes the state in its first part only; `fail_next_create_canister_with`
(main.rs:83-86). -/
def WireCmc.step (c : WireCmc) : CmcEvent → WireCmc
  | .create bytes cycles => (c.begin bytes cycles).1
  | .failNext bytes =>
    match decode desCmcErrorWith bytes with
    | none => c
    | some e => { c with failNext := some e }

def WireCmc.run (c : WireCmc) (es : List CmcEvent) : WireCmc := es.foldl WireCmc.step c

/-- `IcpXdrConversionRateResponse` (lib.rs:14-35). -/
def tyRate : Ty := recTy [("xdr_permyriad_per_icp", .fixed .nat64), ("timestamp_seconds", .fixed .nat64)]

def putRate (now : Nat) : Val :=
  recVal [("xdr_permyriad_per_icp", .fixed .nat64, .fixed (toLE 8 50000)),
    ("timestamp_seconds", .fixed .nat64, .fixed (toLE 8 (now / 1000000000)))]

def tyRateResponse : Ty :=
  recTy [("certificate", .vec (.fixed .nat8)), ("data", tyRate), ("hash_tree", .vec (.fixed .nat8))]

def putRateResponse (now : Nat) : Val :=
  recVal [("certificate", .vec (.fixed .nat8), putBlob []), ("data", tyRate, putRate now),
    ("hash_tree", .vec (.fixed .nat8), putBlob [])]

/-- The queries (main.rs:88-101), at time `now`; `none` is a trap. -/
def WireCmc.show (c : WireCmc) (now : Nat) (method : String) (bytes : Bytes) : Option (Ty × Val) :=
  if method = "get_icp_xdr_conversion_rate" then
    (readMessage bytes).map (fun _ => (tyRateResponse, putRateResponse now))
  else if method = "last_create_canister_args" then
    (readMessage bytes).bind (fun _ => c.lastArgs.map (fun a => (tyCmcArgs, putCmcArgs a)))
  else none

end CyclesLedger.Candid
