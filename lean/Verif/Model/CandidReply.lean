import Verif.Model.Candid
import Verif.Model.System
/-!
# The replies of the endpoints as Candid messages

What `derive(CandidType)` makes of the results of the endpoints: types and values (endpoints.rs:51-54,
85-144, 311-416; `icrc-ledger-types` 0.1.12 for the ICRC errors), after candid 0.10.20.  Fields and
cases are ordered by label.  The table of types that the library builds for a message is left open:
a reply is any message (`Spec.Candid.IsMessage`) with this type and value.  The texts of errors, which
the errors of this model do not contain, are a parameter.
-/
namespace CyclesLedger.Candid

/-- Into a list by increasing label. -/
def insertField {B : Type} (a : Nat × B) : List (Nat × B) → List (Nat × B)
  | [] => [a]
  | b :: rest => if a.1 < b.1 then a :: b :: rest else b :: insertField a rest

def sortFields {B : Type} : List (Nat × B) → List (Nat × B)
  | [] => []
  | a :: rest => insertField a (sortFields rest)

/-- The type of a struct. -/
def recTy (l : List (String × Ty)) : Ty :=
  .record (Fields.ofList (sortFields (l.map (fun f => (label f.1, f.2)))))

/-- A struct: names, types and values of the fields. -/
def recVal (l : List (String × Ty × Val)) : Val :=
  .record (Vals.ofList ((sortFields (l.map (fun f => (label f.1, f.2)))).map (fun f => f.2.2)))

/-- The type of an enum. -/
def enumTy (l : List (String × Ty)) : Ty :=
  .variant (Fields.ofList (sortFields (l.map (fun f => (label f.1, f.2)))))

/-- A case of an enum. -/
def enumVal (l : List (String × Ty)) (name : String) (v : Val) : Val :=
  .variant ((sortFields (l.map (fun f => (label f.1, f.2)))).findIdx (fun c => c.1 == label name)) v

/-- The `k` bytes of a number, the lowest first. -/
def toLE : Nat → Nat → Bytes
  | 0, _ => []
  | k + 1, n => UInt8.ofNat (n % 256) :: toLE k (n / 256)

/-- `u64`. -/
def putTime (n : Nat) : Val := .fixed (toLE 8 n)

/-- `Principal`. -/
def putPrincipal (p : Principal) : Val := .principal p.bytes

/-- `Option<T>`. -/
def putOpt {A : Type} (put : A → Val) : Option A → Val
  | none => .none
  | some a => .some (put a)

/-- `Vec<T>`. -/
def putVec {A : Type} (put : A → Val) (l : List A) : Val := .vec (Vals.ofList (l.map put))

/-- `RejectionCode` (endpoints.rs:394-403). -/
def casesRejection : List (String × Ty) :=
  [("NoError", .null), ("CanisterError", .null), ("SysTransient", .null), ("DestinationInvalid", .null), ("Unknown", .null), ("SysFatal", .null), ("CanisterReject", .null)]

def tyRejection : Ty := enumTy casesRejection

def putRejection : RejectionCode → Val
  | .noError => enumVal casesRejection "NoError" .null
  | .canisterError => enumVal casesRejection "CanisterError" .null
  | .sysTransient => enumVal casesRejection "SysTransient" .null
  | .destinationInvalid => enumVal casesRejection "DestinationInvalid" .null
  | .unknown => enumVal casesRejection "Unknown" .null
  | .sysFatal => enumVal casesRejection "SysFatal" .null
  | .canisterReject => enumVal casesRejection "CanisterReject" .null

/-- `TransferError` (icrc-ledger-types). -/
def casesTransferError : List (String × Ty) :=
  [("BadFee", recTy [("expected_fee", .nat)]),
   ("BadBurn", recTy [("min_burn_amount", .nat)]),
   ("InsufficientFunds", recTy [("balance", .nat)]),
   ("TooOld", .null),
   ("CreatedInFuture", recTy [("ledger_time", .fixed .nat64)]),
   ("TemporarilyUnavailable", .null),
   ("Duplicate", recTy [("duplicate_of", .nat)]),
   ("GenericError", recTy [("error_code", .nat), ("message", .text)])]

def putTransferError (text : Bytes) : TransferError → Val
  | .badFee x =>
    enumVal casesTransferError "BadFee" (recVal [("expected_fee", .nat, .nat x)])
  | .badBurn x =>
    enumVal casesTransferError "BadBurn" (recVal [("min_burn_amount", .nat, .nat x)])
  | .insufficientFunds x =>
    enumVal casesTransferError "InsufficientFunds" (recVal [("balance", .nat, .nat x)])
  | .tooOld =>
    enumVal casesTransferError "TooOld" .null
  | .createdInFuture x =>
    enumVal casesTransferError "CreatedInFuture" (recVal [("ledger_time", .fixed .nat64, putTime x)])
  | .temporarilyUnavailable =>
    enumVal casesTransferError "TemporarilyUnavailable" .null
  | .duplicate x =>
    enumVal casesTransferError "Duplicate" (recVal [("duplicate_of", .nat, .nat x)])
  | .genericError x =>
    enumVal casesTransferError "GenericError" (recVal [("error_code", .nat, .nat x), ("message", .text, .text text)])

/-- `TransferFromError` (icrc-ledger-types). -/
def casesTransferFromError : List (String × Ty) :=
  [("BadFee", recTy [("expected_fee", .nat)]),
   ("BadBurn", recTy [("min_burn_amount", .nat)]),
   ("InsufficientFunds", recTy [("balance", .nat)]),
   ("InsufficientAllowance", recTy [("allowance", .nat)]),
   ("TooOld", .null),
   ("CreatedInFuture", recTy [("ledger_time", .fixed .nat64)]),
   ("Duplicate", recTy [("duplicate_of", .nat)]),
   ("TemporarilyUnavailable", .null),
   ("GenericError", recTy [("error_code", .nat), ("message", .text)])]

def putTransferFromError (text : Bytes) : TransferFromError → Val
  | .badFee x =>
    enumVal casesTransferFromError "BadFee" (recVal [("expected_fee", .nat, .nat x)])
  | .badBurn x =>
    enumVal casesTransferFromError "BadBurn" (recVal [("min_burn_amount", .nat, .nat x)])
  | .insufficientFunds x =>
    enumVal casesTransferFromError "InsufficientFunds" (recVal [("balance", .nat, .nat x)])
  | .insufficientAllowance x =>
    enumVal casesTransferFromError "InsufficientAllowance" (recVal [("allowance", .nat, .nat x)])
  | .tooOld =>
    enumVal casesTransferFromError "TooOld" .null
  | .createdInFuture x =>
    enumVal casesTransferFromError "CreatedInFuture" (recVal [("ledger_time", .fixed .nat64, putTime x)])
  | .duplicate x =>
    enumVal casesTransferFromError "Duplicate" (recVal [("duplicate_of", .nat, .nat x)])
  | .temporarilyUnavailable =>
    enumVal casesTransferFromError "TemporarilyUnavailable" .null
  | .genericError x =>
    enumVal casesTransferFromError "GenericError" (recVal [("error_code", .nat, .nat x), ("message", .text, .text text)])

/-- `ApproveError` (icrc-ledger-types). -/
def casesApproveError : List (String × Ty) :=
  [("BadFee", recTy [("expected_fee", .nat)]),
   ("InsufficientFunds", recTy [("balance", .nat)]),
   ("AllowanceChanged", recTy [("current_allowance", .nat)]),
   ("Expired", recTy [("ledger_time", .fixed .nat64)]),
   ("TooOld", .null),
   ("CreatedInFuture", recTy [("ledger_time", .fixed .nat64)]),
   ("Duplicate", recTy [("duplicate_of", .nat)]),
   ("TemporarilyUnavailable", .null),
   ("GenericError", recTy [("error_code", .nat), ("message", .text)])]

def putApproveError (text : Bytes) : ApproveError → Val
  | .badFee x =>
    enumVal casesApproveError "BadFee" (recVal [("expected_fee", .nat, .nat x)])
  | .insufficientFunds x =>
    enumVal casesApproveError "InsufficientFunds" (recVal [("balance", .nat, .nat x)])
  | .allowanceChanged x =>
    enumVal casesApproveError "AllowanceChanged" (recVal [("current_allowance", .nat, .nat x)])
  | .expired x =>
    enumVal casesApproveError "Expired" (recVal [("ledger_time", .fixed .nat64, putTime x)])
  | .tooOld =>
    enumVal casesApproveError "TooOld" .null
  | .createdInFuture x =>
    enumVal casesApproveError "CreatedInFuture" (recVal [("ledger_time", .fixed .nat64, putTime x)])
  | .duplicate x =>
    enumVal casesApproveError "Duplicate" (recVal [("duplicate_of", .nat, .nat x)])
  | .temporarilyUnavailable =>
    enumVal casesApproveError "TemporarilyUnavailable" .null
  | .genericError x =>
    enumVal casesApproveError "GenericError" (recVal [("error_code", .nat, .nat x), ("message", .text, .text text)])

/-- `WithdrawError` (endpoints.rs:85-112). -/
def casesWithdrawError : List (String × Ty) :=
  [("BadFee", recTy [("expected_fee", .nat)]),
   ("InsufficientFunds", recTy [("balance", .nat)]),
   ("TooOld", .null),
   ("CreatedInFuture", recTy [("ledger_time", .fixed .nat64)]),
   ("TemporarilyUnavailable", .null),
   ("Duplicate", recTy [("duplicate_of", .nat)]),
   ("FailedToWithdraw", recTy [("fee_block", .opt .nat), ("rejection_code", tyRejection), ("rejection_reason", .text)]),
   ("GenericError", recTy [("error_code", .nat), ("message", .text)]),
   ("InvalidReceiver", recTy [("receiver", .principal)])]

def putWithdrawError (text : Bytes) : WithdrawError → Val
  | .badFee x =>
    enumVal casesWithdrawError "BadFee" (recVal [("expected_fee", .nat, .nat x)])
  | .insufficientFunds x =>
    enumVal casesWithdrawError "InsufficientFunds" (recVal [("balance", .nat, .nat x)])
  | .tooOld =>
    enumVal casesWithdrawError "TooOld" .null
  | .createdInFuture x =>
    enumVal casesWithdrawError "CreatedInFuture" (recVal [("ledger_time", .fixed .nat64, putTime x)])
  | .temporarilyUnavailable =>
    enumVal casesWithdrawError "TemporarilyUnavailable" .null
  | .duplicate x =>
    enumVal casesWithdrawError "Duplicate" (recVal [("duplicate_of", .nat, .nat x)])
  | .failedToWithdraw x y =>
    enumVal casesWithdrawError "FailedToWithdraw" (recVal [("fee_block", .opt .nat, putOpt .nat x), ("rejection_code", tyRejection, putRejection y), ("rejection_reason", .text, .text text)])
  | .genericError x =>
    enumVal casesWithdrawError "GenericError" (recVal [("error_code", .nat, .nat x), ("message", .text, .text text)])
  | .invalidReceiver x =>
    enumVal casesWithdrawError "InvalidReceiver" (recVal [("receiver", .principal, putPrincipal x)])

/-- `WithdrawFromError` (endpoints.rs:115-144). -/
def casesWithdrawFromError : List (String × Ty) :=
  [("InsufficientFunds", recTy [("balance", .nat)]),
   ("InsufficientAllowance", recTy [("allowance", .nat)]),
   ("TooOld", .null),
   ("CreatedInFuture", recTy [("ledger_time", .fixed .nat64)]),
   ("TemporarilyUnavailable", .null),
   ("Duplicate", recTy [("duplicate_of", .nat)]),
   ("FailedToWithdrawFrom", recTy [("withdraw_from_block", .opt .nat), ("refund_block", .opt .nat), ("approval_refund_block", .opt .nat), ("rejection_code", tyRejection), ("rejection_reason", .text)]),
   ("GenericError", recTy [("error_code", .nat), ("message", .text)]),
   ("InvalidReceiver", recTy [("receiver", .principal)])]

def putWithdrawFromError (text : Bytes) : WithdrawFromError → Val
  | .insufficientFunds x =>
    enumVal casesWithdrawFromError "InsufficientFunds" (recVal [("balance", .nat, .nat x)])
  | .insufficientAllowance x =>
    enumVal casesWithdrawFromError "InsufficientAllowance" (recVal [("allowance", .nat, .nat x)])
  | .tooOld =>
    enumVal casesWithdrawFromError "TooOld" .null
  | .createdInFuture x =>
    enumVal casesWithdrawFromError "CreatedInFuture" (recVal [("ledger_time", .fixed .nat64, putTime x)])
  | .temporarilyUnavailable =>
    enumVal casesWithdrawFromError "TemporarilyUnavailable" .null
  | .duplicate x =>
    enumVal casesWithdrawFromError "Duplicate" (recVal [("duplicate_of", .nat, .nat x)])
  | .failedToWithdrawFrom x y z w =>
    enumVal casesWithdrawFromError "FailedToWithdrawFrom" (recVal [("withdraw_from_block", .opt .nat, putOpt .nat x), ("refund_block", .opt .nat, putOpt .nat y), ("approval_refund_block", .opt .nat, putOpt .nat z), ("rejection_code", tyRejection, putRejection w), ("rejection_reason", .text, .text text)])
  | .genericError x =>
    enumVal casesWithdrawFromError "GenericError" (recVal [("error_code", .nat, .nat x), ("message", .text, .text text)])
  | .invalidReceiver x =>
    enumVal casesWithdrawFromError "InvalidReceiver" (recVal [("receiver", .principal, putPrincipal x)])

/-- `CreateCanisterError` (endpoints.rs:311-333). -/
def casesCreateCanisterError : List (String × Ty) :=
  [("InsufficientFunds", recTy [("balance", .nat)]),
   ("TooOld", .null),
   ("CreatedInFuture", recTy [("ledger_time", .fixed .nat64)]),
   ("TemporarilyUnavailable", .null),
   ("Duplicate", recTy [("duplicate_of", .nat), ("canister_id", .opt .principal)]),
   ("FailedToCreate", recTy [("fee_block", .opt .nat), ("refund_block", .opt .nat), ("error", .text)]),
   ("GenericError", recTy [("error_code", .nat), ("message", .text)])]

def putCreateCanisterError (text : Bytes) : CreateCanisterError → Val
  | .insufficientFunds x =>
    enumVal casesCreateCanisterError "InsufficientFunds" (recVal [("balance", .nat, .nat x)])
  | .tooOld =>
    enumVal casesCreateCanisterError "TooOld" .null
  | .createdInFuture x =>
    enumVal casesCreateCanisterError "CreatedInFuture" (recVal [("ledger_time", .fixed .nat64, putTime x)])
  | .temporarilyUnavailable =>
    enumVal casesCreateCanisterError "TemporarilyUnavailable" .null
  | .duplicate x y =>
    enumVal casesCreateCanisterError "Duplicate" (recVal [("duplicate_of", .nat, .nat x), ("canister_id", .opt .principal, putOpt putPrincipal y)])
  | .failedToCreate x y =>
    enumVal casesCreateCanisterError "FailedToCreate" (recVal [("fee_block", .opt .nat, putOpt .nat x), ("refund_block", .opt .nat, putOpt .nat y), ("error", .text, .text text)])
  | .genericError x =>
    enumVal casesCreateCanisterError "GenericError" (recVal [("error_code", .nat, .nat x), ("message", .text, .text text)])

/-- `CreateCanisterFromError` (endpoints.rs:337-364). -/
def casesCreateCanisterFromError : List (String × Ty) :=
  [("InsufficientFunds", recTy [("balance", .nat)]),
   ("InsufficientAllowance", recTy [("allowance", .nat)]),
   ("TooOld", .null),
   ("CreatedInFuture", recTy [("ledger_time", .fixed .nat64)]),
   ("TemporarilyUnavailable", .null),
   ("Duplicate", recTy [("duplicate_of", .nat), ("canister_id", .opt .principal)]),
   ("FailedToCreateFrom", recTy [("create_from_block", .opt .nat), ("refund_block", .opt .nat), ("approval_refund_block", .opt .nat), ("rejection_code", tyRejection), ("rejection_reason", .text)]),
   ("GenericError", recTy [("error_code", .nat), ("message", .text)])]

def putCreateCanisterFromError (text : Bytes) : CreateCanisterFromError → Val
  | .insufficientFunds x =>
    enumVal casesCreateCanisterFromError "InsufficientFunds" (recVal [("balance", .nat, .nat x)])
  | .insufficientAllowance x =>
    enumVal casesCreateCanisterFromError "InsufficientAllowance" (recVal [("allowance", .nat, .nat x)])
  | .tooOld =>
    enumVal casesCreateCanisterFromError "TooOld" .null
  | .createdInFuture x =>
    enumVal casesCreateCanisterFromError "CreatedInFuture" (recVal [("ledger_time", .fixed .nat64, putTime x)])
  | .temporarilyUnavailable =>
    enumVal casesCreateCanisterFromError "TemporarilyUnavailable" .null
  | .duplicate x y =>
    enumVal casesCreateCanisterFromError "Duplicate" (recVal [("duplicate_of", .nat, .nat x), ("canister_id", .opt .principal, putOpt putPrincipal y)])
  | .failedToCreateFrom x y z w =>
    enumVal casesCreateCanisterFromError "FailedToCreateFrom" (recVal [("create_from_block", .opt .nat, putOpt .nat x), ("refund_block", .opt .nat, putOpt .nat y), ("approval_refund_block", .opt .nat, putOpt .nat z), ("rejection_code", tyRejection, putRejection w), ("rejection_reason", .text, .text text)])
  | .genericError x =>
    enumVal casesCreateCanisterFromError "GenericError" (recVal [("error_code", .nat, .nat x), ("message", .text, .text text)])

/-- `Result<T, E>`. -/
def casesResult (ok err : Ty) : List (String × Ty) := [("Ok", ok), ("Err", err)]

def putResult {E A : Type} (tyOk tyErr : Ty) (ok : A → Val) (err : E → Val) : Except E A → Val
  | .ok a => enumVal (casesResult tyOk tyErr) "Ok" (ok a)
  | .error e => enumVal (casesResult tyOk tyErr) "Err" (err e)

/-- `CreateCanisterSuccess` (endpoints.rs:370-374). -/
def tyCreated : Ty := recTy [("block_id", .nat), ("canister_id", .principal)]

def putCreated (a : Nat × Principal) : Val :=
  recVal [("block_id", .nat, .nat a.1), ("canister_id", .principal, putPrincipal a.2)]

/-- `DepositResult` (endpoints.rs:51-55). -/
def tyDeposit : Ty := recTy [("block_index", .nat), ("balance", .nat)]

def putDeposit (blockIndex balance : Nat) : Val :=
  recVal [("block_index", .nat, .nat blockIndex), ("balance", .nat, .nat balance)]

/-- `icrc1::account::Account`. -/
def tyAccount : Ty := recTy [("owner", .principal), ("subaccount", .opt (.vec (.fixed .nat8)))]

def putBlob (bs : Bytes) : Val := .vec (Vals.ofList (bs.map (fun b => .fixed [b])))

def putAccount (a : Account) : Val :=
  recVal [("owner", .principal, putPrincipal a.owner),
    ("subaccount", .opt (.vec (.fixed .nat8)), putOpt (fun s => putBlob s.val) a.subaccount)]

/-- `icrc2::allowance::Allowance`. -/
def tyAllowance : Ty := recTy [("allowance", .nat), ("expires_at", .opt (.fixed .nat64))]

def putAllowance (a : Nat × Option Nat) : Val :=
  recVal [("allowance", .nat, .nat a.1), ("expires_at", .opt (.fixed .nat64), putOpt putTime a.2)]

/-- `icrc103::Allowance`. -/
def tyEntry : Ty := recTy [("from_account", tyAccount), ("to_spender", tyAccount),
  ("allowance", .nat), ("expires_at", .opt (.fixed .nat64))]

def putEntry (a : AllowanceEntry) : Val :=
  recVal [("from_account", tyAccount, putAccount a.fromAccount),
    ("to_spender", tyAccount, putAccount a.toSpender), ("allowance", .nat, .nat a.allowance),
    ("expires_at", .opt (.fixed .nat64), putOpt putTime a.expiresAt)]

/-- `icrc103::GetAllowancesError`, which the ledger never answers. -/
def tyAllowancesError : Ty :=
  enumTy [("AccessDenied", recTy [("reason", .text)]),
    ("GenericError", recTy [("error_code", .nat), ("message", .text)])]

/-- The answer of `icrc103_get_allowances` (main.rs:457-476). -/
def tyAllowances : Ty := enumTy (casesResult (.vec tyEntry) tyAllowancesError)

def putAllowances (l : List AllowanceEntry) : Val :=
  enumVal (casesResult (.vec tyEntry) tyAllowancesError) "Ok" (putVec putEntry l)

/-- `icrc106::Icrc106Error`. -/
def casesIndexError : List (String × Ty) :=
  [("GenericError", recTy [("error_code", .nat), ("description", .text)]),
   ("IndexPrincipalNotSet", .null)]

/-- The answer of `icrc106_get_index_principal` (main.rs:478-484). -/
def tyIndex : Ty := enumTy (casesResult .principal (enumTy casesIndexError))

def putIndex : Option Principal → Val
  | some p => enumVal (casesResult .principal (enumTy casesIndexError)) "Ok" (putPrincipal p)
  | none => enumVal (casesResult .principal (enumTy casesIndexError)) "Err"
      (enumVal casesIndexError "IndexPrincipalNotSet" .null)

/-- The type and value of a reply; `none` if nothing is replied, or a trap.  `text` is the text of an
error. -/
def reply (text : Bytes) : Reply → Option (Ty × Val)
  | .trapped => none
  | .suspended => none
  | .silent => none
  | .deposit i b => some (tyDeposit, putDeposit i b)
  | .transfer r => some (enumTy (casesResult .nat (enumTy casesTransferError)),
      putResult .nat (enumTy casesTransferError) .nat (putTransferError text) r)
  | .transferFrom r => some (enumTy (casesResult .nat (enumTy casesTransferFromError)),
      putResult .nat (enumTy casesTransferFromError) .nat (putTransferFromError text) r)
  | .approve r => some (enumTy (casesResult .nat (enumTy casesApproveError)),
      putResult .nat (enumTy casesApproveError) .nat (putApproveError text) r)
  | .withdraw r => some (enumTy (casesResult .nat (enumTy casesWithdrawError)),
      putResult .nat (enumTy casesWithdrawError) .nat (putWithdrawError text) r)
  | .withdrawFrom r => some (enumTy (casesResult .nat (enumTy casesWithdrawFromError)),
      putResult .nat (enumTy casesWithdrawFromError) .nat (putWithdrawFromError text) r)
  | .createCanister r => some (enumTy (casesResult tyCreated (enumTy casesCreateCanisterError)),
      putResult tyCreated (enumTy casesCreateCanisterError) putCreated (putCreateCanisterError text) r)
  | .createCanisterFrom r => some (enumTy (casesResult tyCreated (enumTy casesCreateCanisterFromError)),
      putResult tyCreated (enumTy casesCreateCanisterFromError) putCreated (putCreateCanisterFromError text) r)

/-- An update call as it arrives; `sync` as in `Msg`. -/
structure Call where
  method : String
  caller : Principal
  cycles : Fin (U128MAX + 1)
  bytes : Bytes
  sync : Option CallError

/-- The message a call is read as: the endpoints of main.rs:199-433, whose arguments the CDK decodes
first.  `none` is an unknown method or an argument that cannot be read. -/
def Call.msg (c : Call) : Option Msg :=
  if c.method = "deposit" then (decode desDeposit c.bytes).map (.deposit c.caller c.cycles ·)
  else if c.method = "icrc1_transfer" then (decode desTransfer c.bytes).map (.transfer c.caller ·)
  else if c.method = "icrc2_transfer_from" then
    (decode desTransferFrom c.bytes).map (.transferFrom c.caller ·)
  else if c.method = "icrc2_approve" then (decode desApprove c.bytes).map (.approve c.caller ·)
  else if c.method = "withdraw" then (decode desWithdraw c.bytes).map (.withdraw c.caller · c.sync)
  else if c.method = "withdraw_from" then
    (decode desWithdrawFrom c.bytes).map (.withdrawFrom c.caller · c.sync)
  else if c.method = "create_canister" then
    (decode desCreate c.bytes).map (.createCanister c.caller · c.sync)
  else if c.method = "create_canister_from" then
    (decode desCreateFrom c.bytes).map (.createCanisterFrom c.caller · c.sync)
  else none

/-- A call arrives after `dt` nanoseconds.  If it cannot be read it is rejected, and nothing happens. -/
def _root_.CyclesLedger.Sys.receive [Crypto] (y : Sys) (dt : Nat) (c : Call) : Sys × Reply :=
  match c.msg with
  | none => (y.tick dt, .trapped)
  | some m => y.step ⟨dt, m⟩

/-- The answers to queries (main.rs:89-92, 167-197, 394-405, 456-484): type and value, or `none` if
the argument cannot be read.  Blocks are in `Model/CandidBlocks`, the rest in
`Model/CandidMeta`. -/
def answer (y : Sys) (method : String) (caller : Principal) (bytes : Bytes) : Option (Ty × Val) :=
  if method = "icrc1_balance_of" then
    (decode desAccount bytes).map (fun a => (.nat, .nat (icrc1BalanceOf y.ledger a)))
  else if method = "icrc1_total_supply" then
    (readMessage bytes).map (fun _ => (.nat, .nat (icrc1TotalSupply y.ledger)))
  else if method = "icrc1_fee" then (readMessage bytes).map (fun _ => (.nat, .nat FEE))
  else if method = "icrc2_allowance" then
    (decode desAllowance bytes).map (fun a =>
      (tyAllowance, putAllowance (icrc2Allowance y.ledger a.1 a.2 y.now)))
  else if method = "icrc103_get_allowances" then
    (decode desGetAllowances bytes).map (fun a =>
      (tyAllowances, putAllowances (icrc103GetAllowances y.ledger caller a.1 a.2.1 a.2.2 y.now)))
  else if method = "icrc106_get_index_principal" then
    (readMessage bytes).map (fun _ => (tyIndex, putIndex (icrc106GetIndexPrincipal y.ledger)))
  else none

end CyclesLedger.Candid
