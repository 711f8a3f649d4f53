import Verif.Spec.Candid
import Verif.Model.System
/-!
# Replies as `cycles-ledger.did` describes them

Which typed values a client may take for which result, according to lines 2, 15-39, 46-60, 68-84,
95-104, 114-124, 260-302 and 329-368 of `cycles-ledger.did`.  Texts are not looked at.
-/
namespace CyclesLedger.Spec.Candid
open CyclesLedger.Candid (Ty Fields Val Vals Fixed Comp)

/-- A `nat64`. -/
def wTime : Way Nat := fun n t v => ∃ m : UInt64, m.toNat = n ∧ wU64 m t v

/-- A record with a field. -/
def wOne {A : Type} (name : String) (w : Way A) : Way A := fun x t v =>
  ∃ s, Record s t v ∧ Has w s name x

/-- One of several cases; a case is told by its name, and what is said about its content. -/
def wVariant {A : Type} (known : List (String × (Ty → Prop)))
    (says : A → String × (Ty → Val → Prop)) : Way A := fun a t v =>
  ∃ u x, Case known (says a).1 u x t v ∧ (says a).2 u x

/-- A case without content. -/
def bare : Ty → Val → Prop := fun t v => t = .null ∧ v = .null

/-- `RejectionCode` (31-39). -/
def wRejection : Way RejectionCode := wVariant
  [("NoError", IsNull), ("CanisterError", IsNull), ("SysTransient", IsNull), ("DestinationInvalid", IsNull), ("Unknown", IsNull), ("SysFatal", IsNull), ("CanisterReject", IsNull)]
  (fun c => match c with
    | .noError => ("NoError", bare)
    | .canisterError => ("CanisterError", bare)
    | .sysTransient => ("SysTransient", bare)
    | .destinationInvalid => ("DestinationInvalid", bare)
    | .unknown => ("Unknown", bare)
    | .sysFatal => ("SysFatal", bare)
    | .canisterReject => ("CanisterReject", bare))

/-- The content of `GenericError`. -/
def wGeneric : Way (Nat) := fun a t v => ∃ s, Record s t v ∧
  (∃ m, Has wText s "message" m) ∧
  Has wNat s "error_code" a

/-- `TransferError` (95-104). -/
def wTransferError : Way TransferError := wVariant
  [("BadFee", Fits (wOne "expected_fee" wNat)),
   ("BadBurn", Fits (wOne "min_burn_amount" wNat)),
   ("InsufficientFunds", Fits (wOne "balance" wNat)),
   ("TooOld", IsNull),
   ("CreatedInFuture", Fits (wOne "ledger_time" wTime)),
   ("Duplicate", Fits (wOne "duplicate_of" wNat)),
   ("TemporarilyUnavailable", IsNull),
   ("GenericError", Fits (wGeneric))]
  (fun e => match e with
    | .badFee x => ("BadFee", wOne "expected_fee" wNat x)
    | .badBurn x => ("BadBurn", wOne "min_burn_amount" wNat x)
    | .insufficientFunds x => ("InsufficientFunds", wOne "balance" wNat x)
    | .tooOld => ("TooOld", bare)
    | .createdInFuture x => ("CreatedInFuture", wOne "ledger_time" wTime x)
    | .duplicate x => ("Duplicate", wOne "duplicate_of" wNat x)
    | .temporarilyUnavailable => ("TemporarilyUnavailable", bare)
    | .genericError x => ("GenericError", wGeneric x))

/-- `TransferFromError` (114-124). -/
def wTransferFromError : Way TransferFromError := wVariant
  [("BadFee", Fits (wOne "expected_fee" wNat)),
   ("BadBurn", Fits (wOne "min_burn_amount" wNat)),
   ("InsufficientFunds", Fits (wOne "balance" wNat)),
   ("InsufficientAllowance", Fits (wOne "allowance" wNat)),
   ("TooOld", IsNull),
   ("CreatedInFuture", Fits (wOne "ledger_time" wTime)),
   ("Duplicate", Fits (wOne "duplicate_of" wNat)),
   ("TemporarilyUnavailable", IsNull),
   ("GenericError", Fits (wGeneric))]
  (fun e => match e with
    | .badFee x => ("BadFee", wOne "expected_fee" wNat x)
    | .badBurn x => ("BadBurn", wOne "min_burn_amount" wNat x)
    | .insufficientFunds x => ("InsufficientFunds", wOne "balance" wNat x)
    | .insufficientAllowance x => ("InsufficientAllowance", wOne "allowance" wNat x)
    | .tooOld => ("TooOld", bare)
    | .createdInFuture x => ("CreatedInFuture", wOne "ledger_time" wTime x)
    | .duplicate x => ("Duplicate", wOne "duplicate_of" wNat x)
    | .temporarilyUnavailable => ("TemporarilyUnavailable", bare)
    | .genericError x => ("GenericError", wGeneric x))

/-- `ApproveError` (15-25). -/
def wApproveError : Way ApproveError := wVariant
  [("BadFee", Fits (wOne "expected_fee" wNat)),
   ("InsufficientFunds", Fits (wOne "balance" wNat)),
   ("AllowanceChanged", Fits (wOne "current_allowance" wNat)),
   ("Expired", Fits (wOne "ledger_time" wTime)),
   ("TooOld", IsNull),
   ("CreatedInFuture", Fits (wOne "ledger_time" wTime)),
   ("Duplicate", Fits (wOne "duplicate_of" wNat)),
   ("TemporarilyUnavailable", IsNull),
   ("GenericError", Fits (wGeneric))]
  (fun e => match e with
    | .badFee x => ("BadFee", wOne "expected_fee" wNat x)
    | .insufficientFunds x => ("InsufficientFunds", wOne "balance" wNat x)
    | .allowanceChanged x => ("AllowanceChanged", wOne "current_allowance" wNat x)
    | .expired x => ("Expired", wOne "ledger_time" wTime x)
    | .tooOld => ("TooOld", bare)
    | .createdInFuture x => ("CreatedInFuture", wOne "ledger_time" wTime x)
    | .duplicate x => ("Duplicate", wOne "duplicate_of" wNat x)
    | .temporarilyUnavailable => ("TemporarilyUnavailable", bare)
    | .genericError x => ("GenericError", wGeneric x))

/-- The content of `FailedToWithdraw`. -/
def wFailedToWithdraw : Way (Option Nat × RejectionCode) := fun a t v => ∃ s, Record s t v ∧
  HasOpt wNat s "fee_block" a.1 ∧
  Has wRejection s "rejection_code" a.2 ∧
  (∃ m, Has wText s "rejection_reason" m)

/-- `WithdrawError` (46-60). -/
def wWithdrawError : Way WithdrawError := wVariant
  [("GenericError", Fits (wGeneric)),
   ("TemporarilyUnavailable", IsNull),
   ("FailedToWithdraw", Fits (wFailedToWithdraw)),
   ("Duplicate", Fits (wOne "duplicate_of" wNat)),
   ("BadFee", Fits (wOne "expected_fee" wNat)),
   ("InvalidReceiver", Fits (wOne "receiver" wPrincipal)),
   ("CreatedInFuture", Fits (wOne "ledger_time" wTime)),
   ("TooOld", IsNull),
   ("InsufficientFunds", Fits (wOne "balance" wNat))]
  (fun e => match e with
    | .genericError x => ("GenericError", wGeneric x)
    | .temporarilyUnavailable => ("TemporarilyUnavailable", bare)
    | .failedToWithdraw x y => ("FailedToWithdraw", wFailedToWithdraw (x, y))
    | .duplicate x => ("Duplicate", wOne "duplicate_of" wNat x)
    | .badFee x => ("BadFee", wOne "expected_fee" wNat x)
    | .invalidReceiver x => ("InvalidReceiver", wOne "receiver" wPrincipal x)
    | .createdInFuture x => ("CreatedInFuture", wOne "ledger_time" wTime x)
    | .tooOld => ("TooOld", bare)
    | .insufficientFunds x => ("InsufficientFunds", wOne "balance" wNat x))

/-- The content of `FailedToWithdrawFrom`. -/
def wFailedToWithdrawFrom : Way (Option Nat × Option Nat × Option Nat × RejectionCode) := fun a t v => ∃ s, Record s t v ∧
  HasOpt wNat s "withdraw_from_block" a.1 ∧
  HasOpt wNat s "refund_block" a.2.1 ∧
  HasOpt wNat s "approval_refund_block" a.2.2.1 ∧
  Has wRejection s "rejection_code" a.2.2.2 ∧
  (∃ m, Has wText s "rejection_reason" m)

/-- `WithdrawFromError` (68-84). -/
def wWithdrawFromError : Way WithdrawFromError := wVariant
  [("GenericError", Fits (wGeneric)),
   ("TemporarilyUnavailable", IsNull),
   ("FailedToWithdrawFrom", Fits (wFailedToWithdrawFrom)),
   ("Duplicate", Fits (wOne "duplicate_of" wNat)),
   ("InvalidReceiver", Fits (wOne "receiver" wPrincipal)),
   ("CreatedInFuture", Fits (wOne "ledger_time" wTime)),
   ("TooOld", IsNull),
   ("InsufficientFunds", Fits (wOne "balance" wNat)),
   ("InsufficientAllowance", Fits (wOne "allowance" wNat))]
  (fun e => match e with
    | .genericError x => ("GenericError", wGeneric x)
    | .temporarilyUnavailable => ("TemporarilyUnavailable", bare)
    | .failedToWithdrawFrom x y z w => ("FailedToWithdrawFrom", wFailedToWithdrawFrom (x, y, z, w))
    | .duplicate x => ("Duplicate", wOne "duplicate_of" wNat x)
    | .invalidReceiver x => ("InvalidReceiver", wOne "receiver" wPrincipal x)
    | .createdInFuture x => ("CreatedInFuture", wOne "ledger_time" wTime x)
    | .tooOld => ("TooOld", bare)
    | .insufficientFunds x => ("InsufficientFunds", wOne "balance" wNat x)
    | .insufficientAllowance x => ("InsufficientAllowance", wOne "allowance" wNat x))

/-- The content of `Duplicate`. -/
def wDuplicate : Way (Nat × Option Principal) := fun a t v => ∃ s, Record s t v ∧
  Has wNat s "duplicate_of" a.1 ∧
  HasOpt wPrincipal s "canister_id" a.2

/-- The content of `FailedToCreate`. -/
def wFailedToCreate : Way (Option Nat × Option Nat) := fun a t v => ∃ s, Record s t v ∧
  HasOpt wNat s "fee_block" a.1 ∧
  HasOpt wNat s "refund_block" a.2 ∧
  (∃ m, Has wText s "error" m)

/-- `CreateCanisterError` (265-281). -/
def wCreateCanisterError : Way CreateCanisterError := wVariant
  [("InsufficientFunds", Fits (wOne "balance" wNat)),
   ("TooOld", IsNull),
   ("CreatedInFuture", Fits (wOne "ledger_time" wTime)),
   ("TemporarilyUnavailable", IsNull),
   ("Duplicate", Fits (wDuplicate)),
   ("FailedToCreate", Fits (wFailedToCreate)),
   ("GenericError", Fits (wGeneric))]
  (fun e => match e with
    | .insufficientFunds x => ("InsufficientFunds", wOne "balance" wNat x)
    | .tooOld => ("TooOld", bare)
    | .createdInFuture x => ("CreatedInFuture", wOne "ledger_time" wTime x)
    | .temporarilyUnavailable => ("TemporarilyUnavailable", bare)
    | .duplicate x y => ("Duplicate", wDuplicate (x, y))
    | .failedToCreate x y => ("FailedToCreate", wFailedToCreate (x, y))
    | .genericError x => ("GenericError", wGeneric x))

/-- The content of `FailedToCreateFrom`. -/
def wFailedToCreateFrom : Way (Option Nat × Option Nat × Option Nat × RejectionCode) := fun a t v => ∃ s, Record s t v ∧
  HasOpt wNat s "create_from_block" a.1 ∧
  HasOpt wNat s "refund_block" a.2.1 ∧
  HasOpt wNat s "approval_refund_block" a.2.2.1 ∧
  Has wRejection s "rejection_code" a.2.2.2 ∧
  (∃ m, Has wText s "rejection_reason" m)

/-- `CreateCanisterFromError` (283-302). -/
def wCreateCanisterFromError : Way CreateCanisterFromError := wVariant
  [("InsufficientFunds", Fits (wOne "balance" wNat)),
   ("InsufficientAllowance", Fits (wOne "allowance" wNat)),
   ("TooOld", IsNull),
   ("CreatedInFuture", Fits (wOne "ledger_time" wTime)),
   ("TemporarilyUnavailable", IsNull),
   ("Duplicate", Fits (wDuplicate)),
   ("FailedToCreateFrom", Fits (wFailedToCreateFrom)),
   ("GenericError", Fits (wGeneric))]
  (fun e => match e with
    | .insufficientFunds x => ("InsufficientFunds", wOne "balance" wNat x)
    | .insufficientAllowance x => ("InsufficientAllowance", wOne "allowance" wNat x)
    | .tooOld => ("TooOld", bare)
    | .createdInFuture x => ("CreatedInFuture", wOne "ledger_time" wTime x)
    | .temporarilyUnavailable => ("TemporarilyUnavailable", bare)
    | .duplicate x y => ("Duplicate", wDuplicate (x, y))
    | .failedToCreateFrom x y z w => ("FailedToCreateFrom", wFailedToCreateFrom (x, y, z, w))
    | .genericError x => ("GenericError", wGeneric x))

/-- `variant { Ok : …; Err : … }`. -/
def wResult {E A : Type} (ok : Way A) (err : Way E) : Way (Except E A) := wVariant
  [("Ok", Fits ok), ("Err", Fits err)]
  (fun r => match r with
    | .ok a => ("Ok", ok a)
    | .error e => ("Err", err e))

/-- `CreateCanisterSuccess` (260-263). -/
def wCreated : Way (Nat × Principal) := fun a t v => ∃ s, Record s t v ∧
  Has wNat s "block_id" a.1 ∧ Has wPrincipal s "canister_id" a.2

/-- `DepositResult` (30): block index and balance. -/
def wDepositResult : Way (Nat × Nat) := fun a t v => ∃ s, Record s t v ∧
  Has wNat s "balance" a.2 ∧ Has wNat s "block_index" a.1

/-- `Allowance` (2). -/
def wAllowanceResult : Way (Nat × Option Nat) := fun a t v => ∃ s, Record s t v ∧
  Has wNat s "allowance" a.1 ∧ HasOpt wTime s "expires_at" a.2

/-- An entry of `Allowances` (329-334). -/
def wEntry : Way AllowanceEntry := fun a t v => ∃ s, Record s t v ∧
  Has wAccount s "from_account" a.fromAccount ∧ Has wAccount s "to_spender" a.toSpender ∧
  Has wNat s "allowance" a.allowance ∧ HasOpt wTime s "expires_at" a.expiresAt

/-- Any value of `GetAllowancesError` (336-344). -/
def wAllowancesError : Way (Option Nat) := wVariant
  [("AccessDenied", Fits (wOne "reason" wText)),
   ("GenericError", Fits wGeneric)]
  (fun e => match e with
    | none => ("AccessDenied", fun t v => ∃ m, wOne "reason" wText m t v)
    | some c => ("GenericError", wGeneric c))

/-- `ICRC103GetAllowancesResponse` (346-349). -/
def wAllowancesResult : Way (Except (Option Nat) (List AllowanceEntry)) :=
  wResult (wVec wEntry) wAllowancesError

/-- `GetIndexPrincipalError` (356-364). -/
def wIndexError : Way (Option Nat) := wVariant
  [("IndexPrincipalNotSet", IsNull), ("GenericError", Fits (fun (c : Nat) t v =>
    ∃ s, Record s t v ∧ Has wNat s "error_code" c ∧ ∃ m, Has wText s "description" m))]
  (fun e => match e with
    | none => ("IndexPrincipalNotSet", bare)
    | some c => ("GenericError", fun t v => ∃ s, Record s t v ∧ Has wNat s "error_code" c ∧
        ∃ m, Has wText s "description" m))

/-- `GetIndexPrincipalResult` (351-354). -/
def wIndexResult : Way (Except (Option Nat) Principal) := wResult wPrincipal wIndexError

/-- What a client takes a reply for. -/
def wReply (r : Reply) (t : Ty) (v : Val) : Prop :=
  match r with
  | .trapped => False
  | .suspended => False
  | .silent => False
  | .deposit i b => wDepositResult (i, b) t v
  | .transfer r => wResult wNat wTransferError r t v
  | .transferFrom r => wResult wNat wTransferFromError r t v
  | .approve r => wResult wNat wApproveError r t v
  | .withdraw r => wResult wNat wWithdrawError r t v
  | .withdrawFrom r => wResult wNat wWithdrawFromError r t v
  | .createCanister r => wResult wCreated wCreateCanisterError r t v
  | .createCanisterFrom r => wResult wCreated wCreateCanisterFromError r t v

/-- The method (366-393) that a reply belongs to. -/
def methodOf : Reply → Option String
  | .trapped => none
  | .suspended => none
  | .silent => none
  | .deposit .. => some "deposit"
  | .transfer _ => some "icrc1_transfer"
  | .transferFrom _ => some "icrc2_transfer_from"
  | .approve _ => some "icrc2_approve"
  | .withdraw _ => some "withdraw"
  | .withdrawFrom _ => some "withdraw_from"
  | .createCanister _ => some "create_canister"
  | .createCanisterFrom _ => some "create_canister_from"

/-- A client that has called the method takes the bytes for this answer. -/
def Understood (method : String) (bs : Bytes) (r : Reply) : Prop :=
  ∃ t v more, IsMessage bs ((t, v) :: more) ∧ methodOf r = some method ∧ wReply r t v

/-- What is asked for by calling a method with an argument (366-393). -/
def Asks (method : String) (caller : Principal) (cycles : Fin (U128MAX + 1))
    (sync : Option CallError) (t : Ty) (v : Val) : Msg → Prop
  | .deposit p n a => method = "deposit" ∧ p = caller ∧ n = cycles ∧ wDeposit a t v
  | .transfer p a => method = "icrc1_transfer" ∧ p = caller ∧ wTransfer a t v
  | .transferFrom p a => method = "icrc2_transfer_from" ∧ p = caller ∧ wTransferFrom a t v
  | .approve p a => method = "icrc2_approve" ∧ p = caller ∧ wApprove a t v
  | .withdraw p a o => method = "withdraw" ∧ p = caller ∧ o = sync ∧ wWithdraw a t v
  | .withdrawFrom p a o => method = "withdraw_from" ∧ p = caller ∧ o = sync ∧ wWithdrawFrom a t v
  | .createCanister p a o => method = "create_canister" ∧ p = caller ∧ o = sync ∧ wCreate a t v
  | .createCanisterFrom p a o =>
    method = "create_canister_from" ∧ p = caller ∧ o = sync ∧ wCreateFrom a t v
  | _ => False

end CyclesLedger.Spec.Candid
