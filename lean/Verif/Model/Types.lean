import Verif.Base.SMap
/-!
# Data types of the ledger

Plain data: principals, accounts, transactions, blocks, errors, arguments.
Numbers are naturals; every machine operation that can overflow is written out
(`checkedAdd`, `satAdd`, ...).  Free text in errors is not modelled.
-/
namespace CyclesLedger

/-- `u64::MAX`; also `REMOTE_FUTURE` (cycles-ledger/src/config.rs:20). -/
def U64MAX : Nat := 18446744073709551615
/-- `u128::MAX`. -/
def U128MAX : Nat := 340282366920938463463374607431768211455

/-- `u128::checked_add` (used at storage.rs:546, 555, 593, 597, 973).  The summands are
swapped in the test so that a numeral on the right does not get unfolded in unary. -/
def checkedAdd (a b : Nat) : Option Nat := if b + a ≤ U128MAX then some (a + b) else none
/-- `u128::checked_sub` (used at storage.rs:572, 579, 608, 612, 854, 2240). -/
def checkedSub (a b : Nat) : Option Nat := if b ≤ a then some (a - b) else none
/-- `u64::saturating_add` (storage.rs:1631, 1632, 1638, 2297, 2298). -/
def satAdd64 (a b : Nat) : Nat := if a + b ≤ U64MAX then a + b else U64MAX
/-- `u128::saturating_add` (storage.rs:2154). -/
def satAdd128 (a b : Nat) : Nat := if a + b ≤ U128MAX then a + b else U128MAX
/-- `u128::saturating_sub` (storage.rs:1810, 1831, 2022, 2046).  The test keeps a numeral
on the right from being unfolded in unary. -/
def satSub (a b : Nat) : Nat := if b ≤ a then a - b else 0
/-- `BigUint::to_u128` on a candid `nat` argument (main.rs:219, 226, 302, 346, 417, 428, 442). -/
def toU128 (n : Nat) : Option Nat := if n ≤ U128MAX then some n else none
/-- `BigUint::to_u64` on a candid `nat` argument (storage.rs:2375, 2379; main.rs:467). -/
def toU64 (n : Nat) : Option Nat := if n ≤ U64MAX then some n else none
/-- `u64` addition as compiled for release, i.e. wrapping (storage.rs:2380). -/
def wrapAdd64 (a b : Nat) : Nat := (a + b) % (U64MAX + 1)

/-! ## Constants (cycles-ledger/src/config.rs:7-21) -/

/-- `FEE` (config.rs:7). -/
def FEE : Nat := 100000000
/-- `MAX_MEMO_LENGTH` (config.rs:13). -/
def MAX_MEMO_LENGTH : Nat := 32
/-- `PERMITTED_DRIFT` in nanoseconds (config.rs:14). -/
def PERMITTED_DRIFT : Nat := 60000000000
/-- `TRANSACTION_WINDOW` in nanoseconds (config.rs:15). -/
def TRANSACTION_WINDOW : Nat := 86400000000000
/-- `TRANSACTION_PRUNE_LIMIT` (config.rs:17). -/
def TRANSACTION_PRUNE_LIMIT : Nat := 100000
/-- `APPROVE_PRUNE_LIMIT` (config.rs:19). -/
def APPROVE_PRUNE_LIMIT : Nat := 100
/-- `MAX_TAKE_ALLOWANCES` (config.rs:21). -/
def MAX_TAKE_ALLOWANCES : Nat := 500

theorem U64MAX_eq : U64MAX = 18446744073709551615 := rfl
theorem U128MAX_eq : U128MAX = 340282366920938463463374607431768211455 := rfl
theorem FEE_eq : FEE = 100000000 := rfl
theorem PERMITTED_DRIFT_eq : PERMITTED_DRIFT = 60000000000 := rfl
theorem TRANSACTION_WINDOW_eq : TRANSACTION_WINDOW = 86400000000000 := rfl
theorem TRANSACTION_PRUNE_LIMIT_eq : TRANSACTION_PRUNE_LIMIT = 100000 := rfl
theorem APPROVE_PRUNE_LIMIT_eq : APPROVE_PRUNE_LIMIT = 100 := rfl

-- Keep the elaborator from unfolding these numerals in unary.
attribute [irreducible] U64MAX U128MAX FEE PERMITTED_DRIFT TRANSACTION_WINDOW
  TRANSACTION_PRUNE_LIMIT APPROVE_PRUNE_LIMIT

/-! ## Byte strings, principals, accounts -/

abbrev Bytes := List UInt8

/-- `[u8; 32]`: `Hash` (storage.rs:72) and `Subaccount`. -/
abbrev Bytes32 := { b : Bytes // b.length = 32 }
abbrev Hash := Bytes32
abbrev Subaccount := Bytes32

/-- `[u8; 32]` compares lexicographically. -/
instance : TotOrd Bytes32 := TotOrd.lift Subtype.val (fun _ _ h => Subtype.ext h)

/-- `candid::Principal`: at most 29 bytes. -/
structure Principal where
  bytes : Bytes
  le : bytes.length ≤ 29
  deriving DecidableEq

/-- `#[derive(Ord)]` on `Principal { len, bytes }`: length first, then bytes. -/
instance : TotOrd Principal :=
  TotOrd.lift (fun p : Principal => (p.bytes.length, p.bytes)) (by
    intro a b h
    cases a; cases b
    simp only [Prod.mk.injEq] at h
    simp [h.2])

/-- `Principal::management_canister()`: the empty principal. -/
def managementCanister : Principal := ⟨[], by decide⟩

/-- `icrc1::account::Account`.  Rust's `==` on accounts compares `key`s, raw
equality of this structure compares the optional subaccount as given. -/
structure Account where
  owner : Principal
  subaccount : Option Subaccount
  deriving DecidableEq

/-- `DEFAULT_SUBACCOUNT`. -/
def zeroSub : Subaccount := ⟨List.replicate 32 0, by simp⟩

/-- `AccountKey` (storage.rs:58). -/
abbrev AccountKey := Principal × Subaccount
/-- `ApprovalKey` (storage.rs:68). -/
abbrev ApprovalKey := AccountKey × AccountKey

/-- `to_account_key` (storage.rs:827-829); `Account::effective_subaccount`. -/
def Account.key (a : Account) : AccountKey := (a.owner, a.subaccount.getD zeroSub)

/-- `impl PartialEq for Account`: effective subaccounts are compared. -/
def Account.same (a b : Account) : Bool := decide (a.key = b.key)

/-! ## Transactions and blocks -/

/-- `Operation` (storage.rs:209-241). -/
inductive Operation where
  | mint (to : Account) (amount fee : Nat)
  | transfer (frm to : Account) (spender : Option Account) (amount : Nat) (fee : Option Nat)
  | burn (frm : Account) (spender : Option Account) (amount : Nat)
  | approve (frm spender : Account) (amount : Nat) (expectedAllowance : Option Nat)
      (expiresAt : Option Nat) (fee : Option Nat)
  deriving DecidableEq

/-- `Transaction` (storage.rs:85-92). -/
structure Transaction where
  operation : Operation
  createdAtTime : Option Nat
  memo : Option Bytes
  deriving DecidableEq

/-- `Block` (storage.rs:448-459). -/
structure Block where
  transaction : Transaction
  timestamp : Nat
  phash : Option Hash
  effectiveFee : Option Nat
  deriving DecidableEq

/-- `Config` (config.rs:23-38). -/
structure Config where
  maxBlocksPerRequest : Nat
  indexId : Option Principal
  initialBalances : Option (List (Account × Nat))
  deriving DecidableEq

/-- `Config::default` (config.rs:40-48). -/
def Config.default : Config := ⟨100, none, none⟩

/-! ## Errors -/

/-- `transfer_from::*` error codes (storage.rs:1189-1192). -/
def UNKNOWN_GENERIC_ERROR : Nat := 100000
def DENIED_OWNER : Nat := 100001
def CANNOT_TRANSFER_FROM_ZERO : Nat := 100002
def EXPIRED_APPROVAL : Nat := 100003

/-- `RejectionCode` (endpoints.rs:394-403). -/
inductive RejectionCode where
  | noError | canisterError | sysTransient | destinationInvalid | unknown | sysFatal
  | canisterReject
  deriving DecidableEq

/-- `ic_cdk::call::RejectCode`, the six codes of the IC interface. -/
inductive RejectCode where
  | sysFatal | sysTransient | destinationInvalid | canisterReject | canisterError | sysUnknown
  deriving DecidableEq

/-- `impl From<RejectCode> for RejectionCode` (endpoints.rs:405-416). -/
def RejectCode.toRejection : RejectCode → RejectionCode
  | .sysFatal => .sysFatal
  | .sysTransient => .sysTransient
  | .destinationInvalid => .destinationInvalid
  | .canisterReject => .canisterReject
  | .canisterError => .canisterError
  | .sysUnknown => .unknown

/-- `ic_cdk::call::Error`, messages dropped; `rejected none` has a code ic_cdk does not know. -/
inductive CallError where
  | insufficientLiquidCycleBalance
  | callPerformFailed
  | rejected (code : Option RejectCode)
  | candidDecodeFailed
  deriving DecidableEq

/-- `call_error_to_reject` (storage.rs:2455-2473). -/
def callErrorToReject : CallError → RejectionCode
  | .insufficientLiquidCycleBalance => .sysTransient
  | .callPerformFailed => .sysTransient
  | .rejected (some c) => c.toRejection
  | .rejected none => .unknown
  | .candidDecodeFailed => .canisterError

/-- `icrc2::transfer_from::TransferFromError` (icrc-ledger-types), messages dropped. -/
inductive TransferFromError where
  | badFee (expectedFee : Nat)
  | badBurn (minBurnAmount : Nat)
  | insufficientFunds (balance : Nat)
  | insufficientAllowance (allowance : Nat)
  | tooOld
  | createdInFuture (ledgerTime : Nat)
  | duplicate (duplicateOf : Nat)
  | temporarilyUnavailable
  | genericError (errorCode : Nat)
  deriving DecidableEq

/-- `icrc1::transfer::TransferError` (icrc-ledger-types), messages dropped. -/
inductive TransferError where
  | badFee (expectedFee : Nat)
  | badBurn (minBurnAmount : Nat)
  | insufficientFunds (balance : Nat)
  | tooOld
  | createdInFuture (ledgerTime : Nat)
  | temporarilyUnavailable
  | duplicate (duplicateOf : Nat)
  | genericError (errorCode : Nat)
  deriving DecidableEq

/-- `icrc2::approve::ApproveError` (icrc-ledger-types), messages dropped. -/
inductive ApproveError where
  | badFee (expectedFee : Nat)
  | insufficientFunds (balance : Nat)
  | allowanceChanged (currentAllowance : Nat)
  | expired (ledgerTime : Nat)
  | tooOld
  | createdInFuture (ledgerTime : Nat)
  | duplicate (duplicateOf : Nat)
  | temporarilyUnavailable
  | genericError (errorCode : Nat)
  deriving DecidableEq

/-- `WithdrawFromError` (endpoints.rs:115-144). -/
inductive WithdrawFromError where
  | insufficientFunds (balance : Nat)
  | insufficientAllowance (allowance : Nat)
  | tooOld
  | createdInFuture (ledgerTime : Nat)
  | temporarilyUnavailable
  | duplicate (duplicateOf : Nat)
  | failedToWithdrawFrom (withdrawFromBlock refundBlock approvalRefundBlock : Option Nat)
      (rejectionCode : RejectionCode)
  | genericError (errorCode : Nat)
  | invalidReceiver (receiver : Principal)
  deriving DecidableEq

/-- `WithdrawError` (endpoints.rs:85-112). -/
inductive WithdrawError where
  | badFee (expectedFee : Nat)
  | insufficientFunds (balance : Nat)
  | tooOld
  | createdInFuture (ledgerTime : Nat)
  | temporarilyUnavailable
  | duplicate (duplicateOf : Nat)
  | failedToWithdraw (feeBlock : Option Nat) (rejectionCode : RejectionCode)
  | genericError (errorCode : Nat)
  | invalidReceiver (receiver : Principal)
  deriving DecidableEq

/-- `CreateCanisterFromError` (endpoints.rs:337-364). -/
inductive CreateCanisterFromError where
  | insufficientFunds (balance : Nat)
  | insufficientAllowance (allowance : Nat)
  | tooOld
  | createdInFuture (ledgerTime : Nat)
  | temporarilyUnavailable
  | duplicate (duplicateOf : Nat) (canisterId : Option Principal)
  | failedToCreateFrom (createFromBlock refundBlock approvalRefundBlock : Option Nat)
      (rejectionCode : RejectionCode)
  | genericError (errorCode : Nat)
  deriving DecidableEq

/-- `CreateCanisterError` (endpoints.rs:311-333). -/
inductive CreateCanisterError where
  | insufficientFunds (balance : Nat)
  | tooOld
  | createdInFuture (ledgerTime : Nat)
  | temporarilyUnavailable
  | duplicate (duplicateOf : Nat) (canisterId : Option Principal)
  | failedToCreate (feeBlock refundBlock : Option Nat)
  | genericError (errorCode : Nat)
  deriving DecidableEq

/-- `CreatedAtTimeValidationError` (storage.rs:1563-1566). -/
inductive CreatedAtErr where
  | tooOld
  | inTheFuture (ledgerTime : Nat)
  deriving DecidableEq

/-- `ProcessTransactionError` (storage.rs:1132-1139). -/
inductive PTErr where
  | duplicate (duplicateOf : Nat) (canisterId : Option Principal)
  | invalidCreatedAtTime (e : CreatedAtErr)
  | genericError
  deriving DecidableEq

/-- `UseAllowanceError` (storage.rs:1433-1437). -/
inductive AllowErr where
  | cannotDeduceZero
  | expiredApproval
  | insufficientAllowance (allowance : Nat)
  deriving DecidableEq

/-- Result of a fallible, state-changing Rust function.  `err` carries the state
at the point where the error was returned (nothing is rolled back); `trap` is
`ic_cdk::trap`/panic, upon which the IC discards the message's changes. -/
inductive Res (σ ε α : Type) where
  | ok (a : α) (s : σ)
  | err (e : ε) (s : σ)
  | trap

/-- Return a converted error, or trap when the conversion itself traps
(`From<UseAllowanceError>`, storage.rs:1467-1499). -/
def errOrTrap {σ ε α : Type} (e : Option ε) (s : σ) : Res σ ε α :=
  match e with
  | none => .trap
  | some e => .err e s

end CyclesLedger
