import Verif.Model.Storage
/-!
# Canister endpoints: cycles-ledger/src/main.rs and the error conversions of lib.rs

`caller` is `ic_cdk::api::msg_caller()`, `now` is `ic_cdk::api::time()`.  Candid
`nat` arguments are unbounded naturals, `nat64` arguments are `UInt64`.
-/
namespace CyclesLedger

/-! ## Error conversions (lib.rs:152-262); `none` is a trap -/

/-- `transfer_from_error_to_transfer_error` (lib.rs:153-179). -/
def transferFromErrorToTransferError : TransferFromError → Option TransferError
  | .badFee f => some (.badFee f)
  | .badBurn m => some (.badBurn m)
  | .insufficientFunds b => some (.insufficientFunds b)
  | .insufficientAllowance _ => none
  | .tooOld => some .tooOld
  | .createdInFuture t => some (.createdInFuture t)
  | .duplicate d => some (.duplicate d)
  | .temporarilyUnavailable => some .temporarilyUnavailable
  | .genericError c => some (.genericError c)

/-- `withdraw_from_error_to_withdraw_error` (lib.rs:182-217). -/
def withdrawFromErrorToWithdrawError : WithdrawFromError → Option WithdrawError
  | .insufficientFunds b => some (.insufficientFunds b)
  | .insufficientAllowance _ => none
  | .tooOld => some .tooOld
  | .createdInFuture t => some (.createdInFuture t)
  | .temporarilyUnavailable => some .temporarilyUnavailable
  | .duplicate d => some (.duplicate d)
  | .genericError c => some (.genericError c)
  | .invalidReceiver r => some (.invalidReceiver r)
  | .failedToWithdrawFrom _ refundBlock _ code => some (.failedToWithdraw refundBlock code)

/-- `create_canister_from_error_to_create_canister_error` (lib.rs:220-262). -/
def createFromErrorToCreateError : CreateCanisterFromError → Option CreateCanisterError
  | .insufficientFunds b => some (.insufficientFunds b)
  | .insufficientAllowance _ => none
  | .tooOld => some .tooOld
  | .createdInFuture t => some (.createdInFuture t)
  | .temporarilyUnavailable => some .temporarilyUnavailable
  | .duplicate d c => some (.duplicate d c)
  | .failedToCreateFrom createFromBlock refundBlock _ _ =>
    some (.failedToCreate createFromBlock refundBlock)
  | .genericError c => some (.genericError c)

/-- `.map_err(f)` at the end of an endpoint, where `f` may trap
(main.rs:270, 320, 372). -/
def Res.mapErr {σ ε ε' α : Type} (r : Res σ ε α) (f : ε → Option ε') : Res σ ε' α :=
  match r with
  | .ok a s => .ok a s
  | .trap => .trap
  | .err e s =>
    match f e with
    | none => .trap
    | some e' => .err e' s

/-! ## Arguments -/

/-- `endpoints::DepositArg` (endpoints.rs:45-49). -/
structure DepositArg where
  to : Account
  memo : Option Bytes

/-- `icrc1::transfer::TransferArg`. -/
structure TransferArgs where
  fromSubaccount : Option Subaccount
  to : Account
  amount : Nat
  fee : Option Nat
  memo : Option Bytes
  createdAtTime : Option UInt64

/-- `icrc2::transfer_from::TransferFromArgs`. -/
structure TransferFromArgs where
  spenderSubaccount : Option Subaccount
  frm : Account
  to : Account
  amount : Nat
  fee : Option Nat
  memo : Option Bytes
  createdAtTime : Option UInt64

/-- `icrc2::approve::ApproveArgs`. -/
structure ApproveArgs where
  fromSubaccount : Option Subaccount
  spender : Account
  amount : Nat
  expectedAllowance : Option Nat
  expiresAt : Option UInt64
  fee : Option Nat
  memo : Option Bytes
  createdAtTime : Option UInt64

/-- `endpoints::WithdrawArgs` (endpoints.rs:64-71). -/
structure WithdrawArgs where
  fromSubaccount : Option Subaccount
  to : Principal
  createdAtTime : Option UInt64
  amount : Nat

/-- `endpoints::WithdrawFromArgs` (endpoints.rs:74-82). -/
structure WithdrawFromArgs where
  spenderSubaccount : Option Subaccount
  frm : Account
  to : Principal
  createdAtTime : Option UInt64
  amount : Nat

/-- `endpoints::CreateCanisterArgs` (endpoints.rs:270-280). -/
structure CreateCanisterArgs where
  fromSubaccount : Option Subaccount
  createdAtTime : Option UInt64
  amount : Nat
  creationArgs : Option CmcArgs

/-- `endpoints::CreateCanisterFromArgs` (endpoints.rs:283-294). -/
structure CreateCanisterFromArgs where
  frm : Account
  spenderSubaccount : Option Subaccount
  createdAtTime : Option UInt64
  amount : Nat
  creationArgs : Option CmcArgs

/-- A `nat64` option as a natural. -/
def opt64 (o : Option UInt64) : Option Nat := o.map UInt64.toNat

/-- The conversion of an optional candid `nat` to `Option<u128>`
(main.rs:224-233, 412-437); `none` means it does not fit. -/
def natOpt (o : Option Nat) : Option (Option Nat) :=
  match o with
  | none => some none
  | some f => (toU128 f).map some

variable [Crypto]

/-- `deposit` (main.rs:199-208): the attached cycles are accepted in full; every
`Err` becomes a trap. -/
def depositEndpoint (s : State) (arg : DepositArg) (cycles now : Nat) :
    Res State Empty (Nat × Nat) :=
  match deposit s arg.to cycles arg.memo now with
  | .ok r s => .ok r s
  | .err _ _ => .trap
  | .trap => .trap

/-- `execute_transfer` (main.rs:210-252). -/
def executeTransfer (s : State) (frm to : Account) (spender : Option Account) (amount : Nat)
    (fee : Option Nat) (memo : Option Bytes) (createdAtTime : Option Nat) (now : Nat) :
    Res State TransferFromError Nat :=
  match toU128 amount with
  | none => .err (.insufficientFunds (balanceOf s frm)) s
  | some amount =>
    match natOpt fee with
    | none => .err (.badFee FEE) s
    | some suggestedFee =>
      match transfer s frm to spender amount memo now createdAtTime suggestedFee with
      | .ok idx s => .ok idx (prune now s)
      | .err e s => .err e s
      | .trap => .trap

/-- `icrc1_transfer` (main.rs:254-271). -/
def icrc1Transfer (s : State) (caller : Principal) (args : TransferArgs) (now : Nat) :
    Res State TransferError Nat :=
  (executeTransfer s ⟨caller, args.fromSubaccount⟩ args.to none args.amount args.fee args.memo
    (opt64 args.createdAtTime) now).mapErr transferFromErrorToTransferError

/-- `icrc2_transfer_from` (main.rs:273-288). -/
def icrc2TransferFrom (s : State) (caller : Principal) (args : TransferFromArgs) (now : Nat) :
    Res State TransferFromError Nat :=
  executeTransfer s args.frm args.to (some ⟨caller, args.spenderSubaccount⟩) args.amount args.fee
    args.memo (opt64 args.createdAtTime) now

/-- `icrc2_approve` (main.rs:407-454). -/
def icrc2Approve (s : State) (caller : Principal) (args : ApproveArgs) (now : Nat) :
    Res State ApproveError Nat :=
  let frm : Account := ⟨caller, args.fromSubaccount⟩
  match natOpt args.expectedAllowance with
  | none => .err (.allowanceChanged (allowance s frm args.spender now).1) s
  | some expectedAllowance =>
    match natOpt args.fee with
    | none => .err (.badFee FEE) s
    | some suggestedFee =>
      match approve s frm args.spender ((toU128 args.amount).getD U128MAX) args.memo now
          (opt64 args.createdAtTime) suggestedFee expectedAllowance (opt64 args.expiresAt) with
      | .ok idx s => .ok idx (prune now s)
      | .err e s => .err e s
      | .trap => .trap

/-- `execute_withdraw` (main.rs:295-310) up to the `await`. -/
def executeWithdraw (s : State) (frm : Account) (to : Principal) (spender : Option Account)
    (amount : Nat) (createdAtTime : Option Nat) (now : Nat) :
    Res State WithdrawFromError Suspended :=
  match toU128 amount with
  | none => .err (.insufficientFunds (balanceOf s frm)) s
  | some amount => withdrawStart s frm to spender amount now createdAtTime

/-- `execute_create_canister` (main.rs:339-353) up to the `await`. -/
def executeCreateCanister (s : State) (frm : Account) (spender : Option Account) (amount : Nat)
    (createdAtTime : Option Nat) (now : Nat) : Res State CreateCanisterFromError Suspended :=
  match toU128 amount with
  | none => .err (.insufficientFunds (balanceOf s frm)) s
  | some amount => createCanisterStart s frm spender amount now createdAtTime

omit [Crypto] in
/-- `icrc1_balance_of` (main.rs:194-197). -/
def icrc1BalanceOf (s : State) (a : Account) : Nat := balanceOf s a

omit [Crypto] in
/-- `icrc1_total_supply` (main.rs, through `State::total_supply`, storage.rs:537-539). -/
def icrc1TotalSupply (s : State) : Nat := s.cache.totalSupply

omit [Crypto] in
/-- `icrc2_allowance` (main.rs:393-405). -/
def icrc2Allowance (s : State) (account spender : Account) (now : Nat) : Nat × Option Nat :=
  let a := allowance s account spender now
  (a.1, if a.2 > 0 then some a.2 else none)

omit [Crypto] in
/-- `icrc103_get_allowances` (main.rs:456-476). -/
def icrc103GetAllowances (s : State) (caller : Principal) (fromAccount : Option Account)
    (prevSpender : Option Account) (take : Option Nat) (now : Nat) : List AllowanceEntry :=
  let frm := fromAccount.getD ⟨caller, none⟩
  let maxResults := match take with
    | none => MAX_TAKE_ALLOWANCES
    | some t => min ((toU64 t).getD MAX_TAKE_ALLOWANCES) MAX_TAKE_ALLOWANCES
  getAllowances s frm prevSpender maxResults now

omit [Crypto] in
/-- `icrc106_get_index_principal` (main.rs:478-484); `none` is `IndexPrincipalNotSet`. -/
def icrc106GetIndexPrincipal (s : State) : Option Principal := s.config.indexId

omit [Crypto] in
/-- `State::get_tip_certificate` (storage.rs:623-644) without the IC's own
certificate: the hash tree sent along. -/
def tipHashTree (s : State) : HashTree := s.cache.hashTree.hashTree

/-! ## Installation and upgrade -/

/-- The minting loop of `init` (main.rs:36-41); `none` is the `expect` panic. -/
def mintInitial (s : State) (now : Nat) : List (Account × Nat) → Option State
  | [] => some s
  | (a, amount) :: rest =>
    match mint s a amount none now with
    | .ok _ s => mintInitial s now rest
    | _ => none

/-- `init` (main.rs:32-50) on empty stable memory. -/
def initLedger (config : Config) (now : Nat) : Option State :=
  match mintInitial State.empty now (config.initialBalances.getD []) with
  | none => none
  | some s => some { s with config := config }

omit [Crypto] in
/-- `compute_total_supply` (storage.rs:691-697); `u128` addition wraps in release. -/
def computeTotalSupply (balances : SMap AccountKey Nat) : Nat :=
  balances.entries.foldl (fun acc e => (acc + e.2) % (U128MAX + 1)) 0

omit [Crypto] in
/-- `ChangeIndexId` (endpoints.rs:17-29). -/
inductive ChangeIndexId where
  | unset
  | setTo (p : Principal)

omit [Crypto] in
/-- `UpgradeArgs` (endpoints.rs:32-35). -/
structure UpgradeArgs where
  maxBlocksPerRequest : Option UInt64
  changeIndexId : Option ChangeIndexId

omit [Crypto] in
/-- The argument of `post_upgrade`, `Option<LedgerArgs>` (endpoints.rs:38-41). -/
inductive PostUpgradeArg where
  | none
  | upgrade (args : Option UpgradeArgs)
  | init (config : Config)

/-- The heap is dropped and `STATE` is rebuilt from stable memory (storage.rs:705-730). -/
def reload (s : State) : State :=
  let tip := computeTip s.blocks
  { s with cache := ⟨tip.1, computeTotalSupply s.balances, tip.2⟩ }

omit [Crypto] in
/-- The configuration changes of `post_upgrade` (main.rs:55-66). -/
def applyUpgradeArgs (c : Config) (u : UpgradeArgs) : Config :=
  let c := match u.maxBlocksPerRequest with
    | some n => { c with maxBlocksPerRequest := n.toNat }
    | none => c
  match u.changeIndexId with
  | some .unset => { c with indexId := none }
  | some (.setTo p) => { c with indexId := some p }
  | none => c

/-- An upgrade: `reload` then `post_upgrade` (main.rs:52-71); `none` is a trap. -/
def postUpgrade (s : State) (arg : PostUpgradeArg) : Option State :=
  let s := reload s
  match arg with
  | .upgrade (some u) => some { s with config := applyUpgradeArgs s.config u }
  | .none => some s
  | .upgrade Option.none => some s
  | .init _ => Option.none

end CyclesLedger
