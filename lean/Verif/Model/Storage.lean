import Verif.Model.Cert
/-!
# The ledger state machine: cycles-ledger/src/storage.rs

Every function is the Rust function of the same name, as a total function from
the state before.  The thread-local `STATE` (storage.rs:700-739) is passed
explicitly.  Logging (`log!`) is left out here
and modelled in `Model/Log.lean`.  Line numbers refer to cycles-ledger/src/storage.rs unless
another file is named.
-/
namespace CyclesLedger

/-- `Cache` (74-83). -/
structure Cache where
  phash : Option Hash
  totalSupply : Nat
  hashTree : RbTree

/-- `State` (520-530), plus the canister's certified data, which
`certified_data_set` (678) writes and which the IC keeps across upgrades. -/
structure State where
  blocks : List Block
  balances : SMap AccountKey Nat
  approvals : SMap ApprovalKey (Nat × Nat)
  expirationQueue : SMap (Nat × ApprovalKey) Unit
  transactionHashes : SMap Hash (Nat × Option Principal)
  transactionTimestamps : SMap (Nat × Nat) Unit
  config : Config
  cache : Cache
  certifiedData : Option Hash

/-- The state over empty stable memory (700-731). -/
def State.empty : State where
  blocks := []
  balances := .empty
  approvals := .empty
  expirationQueue := .empty
  transactionHashes := .empty
  transactionTimestamps := .empty
  config := Config.default
  cache := ⟨none, 0, .nil⟩
  certifiedData := none

/-- `balance_of` (843-845). -/
def balanceOf (s : State) (a : Account) : Nat := (s.balances.get a.key).getD 0

/-- `check_credit_to_account` (543-549). -/
def checkCreditToAccount (s : State) (a : Account) (amount : Nat) : Option Nat :=
  checkedAdd (balanceOf s a) amount

/-- `check_total_supply_increase` (553-557). -/
def checkTotalSupplyIncrease (s : State) (amount : Nat) : Option Nat :=
  checkedAdd s.cache.totalSupply amount

/-- `check_credit` (560-564). -/
def checkCredit (s : State) (a : Account) (amount : Nat) : Bool :=
  (checkCreditToAccount s a amount).isSome && (checkTotalSupplyIncrease s amount).isSome

/-- `check_debit_from_account` (569-573). -/
def checkDebitFromAccount (s : State) (a : Account) (amount : Nat) : Option Nat :=
  checkedSub (balanceOf s a) amount

/-- `check_total_supply_decrease` (577-581). -/
def checkTotalSupplyDecrease (s : State) (amount : Nat) : Option Nat :=
  checkedSub s.cache.totalSupply amount

/-- `credit` (590-602); `none` is the `Err` case, which all callers turn into a trap. -/
def credit (s : State) (a : Account) (amount : Nat) : Option State :=
  match checkedAdd (balanceOf s a) amount with
  | none => none
  | some newBalance =>
    match checkedAdd s.cache.totalSupply amount with
    | none => none
    | some newSupply =>
      some { s with
        cache := { s.cache with totalSupply := newSupply }
        balances := s.balances.insert a.key newBalance }

/-- `debit` (605-621); `none` is the `Err` case, which all callers turn into a trap. -/
def debit (s : State) (a : Account) (amount : Nat) : Option State :=
  match checkedSub (balanceOf s a) amount with
  | none => none
  | some newBalance =>
    match checkedSub s.cache.totalSupply amount with
    | none => none
    | some newSupply =>
      some { s with
        cache := { s.cache with totalSupply := newSupply }
        balances := if newBalance = 0 then s.balances.erase a.key
                    else s.balances.insert a.key newBalance }

variable [Crypto]

/-- `emit_block` (666-689); `none` is the panic of `b.transaction.hash().unwrap()`. -/
def emitBlock (s : State) (b : Block) : Option State :=
  match b.transaction.hash with
  | none => none
  | some txHash =>
    let blocks := s.blocks ++ [b]
    let idx := blocks.length - 1
    let tree := populateTree s.cache.hashTree idx b.hash
    let s : State := { s with
      cache := { s.cache with phash := some b.hash, hashTree := tree }
      blocks := blocks
      certifiedData := some tree.rootHash }
    match b.transaction.createdAtTime with
    | none => some s
    | some ts =>
      some { s with
        transactionHashes := s.transactionHashes.insert txHash (idx, none)
        transactionTimestamps := s.transactionTimestamps.insert (ts, idx) () }

/-- `validate_memo` (memo.rs:28-38). -/
def validateMemo (memo : Option Bytes) : Bool :=
  match memo with
  | none => true
  | some m => !decide (m.length > MAX_MEMO_LENGTH)

/-- `validate_created_at_time` (1623-1642); `none` is `Ok(())`. -/
def validateCreatedAtTime (createdAtTime : Option Nat) (now : Nat) : Option CreatedAtErr :=
  match createdAtTime with
  | none => none
  | some t =>
    if satAdd64 (satAdd64 t TRANSACTION_WINDOW) PERMITTED_DRIFT < now then some .tooOld
    else if t > satAdd64 now PERMITTED_DRIFT then some (.inTheFuture now)
    else none

/-- `effective_fee` (1503-1511). -/
def effectiveFee : Operation → Option Nat
  | .mint _ _ _ => some 0
  | .burn _ _ _ => some FEE
  | .transfer _ _ _ _ fee => if fee.isNone then some FEE else none
  | .approve _ _ _ _ _ fee => if fee.isNone then some FEE else none

/-- `check_duplicate` (1513-1536); `none` is `Ok(())`. -/
def checkDuplicate (s : State) (t : Transaction) : Option PTErr :=
  match t.hash with
  | none => some .genericError
  | some h =>
    match s.transactionHashes.get h with
    | some (idx, canister) => some (.duplicate idx canister)
    | none => none

/-- `process_transaction` (1538-1560). -/
def processTransaction (s : State) (t : Transaction) (now : Nat) : Res State PTErr Nat :=
  if !validateMemo t.memo then .trap
  else match validateCreatedAtTime t.createdAtTime now with
    | some e => .err (.invalidCreatedAtTime e) s
    | none =>
      match emitBlock s ⟨t, now, s.cache.phash, effectiveFee t.operation⟩ with
      | none => .trap
      | some s' => .ok (s'.blocks.length - 1) s'

/-! ## Pruning -/

/-- `prune_approvals` (2272-2290); the loop runs at most `limit` times. -/
def pruneApprovals (now : Nat) (s : State) : Nat → State
  | 0 => s
  | limit + 1 =>
    match s.expirationQueue.first? with
    | none => s
    | some (key, _) =>
      if key.1 > now then s
      else pruneApprovals now
        { s with approvals := s.approvals.erase key.2
                 expirationQueue := s.expirationQueue.erase key } limit

/-- `is_before_transaction_window` (2295-2300). -/
def isBeforeTransactionWindow (timestamp now : Nat) : Bool :=
  decide (satAdd64 (satAdd64 timestamp TRANSACTION_WINDOW) PERMITTED_DRIFT < now)

/-- `prune_transactions` (2302-2364): `limit` counts down where the code counts
`pruned` up. -/
def pruneTransactions (now : Nat) (s : State) : Nat → State
  | 0 => s
  | limit + 1 =>
    match s.transactionTimestamps.first? with
    | none => s
    | some ((timestamp, idx), _) =>
      if !isBeforeTransactionWindow timestamp now then s
      else
        let s := { s with transactionTimestamps := s.transactionTimestamps.erase (timestamp, idx) }
        match s.blocks[idx]? with
        | none => pruneTransactions now s limit
        | some b =>
          match b.transaction.hash with
          | none => pruneTransactions now s limit
          | some h =>
            pruneTransactions now { s with transactionHashes := s.transactionHashes.erase h } limit

/-- `prune` (760-766). -/
def prune (now : Nat) (s : State) : State :=
  pruneTransactions now (pruneApprovals now s APPROVE_PRUNE_LIMIT) TRANSACTION_PRUNE_LIMIT

/-! ## Allowances -/

omit [Crypto] in
/-- `allowance` (2164-2171). -/
def allowance (s : State) (account spender : Account) (now : Nat) : Nat × Nat :=
  let a := (s.approvals.get (account.key, spender.key)).getD (0, 0)
  if a.2 > 0 && a.2 < now then (0, 0) else a

omit [Crypto] in
/-- `record_approval` (2173-2214). -/
def recordApproval (s : State) (frm spender : Account) (amount : Nat) (expiresAt : Option Nat) :
    State :=
  let key := (frm.key, spender.key)
  let exp := expiresAt.getD 0
  match s.approvals.get key with
  | none =>
    if amount = 0 then s
    else
      { s with
        expirationQueue := if exp > 0 then s.expirationQueue.insert (exp, key) ()
                           else s.expirationQueue
        approvals := s.approvals.insert key (amount, exp) }
  | some (_, cur) =>
    if amount = 0 then
      { s with
        expirationQueue := if cur > 0 then s.expirationQueue.erase (cur, key)
                           else s.expirationQueue
        approvals := s.approvals.erase key }
    else
      let s := { s with approvals := s.approvals.insert key (amount, exp) }
      if exp ≠ cur then
        let q := if cur > 0 then s.expirationQueue.erase (cur, key) else s.expirationQueue
        let q := if exp > 0 then q.insert (exp, key) () else q
        { s with expirationQueue := q }
      else s

omit [Crypto] in
/-- `check_allowance` (2216-2247). -/
def checkAllowance (s : State) (account spender : Account) (amount now : Nat) :
    Except AllowErr (Nat × Nat) :=
  if amount = 0 then .error .cannotDeduceZero
  else match s.approvals.get (account.key, spender.key) with
    | none => .error (.insufficientAllowance 0)
    | some (cur, exp) =>
      if !(exp == 0 || exp > now) then .error .expiredApproval
      else match checkedSub cur amount with
        | none => .error (.insufficientAllowance cur)
        | some new => .ok (new, exp)

omit [Crypto] in
/-- `use_allowance` (2249-2270). -/
def useAllowance (s : State) (account spender : Account) (amount now : Nat) :
    Except AllowErr State :=
  match checkAllowance s account spender amount now with
  | .error e => .error e
  | .ok (new, exp) =>
    let key := (account.key, spender.key)
    if new = 0 then
      .ok { s with
        expirationQueue := if exp > 0 then s.expirationQueue.erase (exp, key)
                           else s.expirationQueue
        approvals := s.approvals.erase key }
    else
      .ok { s with approvals := s.approvals.insert key (new, exp) }

omit [Crypto] in
/-- The guard `if let Some(spender) = spender { if spender != from { .. } }`
(980-981, 1014-1015, 1745-1746, 1781-1782, 1901-1902, 1932-1933): the spender whose
allowance is charged. -/
def chargedSpender (frm : Account) (spender : Option Account) : Option Account :=
  match spender with
  | none => none
  | some sp => if sp.same frm then none else some sp

omit [Crypto] in
/-- `check_allowance` under that guard; the expiry is `0` when nothing is charged. -/
def checkAllowanceOpt (s : State) (frm : Account) (spender : Option Account) (amount now : Nat) :
    Except AllowErr (Nat × Nat) :=
  match chargedSpender frm spender with
  | none => .ok (0, 0)
  | some sp => checkAllowance s frm sp amount now

omit [Crypto] in
/-- `use_allowance` under that guard. -/
def useAllowanceOpt (s : State) (frm : Account) (spender : Option Account) (amount now : Nat) :
    Except AllowErr State :=
  match chargedSpender frm spender with
  | none => .ok s
  | some sp => useAllowance s frm sp amount now

/-! ## Error conversions -/

omit [Crypto] in
/-- `From<ProcessTransactionError> for TransferFromError` (1331-1343, 1568-1577). -/
def PTErr.toTransferFrom : PTErr → TransferFromError
  | .duplicate i _ => .duplicate i
  | .invalidCreatedAtTime .tooOld => .tooOld
  | .invalidCreatedAtTime (.inTheFuture t) => .createdInFuture t
  | .genericError => .genericError UNKNOWN_GENERIC_ERROR

omit [Crypto] in
/-- `From<ProcessTransactionError> for ApproveError` (1368-1380, 1612-1621). -/
def PTErr.toApprove : PTErr → ApproveError
  | .duplicate i _ => .duplicate i
  | .invalidCreatedAtTime .tooOld => .tooOld
  | .invalidCreatedAtTime (.inTheFuture t) => .createdInFuture t
  | .genericError => .genericError UNKNOWN_GENERIC_ERROR

omit [Crypto] in
/-- `From<ProcessTransactionError> for WithdrawFromError` (1345-1366). -/
def PTErr.toWithdrawFrom : PTErr → WithdrawFromError
  | .duplicate i _ => .duplicate i
  | .invalidCreatedAtTime .tooOld => .tooOld
  | .invalidCreatedAtTime (.inTheFuture t) => .createdInFuture t
  | .genericError => .genericError UNKNOWN_GENERIC_ERROR

omit [Crypto] in
/-- `From<ProcessTransactionError> for CreateCanisterFromError` (1414-1430, 1601-1610). -/
def PTErr.toCreateFrom : PTErr → CreateCanisterFromError
  | .duplicate i c => .duplicate i c
  | .invalidCreatedAtTime .tooOld => .tooOld
  | .invalidCreatedAtTime (.inTheFuture t) => .createdInFuture t
  | .genericError => .genericError UNKNOWN_GENERIC_ERROR

omit [Crypto] in
/-- `From<UseAllowanceError> for TransferFromError` (1453-1465). -/
def AllowErr.toTransferFrom : AllowErr → TransferFromError
  | .cannotDeduceZero => .genericError CANNOT_TRANSFER_FROM_ZERO
  | .expiredApproval => .genericError EXPIRED_APPROVAL
  | .insufficientAllowance a => .insufficientAllowance a

omit [Crypto] in
/-- `From<UseAllowanceError> for WithdrawFromError` (1467-1481); `none` is the trap. -/
def AllowErr.toWithdrawFrom : AllowErr → Option WithdrawFromError
  | .cannotDeduceZero => none
  | .expiredApproval => some (.insufficientAllowance 0)
  | .insufficientAllowance a => some (.insufficientAllowance a)

omit [Crypto] in
/-- `From<UseAllowanceError> for CreateCanisterFromError` (1483-1499); `none` is the trap. -/
def AllowErr.toCreateFrom : AllowErr → Option CreateCanisterFromError
  | .cannotDeduceZero => none
  | .expiredApproval => some (.insufficientAllowance 0)
  | .insufficientAllowance a => some (.insufficientAllowance a)

/-! ## Mint and deposit -/

/-- Why `mint`/`deposit` return `Err` (the anyhow errors at 856, 864, 889 and of
`process_transaction`). -/
inductive DepositErr where
  | belowFee | zeroMint | overflow | process (e : PTErr)
  deriving DecidableEq

/-- `mint` (883-918). -/
def mint (s : State) (to : Account) (amount : Nat) (memo : Option Bytes) (now : Nat) :
    Res State DepositErr Nat :=
  if !checkCredit s to amount then .err .overflow s
  else match processTransaction s ⟨.mint to amount FEE, none, memo⟩ now with
    | .trap => .trap
    | .err e s => .err (.process e) s
    | .ok idx s =>
      match credit s to amount with
      | none => .trap
      | some s => .ok idx s

/-- `deposit` (847-881): block index and new balance. -/
def deposit (s : State) (to : Account) (amount : Nat) (memo : Option Bytes) (now : Nat) :
    Res State DepositErr (Nat × Nat) :=
  match checkedSub amount FEE with
  | none => .err .belowFee s
  | some 0 => .err .zeroMint s
  | some amountToMint =>
    match mint s to amountToMint memo now with
    | .trap => .trap
    | .err e s => .err e s
    | .ok idx s =>
      let s := prune now s
      .ok (idx, balanceOf s to) s

omit [Crypto] in
/-- `is_denied_account` (920-924). -/
def isDenied (p : Principal) : Bool := decide (p = managementCanister)

/-! ## Transfer -/

/-- `transfer` (927-1035). -/
def transfer (s : State) (frm to : Account) (spender : Option Account) (amount : Nat)
    (memo : Option Bytes) (now : Nat) (createdAtTime suggestedFee : Option Nat) :
    Res State TransferFromError Nat :=
  let t : Transaction := ⟨.transfer frm to spender amount suggestedFee, createdAtTime, memo⟩
  match checkDuplicate s t with
  | some e => .err e.toTransferFrom s
  | none =>
  if isDenied frm.owner then .err (.genericError DENIED_OWNER) s
  else if isDenied to.owner then .err (.genericError DENIED_OWNER) s
  else if spender.any (fun sp => isDenied sp.owner) then
    .err (.genericError DENIED_OWNER) s
  else if suggestedFee.isSome && suggestedFee != some FEE then .err (.badFee FEE) s
  else match checkedAdd amount FEE with
  | none => .err (.insufficientFunds (balanceOf s frm)) s
  | some amountWithFee =>
  match checkAllowanceOpt s frm spender amountWithFee now with
  | .error e => .err e.toTransferFrom s
  | .ok _ =>
  match checkDebitFromAccount s frm amountWithFee with
  | none => .err (.insufficientFunds (balanceOf s frm)) s
  | some _ =>
  match checkCreditToAccount s to amount with
  | none => .err (.genericError UNKNOWN_GENERIC_ERROR) s
  | some _ =>
  match checkTotalSupplyDecrease s FEE with
  | none => .err (.genericError UNKNOWN_GENERIC_ERROR) s
  | some _ =>
  match processTransaction s t now with
  | .trap => .trap
  | .err e s => .err e.toTransferFrom s
  | .ok idx s =>
  match useAllowanceOpt s frm spender amountWithFee now with
  | .error _ => .trap
  | .ok s =>
  match debit s frm amountWithFee with
  | none => .trap
  | some s =>
  match credit s to amount with
  | none => .trap
  | some s => .ok idx s

/-! ## Approve -/

/-- `approve` (1038-1129). -/
def approve (s : State) (frm spender : Account) (amount : Nat) (memo : Option Bytes) (now : Nat)
    (createdAtTime suggestedFee expectedAllowance expiresAt : Option Nat) :
    Res State ApproveError Nat :=
  let t : Transaction :=
    ⟨.approve frm spender amount expectedAllowance expiresAt suggestedFee, createdAtTime, memo⟩
  match checkDuplicate s t with
  | some e => .err e.toApprove s
  | none =>
  if frm.owner = spender.owner then .trap
  else if isDenied frm.owner then .err (.genericError DENIED_OWNER) s
  else if isDenied spender.owner then .err (.genericError DENIED_OWNER) s
  else if expectedAllowance.isSome && expectedAllowance != some (allowance s frm spender now).1 then
    .err (.allowanceChanged (allowance s frm spender now).1) s
  else if suggestedFee.isSome && suggestedFee != some FEE then .err (.badFee FEE) s
  else if balanceOf s frm < FEE then .err (.insufficientFunds (balanceOf s frm)) s
  else if expiresAt.getD U64MAX ≤ now then .err (.expired now) s
  else match checkTotalSupplyDecrease s FEE with
  | none => .err (.genericError UNKNOWN_GENERIC_ERROR) s
  | some _ =>
  match processTransaction s t now with
  | .trap => .trap
  | .err e s => .err e.toApprove s
  | .ok idx s =>
  match debit (recordApproval s frm spender amount expiresAt) frm FEE with
  | none => .trap
  | some s => .ok idx s

/-! ## Refunds -/

omit [Crypto] in
/-- `PENALIZE_MEMO` (1644). -/
def PENALIZE_MEMO : Bytes := List.replicate 32 255
omit [Crypto] in
/-- `CREATE_CANISTER_MEMO` (1645-1646). -/
def CREATE_CANISTER_MEMO : Bytes := List.replicate 32 254
omit [Crypto] in
/-- `REFUND_MEMO` (1647). -/
def REFUND_MEMO : Bytes := List.replicate 32 253

/-- `penalize` (1651-1693). Not called by any endpoint. The outer option is the
trap, the inner one the `None` result. -/
def penalize (s : State) (frm : Account) (now : Nat) : Option (Option (Nat × Hash) × State) :=
  if balanceOf s frm < FEE then some (none, s)
  else match debit s frm FEE with
    | none => none
    | some s =>
      let b : Block := ⟨⟨.burn frm none FEE, none, some PENALIZE_MEMO⟩, now, s.cache.phash, some 0⟩
      match emitBlock s b with
      | none => none
      | some s => some (some (s.blocks.length - 1, b.hash), s)

/-- `reimburse` (2108-2134). -/
def reimburse (s : State) (acc : Account) (amount now : Nat) (memo : Bytes) :
    Res State PTErr Nat :=
  match processTransaction s ⟨.mint acc amount 0, none, some memo⟩ now with
  | .trap => .trap
  | .err e s => .err e s
  | .ok idx s =>
    match credit s acc amount with
    | none => .trap
    | some s => .ok idx (prune now s)

/-- `reimburse_approval` (2137-2162). -/
def reimburseApproval (s : State) (frm spender : Account) (amount : Nat)
    (oldExpiresAt : Option Nat) (now : Nat) : Res State ApproveError Nat :=
  let cur := allowance s frm spender now
  let expiresAt := if cur.2 > 0 then some cur.2 else oldExpiresAt
  approve s frm spender (satAdd128 amount cur.1) (some PENALIZE_MEMO) now none none none expiresAt

/-! ## Withdraw -/

omit [Crypto] in
/-- `is_self_authenticating` (1699-1704). -/
def isSelfAuthenticating (p : Principal) : Bool :=
  match p.bytes[28]? with
  | some b => b == 2
  | none => false

omit [Crypto] in
/-- `encode_withdraw_memo` (memo.rs:7-26): minicbor array of one byte string. A
principal has at most 29 bytes, so only these two header forms occur. -/
def encodeWithdrawMemo (p : Principal) : Bytes :=
  if p.bytes.length < 24 then 0x81 :: UInt8.ofNat (0x40 + p.bytes.length) :: p.bytes
  else 0x81 :: 0x58 :: UInt8.ofNat p.bytes.length :: p.bytes

omit [Crypto] in
/-- What the suspended `withdraw`/`create_canister` future keeps over its `await`:
the local variables `from`, `spender`, `amount`, `block_index`, `old_expires_at`,
`transaction` (1706-1800, 1871-1951). -/
structure Suspended where
  frm : Account
  spender : Option Account
  amount : Nat
  blockIndex : Nat
  oldExpiresAt : Option Nat
  transaction : Transaction
  deriving DecidableEq

omit [Crypto] in
/-- `old_expires_at` (1744-1753, 1900-1909). -/
def oldExpiry (exp : Nat) : Option Nat := if exp > 0 then some exp else none

/-- `withdraw` (1706-1798) up to the `await`. -/
def withdrawStart (s : State) (frm : Account) (to : Principal) (spender : Option Account)
    (amount now : Nat) (createdAtTime : Option Nat) : Res State WithdrawFromError Suspended :=
  if isSelfAuthenticating to then .err (.invalidReceiver to) s
  else if amount = 0 then .err (.genericError CANNOT_TRANSFER_FROM_ZERO) s
  else
  let t : Transaction := ⟨.burn frm spender amount, createdAtTime, some (encodeWithdrawMemo to)⟩
  match checkDuplicate s t with
  | some e => .err e.toWithdrawFrom s
  | none =>
  match checkedAdd amount FEE with
  | none => .err (.insufficientFunds (balanceOf s frm)) s
  | some amountWithFee =>
  match checkAllowanceOpt s frm spender amountWithFee now with
  | .error e => errOrTrap e.toWithdrawFrom s
  | .ok a =>
  match checkDebitFromAccount s frm amountWithFee with
  | none => .err (.insufficientFunds (balanceOf s frm)) s
  | some _ =>
  match checkTotalSupplyDecrease s amountWithFee with
  | none => .err (.genericError UNKNOWN_GENERIC_ERROR) s
  | some _ =>
  match processTransaction s t now with
  | .trap => .trap
  | .err e s => .err e.toWithdrawFrom s
  | .ok idx s =>
  match useAllowanceOpt s frm spender amountWithFee now with
  | .error _ => .trap
  | .ok s =>
  match debit s frm amountWithFee with
  | none => .trap
  | some s => .ok ⟨frm, spender, amount, idx, oldExpiry a.2, t⟩ (prune now s)

omit [Crypto] in
/-- `approval_still_valid` (1824-1825, 2036-2037). -/
def approvalStillValid (oldExpiresAt : Option Nat) (now : Nat) : Bool :=
  match oldExpiresAt with
  | none => true
  | some e => decide (now < e)

/-- `withdraw` (1800-1869) after the `await`; `result` is the error of
`deposit_cycles`, `none` if it succeeded. -/
def withdrawFinish (s : State) (p : Suspended) (result : Option CallError) (now : Nat) :
    Res State WithdrawFromError Nat :=
  match result with
  | none => .ok p.blockIndex s
  | some error =>
    let code := callErrorToReject error
    let amountToReimburse := satSub p.amount FEE
    if amountToReimburse = 0 then
      .err (.failedToWithdrawFrom (some p.blockIndex) none none code) s
    else match reimburse s p.frm amountToReimburse now PENALIZE_MEMO with
      | .trap => .trap
      | .err _ _ => .trap
      | .ok feeBlock s =>
        let s := prune now s
        match p.spender with
        | none => .err (.failedToWithdrawFrom (some p.blockIndex) (some feeBlock) none code) s
        | some spender =>
          if !spender.same p.frm && decide (p.amount > 2 * FEE) &&
              approvalStillValid p.oldExpiresAt now then
            match reimburseApproval s p.frm spender (satSub amountToReimburse FEE)
                p.oldExpiresAt now with
            | .ok approvalBlock s =>
              .err (.failedToWithdrawFrom (some p.blockIndex) (some feeBlock)
                (some approvalBlock) code) s
            | .err _ _ => .trap
            | .trap => .trap
          else .err (.failedToWithdrawFrom (some p.blockIndex) (some feeBlock) none code) s

/-! ## Create canister -/

/-- `create_canister` (1871-1951) up to the `await`. -/
def createCanisterStart (s : State) (frm : Account) (spender : Option Account) (amount now : Nat)
    (createdAtTime : Option Nat) : Res State CreateCanisterFromError Suspended :=
  let t : Transaction := ⟨.burn frm spender amount, createdAtTime, some CREATE_CANISTER_MEMO⟩
  match checkDuplicate s t with
  | some e => .err e.toCreateFrom s
  | none =>
  match checkedAdd amount FEE with
  | none => .err (.insufficientFunds (balanceOf s frm)) s
  | some amountWithFee =>
  match checkAllowanceOpt s frm spender amountWithFee now with
  | .error e => errOrTrap e.toCreateFrom s
  | .ok a =>
  match checkDebitFromAccount s frm amountWithFee with
  | none => .err (.insufficientFunds (balanceOf s frm)) s
  | some _ =>
  match checkTotalSupplyDecrease s amountWithFee with
  | none => .err (.genericError UNKNOWN_GENERIC_ERROR) s
  | some _ =>
  match processTransaction s t now with
  | .trap => .trap
  | .err e s => .err e.toCreateFrom s
  | .ok idx s =>
  match useAllowanceOpt s frm spender amountWithFee now with
  | .error _ => .trap
  | .ok s =>
  match debit s frm amountWithFee with
  | none => .trap
  | some s => .ok ⟨frm, spender, amount, idx, oldExpiry a.2, t⟩ (prune now s)

omit [Crypto] in
/-- `LogVisibility` (cycles-ledger.did:229-233). -/
inductive LogVisibility where
  | controllers
  | pub
  | allowedViewers (viewers : List Principal)
  deriving DecidableEq

omit [Crypto] in
/-- `CanisterSettings` of ic_cdk, as in cycles-ledger.did:235-245. -/
structure CanisterSettings where
  controllers : Option (List Principal) := none
  computeAllocation : Option Nat := none
  memoryAllocation : Option Nat := none
  freezingThreshold : Option Nat := none
  reservedCyclesLimit : Option Nat := none
  wasmMemoryLimit : Option Nat := none
  wasmMemoryThreshold : Option Nat := none
  logVisibility : Option LogVisibility := none
  environmentVariables : Option (List (Bytes × Bytes)) := none
  deriving DecidableEq

omit [Crypto] in
/-- `SubnetSelection` (endpoints.rs:256-267). -/
inductive SubnetSelection where
  | filter (subnetType : Option Bytes)
  | subnet (subnet : Principal)
  deriving DecidableEq

omit [Crypto] in
/-- `CmcCreateCanisterArgs` (endpoints.rs:250-254). -/
structure CmcArgs where
  subnetSelection : Option SubnetSelection
  settings : Option CanisterSettings
  deriving DecidableEq

omit [Crypto] in
/-- The argument sent to the CMC (1955-1981). -/
def cmcArgument (arg : Option CmcArgs) (caller : Principal) : CmcArgs :=
  match arg with
  | some arg =>
    { arg with settings := some (match arg.settings with
        | some st => { st with controllers := some (st.controllers.getD [caller]) }
        | none => { controllers := some [caller] }) }
  | none => ⟨none, some { controllers := some [caller] }⟩

omit [Crypto] in
/-- The outcome of the call to the CMC (1982-2017). -/
inductive CmcResult where
  | created (canister : Principal)
  | refunded (refundAmount : Nat)
  | refundFailed
  | callError (error : CallError)
  deriving DecidableEq

/-- `create_canister` (1991-2103) after the `await`: block index and canister. -/
def createCanisterFinish (s : State) (p : Suspended) (result : CmcResult) (now : Nat) :
    Res State CreateCanisterFromError (Nat × Principal) :=
  let failed (code : RejectionCode) (returned : Nat) :
      Res State CreateCanisterFromError (Nat × Principal) :=
    let amountToReimburse := satSub returned FEE
    if amountToReimburse = 0 then
      .err (.failedToCreateFrom (some p.blockIndex) none none code) s
    else match reimburse s p.frm amountToReimburse now REFUND_MEMO with
      | .trap => .trap
      | .err _ _ => .trap
      | .ok refundBlock s =>
        let s := prune now s
        match p.spender with
        | none => .err (.failedToCreateFrom (some p.blockIndex) (some refundBlock) none code) s
        | some spender =>
          if !spender.same p.frm && decide (amountToReimburse > FEE) &&
              approvalStillValid p.oldExpiresAt now then
            match reimburseApproval s p.frm spender (satSub amountToReimburse FEE)
                p.oldExpiresAt now with
            | .ok approvalBlock s =>
              .err (.failedToCreateFrom (some p.blockIndex) (some refundBlock)
                (some approvalBlock) code) s
            | .err _ _ => .trap
            | .trap => .trap
          else .err (.failedToCreateFrom (some p.blockIndex) (some refundBlock) none code) s
  match result with
  | .refunded amt => failed .canisterError amt
  | .refundFailed => failed .canisterError 0
  | .callError error => failed (callErrorToReject error) p.amount
  | .created canister =>
    match p.transaction.hash with
    | none => .trap
    | some h =>
      let s := if s.transactionHashes.contains h then
          { s with transactionHashes := s.transactionHashes.insert h (p.blockIndex, some canister) }
        else s
      .ok (p.blockIndex, canister) s

/-! ## Queries -/

omit [Crypto] in
/-- `GetBlocksArg` (endpoints.rs:201-205). -/
structure GetBlocksArg where
  start : Nat
  length : Nat

omit [Crypto] in
/-- The blocks with index `start .. endExcluded` (2384-2396), as index and value. -/
def blockRange (s : State) (start endExcluded : Nat) : List (Nat × Value) :=
  (List.range' start (endExcluded - start)).filterMap (fun id =>
    (s.blocks[id]?).map (fun b => (id, b.toValue)))

omit [Crypto] in
/-- The loop of `get_blocks` (2370-2398); `acc` is the vector `blocks`. -/
def getBlocksLoop (s : State) : List GetBlocksArg → List (Nat × Value) → List (Nat × Value)
  | [], acc => acc
  | a :: rest, acc =>
    let logLength := s.blocks.length
    let remaining := s.config.maxBlocksPerRequest - acc.length
    if remaining = 0 then acc
    else match toU64 a.start with
      | none => getBlocksLoop s rest acc
      | some start =>
        if start < logLength then
          match toU64 a.length with
          | none => getBlocksLoop s rest acc
          | some length =>
            let endExcluded := min logLength (wrapAdd64 start (min remaining length))
            getBlocksLoop s rest (acc ++ blockRange s start endExcluded)
        else getBlocksLoop s rest acc

omit [Crypto] in
/-- `get_blocks` (2366-2404): log length and blocks; `archived_blocks` is empty. -/
def getBlocks (s : State) (args : List GetBlocksArg) : Nat × List (Nat × Value) :=
  (s.blocks.length, getBlocksLoop s args [])

omit [Crypto] in
/-- `icrc103::Allowance`. -/
structure AllowanceEntry where
  fromAccount : Account
  toSpender : Account
  allowance : Nat
  expiresAt : Option Nat
  deriving DecidableEq

omit [Crypto] in
/-- `to_account_pair` (831-841), one component. -/
def accountOfKey (k : AccountKey) : Account := ⟨k.1, some k.2⟩

omit [Crypto] in
/-- The loop of `get_allowances` (2424-2450); `acc` is `result`. -/
def getAllowancesLoop (frm : Account) (skip : Option ApprovalKey) (maxResults now : Nat) :
    List (ApprovalKey × (Nat × Nat)) → List AllowanceEntry → List AllowanceEntry
  | [], acc => acc
  | (key, (amount, exp)) :: rest, acc =>
    if skip = some key then getAllowancesLoop frm skip maxResults now rest acc
    else if acc.length ≥ maxResults then acc
    else if key.1.1 ≠ frm.owner then acc
    else if exp > 0 && exp ≤ now then getAllowancesLoop frm skip maxResults now rest acc
    else getAllowancesLoop frm skip maxResults now rest
      (acc ++ [⟨accountOfKey key.1, accountOfKey key.2, amount,
        if exp = 0 then none else some exp⟩])

omit [Crypto] in
/-- `get_allowances` (2406-2453). -/
def getAllowances (s : State) (frm : Account) (spender : Option Account) (maxResults now : Nat) :
    List AllowanceEntry :=
  match spender with
  | some sp =>
    getAllowancesLoop frm (some (frm.key, sp.key)) maxResults now
      (s.approvals.rangeFrom (frm.key, sp.key)) []
  | none =>
    getAllowancesLoop frm none maxResults now
      (s.approvals.rangeFrom (frm.key, Account.key ⟨managementCanister, none⟩)) []

end CyclesLedger
