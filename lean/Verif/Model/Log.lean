import Verif.Model.System
import Verif.Model.Metrics
/-!
# What the canister logs: `log!` in cycles-ledger/src/storage.rs, logs.rs, main.rs:503-525

The functions of `Model/Storage.lean` leave `log!` out; the functions here give the log
messages of the same executions, in the order in which they are written.  Where a message depends on
a state in the middle of a function (the state before its `prune`), the function is repeated
up to there (`withdrawBurn`, `createBurn`, `reimburseMint`); `Proof/Log.lean` proves that these are
the functions of the model.  A message is represented by the `log!` it comes from and the numbers
and keys in it, not by its text.  The two `log!` of `penalize` (1652, 1663), which no endpoint
calls, are left out.  Line numbers refer to storage.rs unless another file is named.
-/
namespace CyclesLedger

/-- The `log!` calls. -/
inductive LogMsg where
  /-- 770-775 -/
  | queueTooLong (queue approvals : Nat)
  /-- 890-896 -/
  | mintOverflow
  /-- 1520 -/
  | transactionNotHashed
  /-- 2187 -/
  | zeroApproval
  /-- 2280 -/
  | approvalMissing (key : ApprovalKey)
  /-- 2288 -/
  | prunedApprovals (n : Nat)
  /-- 2312-2319 -/
  | blockMissing (idx timestamp : Nat)
  /-- 2325-2330 -/
  | blockNotHashed (idx : Nat)
  /-- 2336-2340 -/
  | hashMissing (hash : Hash) (idx : Nat)
  /-- 2350-2358 -/
  | otherBlock (found : Nat) (hash : Hash) (idx : Nat)
  deriving DecidableEq

/-- `Priority` (logs.rs:11-15). -/
inductive Priority where
  | p0 | p1
  deriving DecidableEq

/-- The buffer a message goes to: the first argument of `log!`. -/
def LogMsg.priority : LogMsg → Priority
  | .prunedApprovals _ => .p1
  | _ => .p0

/-! ## Pruning -/

/-- The alarms of `prune_approvals` (2279-2281). -/
def pruneApprovalsAlarms (now : Nat) (s : State) : Nat → List LogMsg
  | 0 => []
  | limit + 1 =>
    match s.expirationQueue.first? with
    | none => []
    | some (key, _) =>
      if key.1 > now then []
      else (if s.approvals.get key.2 = none then [.approvalMissing key.2] else []) ++
        pruneApprovalsAlarms now
          { s with approvals := s.approvals.erase key.2
                   expirationQueue := s.expirationQueue.erase key } limit

/-- The counter `pruned` of `prune_approvals` (2273, 2283). -/
def pruneApprovalsCount (now : Nat) (s : State) : Nat → Nat
  | 0 => 0
  | limit + 1 =>
    match s.expirationQueue.first? with
    | none => 0
    | some (key, _) =>
      if key.1 > now then 0
      else 1 + pruneApprovalsCount now
          { s with approvals := s.approvals.erase key.2
                   expirationQueue := s.expirationQueue.erase key } limit

/-- `prune_approvals` (2272-2290). -/
def pruneApprovalsLog (now : Nat) (s : State) (limit : Nat) : List LogMsg :=
  pruneApprovalsAlarms now s limit ++
    (if pruneApprovalsCount now s limit > 0 then
      [.prunedApprovals (pruneApprovalsCount now s limit)] else [])

/-- `check_invariants` (768-777). -/
def checkInvariantsLog (s : State) : List LogMsg :=
  if checkInvariantsAlarm s then [.queueTooLong s.expirationQueue.len s.approvals.len] else []

/-- `record_approval` (2184-2189). -/
def recordApprovalLog (s : State) (frm spender : Account) (amount : Nat) : List LogMsg :=
  match s.approvals.get (frm.key, spender.key) with
  | none => if amount = 0 then [.zeroApproval] else []
  | some _ => []

variable [Crypto]

/-- `prune_transactions` (2302-2364). -/
def pruneTransactionsLog (now : Nat) (s : State) : Nat → List LogMsg
  | 0 => []
  | limit + 1 =>
    match s.transactionTimestamps.first? with
    | none => []
    | some ((timestamp, idx), _) =>
      if !isBeforeTransactionWindow timestamp now then []
      else
        let s := { s with transactionTimestamps := s.transactionTimestamps.erase (timestamp, idx) }
        match s.blocks[idx]? with
        | none => .blockMissing idx timestamp :: pruneTransactionsLog now s limit
        | some b =>
          match b.transaction.hash with
          | none => .blockNotHashed idx :: pruneTransactionsLog now s limit
          | some h =>
            (match s.transactionHashes.get h with
              | none => [.hashMissing h idx]
              | some (found, _) => if found ≠ idx then [.otherBlock found h idx] else []) ++
            pruneTransactionsLog now
              { s with transactionHashes := s.transactionHashes.erase h } limit

/-- `prune` (760-766). -/
def pruneLog (now : Nat) (s : State) : List LogMsg :=
  pruneApprovalsLog now s APPROVE_PRUNE_LIMIT ++
  pruneTransactionsLog now (pruneApprovals now s APPROVE_PRUNE_LIMIT) TRANSACTION_PRUNE_LIMIT ++
  checkInvariantsLog (prune now s)

/-! ## The endpoints -/

/-- `check_duplicate` (1516-1523). -/
def checkDuplicateLog (t : Transaction) : List LogMsg :=
  if t.hash = none then [.transactionNotHashed] else []

/-- `deposit` with `mint` (847-918). -/
def depositLog (s : State) (to : Account) (amount : Nat) (memo : Option Bytes) (now : Nat) :
    List LogMsg :=
  match checkedSub amount FEE with
  | none => []
  | some 0 => []
  | some amountToMint =>
    (if !checkCredit s to amountToMint then [.mintOverflow] else []) ++
    match mint s to amountToMint memo now with
    | .ok _ s => pruneLog now s
    | .err _ _ => []
    | .trap => []

/-- `execute_transfer` (main.rs:210-252) with `transfer` (927-1035). -/
def executeTransferLog (s : State) (frm to : Account) (spender : Option Account) (amount : Nat)
    (fee : Option Nat) (memo : Option Bytes) (createdAtTime : Option Nat) (now : Nat) :
    List LogMsg :=
  match toU128 amount with
  | none => []
  | some amount =>
    match natOpt fee with
    | none => []
    | some suggestedFee =>
      checkDuplicateLog ⟨.transfer frm to spender amount suggestedFee, createdAtTime, memo⟩ ++
      match transfer s frm to spender amount memo now createdAtTime suggestedFee with
      | .ok _ s => pruneLog now s
      | .err _ _ => []
      | .trap => []

/-- `approve` (1038-1129).  `record_approval` is reached only on the way to `Ok` or a trap, and
between the start and there nothing changes the approvals. -/
def approveLog (s : State) (frm spender : Account) (amount : Nat) (memo : Option Bytes) (now : Nat)
    (createdAtTime suggestedFee expectedAllowance expiresAt : Option Nat) : List LogMsg :=
  checkDuplicateLog ⟨.approve frm spender amount expectedAllowance expiresAt suggestedFee,
    createdAtTime, memo⟩ ++
  match approve s frm spender amount memo now createdAtTime suggestedFee expectedAllowance
      expiresAt with
  | .ok _ _ => recordApprovalLog s frm spender amount
  | .err _ _ => []
  | .trap => []

/-- `icrc2_approve` (main.rs:407-454). -/
def icrc2ApproveLog (s : State) (caller : Principal) (args : ApproveArgs) (now : Nat) :
    List LogMsg :=
  let frm : Account := ⟨caller, args.fromSubaccount⟩
  match natOpt args.expectedAllowance with
  | none => []
  | some expectedAllowance =>
    match natOpt args.fee with
    | none => []
    | some suggestedFee =>
      approveLog s frm args.spender ((toU128 args.amount).getD U128MAX) args.memo now
        (opt64 args.createdAtTime) suggestedFee expectedAllowance (opt64 args.expiresAt) ++
      match approve s frm args.spender ((toU128 args.amount).getD U128MAX) args.memo now
          (opt64 args.createdAtTime) suggestedFee expectedAllowance (opt64 args.expiresAt) with
      | .ok _ s => pruneLog now s
      | .err _ _ => []
      | .trap => []

/-- `reimburse` (2108-2132) up to its `prune`; `none` if it does not get there. -/
def reimburseMint (s : State) (acc : Account) (amount now : Nat) (memo : Bytes) : Option State :=
  match processTransaction s ⟨.mint acc amount 0, none, some memo⟩ now with
  | .trap => none
  | .err _ _ => none
  | .ok _ s => credit s acc amount

/-- `reimburse_approval` (2137-2162). -/
def reimburseApprovalLog (s : State) (frm spender : Account) (amount : Nat)
    (oldExpiresAt : Option Nat) (now : Nat) : List LogMsg :=
  let cur := allowance s frm spender now
  let expiresAt := if cur.2 > 0 then some cur.2 else oldExpiresAt
  approveLog s frm spender (satAdd128 amount cur.1) (some PENALIZE_MEMO) now none none none expiresAt

/-- The failure branches of `withdraw` (1809-1866) and `create_canister` (2021-2090), which log
alike: `reimburse` and its `prune`, another `prune`, maybe `reimburse_approval`. -/
def refundLog (s : State) (p : Suspended) (amountToReimburse : Nat) (memo : Bytes)
    (enough : Bool) (now : Nat) : List LogMsg :=
  if amountToReimburse = 0 then []
  else match reimburseMint s p.frm amountToReimburse now memo with
    | none => []
    | some s =>
      pruneLog now s ++ pruneLog now (prune now s) ++
      match p.spender with
      | none => []
      | some spender =>
        if !spender.same p.frm && enough && approvalStillValid p.oldExpiresAt now then
          reimburseApprovalLog (prune now (prune now s)) p.frm spender
            (satSub amountToReimburse FEE) p.oldExpiresAt now
        else []

/-- `withdraw` (1706-1795) up to its `prune`; `none` if it does not get there. -/
def withdrawBurn (s : State) (frm : Account) (to : Principal) (spender : Option Account)
    (amount now : Nat) (createdAtTime : Option Nat) : Option State :=
  if isSelfAuthenticating to then none
  else if amount = 0 then none
  else
  let t : Transaction := ⟨.burn frm spender amount, createdAtTime, some (encodeWithdrawMemo to)⟩
  match checkDuplicate s t with
  | some _ => none
  | none =>
  match checkedAdd amount FEE with
  | none => none
  | some amountWithFee =>
  match checkAllowanceOpt s frm spender amountWithFee now with
  | .error _ => none
  | .ok _ =>
  match checkDebitFromAccount s frm amountWithFee with
  | none => none
  | some _ =>
  match checkTotalSupplyDecrease s amountWithFee with
  | none => none
  | some _ =>
  match processTransaction s t now with
  | .trap => none
  | .err _ _ => none
  | .ok _ s =>
  match useAllowanceOpt s frm spender amountWithFee now with
  | .error _ => none
  | .ok s => debit s frm amountWithFee

/-- `execute_withdraw` (main.rs:295-310) with `withdraw` (1706-1798) up to the `await`. -/
def executeWithdrawLog (s : State) (frm : Account) (to : Principal) (spender : Option Account)
    (amount : Nat) (createdAtTime : Option Nat) (now : Nat) : List LogMsg :=
  match toU128 amount with
  | none => []
  | some amount =>
    (if isSelfAuthenticating to then [] else if amount = 0 then []
      else checkDuplicateLog
        ⟨.burn frm spender amount, createdAtTime, some (encodeWithdrawMemo to)⟩) ++
    match withdrawBurn s frm to spender amount now createdAtTime with
    | none => []
    | some s => pruneLog now s

/-- `create_canister` (1871-1947) up to its `prune`; `none` if it does not get there. -/
def createBurn (s : State) (frm : Account) (spender : Option Account) (amount now : Nat)
    (createdAtTime : Option Nat) : Option State :=
  let t : Transaction := ⟨.burn frm spender amount, createdAtTime, some CREATE_CANISTER_MEMO⟩
  match checkDuplicate s t with
  | some _ => none
  | none =>
  match checkedAdd amount FEE with
  | none => none
  | some amountWithFee =>
  match checkAllowanceOpt s frm spender amountWithFee now with
  | .error _ => none
  | .ok _ =>
  match checkDebitFromAccount s frm amountWithFee with
  | none => none
  | some _ =>
  match checkTotalSupplyDecrease s amountWithFee with
  | none => none
  | some _ =>
  match processTransaction s t now with
  | .trap => none
  | .err _ _ => none
  | .ok _ s =>
  match useAllowanceOpt s frm spender amountWithFee now with
  | .error _ => none
  | .ok s => debit s frm amountWithFee

/-- `execute_create_canister` (main.rs:339-353) with `create_canister` (1871-1951) up to the
`await`. -/
def executeCreateLog (s : State) (frm : Account) (spender : Option Account)
    (amount : Nat) (createdAtTime : Option Nat) (now : Nat) : List LogMsg :=
  match toU128 amount with
  | none => []
  | some amount =>
    checkDuplicateLog ⟨.burn frm spender amount, createdAtTime, some CREATE_CANISTER_MEMO⟩ ++
    match createBurn s frm spender amount now createdAtTime with
    | none => []
    | some s => pruneLog now s

/-- `withdraw` (1800-1869) after the `await`. -/
def withdrawFinishLog (s : State) (p : Suspended) (result : Option CallError) (now : Nat) :
    List LogMsg :=
  match result with
  | none => []
  | some _ =>
    refundLog s p (satSub p.amount FEE) PENALIZE_MEMO (decide (p.amount > 2 * FEE)) now

/-- `create_canister` (1991-2103) after the `await`. -/
def createCanisterFinishLog (s : State) (p : Suspended) (result : CmcResult) (now : Nat) :
    List LogMsg :=
  let failed (returned : Nat) : List LogMsg :=
    refundLog s p (satSub returned FEE) REFUND_MEMO (decide (satSub returned FEE > FEE)) now
  match result with
  | .refunded amt => failed amt
  | .refundFailed => failed 0
  | .callError _ => failed p.amount
  | .created _ => []

/-- A withdrawal up to the `await`, and beyond if the call cannot be sent. -/
def sendWithdrawLog (y : Sys) (frm : Account) (to : Principal) (spender : Option Account)
    (amount : Nat) (createdAtTime : Option Nat) (sync : Option CallError) : List LogMsg :=
  executeWithdrawLog y.ledger frm to spender amount createdAtTime y.now ++
  match executeWithdraw y.ledger frm to spender amount createdAtTime y.now with
  | .ok p s => withdrawFinishLog s p sync y.now
  | .err _ _ => []
  | .trap => []

/-- A canister creation up to the `await`, and beyond if the call cannot be sent. -/
def sendCreateLog (y : Sys) (frm : Account) (spender : Option Account)
    (amount : Nat) (createdAtTime : Option Nat) (sync : Option CallError) : List LogMsg :=
  executeCreateLog y.ledger frm spender amount createdAtTime y.now ++
  match executeCreateCanister y.ledger frm spender amount createdAtTime y.now with
  | .ok p s =>
    match sync with
    | none => []
    | some code => createCanisterFinishLog s p (.callError code) y.now
  | .err _ _ => []
  | .trap => []

/-- What one message execution logs before it ends or traps. -/
def Sys.written (y : Sys) (m : Msg) : List LogMsg :=
  match m with
  | .deposit _ cycles arg => depositLog y.ledger arg.to cycles.val arg.memo y.now
  | .transfer caller args =>
    executeTransferLog y.ledger ⟨caller, args.fromSubaccount⟩ args.to none args.amount args.fee
      args.memo (opt64 args.createdAtTime) y.now
  | .transferFrom caller args =>
    executeTransferLog y.ledger args.frm args.to (some ⟨caller, args.spenderSubaccount⟩) args.amount
      args.fee args.memo (opt64 args.createdAtTime) y.now
  | .approve caller args => icrc2ApproveLog y.ledger caller args y.now
  | .withdraw caller args sync =>
    sendWithdrawLog y ⟨caller, args.fromSubaccount⟩ args.to none args.amount
      (opt64 args.createdAtTime) sync
  | .withdrawFrom caller args sync =>
    sendWithdrawLog y args.frm args.to (some ⟨caller, args.spenderSubaccount⟩) args.amount
      (opt64 args.createdAtTime) sync
  | .createCanister caller args sync =>
    sendCreateLog y ⟨caller, args.fromSubaccount⟩ none args.amount (opt64 args.createdAtTime) sync
  | .createCanisterFrom caller args sync =>
    sendCreateLog y args.frm (some ⟨caller, args.spenderSubaccount⟩) args.amount
      (opt64 args.createdAtTime) sync
  | .callback i answer =>
    match y.pending[i]? with
    | none => []
    | some p =>
      match p.kind, answer with
      | .withdraw, .depositCycles r | .withdrawFrom, .depositCycles r =>
        withdrawFinishLog y.ledger p.data r y.now
      | .createCanister, .cmc r _ | .createCanisterFrom, .cmc r _ =>
        createCanisterFinishLog y.ledger p.data r y.now
      | _, _ => []
  | .lostCallback _ => []
  | .upgrade _ => []

/-- What one message execution leaves in the log: a trap discards it all, as the buffers are
part of the canister's memory. -/
def Sys.log (y : Sys) (m : Msg) : List LogMsg :=
  if (y.exec m).2 = .trapped then [] else y.written m

/-! ## The buffers -/

omit [Crypto] in
/-- The capacity of each buffer (logs.rs:6, 9). -/
def LOG_CAPACITY : Nat := 1000

omit [Crypto] in
/-- The buffers `P0` and `P1` (logs.rs:5-9): time and message, oldest first. -/
structure LogBuffers where
  p0 : List (Nat × LogMsg) := []
  p1 : List (Nat × LogMsg) := []
  deriving DecidableEq

omit [Crypto] in
/-- `LogBuffer::append` of ic-canister-log: the oldest entries make room. -/
def bufferAppend (l : List (Nat × LogMsg)) (x : Nat × LogMsg) : List (Nat × LogMsg) :=
  l.drop (l.length + 1 - LOG_CAPACITY) ++ [x]

omit [Crypto] in
/-- `log!`. -/
def LogBuffers.add (b : LogBuffers) (now : Nat) (x : LogMsg) : LogBuffers :=
  match x.priority with
  | .p0 => { b with p0 := bufferAppend b.p0 (now, x) }
  | .p1 => { b with p1 := bufferAppend b.p1 (now, x) }

/-- The buffers after one event.  They are in the heap, which an upgrade discards
(a failed upgrade leaves everything as it was). -/
def Sys.stepLog (y : Sys) (b : LogBuffers) (e : Event) : LogBuffers :=
  let y := y.tick e.dt
  match e.msg with
  | .upgrade arg => if (postUpgrade y.ledger arg).isSome then {} else b
  | m => (y.log m).foldl (fun b x => b.add y.now x) b

/-- The buffers after a list of events. -/
def Sys.runLog (y : Sys) (b : LogBuffers) : List Event → LogBuffers
  | [] => b
  | e :: es => Sys.runLog (y.step e).1 (y.stepLog b e) es

omit [Crypto] in
/-- What `/logs` lists (main.rs:503-525): timestamp, priority, message. -/
def logsPage (b : LogBuffers) : List (Nat × Priority × LogMsg) :=
  b.p0.map (fun e => (e.1, .p0, e.2)) ++ b.p1.map (fun e => (e.1, .p1, e.2))

end CyclesLedger
