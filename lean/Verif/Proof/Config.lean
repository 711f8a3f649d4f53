import Verif.Proof.SysInv
/-!
# Nothing but the queries looks at the configuration

Every state-changing function commutes with a change of the configuration.
-/
namespace CyclesLedger

/-- The same state with configuration `c`. -/
def State.cfg (s : State) (c : Config) : State := { s with config := c }

/-- The configuration of the state in a result. -/
def Res.cfg {ε α : Type} (r : Res State ε α) (c : Config) : Res State ε α :=
  match r with
  | .ok a s => .ok a (s.cfg c)
  | .err e s => .err e (s.cfg c)
  | .trap => .trap

@[simp] theorem balanceOf_cfg (s : State) (c : Config) (a : Account) :
    balanceOf (s.cfg c) a = balanceOf s a := rfl

theorem credit_cfg (s : State) (c : Config) (a : Account) (x : Nat) :
    credit (s.cfg c) a x = (credit s a x).map (State.cfg · c) := by
  unfold credit
  simp only [balanceOf_cfg, show (s.cfg c).cache = s.cache from rfl]
  cases checkedAdd (balanceOf s a) x with
  | none => rfl
  | some b => cases checkedAdd s.cache.totalSupply x <;> rfl

theorem debit_cfg (s : State) (c : Config) (a : Account) (x : Nat) :
    debit (s.cfg c) a x = (debit s a x).map (State.cfg · c) := by
  unfold debit
  simp only [balanceOf_cfg, show (s.cfg c).cache = s.cache from rfl]
  cases checkedSub (balanceOf s a) x with
  | none => rfl
  | some b => cases checkedSub s.cache.totalSupply x <;> rfl

theorem recordApproval_cfg (s : State) (c : Config) (a b : Account) (x : Nat) (e : Option Nat) :
    recordApproval (s.cfg c) a b x e = (recordApproval s a b x e).cfg c := by
  unfold recordApproval
  simp only [show (s.cfg c).approvals = s.approvals from rfl,
    show (s.cfg c).expirationQueue = s.expirationQueue from rfl]
  cases s.approvals.get (a.key, b.key) with
  | none => simp only; split <;> rfl
  | some v =>
    simp only
    split
    · rfl
    · split <;> rfl

theorem useAllowanceOpt_cfg (s : State) (c : Config) (a : Account) (b : Option Account) (x now : Nat) :
    useAllowanceOpt (s.cfg c) a b x now = (useAllowanceOpt s a b x now).map (State.cfg · c) := by
  unfold useAllowanceOpt
  cases chargedSpender a b with
  | none => rfl
  | some sp =>
    simp only [useAllowance]
    rw [show checkAllowance (s.cfg c) a sp x now = checkAllowance s a sp x now from rfl]
    cases checkAllowance s a sp x now with
    | error e => rfl
    | ok v => simp only; split <;> rfl

theorem pruneApprovals_cfg (now : Nat) (c : Config) (n : Nat) (s : State) :
    pruneApprovals now (s.cfg c) n = (pruneApprovals now s n).cfg c := by
  induction n generalizing s with
  | zero => rfl
  | succ n ih =>
    simp only [pruneApprovals, show (s.cfg c).expirationQueue = s.expirationQueue from rfl]
    cases s.expirationQueue.first? with
    | none => rfl
    | some k =>
      simp only
      split
      · rfl
      · exact ih { s with approvals := s.approvals.erase k.1.2
                          expirationQueue := s.expirationQueue.erase k.1 }

variable [Crypto]

theorem emitBlock_cfg (s : State) (c : Config) (b : Block) :
    emitBlock (s.cfg c) b = (emitBlock s b).map (State.cfg · c) := by
  unfold emitBlock
  cases b.transaction.hash with
  | none => rfl
  | some h => simp only; cases b.transaction.createdAtTime <;> rfl

theorem checkDuplicate_cfg (s : State) (c : Config) (t : Transaction) :
    checkDuplicate (s.cfg c) t = checkDuplicate s t := rfl

theorem processTransaction_cfg (s : State) (c : Config) (t : Transaction) (now : Nat) :
    processTransaction (s.cfg c) t now = (processTransaction s t now).cfg c := by
  unfold processTransaction
  split
  · rfl
  · cases validateCreatedAtTime t.createdAtTime now with
    | some e => rfl
    | none =>
      simp only [emitBlock_cfg, show (s.cfg c).cache = s.cache from rfl]
      cases emitBlock s ⟨t, now, s.cache.phash, effectiveFee t.operation⟩ <;> rfl

theorem pruneTransactions_cfg (now : Nat) (c : Config) (n : Nat) (s : State) :
    pruneTransactions now (s.cfg c) n = (pruneTransactions now s n).cfg c := by
  induction n generalizing s with
  | zero => rfl
  | succ n ih =>
    simp only [pruneTransactions,
      show (s.cfg c).transactionTimestamps = s.transactionTimestamps from rfl,
      show (s.cfg c).blocks = s.blocks from rfl]
    cases s.transactionTimestamps.first? with
    | none => rfl
    | some k =>
      simp only
      split
      · rfl
      · cases s.blocks[k.1.2]? with
        | none => exact ih { s with transactionTimestamps := s.transactionTimestamps.erase (k.1.1, k.1.2) }
        | some b =>
          simp only
          cases b.transaction.hash with
          | none => exact ih { s with transactionTimestamps := s.transactionTimestamps.erase (k.1.1, k.1.2) }
          | some h =>
            exact ih { s with transactionTimestamps := s.transactionTimestamps.erase (k.1.1, k.1.2)
                              transactionHashes := s.transactionHashes.erase h }

theorem prune_cfg (now : Nat) (s : State) (c : Config) :
    prune now (s.cfg c) = (prune now s).cfg c := by
  unfold prune
  rw [pruneApprovals_cfg, pruneTransactions_cfg]

theorem mint_cfg (s : State) (c : Config) (to : Account) (x : Nat) (memo : Option Bytes) (now : Nat) :
    mint (s.cfg c) to x memo now = (mint s to x memo now).cfg c := by
  unfold mint
  rw [show checkCredit (s.cfg c) to x = checkCredit s to x from rfl]
  split
  · rfl
  · rw [processTransaction_cfg]
    cases processTransaction s ⟨.mint to x FEE, none, memo⟩ now with
    | trap => rfl
    | err e s => rfl
    | ok i s =>
      simp only [Res.cfg, credit_cfg]
      cases credit s to x <;> rfl

theorem depositEndpoint_cfg (s : State) (c : Config) (arg : DepositArg) (cycles now : Nat) :
    depositEndpoint (s.cfg c) arg cycles now = (depositEndpoint s arg cycles now).cfg c := by
  unfold depositEndpoint deposit
  cases checkedSub cycles FEE with
  | none => rfl
  | some x =>
    cases x with
    | zero => rfl
    | succ x =>
      simp only [mint_cfg]
      cases mint s arg.to (x + 1) arg.memo now with
      | trap => rfl
      | err e s => rfl
      | ok i s => simp only [Res.cfg, prune_cfg]; rfl

theorem transfer_cfg (s : State) (c : Config) (frm to : Account) (sp : Option Account) (x : Nat)
    (memo : Option Bytes) (now : Nat) (cat fee : Option Nat) :
    transfer (s.cfg c) frm to sp x memo now cat fee =
      (transfer s frm to sp x memo now cat fee).cfg c := by
  unfold transfer
  simp only [checkDuplicate_cfg, balanceOf_cfg, processTransaction_cfg,
    show ∀ n, checkAllowanceOpt (s.cfg c) frm sp n now = checkAllowanceOpt s frm sp n now from fun _ => rfl,
    show ∀ n, checkDebitFromAccount (s.cfg c) frm n = checkDebitFromAccount s frm n from fun _ => rfl,
    show ∀ n, checkCreditToAccount (s.cfg c) to n = checkCreditToAccount s to n from fun _ => rfl,
    show ∀ n, checkTotalSupplyDecrease (s.cfg c) n = checkTotalSupplyDecrease s n from fun _ => rfl]
  split
  · rfl
  repeat (split; · rfl)
  cases processTransaction s ⟨.transfer frm to sp x fee, cat, memo⟩ now with
  | trap => rfl
  | err e s => rfl
  | ok i s' =>
    simp only [Res.cfg, useAllowanceOpt_cfg]
    cases useAllowanceOpt s' frm sp _ now with
    | error e => rfl
    | ok s'' =>
      simp only [Except.map, debit_cfg]
      cases debit s'' frm _ with
      | none => rfl
      | some s3 =>
        simp only [Option.map, credit_cfg]
        cases credit s3 to x <;> rfl

omit [Crypto] in
theorem allowance_cfg (s : State) (c : Config) (a b : Account) (now : Nat) :
    allowance (s.cfg c) a b now = allowance s a b now := rfl

theorem approve_cfg (s : State) (c : Config) (frm sp : Account) (x : Nat) (memo : Option Bytes)
    (now : Nat) (cat fee ea exp : Option Nat) :
    approve (s.cfg c) frm sp x memo now cat fee ea exp =
      (approve s frm sp x memo now cat fee ea exp).cfg c := by
  unfold approve
  simp only [checkDuplicate_cfg, balanceOf_cfg, processTransaction_cfg, allowance_cfg,
    show ∀ n, checkTotalSupplyDecrease (s.cfg c) n = checkTotalSupplyDecrease s n from fun _ => rfl]
  split
  · rfl
  repeat (split; · rfl)
  cases processTransaction s ⟨.approve frm sp x ea exp fee, cat, memo⟩ now with
  | trap => rfl
  | err e s => rfl
  | ok i s' =>
    simp only [Res.cfg, recordApproval_cfg, debit_cfg]
    cases debit (recordApproval s' frm sp x exp) frm FEE <;> rfl

theorem reimburse_cfg (s : State) (c : Config) (a : Account) (x now : Nat) (memo : Bytes) :
    reimburse (s.cfg c) a x now memo = (reimburse s a x now memo).cfg c := by
  unfold reimburse
  rw [processTransaction_cfg]
  cases processTransaction s ⟨.mint a x 0, none, some memo⟩ now with
  | trap => rfl
  | err e s => rfl
  | ok i s' =>
    simp only [Res.cfg, credit_cfg]
    cases credit s' a x with
    | none => rfl
    | some s'' => simp only [Option.map, prune_cfg]

theorem reimburseApproval_cfg (s : State) (c : Config) (a b : Account) (x : Nat) (exp : Option Nat)
    (now : Nat) :
    reimburseApproval (s.cfg c) a b x exp now = (reimburseApproval s a b x exp now).cfg c := by
  exact approve_cfg ..

theorem withdrawStart_cfg (s : State) (c : Config) (frm : Account) (to : Principal)
    (sp : Option Account) (x now : Nat) (cat : Option Nat) :
    withdrawStart (s.cfg c) frm to sp x now cat = (withdrawStart s frm to sp x now cat).cfg c := by
  unfold withdrawStart
  simp only [checkDuplicate_cfg, balanceOf_cfg, processTransaction_cfg,
    show ∀ n, checkAllowanceOpt (s.cfg c) frm sp n now = checkAllowanceOpt s frm sp n now from fun _ => rfl,
    show ∀ n, checkDebitFromAccount (s.cfg c) frm n = checkDebitFromAccount s frm n from fun _ => rfl,
    show ∀ n, checkTotalSupplyDecrease (s.cfg c) n = checkTotalSupplyDecrease s n from fun _ => rfl]
  split
  · rfl
  split
  · rfl
  split
  · rfl
  split
  · rfl
  split
  · rename_i e _; cases e <;> rfl
  split
  · rfl
  split
  · rfl
  cases processTransaction s ⟨.burn frm sp x, cat, some (encodeWithdrawMemo to)⟩ now with
  | trap => rfl
  | err e s => rfl
  | ok i s' =>
    simp only [Res.cfg, useAllowanceOpt_cfg]
    cases useAllowanceOpt s' frm sp _ now with
    | error e => rfl
    | ok s'' =>
      simp only [Except.map, debit_cfg]
      cases debit s'' frm _ with
      | none => rfl
      | some s3 => simp only [Option.map, prune_cfg]

theorem createCanisterStart_cfg (s : State) (c : Config) (frm : Account)
    (sp : Option Account) (x now : Nat) (cat : Option Nat) :
    createCanisterStart (s.cfg c) frm sp x now cat = (createCanisterStart s frm sp x now cat).cfg c := by
  unfold createCanisterStart
  simp only [checkDuplicate_cfg, balanceOf_cfg, processTransaction_cfg,
    show ∀ n, checkAllowanceOpt (s.cfg c) frm sp n now = checkAllowanceOpt s frm sp n now from fun _ => rfl,
    show ∀ n, checkDebitFromAccount (s.cfg c) frm n = checkDebitFromAccount s frm n from fun _ => rfl,
    show ∀ n, checkTotalSupplyDecrease (s.cfg c) n = checkTotalSupplyDecrease s n from fun _ => rfl]
  split
  · rfl
  split
  · rfl
  split
  · rename_i e _; cases e <;> rfl
  split
  · rfl
  split
  · rfl
  cases processTransaction s ⟨.burn frm sp x, cat, some CREATE_CANISTER_MEMO⟩ now with
  | trap => rfl
  | err e s => rfl
  | ok i s' =>
    simp only [Res.cfg, useAllowanceOpt_cfg]
    cases useAllowanceOpt s' frm sp _ now with
    | error e => rfl
    | ok s'' =>
      simp only [Except.map, debit_cfg]
      cases debit s'' frm _ with
      | none => rfl
      | some s3 => simp only [Option.map, prune_cfg]

theorem withdrawFinish_cfg (s : State) (c : Config) (p : Suspended) (r : Option CallError) (now : Nat) :
    withdrawFinish (s.cfg c) p r now = (withdrawFinish s p r now).cfg c := by
  unfold withdrawFinish
  cases r with
  | none => rfl
  | some e =>
    simp only
    split
    · rfl
    · rw [reimburse_cfg]
      cases reimburse s p.frm (satSub p.amount FEE) now PENALIZE_MEMO with
      | trap => rfl
      | err e s => rfl
      | ok i s' =>
        simp only [Res.cfg, prune_cfg]
        cases p.spender with
        | none => rfl
        | some sp =>
          simp only
          split
          · rw [reimburseApproval_cfg]
            cases reimburseApproval (prune now s') p.frm sp _ p.oldExpiresAt now <;> rfl
          · rfl

theorem createCanisterFinish_cfg (s : State) (c : Config) (p : Suspended) (r : CmcResult) (now : Nat) :
    createCanisterFinish (s.cfg c) p r now = (createCanisterFinish s p r now).cfg c := by
  have failed : ∀ (code : RejectionCode) (x : Nat),
      (if satSub x FEE = 0 then
        Res.err (.failedToCreateFrom (some p.blockIndex) none none code) (s.cfg c)
      else match reimburse (s.cfg c) p.frm (satSub x FEE) now REFUND_MEMO with
        | .trap => .trap
        | .err _ _ => .trap
        | .ok refundBlock s =>
          let s := prune now s
          match p.spender with
          | none => .err (.failedToCreateFrom (some p.blockIndex) (some refundBlock) none code) s
          | some spender =>
            if !spender.same p.frm && decide (satSub x FEE > FEE) &&
                approvalStillValid p.oldExpiresAt now then
              match reimburseApproval s p.frm spender (satSub (satSub x FEE) FEE)
                  p.oldExpiresAt now with
              | .ok approvalBlock s =>
                .err (.failedToCreateFrom (some p.blockIndex) (some refundBlock)
                  (some approvalBlock) code) s
              | .err _ _ => .trap
              | .trap => .trap
            else .err (.failedToCreateFrom (some p.blockIndex) (some refundBlock) none code) s :
          Res State CreateCanisterFromError (Nat × Principal)) =
      Res.cfg (if satSub x FEE = 0 then
        Res.err (.failedToCreateFrom (some p.blockIndex) none none code) s
      else match reimburse s p.frm (satSub x FEE) now REFUND_MEMO with
        | .trap => .trap
        | .err _ _ => .trap
        | .ok refundBlock s =>
          let s := prune now s
          match p.spender with
          | none => .err (.failedToCreateFrom (some p.blockIndex) (some refundBlock) none code) s
          | some spender =>
            if !spender.same p.frm && decide (satSub x FEE > FEE) &&
                approvalStillValid p.oldExpiresAt now then
              match reimburseApproval s p.frm spender (satSub (satSub x FEE) FEE)
                  p.oldExpiresAt now with
              | .ok approvalBlock s =>
                .err (.failedToCreateFrom (some p.blockIndex) (some refundBlock)
                  (some approvalBlock) code) s
              | .err _ _ => .trap
              | .trap => .trap
            else .err (.failedToCreateFrom (some p.blockIndex) (some refundBlock) none code) s) c := by
    intro code x
    split
    · rfl
    · rw [reimburse_cfg]
      cases reimburse s p.frm (satSub x FEE) now REFUND_MEMO with
      | trap => rfl
      | err e s => rfl
      | ok i s' =>
        simp only [Res.cfg, prune_cfg]
        cases p.spender with
        | none => rfl
        | some sp =>
          simp only
          split
          · rw [reimburseApproval_cfg]
            cases reimburseApproval (prune now s') p.frm sp _ p.oldExpiresAt now <;> rfl
          · rfl
  unfold createCanisterFinish
  cases r with
  | refunded x => exact failed _ _
  | refundFailed => exact failed _ _
  | callError e => exact failed _ _
  | created q =>
    simp only [show (s.cfg c).transactionHashes = s.transactionHashes from rfl]
    cases p.transaction.hash with
    | none => rfl
    | some h => simp only; split <;> rfl

theorem executeTransfer_cfg (s : State) (c : Config) (frm to : Account) (sp : Option Account) (x : Nat)
    (fee : Option Nat) (memo : Option Bytes) (cat : Option Nat) (now : Nat) :
    executeTransfer (s.cfg c) frm to sp x fee memo cat now =
      (executeTransfer s frm to sp x fee memo cat now).cfg c := by
  unfold executeTransfer
  cases toU128 x with
  | none => rfl
  | some x =>
    simp only
    cases natOpt fee with
    | none => rfl
    | some fee =>
      simp only [transfer_cfg]
      cases transfer s frm to sp x memo now cat fee with
      | ok i s => simp only [Res.cfg, prune_cfg]
      | err e s => rfl
      | trap => rfl

theorem icrc2Approve_cfg (s : State) (c : Config) (p : Principal) (args : ApproveArgs) (now : Nat) :
    icrc2Approve (s.cfg c) p args now = (icrc2Approve s p args now).cfg c := by
  unfold icrc2Approve
  simp only
  cases natOpt args.expectedAllowance with
  | none => rfl
  | some ea =>
    simp only
    cases natOpt args.fee with
    | none => rfl
    | some fee =>
      simp only [approve_cfg]
      cases approve s ⟨p, args.fromSubaccount⟩ args.spender ((toU128 args.amount).getD U128MAX)
          args.memo now (opt64 args.createdAtTime) fee ea (opt64 args.expiresAt) with
      | ok i s => simp only [Res.cfg, prune_cfg]
      | err e s => rfl
      | trap => rfl

theorem executeWithdraw_cfg (s : State) (c : Config) (frm : Account) (to : Principal)
    (sp : Option Account) (x : Nat) (cat : Option Nat) (now : Nat) :
    executeWithdraw (s.cfg c) frm to sp x cat now = (executeWithdraw s frm to sp x cat now).cfg c := by
  unfold executeWithdraw
  cases toU128 x with
  | none => rfl
  | some x => exact withdrawStart_cfg ..

theorem executeCreateCanister_cfg (s : State) (c : Config) (frm : Account)
    (sp : Option Account) (x : Nat) (cat : Option Nat) (now : Nat) :
    executeCreateCanister (s.cfg c) frm sp x cat now =
      (executeCreateCanister s frm sp x cat now).cfg c := by
  unfold executeCreateCanister
  cases toU128 x with
  | none => rfl
  | some x => exact createCanisterStart_cfg ..

/-! ## Systems -/

omit [Crypto] in
theorem mapErr_cfg {ε ε' α : Type} (r : Res State ε α) (f : ε → Option ε') (c : Config) :
    (r.cfg c).mapErr f = (r.mapErr f).cfg c := by
  cases r with
  | ok a s => rfl
  | trap => rfl
  | err e s => simp only [Res.cfg, Res.mapErr]; cases f e <;> rfl

/-- The same system with configuration `c`. -/
def Sys.cfg (y : Sys) (c : Config) : Sys := { y with ledger := y.ledger.cfg c }

omit [Crypto] in
theorem commit_cfg {ε α : Type} (y : Sys) (c : Config) (r : Res State ε α)
    (reply : Except ε α → Reply) :
    (y.cfg c).commit (r.cfg c) reply = (((y.commit r reply).1).cfg c, (y.commit r reply).2) := by
  cases r <;> rfl

theorem finishWithdraw_cfg (y : Sys) (s : State) (c : Config) (kind : CallKind) (p : Suspended)
    (r : Option CallError) :
    finishWithdraw (y.cfg c) (s.cfg c) kind p r =
      ((finishWithdraw y s kind p r).1.cfg c, (finishWithdraw y s kind p r).2) := by
  unfold finishWithdraw
  simp only [withdrawFinish_cfg, show (y.cfg c).now = y.now from rfl]
  cases kind <;> simp only [mapErr_cfg, commit_cfg]

theorem finishCreate_cfg (y : Sys) (s : State) (c : Config) (kind : CallKind) (p : Suspended)
    (r : CmcResult) :
    finishCreate (y.cfg c) (s.cfg c) kind p r =
      ((finishCreate y s kind p r).1.cfg c, (finishCreate y s kind p r).2) := by
  unfold finishCreate
  simp only [createCanisterFinish_cfg, show (y.cfg c).now = y.now from rfl]
  cases kind <;> simp only [mapErr_cfg, commit_cfg]

theorem sendWithdraw_cfg (y : Sys) (c : Config) (r : Res State WithdrawFromError Suspended)
    (kind : CallKind) (to : Principal) (sync : Option CallError) :
    sendWithdraw (y.cfg c) (r.cfg c) kind to sync =
      ((sendWithdraw y r kind to sync).1.cfg c, (sendWithdraw y r kind to sync).2) := by
  cases r with
  | trap => rfl
  | err e s =>
    have h := commit_cfg y c ((Res.err e s : Res State WithdrawFromError Nat).mapErr
      withdrawFromErrorToWithdrawError) .withdraw
    rw [← mapErr_cfg] at h
    cases kind
    case withdraw => exact h
    all_goals rfl
  | ok p s =>
    cases sync with
    | none => rfl
    | some e => exact finishWithdraw_cfg ..

theorem sendCreate_cfg (y : Sys) (c : Config) (r : Res State CreateCanisterFromError Suspended)
    (kind : CallKind) (caller : Principal) (args : Option CmcArgs) (sync : Option CallError) :
    sendCreate (y.cfg c) (r.cfg c) kind caller args sync =
      ((sendCreate y r kind caller args sync).1.cfg c, (sendCreate y r kind caller args sync).2) := by
  cases r with
  | trap => rfl
  | err e s =>
    have h := commit_cfg y c ((Res.err e s :
      Res State CreateCanisterFromError (Nat × Principal)).mapErr createFromErrorToCreateError)
      .createCanister
    rw [← mapErr_cfg] at h
    cases kind
    case createCanister => exact h
    all_goals rfl
  | ok p s =>
    cases sync with
    | none => rfl
    | some e => exact finishCreate_cfg ..

/-- What a message other than an upgrade does, and its answer, do not depend on the
configuration. -/
theorem exec_cfg (y : Sys) (c : Config) (m : Msg) (hm : ∀ arg, m ≠ .upgrade arg) :
    (y.cfg c).exec m = ((y.exec m).1.cfg c, (y.exec m).2) := by
  cases m with
  | deposit p cycles arg =>
    unfold Sys.exec
    simp only [show (y.cfg c).ledger = y.ledger.cfg c from rfl, show (y.cfg c).now = y.now from rfl,
      depositEndpoint_cfg]
    cases depositEndpoint y.ledger arg cycles.val y.now with
    | ok v s => rfl
    | err e s => exact nomatch e
    | trap => rfl
  | transfer p args =>
    unfold Sys.exec
    simp only [show (y.cfg c).ledger = y.ledger.cfg c from rfl, show (y.cfg c).now = y.now from rfl,
      icrc1Transfer, executeTransfer_cfg, mapErr_cfg, commit_cfg]
  | transferFrom p args =>
    unfold Sys.exec
    simp only [show (y.cfg c).ledger = y.ledger.cfg c from rfl, show (y.cfg c).now = y.now from rfl,
      icrc2TransferFrom, executeTransfer_cfg, commit_cfg]
  | approve p args =>
    unfold Sys.exec
    simp only [show (y.cfg c).ledger = y.ledger.cfg c from rfl, show (y.cfg c).now = y.now from rfl,
      icrc2Approve_cfg, commit_cfg]
  | withdraw p args sync =>
    unfold Sys.exec
    simp only [show (y.cfg c).ledger = y.ledger.cfg c from rfl, show (y.cfg c).now = y.now from rfl,
      executeWithdraw_cfg, sendWithdraw_cfg]
  | withdrawFrom p args sync =>
    unfold Sys.exec
    simp only [show (y.cfg c).ledger = y.ledger.cfg c from rfl, show (y.cfg c).now = y.now from rfl,
      executeWithdraw_cfg, sendWithdraw_cfg]
  | createCanister p args sync =>
    unfold Sys.exec
    simp only [show (y.cfg c).ledger = y.ledger.cfg c from rfl, show (y.cfg c).now = y.now from rfl,
      executeCreateCanister_cfg, sendCreate_cfg]
  | createCanisterFrom p args sync =>
    unfold Sys.exec
    simp only [show (y.cfg c).ledger = y.ledger.cfg c from rfl, show (y.cfg c).now = y.now from rfl,
      executeCreateCanister_cfg, sendCreate_cfg]
  | callback i ans =>
    unfold Sys.exec
    simp only [show (y.cfg c).pending = y.pending from rfl]
    cases y.pending[i]? with
    | none => rfl
    | some p =>
      obtain ⟨kind, data, call⟩ := p
      cases ans with
      | depositCycles r =>
        cases kind
        case withdraw =>
          exact finishWithdraw_cfg ⟨y.ledger, y.now, y.pending.eraseIdx i, y.cycles + (if r.isSome then (call.cycles : Int) else 0)⟩
            y.ledger c _ data r
        case withdrawFrom =>
          exact finishWithdraw_cfg ⟨y.ledger, y.now, y.pending.eraseIdx i, y.cycles + (if r.isSome then (call.cycles : Int) else 0)⟩
            y.ledger c _ data r
        all_goals rfl
      | cmc r refund =>
        cases kind
        case createCanister =>
          exact finishCreate_cfg ⟨y.ledger, y.now, y.pending.eraseIdx i, y.cycles + refund⟩
            y.ledger c _ data r
        case createCanisterFrom =>
          exact finishCreate_cfg ⟨y.ledger, y.now, y.pending.eraseIdx i, y.cycles + refund⟩
            y.ledger c _ data r
        all_goals rfl
  | lostCallback i => rfl
  | upgrade arg => exact absurd rfl (hm arg)

end CyclesLedger
