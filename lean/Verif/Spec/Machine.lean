import Verif.Spec.Rules
/-!
# Specification: the reference ledger

A ledger with no tables.  Its state is the block log, the clock, the outstanding calls, its cycles and
its two settings; balances, supply and allowances are read off the log each time.  `Step` says what
one message does.  Three things are left open: whether an allowance that has expired is still
remembered, whether a transaction that is too old is still remembered, and what is taken for a
duplicate once two different transactions have the same hash.
-/
namespace CyclesLedger.Spec

/-! ## What the outgoing calls say -/

/-- What the CMC has to be asked for, given what the user asked for: the controllers
named, else the caller; everything else as given. -/
structure CreationArg (given : Option CmcArgs) (caller : Principal) (sent : CmcArgs) : Prop where
  subnet : ∀ x, sent.subnetSelection = some x ↔ ∃ g, given = some g ∧ g.subnetSelection = some x
  settings : ∃ st, sent.settings = some st ∧
    (∀ g st', given = some g → g.settings = some st' →
      (∀ cs, st'.controllers = some cs → st = st') ∧
      (st'.controllers = none → st = { st' with controllers := some [caller] })) ∧
    ((∀ g st', given = some g → g.settings ≠ some st') →
      st = ⟨some [caller], none, none, none, none, none, none, none, none⟩)

/-- The rejection code that goes with the error of a call: a reject code as it is (one that
is not known is `Unknown`), `SysTransient` if the call could not be made, `CanisterError` if its
answer makes no sense. -/
inductive Explains : CallError → RejectionCode → Prop
  | sysFatal : Explains (.rejected (some .sysFatal)) .sysFatal
  | sysTransient : Explains (.rejected (some .sysTransient)) .sysTransient
  | destinationInvalid : Explains (.rejected (some .destinationInvalid)) .destinationInvalid
  | canisterReject : Explains (.rejected (some .canisterReject)) .canisterReject
  | canisterError : Explains (.rejected (some .canisterError)) .canisterError
  | sysUnknown : Explains (.rejected (some .sysUnknown)) .unknown
  | notKnown : Explains (.rejected none) .unknown
  | noCycles : Explains .insufficientLiquidCycleBalance .sysTransient
  | notSent : Explains .callPerformFailed .sysTransient
  | notDecoded : Explains .candidDecodeFailed .canisterError

/-- The call a burn request leads to: `deposit_cycles` of the management canister (`aaaaa-aa`), or
`create_canister` of the cycles minting canister (`rkp4c-7iaaa-aaaaa-aaaca-cai`), with the amount
attached. -/
inductive CallsFor : Msg → OutCall → Prop
  | withdraw {c a s} {mgmt : Principal} : mgmt.bytes = [] →
    CallsFor (.withdraw c a s) ⟨mgmt, .depositCycles a.to, a.amount⟩
  | withdrawFrom {c a s} {mgmt : Principal} : mgmt.bytes = [] →
    CallsFor (.withdrawFrom c a s) ⟨mgmt, .depositCycles a.to, a.amount⟩
  | create {c a s arg} {cmc : Principal} : cmc.bytes = [0, 0, 0, 0, 0, 0, 0, 4, 1, 1] →
    CreationArg a.creationArgs c arg →
    CallsFor (.createCanister c a s) ⟨cmc, .createCanister arg, a.amount⟩
  | createFrom {c a s arg} {cmc : Principal} : cmc.bytes = [0, 0, 0, 0, 0, 0, 0, 4, 1, 1] →
    CreationArg a.creationArgs c arg →
    CallsFor (.createCanisterFrom c a s) ⟨cmc, .createCanister arg, a.amount⟩

/-! ## State -/

/-- The state of the reference ledger.  `made i` is the canister made by the burn in block `i`. -/
structure Ref where
  log : List Block
  now : Nat
  pending : List Pending
  cycles : Int
  limit : Nat
  index : Option Principal
  made : Nat → Option Principal

/-- The balance of an account. -/
def Ref.balance (r : Ref) (a : Account) : Nat := (Spec.balance r.log (idOf a)).toNat

/-- The total supply. -/
def Ref.supply (r : Ref) : Nat := (Spec.supply r.log).toNat

/-- The allowance of `sp` on `frm`, expired or not: amount and expiry (`0`: none). -/
def Ref.granted (r : Ref) (frm sp : Account) : Option (Nat × Nat) :=
  allowances r.log (idOf frm, idOf sp)

/-- The fee a block mentions besides its transaction: none is charged by a mint; a transfer or an
approval may name it itself. -/
def feeField : Operation → Option Nat
  | .mint _ _ _ => some 0
  | .burn _ _ _ => some 100000000
  | .transfer _ _ _ _ (some _) | .approve _ _ _ _ _ (some _) => none
  | .transfer _ _ _ _ none | .approve _ _ _ _ _ none => some 100000000

/-- Time passes. -/
def Ref.tick (r : Ref) (dt : Nat) : Ref := { r with now := min (r.now + dt) 18446744073709551615 }

variable [Crypto]

/-- Record a transaction. -/
def Ref.append (r : Ref) (t : Transaction) : Ref :=
  { r with log := r.log ++
      [⟨t, r.now, r.log.getLast?.map Block.hash, feeField t.operation⟩] }

/-! ## What is remembered -/

omit [Crypto] in
/-- `app` is what may be remembered of the allowances: all of them, except that those that have
expired may be forgotten. -/
def Recalls (r : Ref) (app : Account → Account → Option (Nat × Nat)) : Prop :=
  ∀ frm sp, app frm sp = r.granted frm sp ∨
    (app frm sp = none ∧ ∃ a e, r.granted frm sp = some (a, e) ∧ 0 < e ∧ e ≤ r.now)

/-- `dup` is what may be remembered of earlier executions of `t`: a block that records it and the
canister it made; not nothing, if there is such a block and `t` is not too old. -/
def RecallsTx (r : Ref) (t : Transaction) (dup : Option (Nat × Option Principal)) : Prop :=
  Collision (t :: r.log.map Block.transaction) ∨
  ((∀ d c, dup = some (d, c) → t.createdAtTime ≠ none ∧ c = r.made d ∧
      ∃ b, r.log[d]? = some b ∧ b.transaction = t) ∧
   (dup = none → ¬TooOld t.createdAtTime r.now → t.createdAtTime ≠ none →
      ∀ b ∈ r.log, b.transaction ≠ t))

/-! ## How requests are judged -/

omit [Crypto] in
/-- What `icrc2_allowance` says of an allowance: an expiry is the last moment it is shown. -/
def shown (now : Nat) : Option (Nat × Nat) → Nat
  | none => 0
  | some (a, e) => if e = 0 ∨ now ≤ e then a else 0

section
variable (r : Ref) (app : Account → Account → Option (Nat × Nat))
  (dup : Option (Nat × Option Principal))

omit [Crypto] in
/-- The rules for transfers. -/
def judgeTransfer (q : TransferReq) : List (Rule (Verdict TransferFromError)) :=
  [ onlyIf (2 ^ 128 ≤ q.amount) (.refuse (.insufficientFunds (r.balance q.frm))),
    onlyIf (∃ f, q.fee = some f ∧ 2 ^ 128 ≤ f) (.refuse (.badFee 100000000)),
    fun v => ∃ d c, dup = some (d, c) ∧ v = .refuse (.duplicate d),
    onlyIf (q.frm.owner = managementCanister ∨ q.to.owner = managementCanister ∨
      ∃ sp, q.spender = some sp ∧ sp.owner = managementCanister) (.refuse (.genericError 100001)),
    onlyIf (q.fee ≠ none ∧ q.fee ≠ some 100000000) (.refuse (.badFee 100000000)),
    onlyIf (2 ^ 128 ≤ q.amount + 100000000) (.refuse (.insufficientFunds (r.balance q.frm))),
    onlyIf (∃ sp a e, OnBehalf q.frm q.spender sp ∧ app q.frm sp = some (a, e) ∧ 0 < e ∧ e ≤ r.now)
      (.refuse (.genericError 100003)),
    fun v => ∃ sp, OnBehalf q.frm q.spender sp ∧ live r.now (app q.frm sp) < q.amount + 100000000 ∧
      v = .refuse (.insufficientAllowance (live r.now (app q.frm sp))),
    onlyIf (r.balance q.frm < q.amount + 100000000)
      (.refuse (.insufficientFunds (r.balance q.frm))),
    onlyIf (SameAccount q.to q.frm ∧ 2 ^ 128 ≤ r.balance q.frm + q.amount)
      (.refuse (.genericError 100000)),
    onlyIf (¬MemoFits q.memo) .trap,
    onlyIf (TooOld q.createdAt r.now) (.refuse .tooOld),
    onlyIf (InFuture q.createdAt r.now) (.refuse (.createdInFuture r.now)) ]

omit [Crypto] in
/-- The rules for approvals. -/
def judgeApprove (q : ApproveReq) : List (Rule (Verdict ApproveError)) :=
  [ onlyIf (∃ x, q.expectedAllowance = some x ∧ 2 ^ 128 ≤ x)
      (.refuse (.allowanceChanged (shown r.now (app q.frm q.spender)))),
    onlyIf (∃ f, q.fee = some f ∧ 2 ^ 128 ≤ f) (.refuse (.badFee 100000000)),
    fun v => ∃ d c, dup = some (d, c) ∧ v = .refuse (.duplicate d),
    onlyIf (q.frm.owner = q.spender.owner) .trap,
    onlyIf (q.frm.owner = managementCanister ∨ q.spender.owner = managementCanister)
      (.refuse (.genericError 100001)),
    onlyIf (∃ x, q.expectedAllowance = some x ∧ x ≠ shown r.now (app q.frm q.spender))
      (.refuse (.allowanceChanged (shown r.now (app q.frm q.spender)))),
    onlyIf (q.fee ≠ none ∧ q.fee ≠ some 100000000) (.refuse (.badFee 100000000)),
    onlyIf (r.balance q.frm < 100000000) (.refuse (.insufficientFunds (r.balance q.frm))),
    onlyIf (q.expiresAt.getD 18446744073709551615 ≤ r.now) (.refuse (.expired r.now)),
    onlyIf (¬MemoFits q.memo) .trap,
    onlyIf (TooOld q.createdAt r.now) (.refuse .tooOld),
    onlyIf (InFuture q.createdAt r.now) (.refuse (.createdInFuture r.now)) ]

omit [Crypto] in
/-- The rules for withdrawals (`to` is the receiver) and canister creations (`to` is `none`); only
the latter mention the canister when they are duplicates. -/
def judgeBurn (q : BurnReq) (to : Option Principal) : List (Rule BurnError) :=
  [ onlyIf (2 ^ 128 ≤ q.amount) (.insufficientFunds (r.balance q.frm)),
    fun v => ∃ p, to = some p ∧ IsUserPrincipal p ∧ v = .invalidReceiver p,
    onlyIf (to ≠ none ∧ q.amount = 0) .zeroAmount,
    fun v => ∃ d c, dup = some (d, c) ∧ v = .duplicate d (if to = none then some c else none),
    onlyIf (2 ^ 128 ≤ q.amount + 100000000) (.insufficientFunds (r.balance q.frm)),
    fun v => ∃ sp, OnBehalf q.frm q.spender sp ∧ live r.now (app q.frm sp) < q.amount + 100000000 ∧
      v = .insufficientAllowance (live r.now (app q.frm sp)),
    onlyIf (r.balance q.frm < q.amount + 100000000) (.insufficientFunds (r.balance q.frm)),
    onlyIf (TooOld q.createdAt r.now) .tooOld,
    onlyIf (InFuture q.createdAt r.now) (.createdInFuture r.now) ]

/-! ## Answers -/

omit [Crypto] in
/-- The answer belongs to the endpoint that was called. -/
def Answers : Msg → Reply → Prop
  | .transfer _ _, .transfer _ | .transferFrom _ _, .transferFrom _ | .approve _ _, .approve _
  | .withdraw _ _ _, .withdraw _ | .withdrawFrom _ _ _, .withdrawFrom _
  | .createCanister _ _ _, .createCanister _
  | .createCanisterFrom _ _ _, .createCanisterFrom _ => True
  | _, _ => False

omit [Crypto] in
/-- The positive answer to a burn recorded in block `i`. -/
inductive Done (i : Nat) : CallKind → Answer → Reply → Prop
  | withdraw : Done i .withdraw (.depositCycles none) (.withdraw (.ok i))
  | withdrawFrom : Done i .withdrawFrom (.depositCycles none) (.withdrawFrom (.ok i))
  | create {c n} : Done i .createCanister (.cmc (.created c) n) (.createCanister (.ok (i, c)))
  | createFrom {c n} :
    Done i .createCanisterFrom (.cmc (.created c) n) (.createCanisterFrom (.ok (i, c)))

omit [Crypto] in
/-- The answer to a burn recorded in block `i` that failed with code `c`, after the refund in block
`fb` and the refund of the allowance in block `ab`. -/
def undone (i : Nat) (fb ab : Option Nat) (c : RejectionCode) : CallKind → Reply
  | .withdraw => .withdraw (.error (.failedToWithdraw fb c))
  | .withdrawFrom => .withdrawFrom (.error (.failedToWithdrawFrom (some i) fb ab c))
  | .createCanister => .createCanister (.error (.failedToCreate (some i) fb))
  | .createCanisterFrom => .createCanisterFrom (.error (.failedToCreateFrom (some i) fb ab c))

omit [Crypto] in
/-- The rejection code that goes with a failure.  An error of the CMC itself is a `CanisterError`. -/
inductive FailsWith : Answer → RejectionCode → Prop
  | deposit {e c} : Explains e c → FailsWith (.depositCycles (some e)) c
  | call {e c n} : Explains e c → FailsWith (.cmc (.callError e) n) c
  | refunded {x n} : FailsWith (.cmc (.refunded x) n) .canisterError
  | refundFailed {n} : FailsWith (.cmc .refundFailed n) .canisterError

/-! ## Burns -/

omit [Crypto] in
/-- The expiry of the allowance a burn uses, if it uses one and that expires. -/
inductive UsesUntil (q : BurnReq) : Option Nat → Prop
  | own : (∀ sp, ¬OnBehalf q.frm q.spender sp) → UsesUntil q none
  | ever {sp a} : OnBehalf q.frm q.spender sp → r.granted q.frm sp = some (a, 0) → UsesUntil q none
  | until {sp a e} : OnBehalf q.frm q.spender sp → r.granted q.frm sp = some (a, e) → 0 < e →
    UsesUntil q (some e)

omit [Crypto] in
/-- The allowance refund: what `sp` can still spend, plus the refund less one more fee; a running
expiry is kept, otherwise the one of the original approval is used. -/
def Ref.allowanceBack (p : Suspended) (sp : Account) (back : Nat) : Transaction :=
  ⟨.approve p.frm sp
    (min (back - 200000000 + live r.now (r.granted p.frm sp)) (2 ^ 128 - 1)) none
    (match r.granted p.frm sp with
      | some (_, e) => if r.now < e then some e else p.oldExpiresAt
      | none => p.oldExpiresAt)
    none, none, some (List.replicate 32 255)⟩

/-- The refund of `back` returned cycles: the state after it, and the blocks that record it.  Up to
one fee is not refunded; an allowance that was used is refunded if it has not expired. -/
inductive Repaid (kind : CallKind) (p : Suspended) (back : Nat) :
    Ref → Option Nat → Option Nat → Prop
  | nothing : back ≤ 100000000 → Repaid kind p back r none none
  | cycles : 100000000 < back → r.supply + (back - 100000000) < 2 ^ 128 →
    (∀ sp, ¬RefundsAllowance r.now p back sp) →
    Repaid kind p back (r.append (refundTransaction kind p back)) (some r.log.length) none
  | both {sp} : RefundsAllowance r.now p back sp → r.supply + (back - 100000000) < 2 ^ 128 →
    ¬(r.now = 18446744073709551615 ∧ p.oldExpiresAt = none) →
    Repaid kind p back
      ((r.append (refundTransaction kind p back)).append (r.allowanceBack p sp back))
      (some r.log.length) (some (r.log.length + 1))

/-- The refund fails, and with it the message: the supply would not fit 128 bits; or there is an
allowance to refund and it has an expiry which is right now, or none at the end of time, or the refund
is taken for a duplicate. -/
def Unpayable (kind : CallKind) (p : Suspended) (back : Nat) : Prop :=
  (100000000 < back ∧ 2 ^ 128 ≤ r.supply + (back - 100000000)) ∨
  ∃ sp, RefundsAllowance r.now p back sp ∧
    ((∃ a, r.granted p.frm sp = some (a, r.now) ∧ 0 < r.now) ∨
     (r.now = 18446744073709551615 ∧ p.oldExpiresAt = none) ∨
     Collision (r.allowanceBack p sp back :: refundTransaction kind p back ::
       r.log.map Block.transaction))

omit [Crypto] in
/-- The answer to the `i`-th outstanding call has arrived, and with it cycles: those of the call if
it was rejected, what the CMC returned otherwise. -/
def Ref.answered (i : Nat) (p : Pending) (ans : Answer) : Ref :=
  { r with
    pending := r.pending.eraseIdx i
    cycles := r.cycles + (match ans with
      | .depositCycles (some _) => (p.call.cycles : Int)
      | .depositCycles none => 0
      | .cmc _ n => (n : Int)) }

omit [Crypto] in
/-- Note which canister was made by the burn in block `i`. -/
def Ref.note (i : Nat) (ans : Answer) : Ref :=
  match ans with
  | .cmc (.created c) _ => { r with made := fun j => if j = i then some c else r.made j }
  | _ => r

/-- The settings an upgrade leaves. -/
def Ref.reconfigured (u : UpgradeArgs) : Ref :=
  { r with
    limit := (u.maxBlocksPerRequest.map UInt64.toNat).getD r.limit
    index := match u.changeIndexId with
      | none => r.index
      | some .unset => none
      | some (.setTo p) => some p }

end

/-! ## Messages -/

/-- What one message does: `Step r m r' reply`. -/
inductive Step : Ref → Msg → Ref → Reply → Prop
  -- deposits
  | deposit {r : Ref} {c n arg t} : 100000000 < n.val → MemoFits arg.memo →
    r.supply + (n.val - 100000000) < 2 ^ 128 →
    t = ⟨.mint arg.to (n.val - 100000000) 100000000, none, arg.memo⟩ →
    Step r (.deposit c n arg) { r.append t with cycles := r.cycles + n.val }
      (.deposit r.log.length ((r.append t).balance arg.to))
  | depositRefused {r : Ref} {c n arg} : n.val ≤ 100000000 ∨ ¬MemoFits arg.memo ∨
      2 ^ 128 ≤ r.supply + (n.val - 100000000) →
    Step r (.deposit c n arg) r .trapped
  -- transfers
  | transfer {r : Ref} {m q app dup reply} : transferRequest m = some q → Recalls r app →
    RecallsTx r q.transaction dup → FirstOf (judgeTransfer r app dup q) none →
    Answers m reply → okIndex reply = some r.log.length →
    Step r m (r.append q.transaction) reply
  | transferRefused {r : Ref} {m q app dup reply e} : transferRequest m = some q → Recalls r app →
    RecallsTx r q.transaction dup → FirstOf (judgeTransfer r app dup q) (some (.refuse e)) →
    Answers m reply → transferError reply = some e →
    Step r m r reply
  | transferTrap {r : Ref} {m q app dup} : transferRequest m = some q → Recalls r app →
    RecallsTx r q.transaction dup → FirstOf (judgeTransfer r app dup q) (some .trap) →
    Step r m r .trapped
  -- approvals
  | approve {r : Ref} {m q app dup reply} : approveRequest m = some q → Recalls r app →
    RecallsTx r q.transaction dup → FirstOf (judgeApprove r app dup q) none →
    Answers m reply → okIndex reply = some r.log.length →
    Step r m (r.append q.transaction) reply
  | approveRefused {r : Ref} {m q app dup reply e} : approveRequest m = some q → Recalls r app →
    RecallsTx r q.transaction dup → FirstOf (judgeApprove r app dup q) (some (.refuse e)) →
    Answers m reply → approveError reply = some e →
    Step r m r reply
  | approveTrap {r : Ref} {m q app dup} : approveRequest m = some q → Recalls r app →
    RecallsTx r q.transaction dup → FirstOf (judgeApprove r app dup q) (some .trap) →
    Step r m r .trapped
  -- withdrawals and canister creations
  | burnRefused {r : Ref} {m q to app dup reply e} : burnRequest m = some (q, to) → Recalls r app →
    RecallsTx r (q.transaction to) dup → FirstOf (judgeBurn r app dup q to) (some e) →
    Answers m reply → burnError reply = some e →
    Step r m r reply
  | burn {r : Ref} {m q to app dup old call} : burnRequest m = some (q, to) → Recalls r app →
    RecallsTx r (q.transaction to) dup → FirstOf (judgeBurn r app dup q to) none →
    UsesUntil r q old → syncOf m = none → CallsFor m call →
    Step r m
      { r.append (q.transaction to) with
        pending := r.pending ++ [⟨kindOf m,
          ⟨q.frm, q.spender, q.amount, r.log.length, old, q.transaction to⟩, call⟩]
        cycles := r.cycles - q.amount }
      .suspended
  | burnNotSent {r r' : Ref} {m q to app dup old e c fb ab} : burnRequest m = some (q, to) →
    Recalls r app → RecallsTx r (q.transaction to) dup → FirstOf (judgeBurn r app dup q to) none →
    UsesUntil r q old → syncOf m = some e → Explains e c →
    Repaid (r.append (q.transaction to)) (kindOf m)
      ⟨q.frm, q.spender, q.amount, r.log.length, old, q.transaction to⟩ q.amount r' fb ab →
    Step r m r' (undone r.log.length fb ab c (kindOf m))
  | burnTrap {r : Ref} {m q to app dup old e} : burnRequest m = some (q, to) →
    Recalls r app → RecallsTx r (q.transaction to) dup → FirstOf (judgeBurn r app dup q to) none →
    UsesUntil r q old → syncOf m = some e →
    Unpayable (r.append (q.transaction to)) (kindOf m)
      ⟨q.frm, q.spender, q.amount, r.log.length, old, q.transaction to⟩ q.amount →
    Step r m r .trapped
  -- answers to outstanding calls
  | callback {r : Ref} {i p ans reply} : r.pending[i]? = some p → Done p.data.blockIndex p.kind ans reply →
    Step r (.callback i ans) ((r.answered i p ans).note p.data.blockIndex ans) reply
  | callbackFailed {r r' : Ref} {i p ans back c fb ab} : r.pending[i]? = some p → Fits p ans →
    returned p ans = some back → FailsWith ans c →
    Repaid (r.answered i p ans) p.kind p.data back r' fb ab →
    Step r (.callback i ans) r' (undone p.data.blockIndex fb ab c p.kind)
  | callbackTrap {r : Ref} {i p ans back} : r.pending[i]? = some p → Fits p ans →
    returned p ans = some back → Unpayable (r.answered i p ans) p.kind p.data back →
    Step r (.callback i ans) (r.answered i p ans) .trapped
  | noCallback {r : Ref} {i ans} : (∀ p, r.pending[i]? = some p → ¬Fits p ans) →
    Step r (.callback i ans) r .silent
  | lostCallback {r : Ref} {i} :
    Step r (.lostCallback i) { r with pending := r.pending.eraseIdx i } .silent
  -- upgrades
  | upgrade {r : Ref} {arg} : arg = .none ∨ arg = .upgrade none → Step r (.upgrade arg) r .silent
  | reconfigure {r : Ref} {u} : Step r (.upgrade (.upgrade (some u))) (r.reconfigured u) .silent
  | reinstall {r : Ref} {c} : Step r (.upgrade (.init c)) r .trapped

/-- What a list of events does, with the answers given. -/
inductive Steps : Ref → List Event → Ref → List Reply → Prop
  | nil {r} : Steps r [] r []
  | cons {r r1 r2 e es a as} : Step (r.tick e.dt) e.msg r1 a → Steps r1 es r2 as →
    Steps r (e :: es) r2 (a :: as)

/-- The ledger as installed: one mint for each initial balance. -/
def Ref.init (config : Config) (now cycles : Nat) : Ref :=
  (config.initialBalances.getD []).foldl
    (fun r e => r.append ⟨.mint e.1 e.2 100000000, none, none⟩)
    ⟨[], min now 18446744073709551615, [], cycles, config.maxBlocksPerRequest, config.indexId,
      fun _ => none⟩

end CyclesLedger.Spec
