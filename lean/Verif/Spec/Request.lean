import Verif.Model.System
import Verif.Spec.Replay
/-!
# Specification: what requests ask for and what answers mean

Vocabulary for the theorems about single requests, in terms of what a user can
see: balances, allowances, the log, the clock.
-/
namespace CyclesLedger.Spec

/-- Two ways of writing the same account: an omitted subaccount is the default one. -/
def SameAccount (a b : Account) : Prop :=
  a.owner = b.owner ∧ a.subaccount.getD zeroSub = b.subaccount.getD zeroSub

instance (a b : Account) : Decidable (SameAccount a b) := by
  unfold SameAccount; infer_instance

/-- The allowance stored for `sp` on `frm`: amount and expiry (`0`: none). -/
def stored (s : State) (frm sp : Account) : Option (Nat × Nat) := s.approvals.get (frm.key, sp.key)

/-- What `sp` can spend from `frm` at time `now`. -/
def spendable (s : State) (frm sp : Account) (now : Nat) : Nat := live now (stored s frm sp)

/-- The spender of a request that needs an allowance: one that is given and is not the
charged account itself. -/
def OnBehalf (frm : Account) (spender : Option Account) (sp : Account) : Prop :=
  spender = some sp ∧ ¬SameAccount sp frm

/-- A `created_at_time` the ledger accepts at time `now`: at most 24 h + 60 s old and
at most 60 s ahead. -/
def InWindow (createdAt : Option Nat) (now : Nat) : Prop :=
  ∀ c, createdAt = some c → now ≤ c + 86400000000000 + 60000000000 ∧ c ≤ now + 60000000000

/-- A memo of at most 32 bytes. -/
def MemoFits (memo : Option Bytes) : Prop := ∀ m, memo = some m → m.length ≤ 32

/-- A request to move cycles. -/
structure TransferReq where
  frm : Account
  to : Account
  spender : Option Account
  amount : Nat
  fee : Option Nat
  memo : Option Bytes
  createdAt : Option Nat

/-- The transaction a transfer request is recorded as. -/
def TransferReq.transaction (r : TransferReq) : Transaction :=
  ⟨.transfer r.frm r.to r.spender r.amount r.fee, r.createdAt, r.memo⟩

/-- Everything a transfer request has to satisfy, except for not being a duplicate. -/
structure TransferValid (s : State) (now : Nat) (r : TransferReq) : Prop where
  notManagement : r.frm.owner ≠ managementCanister ∧ r.to.owner ≠ managementCanister ∧
    ∀ sp, r.spender = some sp → sp.owner ≠ managementCanister
  fee : r.fee = none ∨ r.fee = some 100000000
  memo : MemoFits r.memo
  window : InWindow r.createdAt now
  funds : r.amount + 100000000 ≤ balanceOf s r.frm
  allowance : ∀ sp, OnBehalf r.frm r.spender sp →
    r.amount + 100000000 ≤ spendable s r.frm sp now

/-- A transfer to oneself is refused when balance plus amount do not fit 128 bits
(an artefact of checking the credit before the debit). -/
def SelfOverflow (s : State) (r : TransferReq) : Prop :=
  SameAccount r.to r.frm ∧ 2 ^ 128 ≤ balanceOf s r.frm + r.amount

/-- What an error answer to a transfer request says. -/
def TransferRefused (s : State) (now : Nat) (r : TransferReq) : TransferFromError → Prop
  | .badFee f => f = 100000000 ∧ r.fee ≠ none ∧ r.fee ≠ some 100000000
  | .badBurn _ => False
  | .insufficientFunds b => b = balanceOf s r.frm ∧ b < r.amount + 100000000
  | .insufficientAllowance a => ∃ sp, OnBehalf r.frm r.spender sp ∧
      a = spendable s r.frm sp now ∧ a < r.amount + 100000000
  | .tooOld => ∃ c, r.createdAt = some c ∧ c + 86400000000000 + 60000000000 < now
  | .createdInFuture t => t = now ∧ ∃ c, r.createdAt = some c ∧ now + 60000000000 < c
  | .duplicate _ => True
  | .temporarilyUnavailable => False
  | .genericError code =>
    (code = 100001 ∧ (r.frm.owner = managementCanister ∨ r.to.owner = managementCanister ∨
      ∃ sp, r.spender = some sp ∧ sp.owner = managementCanister)) ∨
    (code = 100003 ∧ ∃ sp x e, OnBehalf r.frm r.spender sp ∧ stored s r.frm sp = some (x, e) ∧
      0 < e ∧ e ≤ now) ∨
    (code = 100000 ∧ SelfOverflow s r)

/-- A request to approve. -/
structure ApproveReq where
  frm : Account
  spender : Account
  amount : Nat
  expectedAllowance : Option Nat
  expiresAt : Option Nat
  fee : Option Nat
  memo : Option Bytes
  createdAt : Option Nat

/-- The transaction an approve request is recorded as. -/
def ApproveReq.transaction (r : ApproveReq) : Transaction :=
  ⟨.approve r.frm r.spender (min r.amount (2 ^ 128 - 1)) r.expectedAllowance r.expiresAt r.fee,
    r.createdAt, r.memo⟩

/-- Everything an approve request has to satisfy, except for not being a duplicate. -/
structure ApproveValid (s : State) (now : Nat) (r : ApproveReq) : Prop where
  notSelf : r.frm.owner ≠ r.spender.owner
  notManagement : r.frm.owner ≠ managementCanister ∧ r.spender.owner ≠ managementCanister
  expected : ∀ x, r.expectedAllowance = some x → x = (icrc2Allowance s r.frm r.spender now).1
  fee : r.fee = none ∨ r.fee = some 100000000
  memo : MemoFits r.memo
  window : InWindow r.createdAt now
  funds : 100000000 ≤ balanceOf s r.frm
  notExpired : now < r.expiresAt.getD 18446744073709551615

/-- What an error answer to an approve request says. -/
def ApproveRefused (s : State) (now : Nat) (r : ApproveReq) : ApproveError → Prop
  | .badFee f => f = 100000000 ∧ r.fee ≠ none ∧ r.fee ≠ some 100000000
  | .insufficientFunds b => b = balanceOf s r.frm ∧ b < 100000000
  | .allowanceChanged x => x = (icrc2Allowance s r.frm r.spender now).1 ∧
      r.expectedAllowance ≠ none ∧ r.expectedAllowance ≠ some x
  | .expired t => t = now ∧ r.expiresAt.getD 18446744073709551615 ≤ now
  | .tooOld => ∃ c, r.createdAt = some c ∧ c + 86400000000000 + 60000000000 < now
  | .createdInFuture t => t = now ∧ ∃ c, r.createdAt = some c ∧ now + 60000000000 < c
  | .duplicate _ => True
  | .temporarilyUnavailable => False
  | .genericError code =>
    code = 100001 ∧ (r.frm.owner = managementCanister ∨ r.spender.owner = managementCanister)

/-- A request to burn: `withdraw(_from)` (with a receiver) or `create_canister(_from)`. -/
structure BurnReq where
  frm : Account
  spender : Option Account
  amount : Nat
  createdAt : Option Nat

/-- Everything both kinds of burn requests have to satisfy, except for not being a
duplicate. -/
structure BurnValid (s : State) (now : Nat) (r : BurnReq) : Prop where
  window : InWindow r.createdAt now
  funds : r.amount + 100000000 ≤ balanceOf s r.frm
  allowance : ∀ sp, OnBehalf r.frm r.spender sp →
    r.amount + 100000000 ≤ spendable s r.frm sp now

/-- A principal derived from a user's public key: 29 bytes ending in 2. -/
def IsUserPrincipal (p : Principal) : Prop := p.bytes.length = 29 ∧ p.bytes.getLast? = some 2

/-- What an error answer to a withdraw request says that was refused at once. -/
def WithdrawRefused (s : State) (now : Nat) (r : BurnReq) (to : Principal) :
    WithdrawFromError → Prop
  | .insufficientFunds b => b = balanceOf s r.frm ∧ b < r.amount + 100000000
  | .insufficientAllowance a => ∃ sp, OnBehalf r.frm r.spender sp ∧
      a = spendable s r.frm sp now ∧ a < r.amount + 100000000
  | .tooOld => ∃ c, r.createdAt = some c ∧ c + 86400000000000 + 60000000000 < now
  | .createdInFuture t => t = now ∧ ∃ c, r.createdAt = some c ∧ now + 60000000000 < c
  | .temporarilyUnavailable => False
  | .duplicate _ => True
  | .failedToWithdrawFrom _ _ _ _ => False
  | .genericError code => code = 100002 ∧ r.amount = 0
  | .invalidReceiver p => p = to ∧ IsUserPrincipal to

/-- What an error answer to a create-canister request says that was refused at once. -/
def CreateRefused (s : State) (now : Nat) (r : BurnReq) : CreateCanisterFromError → Prop
  | .insufficientFunds b => b = balanceOf s r.frm ∧ b < r.amount + 100000000
  | .insufficientAllowance a => ∃ sp, OnBehalf r.frm r.spender sp ∧
      a = spendable s r.frm sp now ∧ a < r.amount + 100000000
  | .tooOld => ∃ c, r.createdAt = some c ∧ c + 86400000000000 + 60000000000 < now
  | .createdInFuture t => t = now ∧ ∃ c, r.createdAt = some c ∧ now + 60000000000 < c
  | .temporarilyUnavailable => False
  | .duplicate _ _ => True
  | .failedToCreateFrom _ _ _ _ => False
  | .genericError _ => False

/-! ## Messages as requests -/

/-- The transfer a message asks for: `icrc1_transfer` moves the caller's own cycles,
`icrc2_transfer_from` somebody's on the caller's behalf. -/
def transferRequest : Msg → Option TransferReq
  | .transfer caller a => some ⟨⟨caller, a.fromSubaccount⟩, a.to, none, a.amount, a.fee, a.memo,
      a.createdAtTime.map UInt64.toNat⟩
  | .transferFrom caller a => some ⟨a.frm, a.to, some ⟨caller, a.spenderSubaccount⟩, a.amount,
      a.fee, a.memo, a.createdAtTime.map UInt64.toNat⟩
  | _ => none

/-- The approval a message asks for. -/
def approveRequest : Msg → Option ApproveReq
  | .approve caller a => some ⟨⟨caller, a.fromSubaccount⟩, a.spender, a.amount,
      a.expectedAllowance, a.expiresAt.map UInt64.toNat, a.fee, a.memo,
      a.createdAtTime.map UInt64.toNat⟩
  | _ => none

/-- The burn a message asks for, and where the cycles go: to the named canister
(`withdraw`, `withdraw_from`) or, `none`, to a new one (`create_canister(_from)`). -/
def burnRequest : Msg → Option (BurnReq × Option Principal)
  | .withdraw caller a _ => some (⟨⟨caller, a.fromSubaccount⟩, none, a.amount,
      a.createdAtTime.map UInt64.toNat⟩, some a.to)
  | .withdrawFrom caller a _ => some (⟨a.frm, some ⟨caller, a.spenderSubaccount⟩, a.amount,
      a.createdAtTime.map UInt64.toNat⟩, some a.to)
  | .createCanister caller a _ => some (⟨⟨caller, a.fromSubaccount⟩, none, a.amount,
      a.createdAtTime.map UInt64.toNat⟩, none)
  | .createCanisterFrom caller a _ => some (⟨a.frm, some ⟨caller, a.spenderSubaccount⟩, a.amount,
      a.createdAtTime.map UInt64.toNat⟩, none)
  | _ => none

/-- The endpoint of a burn request. -/
def kindOf : Msg → CallKind
  | .withdraw _ _ _ => .withdraw
  | .withdrawFrom _ _ _ => .withdrawFrom
  | .createCanister _ _ _ => .createCanister
  | _ => .createCanisterFrom

/-- How the outgoing call of a burn request fails before it is even sent, if it does. -/
def syncOf : Msg → Option CallError
  | .withdraw _ _ c | .withdrawFrom _ _ c | .createCanister _ _ c | .createCanisterFrom _ _ c => c
  | _ => none

/-- The memo a burn is recorded with: the receiver in CBOR (an array of one byte
string), or 32 times 254 for a canister creation. -/
def burnMemo : Option Principal → Bytes
  | some p =>
    if p.bytes.length < 24 then [0x81, UInt8.ofNat (0x40 + p.bytes.length)] ++ p.bytes
    else [0x81, 0x58, UInt8.ofNat p.bytes.length] ++ p.bytes
  | none => List.replicate 32 254

/-- The transaction a burn request is recorded as. -/
def BurnReq.transaction (r : BurnReq) (to : Option Principal) : Transaction :=
  ⟨.burn r.frm r.spender r.amount, r.createdAt, some (burnMemo to)⟩

/-- What a burn request has to satisfy besides `BurnValid`, depending on where the
cycles go. -/
def ReceiverValid (r : BurnReq) : Option Principal → Prop
  | some p => ¬IsUserPrincipal p ∧ 0 < r.amount
  | none => True

/-- Who sent the message; callbacks and upgrades have no sender that matters. -/
def sender : Msg → Option Principal
  | .deposit c _ _ | .transfer c _ | .transferFrom c _ | .approve c _ | .withdraw c _ _
  | .withdrawFrom c _ _ | .createCanister c _ _ | .createCanisterFrom c _ _ => some c
  | .callback _ _ | .lostCallback _ | .upgrade _ => none

/-- The message is a call of an update endpoint. -/
def IsRequest (m : Msg) : Prop := sender m ≠ none

/-- The account a message spends from, the spender if it is somebody else's account,
and the amount: for transfers and burns. -/
def spendRequest (m : Msg) : Option (Account × Option Account × Nat) :=
  match transferRequest m with
  | some r => some (r.frm, r.spender, r.amount)
  | none => (burnRequest m).map (fun r => (r.1.frm, r.1.spender, r.1.amount))

/-- The `created_at_time` of a message. -/
def createdAt : Msg → Option Nat
  | .transfer _ a => a.createdAtTime.map UInt64.toNat
  | .transferFrom _ a => a.createdAtTime.map UInt64.toNat
  | .approve _ a => a.createdAtTime.map UInt64.toNat
  | .withdraw _ a _ => a.createdAtTime.map UInt64.toNat
  | .withdrawFrom _ a _ => a.createdAtTime.map UInt64.toNat
  | .createCanister _ a _ => a.createdAtTime.map UInt64.toNat
  | .createCanisterFrom _ a _ => a.createdAtTime.map UInt64.toNat
  | _ => none

/-! ## Replies -/


/-- The block index of a positive answer. -/
def okIndex : Reply → Option Nat
  | .deposit i _ => some i
  | .transfer (.ok i) | .transferFrom (.ok i) | .approve (.ok i) | .withdraw (.ok i)
  | .withdrawFrom (.ok i) => some i
  | .createCanister (.ok (i, _)) | .createCanisterFrom (.ok (i, _)) => some i
  | _ => none

/-- The request was carried out, or at least started. -/
def Accepted (r : Reply) : Prop := r = .suspended ∨ ∃ i, okIndex r = some i

/-- An `icrc1_transfer` error written as an `icrc2_transfer_from` error. -/
def widenTransfer : TransferError → TransferFromError
  | .badFee f => .badFee f
  | .badBurn m => .badBurn m
  | .insufficientFunds b => .insufficientFunds b
  | .tooOld => .tooOld
  | .createdInFuture t => .createdInFuture t
  | .temporarilyUnavailable => .temporarilyUnavailable
  | .duplicate d => .duplicate d
  | .genericError c => .genericError c

/-- The error of a transfer answer. -/
def transferError : Reply → Option TransferFromError
  | .transfer (.error e) => some (widenTransfer e)
  | .transferFrom (.error e) => some e
  | _ => none

/-- The error of an approve answer. -/
def approveError : Reply → Option ApproveError
  | .approve (.error e) => some e
  | _ => none

/-- Why a burn was not even started. -/
inductive BurnError where
  | insufficientFunds (balance : Nat)
  | insufficientAllowance (allowance : Nat)
  | tooOld
  | createdInFuture (ledgerTime : Nat)
  | duplicate (duplicateOf : Nat) (canister : Option (Option Principal))
  | zeroAmount
  | invalidReceiver (receiver : Principal)
  deriving DecidableEq

/-- The error of a withdraw or create-canister answer, if the burn was not started.
`create_canister` additionally reports the canister made by the duplicate. -/
def burnError : Reply → Option BurnError
  | .withdraw (.error e) =>
    match e with
    | .insufficientFunds b => some (.insufficientFunds b)
    | .tooOld => some .tooOld
    | .createdInFuture t => some (.createdInFuture t)
    | .duplicate d => some (.duplicate d none)
    | .genericError c => if c = 100002 then some .zeroAmount else none
    | .invalidReceiver p => some (.invalidReceiver p)
    | _ => none
  | .withdrawFrom (.error e) =>
    match e with
    | .insufficientFunds b => some (.insufficientFunds b)
    | .insufficientAllowance a => some (.insufficientAllowance a)
    | .tooOld => some .tooOld
    | .createdInFuture t => some (.createdInFuture t)
    | .duplicate d => some (.duplicate d none)
    | .genericError c => if c = 100002 then some .zeroAmount else none
    | .invalidReceiver p => some (.invalidReceiver p)
    | _ => none
  | .createCanister (.error e) =>
    match e with
    | .insufficientFunds b => some (.insufficientFunds b)
    | .tooOld => some .tooOld
    | .createdInFuture t => some (.createdInFuture t)
    | .duplicate d c => some (.duplicate d (some c))
    | _ => none
  | .createCanisterFrom (.error e) =>
    match e with
    | .insufficientFunds b => some (.insufficientFunds b)
    | .insufficientAllowance a => some (.insufficientAllowance a)
    | .tooOld => some .tooOld
    | .createdInFuture t => some (.createdInFuture t)
    | .duplicate d c => some (.duplicate d (some c))
    | _ => none
  | _ => none

/-- What a `BurnError` says. -/
def BurnRefused (s : State) (now : Nat) (r : BurnReq) (to : Option Principal) : BurnError → Prop
  | .insufficientFunds b => b = balanceOf s r.frm ∧ b < r.amount + 100000000
  | .insufficientAllowance a => ∃ sp, OnBehalf r.frm r.spender sp ∧
      a = spendable s r.frm sp now ∧ a < r.amount + 100000000
  | .tooOld => ∃ c, r.createdAt = some c ∧ c + 86400000000000 + 60000000000 < now
  | .createdInFuture t => t = now ∧ ∃ c, r.createdAt = some c ∧ now + 60000000000 < c
  | .duplicate _ _ => True
  | .zeroAmount => r.amount = 0 ∧ to ≠ none
  | .invalidReceiver p => to = some p ∧ IsUserPrincipal p

/-- The block indices reported by a negative answer of an endpoint that had started:
the burn block, the refund block, the allowance refund block.  `withdraw` only reports
the refund block, `create_canister` all but the (impossible) allowance refund. -/
def failedBlocks : Reply → Option (Option Nat × Option Nat × Option Nat)
  | .withdraw (.error (.failedToWithdraw fb _)) => some (none, fb, none)
  | .withdrawFrom (.error (.failedToWithdrawFrom wb fb ab _)) => some (wb, fb, ab)
  | .createCanister (.error (.failedToCreate cb fb)) => some (cb, fb, none)
  | .createCanisterFrom (.error (.failedToCreateFrom cb fb ab _)) => some (cb, fb, ab)
  | _ => none

/-- The answer is `TooOld`. -/
def SaysTooOld (r : Reply) : Prop :=
  transferError r = some .tooOld ∨ approveError r = some .tooOld ∨ burnError r = some .tooOld

/-- The answer is `CreatedInFuture` with ledger time `t`. -/
def SaysInFuture (r : Reply) (t : Nat) : Prop :=
  transferError r = some (.createdInFuture t) ∨ approveError r = some (.createdInFuture t) ∨
  burnError r = some (.createdInFuture t)

/-- The answer is `Duplicate` of block `d`. -/
def SaysDuplicate (r : Reply) (d : Nat) : Prop :=
  transferError r = some (.duplicate d) ∨ approveError r = some (.duplicate d) ∨
  ∃ c, burnError r = some (.duplicate d c)

/-- The transaction a request is recorded as. -/
def requestTransaction (m : Msg) : Option Transaction :=
  match m with
  | .deposit _ cycles a => some ⟨.mint a.to (cycles.val - 100000000) 100000000, none, a.memo⟩
  | _ =>
    match transferRequest m, approveRequest m, burnRequest m with
    | some r, _, _ => some r.transaction
    | _, some r, _ => some r.transaction
    | _, _, some (r, to) => some (r.transaction to)
    | _, _, _ => none

/-! ## Outstanding calls and their answers -/

/-- How an outstanding call ended: `none` if it succeeded, else the cycles that came
back.  A rejected call returns everything, a CMC error what it says it refunded. -/
def returned (p : Pending) : Answer → Option Nat
  | .depositCycles r => if r.isSome then some p.data.amount else none
  | .cmc (.created _) _ => none
  | .cmc (.refunded amt) _ => some amt
  | .cmc .refundFailed _ => some 0
  | .cmc (.callError _) _ => some p.data.amount

/-- The answer is of the kind the call expects. -/
def Fits (p : Pending) : Answer → Prop
  | .depositCycles _ => p.kind = .withdraw ∨ p.kind = .withdrawFrom
  | .cmc _ _ => p.kind = .createCanister ∨ p.kind = .createCanisterFrom

/-- The memo of a refund: 32 times 255 for a withdrawal, 32 times 253 for a canister
creation. -/
def refundMemo : CallKind → Bytes
  | .withdraw | .withdrawFrom => List.replicate 32 255
  | .createCanister | .createCanisterFrom => List.replicate 32 253

/-- The refund of `back` returned cycles. -/
def refundTransaction (kind : CallKind) (p : Suspended) (back : Nat) : Transaction :=
  ⟨.mint p.frm (back - 100000000) 0, none, some (refundMemo kind)⟩

/-- The allowance refund that goes with it: what `sp` could still spend, plus the
refund less one more fee; a running expiry is kept, otherwise the one of the original
approval is used. -/
def allowanceRefund (s : State) (now : Nat) (p : Suspended) (sp : Account) (back : Nat) :
    Transaction :=
  ⟨.approve p.frm sp (min (back - 200000000 + spendable s p.frm sp now) (2 ^ 128 - 1)) none
    (match stored s p.frm sp with
      | some (_, e) => if now < e then some e else p.oldExpiresAt
      | none => p.oldExpiresAt)
    none, none, some (List.replicate 32 255)⟩

/-- The allowance is to be refunded to `sp` as well: it was used, the refund is more than
one fee, and the original approval has not expired. -/
def RefundsAllowance (now : Nat) (p : Suspended) (back : Nat) (sp : Account) : Prop :=
  OnBehalf p.frm p.spender sp ∧ 200000000 < back ∧ ∀ e, p.oldExpiresAt = some e → now < e

/-! ## Collisions -/

/-- Two different transactions among `ts` have the same hash. -/
def Collision [Crypto] (ts : List Transaction) : Prop :=
  ∃ a ∈ ts, ∃ b ∈ ts, a ≠ b ∧ a.hash = b.hash

/-- No two different transactions, among those in the log and `t`, have the same hash. -/
def NoClash [Crypto] (s : State) (t : Transaction) : Prop :=
  ¬Collision (t :: s.blocks.map Block.transaction)

instance [Crypto] (ts : List Transaction) : Decidable (Collision ts) := by
  unfold Collision; infer_instance

instance [Crypto] (s : State) (t : Transaction) : Decidable (NoClash s t) := by
  unfold NoClash; infer_instance

end CyclesLedger.Spec
