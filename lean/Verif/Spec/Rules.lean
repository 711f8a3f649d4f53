import Verif.Spec.Request
/-!
# Specification: in which order requests are judged

Every endpoint is a list of rules.  The first rule that applies gives the answer; if none does the
request is carried out.
-/
namespace CyclesLedger.Spec

/-- A rule: which answers it gives.  A rule that gives no answer does not apply. -/
abbrev Rule (α : Type) := α → Prop

/-- The rule "if `p`, answer `a`". -/
def onlyIf {α : Type} (p : Prop) (a : α) : Rule α := fun x => p ∧ x = a

/-- The answer of the first rule that applies; `none` if none does. -/
inductive FirstOf {α : Type} : List (Rule α) → Option α → Prop
  | done : FirstOf [] none
  | hit {r rs a} : r a → FirstOf (r :: rs) (some a)
  | miss {r rs o} : (∀ a, ¬r a) → FirstOf rs o → FirstOf (r :: rs) o

/-- A refusal: an error, or a trap. -/
inductive Verdict (ε : Type) where
  | refuse (e : ε)
  | trap
  deriving DecidableEq

/-- How a transfer was answered; `none` if it was carried out. -/
def transferVerdict (r : Reply) : Option (Verdict TransferFromError) :=
  if r = .trapped then some .trap else (transferError r).map .refuse

/-- How an approval was answered; `none` if it was granted. -/
def approveVerdict (r : Reply) : Option (Verdict ApproveError) :=
  if r = .trapped then some .trap else (approveError r).map .refuse

/-- More than 24 h and 60 s old. -/
def TooOld (createdAt : Option Nat) (now : Nat) : Prop :=
  ∃ c, createdAt = some c ∧ c + 86400000000000 + 60000000000 < now

/-- More than 60 s ahead. -/
def InFuture (createdAt : Option Nat) (now : Nat) : Prop :=
  ∃ c, createdAt = some c ∧ now + 60000000000 < c

/-- `dup` is what the ledger may remember of earlier executions of `t`: a block that records `t`, and
not nothing if there is one and `t` is not out of date. -/
structure Remembers (s : State) (now : Nat) (t : Transaction) (dup : Option Nat) : Prop where
  recorded : ∀ d, dup = some d →
    t.createdAtTime ≠ none ∧ ∃ b, s.blocks[d]? = some b ∧ b.transaction = t
  complete : dup = none → ¬TooOld t.createdAtTime now → t.createdAtTime ≠ none →
    ∀ b ∈ s.blocks, b.transaction ≠ t

/-- The rules for transfers; `dup` is the block that the ledger remembers for the same request. -/
def transferRules (s : State) (now : Nat) (dup : Option Nat) (r : TransferReq) :
    List (Rule (Verdict TransferFromError)) :=
  [ onlyIf (2 ^ 128 ≤ r.amount) (.refuse (.insufficientFunds (balanceOf s r.frm))),
    onlyIf (∃ f, r.fee = some f ∧ 2 ^ 128 ≤ f) (.refuse (.badFee 100000000)),
    fun v => ∃ d, dup = some d ∧ v = .refuse (.duplicate d),
    onlyIf (r.frm.owner = managementCanister ∨ r.to.owner = managementCanister ∨
      ∃ sp, r.spender = some sp ∧ sp.owner = managementCanister) (.refuse (.genericError 100001)),
    onlyIf (r.fee ≠ none ∧ r.fee ≠ some 100000000) (.refuse (.badFee 100000000)),
    onlyIf (2 ^ 128 ≤ r.amount + 100000000) (.refuse (.insufficientFunds (balanceOf s r.frm))),
    onlyIf (∃ sp a e, OnBehalf r.frm r.spender sp ∧ stored s r.frm sp = some (a, e) ∧ 0 < e ∧ e ≤ now)
      (.refuse (.genericError 100003)),
    fun v => ∃ sp, OnBehalf r.frm r.spender sp ∧ spendable s r.frm sp now < r.amount + 100000000 ∧
      v = .refuse (.insufficientAllowance (spendable s r.frm sp now)),
    onlyIf (balanceOf s r.frm < r.amount + 100000000)
      (.refuse (.insufficientFunds (balanceOf s r.frm))),
    onlyIf (SelfOverflow s r) (.refuse (.genericError 100000)),
    onlyIf (¬MemoFits r.memo) .trap,
    onlyIf (TooOld r.createdAt now) (.refuse .tooOld),
    onlyIf (InFuture r.createdAt now) (.refuse (.createdInFuture now)) ]

/-- The rules for approvals. -/
def approveRules (s : State) (now : Nat) (dup : Option Nat) (r : ApproveReq) :
    List (Rule (Verdict ApproveError)) :=
  [ onlyIf (∃ x, r.expectedAllowance = some x ∧ 2 ^ 128 ≤ x)
      (.refuse (.allowanceChanged (icrc2Allowance s r.frm r.spender now).1)),
    onlyIf (∃ f, r.fee = some f ∧ 2 ^ 128 ≤ f) (.refuse (.badFee 100000000)),
    fun v => ∃ d, dup = some d ∧ v = .refuse (.duplicate d),
    onlyIf (r.frm.owner = r.spender.owner) .trap,
    onlyIf (r.frm.owner = managementCanister ∨ r.spender.owner = managementCanister)
      (.refuse (.genericError 100001)),
    onlyIf (∃ x, r.expectedAllowance = some x ∧ x ≠ (icrc2Allowance s r.frm r.spender now).1)
      (.refuse (.allowanceChanged (icrc2Allowance s r.frm r.spender now).1)),
    onlyIf (r.fee ≠ none ∧ r.fee ≠ some 100000000) (.refuse (.badFee 100000000)),
    onlyIf (balanceOf s r.frm < 100000000) (.refuse (.insufficientFunds (balanceOf s r.frm))),
    onlyIf (r.expiresAt.getD 18446744073709551615 ≤ now) (.refuse (.expired now)),
    onlyIf (¬MemoFits r.memo) .trap,
    onlyIf (TooOld r.createdAt now) (.refuse .tooOld),
    onlyIf (InFuture r.createdAt now) (.refuse (.createdInFuture now)) ]

/-- The rules for withdrawals (`to` is the receiver) and canister creations (`to` is `none`). -/
def burnRules (s : State) (now : Nat) (dup : Option Nat) (r : BurnReq) (to : Option Principal) :
    List (Rule BurnError) :=
  [ onlyIf (2 ^ 128 ≤ r.amount) (.insufficientFunds (balanceOf s r.frm)),
    fun v => ∃ p, to = some p ∧ IsUserPrincipal p ∧ v = .invalidReceiver p,
    onlyIf (to ≠ none ∧ r.amount = 0) .zeroAmount,
    fun v => ∃ d c, dup = some d ∧ v = .duplicate d c ∧ (c = none ↔ to ≠ none),
    onlyIf (2 ^ 128 ≤ r.amount + 100000000) (.insufficientFunds (balanceOf s r.frm)),
    fun v => ∃ sp, OnBehalf r.frm r.spender sp ∧ spendable s r.frm sp now < r.amount + 100000000 ∧
      v = .insufficientAllowance (spendable s r.frm sp now),
    onlyIf (balanceOf s r.frm < r.amount + 100000000) (.insufficientFunds (balanceOf s r.frm)),
    onlyIf (TooOld r.createdAt now) .tooOld,
    onlyIf (InFuture r.createdAt now) (.createdInFuture now) ]

end CyclesLedger.Spec
