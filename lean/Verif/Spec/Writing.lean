import Verif.Spec.Request
/-!
# Specification: requests that name the same accounts

Candid lets a client write the default subaccount explicitly or leave it out.
-/
namespace CyclesLedger.Spec

/-- Two ways of writing the same subaccount. -/
def SameSub (a b : Option Subaccount) : Prop := a.getD zeroSub = b.getD zeroSub

/-- Two messages that differ at most in whether default subaccounts are written out. -/
inductive SameMsg : Msg → Msg → Prop
  | same (m : Msg) : SameMsg m m
  | deposit {to to' : Account} (caller : Principal) (cycles : Fin (U128MAX + 1))
      (memo : Option Bytes) : SameAccount to to' →
      SameMsg (.deposit caller cycles ⟨to, memo⟩) (.deposit caller cycles ⟨to', memo⟩)
  | transfer {sub sub' : Option Subaccount} {to to' : Account} (caller : Principal) (amount : Nat)
      (fee : Option Nat) (memo : Option Bytes) (createdAt : Option UInt64) :
      SameSub sub sub' → SameAccount to to' →
      SameMsg (.transfer caller ⟨sub, to, amount, fee, memo, createdAt⟩)
        (.transfer caller ⟨sub', to', amount, fee, memo, createdAt⟩)
  | transferFrom {sub sub' : Option Subaccount} {frm frm' to to' : Account} (caller : Principal)
      (amount : Nat) (fee : Option Nat) (memo : Option Bytes) (createdAt : Option UInt64) :
      SameSub sub sub' → SameAccount frm frm' → SameAccount to to' →
      SameMsg (.transferFrom caller ⟨sub, frm, to, amount, fee, memo, createdAt⟩)
        (.transferFrom caller ⟨sub', frm', to', amount, fee, memo, createdAt⟩)
  | approve {sub sub' : Option Subaccount} {sp sp' : Account} (caller : Principal) (amount : Nat)
      (expected : Option Nat) (expiresAt : Option UInt64) (fee : Option Nat)
      (memo : Option Bytes) (createdAt : Option UInt64) :
      SameSub sub sub' → SameAccount sp sp' →
      SameMsg (.approve caller ⟨sub, sp, amount, expected, expiresAt, fee, memo, createdAt⟩)
        (.approve caller ⟨sub', sp', amount, expected, expiresAt, fee, memo, createdAt⟩)
  | withdraw {sub sub' : Option Subaccount} (caller : Principal) (to : Principal)
      (createdAt : Option UInt64) (amount : Nat) (sync : Option CallError) :
      SameSub sub sub' →
      SameMsg (.withdraw caller ⟨sub, to, createdAt, amount⟩ sync)
        (.withdraw caller ⟨sub', to, createdAt, amount⟩ sync)
  | withdrawFrom {sub sub' : Option Subaccount} {frm frm' : Account} (caller : Principal)
      (to : Principal) (createdAt : Option UInt64) (amount : Nat) (sync : Option CallError) :
      SameSub sub sub' → SameAccount frm frm' →
      SameMsg (.withdrawFrom caller ⟨sub, frm, to, createdAt, amount⟩ sync)
        (.withdrawFrom caller ⟨sub', frm', to, createdAt, amount⟩ sync)
  | createCanister {sub sub' : Option Subaccount} (caller : Principal)
      (createdAt : Option UInt64) (amount : Nat) (args : Option CmcArgs)
      (sync : Option CallError) : SameSub sub sub' →
      SameMsg (.createCanister caller ⟨sub, createdAt, amount, args⟩ sync)
        (.createCanister caller ⟨sub', createdAt, amount, args⟩ sync)
  | createCanisterFrom {sub sub' : Option Subaccount} {frm frm' : Account} (caller : Principal)
      (createdAt : Option UInt64) (amount : Nat) (args : Option CmcArgs)
      (sync : Option CallError) : SameSub sub sub' → SameAccount frm frm' →
      SameMsg (.createCanisterFrom caller ⟨frm, sub, createdAt, amount, args⟩ sync)
        (.createCanisterFrom caller ⟨frm', sub', createdAt, amount, args⟩ sync)

/-- Two events at the same time whose messages differ at most in that. -/
def SameEvent (e e' : Event) : Prop := e.dt = e'.dt ∧ SameMsg e.msg e'.msg

/-- Two histories that differ at most in that. -/
def SameHistory : List Event → List Event → Prop
  | [], [] => True
  | e :: es, e' :: es' => SameEvent e e' ∧ SameHistory es es'
  | _, _ => False

/-- The answer is `Duplicate`. -/
def AnswersDuplicate (r : Reply) : Prop := ∃ d, SaysDuplicate r d

/-- A message that may have to refund an allowance. -/
def RefundsFrom : Msg → Prop
  | .callback _ _ => True
  | .withdrawFrom _ _ (some _) => True
  | .createCanisterFrom _ _ (some _) => True
  | _ => False

/-- In every step the two histories agree on whether the request is a duplicate, and, if it may
have to refund an allowance, on whether the message traps. -/
def AgreeOnDuplicates [Crypto] (y y' : Sys) : List Event → List Event → Prop
  | e :: es, e' :: es' =>
    (AnswersDuplicate (y.step e).2 ↔ AnswersDuplicate (y'.step e').2) ∧
    (RefundsFrom e.msg → ((y.step e).2 = .trapped ↔ (y'.step e').2 = .trapped)) ∧
    AgreeOnDuplicates (y.step e).1 (y'.step e').1 es es'
  | _, _ => True

/-- The answers given in the course of a history. -/
def replies [Crypto] (y : Sys) : List Event → List Reply
  | [] => []
  | e :: es => (y.step e).2 :: replies (y.step e).1 es

/-- The message carries no `created_at_time`. -/
def Unstamped : Msg → Prop
  | .transfer _ a => a.createdAtTime = none
  | .transferFrom _ a => a.createdAtTime = none
  | .approve _ a => a.createdAtTime = none
  | .withdraw _ a _ => a.createdAtTime = none
  | .withdrawFrom _ a _ => a.createdAtTime = none
  | .createCanister _ a _ => a.createdAtTime = none
  | .createCanisterFrom _ a _ => a.createdAtTime = none
  | _ => True

/-- Answers of two histories: the same, or both `Duplicate`. -/
def SameAnswers : List Reply → List Reply → Prop
  | [], [] => True
  | r :: rs, r' :: rs' => (r = r' ∨ (AnswersDuplicate r ∧ AnswersDuplicate r')) ∧ SameAnswers rs rs'
  | _, _ => False

/-- Nobody can tell the two ledgers apart by asking for balances, allowances, the supply or the
length of the log, however the accounts are written. -/
structure SameLedger (s s' : State) : Prop where
  balance : ∀ a a', SameAccount a a' → icrc1BalanceOf s a = icrc1BalanceOf s' a'
  allowance : ∀ a a' b b' now, SameAccount a a' → SameAccount b b' →
    icrc2Allowance s a b now = icrc2Allowance s' a' b' now
  supply : icrc1TotalSupply s = icrc1TotalSupply s'
  length : s.blocks.length = s'.blocks.length

end CyclesLedger.Spec
