import Verif.Model.Oracle
/-!
# The generator of the calls that the tests make (tests/gen.rs:157-176, 327-683)

`arb_cycles_ledger_call_state` draws calls one after the other and executes each on the reference
ledger (`Model/Oracle`).  What is drawn is random: `Draws` says which values are possible.  The
probabilities and the shrinking of proptest are left out.  Where the maps are iterated
(`accounts_with_at_least_fee`, `allowances`), the account is any whose key is in the map, although
the map holds one of the two ways to write the default subaccount.  The tests are built with
overflow checks: an overflow is a panic.
-/
namespace CyclesLedger

/-- `Principal::anonymous()`. -/
def anonymousPrincipal : Principal := ⟨[4], by decide⟩

/-- `CyclesLedgerCallsState` (tests/gen.rs:329-333), without the list of the calls. -/
structure GenState where
  oracle : Oracle
  /-- `depositor_cycles` (tests/gen.rs:162). -/
  depositorCycles : Nat

namespace GenState

/-- `CyclesLedgerCallsState::new` (tests/gen.rs:336-341). -/
def new (depositorCycles : Nat) : GenState := ⟨Oracle.empty, depositorCycles⟩

/-- `execute` (tests/gen.rs:178-324, 363-369): the reference ledger, and the cycles that are left
to the depositor (210-220). -/
def execute (g : GenState) (m : Msg) : Option GenState := do
  let o ← g.oracle.execute m
  match m with
  | .deposit _ cycles _ =>
    some ⟨o, g.depositorCycles - min U128MAX (10000000000000 + (cycles.val - FEE))⟩
  | _ => some ⟨o, g.depositorCycles⟩

/-- `token_pool` (tests/gen.rs:173-175, 345-346). -/
def tokenPool (g : GenState) : Nat := U128MAX - g.oracle.totalSupply

/-- `accounts_with_at_least_fee` (tests/gen.rs:348-360): account `a` with balance `b` is listed. -/
def Funded (g : GenState) (a : Account) (b : Nat) : Prop :=
  g.oracle.balances a.key = some b ∧ FEE ≤ b

end GenState

/-- `arb_allowed_principal` (tests/gen.rs:371-384). -/
def Arb.principal (p : Principal) : Prop := p ≠ managementCanister ∧ p ≠ anonymousPrincipal

/-- `option::of(arb_memo())` (tests/gen.rs:395-397): `0..32` excludes 32. -/
def Arb.memo (memo : Option Bytes) : Prop := ∀ m, memo = some m → m.length < 32

/-- `option::of(Just(FEE.into()))`. -/
def Arb.fee (fee : Option Nat) : Prop := fee = none ∨ fee = some FEE

/-- `arb_created_at_time` (tests/gen.rs:578-582). -/
def Arb.createdAt (now : UInt64) (c : Option UInt64) : Prop :=
  c = none ∨ c = some (UInt64.ofNat (now.toNat - 10000000000))

/-- The expiry of the approvals (tests/gen.rs:619-621). -/
def Arb.expiry (now : UInt64) : Nat := min U64MAX (now.toNat + 3600000000000)

/-- `option::of(Just(..))` (tests/gen.rs:619-621). -/
def Arb.expiresAt (now : UInt64) (e : Option UInt64) : Prop :=
  e = none ∨ e = some (UInt64.ofNat (Arb.expiry now))

/-- What `step` can draw when there are calls left to make (tests/gen.rs:594-679): a call, or
`none`: a panic. -/
inductive Draws (g : GenState) (depositor : Principal) (now : UInt64) : Option Msg → Prop
  /-- `arb_deposit` (449-462) -/
  | deposit (cycles : Fin (U128MAX + 1)) (arg : DepositArg) : 0 < g.depositorCycles →
      FEE ≤ g.depositorCycles → FEE ≤ cycles.val → cycles.val ≤ g.depositorCycles →
      Arb.principal arg.to.owner → Arb.memo arg.memo →
      Draws g depositor now (some (.deposit depositor cycles arg))
  /-- `depositor_cycles - FEE` (453) -/
  | depositPanic : 0 < g.depositorCycles → g.depositorCycles < FEE → Draws g depositor now none
  /-- `arb_approve` (399-447) -/
  | approve (a : Account) (b : Nat) (args : ApproveArgs) : g.Funded a b →
      args.fromSubaccount = a.subaccount → Arb.principal args.spender.owner →
      a.owner ≠ args.spender.owner → args.amount ≤ g.tokenPool →
      (args.expectedAllowance = none ∨
        args.expectedAllowance = some ((g.oracle.allowances (a.key, args.spender.key)).getD 0)) →
      Arb.expiresAt now args.expiresAt → Arb.fee args.fee → Arb.memo args.memo →
      Arb.createdAt now args.createdAtTime → Draws g depositor now (some (.approve a.owner args))
  /-- `arb_withdraw` (464-492) -/
  | withdraw (a : Account) (b : Nat) (args : WithdrawArgs) : g.Funded a b →
      args.fromSubaccount = a.subaccount → args.to = depositor → args.amount ≤ b - FEE →
      Arb.createdAt now args.createdAtTime →
      Draws g depositor now (some (.withdraw a.owner args none))
  /-- `arb_transfer` (494-524) -/
  | transfer (a : Account) (b : Nat) (args : TransferArgs) : g.Funded a b →
      args.fromSubaccount = a.subaccount → Arb.principal args.to.owner → a.key ≠ args.to.key →
      args.amount ≤ b - FEE → Arb.fee args.fee → Arb.memo args.memo →
      Arb.createdAt now args.createdAtTime → Draws g depositor now (some (.transfer a.owner args))
  /-- `arb_transfer_from` (526-557), with the smaller of allowance and balance (646-654) -/
  | transferFrom (a sp : Account) (b x : Nat) (args : TransferFromArgs) : g.Funded a b →
      g.oracle.allowances (a.key, sp.key) = some x → FEE ≤ min x b →
      args.frm = a → args.spenderSubaccount = sp.subaccount → Arb.principal args.to.owner →
      a.key ≠ args.to.key → args.amount ≤ min x b - FEE → Arb.fee args.fee → Arb.memo args.memo →
      Arb.createdAt now args.createdAtTime →
      Draws g depositor now (some (.transferFrom sp.owner args))
  /-- `from_balance-FEE` (540) -/
  | transferFromPanic (a sp : Account) (b x : Nat) : g.Funded a b →
      g.oracle.allowances (a.key, sp.key) = some x → min x b < FEE → Draws g depositor now none
  /-- "BUG: no valid call can be performed on the current state" (664-666) -/
  | stuck : g.depositorCycles = 0 → (∀ a b, ¬g.Funded a b) → Draws g depositor now none

/-- The states that `arb_cycles_ledger_call_state` reaches by `n` draws (559-576, 588-683). -/
inductive Generated (depositor : Principal) (cycles : Nat) (now : UInt64) : Nat → GenState → Prop
  | new : Generated depositor cycles now 0 (GenState.new cycles)
  | call {n : Nat} {g g' : GenState} {m : Msg} : Generated depositor cycles now n g →
      Draws g depositor now (some m) → g.execute m = some g' →
      Generated depositor cycles now (n + 1) g'

end CyclesLedger
