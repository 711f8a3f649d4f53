import Verif.Spec.CandidCalls
/-!
# What a message mentions, continued

As `mTransfer` and its like in `Spec/Candid`: the value is there, in the argument, under its names.
-/
namespace CyclesLedger.Spec.Candid
open CyclesLedger.Candid (Ty Fields Val Vals LedgerArgs)

/-- A vector of these elements. -/
def mVec {A : Type} (w : Way A) : Way (List A) := fun as t v =>
  ∃ u xs, t = .vec u ∧ v = .vec (Vals.ofList xs) ∧ Each w u as xs

/-- The case `name`, whatever its content. -/
def mCase (name : String) (t : Ty) (v : Val) : Prop := ∃ u x, IsCase name u x t v

/-- The case `name` with content `a`. -/
def mCaseOf {A : Type} (name : String) (w : Way A) : Way A := fun a t v =>
  ∃ u x, IsCase name u x t v ∧ w a u x

/-! ## Queries -/

def mAllowance : Way (Account × Account) := fun a t v => ∃ s, Record s t v ∧
  Has mAccount s "account" a.1 ∧ Has mAccount s "spender" a.2

def mRange : Way GetBlocksArg := fun a t v => ∃ s, Record s t v ∧
  Has wNat s "start" a.start ∧ Has wNat s "length" a.length

def mGetAllowances : Way (Option Account × Option Account × Option Nat) := fun a t v =>
  ∃ s, Record s t v ∧ Says mAccount s "from_account" a.1 ∧
    Says mAccount s "prev_spender" a.2.1 ∧ Says wNat s "take" a.2.2

/-! ## Installation and upgrades -/

def mBalance : Way (Account × Nat) := fun a t v => ∃ s, Record s t v ∧
  HasAt mAccount s 0 a.1 ∧ HasAt wNat s 1 a.2

def mConfig : Way Config := fun c t v => ∃ s, Record s t v ∧
  (∃ n : UInt64, n.toNat = c.maxBlocksPerRequest ∧ Has wU64 s "max_blocks_per_request" n) ∧
  Says wPrincipal s "index_id" c.indexId ∧ Says (mVec mBalance) s "initial_balances" c.initialBalances

def mChange : Way ChangeIndexId := fun c t v =>
  match c with
  | .unset => mCase "Unset" t v
  | .setTo p => mCaseOf "SetTo" wPrincipal p t v

def mUpgrade : Way UpgradeArgs := fun a t v => ∃ s, Record s t v ∧
  Says wU64 s "max_blocks_per_request" a.maxBlocksPerRequest ∧
  Says mChange s "change_index_id" a.changeIndexId

def mLedger : Way LedgerArgs := fun a t v =>
  match a with
  | .init c => mCaseOf "Init" mConfig c t v
  | .upgrade none => mCase "Upgrade" t v
  | .upgrade (some u) => mCaseOf "Upgrade" (wOpt mUpgrade) (some u) t v

/-! ## The settings of a canister to be created -/

def mLogVisibility : Way LogVisibility := fun a t v =>
  match a with
  | .controllers => mCase "controllers" t v
  | .pub => mCase "public" t v
  | .allowedViewers l => mCaseOf "allowed_viewers" (mVec wPrincipal) l t v

def mVariable : Way (Bytes × Bytes) := fun a t v => ∃ s, Record s t v ∧
  Has wText s "name" a.1 ∧ Has wText s "value" a.2

def mSettings : Way CanisterSettings := fun a t v => ∃ s, Record s t v ∧
  Says (mVec wPrincipal) s "controllers" a.controllers ∧
  Says wNat s "compute_allocation" a.computeAllocation ∧
  Says wNat s "memory_allocation" a.memoryAllocation ∧
  Says wNat s "freezing_threshold" a.freezingThreshold ∧
  Says wNat s "reserved_cycles_limit" a.reservedCyclesLimit ∧
  Says wNat s "wasm_memory_limit" a.wasmMemoryLimit ∧
  Says wNat s "wasm_memory_threshold" a.wasmMemoryThreshold ∧
  Says mLogVisibility s "log_visibility" a.logVisibility ∧
  Says (mVec mVariable) s "environment_variables" a.environmentVariables

def mFilter : Way (Option Bytes) := fun o t v => ∃ s, Record s t v ∧ Says wText s "subnet_type" o

def mSelection : Way SubnetSelection := fun a t v =>
  match a with
  | .filter o => mCaseOf "Filter" mFilter o t v
  | .subnet p => mCaseOf "Subnet" wSubnet p t v

def mCmcArgs : Way CmcArgs := fun a t v => ∃ s, Record s t v ∧
  Says mSettings s "settings" a.settings ∧ Says mSelection s "subnet_selection" a.subnetSelection

/-- The arguments for the CMC of either endpoint that creates canisters. -/
def mCreation : Way (Option CmcArgs) := fun o t v => ∃ s, Record s t v ∧
  Says mCmcArgs s "creation_args" o

end CyclesLedger.Spec.Candid
