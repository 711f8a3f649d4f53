import Verif.Spec.Candid
import Verif.Model.CandidMeta
import Verif.Model.CandidCalls
/-!
# Reading a value at another type

The Candid specification from the side of the reader: which types may be sent where a type is
expected (its sections on subtyping and coercion), and what a value sent becomes.  Then the
types of `cycles-ledger.did`, and the value of each argument in its type.

Labels within a type are different from each other.  Functions and services are never expected.
-/
namespace CyclesLedger.Spec.Candid
open CyclesLedger.Candid (Ty Fields Val Vals LedgerArgs HttpRequest)

/-- Fields of these types may be left out, and what is then read. -/
def Omitted : (expected : Ty) → Val → Prop
  | .null, v => v = .null
  | .reserved, v => v = .reserved
  | .opt _, v => v = .none
  | _, _ => False

mutual
/-- Where a type is expected, one below it may be sent. -/
def Below : (expected : Ty) → Ty → Prop
  | .reserved, _ => True
  | .opt _, _ => True
  | .null, t => t = .null ∨ t = .empty
  | .bool, t => t = .bool ∨ t = .empty
  | .nat, t => t = .nat ∨ t = .empty
  | .int, t => t = .int ∨ t = .nat ∨ t = .empty
  | .text, t => t = .text ∨ t = .empty
  | .principal, t => t = .principal ∨ t = .empty
  | .fixed f, t => t = .fixed f ∨ t = .empty
  | .vec e, t => (∃ u, t = .vec u ∧ Below e u) ∨ t = .empty
  | .record es, t => (∃ fs, t = .record (Fields.ofList fs) ∧ BelowAll es fs) ∨ t = .empty
  | .variant es, t => (∃ cs, t = .variant (Fields.ofList cs) ∧ ∀ c ∈ cs, BelowCase es c.1 c.2) ∨ t = .empty
  | .empty, t => t = .empty
  | .func, _ => False
  | .service, _ => False
  | .cut, _ => False
/-- Each field expected is there, or may be left out. -/
def BelowAll : Fields → List (Nat × Ty) → Prop
  | .nil, _ => True
  | .cons l e es, fs =>
    ((∃ u, (l, u) ∈ fs ∧ Below e u) ∨ ((∀ f ∈ fs, f.1 ≠ l) ∧ ∃ v, Omitted e v)) ∧ BelowAll es fs
/-- The case `l` with content of type `u` is expected. -/
def BelowCase : Fields → (l : Nat) → (u : Ty) → Prop
  | .nil, _, _ => False
  | .cons k e es, l, u => (l = k ∧ Below e u) ∨ BelowCase es l u
end

/-- Nothing is sent: `null`, or an option without content. -/
def Nothing (t : Ty) (v : Val) : Prop := t = .null ∨ t = .reserved ∨ ((∃ u, t = .opt u) ∧ v = .none)

/-- What is sent where an option is expected, with or without `opt`. -/
def Something (u : Ty) (x : Val) (t : Ty) (v : Val) : Prop :=
  (t = .opt u ∧ v = .some x) ∨
  (t ≠ .null ∧ t ≠ .reserved ∧ (∀ w, t ≠ .opt w) ∧ t = u ∧ v = x)

/-- One after the other. -/
def Pairwise (c : Val → Val → Prop) : Vals → Vals → Prop
  | .nil, ys => ys = .nil
  | .cons x xs, ys => ∃ y zs, ys = .cons y zs ∧ c x y ∧ Pairwise c xs zs

mutual
/-- The value `v` of the type `t`, where `expected` is expected, is read as `v'`.  Where an option is
expected, nothing is read if what is sent is of a type that is not below. -/
def Coerces : (expected : Ty) → (t : Ty) → (v v' : Val) → Prop
  | .reserved, _, _, v' => v' = .reserved
  | .opt e, t, v, v' => (Nothing t v ∧ v' = .none) ∨
      ∃ u x, Something u x t v ∧
        ((¬Below e u ∧ v' = .none) ∨ (Below e u ∧ ∃ x', Coerces e u x x' ∧ v' = .some x'))
  | .null, _, v, v' => v' = v
  | .bool, _, v, v' => v' = v
  | .nat, _, v, v' => v' = v
  | .int, _, v, v' => (∃ i, v = .int i ∧ v' = v) ∨ ∃ n, v = .nat n ∧ v' = .int (sleb128 n)
  | .text, _, v, v' => v' = v
  | .principal, _, v, v' => v' = v
  | .fixed _, _, v, v' => v' = v
  | .vec e, t, v, v' => ∃ u xs xs', t = .vec u ∧ v = .vec xs ∧ v' = .vec xs' ∧
      Pairwise (Coerces e u) xs xs'
  | .record es, t, v, v' => ∃ s xs', Fielded s t v ∧ v' = .record xs' ∧ CoercesAll es s xs'
  | .variant es, t, v, v' => ∃ cs i l u x j x', t = .variant (Fields.ofList cs) ∧ v = .variant i x ∧
      cs[i]? = some (l, u) ∧ v' = .variant j x' ∧ CoercesCase es l u x j x'
  | .empty, _, _, _ => False
  | .func, _, _, _ => False
  | .service, _, _, _ => False
  | .cut, _, _, _ => False
/-- The fields expected, one after the other: as sent, or what is read if they are left out. -/
def CoercesAll : Fields → (s : List (Nat × Ty × Val)) → Vals → Prop
  | .nil, _, ys => ys = .nil
  | .cons l e es, s, ys => ∃ y zs, ys = .cons y zs ∧ CoercesAll es s zs ∧
      ((∃ u x, (l, u, x) ∈ s ∧ Coerces e u x y) ∨ ((∀ f ∈ s, f.1 ≠ l) ∧ Omitted e y))
/-- The case with the label that was sent. -/
def CoercesCase : Fields → (l : Nat) → (u : Ty) → (x : Val) → (j : Nat) → Val → Prop
  | .nil, _, _, _, _, _ => False
  | .cons k e es, l, u, x, j, y => (l = k ∧ j = 0 ∧ Coerces e u x y) ∨
      ∃ i, j = i + 1 ∧ CoercesCase es l u x i y
end

/-- The bytes, read where the type is expected, are the value `v'`.  An argument may be left out if a
field of its type may. -/
def ReadsAs (expected : Ty) (bs : Bytes) (v' : Val) : Prop :=
  (IsMessage bs [] ∧ Omitted expected v') ∨
  ∃ t v more, IsMessage bs ((t, v) :: more) ∧ Below expected t ∧ Coerces expected t v v'

/-! ## The types of `cycles-ledger.did` -/

namespace Did

def record (l : List (String × Ty)) : Ty :=
  .record (Fields.ofList (l.map (fun f => (nameHash f.1, f.2))))
def variant (l : List (String × Ty)) : Ty :=
  .variant (Fields.ofList (l.map (fun f => (nameHash f.1, f.2))))
def nat64 : Ty := .fixed .nat64
def blob : Ty := .vec (.fixed .nat8)

/-- Line 1. -/
def account : Ty := record [("owner", .principal), ("subaccount", .opt blob)]
/-- 3. -/
def allowanceArgs : Ty := record [("account", account), ("spender", account)]
/-- 5-14. -/
def approveArgs : Ty := record [("from_subaccount", .opt blob), ("spender", account),
  ("amount", .nat), ("expected_allowance", .opt .nat), ("expires_at", .opt nat64),
  ("fee", .opt .nat), ("memo", .opt blob), ("created_at_time", .opt nat64)]
/-- 26-29. -/
def depositArgs : Ty := record [("to", account), ("memo", .opt blob)]
/-- 40-45. -/
def withdrawArgs : Ty := record [("amount", .nat), ("from_subaccount", .opt blob),
  ("to", .principal), ("created_at_time", .opt nat64)]
/-- 61-67. -/
def withdrawFromArgs : Ty := record [("spender_subaccount", .opt blob), ("from", account),
  ("to", .principal), ("amount", .nat), ("created_at_time", .opt nat64)]
/-- 87-94. -/
def transferArgs : Ty := record [("from_subaccount", .opt blob), ("to", account),
  ("amount", .nat), ("fee", .opt .nat), ("memo", .opt blob), ("created_at_time", .opt nat64)]
/-- 105-113. -/
def transferFromArgs : Ty := record [("spender_subaccount", .opt blob), ("from", account),
  ("to", account), ("amount", .nat), ("fee", .opt .nat), ("memo", .opt blob),
  ("created_at_time", .opt nat64)]
/-- 154. -/
def getBlocksArgs : Ty := .vec (record [("start", .nat), ("length", .nat)])
/-- 179-183. -/
def initArgs : Ty := record [("max_blocks_per_request", nat64), ("index_id", .opt .principal),
  ("initial_balances", .opt (.vec (.record (Fields.ofList [(0, account), (1, .nat)]))))]
/-- 185-188. -/
def changeIndexId : Ty := variant [("Unset", .null), ("SetTo", .principal)]
/-- 190-193. -/
def upgradeArgs : Ty := record [("max_blocks_per_request", .opt nat64),
  ("change_index_id", .opt changeIndexId)]
/-- 195-198. -/
def ledgerArgs : Ty := variant [("Init", initArgs), ("Upgrade", .opt upgradeArgs)]
/-- 224-227. -/
def environmentVariable : Ty := record [("name", .text), ("value", .text)]
/-- 229-233. -/
def logVisibility : Ty := variant [("controllers", .null), ("public", .null),
  ("allowed_viewers", .vec .principal)]
/-- 235-245. -/
def canisterSettings : Ty := record [("controllers", .opt (.vec .principal)),
  ("compute_allocation", .opt .nat), ("memory_allocation", .opt .nat),
  ("freezing_threshold", .opt .nat), ("reserved_cycles_limit", .opt .nat),
  ("wasm_memory_limit", .opt .nat), ("wasm_memory_threshold", .opt .nat),
  ("log_visibility", .opt logVisibility),
  ("environment_variables", .opt (.vec environmentVariable))]
/-- 256-258. -/
def subnetFilter : Ty := record [("subnet_type", .opt .text)]
/-- 247-254. -/
def subnetSelection : Ty := variant [("Subnet", record [("subnet", .principal)]),
  ("Filter", subnetFilter)]
/-- 215-222. -/
def cmcArgs : Ty := record [("settings", .opt canisterSettings),
  ("subnet_selection", .opt subnetSelection)]
/-- 200-205. -/
def createArgs : Ty := record [("from_subaccount", .opt blob), ("created_at_time", .opt nat64),
  ("amount", .nat), ("creation_args", .opt cmcArgs)]
/-- 207-213. -/
def createFromArgs : Ty := record [("from", account), ("spender_subaccount", .opt blob),
  ("created_at_time", .opt nat64), ("amount", .nat), ("creation_args", .opt cmcArgs)]
/-- 323-327. -/
def getAllowancesArgs : Ty := record [("from_account", .opt account),
  ("prev_spender", .opt account), ("take", .opt .nat)]
/-- 135-141. -/
def getArchivesArgs : Ty := record [("from", .opt .principal)]
/-- 311-316. -/
def httpRequest : Ty := record [("url", .text), ("method", .text), ("body", blob),
  ("headers", .vec (.record (Fields.ofList [(0, .text), (1, .text)])))]
/-- `CmcCreateCanisterError` (endpoints.rs:297-308), the type of the errors of the CMC. -/
def cmcError : Ty := variant [("Refunded", record [("refund_amount", .nat), ("create_error", .text)]),
  ("RefundFailed", record [("create_error", .text), ("refund_error", .text)])]
/-- What the CMC replies. -/
def cmcReply : Ty := variant [("Ok", .principal), ("Err", cmcError)]

end Did

/-! ## The values of these types -/

namespace Mean

def record (l : List Val) : Val := .record (Vals.ofList l)
def vec {A : Type} (f : A → Val) (l : List A) : Val := .vec (Vals.ofList (l.map f))
def opt {A : Type} (f : A → Val) : Option A → Val
  | none => .none
  | some a => .some (f a)
def blob : Bytes → Val := vec (fun b => .fixed [b])
def subaccount (s : Subaccount) : Val := blob s.val
def principal (p : Principal) : Val := .principal p.bytes
def nat64 (n : UInt64) : Val := .fixed (le 8 n.toNat)

def account (a : Account) : Val := record [principal a.owner, opt subaccount a.subaccount]
def allowanceArgs (a : Account × Account) : Val := record [account a.1, account a.2]
def approveArgs (a : ApproveArgs) : Val := record [opt subaccount a.fromSubaccount,
  account a.spender, .nat a.amount, opt .nat a.expectedAllowance, opt nat64 a.expiresAt,
  opt .nat a.fee, opt blob a.memo, opt nat64 a.createdAtTime]
def depositArgs (a : DepositArg) : Val := record [account a.to, opt blob a.memo]
def withdrawArgs (a : WithdrawArgs) : Val := record [.nat a.amount,
  opt subaccount a.fromSubaccount, principal a.to, opt nat64 a.createdAtTime]
def withdrawFromArgs (a : WithdrawFromArgs) : Val := record [opt subaccount a.spenderSubaccount,
  account a.frm, principal a.to, .nat a.amount, opt nat64 a.createdAtTime]
def transferArgs (a : TransferArgs) : Val := record [opt subaccount a.fromSubaccount,
  account a.to, .nat a.amount, opt .nat a.fee, opt blob a.memo, opt nat64 a.createdAtTime]
def transferFromArgs (a : TransferFromArgs) : Val := record [opt subaccount a.spenderSubaccount,
  account a.frm, account a.to, .nat a.amount, opt .nat a.fee, opt blob a.memo,
  opt nat64 a.createdAtTime]
def getBlocksArgs : List GetBlocksArg → Val := vec (fun r => record [.nat r.start, .nat r.length])
/-- The ledger keeps these numbers in 128 bits; others are no values of the type. -/
def balance (b : Account × Nat) : Val :=
  record [account b.1, if b.2 < 2 ^ 128 then .nat b.2 else .null]
/-- The limit is a number of 64 bits; others are no values of the type. -/
def initArgs (c : Config) : Val := record [
  if c.maxBlocksPerRequest < 2 ^ 64 then .fixed (le 8 c.maxBlocksPerRequest) else .null,
  opt principal c.indexId, opt (vec balance) c.initialBalances]
def changeIndexId : ChangeIndexId → Val
  | .unset => .variant 0 .null
  | .setTo p => .variant 1 (principal p)
def upgradeArgs (a : UpgradeArgs) : Val := record [opt nat64 a.maxBlocksPerRequest,
  opt changeIndexId a.changeIndexId]
def ledgerArgs : LedgerArgs → Val
  | .init c => .variant 0 (initArgs c)
  | .upgrade o => .variant 1 (opt upgradeArgs o)
def environmentVariable (a : Bytes × Bytes) : Val := record [.text a.1, .text a.2]
def logVisibility : LogVisibility → Val
  | .controllers => .variant 0 .null
  | .pub => .variant 1 .null
  | .allowedViewers l => .variant 2 (vec principal l)
def canisterSettings (a : CanisterSettings) : Val := record [opt (vec principal) a.controllers,
  opt .nat a.computeAllocation, opt .nat a.memoryAllocation, opt .nat a.freezingThreshold,
  opt .nat a.reservedCyclesLimit, opt .nat a.wasmMemoryLimit, opt .nat a.wasmMemoryThreshold,
  opt logVisibility a.logVisibility, opt (vec environmentVariable) a.environmentVariables]
def subnetFilter (o : Option Bytes) : Val := record [opt .text o]
def subnetSelection : SubnetSelection → Val
  | .subnet p => .variant 0 (record [principal p])
  | .filter o => .variant 1 (subnetFilter o)
def cmcArgs (a : CmcArgs) : Val := record [opt canisterSettings a.settings,
  opt subnetSelection a.subnetSelection]
def createArgs (a : CreateCanisterArgs) : Val := record [opt subaccount a.fromSubaccount,
  opt nat64 a.createdAtTime, .nat a.amount, opt cmcArgs a.creationArgs]
def createFromArgs (a : CreateCanisterFromArgs) : Val := record [account a.frm,
  opt subaccount a.spenderSubaccount, opt nat64 a.createdAtTime, .nat a.amount,
  opt cmcArgs a.creationArgs]
def getAllowancesArgs (a : Option Account × Option Account × Option Nat) : Val :=
  record [opt account a.1, opt account a.2.1, opt .nat a.2.2]
def getArchivesArgs (o : Option Principal) : Val := record [opt principal o]
def httpRequest (r : HttpRequest) : Val := record [.text r.url, .text r.method, blob r.body,
  vec (fun h => record [.text h.1, .text h.2]) r.headers]

end Mean

/-- The type of the argument of an update call. -/
def argument (method : String) : Option Ty :=
  match method with
  | "deposit" => some Did.depositArgs
  | "icrc1_transfer" => some Did.transferArgs
  | "icrc2_transfer_from" => some Did.transferFromArgs
  | "icrc2_approve" => some Did.approveArgs
  | "withdraw" => some Did.withdrawArgs
  | "withdraw_from" => some Did.withdrawFromArgs
  | "create_canister" => some Did.createArgs
  | "create_canister_from" => some Did.createFromArgs
  | _ => none

/-- The message is the one that `caller` asks for by calling the method with the argument `v`. -/
def Meant (method : String) (caller : Principal) (cycles : Fin (U128MAX + 1))
    (sync : Option CallError) (v : Val) : Msg → Prop
  | .deposit p n a => method = "deposit" ∧ p = caller ∧ n = cycles ∧ v = Mean.depositArgs a
  | .transfer p a => method = "icrc1_transfer" ∧ p = caller ∧ v = Mean.transferArgs a
  | .transferFrom p a => method = "icrc2_transfer_from" ∧ p = caller ∧ v = Mean.transferFromArgs a
  | .approve p a => method = "icrc2_approve" ∧ p = caller ∧ v = Mean.approveArgs a
  | .withdraw p a e => method = "withdraw" ∧ p = caller ∧ e = sync ∧ v = Mean.withdrawArgs a
  | .withdrawFrom p a e =>
    method = "withdraw_from" ∧ p = caller ∧ e = sync ∧ v = Mean.withdrawFromArgs a
  | .createCanister p a e =>
    method = "create_canister" ∧ p = caller ∧ e = sync ∧ v = Mean.createArgs a
  | .createCanisterFrom p a e =>
    method = "create_canister_from" ∧ p = caller ∧ e = sync ∧ v = Mean.createFromArgs a
  | _ => False

/-- What the ledger understands by a reply of the CMC. -/
def CmcSays : CmcResult → Val → Prop
  | .created p, v => v = .variant 0 (Mean.principal p)
  | .refunded n, v =>
    n < 2 ^ 128 ∧ ∃ why, v = .variant 1 (.variant 0 (Mean.record [.nat n, .text why]))
  | .refundFailed, v => ∃ why why',
    v = .variant 1 (.variant 1 (Mean.record [.text why, .text why']))
  | .callError _, _ => False

end CyclesLedger.Spec.Candid
