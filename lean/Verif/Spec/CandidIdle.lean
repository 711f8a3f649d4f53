import Verif.Spec.Candid
/-!
# Parts of a request that say nothing
-/
namespace CyclesLedger.Spec.Candid

open CyclesLedger.Candid

/-- The kinds of types that optional fields have. -/
inductive Kind where
  | nat | nat64 | blob | record

/-- The optional fields of the argument of a method (cycles-ledger.did). -/
def mayHave (method : String) : List (String × Kind) :=
  match method with
  | "deposit" => [("memo", .blob)]
  | "icrc1_transfer" =>
    [("from_subaccount", .blob), ("fee", .nat), ("memo", .blob), ("created_at_time", .nat64)]
  | "icrc2_transfer_from" =>
    [("spender_subaccount", .blob), ("fee", .nat), ("memo", .blob), ("created_at_time", .nat64)]
  | "icrc2_approve" =>
    [("from_subaccount", .blob), ("expected_allowance", .nat), ("expires_at", .nat64),
      ("fee", .nat), ("memo", .blob), ("created_at_time", .nat64)]
  | "withdraw" => [("from_subaccount", .blob), ("created_at_time", .nat64)]
  | "withdraw_from" => [("spender_subaccount", .blob), ("created_at_time", .nat64)]
  | "create_canister" =>
    [("from_subaccount", .blob), ("created_at_time", .nat64), ("creation_args", .record)]
  | "create_canister_from" =>
    [("spender_subaccount", .blob), ("created_at_time", .nat64), ("creation_args", .record)]
  | "icrc1_balance_of" => [("subaccount", .blob)]
  | "icrc103_get_allowances" => [("from_account", .record), ("prev_spender", .record), ("take", .nat)]
  | _ => []

/-- The other fields of the argument of a method (cycles-ledger.did). -/
def mustHave (method : String) : List String :=
  match method with
  | "deposit" => ["to"]
  | "icrc1_transfer" => ["to", "amount"]
  | "icrc2_transfer_from" => ["from", "to", "amount"]
  | "icrc2_approve" => ["spender", "amount"]
  | "withdraw" => ["to", "amount"]
  | "withdraw_from" => ["from", "to", "amount"]
  | "create_canister" => ["amount"]
  | "create_canister_from" => ["from", "amount"]
  | "icrc1_balance_of" => ["owner"]
  | "icrc2_allowance" => ["account", "spender"]
  | _ => []

/-- A type of another kind. -/
def Unlike : Kind → Ty → Prop
  | .nat, u => u ≠ .nat
  | .nat64, u => u ≠ .fixed .nat64
  | .blob, u => u ≠ .vec (.fixed .nat8) ∧ u ≠ .vec .empty
  | .record, u => ∀ fs, u ≠ .record fs

/-- Nothing, where something of the kind `k` may be: null, or of another kind. -/
def Void (k : Kind) (u : Ty) (x : Val) : Prop :=
  u = .null ∨ u = .reserved ∨ (∃ w, u = .opt w ∧ (x = .none ∨ Unlike k w)) ∨
    (∀ w, u ≠ .opt w) ∧ Unlike k u

/-- A field that says nothing to a method: one that the method does not know, or an optional one
with nothing in it. -/
def Idle (method : String) (f : Nat × Ty × Val) : Prop :=
  ((∀ name ∈ mustHave method, f.1 ≠ nameHash name) ∧
    ∀ o ∈ mayHave method, f.1 ≠ nameHash o.1) ∨
  ∃ o ∈ mayHave method, f.1 = nameHash o.1 ∧ Void o.2 f.2.1 f.2.2

/-- The first arguments of the messages are records, and the first has additional fields, all of which
say nothing to the method.  Further arguments may be there or not. -/
def SaysNoMore (method : String) (bs bs' : Bytes) : Prop :=
  ∃ s t v more s' t' v' more', IsMessage bs ((t, v) :: more) ∧ Record s t v ∧
    IsMessage bs' ((t', v') :: more') ∧ Record s' t' v' ∧
    (∀ f ∈ s', f ∈ s) ∧ ∀ f ∈ s, f ∉ s' → Idle method f

end CyclesLedger.Spec.Candid
