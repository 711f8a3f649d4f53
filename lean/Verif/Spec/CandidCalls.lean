import Verif.Spec.CandidReply
import Verif.Model.System
/-!
# Calls to other canisters as the interfaces of those canisters describe them

`create_canister` of the CMC after `fake-cmc.did` (lines 1-40; the types of the argument are those of
`cycles-ledger.did`), `deposit_cycles` after the interface of the management canister.
-/
namespace CyclesLedger.Spec.Candid
open CyclesLedger.Candid (Ty Fields Val Vals Fixed Comp)

/-- What an argument says under its method. -/
def wCall : CallBody → String → Ty → Val → Prop
  | .depositCycles p, method, t, v => method = "deposit_cycles" ∧ wOne "canister_id" wPrincipal p t v
  | .createCanister a, method, t, v => method = "create_canister" ∧ wCmcArgs a t v

/-- The content of `Refunded` (fake-cmc.did:28); the amount fits in 128 bits. -/
def wRefunded : Way Nat := fun n t v => ∃ s, Record s t v ∧
  Has wNat s "refund_amount" n ∧ n < 2 ^ 128 ∧ ∃ m, Has wText s "create_error" m

/-- The content of `RefundFailed` (fake-cmc.did:29). -/
def wRefundFailed : Way Unit := fun _ t v => ∃ s, Record s t v ∧
  (∃ m, Has wText s "create_error" m) ∧ ∃ m, Has wText s "refund_error" m

/-- `CmcCreateCanisterError`: an amount for `Refunded`, nothing for `RefundFailed`. -/
def wCmcError : Way (Option Nat) := wVariant
  [("Refunded", Fits wRefunded), ("RefundFailed", Fits wRefundFailed)]
  (fun e => match e with
    | some n => ("Refunded", wRefunded n)
    | none => ("RefundFailed", wRefundFailed ()))

/-- `CmcCreateCanisterResult` (fake-cmc.did:31-34). -/
def wCmcReply : Way (Except (Option Nat) Principal) := wResult wPrincipal wCmcError

/-- The outcome that the reply stands for. -/
def outcome : Except (Option Nat) Principal → CmcResult
  | .ok p => .created p
  | .error (some n) => .refunded n
  | .error none => .refundFailed

/-- The case with this label of a variant, with this content; the variant may have any other cases. -/
def Taken (l : Nat) (u : Ty) (x : Val) (t : Ty) (v : Val) : Prop :=
  ∃ cs i, t = .variant (Fields.ofList cs) ∧ cs[i]? = some (l, u) ∧ v = .variant i x

def IsCase (name : String) : Ty → Val → Ty → Val → Prop := Taken (nameHash name)

/-- An answer that `CmcCreateCanisterResult` does not know: neither `Ok` nor `Err`, or another error
than `Refunded` and `RefundFailed`. -/
def Unknown (t : Ty) (v : Val) : Prop :=
  (∃ l u x, Taken l u x t v ∧ l ≠ nameHash "Ok" ∧ l ≠ nameHash "Err") ∨
  ∃ u x, IsCase "Err" u x t v ∧
    ∃ l u' x', Taken l u' x' u x ∧ l ≠ nameHash "Refunded" ∧ l ≠ nameHash "RefundFailed"

end CyclesLedger.Spec.Candid
