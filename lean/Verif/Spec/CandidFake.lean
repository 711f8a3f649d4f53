import Verif.Spec.CandidCalls
import Verif.Spec.CandidMeta
import Verif.Spec.CandidCoerce
import Verif.Model.CandidFake
/-!
# What is said to and by the fake CMC: `fake-cmc.did`
-/
namespace CyclesLedger.Spec.Candid
open CyclesLedger.Candid (Ty Fields Val Vals Fixed CmcErrorWith CmcEvent Response)

/-- The content of `Refunded`, with the text (28). -/
def wRefundedWith : Way (Nat × Bytes) := fun a t v => (∃ s, Record s t v ∧
  Has wNat s "refund_amount" a.1 ∧ Has wText s "create_error" a.2) ∧ a.1 < 2 ^ 128

/-- The content of `RefundFailed`, with the texts (29). -/
def wRefundFailedWith : Way (Bytes × Bytes) := fun a t v => ∃ s, Record s t v ∧
  Has wText s "create_error" a.1 ∧ Has wText s "refund_error" a.2

/-- `CmcCreateCanisterError`, with the texts (27-30). -/
def wErrorWith : Way CmcErrorWith := wVariant
  [("Refunded", Fits wRefundedWith), ("RefundFailed", Fits wRefundFailedWith)]
  (fun e => match e with
    | .refunded r => ("Refunded", wRefundedWith r)
    | .refundFailed r => ("RefundFailed", wRefundFailedWith r))

/-- `CmcCreateCanisterResult`, with the texts (31-34). -/
def wFakeReply : Way (Except CmcErrorWith Principal) := wResult wPrincipal wErrorWith

/-- The argument of `create_canister` of the management canister: settings and version. -/
def wComplete : Way (Option CanisterSettings × Option Nat) := fun a t v => ∃ s, Record s t v ∧
  Has (wOpt wSettings) s "settings" a.1 ∧
  Has (wOpt (wFixed .nat64 8)) s "sender_canister_version" a.2

/-- `IcpXdrConversionRate` (41-44): rate and seconds. -/
def wRate : Way (Nat × Nat) := fun a t v => ∃ s, Record s t v ∧
  Has (wFixed .nat64 8) s "xdr_permyriad_per_icp" a.1 ∧
  Has (wFixed .nat64 8) s "timestamp_seconds" a.2

/-- `IcpXdrConversionRateResponse` (46-50): certificate, data, hash tree. -/
def wRateResponse : Way (Bytes × (Nat × Nat) × Bytes) := fun a t v => ∃ s, Record s t v ∧
  Has wBlob s "certificate" a.1 ∧ Has wRate s "data" a.2.1 ∧ Has wBlob s "hash_tree" a.2.2

/-- A value of `CmcCreateCanisterError` at the type of the interface. -/
def Mean.failure : CmcErrorWith → Val
  | .refunded r => .variant 0 (Mean.record [if r.1 < 2 ^ 128 then .nat r.1 else .null, .text r.2])
  | .refundFailed r => .variant 1 (Mean.record [.text r.1, .text r.2])

/-- The event tells the fake CMC to fail with `e`. -/
def Orders (e : CmcErrorWith) : CmcEvent → Prop
  | .failNext bs => ReadsAs Did.cmcError bs (Mean.failure e)
  | .create _ _ => False

/-- The event asks for a canister, with enough cycles. -/
def Requests (a : CmcArgs) : CmcEvent → Prop
  | .create bs n => 100000000000 ≤ n ∧ ReadsAs Did.cmcArgs bs (Mean.cmcArgs a)
  | .failNext _ => False

/-- The response carries the answer. -/
def Responds : Option (Ty × Val) → Response → Prop
  | some (t, v), .reply bs => IsMessage bs [(t, v)]
  | none, .reject code => code = some .canisterError
  | _, _ => False

end CyclesLedger.Spec.Candid
