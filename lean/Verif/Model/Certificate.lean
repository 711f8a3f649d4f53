import Verif.Model.Wire
import Verif.Model.Endpoints
/-!
# The certificate as it is sent: `State::get_tip_certificate` (storage.rs:623-644)

The hash tree is written by `ciborium` with the `Serialize` of `ic_certified_map::HashTree`.
-/
namespace CyclesLedger

/-- `impl Serialize for HashTree` (ic-certified-map, hashtree.rs): the arrays of the IC interface
specification. -/
def HashTree.toCbor : HashTree → CVal
  | .empty => .array [.int 0]
  | .fork l r => .array [.int 1, l.toCbor, r.toCbor]
  | .labeled k t => .array [.int 2, .bytes k, t.toCbor]
  | .leaf b => .array [.int 3, .bytes b]
  | .pruned h => .array [.int 4, .bytes h.val]

/-- `hash_tree_buf` (storage.rs:628-637). -/
def tipHashTreeBytes (s : State) : Bytes := (tipHashTree s).toCbor.encode

/-- `DataCertificate` (certificate, hash_tree). -/
structure DataCertificate where
  certificate : Bytes
  hashTree : Bytes

/-- `icrc3_get_tip_certificate` (main.rs:612-615, storage.rs:623-644).  `cert` is
`ic_cdk::api::data_certificate()`: the subnet's certificate, which only queries have. -/
def icrc3GetTipCertificate (s : State) (cert : Option Bytes) : Option DataCertificate :=
  match cert with
  | some c => some ⟨c, tipHashTreeBytes s⟩
  | none => none

end CyclesLedger
