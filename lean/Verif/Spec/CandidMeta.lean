import Verif.Spec.CandidReply
import Verif.Model.CandidMeta
/-!
# Self-description and pages as `cycles-ledger.did` describes them

Lines 85-86, 135-152, 171-177, 304-322 and 368-386 of `cycles-ledger.did`.
-/
namespace CyclesLedger.Spec.Candid
open CyclesLedger.Candid (Ty Fields Val Vals Fixed Comp HttpResponse)

/-- A text, in UTF-8. -/
def wString : Way String := fun s => wText s.toByteArray.data.toList

/-- A number of `k` bytes. -/
def wFixed (f : Fixed) (k : Nat) : Way Nat := fun n t v =>
  n < 256 ^ k ∧ t = .fixed f ∧ v = .fixed (le k n)

/-- `nat8` and `nat16`. -/
def wNat8 : Way Nat := wFixed .nat8 1
def wNat16 : Way Nat := wFixed .nat16 2

/-- `record { A; B }`. -/
def wPair {A B : Type} (w : Way A) (w' : Way B) : Way (A × B) := fun a t v => ∃ s, Record s t v ∧
  HasAt w s 0 a.1 ∧ HasAt w' s 1 a.2

/-- `SupportedStandard` (85): name and URL. -/
def wStandard : Way (String × String) := fun a t v => ∃ s, Record s t v ∧
  Has wString s "name" a.1 ∧ Has wString s "url" a.2

/-- `SupportedBlockType` (86). -/
def wBlockType : Way (String × String) := fun a t v => ∃ s, Record s t v ∧
  Has wString s "block_type" a.1 ∧ Has wString s "url" a.2

/-- `MetadataValue` (304-309). -/
def wMeta : Way MetaValue := wVariant
  [("Nat", Fits wNat), ("Int", fun t => t = .int), ("Text", Fits wString), ("Blob", Fits wBlob)]
  (fun m => match m with
    | .nat n => ("Nat", wNat n)
    | .text s => ("Text", wString s)
    | .blob b => ("Blob", wBlob b))

/-- `DataCertificate` (171-177). -/
def wCertificate : Way DataCertificate := fun a t v => ∃ s, Record s t v ∧
  Has wBlob s "certificate" a.certificate ∧ Has wBlob s "hash_tree" a.hashTree

/-- An element of `GetArchivesResult` (143-152). -/
def wArchive : Way (Principal × Nat × Nat) := fun a t v => ∃ s, Record s t v ∧
  Has wPrincipal s "canister_id" a.1 ∧ Has wNat s "start" a.2.1 ∧ Has wNat s "end" a.2.2

/-- `GetArchivesArgs` (135-141). -/
def wArchivesArg : Way (Option Principal) := fun a t v => ∃ s, Record s t v ∧
  HasOpt wPrincipal s "from" a

/-- `HttpRequest` (311-316) for a URL. -/
def wRequest : Way String := fun url t v => ∃ s, Record s t v ∧ Has wString s "url" url ∧
  (∃ m, Has wText s "method" m) ∧ (∃ b, Has wBlob s "body" b) ∧
  ∃ h, Has (wVec (wPair wText wText)) s "headers" h

/-- `HttpResponse` (317-321). -/
def wResponse : Way HttpResponse := fun r t v => ∃ s, Record s t v ∧ Has wBlob s "body" r.body ∧
  Has (wVec (wPair wString wString)) s "headers" r.headers ∧ Has wNat16 s "status_code" r.status

/-- A client takes the bytes for `a`. -/
def Tells {A : Type} (bs : Bytes) (w : Way A) (a : A) : Prop :=
  ∃ t v, IsMessage bs [(t, v)] ∧ w a t v

/-- The answer can be sent, and however it is sent a client takes it for `a` and for nothing
else. -/
def Told {A : Type} (o : Option (Ty × Val)) (w : Way A) (a : A) : Prop :=
  ∃ t v, o = some (t, v) ∧ (∃ bs, IsMessage bs [(t, v)]) ∧
    ∀ bs, IsMessage bs [(t, v)] → ∀ b, Tells bs w b ↔ b = a

/-- The URL asks for the path, with or without parameters. -/
def Asked (url path : String) : Prop :=
  url.toList = path.toList ∨ ∃ rest, url.toList = path.toList ++ '?' :: rest

end CyclesLedger.Spec.Candid
