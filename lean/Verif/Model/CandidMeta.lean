import Verif.Model.CandidReply
import Verif.Model.Meta
import Verif.Model.Certificate
import Verif.Model.Pages
import Verif.Model.Log
/-!
# What the ledger says about itself, as Candid messages

The queries of main.rs:74-192, 486-530 and 612-620 without arguments of interest: name, symbol, decimals,
minting account, standards, block types, metadata, certificate, archives, and the pages over HTTP.
The logo is left open.  `HttpRequest`, `HttpResponse` and `HttpResponseBuilder` are those of
ic-canisters-http-types, which is not in /repo; the body of its answer to unknown paths is left open.
-/
namespace CyclesLedger.Candid

/-- The bytes of a Rust string. -/
def utf8 (s : String) : Bytes := s.toUTF8.data.toList

def putText (s : String) : Val := .text (utf8 s)

/-- `supported_standards` (main.rs:108-138). -/
def supportedStandards : List (String × String) :=
  [("ICRC-1", "https://github.com/dfinity/ICRC-1/blob/main/standards/ICRC-1/README.md"),
   ("ICRC-2", "https://github.com/dfinity/ICRC-1/blob/main/standards/ICRC-2/README.md"),
   ("ICRC-3", "https://github.com/dfinity/ICRC-1/blob/main/standards/ICRC-3/README.md"),
   ("ICRC-10", "https://github.com/dfinity/ICRC/blob/main/ICRCs/ICRC-10/ICRC-10.md"),
   ("ICRC-103", "https://github.com/dfinity/ICRC/blob/main/ICRCs/ICRC-103/ICRC-103.md"),
   ("ICRC-106", "https://github.com/dfinity/ICRC/blob/main/ICRCs/ICRC-106/ICRC-106.md")]

/-- `SupportedStandard` (endpoints.rs:57-61). -/
def tyStandard : Ty := recTy [("name", .text), ("url", .text)]

def putStandard (a : String × String) : Val :=
  recVal [("name", .text, putText a.1), ("url", .text, putText a.2)]

/-- `icrc3_supported_block_types` (main.rs:140-164). -/
def supportedBlockTypes : List (String × String) :=
  [("1burn", "https://github.com/dfinity/ICRC-1/blob/main/standards/ICRC-1/README.md"),
   ("1mint", "https://github.com/dfinity/ICRC-1/blob/main/standards/ICRC-1/README.md"),
   ("2xfer", "https://github.com/dfinity/ICRC-1/blob/main/standards/ICRC-2/README.md"),
   ("2approve", "https://github.com/dfinity/ICRC-1/blob/main/standards/ICRC-2/README.md")]

/-- `SupportedBlockType` (endpoints.rs:376-380). -/
def tyBlockType : Ty := recTy [("block_type", .text), ("url", .text)]

def putBlockType (a : String × String) : Val :=
  recVal [("block_type", .text, putText a.1), ("url", .text, putText a.2)]

/-- `icrc1_metadata` (main.rs:171-192), with the logo. -/
def metadata (logo : String) (s : State) : List (String × MetaValue) :=
  [("icrc1:decimals", .nat icrc1Decimals), ("icrc1:name", .text icrc1Name),
   ("icrc1:symbol", .text icrc1Symbol), ("icrc1:fee", .nat FEE),
   ("icrc1:max_memo_length", .nat MAX_MEMO_LENGTH),
   ("dfn:max_blocks_per_request", .nat s.config.maxBlocksPerRequest),
   ("icrc1:logo", .text logo)] ++
  match s.config.indexId with
  | some p => [("icrc106:index_principal", .text p.toText), ("dfn:index_id", .blob p.bytes)]
  | none => []

/-- `MetadataValue` (icrc-ledger-types 0.1.12). -/
def casesMeta : List (String × Ty) :=
  [("Nat", .nat), ("Int", .int), ("Text", .text), ("Blob", .vec (.fixed .nat8))]

def putMeta : MetaValue → Val
  | .nat n => enumVal casesMeta "Nat" (.nat n)
  | .text t => enumVal casesMeta "Text" (putText t)
  | .blob b => enumVal casesMeta "Blob" (putBlob b)

/-- `(A, B)`: a tuple is a record with the labels 0 and 1. -/
def tyPair (t u : Ty) : Ty := .record (Fields.ofList [(0, t), (1, u)])

def putPair (x y : Val) : Val := .record (Vals.ofList [x, y])

/-- `DataCertificate` (endpoints.rs:242-248). -/
def tyCertificate : Ty :=
  recTy [("certificate", .vec (.fixed .nat8)), ("hash_tree", .vec (.fixed .nat8))]

def putCertificate (d : DataCertificate) : Val :=
  recVal [("certificate", .vec (.fixed .nat8), putBlob d.certificate),
    ("hash_tree", .vec (.fixed .nat8), putBlob d.hashTree)]

/-- `GetArchivesResult` (endpoints.rs:387-392). -/
def tyArchive : Ty := recTy [("canister_id", .principal), ("start", .nat), ("end", .nat)]

/-- `GetArchivesArgs` (endpoints.rs:382-385). -/
def desArchives : Des (Option Principal) where
  ty := struct [("from", (desOpt desPrincipal).ty)]
  get := fun w v => field (desOpt desPrincipal) "from" w v

/-- `HttpRequest`. -/
structure HttpRequest where
  url : Bytes
  method : Bytes
  headers : List (Bytes × Bytes)
  body : Bytes

def desHeader : Des (Bytes × Bytes) where
  ty := .record (Fields.ofList [(0, desText.ty), (1, desText.ty)])
  get := fun w v => do
    let name ← fieldAt desText 0 w v
    let value ← fieldAt desText 1 w v
    return (name, value)

def desHttp : Des HttpRequest where
  ty := struct [("url", desText.ty), ("method", desText.ty), ("headers", (desVec desHeader).ty),
    ("body", desBlob.ty)]
  get := fun w v => do
    let url ← field desText "url" w v
    let method ← field desText "method" w v
    let headers ← field (desVec desHeader) "headers" w v
    let body ← field desBlob "body" w v
    return ⟨url, method, headers, body⟩

/-- `HttpResponse`. -/
structure HttpResponse where
  status : Nat
  headers : List (String × String)
  body : Bytes

/-- `HttpResponseBuilder::ok` with a type and a text; `with_body_and_content_length`. -/
def okPage (type : String) (page : Page) : HttpResponse :=
  let body := utf8 (String.ofList page)
  ⟨200, [("Content-Type", type), ("Content-Length", String.ofList (decimal body.length))], body⟩

/-- What a page depends on besides the ledger: the pages of stable memory, the cycles held, the logs,
the texts of messages never written, the body for unknown paths. -/
structure Surroundings where
  pages : Nat
  cycles : Nat
  logs : LogBuffers
  other : LogMsg → List Char
  missing : Bytes

/-- `http_request` (main.rs:486-530); `HttpRequest::path` is the URL up to the first question
mark. -/
def httpResponse (y : Sys) (e : Surroundings) (r : HttpRequest) : HttpResponse :=
  let path := r.url.takeWhile (· ≠ 63)
  if path = utf8 "/metrics" then
    okPage "text/plain; version=0.0.4" (metricsPage e.pages e.cycles y.now y.ledger)
  else if path = utf8 "/logs" then
    okPage "application/json; charset=utf-8" (logsJson e.other e.logs)
  else ⟨404, [], e.missing⟩

def tyResponse : Ty := recTy [("status_code", .fixed .nat16),
  ("headers", .vec (tyPair .text .text)), ("body", .vec (.fixed .nat8))]

def putResponse (r : HttpResponse) : Val := recVal
  [("status_code", .fixed .nat16, .fixed (toLE 2 r.status)),
   ("headers", .vec (tyPair .text .text),
     putVec (fun h => putPair (putText h.1) (putText h.2)) r.headers),
   ("body", .vec (.fixed .nat8), putBlob r.body)]

/-- The answers: type and value, or `none` if the argument cannot be read. `cert` is the subnet's
certificate. -/
def describe (y : Sys) (logo : String) (cert : Option Bytes) (method : String) (bytes : Bytes) :
    Option (Ty × Val) :=
  if method = "icrc1_name" then (readMessage bytes).map (fun _ => (.text, putText icrc1Name))
  else if method = "icrc1_symbol" then
    (readMessage bytes).map (fun _ => (.text, putText icrc1Symbol))
  else if method = "icrc1_decimals" then
    (readMessage bytes).map (fun _ => (.fixed .nat8, .fixed (toLE 1 icrc1Decimals)))
  else if method = "icrc1_minting_account" then
    (readMessage bytes).map (fun _ => (.opt tyAccount, putOpt putAccount icrc1MintingAccount))
  else if method = "icrc1_supported_standards" then
    (readMessage bytes).map (fun _ => (.vec tyStandard, putVec putStandard supportedStandards))
  else if method = "icrc10_supported_standards" then
    (readMessage bytes).map (fun _ => (.vec tyStandard, putVec putStandard supportedStandards))
  else if method = "icrc3_supported_block_types" then
    (readMessage bytes).map (fun _ => (.vec tyBlockType, putVec putBlockType supportedBlockTypes))
  else if method = "icrc1_metadata" then
    (readMessage bytes).map (fun _ => (.vec (tyPair .text (enumTy casesMeta)),
      putVec (fun e => putPair (putText e.1) (putMeta e.2)) (metadata logo y.ledger)))
  else if method = "icrc3_get_tip_certificate" then
    (readMessage bytes).map (fun _ => (.opt tyCertificate,
      putOpt putCertificate (icrc3GetTipCertificate y.ledger cert)))
  else if method = "icrc3_get_archives" then
    (decode desArchives bytes).map (fun _ => (.vec tyArchive, .vec (Vals.ofList [])))
  else none

/-- The answer of `http_request`. -/
def answerHttp (y : Sys) (e : Surroundings) (bytes : Bytes) : Option (Ty × Val) :=
  (decode desHttp bytes).map (fun r => (tyResponse, putResponse (httpResponse y e r)))

end CyclesLedger.Candid
