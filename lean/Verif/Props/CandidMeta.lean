import Verif.Props.CandidReply
import Verif.Props.CandidBlocks
import Verif.Props.Certificate
import Verif.Props.Meta
import Verif.Props.Pages
import Verif.Proof.CandidMeta
/-!
# What the ledger says about itself, as bytes

C106.
-/
namespace CyclesLedger

open Candid Spec.Candid

theorem told_good {A : Type} {w : Way A} {ty : Candid.Ty} {put : A → Val} {P : A → Prop}
    (g : Good w ty put P) (hd : Det w) {a : A} (ha : P a) {o : Option (Candid.Ty × Val)}
    (ho : o = some (ty, put a)) : Told o w a := by
  refine ⟨ty, put a, ho, message_of_wf g.wf (g.typed a), fun bs hb b => ⟨?_, ?_⟩⟩
  · rintro ⟨t, v, hb', hw⟩
    cases C102_unambiguous hb hb'
    exact hd _ _ _ _ hw (g.ok a ha)
  · rintro rfl
    exact ⟨_, _, hb, g.ok _ ha⟩

/-- **C106**: name, symbol, decimals, minting account and archives, however the caller writes
the argument and the answer is sent. -/
theorem C106_constants {y : Sys} {logo : String} {cert : Option Bytes} {bs : Bytes}
    {args : List (Candid.Ty × Val)} (hb : IsMessage bs args) :
    Told (describe y logo cert "icrc1_name" bs) wString "Trillion Cycles" ∧
    Told (describe y logo cert "icrc1_symbol" bs) wString "TCYCLES" ∧
    Told (describe y logo cert "icrc1_decimals" bs) wNat8 12 ∧
    Told (describe y logo cert "icrc1_minting_account" bs) (wOpt wAccount) none ∧
    ∀ t v more o, args = (t, v) :: more → wArchivesArg o t v →
      Told (describe y logo cert "icrc3_get_archives" bs) (wVec wArchive) [] := by
  have hrm := readMessage_isMessage hb
  refine ⟨?_, ?_, ?_, ?_, ?_⟩
  · exact told_good good_string det_string trivial (by simp [describe, hrm, icrc1Name])
  · exact told_good good_string det_string trivial (by simp [describe, hrm, icrc1Symbol])
  · exact told_good (good_fixed .nat8 1 rfl) (det_fixed _ _) (a := 12) (by decide)
      (by simp [describe, hrm, icrc1Decimals])
  · exact told_good (good_opt good_account) (det_opt det_account plain_account)
      (fun a ha => by cases ha) (by simp [describe, hrm, icrc1MintingAccount])
  · rintro t v more o rfl hw
    refine told_good (good_vec good_archive (good_archive.fits (⟨[], by decide⟩, 0, 0)
      ⟨trivial, trivial, trivial⟩)) (det_vec det_archive) (a := []) (fun a ha => by cases ha) ?_
    simp [describe, decode_reads reads_archives hb hw, putVec]

/-- Where dfinity keeps the text of a standard: the first three in the repository of ICRC-1, later ones
in that of all ICRCs. -/
def Spec.pageOf (name : String) : String :=
  if name ∈ ["ICRC-1", "ICRC-2", "ICRC-3"] then
    "https://github.com/dfinity/ICRC-1/blob/main/standards/" ++ name ++ "/README.md"
  else "https://github.com/dfinity/ICRC/blob/main/ICRCs/" ++ name ++ "/" ++ name ++ ".md"

/-- **C106**: the standards, by both names of the query: ICRC-1, 2, 3, 10, 103 and 106, each with the
URL of its text; and the block types, each with the URL of the standard whose number it starts with. -/
theorem C106_standards {y : Sys} {logo : String} {cert : Option Bytes} {bs : Bytes}
    {args : List (Candid.Ty × Val)} (hb : IsMessage bs args) :
    (∃ l, Told (describe y logo cert "icrc1_supported_standards" bs) (wVec wStandard) l ∧
      Told (describe y logo cert "icrc10_supported_standards" bs) (wVec wStandard) l ∧
      l.map Prod.fst = ["ICRC-1", "ICRC-2", "ICRC-3", "ICRC-10", "ICRC-103", "ICRC-106"] ∧
      ∀ e ∈ l, e.2 = Spec.pageOf e.1) ∧
    ∃ l, Told (describe y logo cert "icrc3_supported_block_types" bs) (wVec wBlockType) l ∧
      l.map Prod.fst = ["1burn", "1mint", "2xfer", "2approve"] ∧
      ∀ e ∈ l, ∃ c rest, e.1.toList = c :: rest ∧
        e.2 = Spec.pageOf ("ICRC-" ++ String.ofList [c]) := by
  have hrm := readMessage_isMessage hb
  have gs := good_vec good_standard (good_standard.fits ("", "") ⟨trivial, trivial⟩)
  have gb := good_vec good_blockType (good_blockType.fits ("", "") ⟨trivial, trivial⟩)
  refine ⟨⟨supportedStandards, ?_, ?_, by decide +kernel, by decide +kernel⟩,
    supportedBlockTypes, ?_, by decide +kernel, ?_⟩
  · exact told_good gs (det_vec det_standard) (fun _ _ => ⟨trivial, trivial⟩)
      (by simp [describe, hrm])
  · exact told_good gs (det_vec det_standard) (fun _ _ => ⟨trivial, trivial⟩)
      (by simp [describe, hrm])
  · exact told_good gb (det_vec det_blockType) (fun _ _ => ⟨trivial, trivial⟩)
      (by simp [describe, hrm])
  · intro e he
    simp only [supportedBlockTypes, List.mem_cons, List.not_mem_nil, or_false] at he
    rcases he with rfl | rfl | rfl | rfl
    · exact ⟨'1', ['b', 'u', 'r', 'n'], by decide +kernel, by decide +kernel⟩
    · exact ⟨'1', ['m', 'i', 'n', 't'], by decide +kernel, by decide +kernel⟩
    · exact ⟨'2', ['x', 'f', 'e', 'r'], by decide +kernel, by decide +kernel⟩
    · exact ⟨'2', ['a', 'p', 'p', 'r', 'o', 'v', 'e'], by decide +kernel, by decide +kernel⟩

theorem listed_metadata (logo : String) (s : State) (name : String) (hn : name ≠ "icrc1:logo") :
    Spec.listed (metadata logo s) name = Spec.listed (icrc1Metadata s) name := by
  have hb : decide ("icrc1:logo" = name) = false := by simpa using fun h => hn h.symm
  simp only [Spec.listed, metadata, icrc1Metadata, List.find?_append, List.find?_cons, hb,
    List.find?_nil]
  generalize (match s.config.indexId with
    | some p => [("icrc106:index_principal", MetaValue.text p.toText), ("dfn:index_id", .blob p.bytes)]
    | none => []) = tail
  cases decide ("icrc1:decimals" = name) <;> cases decide ("icrc1:name" = name) <;>
    cases decide ("icrc1:symbol" = name) <;> cases decide ("icrc1:fee" = name) <;>
    cases decide ("icrc1:max_memo_length" = name) <;>
    cases decide ("dfn:max_blocks_per_request" = name) <;> rfl

/-- **C106**: the metadata: no name twice, the values of the other endpoints, the limits in force,
the logo, and the index canister if there is one. -/
theorem C106_metadata {y : Sys} {logo : String} {cert : Option Bytes} {bs : Bytes}
    {args : List (Candid.Ty × Val)} (hb : IsMessage bs args) :
    ∃ l, Told (describe y logo cert "icrc1_metadata" bs) (wVec (wPair wString wMeta)) l ∧
      (l.map Prod.fst).Nodup ∧
      Spec.listed l "icrc1:name" = some (.text "Trillion Cycles") ∧
      Spec.listed l "icrc1:symbol" = some (.text "TCYCLES") ∧
      Spec.listed l "icrc1:decimals" = some (.nat 12) ∧
      Spec.listed l "icrc1:fee" = some (.nat 100000000) ∧
      Spec.listed l "icrc1:logo" = some (.text logo) ∧
      (∃ n, Spec.listed l "icrc1:max_memo_length" = some (.nat n) ∧
        ∀ memo : Option Bytes, validateMemo memo = true ↔ ∀ m, memo = some m → m.length ≤ n) ∧
      (∃ n, Spec.listed l "dfn:max_blocks_per_request" = some (.nat n) ∧
        ∀ ranges, (getBlocks y.ledger ranges).2.length ≤ n) ∧
      (∀ p, y.ledger.config.indexId = some p →
        Spec.listed l "dfn:index_id" = some (.blob p.bytes) ∧
        ∃ t, Spec.listed l "icrc106:index_principal" = some (.text t) ∧
          Spec.principalBytes t = p.bytes) ∧
      (y.ledger.config.indexId = none → Spec.listed l "dfn:index_id" = none ∧
        Spec.listed l "icrc106:index_principal" = none) := by
  have hrm := readMessage_isMessage hb
  have gp := good_pair good_string good_meta
  have gm := good_vec gp (gp.fits ("", .nat 0) ⟨trivial, trivial⟩)
  have hl := listed_metadata logo y.ledger
  obtain ⟨u1, u2, u3, u4, _⟩ := C70_unit y.ledger
  obtain ⟨n, hn1, _, hn2⟩ := C70_memo y.ledger
  obtain ⟨k, hk1, hk2, _⟩ := C70_blocks y.ledger
  obtain ⟨i1, i2⟩ := C70_index y.ledger
  refine ⟨metadata logo y.ledger, told_good gm (det_vec (det_pair det_string det_meta))
    (fun _ _ => ⟨trivial, trivial⟩) (by simp [describe, hrm]), ?_, ?_, ?_, ?_, ?_, ?_, ⟨n, ?_, hn2⟩,
    ⟨k, ?_, hk2⟩, ?_, ?_⟩
  · cases h : y.ledger.config.indexId <;> simp [metadata, h]
  · rw [hl _ (by decide +kernel), u2]; rfl
  · rw [hl _ (by decide +kernel), u3]; rfl
  · rw [hl _ (by decide +kernel), u4]; rfl
  · simp [metadata, Spec.listed, FEE_eq]
  · simp [metadata, Spec.listed]
  · rw [hl _ (by decide +kernel), hn1]
  · rw [hl _ (by decide +kernel), hk1]
  · intro p hp
    rw [hl _ (by decide +kernel), hl _ (by decide +kernel)]
    exact i1 p hp
  · intro hp
    rw [hl _ (by decide +kernel), hl _ (by decide +kernel)]
    exact i2 hp

/-- **C106**: the certificate: what the subnet signed, and the bytes of a tree whose root is the certified data
and which holds index and hash of the last block; nothing if there is no certificate. -/
theorem C106_certificate [Crypto] {y : Sys} (h : Reachable y) {b : Block}
    (hl : y.ledger.blocks.getLast? = some b) (hlen : y.ledger.blocks.length < 2 ^ 64)
    {logo : String} {bs : Bytes} {args : List (Candid.Ty × Val)} (hb : IsMessage bs args) :
    (∀ c, ∃ d, Told (describe y logo (some c) "icrc3_get_tip_certificate" bs) (wOpt wCertificate)
        (some d) ∧ d.certificate = c ∧
      ∃ tree, (∀ t', Spec.ReadsAs d.hashTree t' ↔ t' = tree) ∧
        y.ledger.certifiedData = some tree.digest ∧
        (∃ v, tree.lookup (Spec.label "last_block_index") = some v ∧
          Spec.readUnsigned v = some (y.ledger.blocks.length - 1, [])) ∧
        tree.lookup (Spec.label "last_block_hash") = some b.hash.val) ∧
    Told (describe y logo none "icrc3_get_tip_certificate" bs) (wOpt wCertificate) none := by
  have hrm := readMessage_isMessage hb
  have g := good_opt good_certificate
  have hd := det_opt det_certificate plain_certificate
  constructor
  · intro c
    obtain ⟨d, h1, h2, _, h3⟩ := C92_readable h hl hlen c
    exact ⟨d, told_good g hd (fun _ _ => ⟨trivial, trivial⟩) (by simp [describe, hrm, h1]), h2, h3⟩
  · exact told_good g hd (fun _ _ => ⟨trivial, trivial⟩)
      (by simp [describe, hrm, icrc3GetTipCertificate])

/-- The headers of a page: its type, and the length of its body. -/
def Spec.Headed (r : HttpResponse) (type : String) : Prop :=
  ∃ digits, r.headers = [("Content-Type", type), ("Content-Length", String.ofList digits)] ∧
    Spec.whole digits = some r.body.length

theorem headed_ok (type : String) (page : Page) : Spec.Headed (okPage type page) type :=
  ⟨_, rfl, whole_decimal _⟩

theorem body_ok (type : String) (page : Page) :
    wString (String.ofList page) .text (.text (okPage type page).body) := ⟨rfl, rfl⟩

/-- The answer to a request for a URL. -/
theorem answerHttp_eq {y : Sys} {e : Surroundings} {bs : Bytes} {t : Candid.Ty} {v : Val}
    {more : List (Candid.Ty × Val)} (hb : IsMessage bs ((t, v) :: more)) {url : String}
    (hw : wRequest url t v) : ∃ r, r.url = utf8 url ∧
      answerHttp y e bs = some (tyResponse, putResponse (httpResponse y e r)) := by
  obtain ⟨s, hr, h1, ⟨m, h2⟩, ⟨b, h3⟩, hs, h4⟩ := hw
  refine ⟨⟨utf8 url, m, hs, b⟩, rfl, ?_⟩
  have := decode_reads reads_http (x := ⟨utf8 url, m, hs, b⟩) hb ⟨s, hr, h1, h2, h4, h3⟩
  simp [answerHttp, this]

/-- **C106**: the pages over HTTP.  However the request is written, `/metrics` and `/logs`, with
or without parameters, are answered with status 200, their type, the length of the body in bytes and
the text of the page in UTF-8; anything else with status 404.  The answer can be sent and is taken
for nothing else. -/
theorem C106_http {y : Sys} {e : Surroundings} {bs : Bytes} {t : Candid.Ty} {v : Val}
    {more : List (Candid.Ty × Val)} (hb : IsMessage bs ((t, v) :: more)) {url : String}
    (hw : wRequest url t v) : ∃ r, Told (answerHttp y e bs) wResponse r ∧
      (Asked url "/metrics" → r.status = 200 ∧ Spec.Headed r "text/plain; version=0.0.4" ∧
        wString (String.ofList (metricsPage e.pages e.cycles y.now y.ledger)) .text (.text r.body)) ∧
      (Asked url "/logs" → r.status = 200 ∧ Spec.Headed r "application/json; charset=utf-8" ∧
        wString (String.ofList (logsJson e.other e.logs)) .text (.text r.body)) ∧
      (¬Asked url "/metrics" → ¬Asked url "/logs" → r.status = 404) := by
  obtain ⟨q, hq, ha⟩ := answerHttp_eq (y := y) (e := e) hb hw
  have hm := path_asked url "/metrics" (by decide +kernel)
  have hl := path_asked url "/logs" (by decide +kernel)
  refine ⟨httpResponse y e q, told_good good_response det_response ?_ ha, ?_, ?_, ?_⟩
  · unfold httpResponse okPage
    simp only
    split
    · simp
    · split <;> simp
  · intro h
    have : httpResponse y e q = okPage "text/plain; version=0.0.4"
        (metricsPage e.pages e.cycles y.now y.ledger) := by
      simp only [httpResponse, hq]
      rw [if_pos (hm.mpr h)]
    rw [this]
    exact ⟨rfl, headed_ok _ _, body_ok _ _⟩
  · intro h
    have hn : ¬Asked url "/metrics" := by
      intro h'
      have h1 := hm.mpr h'
      rw [hl.mpr h] at h1
      exact absurd (utf8_inj h1) (by decide +kernel)
    have : httpResponse y e q = okPage "application/json; charset=utf-8"
        (logsJson e.other e.logs) := by
      simp only [httpResponse, hq]
      rw [if_neg (fun h' => hn (hm.mp h')), if_pos (hl.mpr h)]
    rw [this]
    exact ⟨rfl, headed_ok _ _, body_ok _ _⟩
  · intro h h'
    simp only [httpResponse, hq]
    rw [if_neg (fun h1 => h (hm.mp h1)), if_neg (fun h1 => h' (hl.mp h1))]

theorem readsAs_tip [Crypto] {y : Sys} (h : Reachable y) {b : Block}
    (hb : y.ledger.blocks.getLast? = some b) (hlen : y.ledger.blocks.length < 2 ^ 64) :
    Spec.ReadsAs (tipHashTreeBytes y.ledger) (tipHashTree y.ledger) := by
  have hl : (leb128 (y.ledger.blocks.length - 1)).length ≤ 10 := by
    refine leb128_length 9 _ ?_
    have : (128 : Nat) ^ 10 = 2 ^ 70 := by decide
    omega
  have hh : b.hash.val.length = 32 := b.hash.property
  refine (readsAs_encode ?_ _).mpr rfl
  rw [tip_tree h hb]
  exact .fork (.labeled (by decide) (.leaf (by omega))) (.labeled (by decide) (.leaf (by omega)))

/-- **C106**: bytes that are no message are answered by none of these queries, nor with blocks. -/
theorem C106_no_message {y : Sys} {logo : String} {cert : Option Bytes} {e : Surroundings} {bs : Bytes}
    (hb : ¬∃ args, IsMessage bs args) :
    (∀ method, describe y logo cert method bs = none) ∧ answerHttp y e bs = none ∧
    answerBlocks y bs = none := by
  have hd := fun {A : Type} (d : Des A) => (C102_only_messages (bs := bs)).2 hb d
  have hr : readMessage bs = none := by
    cases e : readMessage bs with
    | none => rfl
    | some args => exact absurd ⟨args, (readMessage_iff bs args).mp e⟩ hb
  refine ⟨fun method => ?_, ?_, ?_⟩
  · unfold describe
    simp only [hd, hr, Option.map_none]
    repeat' split
    all_goals rfl
  · simp only [answerHttp, hd, Option.map_none]
  · simp only [answerBlocks, hd, Option.map_none]

/-- Two letters short. -/
example : ¬∃ args, IsMessage [68, 73] args := by
  rintro ⟨args, h⟩
  have := (readMessage_iff _ _).mpr h
  cases this

/-- **C106**: a client asks for everything, in bytes, and gets two answers in bytes.  From these and
the certified data alone (which it has from the subnet's certificate) it reads blocks and a tree, which
verify, and replaying the blocks gives every balance, the supply, and every allowance. -/
theorem C106_audit [Crypto] {y : Sys} (h : Reachable y) (hne : y.ledger.blocks ≠ [])
    {q q' : Bytes} {t : Candid.Ty} {v : Val} {more args : List (Candid.Ty × Val)}
    (hq : IsMessage q ((t, v) :: more)) {n : Nat} (hw : wVec wRange [⟨0, n⟩] t v)
    (hn : y.ledger.blocks.length ≤ n) (hn' : n < 2 ^ 64)
    (hmax : y.ledger.blocks.length ≤ y.ledger.config.maxBlocksPerRequest)
    (hlim : y.ledger.blocks.length + y.ledger.config.maxBlocksPerRequest < 2 ^ 64)
    (hq' : IsMessage q' args) (logo : String) (c : Bytes) :
    ∃ x t' v', answerBlocks y q = some x ∧
      describe y logo (some c) "icrc3_get_tip_certificate" q' = some (t', v') ∧
      ∀ table r bs bs', Stands table .result r → Sends bs table r x → IsMessage bs' [(t', v')] →
        ∃ a d tree log, FindsBlocks bs a ∧ Tells bs' (wOpt wCertificate) (some d) ∧
          d.certificate = c ∧ Spec.ReadsAs d.hashTree tree ∧
          Client.Accepts y.ledger.certifiedData tree (a.2.map Prod.snd) log ∧
          (∀ acc, (icrc1BalanceOf y.ledger acc : Int) = Spec.balance log (Spec.idOf acc)) ∧
          (icrc1TotalSupply y.ledger : Int) = Spec.supply log ∧
          ∀ o sp now, y.now ≤ now → Spec.spendable y.ledger o sp now =
            Spec.live now (Spec.allowances log (Spec.idOf o, Spec.idOf sp)) := by
  obtain ⟨x, hx, hr⟩ := C105_audit h hne hq hw hn hn' hmax hlim
  obtain ⟨b, hb⟩ : ∃ b, y.ledger.blocks.getLast? = some b :=
    ⟨_, List.getLast?_eq_some_getLast hne⟩
  obtain ⟨d, hd, hc, _, tree, ht, _⟩ := C92_readable h hb (by omega) c
  have hdt : d.hashTree = tipHashTreeBytes y.ledger := by
    simp only [icrc3GetTipCertificate, Option.some.injEq] at hd
    rw [← hd]
  have htree : tree = tipHashTree y.ledger := by
    refine ((ht _).mp ?_).symm
    rw [hdt]
    exact readsAs_tip h hb (by omega)
  have told : Told (describe y logo (some c) "icrc3_get_tip_certificate" q') (wOpt wCertificate)
      (some d) := told_good (good_opt good_certificate) (det_opt det_certificate plain_certificate)
    (fun _ _ => ⟨trivial, trivial⟩) (by simp [describe, readMessage_isMessage hq', hd])
  obtain ⟨t', v', h1, _, h2⟩ := told
  refine ⟨x, t', v', hx, h1, fun table r bs bs' hs hm hm' => ?_⟩
  obtain ⟨a, hf, _, _, log, ha, hb⟩ := hr table r bs hs hm
  exact ⟨a, d, tree, log, hf, (h2 bs' hm' _).mpr rfl, hc, (ht _).mpr rfl, htree ▸ ha, hb⟩

/-- A request for a page, written plainly. -/
def plainRequest (url : String) : List (String × Candid.Ty × Val) :=
  [("url", .text, putText url), ("method", .text, putText "GET"),
   ("headers", .vec (tyPair .text .text), .vec (Vals.ofList [])),
   ("body", .vec (.fixed .nat8), putBlob [])]

/-- Every URL can be asked for; here the logs from some time on. -/
example : (∀ url, ∃ bs t v, IsMessage bs [(t, v)] ∧ wRequest url t v) ∧
    Asked "/logs?time=17" "/logs" ∧ ¬Asked "/logs/" "/logs" := by
  refine ⟨fun url => ?_, ?_, ?_⟩
  · have hn : ((plainRequest url).map (fun f => nameHash f.1)).Nodup := by
      simp only [plainRequest, List.map_cons, List.map_nil]; decide +kernel
    have hh : Good (wVec (wPair wText wText)) (.vec (tyPair .text .text))
        (putVec (fun h => putPair (.text h.1) (.text h.2))) (fun _ => True) := by
      have g := good_vec (good_pair good_text good_text)
        ((good_pair good_text good_text).fits ([], []) ⟨trivial, trivial⟩)
      exact ⟨g.wf, g.typed, fun a _ => g.ok a (fun _ _ => ⟨trivial, trivial⟩)⟩
    obtain ⟨s, h1, h2⟩ := rec_spec (plainRequest url) hn
    have ht := rec_typed (plainRequest url) hn (by
      intro f hf
      simp only [plainRequest, List.mem_cons, List.not_mem_nil, or_false] at hf
      rcases hf with rfl | rfl | rfl | rfl
      · exact good_string.typed _
      · exact good_string.typed _
      · exact hh.typed []
      · exact good_blob.typed [])
    have hwf := recTy_wf ((plainRequest url).map (fun f => (f.1, f.2.1))) (by
      simpa [plainRequest] using hn) (by
      intro f hf
      simp only [plainRequest, List.map_cons, List.map_nil, List.mem_cons, List.not_mem_nil,
        or_false] at hf
      rcases hf with rfl | rfl | rfl | rfl
      · exact good_text.wf
      · exact good_text.wf
      · exact hh.wf
      · exact good_blob.wf)
    obtain ⟨bs, hb⟩ := message_of_wf hwf ht
    exact ⟨bs, _, _, hb, s, h1, ⟨_, _, (h2 _).mpr ⟨_, .head _, rfl⟩, good_string.ok _ trivial⟩,
      ⟨_, _, _, (h2 _).mpr ⟨_, .tail _ (.head _), rfl⟩, rfl, rfl⟩,
      ⟨[], _, _, (h2 _).mpr ⟨_, .tail _ (.tail _ (.tail _ (.head _))), rfl⟩, good_blob.ok _ trivial⟩,
      ⟨[], _, _, (h2 _).mpr ⟨_, .tail _ (.tail _ (.head _)), rfl⟩, hh.ok [] trivial⟩⟩
  · exact .inr ⟨"time=17".toList, by decide +kernel⟩
  · rintro (h | ⟨rest, h⟩)
    · exact absurd h (by decide +kernel)
    · have e1 : "/logs".toList = ['/', 'l', 'o', 'g', 's'] := by decide +kernel
      have e2 : "/logs/".toList = ['/', 'l', 'o', 'g', 's', '/'] := by decide +kernel
      rw [e1, e2] at h
      simp at h

/-- The message without arguments, and the bytes of two answers. -/
example : IsMessage [68, 73, 68, 76, 0, 0] [] ∧
    ((describe Toy.demo "" none "icrc1_decimals" [68, 73, 68, 76, 0, 0]) matches
      some (.fixed .nat8, .fixed [12])) = true ∧
    ((describe Toy.demo "" none "icrc1_symbol" [68, 73, 68, 76, 0, 0]) matches
      some (.text, .text [84, 67, 89, 67, 76, 69, 83])) = true :=
  ⟨(readMessage_iff _ _).mp (by rfl), by decide +kernel, by decide +kernel⟩

open Toy in
/-- The hypotheses of `C106_audit` and `C106_certificate` hold of the example history. -/
example : Reachable demo ∧ demo.ledger.blocks ≠ [] ∧
    demo.ledger.blocks.length ≤ demo.ledger.config.maxBlocksPerRequest ∧
    demo.ledger.blocks.length + demo.ledger.config.maxBlocksPerRequest < 2 ^ 64 ∧
    (∃ bs t v, IsMessage bs [(t, v)] ∧ wVec wRange [⟨0, 100⟩] t v) ∧
    ∃ bs t v, IsMessage bs [(t, v)] ∧ wArchivesArg none t v :=
  ⟨demo_reachable, by decide +kernel, by decide +kernel, by decide +kernel,
    exists_message (uniform_vec ⟨0, 0⟩ uniform_range) _,
    (by
      obtain ⟨bs, hb⟩ := message_of_wf (t := .record .nil) (v := .record .nil)
        (by rw [Wf]; exact ⟨.nil, by rw [WfAll]; trivial⟩)
        (by unfold Candid.HasTy; exact ⟨_, rfl, by unfold Candid.HasTys; rfl⟩)
      exact ⟨bs, _, _, hb, [], ⟨.nil, rfl, rfl⟩, .inr ⟨rfl, fun _ h => by cases h⟩⟩)⟩

end CyclesLedger
