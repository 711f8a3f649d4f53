import Verif.Spec.CandidMeta
import Verif.Proof.CandidResults
/-! # Self-description and pages as Candid -/
namespace CyclesLedger.Candid
open Spec.Candid

/-! ## Texts -/

theorem utf8_inj {a b : String} (h : utf8 a = utf8 b) : a = b := by
  have h1 : a.toByteArray.data = b.toByteArray.data := by
    apply Array.ext'
    exact h
  have h2 : a.toByteArray = b.toByteArray := by
    cases ha : a.toByteArray; cases hb : b.toByteArray
    rw [ha, hb] at h1
    simp only at h1
    rw [h1]
  exact String.toByteArray_inj.mp h2

theorem utf8_ofList (l : List Char) : utf8 (String.ofList l) = l.flatMap String.utf8EncodeChar := by
  show (String.ofList l).toByteArray.data.toList = _
  rw [← String.utf8Encode_toList, String.toList_ofList]
  simp [List.utf8Encode]

theorem utf8_eq (s : String) : utf8 s = s.toList.flatMap String.utf8EncodeChar := by
  rw [← utf8_ofList, String.ofList_toList]

theorem good_string : Good wString .text putText (fun _ => True) :=
  ⟨good_text.wf, fun _ => good_text.typed _, fun _ _ => ⟨rfl, rfl⟩⟩

theorem det_string : Det wString := by
  rintro a b t v ⟨_, ha⟩ ⟨_, hb⟩
  rw [ha] at hb
  exact utf8_inj (Val.text.inj hb)

/-! ## Numbers -/

theorem le_inj : ∀ {k n m : Nat}, n < 256 ^ k → m < 256 ^ k → le k n = le k m → n = m
  | 0, n, m, h, h', _ => by simp only [Nat.pow_zero] at h h'; omega
  | k + 1, n, m, h, h', he => by
    simp only [le, List.cons.injEq] at he
    have h1 : n % 256 = m % 256 := by
      have := congrArg UInt8.toNat he.1
      simpa [UInt8.toNat_ofNat'] using this
    rw [Nat.pow_succ] at h h'
    have h2 := le_inj (k := k) (n := n / 256) (m := m / 256) (by omega) (by omega) he.2
    omega

theorem det_fixed (f : Fixed) (k : Nat) : Det (wFixed f k) := by
  rintro a b t v ⟨ha, _, h⟩ ⟨hb, _, h'⟩
  rw [h] at h'
  exact le_inj ha hb (Val.fixed.inj h')

theorem good_fixed (f : Fixed) (k : Nat) (hk : f.width = k) :
    Good (wFixed f k) (.fixed f) (fun n => .fixed (toLE k n)) (fun n => n < 256 ^ k) := by
  refine ⟨by simp only [Wf], fun a => ?_, fun a ha => ⟨ha, rfl, by rw [toLE_eq]⟩⟩
  simp only [HasTy]
  exact ⟨_, rfl, by rw [toLE_eq, hk]; exact le_length k a⟩

/-! ## Records -/

theorem good_two {A B C : Type} {w : Way B} {w' : Way C} {n n' : String} {ty ty' : Ty}
    {put : B → Val} {put' : C → Val} {P : B → Prop} {P' : C → Prop} (f : A → B) (f' : A → C)
    (hn : nameHash n ≠ nameHash n') (g : Good w ty put P) (g' : Good w' ty' put' P') :
    Good (fun a t v => ∃ s, Record s t v ∧ Has w s n (f a) ∧ Has w' s n' (f' a))
      (recTy [(n, ty), (n', ty')]) (fun a => recVal [(n, ty, put (f a)), (n', ty', put' (f' a))])
      (fun a => P (f a) ∧ P' (f' a)) := by
  have nd : ∀ {B : Type} (b c : B), ([(n, b), (n', c)].map (fun f => nameHash f.1)).Nodup := by
    intro B b c; simp [hn]
  refine ⟨recTy_wf _ (nd _ _) ?_, ?_, ?_⟩
  · intro f hf
    simp only [List.mem_cons, List.not_mem_nil, or_false] at hf
    rcases hf with rfl | rfl
    · exact g.wf
    · exact g'.wf
  · intro a
    refine rec_typed [(n, ty, put (f a)), (n', ty', put' (f' a))] (nd _ _) ?_
    intro f hf
    simp only [List.mem_cons, List.not_mem_nil, or_false] at hf
    rcases hf with rfl | rfl
    · exact g.typed _
    · exact g'.typed _
  · intro a ha
    obtain ⟨s, h1, h2⟩ := rec_spec [(n, ty, put (f a)), (n', ty', put' (f' a))] (nd _ _)
    exact ⟨s, h1, ⟨_, _, (h2 _).mpr ⟨_, .head _, rfl⟩, g.ok _ ha.1⟩,
      ⟨_, _, (h2 _).mpr ⟨_, .tail _ (.head _), rfl⟩, g'.ok _ ha.2⟩⟩

theorem det_two {A B C : Type} {w : Way B} {w' : Way C} {n n' : String} (f : A → B) (f' : A → C)
    (hf : ∀ a b, f a = f b → f' a = f' b → a = b) (hd : Det w) (hd' : Det w') :
    Det (fun a t v => ∃ s, Record s t v ∧ Has w s n (f a) ∧ Has w' s n' (f' a)) := by
  rintro a b t v ⟨s, hr, h1, h2⟩ ⟨s', hr', h1', h2'⟩
  exact hf a b (det_has hd hr hr' h1 h1') (det_has hd' hr hr' h2 h2')

theorem good_three {A B C D : Type} {w : Way B} {w' : Way C} {w'' : Way D} {n n' n'' : String}
    {ty ty' ty'' : Ty} {put : B → Val} {put' : C → Val} {put'' : D → Val} {P : B → Prop}
    {P' : C → Prop} {P'' : D → Prop} (f : A → B) (f' : A → C) (f'' : A → D)
    (hn : [nameHash n, nameHash n', nameHash n''].Nodup) (g : Good w ty put P)
    (g' : Good w' ty' put' P') (g'' : Good w'' ty'' put'' P'') :
    Good (fun a t v => ∃ s, Record s t v ∧ Has w s n (f a) ∧ Has w' s n' (f' a) ∧
        Has w'' s n'' (f'' a))
      (recTy [(n, ty), (n', ty'), (n'', ty'')])
      (fun a => recVal [(n, ty, put (f a)), (n', ty', put' (f' a)), (n'', ty'', put'' (f'' a))])
      (fun a => P (f a) ∧ P' (f' a) ∧ P'' (f'' a)) := by
  refine ⟨recTy_wf _ hn ?_, ?_, ?_⟩
  · intro f hf
    simp only [List.mem_cons, List.not_mem_nil, or_false] at hf
    rcases hf with rfl | rfl | rfl
    · exact g.wf
    · exact g'.wf
    · exact g''.wf
  · intro a
    refine rec_typed [(n, ty, put (f a)), (n', ty', put' (f' a)), (n'', ty'', put'' (f'' a))] hn ?_
    intro f hf
    simp only [List.mem_cons, List.not_mem_nil, or_false] at hf
    rcases hf with rfl | rfl | rfl
    · exact g.typed _
    · exact g'.typed _
    · exact g''.typed _
  · intro a ha
    obtain ⟨s, h1, h2⟩ := rec_spec
      [(n, ty, put (f a)), (n', ty', put' (f' a)), (n'', ty'', put'' (f'' a))] hn
    exact ⟨s, h1, ⟨_, _, (h2 _).mpr ⟨_, .head _, rfl⟩, g.ok _ ha.1⟩,
      ⟨_, _, (h2 _).mpr ⟨_, .tail _ (.head _), rfl⟩, g'.ok _ ha.2.1⟩,
      ⟨_, _, (h2 _).mpr ⟨_, .tail _ (.tail _ (.head _)), rfl⟩, g''.ok _ ha.2.2⟩⟩

theorem good_pair {A B : Type} {w : Way A} {w' : Way B} {ty ty' : Ty} {put : A → Val}
    {put' : B → Val} {P : A → Prop} {P' : B → Prop} (g : Good w ty put P)
    (g' : Good w' ty' put' P') :
    Good (wPair w w') (tyPair ty ty') (fun a => putPair (put a.1) (put' a.2))
      (fun a => P a.1 ∧ P' a.2) := by
  refine ⟨?_, ?_, ?_⟩
  · rw [tyPair, Wf]
    refine ⟨by rw [labels_ofList]; simp, wfAll_ofList _ ?_⟩
    intro f hf
    simp only [List.mem_cons, List.not_mem_nil, or_false] at hf
    rcases hf with rfl | rfl
    · exact g.wf
    · exact g'.wf
  · intro a
    rw [tyPair, putPair, HasTy]
    refine ⟨_, rfl, hasTys_ofList [(0, ty, put a.1), (1, ty', put' a.2)] ?_⟩
    intro f hf
    simp only [List.mem_cons, List.not_mem_nil, or_false] at hf
    rcases hf with rfl | rfl
    · exact g.typed _
    · exact g'.typed _
  · intro a ha
    exact ⟨[(0, ty, put a.1), (1, ty', put' a.2)], ⟨by simp, rfl, rfl⟩,
      ⟨_, _, .head _, g.ok _ ha.1⟩, ⟨_, _, .tail _ (.head _), g'.ok _ ha.2⟩⟩

theorem det_at {A : Type} {w : Way A} (hd : Det w) {s s' : List (Nat × Ty × Val)} {t : Ty}
    {v : Val} (hr : Record s t v) (hr' : Record s' t v) {l : Nat} {a b : A}
    (ha : HasAt w s l a) (hb : HasAt w s' l b) : a = b := by
  cases record_unique hr hr'
  obtain ⟨u, x, hm, hw⟩ := ha
  obtain ⟨u', x', hm', hw'⟩ := hb
  have := entry_unique hr.1 hm hm'
  rw [Prod.mk.injEq] at this
  obtain ⟨rfl, rfl⟩ := this
  exact hd _ _ _ _ hw hw'

theorem det_pair {A B : Type} {w : Way A} {w' : Way B} (hd : Det w) (hd' : Det w') :
    Det (wPair w w') := by
  rintro a b t v ⟨s, hr, h1, h2⟩ ⟨s', hr', h1', h2'⟩
  exact Prod.ext (det_at hd hr hr' h1 h1') (det_at hd' hr hr' h2 h2')

/-! ## The types of the interface -/

theorem det_blob : Det wBlob := det_of_reads reads_blob

theorem good_standard : Good wStandard tyStandard putStandard (fun _ => True ∧ True) :=
  good_two Prod.fst Prod.snd (by decide +kernel) good_string good_string

theorem det_standard : Det wStandard :=
  det_two Prod.fst Prod.snd (fun _ _ => Prod.ext) det_string det_string

theorem good_blockType : Good wBlockType tyBlockType putBlockType (fun _ => True ∧ True) :=
  good_two Prod.fst Prod.snd (by decide +kernel) good_string good_string

theorem det_blockType : Det wBlockType :=
  det_two Prod.fst Prod.snd (fun _ _ => Prod.ext) det_string det_string

theorem good_certificate : Good wCertificate tyCertificate putCertificate (fun _ => True ∧ True) :=
  good_two DataCertificate.certificate DataCertificate.hashTree (by decide +kernel) good_blob good_blob

theorem det_certificate : Det wCertificate :=
  det_two DataCertificate.certificate DataCertificate.hashTree
    (by rintro ⟨a, b⟩ ⟨c, d⟩ h h'; simp only at h h'; rw [h, h']) det_blob det_blob

theorem plain_certificate : Plain wCertificate := by
  rintro a t v ⟨s, hr, _⟩; exact record_plain hr

theorem good_archive : Good wArchive tyArchive (fun a => recVal [("canister_id", .principal,
    putPrincipal a.1), ("start", .nat, .nat a.2.1), ("end", .nat, .nat a.2.2)])
    (fun _ => True ∧ True ∧ True) :=
  good_three (A := Principal × Nat × Nat) (n := "canister_id") (n' := "start") (n'' := "end")
    Prod.fst (fun a => a.2.1) (fun a => a.2.2) (by decide +kernel) good_principal good_nat
    good_nat

theorem det_archive : Det wArchive := by
  rintro a b t v ⟨s, hr, h1, h2, h3⟩ ⟨s', hr', h1', h2', h3'⟩
  exact Prod.ext (det_has det_principal hr hr' h1 h1')
    (Prod.ext (det_has det_nat hr hr' h2 h2') (det_has det_nat hr hr' h3 h3'))

theorem good_meta : Good wMeta (enumTy casesMeta) putMeta (fun _ => True) := by
  refine good_enum (by simp only [casesMeta, List.map_cons, List.map_nil]; decide +kernel) ?_ ?_
  · intro c hc
    simp only [casesMeta, List.mem_cons, List.not_mem_nil, or_false] at hc
    rcases hc with rfl | rfl | rfl | rfl
    · exact ⟨good_nat.wf, _, .head _, rfl, good_nat.fits 0 trivial⟩
    · exact ⟨by simp only [Wf], _, .tail _ (.head _), rfl, rfl⟩
    · exact ⟨good_text.wf, _, .tail _ (.tail _ (.head _)), rfl, good_string.fits "" trivial⟩
    · exact ⟨good_blob.wf, _, .tail _ (.tail _ (.tail _ (.head _))), rfl, good_blob.fits [] trivial⟩
  · intro a
    cases a with
    | nat n => exact ⟨_, _, .head _, rfl, good_nat.typed n, fun _ => good_nat.ok n trivial⟩
    | text s => exact ⟨_, _, .tail _ (.tail _ (.head _)), rfl, good_string.typed s,
        fun _ => good_string.ok s trivial⟩
    | blob b => exact ⟨_, _, .tail _ (.tail _ (.tail _ (.head _))), rfl, good_blob.typed b,
        fun _ => good_blob.ok b trivial⟩

theorem det_meta : Det wMeta := by
  refine det_variant ["Nat", "Text", "Blob"] (by decide +kernel) ?_ ?_
  · intro a
    cases a with
    | nat _ => exact .head _
    | text _ => exact .tail _ (.head _)
    | blob _ => exact .tail _ (.tail _ (.head _))
  · intro a b u x hn h h'
    cases a with
    | nat a =>
      cases b with
      | nat b => rw [det_nat _ _ _ _ h h']
      | _ => exact absurd hn (by simp)
    | text a =>
      cases b with
      | text b => rw [det_string _ _ _ _ h h']
      | _ => exact absurd hn (by simp)
    | blob a =>
      cases b with
      | blob b => rw [det_blob _ _ _ _ h h']
      | _ => exact absurd hn (by simp)

theorem good_headers : Good (wVec (wPair wString wString)) (.vec (tyPair .text .text))
    (putVec (fun h => putPair (putText h.1) (putText h.2))) (fun l => ∀ a ∈ l, True ∧ True) :=
  good_vec (good_pair good_string good_string)
    ((good_pair good_string good_string).fits ("", "") ⟨trivial, trivial⟩)

theorem good_response : Good wResponse tyResponse putResponse (fun r => r.status < 2 ^ 16) := by
  have g := good_three (A := HttpResponse) (n := "status_code") (n' := "headers") (n'' := "body")
    HttpResponse.status HttpResponse.headers HttpResponse.body (by decide +kernel)
    (good_fixed .nat16 2 rfl) good_headers good_blob
  refine ⟨g.wf, g.typed, fun a ha => ?_⟩
  obtain ⟨s, hr, h1, h2, h3⟩ := g.ok a ⟨ha, fun _ _ => ⟨trivial, trivial⟩, trivial⟩
  exact ⟨s, hr, h3, h2, h1⟩

theorem det_response : Det wResponse := by
  rintro ⟨a1, a2, a3⟩ ⟨b1, b2, b3⟩ t v ⟨s, hr, h1, h2, h3⟩ ⟨s', hr', h1', h2', h3'⟩
  have e1 := det_has det_blob hr hr' h1 h1'
  have e2 := det_has (det_vec (det_pair det_string det_string)) hr hr' h2 h2'
  have e3 := det_has (det_fixed .nat16 2) hr hr' h3 h3'
  simp only at e1 e2 e3
  rw [e1, e2, e3]

/-! ## Requests -/

theorem reads_archives : Reads desArchives wArchivesArg := by
  rintro a t v ⟨s, hr, h0⟩
  obtain ⟨a0, b0⟩ := reads_hasOpt reads_principal plain_principal hr h0
  refine ⟨accepts_struct hr ?_, b0⟩
  simp only [List.mem_cons, List.not_mem_nil, or_false]
  rintro f rfl; exact a0

theorem reads_header : Reads desHeader (wPair wText wText) := by
  rintro a t v ⟨s, hr, h0, h1⟩
  obtain ⟨a0, b0⟩ := reads_at reads_text hr h0
  obtain ⟨a1, b1⟩ := reads_at reads_text hr h1
  refine ⟨accepts_fields hr ?_, ?_⟩
  · simp only [List.mem_cons, List.not_mem_nil, or_false]
    rintro f (rfl | rfl)
    · exact a0
    · exact a1
  · simp only [desHeader, b0, b1, Option.bind_eq_bind, Option.bind_some, Option.pure_def]

theorem reads_http : Reads desHttp (fun r t v => ∃ s, Record s t v ∧ Has wText s "url" r.url ∧
    Has wText s "method" r.method ∧ Has (wVec (wPair wText wText)) s "headers" r.headers ∧
    Has wBlob s "body" r.body) := by
  rintro a t v ⟨s, hr, h0, h1, h2, h3⟩
  obtain ⟨a0, b0⟩ := reads_has reads_text hr h0
  obtain ⟨a1, b1⟩ := reads_has reads_text hr h1
  obtain ⟨a2, b2⟩ := reads_has (reads_vec reads_header) hr h2
  obtain ⟨a3, b3⟩ := reads_has reads_blob hr h3
  refine ⟨accepts_struct hr ?_, ?_⟩
  · simp only [List.mem_cons, List.not_mem_nil, or_false]
    rintro f (rfl | rfl | rfl | rfl)
    · exact a0
    · exact a1
    · exact a2
    · exact a3
  · simp only [desHttp, b0, b1, b2, b3, Option.bind_eq_bind, Option.bind_some, Option.pure_def]

/-! ## Paths -/

/-- The bytes of a character other than a question mark are no question marks. -/
theorem no_question {c : Char} (hc : c ≠ '?') : ∀ b ∈ String.utf8EncodeChar c, b ≠ 63 := by
  have hv : c.val.toNat ≠ 63 := by
    intro h
    apply hc
    apply Char.ext
    apply UInt32.toNat_inj.mp
    rw [h]; rfl
  have key : ∀ n : Nat, n < 256 → n ≠ 63 → UInt8.ofNat n ≠ 63 := by
    intro n h1 h2 h3
    have := congrArg UInt8.toNat h3
    rw [UInt8.toNat_ofNat_of_lt' h1] at this
    exact h2 this
  intro b hb
  simp only [String.utf8EncodeChar] at hb
  split at hb
  · simp only [List.mem_cons, List.not_mem_nil, or_false] at hb
    subst hb
    exact key _ (by omega) hv
  split at hb
  · simp only [List.mem_cons, List.not_mem_nil, or_false] at hb
    rcases hb with rfl | rfl <;> exact key _ (by omega) (by omega)
  split at hb
  · simp only [List.mem_cons, List.not_mem_nil, or_false] at hb
    rcases hb with rfl | rfl | rfl <;> exact key _ (by omega) (by omega)
  · simp only [List.mem_cons, List.not_mem_nil, or_false] at hb
    rcases hb with rfl | rfl | rfl | rfl <;> exact key _ (by omega) (by omega)

theorem question : String.utf8EncodeChar '?' = [63] := by decide +kernel

theorem takeWhile_append_all {A : Type} {p : A → Bool} : ∀ {l m : List A}, (∀ a ∈ l, p a = true) →
    (l ++ m).takeWhile p = l ++ m.takeWhile p
  | [], _, _ => rfl
  | a :: l, m, h => by
    rw [List.cons_append, List.takeWhile_cons, if_pos (h a List.mem_cons_self),
      takeWhile_append_all (fun b hb => h b (List.mem_cons_of_mem _ hb)), List.cons_append]

theorem path_bytes : ∀ cs : List Char,
    (cs.flatMap String.utf8EncodeChar).takeWhile (fun b => decide (b ≠ 63)) =
      (cs.takeWhile (fun c => decide (c ≠ '?'))).flatMap String.utf8EncodeChar
  | [] => rfl
  | c :: cs => by
    by_cases hc : c = '?'
    · subst hc
      rw [List.flatMap_cons, question]
      simp
    · rw [List.flatMap_cons, takeWhile_append_all (fun b hb => by simpa using no_question hc b hb),
        path_bytes cs, List.takeWhile_cons, if_pos (by simpa using hc), List.flatMap_cons]

theorem takeWhile_path {path : List Char} (hp : '?' ∉ path) : ∀ cs : List Char,
    cs.takeWhile (fun c => decide (c ≠ '?')) = path ↔ cs = path ∨ ∃ rest, cs = path ++ '?' :: rest := by
  intro cs
  constructor
  · intro h
    have hs := List.takeWhile_append_dropWhile (p := fun c => decide (c ≠ '?')) (l := cs)
    rw [h] at hs
    cases hd : cs.dropWhile (fun c => decide (c ≠ '?')) with
    | nil => rw [hd, List.append_nil] at hs; exact .inl hs.symm
    | cons c rest =>
      have hc : c = '?' := by
        have := List.head_dropWhile_not (p := fun c => decide (c ≠ '?')) (l := cs)
          (by rw [hd]; simp)
        simp only [hd, List.head_cons] at this
        simpa using this
      rw [hd, hc] at hs
      exact .inr ⟨rest, hs.symm⟩
  · have ha : ∀ c ∈ path, decide (c ≠ '?') = true := by
      intro c hc
      simp only [decide_eq_true_eq]
      rintro rfl
      exact hp hc
    rintro (rfl | ⟨rest, rfl⟩)
    · have := takeWhile_append_all (m := []) ha
      simpa using this
    · rw [takeWhile_append_all ha]
      simp

/-- The bytes of the URL up to the first question mark are the path exactly if it is asked for. -/
theorem path_asked (url path : String) (hp : '?' ∉ path.toList) :
    (utf8 url).takeWhile (fun b => decide (b ≠ 63)) = utf8 path ↔ Asked url path := by
  rw [Asked, ← takeWhile_path hp, utf8_eq url, path_bytes, ← utf8_ofList]
  constructor
  · intro h
    rw [← utf8_inj h, String.toList_ofList]
  · intro h
    rw [h, String.ofList_toList]

end CyclesLedger.Candid
