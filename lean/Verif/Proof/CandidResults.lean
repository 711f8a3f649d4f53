import Verif.Proof.CandidErrors
/-! # Results as Candid -/
namespace CyclesLedger.Candid
open Spec.Candid

theorem good_blob : Good wBlob (.vec (.fixed .nat8)) putBlob (fun _ => True) := by
  refine ⟨by simp only [Wf], fun bs => ?_, fun bs _ => ⟨.inl rfl, rfl⟩⟩
  rw [putBlob, HasTy]
  refine ⟨_, rfl, ?_⟩
  intro x hx
  obtain ⟨b, _, rfl⟩ := List.mem_map.mp hx
  rw [HasTy]
  exact ⟨_, rfl, rfl⟩

theorem good_subaccount : Good wSubaccount (.vec (.fixed .nat8)) (fun s => putBlob s.val)
    (fun _ => True) :=
  ⟨good_blob.wf, fun s => good_blob.typed s.val, fun s _ => good_blob.ok s.val trivial⟩

theorem good_created : Good wCreated tyCreated putCreated
    (fun _ => True) := by
  refine ⟨recTy_wf _ (by decide +kernel) ?_, ?_, ?_⟩
  · intro f hf
    simp only [List.mem_cons, List.not_mem_nil, or_false] at hf
    rcases hf with rfl | rfl
    · exact good_nat.wf
    · exact good_principal.wf
  · intro a
    refine rec_typed [("block_id", .nat, .nat a.1), ("canister_id", .principal, putPrincipal a.2)]
      (by simp only [List.map_cons, List.map_nil]; decide +kernel) ?_
    intro f hf
    simp only [List.mem_cons, List.not_mem_nil, or_false] at hf
    rcases hf with rfl | rfl
    · exact good_nat.typed _
    · exact good_principal.typed _
  · intro a _
    obtain ⟨s, h1, h2⟩ := rec_spec [("block_id", .nat, .nat a.1), ("canister_id", .principal, putPrincipal a.2)]
      (by simp only [List.map_cons, List.map_nil]; decide +kernel)
    exact ⟨s, h1, ⟨_, _, (h2 _).mpr ⟨_, .head _, rfl⟩, good_nat.ok _ trivial⟩,
      ⟨_, _, (h2 _).mpr ⟨_, .tail _ (.head _), rfl⟩, good_principal.ok _ trivial⟩⟩

theorem good_deposit : Good wDepositResult tyDeposit (fun a => putDeposit a.1 a.2)
    (fun _ => True) := by
  refine ⟨recTy_wf _ (by decide +kernel) ?_, ?_, ?_⟩
  · intro f hf
    simp only [List.mem_cons, List.not_mem_nil, or_false] at hf
    rcases hf with rfl | rfl
    · exact good_nat.wf
    · exact good_nat.wf
  · intro a
    refine rec_typed [("block_index", .nat, .nat a.1), ("balance", .nat, .nat a.2)]
      (by simp only [List.map_cons, List.map_nil]; decide +kernel) ?_
    intro f hf
    simp only [List.mem_cons, List.not_mem_nil, or_false] at hf
    rcases hf with rfl | rfl
    · exact good_nat.typed _
    · exact good_nat.typed _
  · intro a _
    obtain ⟨s, h1, h2⟩ := rec_spec [("block_index", .nat, .nat a.1), ("balance", .nat, .nat a.2)]
      (by simp only [List.map_cons, List.map_nil]; decide +kernel)
    exact ⟨s, h1, ⟨_, _, (h2 _).mpr ⟨_, .tail _ (.head _), rfl⟩, good_nat.ok _ trivial⟩,
      ⟨_, _, (h2 _).mpr ⟨_, .head _, rfl⟩, good_nat.ok _ trivial⟩⟩

theorem good_account : Good wAccount tyAccount putAccount
    (fun _ => True) := by
  refine ⟨recTy_wf _ (by decide +kernel) ?_, ?_, ?_⟩
  · intro f hf
    simp only [List.mem_cons, List.not_mem_nil, or_false] at hf
    rcases hf with rfl | rfl
    · exact good_principal.wf
    · exact (good_opt good_subaccount).wf
  · intro a
    refine rec_typed [("owner", .principal, putPrincipal a.owner), ("subaccount", .opt (.vec (.fixed .nat8)), putOpt (fun s => putBlob s.val) a.subaccount)]
      (by simp only [List.map_cons, List.map_nil]; decide +kernel) ?_
    intro f hf
    simp only [List.mem_cons, List.not_mem_nil, or_false] at hf
    rcases hf with rfl | rfl
    · exact good_principal.typed _
    · exact (good_opt good_subaccount).typed _
  · intro a _
    obtain ⟨s, h1, h2⟩ := rec_spec [("owner", .principal, putPrincipal a.owner), ("subaccount", .opt (.vec (.fixed .nat8)), putOpt (fun s => putBlob s.val) a.subaccount)]
      (by simp only [List.map_cons, List.map_nil]; decide +kernel)
    exact ⟨s, h1, ⟨_, _, (h2 _).mpr ⟨_, .head _, rfl⟩, good_principal.ok _ trivial⟩,
      .inl ⟨_, _, (h2 _).mpr ⟨_, .tail _ (.head _), rfl⟩, (good_opt good_subaccount).ok _ (fun _ _ => trivial)⟩⟩

theorem good_allowance : Good wAllowanceResult tyAllowance putAllowance
    (fun a => ∀ e, a.2 = some e → e < 2 ^ 64) := by
  refine ⟨recTy_wf _ (by decide +kernel) ?_, ?_, ?_⟩
  · intro f hf
    simp only [List.mem_cons, List.not_mem_nil, or_false] at hf
    rcases hf with rfl | rfl
    · exact good_nat.wf
    · exact (good_opt good_time).wf
  · intro a
    refine rec_typed [("allowance", .nat, .nat a.1), ("expires_at", .opt (.fixed .nat64), putOpt putTime a.2)]
      (by simp only [List.map_cons, List.map_nil]; decide +kernel) ?_
    intro f hf
    simp only [List.mem_cons, List.not_mem_nil, or_false] at hf
    rcases hf with rfl | rfl
    · exact good_nat.typed _
    · exact (good_opt good_time).typed _
  · intro a ha
    obtain ⟨s, h1, h2⟩ := rec_spec [("allowance", .nat, .nat a.1), ("expires_at", .opt (.fixed .nat64), putOpt putTime a.2)]
      (by simp only [List.map_cons, List.map_nil]; decide +kernel)
    exact ⟨s, h1, ⟨_, _, (h2 _).mpr ⟨_, .head _, rfl⟩, good_nat.ok _ trivial⟩,
      .inl ⟨_, _, (h2 _).mpr ⟨_, .tail _ (.head _), rfl⟩, (good_opt good_time).ok _ ha⟩⟩

theorem good_entry : Good wEntry tyEntry putEntry
    (fun a => ∀ e, a.expiresAt = some e → e < 2 ^ 64) := by
  refine ⟨recTy_wf _ (by decide +kernel) ?_, ?_, ?_⟩
  · intro f hf
    simp only [List.mem_cons, List.not_mem_nil, or_false] at hf
    rcases hf with rfl | rfl | rfl | rfl
    · exact good_account.wf
    · exact good_account.wf
    · exact good_nat.wf
    · exact (good_opt good_time).wf
  · intro a
    refine rec_typed [("from_account", tyAccount, putAccount a.fromAccount), ("to_spender", tyAccount, putAccount a.toSpender), ("allowance", .nat, .nat a.allowance), ("expires_at", .opt (.fixed .nat64), putOpt putTime a.expiresAt)]
      (by simp only [List.map_cons, List.map_nil]; decide +kernel) ?_
    intro f hf
    simp only [List.mem_cons, List.not_mem_nil, or_false] at hf
    rcases hf with rfl | rfl | rfl | rfl
    · exact good_account.typed _
    · exact good_account.typed _
    · exact good_nat.typed _
    · exact (good_opt good_time).typed _
  · intro a ha
    obtain ⟨s, h1, h2⟩ := rec_spec [("from_account", tyAccount, putAccount a.fromAccount), ("to_spender", tyAccount, putAccount a.toSpender), ("allowance", .nat, .nat a.allowance), ("expires_at", .opt (.fixed .nat64), putOpt putTime a.expiresAt)]
      (by simp only [List.map_cons, List.map_nil]; decide +kernel)
    exact ⟨s, h1, ⟨_, _, (h2 _).mpr ⟨_, .head _, rfl⟩, good_account.ok _ trivial⟩,
      ⟨_, _, (h2 _).mpr ⟨_, .tail _ (.head _), rfl⟩, good_account.ok _ trivial⟩,
      ⟨_, _, (h2 _).mpr ⟨_, .tail _ (.tail _ (.head _)), rfl⟩, good_nat.ok _ trivial⟩,
      .inl ⟨_, _, (h2 _).mpr ⟨_, .tail _ (.tail _ (.tail _ (.head _))), rfl⟩, (good_opt good_time).ok _ ha⟩⟩

theorem det_created : Det wCreated := by
  rintro a b t v ⟨s, hr, h1, h2⟩ ⟨s', hr', h1', h2'⟩
  exact Prod.ext (det_has det_nat hr hr' h1 h1') (det_has det_principal hr hr' h2 h2')

theorem det_deposit : Det wDepositResult := by
  rintro a b t v ⟨s, hr, h1, h2⟩ ⟨s', hr', h1', h2'⟩
  exact Prod.ext (det_has det_nat hr hr' h2 h2') (det_has det_nat hr hr' h1 h1')

theorem det_account : Det wAccount := det_of_reads reads_account

theorem det_allowance : Det wAllowanceResult := by
  rintro a b t v ⟨s, hr, h1, h2⟩ ⟨s', hr', h1', h2'⟩
  exact Prod.ext (det_has det_nat hr hr' h1 h1') (det_hasOpt det_time plain_time hr hr' h2 h2')

theorem det_entry : Det wEntry := by
  rintro ⟨a1, a2, a3, a4⟩ ⟨b1, b2, b3, b4⟩ t v ⟨s, hr, h1, h2, h3, h4⟩ ⟨s', hr', h1', h2', h3', h4'⟩
  rw [AllowanceEntry.mk.injEq]
  exact ⟨det_has det_account hr hr' h1 h1', det_has det_account hr hr' h2 h2',
    det_has det_nat hr hr' h3 h3', det_hasOpt det_time plain_time hr hr' h4 h4'⟩

theorem some_entry : Fits wEntry tyEntry :=
  good_entry.fits ⟨⟨somePrincipal, none⟩, ⟨somePrincipal, none⟩, 0, none⟩ (fun _ h => by cases h)

theorem nodup_result (t u : Ty) : ((casesResult t u).map (fun f => nameHash f.1)).Nodup := by
  simp only [casesResult, List.map_cons, List.map_nil]; decide +kernel

theorem fits_allowancesError : Wf tyAllowancesError ∧ Fits wAllowancesError tyAllowancesError := by
  have g1 := good_one good_text "reason"
  have g2 := good_Generic []
  have hn : (([("AccessDenied", recTy [("reason", .text)]),
      ("GenericError", recTy [("error_code", .nat), ("message", .text)])] :
      List (String × Ty)).map (fun f => nameHash f.1)).Nodup := by
    simp only [List.map_cons, List.map_nil]; decide +kernel
  constructor
  · refine enumTy_wf _ hn ?_
    intro c hc
    simp only [List.mem_cons, List.not_mem_nil, or_false] at hc
    rcases hc with rfl | rfl
    · exact g1.wf
    · exact g2.wf
  · refine ⟨none, _, recTy [("reason", .text)], recVal [("reason", .text, .text [])],
      enum_case hn ?_ (.head _) _, [], g1.ok [] trivial⟩
    intro c hc
    simp only [List.mem_cons, List.not_mem_nil, or_false] at hc
    rcases hc with rfl | rfl
    · exact ⟨_, .head _, rfl, g1.fits [] trivial⟩
    · exact ⟨_, .tail _ (.head _), rfl, g2.fits 0 trivial⟩

theorem good_allowances : Good (fun l => wAllowancesResult (.ok l)) tyAllowances putAllowances
    (fun l => ∀ a ∈ l, ∀ e, a.expiresAt = some e → e < 2 ^ 64) := by
  have g := good_vec good_entry some_entry
  obtain ⟨g1, g2⟩ := fits_allowancesError
  refine ⟨enumTy_wf _ (nodup_result _ _) ?_, ?_, ?_⟩
  · intro c hc
    simp only [casesResult, List.mem_cons, List.not_mem_nil, or_false] at hc
    rcases hc with rfl | rfl
    · exact g.wf
    · exact g1
  · intro l
    exact enum_typed (nodup_result _ _) (.head _) (g.typed l)
  · intro l hl
    refine ⟨_, _, enum_case (nodup_result _ _) ?_ (.head _) _, g.ok l hl⟩
    intro c hc
    simp only [casesResult, List.mem_cons, List.not_mem_nil, or_false] at hc
    rcases hc with rfl | rfl
    · exact ⟨_, .head _, rfl, g.fits [] (fun a ha => by cases ha)⟩
    · exact ⟨_, .tail _ (.head _), rfl, g2⟩

theorem det_allowancesError : Det wAllowancesError := by
  refine det_variant ["AccessDenied", "GenericError"] (by decide +kernel) ?_ ?_
  · intro a
    cases a with
    | none => exact .head _
    | some _ => exact .tail _ (.head _)
  · intro a b u x hn h h'
    cases a with
    | none =>
      cases b with
      | none => rfl
      | some _ => exact absurd hn (by simp)
    | some a =>
      cases b with
      | none => exact absurd hn (by simp)
      | some b => rw [det_Generic _ _ _ _ h h']

theorem det_indexError : Det wIndexError := by
  refine det_variant ["IndexPrincipalNotSet", "GenericError"] (by decide +kernel) ?_ ?_
  · intro a
    cases a with
    | none => exact .head _
    | some _ => exact .tail _ (.head _)
  · intro a b u x hn h h'
    cases a with
    | none =>
      cases b with
      | none => rfl
      | some _ => exact absurd hn (by simp)
    | some a =>
      cases b with
      | none => exact absurd hn (by simp)
      | some b =>
        obtain ⟨s, hr, h1, _⟩ := h
        obtain ⟨s', hr', h1', _⟩ := h'
        rw [det_has det_nat hr hr' h1 h1']

/-- What the index query answers, as a result. -/
def indexResult : Option Principal → Except (Option Nat) Principal
  | some p => .ok p
  | none => .error none

theorem good_index : Good (fun o => wIndexResult (indexResult o)) tyIndex putIndex
    (fun _ => True) := by
  have hn : (casesIndexError.map (fun f => nameHash f.1)).Nodup := by
    simp only [casesIndexError, List.map_cons, List.map_nil]; decide +kernel
  have hn' : (([("error_code", .nat), ("description", .text)] :
      List (String × Ty)).map (fun f => nameHash f.1)).Nodup := by
    simp only [List.map_cons, List.map_nil]; decide +kernel
  have hg : Wf (recTy [("error_code", .nat), ("description", .text)]) := by
    refine recTy_wf _ hn' ?_
    intro f hf
    simp only [List.mem_cons, List.not_mem_nil, or_false] at hf
    rcases hf with rfl | rfl
    · exact good_nat.wf
    · exact good_text.wf
  have hk : ∀ c ∈ casesIndexError, ∃ k ∈ [("IndexPrincipalNotSet", IsNull),
      ("GenericError", Fits (fun (c : Nat) t v => ∃ s, Record s t v ∧ Has wNat s "error_code" c ∧
        ∃ m, Has wText s "description" m))], k.1 = c.1 ∧ k.2 c.2 := by
    intro c hc
    simp only [casesIndexError, List.mem_cons, List.not_mem_nil, or_false] at hc
    rcases hc with rfl | rfl
    · obtain ⟨s, h1, h2⟩ := rec_spec [("error_code", .nat, .nat 0), ("description", .text, .text [])]
        (by simp only [List.map_cons, List.map_nil]; decide +kernel)
      exact ⟨_, .tail _ (.head _), rfl, 0, _, s, h1,
        ⟨_, _, (h2 _).mpr ⟨_, .head _, rfl⟩, good_nat.ok _ trivial⟩,
        ⟨_, _, _, (h2 _).mpr ⟨_, .tail _ (.head _), rfl⟩, good_text.ok _ trivial⟩⟩
    · exact ⟨_, .head _, rfl, rfl⟩
  have hu : wIndexError none (enumTy casesIndexError)
      (enumVal casesIndexError "IndexPrincipalNotSet" .null) :=
    ⟨_, _, enum_case hn hk (.tail _ (.head _)) .null, bare_null⟩
  have hwf : Wf (enumTy casesIndexError) := by
    refine enumTy_wf _ hn ?_
    intro c hc
    simp only [casesIndexError, List.mem_cons, List.not_mem_nil, or_false] at hc
    rcases hc with rfl | rfl
    · exact hg
    · exact wf_null
  have hk' : ∀ c ∈ casesResult .principal (enumTy casesIndexError),
      ∃ k ∈ [("Ok", Fits wPrincipal), ("Err", Fits wIndexError)], k.1 = c.1 ∧ k.2 c.2 := by
    intro c hc
    simp only [casesResult, List.mem_cons, List.not_mem_nil, or_false] at hc
    rcases hc with rfl | rfl
    · exact ⟨_, .head _, rfl, good_principal.fits somePrincipal trivial⟩
    · exact ⟨_, .tail _ (.head _), rfl, none, _, hu⟩
  refine ⟨enumTy_wf _ (nodup_result _ _) ?_, ?_, ?_⟩
  · intro c hc
    simp only [casesResult, List.mem_cons, List.not_mem_nil, or_false] at hc
    rcases hc with rfl | rfl
    · exact good_principal.wf
    · exact hwf
  · intro o
    cases o with
    | some p => exact enum_typed (nodup_result _ _) (.head _) (good_principal.typed p)
    | none =>
      exact enum_typed (nodup_result _ _) (.tail _ (.head _))
        (enum_typed hn (.tail _ (.head _)) typed_null)
  · intro o _
    cases o with
    | some p => exact ⟨_, _, enum_case (nodup_result _ _) hk' (.head _) _, good_principal.ok p trivial⟩
    | none => exact ⟨_, _, enum_case (nodup_result _ _) hk' (.tail _ (.head _)) _, hu⟩

end CyclesLedger.Candid
