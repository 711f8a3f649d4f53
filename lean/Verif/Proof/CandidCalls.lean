import Verif.Spec.CandidCalls
import Verif.Model.CandidCalls
import Verif.Proof.CandidResults
import Verif.Proof.CandidSound
/-! # Calls to other canisters as Candid -/
namespace CyclesLedger.Candid
open Spec.Candid

/-! ## What is sent -/

theorem some_principal : Fits wPrincipal .principal := good_principal.fits somePrincipal trivial

theorem good_visibility : Good wLogVisibility (enumTy casesVisibility) putVisibility
    (fun _ => True) := by
  have gv := good_vec good_principal some_principal
  have hn : (casesVisibility.map (fun f => nameHash f.1)).Nodup := by decide +kernel
  have hk : ∀ c ∈ casesVisibility, ∃ k ∈ [("controllers", IsNull), ("public", IsNull),
      ("allowed_viewers", Fits (wVec wPrincipal))], k.1 = c.1 ∧ k.2 c.2 := by
    intro c hc
    simp only [casesVisibility, List.mem_cons, List.not_mem_nil, or_false] at hc
    rcases hc with rfl | rfl | rfl
    · exact ⟨_, .head _, rfl, rfl⟩
    · exact ⟨_, .tail _ (.head _), rfl, rfl⟩
    · exact ⟨_, .tail _ (.tail _ (.head _)), rfl, gv.fits [] (fun _ h => by cases h)⟩
  refine ⟨enumTy_wf _ hn ?_, ?_, ?_⟩
  · intro c hc
    simp only [casesVisibility, List.mem_cons, List.not_mem_nil, or_false] at hc
    rcases hc with rfl | rfl | rfl
    · exact wf_null
    · exact wf_null
    · exact gv.wf
  · intro a
    cases a with
    | controllers => exact enum_typed hn (u := .null) (.head _) typed_null
    | pub => exact enum_typed hn (u := .null) (.tail _ (.head _)) typed_null
    | allowedViewers l =>
      exact enum_typed hn (u := .vec .principal) (.tail _ (.tail _ (.head _))) (gv.typed l)
  · intro a _
    cases a with
    | controllers => exact enum_case hn hk (u := .null) (.head _) .null
    | pub => exact enum_case hn hk (u := .null) (.tail _ (.head _)) .null
    | allowedViewers l =>
      exact ⟨.vec .principal, _, enum_case hn hk (.tail _ (.tail _ (.head _))) _,
        gv.ok l (fun _ _ => trivial)⟩

theorem good_variable : Good wVariable tyVariable putVariable
    (fun _ => True) := by
  refine ⟨recTy_wf _ (by decide +kernel) ?_, ?_, ?_⟩
  · intro f hf
    simp only [List.mem_cons, List.not_mem_nil, or_false] at hf
    rcases hf with rfl | rfl
    · exact good_text.wf
    · exact good_text.wf
  · intro a
    refine rec_typed [("name", .text, .text a.1), ("value", .text, .text a.2)]
      (by simp only [List.map_cons, List.map_nil]; decide +kernel) ?_
    intro f hf
    simp only [List.mem_cons, List.not_mem_nil, or_false] at hf
    rcases hf with rfl | rfl
    · exact good_text.typed _
    · exact good_text.typed _
  · intro a _
    obtain ⟨s, h1, h2⟩ := rec_spec [("name", .text, .text a.1), ("value", .text, .text a.2)]
      (by simp only [List.map_cons, List.map_nil]; decide +kernel)
    exact ⟨s, h1, ⟨_, _, (h2 _).mpr ⟨_, .head _, rfl⟩, good_text.ok _ trivial⟩,
      ⟨_, _, (h2 _).mpr ⟨_, .tail _ (.head _), rfl⟩, good_text.ok _ trivial⟩⟩

theorem some_variable : Fits wVariable tyVariable := good_variable.fits ([], []) trivial

theorem good_settings : Good wSettings tySettings putSettings
    (fun _ => True) := by
  refine ⟨recTy_wf _ (by decide +kernel) ?_, ?_, ?_⟩
  · intro f hf
    simp only [List.mem_cons, List.not_mem_nil, or_false] at hf
    rcases hf with rfl | rfl | rfl | rfl | rfl | rfl | rfl | rfl | rfl
    · exact (good_opt (good_vec good_principal some_principal)).wf
    · exact (good_opt good_nat).wf
    · exact (good_opt good_nat).wf
    · exact (good_opt good_nat).wf
    · exact (good_opt good_nat).wf
    · exact (good_opt good_visibility).wf
    · exact (good_opt good_nat).wf
    · exact (good_opt good_nat).wf
    · exact (good_opt (good_vec good_variable some_variable)).wf
  · intro a
    refine rec_typed [("controllers", .opt (.vec .principal), putOpt (putVec putPrincipal) a.controllers), ("compute_allocation", .opt .nat, putOpt .nat a.computeAllocation), ("memory_allocation", .opt .nat, putOpt .nat a.memoryAllocation), ("freezing_threshold", .opt .nat, putOpt .nat a.freezingThreshold), ("reserved_cycles_limit", .opt .nat, putOpt .nat a.reservedCyclesLimit), ("log_visibility", .opt (enumTy casesVisibility), putOpt putVisibility a.logVisibility), ("wasm_memory_limit", .opt .nat, putOpt .nat a.wasmMemoryLimit), ("wasm_memory_threshold", .opt .nat, putOpt .nat a.wasmMemoryThreshold), ("environment_variables", .opt (.vec tyVariable), putOpt (putVec putVariable) a.environmentVariables)]
      (by simp only [List.map_cons, List.map_nil]; decide +kernel) ?_
    intro f hf
    simp only [List.mem_cons, List.not_mem_nil, or_false] at hf
    rcases hf with rfl | rfl | rfl | rfl | rfl | rfl | rfl | rfl | rfl
    · exact (good_opt (good_vec good_principal some_principal)).typed _
    · exact (good_opt good_nat).typed _
    · exact (good_opt good_nat).typed _
    · exact (good_opt good_nat).typed _
    · exact (good_opt good_nat).typed _
    · exact (good_opt good_visibility).typed _
    · exact (good_opt good_nat).typed _
    · exact (good_opt good_nat).typed _
    · exact (good_opt (good_vec good_variable some_variable)).typed _
  · intro a _
    obtain ⟨s, h1, h2⟩ := rec_spec [("controllers", .opt (.vec .principal), putOpt (putVec putPrincipal) a.controllers), ("compute_allocation", .opt .nat, putOpt .nat a.computeAllocation), ("memory_allocation", .opt .nat, putOpt .nat a.memoryAllocation), ("freezing_threshold", .opt .nat, putOpt .nat a.freezingThreshold), ("reserved_cycles_limit", .opt .nat, putOpt .nat a.reservedCyclesLimit), ("log_visibility", .opt (enumTy casesVisibility), putOpt putVisibility a.logVisibility), ("wasm_memory_limit", .opt .nat, putOpt .nat a.wasmMemoryLimit), ("wasm_memory_threshold", .opt .nat, putOpt .nat a.wasmMemoryThreshold), ("environment_variables", .opt (.vec tyVariable), putOpt (putVec putVariable) a.environmentVariables)]
      (by simp only [List.map_cons, List.map_nil]; decide +kernel)
    exact ⟨s, h1, .inl ⟨_, _, (h2 _).mpr ⟨_, .head _, rfl⟩, (good_opt (good_vec good_principal some_principal)).ok _ (fun _ _ _ _ => trivial)⟩,
      .inl ⟨_, _, (h2 _).mpr ⟨_, .tail _ (.head _), rfl⟩, (good_opt good_nat).ok _ (fun _ _ => trivial)⟩,
      .inl ⟨_, _, (h2 _).mpr ⟨_, .tail _ (.tail _ (.head _)), rfl⟩, (good_opt good_nat).ok _ (fun _ _ => trivial)⟩,
      .inl ⟨_, _, (h2 _).mpr ⟨_, .tail _ (.tail _ (.tail _ (.head _))), rfl⟩, (good_opt good_nat).ok _ (fun _ _ => trivial)⟩,
      .inl ⟨_, _, (h2 _).mpr ⟨_, .tail _ (.tail _ (.tail _ (.tail _ (.head _)))), rfl⟩, (good_opt good_nat).ok _ (fun _ _ => trivial)⟩,
      .inl ⟨_, _, (h2 _).mpr ⟨_, .tail _ (.tail _ (.tail _ (.tail _ (.tail _ (.tail _ (.head _)))))), rfl⟩, (good_opt good_nat).ok _ (fun _ _ => trivial)⟩,
      .inl ⟨_, _, (h2 _).mpr ⟨_, .tail _ (.tail _ (.tail _ (.tail _ (.tail _ (.tail _ (.tail _ (.head _))))))), rfl⟩, (good_opt good_nat).ok _ (fun _ _ => trivial)⟩,
      .inl ⟨_, _, (h2 _).mpr ⟨_, .tail _ (.tail _ (.tail _ (.tail _ (.tail _ (.head _))))), rfl⟩, (good_opt good_visibility).ok _ (fun _ _ => trivial)⟩,
      .inl ⟨_, _, (h2 _).mpr ⟨_, .tail _ (.tail _ (.tail _ (.tail _ (.tail _ (.tail _ (.tail _ (.tail _ (.head _)))))))), rfl⟩, (good_opt (good_vec good_variable some_variable)).ok _ (fun _ _ _ _ => trivial)⟩⟩

theorem good_filter : Good wFilter (recTy [("subnet_type", .opt .text)]) (fun a => recVal [("subnet_type", .opt .text, putOpt .text a)])
    (fun _ => True) := by
  refine ⟨recTy_wf _ (by decide +kernel) ?_, ?_, ?_⟩
  · intro f hf
    simp only [List.mem_cons, List.not_mem_nil, or_false] at hf
    rcases hf with rfl
    · exact (good_opt good_text).wf
  · intro a
    refine rec_typed [("subnet_type", .opt .text, putOpt .text a)]
      (by simp only [List.map_cons, List.map_nil]; decide +kernel) ?_
    intro f hf
    simp only [List.mem_cons, List.not_mem_nil, or_false] at hf
    rcases hf with rfl
    · exact (good_opt good_text).typed _
  · intro a _
    obtain ⟨s, h1, h2⟩ := rec_spec [("subnet_type", .opt .text, putOpt .text a)]
      (by simp only [List.map_cons, List.map_nil]; decide +kernel)
    exact ⟨s, h1, .inl ⟨_, _, (h2 _).mpr ⟨_, .head _, rfl⟩, (good_opt good_text).ok _ (fun _ _ => trivial)⟩⟩

theorem good_subnet : Good wSubnet (recTy [("subnet", .principal)])
    (fun a => recVal [("subnet", .principal, putPrincipal a)]) (fun _ => True) :=
  good_one good_principal "subnet"

theorem good_selection : Good wSelection (enumTy casesSelection) putSelection (fun _ => True) := by
  have hn : (casesSelection.map (fun f => nameHash f.1)).Nodup := by decide +kernel
  have hk : ∀ c ∈ casesSelection, ∃ k ∈ [("Filter", Fits wFilter), ("Subnet", Fits wSubnet)],
      k.1 = c.1 ∧ k.2 c.2 := by
    intro c hc
    simp only [casesSelection, List.mem_cons, List.not_mem_nil, or_false] at hc
    rcases hc with rfl | rfl
    · exact ⟨_, .head _, rfl, good_filter.fits none trivial⟩
    · exact ⟨_, .tail _ (.head _), rfl, good_subnet.fits somePrincipal trivial⟩
  refine ⟨enumTy_wf _ hn ?_, ?_, ?_⟩
  · intro c hc
    simp only [casesSelection, List.mem_cons, List.not_mem_nil, or_false] at hc
    rcases hc with rfl | rfl
    · exact good_filter.wf
    · exact good_subnet.wf
  · intro a
    cases a with
    | filter o => exact enum_typed hn (.head _) (good_filter.typed o)
    | subnet p => exact enum_typed hn (.tail _ (.head _)) (good_subnet.typed p)
  · intro a _
    cases a with
    | filter o => exact ⟨_, _, enum_case hn hk (.head _) _, good_filter.ok o trivial⟩
    | subnet p => exact ⟨_, _, enum_case hn hk (.tail _ (.head _)) _, good_subnet.ok p trivial⟩

theorem good_cmcArgs : Good wCmcArgs tyCmcArgs putCmcArgs
    (fun _ => True) := by
  refine ⟨recTy_wf _ (by decide +kernel) ?_, ?_, ?_⟩
  · intro f hf
    simp only [List.mem_cons, List.not_mem_nil, or_false] at hf
    rcases hf with rfl | rfl
    · exact (good_opt good_selection).wf
    · exact (good_opt good_settings).wf
  · intro a
    refine rec_typed [("subnet_selection", .opt (enumTy casesSelection), putOpt putSelection a.subnetSelection), ("settings", .opt tySettings, putOpt putSettings a.settings)]
      (by simp only [List.map_cons, List.map_nil]; decide +kernel) ?_
    intro f hf
    simp only [List.mem_cons, List.not_mem_nil, or_false] at hf
    rcases hf with rfl | rfl
    · exact (good_opt good_selection).typed _
    · exact (good_opt good_settings).typed _
  · intro a _
    obtain ⟨s, h1, h2⟩ := rec_spec [("subnet_selection", .opt (enumTy casesSelection), putOpt putSelection a.subnetSelection), ("settings", .opt tySettings, putOpt putSettings a.settings)]
      (by simp only [List.map_cons, List.map_nil]; decide +kernel)
    exact ⟨s, h1, .inl ⟨_, _, (h2 _).mpr ⟨_, .tail _ (.head _), rfl⟩, (good_opt good_settings).ok _ (fun _ _ => trivial)⟩,
      .inl ⟨_, _, (h2 _).mpr ⟨_, .head _, rfl⟩, (good_opt good_selection).ok _ (fun _ _ => trivial)⟩⟩

theorem good_depositCycles : Good (wOne "canister_id" wPrincipal) tyDepositCycles putDepositCycles
    (fun _ => True) :=
  good_one good_principal "canister_id"

/-! ## What is answered -/

/-- The error of the CMC that `o` stands for. -/
def cmcErr : Option Nat → CmcError
  | some n => .refunded n
  | none => .refundFailed

theorem reads_refunded : Reads desRefunded wRefunded := by
  rintro a t v ⟨s, hr, h0, hn, m, h1⟩
  have hu : Reads desU128 (fun n t v => wNat n t v ∧ n < 2 ^ 128) := by
    rintro x t v ⟨⟨rfl, rfl⟩, hx⟩
    refine ⟨rfl, ?_⟩
    simp only [desU128, toU128]
    rw [if_pos (by rw [U128MAX_eq]; omega)]
  obtain ⟨u, y, hm, hw⟩ := h0
  obtain ⟨a0, b0⟩ := reads_has hu hr (x := a) ⟨u, y, hm, hw, hn⟩
  obtain ⟨a1, b1⟩ := reads_has reads_text hr h1
  refine ⟨accepts_struct hr ?_, ?_⟩
  · simp only [List.mem_cons, List.not_mem_nil, or_false]
    rintro f (rfl | rfl)
    · exact a0
    · exact a1
  · simp only [desRefunded, b0, b1, Option.bind_eq_bind, Option.bind_some, Option.pure_def]

theorem reads_refundFailed : Reads desRefundFailed wRefundFailed := by
  rintro a t v ⟨s, hr, ⟨m, h0⟩, m', h1⟩
  obtain ⟨a0, b0⟩ := reads_has reads_text hr h0
  obtain ⟨a1, b1⟩ := reads_has reads_text hr h1
  refine ⟨accepts_struct hr ?_, ?_⟩
  · simp only [List.mem_cons, List.not_mem_nil, or_false]
    rintro f (rfl | rfl)
    · exact a0
    · exact a1
  · simp only [desRefundFailed, b0, b1, Option.bind_eq_bind, Option.bind_some, Option.pure_def]

theorem cmcError_case {name : String} {u : Ty} {x : Val} {t : Ty} {v : Val}
    (h : Case [("Refunded", Fits wRefunded), ("RefundFailed", Fits wRefundFailed)] name u x t v) :
    accepts desCmcError.ty t = true ∧ theCase t v = some (nameHash name, u, x) := by
  apply reads_case h
  · simp only [List.mem_cons, List.not_mem_nil, or_false, List.map_cons, List.map_nil]
    rintro k (rfl | rfl) <;> simp
  · simp only [List.mem_cons, List.not_mem_nil, or_false]
    rintro k (rfl | rfl) f (rfl | rfl) he u hu
    · exact reads_refunded.fits hu
    · exact absurd he (by decide +kernel)
    · exact absurd he (by decide +kernel)
    · exact reads_refundFailed.fits hu

theorem reads_cmcError {o : Option Nat} {t : Ty} {v : Val} (h : wCmcError o t v) :
    accepts desCmcError.ty t = true ∧ desCmcError.get t v = some (cmcErr o) := by
  obtain ⟨u, x, h, hx⟩ := h
  obtain ⟨h1, h2⟩ := cmcError_case h
  refine ⟨h1, ?_⟩
  cases o with
  | some n =>
    simp only [desCmcError, h2, label_eq, (reads_refunded _ _ _ hx).2, Option.map_some]
    rw [if_pos trivial]; rfl
  | none =>
    have hx : wRefundFailed () u x := hx
    simp only [desCmcError, h2, label_eq]
    rw [if_neg (by decide +kernel), if_pos trivial, (reads_refundFailed _ _ _ hx).2]; rfl

/-- What the answer `r` of the CMC is read as. -/
def cmcRes : Except (Option Nat) Principal → Except CmcError Principal
  | .ok p => .ok p
  | .error o => .error (cmcErr o)

theorem cmcReply_case {name : String} {u : Ty} {x : Val} {t : Ty} {v : Val}
    (h : Case [("Ok", Fits wPrincipal), ("Err", Fits wCmcError)] name u x t v) :
    accepts desCmcReply.ty t = true ∧ theCase t v = some (nameHash name, u, x) := by
  apply reads_case h
  · simp only [List.mem_cons, List.not_mem_nil, or_false, List.map_cons, List.map_nil]
    rintro k (rfl | rfl) <;> simp
  · simp only [List.mem_cons, List.not_mem_nil, or_false]
    rintro k (rfl | rfl) f (rfl | rfl) he u hu
    · exact reads_principal.fits hu
    · exact absurd he (by decide +kernel)
    · exact absurd he (by decide +kernel)
    · exact (reads_cmcError hu.choose_spec.choose_spec).1

theorem reads_cmcReply {r : Except (Option Nat) Principal} {t : Ty} {v : Val} (h : wCmcReply r t v) :
    accepts desCmcReply.ty t = true ∧ desCmcReply.get t v = some (cmcRes r) := by
  obtain ⟨u, x, h, hx⟩ := h
  obtain ⟨h1, h2⟩ := cmcReply_case h
  refine ⟨h1, ?_⟩
  cases r with
  | ok p =>
    simp only [desCmcReply, h2, label_eq, (reads_principal _ _ _ hx).2, Option.map_some]
    rw [if_pos trivial]; rfl
  | error o =>
    simp only [desCmcReply, h2, label_eq, (reads_cmcError hx).2, Option.map_some]
    rw [if_neg (by decide +kernel), if_pos trivial]; rfl

/-! ## The answer can be written -/

def tyRefunded : Ty := recTy [("refund_amount", .nat), ("create_error", .text)]

def tyRefundFailed : Ty := recTy [("create_error", .text), ("refund_error", .text)]

def casesCmcError : List (String × Ty) :=
  [("Refunded", tyRefunded), ("RefundFailed", tyRefundFailed)]

def putRefunded (a : Nat) : Val :=
  recVal [("refund_amount", .nat, .nat a), ("create_error", .text, .text [])]

def putRefundFailed (_ : Unit) : Val :=
  recVal [("create_error", .text, .text []), ("refund_error", .text, .text [])]

def putCmcError : Option Nat → Val
  | some n => enumVal casesCmcError "Refunded" (putRefunded n)
  | none => enumVal casesCmcError "RefundFailed" (putRefundFailed ())

theorem good_refunded : Good wRefunded tyRefunded putRefunded (fun n => n < 2 ^ 128) := by
  refine ⟨recTy_wf _ (by decide +kernel) ?_, ?_, ?_⟩
  · intro f hf
    simp only [List.mem_cons, List.not_mem_nil, or_false] at hf
    rcases hf with rfl | rfl
    · exact good_nat.wf
    · exact good_text.wf
  · intro a
    refine rec_typed [("refund_amount", .nat, .nat a), ("create_error", .text, .text [])]
      (by simp only [List.map_cons, List.map_nil]; decide +kernel) ?_
    intro f hf
    simp only [List.mem_cons, List.not_mem_nil, or_false] at hf
    rcases hf with rfl | rfl
    · exact good_nat.typed _
    · exact good_text.typed _
  · intro a ha
    obtain ⟨s, h1, h2⟩ := rec_spec [("refund_amount", .nat, .nat a), ("create_error", .text, .text [])]
      (by simp only [List.map_cons, List.map_nil]; decide +kernel)
    exact ⟨s, h1, ⟨_, _, (h2 _).mpr ⟨_, .head _, rfl⟩, good_nat.ok _ trivial⟩, ha,
      _, ⟨_, _, (h2 _).mpr ⟨_, .tail _ (.head _), rfl⟩, good_text.ok _ trivial⟩⟩

theorem good_refundFailed : Good wRefundFailed tyRefundFailed putRefundFailed (fun _ => True) := by
  refine ⟨recTy_wf _ (by decide +kernel) ?_, ?_, ?_⟩
  · intro f hf
    simp only [List.mem_cons, List.not_mem_nil, or_false] at hf
    rcases hf with rfl | rfl
    · exact good_text.wf
    · exact good_text.wf
  · intro a
    refine rec_typed [("create_error", .text, .text []), ("refund_error", .text, .text [])]
      (by simp only [List.map_cons, List.map_nil]; decide +kernel) ?_
    intro f hf
    simp only [List.mem_cons, List.not_mem_nil, or_false] at hf
    rcases hf with rfl | rfl
    · exact good_text.typed _
    · exact good_text.typed _
  · intro a _
    obtain ⟨s, h1, h2⟩ := rec_spec
      [("create_error", .text, .text []), ("refund_error", .text, .text [])]
      (by simp only [List.map_cons, List.map_nil]; decide +kernel)
    exact ⟨s, h1, ⟨_, _, _, (h2 _).mpr ⟨_, .head _, rfl⟩, good_text.ok _ trivial⟩,
      _, ⟨_, _, (h2 _).mpr ⟨_, .tail _ (.head _), rfl⟩, good_text.ok _ trivial⟩⟩

theorem good_cmcError : Good wCmcError (enumTy casesCmcError) putCmcError
    (fun o => ∀ n, o = some n → n < 2 ^ 128) := by
  refine good_enum (by decide +kernel) ?_ ?_
  · intro c hc
    simp only [casesCmcError, List.mem_cons, List.not_mem_nil, or_false] at hc
    rcases hc with rfl | rfl
    · exact ⟨good_refunded.wf, _, .head _, rfl, good_refunded.fits 0 (by decide)⟩
    · exact ⟨good_refundFailed.wf, _, .tail _ (.head _), rfl, good_refundFailed.fits () trivial⟩
  · intro a
    cases a with
    | some n => exact ⟨_, _, .head _, rfl, good_refunded.typed n, fun h => good_refunded.ok n (h n rfl)⟩
    | none =>
      exact ⟨_, _, .tail _ (.head _), rfl, good_refundFailed.typed (),
        fun _ => good_refundFailed.ok () trivial⟩

theorem good_cmcReply : Good wCmcReply (enumTy (casesResult .principal (enumTy casesCmcError)))
    (putResult .principal (enumTy casesCmcError) putPrincipal putCmcError)
    (fun r => ∀ e, r = .error e → ∀ n, e = some n → n < 2 ^ 128) :=
  good_result good_principal good_cmcError somePrincipal none (fun _ h => by cases h)

/-! ## What is read was answered -/

theorem sound_u128 : Sound desU128 (fun n t v => wNat n t v ∧ n < 2 ^ 128) := by
  intro t v x ht ha hg
  cases t <;> simp only [desU128, accepts] at ha <;> try cases ha
  case empty => simp only [HasTy] at ht
  simp only [HasTy] at ht; obtain ⟨n, rfl⟩ := ht
  simp only [desU128, toU128] at hg
  split at hg
  · cases hg
    refine ⟨⟨rfl, rfl⟩, ?_⟩
    rename_i h
    rw [U128MAX_eq] at h
    omega
  · cases hg

theorem sound_text : Sound desText wText := by
  intro t v x ht ha hg
  cases t <;> simp only [desText, accepts] at ha <;> try cases ha
  case empty => simp only [HasTy] at ht
  simp only [HasTy] at ht; obtain ⟨n, rfl⟩ := ht
  simp only [desText, Option.some.injEq] at hg; subst hg
  exact ⟨rfl, rfl⟩

theorem ofList_surj : ∀ fs : Fields, ∃ cs, fs = Fields.ofList cs
  | .nil => ⟨[], rfl⟩
  | .cons l t fs => by
    obtain ⟨cs, h⟩ := ofList_surj fs
    exact ⟨(l, t) :: cs, by rw [h]; rfl⟩

theorem theCase_some {t : Ty} {v : Val} {l : Nat} {u : Ty} {x : Val}
    (h : theCase t v = some (l, u, x)) :
    ∃ cs i, t = .variant (Fields.ofList cs) ∧ cs[i]? = some (l, u) ∧ v = .variant i x := by
  unfold theCase at h
  split at h
  · rename_i fs i y
    obtain ⟨cs, rfl⟩ := ofList_surj fs
    rw [get?_ofList, Option.map_eq_some_iff] at h
    obtain ⟨⟨l', u'⟩, h1, h2⟩ := h
    cases h2
    exact ⟨cs, i, rfl, h1, rfl⟩
  · cases h

mutual
/-- Labels increase. -/
def Sorted : Ty → Prop
  | .opt t => Sorted t
  | .vec t => Sorted t
  | .record fs => fs.labels.Pairwise (· < ·) ∧ SortedAll fs
  | .variant fs => fs.labels.Pairwise (· < ·) ∧ SortedAll fs
  | _ => True
def SortedAll : Fields → Prop
  | .nil => True
  | .cons _ t fs => Sorted t ∧ SortedAll fs
end

mutual
/-- The labels in the types of a message increase. -/
theorem sorted_of_unfolds {table : List Comp} (h : ∀ c ∈ table, CompOk table c) :
    ∀ (t : Ty) (k : Nat) (r : Int), Unfolds table t k r → Sorted t
  | .null, _, _, _ | .bool, _, _, _ | .nat, _, _, _ | .int, _, _, _ | .fixed _, _, _, _
  | .text, _, _, _ | .reserved, _, _, _ | .principal, _, _, _ | .empty, _, _, _ | .func, _, _, _
  | .service, _, _, _ | .cut, _, _, _ => by simp only [Sorted]
  | .opt t, k, r, hd => by
    simp only [Unfolds] at hd; obtain ⟨j, s, _, _, h2⟩ := hd
    simp only [Sorted]; exact sorted_of_unfolds h t j s h2
  | .vec t, k, r, hd => by
    simp only [Unfolds] at hd; obtain ⟨j, s, _, _, h2⟩ := hd
    simp only [Sorted]; exact sorted_of_unfolds h t j s h2
  | .record fs, k, r, hd => by
    simp only [Unfolds] at hd; obtain ⟨j, l, _, h1, h2⟩ := hd
    have hl := at_ok h h1
    simp only [Sorted]
    refine ⟨?_, (sortedAll_of_unfolds h fs j l h2).2⟩
    rw [(sortedAll_of_unfolds h fs j l h2).1, List.pairwise_map]
    exact hl.1
  | .variant fs, k, r, hd => by
    simp only [Unfolds] at hd; obtain ⟨j, l, _, h1, h2⟩ := hd
    have hl := at_ok h h1
    simp only [Sorted]
    refine ⟨?_, (sortedAll_of_unfolds h fs j l h2).2⟩
    rw [(sortedAll_of_unfolds h fs j l h2).1, List.pairwise_map]
    exact hl.1
theorem sortedAll_of_unfolds {table : List Comp} (h : ∀ c ∈ table, CompOk table c) :
    ∀ (fs : Fields) (k : Nat) (l : List (Nat × Int)), UnfoldsAll table fs k l →
      fs.labels = l.map Prod.fst ∧ SortedAll fs
  | .nil, k, l, hd => by
    simp only [UnfoldsAll] at hd; subst hd
    exact ⟨rfl, by simp only [SortedAll]⟩
  | .cons lb t fs, k, l, hd => by
    simp only [UnfoldsAll] at hd; obtain ⟨s, rest, rfl, h1, h2⟩ := hd
    obtain ⟨h3, h4⟩ := sortedAll_of_unfolds h fs k rest h2
    refine ⟨?_, ?_⟩
    · simp only [Fields.labels, h3, List.map_cons]
    · simp only [SortedAll]; exact ⟨sorted_of_unfolds h t k s h1, h4⟩
end

theorem sorted_first {bs : Bytes} {t : Ty} {v : Val} {more : List (Ty × Val)}
    (h : IsMessage bs ((t, v) :: more)) : Sorted t := by
  obtain ⟨table, refs, hc, h, _⟩ := h
  cases refs with
  | nil => simp only [Arguments] at h; cases h
  | cons r refs =>
    simp only [Arguments] at h
    obtain ⟨_, _, _, he, hd, _, _⟩ := h
    cases he; exact sorted_of_unfolds hc _ _ _ hd

theorem sortedAll_mem (l : List (Nat × Ty)) (h : SortedAll (Fields.ofList l)) : ∀ f ∈ l, Sorted f.2 := by
  induction l with
  | nil => intro f hf; cases hf
  | cons g l ih =>
    obtain ⟨k, t⟩ := g
    simp only [Fields.ofList, SortedAll] at h
    intro f hf
    rcases List.mem_cons.mp hf with rfl | hf
    · exact h.1
    · exact ih h.2 f hf

theorem hasCase_typed (cs : List (Nat × Ty)) (i : Nat) {l : Nat} {u : Ty} {x : Val}
    (h : cs[i]? = some (l, u)) (hc : HasCase (Fields.ofList cs) i x) : HasTy u x := by
  induction cs generalizing i with
  | nil => cases h
  | cons c cs ih =>
    obtain ⟨k, t⟩ := c
    simp only [Fields.ofList, HasCase] at hc
    rcases hc with ⟨rfl, hx⟩ | ⟨j, rfl, hx⟩
    · cases h; exact hx
    · exact ih j (by simpa using h) hx

theorem find_of_mem {cs : List (Nat × Ty)} (hs : cs.Pairwise (fun a b => a.1 < b.1)) {l : Nat} {u : Ty}
    (h : (l, u) ∈ cs) : (Fields.ofList cs).find l = some u := by
  induction cs with
  | nil => cases h
  | cons c cs ih =>
    obtain ⟨k, t⟩ := c
    simp only [Fields.ofList, Fields.find]
    rw [List.pairwise_cons] at hs
    rcases List.mem_cons.mp h with he | hm
    · cases he; simp
    · have := hs.1 _ hm
      rw [if_neg (by simp only at this; omega)]
      exact ih hs.2 hm

/-- The content of the case of an accepted value is accepted. -/
theorem case_accepted {L : List (String × Ty)} {t : Ty} {v : Val} (hw : Sorted t) (ht : HasTy t v)
    (ha : accepts (enum L) t = true) {l : Nat} {u : Ty} {x : Val}
    (hc : theCase t v = some (l, u, x)) : Sorted u ∧ HasTy u x ∧
      ∀ f ∈ L, label f.1 = l → accepts f.2 u = true := by
  obtain ⟨cs, i, rfl, hi, rfl⟩ := theCase_some hc
  simp only [Sorted] at hw
  rw [HasTy] at ht
  obtain ⟨i', x', he, hx⟩ := ht
  cases he
  have hm := List.mem_of_getElem? hi
  refine ⟨sortedAll_mem cs hw.2 _ hm, hasCase_typed cs i hi hx, ?_⟩
  rintro f hf rfl
  simp only [enum, accepts, Bool.and_eq_true] at ha
  refine (acceptsCases_iff _ _).mp ha.2 (label f.1, f.2) (List.mem_map.mpr ⟨f, hf, rfl⟩) u ?_
  refine find_of_mem ?_ hm
  have := hw.1
  rw [labels_ofList, List.pairwise_map] at this
  exact this

theorem record_of_fielded {s : List (Nat × Ty × Val)} {t : Ty} {v : Val} (hw : Sorted t)
    (h : Fielded s t v) : Record s t v := by
  obtain ⟨rfl, rfl⟩ := h
  simp only [Sorted] at hw
  refine ⟨?_, rfl, rfl⟩
  have := hw.1
  rw [labels_ofList, List.map_map, List.pairwise_map] at this
  exact this

theorem isCase_of {name : String} {t : Ty} {v : Val} {u : Ty} {x : Val}
    (h : theCase t v = some (label name, u, x)) : IsCase name u x t v := by
  obtain ⟨cs, i, h1, h2, h3⟩ := theCase_some h
  rw [label_eq] at h2
  exact ⟨cs, i, h1, h2, h3⟩

theorem sound_refunded {t : Ty} {v : Val} {n : Nat} (hw : Sorted t) (ht : HasTy t v)
    (ha : accepts desRefunded.ty t = true) (hg : desRefunded.get t v = some n) :
    wRefunded n t v := by
  obtain ⟨s, hf, hs, hm⟩ := fielded_struct ht ha
  simp only [desRefunded, Option.bind_eq_bind, Option.bind_eq_some_iff, Option.pure_def,
    Option.some.injEq] at hg
  obtain ⟨x0, g0, x1, g1, rfl⟩ := hg
  have m0 := hm _ (List.mem_of_getElem? (i := 0) rfl)
  have m1 := hm _ (List.mem_of_getElem? (i := 1) rfl)
  obtain ⟨u, y, h1, h2, h3⟩ := sound_has sound_u128 rfl hf hs m0 g0
  exact ⟨s, record_of_fielded hw hf, ⟨u, y, h1, h2⟩, h3, _, sound_has sound_text rfl hf hs m1 g1⟩

theorem sound_refundFailed {t : Ty} {v : Val} (hw : Sorted t) (ht : HasTy t v)
    (ha : accepts desRefundFailed.ty t = true) (hg : desRefundFailed.get t v = some ()) :
    wRefundFailed () t v := by
  obtain ⟨s, hf, hs, hm⟩ := fielded_struct ht ha
  simp only [desRefundFailed, Option.bind_eq_bind, Option.bind_eq_some_iff, Option.pure_def] at hg
  obtain ⟨x0, g0, x1, g1, _⟩ := hg
  have m0 := hm _ (List.mem_of_getElem? (i := 0) rfl)
  have m1 := hm _ (List.mem_of_getElem? (i := 1) rfl)
  exact ⟨s, record_of_fielded hw hf, ⟨_, sound_has sound_text rfl hf hs m0 g0⟩,
    _, sound_has sound_text rfl hf hs m1 g1⟩

theorem sound_cmcError {t : Ty} {v : Val} {e : CmcError} (hw : Sorted t) (ht : HasTy t v)
    (ha : accepts desCmcError.ty t = true) (hg : desCmcError.get t v = some e) :
    (∃ n u x, e = .refunded n ∧ IsCase "Refunded" u x t v ∧ wRefunded n u x) ∨
    (∃ u x, e = .refundFailed ∧ IsCase "RefundFailed" u x t v ∧ wRefundFailed () u x) := by
  simp only [desCmcError] at hg
  cases hc : theCase t v with
  | none => rw [hc] at hg; cases hg
  | some c =>
    obtain ⟨l, u, x⟩ := c
    rw [hc] at hg
    obtain ⟨w1, w2, w3⟩ := case_accepted hw ht ha hc
    simp only at hg
    split at hg
    · rename_i hl
      rw [Option.map_eq_some_iff] at hg
      obtain ⟨n, hg, rfl⟩ := hg
      rw [hl] at hc
      exact .inl ⟨n, u, x, rfl, isCase_of hc,
        sound_refunded w1 w2 (w3 _ (.head _) hl.symm) hg⟩
    · split at hg
      · rename_i hl
        rw [Option.map_eq_some_iff] at hg
        obtain ⟨n, hg, rfl⟩ := hg
        rw [hl] at hc
        exact .inr ⟨u, x, rfl, isCase_of hc,
          sound_refundFailed w1 w2 (w3 _ (.tail _ (.head _)) hl.symm) hg⟩
      · cases hg

theorem sound_cmcReply {t : Ty} {v : Val} {r : Except CmcError Principal} (hw : Sorted t) (ht : HasTy t v)
    (ha : accepts desCmcReply.ty t = true) (hg : desCmcReply.get t v = some r) :
    (∃ p u x, r = .ok p ∧ IsCase "Ok" u x t v ∧ wPrincipal p u x) ∨
    (∃ e u x, r = .error e ∧ IsCase "Err" u x t v ∧
      ((∃ n u' x', e = .refunded n ∧ IsCase "Refunded" u' x' u x ∧ wRefunded n u' x') ∨
       (∃ u' x', e = .refundFailed ∧ IsCase "RefundFailed" u' x' u x ∧ wRefundFailed () u' x'))) := by
  simp only [desCmcReply] at hg
  cases hc : theCase t v with
  | none => rw [hc] at hg; cases hg
  | some c =>
    obtain ⟨l, u, x⟩ := c
    rw [hc] at hg
    obtain ⟨w1, w2, w3⟩ := case_accepted hw ht ha hc
    simp only at hg
    split at hg
    · rename_i hl
      rw [Option.map_eq_some_iff] at hg
      obtain ⟨p, hg, rfl⟩ := hg
      rw [hl] at hc
      exact .inl ⟨p, u, x, rfl, isCase_of hc, sound_principal u x p w2 (w3 _ (.head _) hl.symm) hg⟩
    · split at hg
      · rename_i hl
        rw [Option.map_eq_some_iff] at hg
        obtain ⟨e, hg, rfl⟩ := hg
        rw [hl] at hc
        exact .inr ⟨e, u, x, rfl, isCase_of hc,
          sound_cmcError w1 w2 (w3 _ (.tail _ (.head _)) hl.symm) hg⟩
      · cases hg

theorem theCase_taken {l : Nat} {u : Ty} {x : Val} {t : Ty} {v : Val} (h : Taken l u x t v) :
    theCase t v = some (l, u, x) := by
  obtain ⟨cs, i, rfl, hi, rfl⟩ := h
  simp only [theCase, get?_ofList, hi, Option.map_some]

theorem unknown_cmcReply {t : Ty} {v : Val} (h : Unknown t v) : desCmcReply.get t v = none := by
  rcases h with ⟨l, u, x, h, h1, h2⟩ | ⟨u, x, h, l, u', x', h', h1, h2⟩
  · simp only [desCmcReply, theCase_taken h, label_eq]
    rw [if_neg h1, if_neg h2]
  · simp only [desCmcReply, theCase_taken h, label_eq]
    rw [if_neg (by decide +kernel), if_pos trivial]
    simp only [desCmcError, theCase_taken h', label_eq]
    rw [if_neg h1, if_neg h2]; rfl

end CyclesLedger.Candid
