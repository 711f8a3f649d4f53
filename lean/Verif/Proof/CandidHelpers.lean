import Verif.Spec.CandidHelpers
import Verif.Proof.CandidCoerceRest
import Verif.Proof.CandidMeta
/-! # The depositor in bytes -/
namespace CyclesLedger.Candid
open Spec.Candid

theorem coercing_depositorInit : Coercing desDepositorInit Did.depositorInit Mean.depositorInit := by
  have key := coercing_record (d := desDepositorInit) (E := [(nameHash "ledger_id", .principal)])
    (F := fun a => [Mean.principal a]) (L := _) rfl rfl ?_ ?_
  · exact key
  · intro fs hp hs
    have c0 := fit_iff coercing_principal hp hs (nameHash "ledger_id")
    simp only [List.map_cons, List.map_nil, List.forall_mem_cons, label_eq, c0]
    exact ⟨fun ⟨h0, h⟩ => ⟨h0, (fun _ h => by cases h)⟩, fun ⟨h0, h⟩ => ⟨h0, (fun _ h => by cases h)⟩⟩
  · intro s t v a hr hs ht hf
    have c0 := is_iff coercing_principal hr hs ht (l := nameHash "ledger_id")
      (hf (nameHash "ledger_id", .principal) (List.mem_of_getElem? (i := 0) rfl))
    simp only [desDepositorInit, Candid.field, label_eq, allAre_cons, allAre_nil, c0]
    exact ⟨fun h => ⟨h, trivial⟩, fun h => h.1⟩

theorem coercing_depositResult : Coercing desDepositResult Did.depositResult Mean.depositResult := by
  have key := coercing_record (d := desDepositResult)
    (E := [(nameHash "balance", .nat), (nameHash "block_index", .nat)])
    (F := fun a => [.nat a.2, .nat a.1]) (L := _) rfl rfl ?_ ?_
  · exact key
  · intro fs hp hs
    have c0 := fit_iff coercing_nat hp hs (nameHash "block_index")
    have c1 := fit_iff coercing_nat hp hs (nameHash "balance")
    simp only [List.map_cons, List.map_nil, List.forall_mem_cons, label_eq, c0, c1]
    exact ⟨fun ⟨h0, h1, h⟩ => ⟨h1, h0, (fun _ h => by cases h)⟩, fun ⟨h1, h0, h⟩ => ⟨h0, h1, (fun _ h => by cases h)⟩⟩
  · intro s t v a hr hs ht hf
    have c0 := is_iff coercing_nat hr hs ht (l := nameHash "block_index")
      (hf (nameHash "block_index", .nat) (List.mem_of_getElem? (i := 1) rfl))
    have c1 := is_iff coercing_nat hr hs ht (l := nameHash "balance")
      (hf (nameHash "balance", .nat) (List.mem_of_getElem? (i := 0) rfl))
    simp only [desDepositResult, Candid.field, label_eq, Option.bind_eq_bind, Option.bind_eq_some_iff,
      Option.pure_def, Option.some.injEq, allAre_cons, allAre_nil, c0, c1]
    constructor
    · rintro ⟨_, h0, _, h1, rfl⟩; exact ⟨h1, h0, trivial⟩
    · rintro ⟨h1, h0, _⟩; exact ⟨_, h0, _, h1, rfl⟩

/-- Numbers beyond 128 bits are not read. -/
def meanRaw (a : Nat × Account × Option Bytes) : Val :=
  Mean.record [Mean.account a.2.1, Mean.opt Mean.blob a.2.2, if a.1 < 2 ^ 128 then .nat a.1 else .null]

theorem coercing_depositor : Coercing desDepositor Did.depositorArg meanRaw := by
  have key := coercing_record (d := desDepositor)
    (E := [(nameHash "to", Did.account), (nameHash "memo", (.opt Did.blob)), (nameHash "cycles", .nat)])
    (F := fun a => [Mean.account a.2.1, Mean.opt Mean.blob a.2.2, if a.1 < 2 ^ 128 then .nat a.1 else .null])
    (L := _) rfl rfl ?_ ?_
  · exact key
  · intro fs hp hs
    have c0 := fit_iff coercing_u128 hp hs (nameHash "cycles")
    have c1 := fit_iff coercing_account hp hs (nameHash "to")
    have c2 := fit_iff (coercing_opt coercing_blob) hp hs (nameHash "memo")
    simp only [List.map_cons, List.map_nil, List.forall_mem_cons, label_eq, c0, c1, c2]
    exact ⟨fun ⟨h0, h1, h2, h⟩ => ⟨h1, h2, h0, (fun _ h => by cases h)⟩,
      fun ⟨h1, h2, h0, h⟩ => ⟨h0, h1, h2, (fun _ h => by cases h)⟩⟩
  · intro s t v a hr hs ht hf
    have c0 := is_iff coercing_u128 hr hs ht (l := nameHash "cycles")
      (hf (nameHash "cycles", .nat) (List.mem_of_getElem? (i := 2) rfl))
    have c1 := is_iff coercing_account hr hs ht (l := nameHash "to")
      (hf (nameHash "to", Did.account) (List.mem_of_getElem? (i := 0) rfl))
    have c2 := is_iff (coercing_opt coercing_blob) hr hs ht (l := nameHash "memo")
      (hf (nameHash "memo", (.opt Did.blob)) (List.mem_of_getElem? (i := 1) rfl))
    simp only [desDepositor, Candid.field, label_eq, Option.bind_eq_bind, Option.bind_eq_some_iff,
      Option.pure_def, Option.some.injEq, allAre_cons, allAre_nil, c0, c1, c2]
    constructor
    · rintro ⟨_, h0, _, h1, _, h2, rfl⟩; exact ⟨h1, h2, h0, trivial⟩
    · rintro ⟨h1, h2, h0, _⟩; exact ⟨_, h0, _, h1, _, h2, rfl⟩

theorem reads_depositResult : Reads desDepositResult wDepositResult := by
  rintro a t v ⟨s, hr, h1, h0⟩
  obtain ⟨a0, b0⟩ := reads_has reads_nat hr h0
  obtain ⟨a1, b1⟩ := reads_has reads_nat hr h1
  refine ⟨accepts_struct hr ?_, ?_⟩
  · simp only [List.mem_cons, List.not_mem_nil, or_false]
    rintro f (rfl | rfl)
    · exact a0
    · exact a1
  · simp only [desDepositResult, b0, b1, Option.bind_eq_bind, Option.bind_some, Option.pure_def]

theorem good_depositArg : Good wDeposit tyDepositArg putDepositArg (fun _ => True) := by
  refine ⟨recTy_wf _ (by decide +kernel) ?_, ?_, ?_⟩
  · intro f hf
    simp only [List.mem_cons, List.not_mem_nil, or_false] at hf
    rcases hf with rfl | rfl
    · exact good_account.wf
    · exact (good_opt good_blob).wf
  · intro a
    refine rec_typed [("to", tyAccount, putAccount a.to),
      ("memo", .opt (.vec (.fixed .nat8)), putOpt putBlob a.memo)]
      (by simp only [List.map_cons, List.map_nil]; decide +kernel) ?_
    intro f hf
    simp only [List.mem_cons, List.not_mem_nil, or_false] at hf
    rcases hf with rfl | rfl
    · exact good_account.typed _
    · exact (good_opt good_blob).typed _
  · intro a _
    obtain ⟨s, h1, h2⟩ := rec_spec [("to", tyAccount, putAccount a.to),
      ("memo", .opt (.vec (.fixed .nat8)), putOpt putBlob a.memo)]
      (by simp only [List.map_cons, List.map_nil]; decide +kernel)
    exact ⟨s, h1, ⟨_, _, (h2 _).mpr ⟨_, .head _, rfl⟩, good_account.ok _ trivial⟩,
      .inl ⟨_, _, (h2 _).mpr ⟨_, .tail _ (.head _), rfl⟩, (good_opt good_blob).ok _ (fun _ _ => trivial)⟩⟩

end CyclesLedger.Candid
