import Verif.Proof.CandidReply
/-! # The errors as Candid -/
namespace CyclesLedger.Candid
open Spec.Candid

theorem good_rejection : Good wRejection tyRejection putRejection (fun _ => True) := by
  refine good_enum (by decide +kernel) ?_ ?_
  · intro c hc
    simp only [casesRejection, List.mem_cons, List.not_mem_nil, or_false] at hc
    rcases hc with rfl | rfl | rfl | rfl | rfl | rfl | rfl
    · exact ⟨wf_null, _, .head _, rfl, rfl⟩
    · exact ⟨wf_null, _, .tail _ (.head _), rfl, rfl⟩
    · exact ⟨wf_null, _, .tail _ (.tail _ (.head _)), rfl, rfl⟩
    · exact ⟨wf_null, _, .tail _ (.tail _ (.tail _ (.head _))), rfl, rfl⟩
    · exact ⟨wf_null, _, .tail _ (.tail _ (.tail _ (.tail _ (.head _)))), rfl, rfl⟩
    · exact ⟨wf_null, _, .tail _ (.tail _ (.tail _ (.tail _ (.tail _ (.head _))))), rfl, rfl⟩
    · exact ⟨wf_null, _, .tail _ (.tail _ (.tail _ (.tail _ (.tail _ (.tail _ (.head _)))))), rfl, rfl⟩
  · intro a
    cases a with
    | noError => exact ⟨_, _, .head _, rfl, typed_null, fun _ => bare_null⟩
    | canisterError => exact ⟨_, _, .tail _ (.head _), rfl, typed_null, fun _ => bare_null⟩
    | sysTransient => exact ⟨_, _, .tail _ (.tail _ (.head _)), rfl, typed_null, fun _ => bare_null⟩
    | destinationInvalid => exact ⟨_, _, .tail _ (.tail _ (.tail _ (.head _))), rfl, typed_null, fun _ => bare_null⟩
    | unknown => exact ⟨_, _, .tail _ (.tail _ (.tail _ (.tail _ (.head _)))), rfl, typed_null, fun _ => bare_null⟩
    | sysFatal => exact ⟨_, _, .tail _ (.tail _ (.tail _ (.tail _ (.tail _ (.head _))))), rfl, typed_null, fun _ => bare_null⟩
    | canisterReject => exact ⟨_, _, .tail _ (.tail _ (.tail _ (.tail _ (.tail _ (.tail _ (.head _)))))), rfl, typed_null, fun _ => bare_null⟩

theorem det_rejection : Det wRejection := by
  refine det_variant ["NoError", "CanisterError", "SysTransient", "DestinationInvalid", "Unknown", "SysFatal", "CanisterReject"] (by decide +kernel) ?_ ?_
  · intro a; cases a <;> decide +kernel
  · intro a b u x hn _ _
    cases a <;> cases b <;> first | rfl | exact absurd hn (by simp)

theorem good_Generic (text : Bytes) : Good wGeneric (recTy [("error_code", .nat), ("message", .text)])
    (fun a => recVal [("error_code", .nat, .nat a), ("message", .text, .text text)]) (fun _ => True) := by
  refine ⟨recTy_wf _ (by decide +kernel) ?_, ?_, ?_⟩
  · intro f hf
    simp only [List.mem_cons, List.not_mem_nil, or_false] at hf
    rcases hf with rfl | rfl
    · exact good_nat.wf
    · exact good_text.wf
  · intro a
    refine rec_typed [("error_code", .nat, .nat a), ("message", .text, .text text)]
      (by simp only [List.map_cons, List.map_nil]; decide +kernel) ?_
    intro f hf
    simp only [List.mem_cons, List.not_mem_nil, or_false] at hf
    rcases hf with rfl | rfl
    · exact good_nat.typed _
    · exact good_text.typed _
  · intro a _
    obtain ⟨s, h1, h2⟩ := rec_spec [("error_code", .nat, .nat a), ("message", .text, .text text)]
      (by simp only [List.map_cons, List.map_nil]; decide +kernel)
    exact ⟨s, h1, ⟨_, _, _, (h2 _).mpr ⟨_, .tail _ (.head _), rfl⟩, good_text.ok _ trivial⟩,
      ⟨_, _, (h2 _).mpr ⟨_, .head _, rfl⟩, good_nat.ok _ trivial⟩⟩

theorem det_Generic : Det wGeneric := by
  rintro a b t v ⟨s, hr, _, a1⟩ ⟨s', hr', _, b1⟩
  exact det_has det_nat hr hr' a1 b1

theorem good_FailedToWithdraw (text : Bytes) : Good wFailedToWithdraw (recTy [("fee_block", .opt .nat), ("rejection_code", tyRejection), ("rejection_reason", .text)])
    (fun a => recVal [("fee_block", .opt .nat, putOpt .nat a.1), ("rejection_code", tyRejection, putRejection a.2), ("rejection_reason", .text, .text text)]) (fun _ => True) := by
  refine ⟨recTy_wf _ (by decide +kernel) ?_, ?_, ?_⟩
  · intro f hf
    simp only [List.mem_cons, List.not_mem_nil, or_false] at hf
    rcases hf with rfl | rfl | rfl
    · exact (good_opt good_nat).wf
    · exact good_rejection.wf
    · exact good_text.wf
  · intro a
    refine rec_typed [("fee_block", .opt .nat, putOpt .nat a.1), ("rejection_code", tyRejection, putRejection a.2), ("rejection_reason", .text, .text text)]
      (by simp only [List.map_cons, List.map_nil]; decide +kernel) ?_
    intro f hf
    simp only [List.mem_cons, List.not_mem_nil, or_false] at hf
    rcases hf with rfl | rfl | rfl
    · exact (good_opt good_nat).typed _
    · exact good_rejection.typed _
    · exact good_text.typed _
  · intro a _
    obtain ⟨s, h1, h2⟩ := rec_spec [("fee_block", .opt .nat, putOpt .nat a.1), ("rejection_code", tyRejection, putRejection a.2), ("rejection_reason", .text, .text text)]
      (by simp only [List.map_cons, List.map_nil]; decide +kernel)
    exact ⟨s, h1, .inl ⟨_, _, (h2 _).mpr ⟨_, .head _, rfl⟩, (good_opt good_nat).ok _ (fun _ _ => trivial)⟩,
      ⟨_, _, (h2 _).mpr ⟨_, .tail _ (.head _), rfl⟩, good_rejection.ok _ trivial⟩,
      ⟨_, _, _, (h2 _).mpr ⟨_, .tail _ (.tail _ (.head _)), rfl⟩, good_text.ok _ trivial⟩⟩

theorem det_FailedToWithdraw : Det wFailedToWithdraw := by
  rintro a b t v ⟨s, hr, a0, a1, _⟩ ⟨s', hr', b0, b1, _⟩
  exact Prod.ext (det_hasOpt det_nat plain_nat hr hr' a0 b0)
    (det_has det_rejection hr hr' a1 b1)

theorem good_FailedToWithdrawFrom (text : Bytes) : Good wFailedToWithdrawFrom (recTy [("withdraw_from_block", .opt .nat), ("refund_block", .opt .nat), ("approval_refund_block", .opt .nat), ("rejection_code", tyRejection), ("rejection_reason", .text)])
    (fun a => recVal [("withdraw_from_block", .opt .nat, putOpt .nat a.1), ("refund_block", .opt .nat, putOpt .nat a.2.1), ("approval_refund_block", .opt .nat, putOpt .nat a.2.2.1), ("rejection_code", tyRejection, putRejection a.2.2.2), ("rejection_reason", .text, .text text)]) (fun _ => True) := by
  refine ⟨recTy_wf _ (by decide +kernel) ?_, ?_, ?_⟩
  · intro f hf
    simp only [List.mem_cons, List.not_mem_nil, or_false] at hf
    rcases hf with rfl | rfl | rfl | rfl | rfl
    · exact (good_opt good_nat).wf
    · exact (good_opt good_nat).wf
    · exact (good_opt good_nat).wf
    · exact good_rejection.wf
    · exact good_text.wf
  · intro a
    refine rec_typed [("withdraw_from_block", .opt .nat, putOpt .nat a.1), ("refund_block", .opt .nat, putOpt .nat a.2.1), ("approval_refund_block", .opt .nat, putOpt .nat a.2.2.1), ("rejection_code", tyRejection, putRejection a.2.2.2), ("rejection_reason", .text, .text text)]
      (by simp only [List.map_cons, List.map_nil]; decide +kernel) ?_
    intro f hf
    simp only [List.mem_cons, List.not_mem_nil, or_false] at hf
    rcases hf with rfl | rfl | rfl | rfl | rfl
    · exact (good_opt good_nat).typed _
    · exact (good_opt good_nat).typed _
    · exact (good_opt good_nat).typed _
    · exact good_rejection.typed _
    · exact good_text.typed _
  · intro a _
    obtain ⟨s, h1, h2⟩ := rec_spec [("withdraw_from_block", .opt .nat, putOpt .nat a.1), ("refund_block", .opt .nat, putOpt .nat a.2.1), ("approval_refund_block", .opt .nat, putOpt .nat a.2.2.1), ("rejection_code", tyRejection, putRejection a.2.2.2), ("rejection_reason", .text, .text text)]
      (by simp only [List.map_cons, List.map_nil]; decide +kernel)
    exact ⟨s, h1, .inl ⟨_, _, (h2 _).mpr ⟨_, .head _, rfl⟩, (good_opt good_nat).ok _ (fun _ _ => trivial)⟩,
      .inl ⟨_, _, (h2 _).mpr ⟨_, .tail _ (.head _), rfl⟩, (good_opt good_nat).ok _ (fun _ _ => trivial)⟩,
      .inl ⟨_, _, (h2 _).mpr ⟨_, .tail _ (.tail _ (.head _)), rfl⟩, (good_opt good_nat).ok _ (fun _ _ => trivial)⟩,
      ⟨_, _, (h2 _).mpr ⟨_, .tail _ (.tail _ (.tail _ (.head _))), rfl⟩, good_rejection.ok _ trivial⟩,
      ⟨_, _, _, (h2 _).mpr ⟨_, .tail _ (.tail _ (.tail _ (.tail _ (.head _)))), rfl⟩, good_text.ok _ trivial⟩⟩

theorem det_FailedToWithdrawFrom : Det wFailedToWithdrawFrom := by
  rintro a b t v ⟨s, hr, a0, a1, a2, a3, _⟩ ⟨s', hr', b0, b1, b2, b3, _⟩
  exact Prod.ext (det_hasOpt det_nat plain_nat hr hr' a0 b0)
    (Prod.ext (det_hasOpt det_nat plain_nat hr hr' a1 b1)
    (Prod.ext (det_hasOpt det_nat plain_nat hr hr' a2 b2)
    (det_has det_rejection hr hr' a3 b3)))

theorem good_Duplicate : Good wDuplicate (recTy [("duplicate_of", .nat), ("canister_id", .opt .principal)])
    (fun a => recVal [("duplicate_of", .nat, .nat a.1), ("canister_id", .opt .principal, putOpt putPrincipal a.2)]) (fun _ => True) := by
  refine ⟨recTy_wf _ (by decide +kernel) ?_, ?_, ?_⟩
  · intro f hf
    simp only [List.mem_cons, List.not_mem_nil, or_false] at hf
    rcases hf with rfl | rfl
    · exact good_nat.wf
    · exact (good_opt good_principal).wf
  · intro a
    refine rec_typed [("duplicate_of", .nat, .nat a.1), ("canister_id", .opt .principal, putOpt putPrincipal a.2)]
      (by simp only [List.map_cons, List.map_nil]; decide +kernel) ?_
    intro f hf
    simp only [List.mem_cons, List.not_mem_nil, or_false] at hf
    rcases hf with rfl | rfl
    · exact good_nat.typed _
    · exact (good_opt good_principal).typed _
  · intro a _
    obtain ⟨s, h1, h2⟩ := rec_spec [("duplicate_of", .nat, .nat a.1), ("canister_id", .opt .principal, putOpt putPrincipal a.2)]
      (by simp only [List.map_cons, List.map_nil]; decide +kernel)
    exact ⟨s, h1, ⟨_, _, (h2 _).mpr ⟨_, .head _, rfl⟩, good_nat.ok _ trivial⟩,
      .inl ⟨_, _, (h2 _).mpr ⟨_, .tail _ (.head _), rfl⟩, (good_opt good_principal).ok _ (fun _ _ => trivial)⟩⟩

theorem det_Duplicate : Det wDuplicate := by
  rintro a b t v ⟨s, hr, a0, a1⟩ ⟨s', hr', b0, b1⟩
  exact Prod.ext (det_has det_nat hr hr' a0 b0)
    (det_hasOpt det_principal plain_principal hr hr' a1 b1)

theorem good_FailedToCreate (text : Bytes) : Good wFailedToCreate (recTy [("fee_block", .opt .nat), ("refund_block", .opt .nat), ("error", .text)])
    (fun a => recVal [("fee_block", .opt .nat, putOpt .nat a.1), ("refund_block", .opt .nat, putOpt .nat a.2), ("error", .text, .text text)]) (fun _ => True) := by
  refine ⟨recTy_wf _ (by decide +kernel) ?_, ?_, ?_⟩
  · intro f hf
    simp only [List.mem_cons, List.not_mem_nil, or_false] at hf
    rcases hf with rfl | rfl | rfl
    · exact (good_opt good_nat).wf
    · exact (good_opt good_nat).wf
    · exact good_text.wf
  · intro a
    refine rec_typed [("fee_block", .opt .nat, putOpt .nat a.1), ("refund_block", .opt .nat, putOpt .nat a.2), ("error", .text, .text text)]
      (by simp only [List.map_cons, List.map_nil]; decide +kernel) ?_
    intro f hf
    simp only [List.mem_cons, List.not_mem_nil, or_false] at hf
    rcases hf with rfl | rfl | rfl
    · exact (good_opt good_nat).typed _
    · exact (good_opt good_nat).typed _
    · exact good_text.typed _
  · intro a _
    obtain ⟨s, h1, h2⟩ := rec_spec [("fee_block", .opt .nat, putOpt .nat a.1), ("refund_block", .opt .nat, putOpt .nat a.2), ("error", .text, .text text)]
      (by simp only [List.map_cons, List.map_nil]; decide +kernel)
    exact ⟨s, h1, .inl ⟨_, _, (h2 _).mpr ⟨_, .head _, rfl⟩, (good_opt good_nat).ok _ (fun _ _ => trivial)⟩,
      .inl ⟨_, _, (h2 _).mpr ⟨_, .tail _ (.head _), rfl⟩, (good_opt good_nat).ok _ (fun _ _ => trivial)⟩,
      ⟨_, _, _, (h2 _).mpr ⟨_, .tail _ (.tail _ (.head _)), rfl⟩, good_text.ok _ trivial⟩⟩

theorem det_FailedToCreate : Det wFailedToCreate := by
  rintro a b t v ⟨s, hr, a0, a1, _⟩ ⟨s', hr', b0, b1, _⟩
  exact Prod.ext (det_hasOpt det_nat plain_nat hr hr' a0 b0)
    (det_hasOpt det_nat plain_nat hr hr' a1 b1)

theorem good_FailedToCreateFrom (text : Bytes) : Good wFailedToCreateFrom (recTy [("create_from_block", .opt .nat), ("refund_block", .opt .nat), ("approval_refund_block", .opt .nat), ("rejection_code", tyRejection), ("rejection_reason", .text)])
    (fun a => recVal [("create_from_block", .opt .nat, putOpt .nat a.1), ("refund_block", .opt .nat, putOpt .nat a.2.1), ("approval_refund_block", .opt .nat, putOpt .nat a.2.2.1), ("rejection_code", tyRejection, putRejection a.2.2.2), ("rejection_reason", .text, .text text)]) (fun _ => True) := by
  refine ⟨recTy_wf _ (by decide +kernel) ?_, ?_, ?_⟩
  · intro f hf
    simp only [List.mem_cons, List.not_mem_nil, or_false] at hf
    rcases hf with rfl | rfl | rfl | rfl | rfl
    · exact (good_opt good_nat).wf
    · exact (good_opt good_nat).wf
    · exact (good_opt good_nat).wf
    · exact good_rejection.wf
    · exact good_text.wf
  · intro a
    refine rec_typed [("create_from_block", .opt .nat, putOpt .nat a.1), ("refund_block", .opt .nat, putOpt .nat a.2.1), ("approval_refund_block", .opt .nat, putOpt .nat a.2.2.1), ("rejection_code", tyRejection, putRejection a.2.2.2), ("rejection_reason", .text, .text text)]
      (by simp only [List.map_cons, List.map_nil]; decide +kernel) ?_
    intro f hf
    simp only [List.mem_cons, List.not_mem_nil, or_false] at hf
    rcases hf with rfl | rfl | rfl | rfl | rfl
    · exact (good_opt good_nat).typed _
    · exact (good_opt good_nat).typed _
    · exact (good_opt good_nat).typed _
    · exact good_rejection.typed _
    · exact good_text.typed _
  · intro a _
    obtain ⟨s, h1, h2⟩ := rec_spec [("create_from_block", .opt .nat, putOpt .nat a.1), ("refund_block", .opt .nat, putOpt .nat a.2.1), ("approval_refund_block", .opt .nat, putOpt .nat a.2.2.1), ("rejection_code", tyRejection, putRejection a.2.2.2), ("rejection_reason", .text, .text text)]
      (by simp only [List.map_cons, List.map_nil]; decide +kernel)
    exact ⟨s, h1, .inl ⟨_, _, (h2 _).mpr ⟨_, .head _, rfl⟩, (good_opt good_nat).ok _ (fun _ _ => trivial)⟩,
      .inl ⟨_, _, (h2 _).mpr ⟨_, .tail _ (.head _), rfl⟩, (good_opt good_nat).ok _ (fun _ _ => trivial)⟩,
      .inl ⟨_, _, (h2 _).mpr ⟨_, .tail _ (.tail _ (.head _)), rfl⟩, (good_opt good_nat).ok _ (fun _ _ => trivial)⟩,
      ⟨_, _, (h2 _).mpr ⟨_, .tail _ (.tail _ (.tail _ (.head _))), rfl⟩, good_rejection.ok _ trivial⟩,
      ⟨_, _, _, (h2 _).mpr ⟨_, .tail _ (.tail _ (.tail _ (.tail _ (.head _)))), rfl⟩, good_text.ok _ trivial⟩⟩

theorem det_FailedToCreateFrom : Det wFailedToCreateFrom := by
  rintro a b t v ⟨s, hr, a0, a1, a2, a3, _⟩ ⟨s', hr', b0, b1, b2, b3, _⟩
  exact Prod.ext (det_hasOpt det_nat plain_nat hr hr' a0 b0)
    (Prod.ext (det_hasOpt det_nat plain_nat hr hr' a1 b1)
    (Prod.ext (det_hasOpt det_nat plain_nat hr hr' a2 b2)
    (det_has det_rejection hr hr' a3 b3)))

/-- The times in an error. -/
def timesTransferError : TransferError → List Nat
  | .createdInFuture t => [t]
  | _ => []

theorem good_TransferError (text : Bytes) : Good wTransferError (enumTy casesTransferError) (putTransferError text)
    (fun e => ∀ t ∈ timesTransferError e, t < 2 ^ 64) := by
  refine good_enum (by decide +kernel) ?_ ?_
  · intro c hc
    simp only [casesTransferError, List.mem_cons, List.not_mem_nil, or_false] at hc
    rcases hc with rfl | rfl | rfl | rfl | rfl | rfl | rfl | rfl
    · exact ⟨(good_one good_nat "expected_fee").wf, _, .head _, rfl,
        (good_one good_nat "expected_fee").fits 0 trivial⟩
    · exact ⟨(good_one good_nat "min_burn_amount").wf, _, .tail _ (.head _), rfl,
        (good_one good_nat "min_burn_amount").fits 0 trivial⟩
    · exact ⟨(good_one good_nat "balance").wf, _, .tail _ (.tail _ (.head _)), rfl,
        (good_one good_nat "balance").fits 0 trivial⟩
    · exact ⟨wf_null, _, .tail _ (.tail _ (.tail _ (.head _))), rfl, rfl⟩
    · exact ⟨(good_one good_time "ledger_time").wf, _, .tail _ (.tail _ (.tail _ (.tail _ (.head _)))), rfl,
        (good_one good_time "ledger_time").fits 0 (by decide)⟩
    · exact ⟨wf_null, _, .tail _ (.tail _ (.tail _ (.tail _ (.tail _ (.tail _ (.head _)))))), rfl, rfl⟩
    · exact ⟨(good_one good_nat "duplicate_of").wf, _, .tail _ (.tail _ (.tail _ (.tail _ (.tail _ (.head _))))), rfl,
        (good_one good_nat "duplicate_of").fits 0 trivial⟩
    · exact ⟨(good_Generic text).wf, _, .tail _ (.tail _ (.tail _ (.tail _ (.tail _ (.tail _ (.tail _ (.head _))))))), rfl,
        (good_Generic text).fits 0 trivial⟩
  · intro a
    cases a with
    | badFee x =>
      exact ⟨_, _, .head _, rfl, (good_one good_nat "expected_fee").typed x,
        fun _ => (good_one good_nat "expected_fee").ok x trivial⟩
    | badBurn x =>
      exact ⟨_, _, .tail _ (.head _), rfl, (good_one good_nat "min_burn_amount").typed x,
        fun _ => (good_one good_nat "min_burn_amount").ok x trivial⟩
    | insufficientFunds x =>
      exact ⟨_, _, .tail _ (.tail _ (.head _)), rfl, (good_one good_nat "balance").typed x,
        fun _ => (good_one good_nat "balance").ok x trivial⟩
    | tooOld => exact ⟨_, _, .tail _ (.tail _ (.tail _ (.head _))), rfl, typed_null, fun _ => bare_null⟩
    | createdInFuture x =>
      exact ⟨_, _, .tail _ (.tail _ (.tail _ (.tail _ (.head _)))), rfl, (good_one good_time "ledger_time").typed x,
        fun h => (good_one good_time "ledger_time").ok x (h _ (.head _))⟩
    | temporarilyUnavailable => exact ⟨_, _, .tail _ (.tail _ (.tail _ (.tail _ (.tail _ (.head _))))), rfl, typed_null, fun _ => bare_null⟩
    | duplicate x =>
      exact ⟨_, _, .tail _ (.tail _ (.tail _ (.tail _ (.tail _ (.tail _ (.head _)))))), rfl, (good_one good_nat "duplicate_of").typed x,
        fun _ => (good_one good_nat "duplicate_of").ok x trivial⟩
    | genericError x =>
      exact ⟨_, _, .tail _ (.tail _ (.tail _ (.tail _ (.tail _ (.tail _ (.tail _ (.head _))))))), rfl, (good_Generic text).typed x,
        fun _ => (good_Generic text).ok x trivial⟩

theorem det_TransferError : Det wTransferError := by
  refine det_variant ["BadFee", "BadBurn", "InsufficientFunds", "TooOld", "CreatedInFuture", "Duplicate", "TemporarilyUnavailable", "GenericError"]
    (by decide +kernel) ?_ ?_
  · intro a
    cases a with
    | badFee _ => exact .head _
    | badBurn _ => exact .tail _ (.head _)
    | insufficientFunds _ => exact .tail _ (.tail _ (.head _))
    | tooOld => exact .tail _ (.tail _ (.tail _ (.head _)))
    | createdInFuture _ => exact .tail _ (.tail _ (.tail _ (.tail _ (.head _))))
    | temporarilyUnavailable => exact .tail _ (.tail _ (.tail _ (.tail _ (.tail _ (.tail _ (.head _))))))
    | duplicate _ => exact .tail _ (.tail _ (.tail _ (.tail _ (.tail _ (.head _)))))
    | genericError _ => exact .tail _ (.tail _ (.tail _ (.tail _ (.tail _ (.tail _ (.tail _ (.head _)))))))
  · intro a b u x hn h h'
    cases a with
    | badFee x =>
      cases b with
      | badFee x' =>
        rw [show x = x' from (det_one det_nat "expected_fee") _ _ _ _ h h']
      | _ => exact absurd hn (by simp)
    | badBurn x =>
      cases b with
      | badBurn x' =>
        rw [show x = x' from (det_one det_nat "min_burn_amount") _ _ _ _ h h']
      | _ => exact absurd hn (by simp)
    | insufficientFunds x =>
      cases b with
      | insufficientFunds x' =>
        rw [show x = x' from (det_one det_nat "balance") _ _ _ _ h h']
      | _ => exact absurd hn (by simp)
    | tooOld =>
      cases b with
      | tooOld => rfl
      | _ => exact absurd hn (by simp)
    | createdInFuture x =>
      cases b with
      | createdInFuture x' =>
        rw [show x = x' from (det_one det_time "ledger_time") _ _ _ _ h h']
      | _ => exact absurd hn (by simp)
    | temporarilyUnavailable =>
      cases b with
      | temporarilyUnavailable => rfl
      | _ => exact absurd hn (by simp)
    | duplicate x =>
      cases b with
      | duplicate x' =>
        rw [show x = x' from (det_one det_nat "duplicate_of") _ _ _ _ h h']
      | _ => exact absurd hn (by simp)
    | genericError x =>
      cases b with
      | genericError x' =>
        rw [show x = x' from det_Generic _ _ _ _ h h']
      | _ => exact absurd hn (by simp)

/-- The times in an error. -/
def timesTransferFromError : TransferFromError → List Nat
  | .createdInFuture t => [t]
  | _ => []

theorem good_TransferFromError (text : Bytes) : Good wTransferFromError (enumTy casesTransferFromError) (putTransferFromError text)
    (fun e => ∀ t ∈ timesTransferFromError e, t < 2 ^ 64) := by
  refine good_enum (by decide +kernel) ?_ ?_
  · intro c hc
    simp only [casesTransferFromError, List.mem_cons, List.not_mem_nil, or_false] at hc
    rcases hc with rfl | rfl | rfl | rfl | rfl | rfl | rfl | rfl | rfl
    · exact ⟨(good_one good_nat "expected_fee").wf, _, .head _, rfl,
        (good_one good_nat "expected_fee").fits 0 trivial⟩
    · exact ⟨(good_one good_nat "min_burn_amount").wf, _, .tail _ (.head _), rfl,
        (good_one good_nat "min_burn_amount").fits 0 trivial⟩
    · exact ⟨(good_one good_nat "balance").wf, _, .tail _ (.tail _ (.head _)), rfl,
        (good_one good_nat "balance").fits 0 trivial⟩
    · exact ⟨(good_one good_nat "allowance").wf, _, .tail _ (.tail _ (.tail _ (.head _))), rfl,
        (good_one good_nat "allowance").fits 0 trivial⟩
    · exact ⟨wf_null, _, .tail _ (.tail _ (.tail _ (.tail _ (.head _)))), rfl, rfl⟩
    · exact ⟨(good_one good_time "ledger_time").wf, _, .tail _ (.tail _ (.tail _ (.tail _ (.tail _ (.head _))))), rfl,
        (good_one good_time "ledger_time").fits 0 (by decide)⟩
    · exact ⟨(good_one good_nat "duplicate_of").wf, _, .tail _ (.tail _ (.tail _ (.tail _ (.tail _ (.tail _ (.head _)))))), rfl,
        (good_one good_nat "duplicate_of").fits 0 trivial⟩
    · exact ⟨wf_null, _, .tail _ (.tail _ (.tail _ (.tail _ (.tail _ (.tail _ (.tail _ (.head _))))))), rfl, rfl⟩
    · exact ⟨(good_Generic text).wf, _, .tail _ (.tail _ (.tail _ (.tail _ (.tail _ (.tail _ (.tail _ (.tail _ (.head _)))))))), rfl,
        (good_Generic text).fits 0 trivial⟩
  · intro a
    cases a with
    | badFee x =>
      exact ⟨_, _, .head _, rfl, (good_one good_nat "expected_fee").typed x,
        fun _ => (good_one good_nat "expected_fee").ok x trivial⟩
    | badBurn x =>
      exact ⟨_, _, .tail _ (.head _), rfl, (good_one good_nat "min_burn_amount").typed x,
        fun _ => (good_one good_nat "min_burn_amount").ok x trivial⟩
    | insufficientFunds x =>
      exact ⟨_, _, .tail _ (.tail _ (.head _)), rfl, (good_one good_nat "balance").typed x,
        fun _ => (good_one good_nat "balance").ok x trivial⟩
    | insufficientAllowance x =>
      exact ⟨_, _, .tail _ (.tail _ (.tail _ (.head _))), rfl, (good_one good_nat "allowance").typed x,
        fun _ => (good_one good_nat "allowance").ok x trivial⟩
    | tooOld => exact ⟨_, _, .tail _ (.tail _ (.tail _ (.tail _ (.head _)))), rfl, typed_null, fun _ => bare_null⟩
    | createdInFuture x =>
      exact ⟨_, _, .tail _ (.tail _ (.tail _ (.tail _ (.tail _ (.head _))))), rfl, (good_one good_time "ledger_time").typed x,
        fun h => (good_one good_time "ledger_time").ok x (h _ (.head _))⟩
    | duplicate x =>
      exact ⟨_, _, .tail _ (.tail _ (.tail _ (.tail _ (.tail _ (.tail _ (.head _)))))), rfl, (good_one good_nat "duplicate_of").typed x,
        fun _ => (good_one good_nat "duplicate_of").ok x trivial⟩
    | temporarilyUnavailable => exact ⟨_, _, .tail _ (.tail _ (.tail _ (.tail _ (.tail _ (.tail _ (.tail _ (.head _))))))), rfl, typed_null, fun _ => bare_null⟩
    | genericError x =>
      exact ⟨_, _, .tail _ (.tail _ (.tail _ (.tail _ (.tail _ (.tail _ (.tail _ (.tail _ (.head _)))))))), rfl, (good_Generic text).typed x,
        fun _ => (good_Generic text).ok x trivial⟩

theorem det_TransferFromError : Det wTransferFromError := by
  refine det_variant ["BadFee", "BadBurn", "InsufficientFunds", "InsufficientAllowance", "TooOld", "CreatedInFuture", "Duplicate", "TemporarilyUnavailable", "GenericError"]
    (by decide +kernel) ?_ ?_
  · intro a
    cases a with
    | badFee _ => exact .head _
    | badBurn _ => exact .tail _ (.head _)
    | insufficientFunds _ => exact .tail _ (.tail _ (.head _))
    | insufficientAllowance _ => exact .tail _ (.tail _ (.tail _ (.head _)))
    | tooOld => exact .tail _ (.tail _ (.tail _ (.tail _ (.head _))))
    | createdInFuture _ => exact .tail _ (.tail _ (.tail _ (.tail _ (.tail _ (.head _)))))
    | duplicate _ => exact .tail _ (.tail _ (.tail _ (.tail _ (.tail _ (.tail _ (.head _))))))
    | temporarilyUnavailable => exact .tail _ (.tail _ (.tail _ (.tail _ (.tail _ (.tail _ (.tail _ (.head _)))))))
    | genericError _ => exact .tail _ (.tail _ (.tail _ (.tail _ (.tail _ (.tail _ (.tail _ (.tail _ (.head _))))))))
  · intro a b u x hn h h'
    cases a with
    | badFee x =>
      cases b with
      | badFee x' =>
        rw [show x = x' from (det_one det_nat "expected_fee") _ _ _ _ h h']
      | _ => exact absurd hn (by simp)
    | badBurn x =>
      cases b with
      | badBurn x' =>
        rw [show x = x' from (det_one det_nat "min_burn_amount") _ _ _ _ h h']
      | _ => exact absurd hn (by simp)
    | insufficientFunds x =>
      cases b with
      | insufficientFunds x' =>
        rw [show x = x' from (det_one det_nat "balance") _ _ _ _ h h']
      | _ => exact absurd hn (by simp)
    | insufficientAllowance x =>
      cases b with
      | insufficientAllowance x' =>
        rw [show x = x' from (det_one det_nat "allowance") _ _ _ _ h h']
      | _ => exact absurd hn (by simp)
    | tooOld =>
      cases b with
      | tooOld => rfl
      | _ => exact absurd hn (by simp)
    | createdInFuture x =>
      cases b with
      | createdInFuture x' =>
        rw [show x = x' from (det_one det_time "ledger_time") _ _ _ _ h h']
      | _ => exact absurd hn (by simp)
    | duplicate x =>
      cases b with
      | duplicate x' =>
        rw [show x = x' from (det_one det_nat "duplicate_of") _ _ _ _ h h']
      | _ => exact absurd hn (by simp)
    | temporarilyUnavailable =>
      cases b with
      | temporarilyUnavailable => rfl
      | _ => exact absurd hn (by simp)
    | genericError x =>
      cases b with
      | genericError x' =>
        rw [show x = x' from det_Generic _ _ _ _ h h']
      | _ => exact absurd hn (by simp)

/-- The times in an error. -/
def timesApproveError : ApproveError → List Nat
  | .expired t => [t]
  | .createdInFuture t => [t]
  | _ => []

theorem good_ApproveError (text : Bytes) : Good wApproveError (enumTy casesApproveError) (putApproveError text)
    (fun e => ∀ t ∈ timesApproveError e, t < 2 ^ 64) := by
  refine good_enum (by decide +kernel) ?_ ?_
  · intro c hc
    simp only [casesApproveError, List.mem_cons, List.not_mem_nil, or_false] at hc
    rcases hc with rfl | rfl | rfl | rfl | rfl | rfl | rfl | rfl | rfl
    · exact ⟨(good_one good_nat "expected_fee").wf, _, .head _, rfl,
        (good_one good_nat "expected_fee").fits 0 trivial⟩
    · exact ⟨(good_one good_nat "balance").wf, _, .tail _ (.head _), rfl,
        (good_one good_nat "balance").fits 0 trivial⟩
    · exact ⟨(good_one good_nat "current_allowance").wf, _, .tail _ (.tail _ (.head _)), rfl,
        (good_one good_nat "current_allowance").fits 0 trivial⟩
    · exact ⟨(good_one good_time "ledger_time").wf, _, .tail _ (.tail _ (.tail _ (.head _))), rfl,
        (good_one good_time "ledger_time").fits 0 (by decide)⟩
    · exact ⟨wf_null, _, .tail _ (.tail _ (.tail _ (.tail _ (.head _)))), rfl, rfl⟩
    · exact ⟨(good_one good_time "ledger_time").wf, _, .tail _ (.tail _ (.tail _ (.tail _ (.tail _ (.head _))))), rfl,
        (good_one good_time "ledger_time").fits 0 (by decide)⟩
    · exact ⟨(good_one good_nat "duplicate_of").wf, _, .tail _ (.tail _ (.tail _ (.tail _ (.tail _ (.tail _ (.head _)))))), rfl,
        (good_one good_nat "duplicate_of").fits 0 trivial⟩
    · exact ⟨wf_null, _, .tail _ (.tail _ (.tail _ (.tail _ (.tail _ (.tail _ (.tail _ (.head _))))))), rfl, rfl⟩
    · exact ⟨(good_Generic text).wf, _, .tail _ (.tail _ (.tail _ (.tail _ (.tail _ (.tail _ (.tail _ (.tail _ (.head _)))))))), rfl,
        (good_Generic text).fits 0 trivial⟩
  · intro a
    cases a with
    | badFee x =>
      exact ⟨_, _, .head _, rfl, (good_one good_nat "expected_fee").typed x,
        fun _ => (good_one good_nat "expected_fee").ok x trivial⟩
    | insufficientFunds x =>
      exact ⟨_, _, .tail _ (.head _), rfl, (good_one good_nat "balance").typed x,
        fun _ => (good_one good_nat "balance").ok x trivial⟩
    | allowanceChanged x =>
      exact ⟨_, _, .tail _ (.tail _ (.head _)), rfl, (good_one good_nat "current_allowance").typed x,
        fun _ => (good_one good_nat "current_allowance").ok x trivial⟩
    | expired x =>
      exact ⟨_, _, .tail _ (.tail _ (.tail _ (.head _))), rfl, (good_one good_time "ledger_time").typed x,
        fun h => (good_one good_time "ledger_time").ok x (h _ (.head _))⟩
    | tooOld => exact ⟨_, _, .tail _ (.tail _ (.tail _ (.tail _ (.head _)))), rfl, typed_null, fun _ => bare_null⟩
    | createdInFuture x =>
      exact ⟨_, _, .tail _ (.tail _ (.tail _ (.tail _ (.tail _ (.head _))))), rfl, (good_one good_time "ledger_time").typed x,
        fun h => (good_one good_time "ledger_time").ok x (h _ (.head _))⟩
    | duplicate x =>
      exact ⟨_, _, .tail _ (.tail _ (.tail _ (.tail _ (.tail _ (.tail _ (.head _)))))), rfl, (good_one good_nat "duplicate_of").typed x,
        fun _ => (good_one good_nat "duplicate_of").ok x trivial⟩
    | temporarilyUnavailable => exact ⟨_, _, .tail _ (.tail _ (.tail _ (.tail _ (.tail _ (.tail _ (.tail _ (.head _))))))), rfl, typed_null, fun _ => bare_null⟩
    | genericError x =>
      exact ⟨_, _, .tail _ (.tail _ (.tail _ (.tail _ (.tail _ (.tail _ (.tail _ (.tail _ (.head _)))))))), rfl, (good_Generic text).typed x,
        fun _ => (good_Generic text).ok x trivial⟩

theorem det_ApproveError : Det wApproveError := by
  refine det_variant ["BadFee", "InsufficientFunds", "AllowanceChanged", "Expired", "TooOld", "CreatedInFuture", "Duplicate", "TemporarilyUnavailable", "GenericError"]
    (by decide +kernel) ?_ ?_
  · intro a
    cases a with
    | badFee _ => exact .head _
    | insufficientFunds _ => exact .tail _ (.head _)
    | allowanceChanged _ => exact .tail _ (.tail _ (.head _))
    | expired _ => exact .tail _ (.tail _ (.tail _ (.head _)))
    | tooOld => exact .tail _ (.tail _ (.tail _ (.tail _ (.head _))))
    | createdInFuture _ => exact .tail _ (.tail _ (.tail _ (.tail _ (.tail _ (.head _)))))
    | duplicate _ => exact .tail _ (.tail _ (.tail _ (.tail _ (.tail _ (.tail _ (.head _))))))
    | temporarilyUnavailable => exact .tail _ (.tail _ (.tail _ (.tail _ (.tail _ (.tail _ (.tail _ (.head _)))))))
    | genericError _ => exact .tail _ (.tail _ (.tail _ (.tail _ (.tail _ (.tail _ (.tail _ (.tail _ (.head _))))))))
  · intro a b u x hn h h'
    cases a with
    | badFee x =>
      cases b with
      | badFee x' =>
        rw [show x = x' from (det_one det_nat "expected_fee") _ _ _ _ h h']
      | _ => exact absurd hn (by simp)
    | insufficientFunds x =>
      cases b with
      | insufficientFunds x' =>
        rw [show x = x' from (det_one det_nat "balance") _ _ _ _ h h']
      | _ => exact absurd hn (by simp)
    | allowanceChanged x =>
      cases b with
      | allowanceChanged x' =>
        rw [show x = x' from (det_one det_nat "current_allowance") _ _ _ _ h h']
      | _ => exact absurd hn (by simp)
    | expired x =>
      cases b with
      | expired x' =>
        rw [show x = x' from (det_one det_time "ledger_time") _ _ _ _ h h']
      | _ => exact absurd hn (by simp)
    | tooOld =>
      cases b with
      | tooOld => rfl
      | _ => exact absurd hn (by simp)
    | createdInFuture x =>
      cases b with
      | createdInFuture x' =>
        rw [show x = x' from (det_one det_time "ledger_time") _ _ _ _ h h']
      | _ => exact absurd hn (by simp)
    | duplicate x =>
      cases b with
      | duplicate x' =>
        rw [show x = x' from (det_one det_nat "duplicate_of") _ _ _ _ h h']
      | _ => exact absurd hn (by simp)
    | temporarilyUnavailable =>
      cases b with
      | temporarilyUnavailable => rfl
      | _ => exact absurd hn (by simp)
    | genericError x =>
      cases b with
      | genericError x' =>
        rw [show x = x' from det_Generic _ _ _ _ h h']
      | _ => exact absurd hn (by simp)

/-- The times in an error. -/
def timesWithdrawError : WithdrawError → List Nat
  | .createdInFuture t => [t]
  | _ => []

theorem good_WithdrawError (text : Bytes) : Good wWithdrawError (enumTy casesWithdrawError) (putWithdrawError text)
    (fun e => ∀ t ∈ timesWithdrawError e, t < 2 ^ 64) := by
  refine good_enum (by decide +kernel) ?_ ?_
  · intro c hc
    simp only [casesWithdrawError, List.mem_cons, List.not_mem_nil, or_false] at hc
    rcases hc with rfl | rfl | rfl | rfl | rfl | rfl | rfl | rfl | rfl
    · exact ⟨(good_one good_nat "expected_fee").wf, _, .tail _ (.tail _ (.tail _ (.tail _ (.head _)))), rfl,
        (good_one good_nat "expected_fee").fits 0 trivial⟩
    · exact ⟨(good_one good_nat "balance").wf, _, .tail _ (.tail _ (.tail _ (.tail _ (.tail _ (.tail _ (.tail _ (.tail _ (.head _)))))))), rfl,
        (good_one good_nat "balance").fits 0 trivial⟩
    · exact ⟨wf_null, _, .tail _ (.tail _ (.tail _ (.tail _ (.tail _ (.tail _ (.tail _ (.head _))))))), rfl, rfl⟩
    · exact ⟨(good_one good_time "ledger_time").wf, _, .tail _ (.tail _ (.tail _ (.tail _ (.tail _ (.tail _ (.head _)))))), rfl,
        (good_one good_time "ledger_time").fits 0 (by decide)⟩
    · exact ⟨wf_null, _, .tail _ (.head _), rfl, rfl⟩
    · exact ⟨(good_one good_nat "duplicate_of").wf, _, .tail _ (.tail _ (.tail _ (.head _))), rfl,
        (good_one good_nat "duplicate_of").fits 0 trivial⟩
    · exact ⟨(good_FailedToWithdraw text).wf, _, .tail _ (.tail _ (.head _)), rfl,
        (good_FailedToWithdraw text).fits (none, .noError) trivial⟩
    · exact ⟨(good_Generic text).wf, _, .head _, rfl,
        (good_Generic text).fits 0 trivial⟩
    · exact ⟨(good_one good_principal "receiver").wf, _, .tail _ (.tail _ (.tail _ (.tail _ (.tail _ (.head _))))), rfl,
        (good_one good_principal "receiver").fits somePrincipal trivial⟩
  · intro a
    cases a with
    | badFee x =>
      exact ⟨_, _, .head _, rfl, (good_one good_nat "expected_fee").typed x,
        fun _ => (good_one good_nat "expected_fee").ok x trivial⟩
    | insufficientFunds x =>
      exact ⟨_, _, .tail _ (.head _), rfl, (good_one good_nat "balance").typed x,
        fun _ => (good_one good_nat "balance").ok x trivial⟩
    | tooOld => exact ⟨_, _, .tail _ (.tail _ (.head _)), rfl, typed_null, fun _ => bare_null⟩
    | createdInFuture x =>
      exact ⟨_, _, .tail _ (.tail _ (.tail _ (.head _))), rfl, (good_one good_time "ledger_time").typed x,
        fun h => (good_one good_time "ledger_time").ok x (h _ (.head _))⟩
    | temporarilyUnavailable => exact ⟨_, _, .tail _ (.tail _ (.tail _ (.tail _ (.head _)))), rfl, typed_null, fun _ => bare_null⟩
    | duplicate x =>
      exact ⟨_, _, .tail _ (.tail _ (.tail _ (.tail _ (.tail _ (.head _))))), rfl, (good_one good_nat "duplicate_of").typed x,
        fun _ => (good_one good_nat "duplicate_of").ok x trivial⟩
    | failedToWithdraw x y =>
      exact ⟨_, _, .tail _ (.tail _ (.tail _ (.tail _ (.tail _ (.tail _ (.head _)))))), rfl, (good_FailedToWithdraw text).typed (x, y),
        fun _ => (good_FailedToWithdraw text).ok (x, y) trivial⟩
    | genericError x =>
      exact ⟨_, _, .tail _ (.tail _ (.tail _ (.tail _ (.tail _ (.tail _ (.tail _ (.head _))))))), rfl, (good_Generic text).typed x,
        fun _ => (good_Generic text).ok x trivial⟩
    | invalidReceiver x =>
      exact ⟨_, _, .tail _ (.tail _ (.tail _ (.tail _ (.tail _ (.tail _ (.tail _ (.tail _ (.head _)))))))), rfl, (good_one good_principal "receiver").typed x,
        fun _ => (good_one good_principal "receiver").ok x trivial⟩

theorem det_WithdrawError : Det wWithdrawError := by
  refine det_variant ["GenericError", "TemporarilyUnavailable", "FailedToWithdraw", "Duplicate", "BadFee", "InvalidReceiver", "CreatedInFuture", "TooOld", "InsufficientFunds"]
    (by decide +kernel) ?_ ?_
  · intro a
    cases a with
    | badFee _ => exact .tail _ (.tail _ (.tail _ (.tail _ (.head _))))
    | insufficientFunds _ => exact .tail _ (.tail _ (.tail _ (.tail _ (.tail _ (.tail _ (.tail _ (.tail _ (.head _))))))))
    | tooOld => exact .tail _ (.tail _ (.tail _ (.tail _ (.tail _ (.tail _ (.tail _ (.head _)))))))
    | createdInFuture _ => exact .tail _ (.tail _ (.tail _ (.tail _ (.tail _ (.tail _ (.head _))))))
    | temporarilyUnavailable => exact .tail _ (.head _)
    | duplicate _ => exact .tail _ (.tail _ (.tail _ (.head _)))
    | failedToWithdraw _ _ => exact .tail _ (.tail _ (.head _))
    | genericError _ => exact .head _
    | invalidReceiver _ => exact .tail _ (.tail _ (.tail _ (.tail _ (.tail _ (.head _)))))
  · intro a b u x hn h h'
    cases a with
    | badFee x =>
      cases b with
      | badFee x' =>
        rw [show x = x' from (det_one det_nat "expected_fee") _ _ _ _ h h']
      | _ => exact absurd hn (by simp)
    | insufficientFunds x =>
      cases b with
      | insufficientFunds x' =>
        rw [show x = x' from (det_one det_nat "balance") _ _ _ _ h h']
      | _ => exact absurd hn (by simp)
    | tooOld =>
      cases b with
      | tooOld => rfl
      | _ => exact absurd hn (by simp)
    | createdInFuture x =>
      cases b with
      | createdInFuture x' =>
        rw [show x = x' from (det_one det_time "ledger_time") _ _ _ _ h h']
      | _ => exact absurd hn (by simp)
    | temporarilyUnavailable =>
      cases b with
      | temporarilyUnavailable => rfl
      | _ => exact absurd hn (by simp)
    | duplicate x =>
      cases b with
      | duplicate x' =>
        rw [show x = x' from (det_one det_nat "duplicate_of") _ _ _ _ h h']
      | _ => exact absurd hn (by simp)
    | failedToWithdraw x y =>
      cases b with
      | failedToWithdraw x' y' =>
        have := det_FailedToWithdraw (x, y) (x', y') _ _ h h'
        simp only [Prod.mk.injEq] at this
        obtain ⟨rfl, rfl⟩ := this
        rfl
      | _ => exact absurd hn (by simp)
    | genericError x =>
      cases b with
      | genericError x' =>
        rw [show x = x' from det_Generic _ _ _ _ h h']
      | _ => exact absurd hn (by simp)
    | invalidReceiver x =>
      cases b with
      | invalidReceiver x' =>
        rw [show x = x' from (det_one det_principal "receiver") _ _ _ _ h h']
      | _ => exact absurd hn (by simp)

/-- The times in an error. -/
def timesWithdrawFromError : WithdrawFromError → List Nat
  | .createdInFuture t => [t]
  | _ => []

theorem good_WithdrawFromError (text : Bytes) : Good wWithdrawFromError (enumTy casesWithdrawFromError) (putWithdrawFromError text)
    (fun e => ∀ t ∈ timesWithdrawFromError e, t < 2 ^ 64) := by
  refine good_enum (by decide +kernel) ?_ ?_
  · intro c hc
    simp only [casesWithdrawFromError, List.mem_cons, List.not_mem_nil, or_false] at hc
    rcases hc with rfl | rfl | rfl | rfl | rfl | rfl | rfl | rfl | rfl
    · exact ⟨(good_one good_nat "balance").wf, _, .tail _ (.tail _ (.tail _ (.tail _ (.tail _ (.tail _ (.tail _ (.head _))))))), rfl,
        (good_one good_nat "balance").fits 0 trivial⟩
    · exact ⟨(good_one good_nat "allowance").wf, _, .tail _ (.tail _ (.tail _ (.tail _ (.tail _ (.tail _ (.tail _ (.tail _ (.head _)))))))), rfl,
        (good_one good_nat "allowance").fits 0 trivial⟩
    · exact ⟨wf_null, _, .tail _ (.tail _ (.tail _ (.tail _ (.tail _ (.tail _ (.head _)))))), rfl, rfl⟩
    · exact ⟨(good_one good_time "ledger_time").wf, _, .tail _ (.tail _ (.tail _ (.tail _ (.tail _ (.head _))))), rfl,
        (good_one good_time "ledger_time").fits 0 (by decide)⟩
    · exact ⟨wf_null, _, .tail _ (.head _), rfl, rfl⟩
    · exact ⟨(good_one good_nat "duplicate_of").wf, _, .tail _ (.tail _ (.tail _ (.head _))), rfl,
        (good_one good_nat "duplicate_of").fits 0 trivial⟩
    · exact ⟨(good_FailedToWithdrawFrom text).wf, _, .tail _ (.tail _ (.head _)), rfl,
        (good_FailedToWithdrawFrom text).fits (none, none, none, .noError) trivial⟩
    · exact ⟨(good_Generic text).wf, _, .head _, rfl,
        (good_Generic text).fits 0 trivial⟩
    · exact ⟨(good_one good_principal "receiver").wf, _, .tail _ (.tail _ (.tail _ (.tail _ (.head _)))), rfl,
        (good_one good_principal "receiver").fits somePrincipal trivial⟩
  · intro a
    cases a with
    | insufficientFunds x =>
      exact ⟨_, _, .head _, rfl, (good_one good_nat "balance").typed x,
        fun _ => (good_one good_nat "balance").ok x trivial⟩
    | insufficientAllowance x =>
      exact ⟨_, _, .tail _ (.head _), rfl, (good_one good_nat "allowance").typed x,
        fun _ => (good_one good_nat "allowance").ok x trivial⟩
    | tooOld => exact ⟨_, _, .tail _ (.tail _ (.head _)), rfl, typed_null, fun _ => bare_null⟩
    | createdInFuture x =>
      exact ⟨_, _, .tail _ (.tail _ (.tail _ (.head _))), rfl, (good_one good_time "ledger_time").typed x,
        fun h => (good_one good_time "ledger_time").ok x (h _ (.head _))⟩
    | temporarilyUnavailable => exact ⟨_, _, .tail _ (.tail _ (.tail _ (.tail _ (.head _)))), rfl, typed_null, fun _ => bare_null⟩
    | duplicate x =>
      exact ⟨_, _, .tail _ (.tail _ (.tail _ (.tail _ (.tail _ (.head _))))), rfl, (good_one good_nat "duplicate_of").typed x,
        fun _ => (good_one good_nat "duplicate_of").ok x trivial⟩
    | failedToWithdrawFrom x y z w =>
      exact ⟨_, _, .tail _ (.tail _ (.tail _ (.tail _ (.tail _ (.tail _ (.head _)))))), rfl, (good_FailedToWithdrawFrom text).typed (x, y, z, w),
        fun _ => (good_FailedToWithdrawFrom text).ok (x, y, z, w) trivial⟩
    | genericError x =>
      exact ⟨_, _, .tail _ (.tail _ (.tail _ (.tail _ (.tail _ (.tail _ (.tail _ (.head _))))))), rfl, (good_Generic text).typed x,
        fun _ => (good_Generic text).ok x trivial⟩
    | invalidReceiver x =>
      exact ⟨_, _, .tail _ (.tail _ (.tail _ (.tail _ (.tail _ (.tail _ (.tail _ (.tail _ (.head _)))))))), rfl, (good_one good_principal "receiver").typed x,
        fun _ => (good_one good_principal "receiver").ok x trivial⟩

theorem det_WithdrawFromError : Det wWithdrawFromError := by
  refine det_variant ["GenericError", "TemporarilyUnavailable", "FailedToWithdrawFrom", "Duplicate", "InvalidReceiver", "CreatedInFuture", "TooOld", "InsufficientFunds", "InsufficientAllowance"]
    (by decide +kernel) ?_ ?_
  · intro a
    cases a with
    | insufficientFunds _ => exact .tail _ (.tail _ (.tail _ (.tail _ (.tail _ (.tail _ (.tail _ (.head _)))))))
    | insufficientAllowance _ => exact .tail _ (.tail _ (.tail _ (.tail _ (.tail _ (.tail _ (.tail _ (.tail _ (.head _))))))))
    | tooOld => exact .tail _ (.tail _ (.tail _ (.tail _ (.tail _ (.tail _ (.head _))))))
    | createdInFuture _ => exact .tail _ (.tail _ (.tail _ (.tail _ (.tail _ (.head _)))))
    | temporarilyUnavailable => exact .tail _ (.head _)
    | duplicate _ => exact .tail _ (.tail _ (.tail _ (.head _)))
    | failedToWithdrawFrom _ _ _ _ => exact .tail _ (.tail _ (.head _))
    | genericError _ => exact .head _
    | invalidReceiver _ => exact .tail _ (.tail _ (.tail _ (.tail _ (.head _))))
  · intro a b u x hn h h'
    cases a with
    | insufficientFunds x =>
      cases b with
      | insufficientFunds x' =>
        rw [show x = x' from (det_one det_nat "balance") _ _ _ _ h h']
      | _ => exact absurd hn (by simp)
    | insufficientAllowance x =>
      cases b with
      | insufficientAllowance x' =>
        rw [show x = x' from (det_one det_nat "allowance") _ _ _ _ h h']
      | _ => exact absurd hn (by simp)
    | tooOld =>
      cases b with
      | tooOld => rfl
      | _ => exact absurd hn (by simp)
    | createdInFuture x =>
      cases b with
      | createdInFuture x' =>
        rw [show x = x' from (det_one det_time "ledger_time") _ _ _ _ h h']
      | _ => exact absurd hn (by simp)
    | temporarilyUnavailable =>
      cases b with
      | temporarilyUnavailable => rfl
      | _ => exact absurd hn (by simp)
    | duplicate x =>
      cases b with
      | duplicate x' =>
        rw [show x = x' from (det_one det_nat "duplicate_of") _ _ _ _ h h']
      | _ => exact absurd hn (by simp)
    | failedToWithdrawFrom x y z w =>
      cases b with
      | failedToWithdrawFrom x' y' z' w' =>
        have := det_FailedToWithdrawFrom (x, y, z, w) (x', y', z', w') _ _ h h'
        simp only [Prod.mk.injEq] at this
        obtain ⟨rfl, rfl, rfl, rfl⟩ := this
        rfl
      | _ => exact absurd hn (by simp)
    | genericError x =>
      cases b with
      | genericError x' =>
        rw [show x = x' from det_Generic _ _ _ _ h h']
      | _ => exact absurd hn (by simp)
    | invalidReceiver x =>
      cases b with
      | invalidReceiver x' =>
        rw [show x = x' from (det_one det_principal "receiver") _ _ _ _ h h']
      | _ => exact absurd hn (by simp)

/-- The times in an error. -/
def timesCreateCanisterError : CreateCanisterError → List Nat
  | .createdInFuture t => [t]
  | _ => []

theorem good_CreateCanisterError (text : Bytes) : Good wCreateCanisterError (enumTy casesCreateCanisterError) (putCreateCanisterError text)
    (fun e => ∀ t ∈ timesCreateCanisterError e, t < 2 ^ 64) := by
  refine good_enum (by decide +kernel) ?_ ?_
  · intro c hc
    simp only [casesCreateCanisterError, List.mem_cons, List.not_mem_nil, or_false] at hc
    rcases hc with rfl | rfl | rfl | rfl | rfl | rfl | rfl
    · exact ⟨(good_one good_nat "balance").wf, _, .head _, rfl,
        (good_one good_nat "balance").fits 0 trivial⟩
    · exact ⟨wf_null, _, .tail _ (.head _), rfl, rfl⟩
    · exact ⟨(good_one good_time "ledger_time").wf, _, .tail _ (.tail _ (.head _)), rfl,
        (good_one good_time "ledger_time").fits 0 (by decide)⟩
    · exact ⟨wf_null, _, .tail _ (.tail _ (.tail _ (.head _))), rfl, rfl⟩
    · exact ⟨good_Duplicate.wf, _, .tail _ (.tail _ (.tail _ (.tail _ (.head _)))), rfl,
        good_Duplicate.fits (0, none) trivial⟩
    · exact ⟨(good_FailedToCreate text).wf, _, .tail _ (.tail _ (.tail _ (.tail _ (.tail _ (.head _))))), rfl,
        (good_FailedToCreate text).fits (none, none) trivial⟩
    · exact ⟨(good_Generic text).wf, _, .tail _ (.tail _ (.tail _ (.tail _ (.tail _ (.tail _ (.head _)))))), rfl,
        (good_Generic text).fits 0 trivial⟩
  · intro a
    cases a with
    | insufficientFunds x =>
      exact ⟨_, _, .head _, rfl, (good_one good_nat "balance").typed x,
        fun _ => (good_one good_nat "balance").ok x trivial⟩
    | tooOld => exact ⟨_, _, .tail _ (.head _), rfl, typed_null, fun _ => bare_null⟩
    | createdInFuture x =>
      exact ⟨_, _, .tail _ (.tail _ (.head _)), rfl, (good_one good_time "ledger_time").typed x,
        fun h => (good_one good_time "ledger_time").ok x (h _ (.head _))⟩
    | temporarilyUnavailable => exact ⟨_, _, .tail _ (.tail _ (.tail _ (.head _))), rfl, typed_null, fun _ => bare_null⟩
    | duplicate x y =>
      exact ⟨_, _, .tail _ (.tail _ (.tail _ (.tail _ (.head _)))), rfl, good_Duplicate.typed (x, y),
        fun _ => good_Duplicate.ok (x, y) trivial⟩
    | failedToCreate x y =>
      exact ⟨_, _, .tail _ (.tail _ (.tail _ (.tail _ (.tail _ (.head _))))), rfl, (good_FailedToCreate text).typed (x, y),
        fun _ => (good_FailedToCreate text).ok (x, y) trivial⟩
    | genericError x =>
      exact ⟨_, _, .tail _ (.tail _ (.tail _ (.tail _ (.tail _ (.tail _ (.head _)))))), rfl, (good_Generic text).typed x,
        fun _ => (good_Generic text).ok x trivial⟩

theorem det_CreateCanisterError : Det wCreateCanisterError := by
  refine det_variant ["InsufficientFunds", "TooOld", "CreatedInFuture", "TemporarilyUnavailable", "Duplicate", "FailedToCreate", "GenericError"]
    (by decide +kernel) ?_ ?_
  · intro a
    cases a with
    | insufficientFunds _ => exact .head _
    | tooOld => exact .tail _ (.head _)
    | createdInFuture _ => exact .tail _ (.tail _ (.head _))
    | temporarilyUnavailable => exact .tail _ (.tail _ (.tail _ (.head _)))
    | duplicate _ _ => exact .tail _ (.tail _ (.tail _ (.tail _ (.head _))))
    | failedToCreate _ _ => exact .tail _ (.tail _ (.tail _ (.tail _ (.tail _ (.head _)))))
    | genericError _ => exact .tail _ (.tail _ (.tail _ (.tail _ (.tail _ (.tail _ (.head _))))))
  · intro a b u x hn h h'
    cases a with
    | insufficientFunds x =>
      cases b with
      | insufficientFunds x' =>
        rw [show x = x' from (det_one det_nat "balance") _ _ _ _ h h']
      | _ => exact absurd hn (by simp)
    | tooOld =>
      cases b with
      | tooOld => rfl
      | _ => exact absurd hn (by simp)
    | createdInFuture x =>
      cases b with
      | createdInFuture x' =>
        rw [show x = x' from (det_one det_time "ledger_time") _ _ _ _ h h']
      | _ => exact absurd hn (by simp)
    | temporarilyUnavailable =>
      cases b with
      | temporarilyUnavailable => rfl
      | _ => exact absurd hn (by simp)
    | duplicate x y =>
      cases b with
      | duplicate x' y' =>
        have := det_Duplicate (x, y) (x', y') _ _ h h'
        simp only [Prod.mk.injEq] at this
        obtain ⟨rfl, rfl⟩ := this
        rfl
      | _ => exact absurd hn (by simp)
    | failedToCreate x y =>
      cases b with
      | failedToCreate x' y' =>
        have := det_FailedToCreate (x, y) (x', y') _ _ h h'
        simp only [Prod.mk.injEq] at this
        obtain ⟨rfl, rfl⟩ := this
        rfl
      | _ => exact absurd hn (by simp)
    | genericError x =>
      cases b with
      | genericError x' =>
        rw [show x = x' from det_Generic _ _ _ _ h h']
      | _ => exact absurd hn (by simp)

/-- The times in an error. -/
def timesCreateCanisterFromError : CreateCanisterFromError → List Nat
  | .createdInFuture t => [t]
  | _ => []

theorem good_CreateCanisterFromError (text : Bytes) : Good wCreateCanisterFromError (enumTy casesCreateCanisterFromError) (putCreateCanisterFromError text)
    (fun e => ∀ t ∈ timesCreateCanisterFromError e, t < 2 ^ 64) := by
  refine good_enum (by decide +kernel) ?_ ?_
  · intro c hc
    simp only [casesCreateCanisterFromError, List.mem_cons, List.not_mem_nil, or_false] at hc
    rcases hc with rfl | rfl | rfl | rfl | rfl | rfl | rfl | rfl
    · exact ⟨(good_one good_nat "balance").wf, _, .head _, rfl,
        (good_one good_nat "balance").fits 0 trivial⟩
    · exact ⟨(good_one good_nat "allowance").wf, _, .tail _ (.head _), rfl,
        (good_one good_nat "allowance").fits 0 trivial⟩
    · exact ⟨wf_null, _, .tail _ (.tail _ (.head _)), rfl, rfl⟩
    · exact ⟨(good_one good_time "ledger_time").wf, _, .tail _ (.tail _ (.tail _ (.head _))), rfl,
        (good_one good_time "ledger_time").fits 0 (by decide)⟩
    · exact ⟨wf_null, _, .tail _ (.tail _ (.tail _ (.tail _ (.head _)))), rfl, rfl⟩
    · exact ⟨good_Duplicate.wf, _, .tail _ (.tail _ (.tail _ (.tail _ (.tail _ (.head _))))), rfl,
        good_Duplicate.fits (0, none) trivial⟩
    · exact ⟨(good_FailedToCreateFrom text).wf, _, .tail _ (.tail _ (.tail _ (.tail _ (.tail _ (.tail _ (.head _)))))), rfl,
        (good_FailedToCreateFrom text).fits (none, none, none, .noError) trivial⟩
    · exact ⟨(good_Generic text).wf, _, .tail _ (.tail _ (.tail _ (.tail _ (.tail _ (.tail _ (.tail _ (.head _))))))), rfl,
        (good_Generic text).fits 0 trivial⟩
  · intro a
    cases a with
    | insufficientFunds x =>
      exact ⟨_, _, .head _, rfl, (good_one good_nat "balance").typed x,
        fun _ => (good_one good_nat "balance").ok x trivial⟩
    | insufficientAllowance x =>
      exact ⟨_, _, .tail _ (.head _), rfl, (good_one good_nat "allowance").typed x,
        fun _ => (good_one good_nat "allowance").ok x trivial⟩
    | tooOld => exact ⟨_, _, .tail _ (.tail _ (.head _)), rfl, typed_null, fun _ => bare_null⟩
    | createdInFuture x =>
      exact ⟨_, _, .tail _ (.tail _ (.tail _ (.head _))), rfl, (good_one good_time "ledger_time").typed x,
        fun h => (good_one good_time "ledger_time").ok x (h _ (.head _))⟩
    | temporarilyUnavailable => exact ⟨_, _, .tail _ (.tail _ (.tail _ (.tail _ (.head _)))), rfl, typed_null, fun _ => bare_null⟩
    | duplicate x y =>
      exact ⟨_, _, .tail _ (.tail _ (.tail _ (.tail _ (.tail _ (.head _))))), rfl, good_Duplicate.typed (x, y),
        fun _ => good_Duplicate.ok (x, y) trivial⟩
    | failedToCreateFrom x y z w =>
      exact ⟨_, _, .tail _ (.tail _ (.tail _ (.tail _ (.tail _ (.tail _ (.head _)))))), rfl, (good_FailedToCreateFrom text).typed (x, y, z, w),
        fun _ => (good_FailedToCreateFrom text).ok (x, y, z, w) trivial⟩
    | genericError x =>
      exact ⟨_, _, .tail _ (.tail _ (.tail _ (.tail _ (.tail _ (.tail _ (.tail _ (.head _))))))), rfl, (good_Generic text).typed x,
        fun _ => (good_Generic text).ok x trivial⟩

theorem det_CreateCanisterFromError : Det wCreateCanisterFromError := by
  refine det_variant ["InsufficientFunds", "InsufficientAllowance", "TooOld", "CreatedInFuture", "TemporarilyUnavailable", "Duplicate", "FailedToCreateFrom", "GenericError"]
    (by decide +kernel) ?_ ?_
  · intro a
    cases a with
    | insufficientFunds _ => exact .head _
    | insufficientAllowance _ => exact .tail _ (.head _)
    | tooOld => exact .tail _ (.tail _ (.head _))
    | createdInFuture _ => exact .tail _ (.tail _ (.tail _ (.head _)))
    | temporarilyUnavailable => exact .tail _ (.tail _ (.tail _ (.tail _ (.head _))))
    | duplicate _ _ => exact .tail _ (.tail _ (.tail _ (.tail _ (.tail _ (.head _)))))
    | failedToCreateFrom _ _ _ _ => exact .tail _ (.tail _ (.tail _ (.tail _ (.tail _ (.tail _ (.head _))))))
    | genericError _ => exact .tail _ (.tail _ (.tail _ (.tail _ (.tail _ (.tail _ (.tail _ (.head _)))))))
  · intro a b u x hn h h'
    cases a with
    | insufficientFunds x =>
      cases b with
      | insufficientFunds x' =>
        rw [show x = x' from (det_one det_nat "balance") _ _ _ _ h h']
      | _ => exact absurd hn (by simp)
    | insufficientAllowance x =>
      cases b with
      | insufficientAllowance x' =>
        rw [show x = x' from (det_one det_nat "allowance") _ _ _ _ h h']
      | _ => exact absurd hn (by simp)
    | tooOld =>
      cases b with
      | tooOld => rfl
      | _ => exact absurd hn (by simp)
    | createdInFuture x =>
      cases b with
      | createdInFuture x' =>
        rw [show x = x' from (det_one det_time "ledger_time") _ _ _ _ h h']
      | _ => exact absurd hn (by simp)
    | temporarilyUnavailable =>
      cases b with
      | temporarilyUnavailable => rfl
      | _ => exact absurd hn (by simp)
    | duplicate x y =>
      cases b with
      | duplicate x' y' =>
        have := det_Duplicate (x, y) (x', y') _ _ h h'
        simp only [Prod.mk.injEq] at this
        obtain ⟨rfl, rfl⟩ := this
        rfl
      | _ => exact absurd hn (by simp)
    | failedToCreateFrom x y z w =>
      cases b with
      | failedToCreateFrom x' y' z' w' =>
        have := det_FailedToCreateFrom (x, y, z, w) (x', y', z', w') _ _ h h'
        simp only [Prod.mk.injEq] at this
        obtain ⟨rfl, rfl, rfl, rfl⟩ := this
        rfl
      | _ => exact absurd hn (by simp)
    | genericError x =>
      cases b with
      | genericError x' =>
        rw [show x = x' from det_Generic _ _ _ _ h h']
      | _ => exact absurd hn (by simp)

theorem good_result {E A : Type} {ok : Way A} {err : Way E} {tyOk tyErr : Ty} {putOk : A → Val}
    {putErr : E → Val} {P : E → Prop} (g : Good ok tyOk putOk (fun _ => True))
    (g' : Good err tyErr putErr P) (a : A) (e : E) (he : P e) :
    Good (wResult ok err) (enumTy (casesResult tyOk tyErr)) (putResult tyOk tyErr putOk putErr)
      (fun r => ∀ e, r = .error e → P e) := by
  refine good_enum (by simp only [casesResult, List.map_cons, List.map_nil]; decide +kernel) ?_ ?_
  · intro c hc
    simp only [casesResult, List.mem_cons, List.not_mem_nil, or_false] at hc
    rcases hc with rfl | rfl
    · exact ⟨g.wf, _, .head _, rfl, g.fits a trivial⟩
    · exact ⟨g'.wf, _, .tail _ (.head _), rfl, g'.fits e he⟩
  · intro r
    cases r with
    | ok a => exact ⟨_, _, .head _, rfl, g.typed a, fun _ => g.ok a trivial⟩
    | error e => exact ⟨_, _, .tail _ (.head _), rfl, g'.typed e, fun h => g'.ok e (h e rfl)⟩

theorem det_result {E A : Type} {ok : Way A} {err : Way E} (hd : Det ok) (hd' : Det err) :
    Det (wResult ok err) := by
  refine det_variant ["Ok", "Err"] (by decide +kernel) ?_ ?_
  · intro r
    cases r with
    | ok _ => exact .head _
    | error _ => exact .tail _ (.head _)
  · intro a b u x hn h h'
    cases a with
    | ok a =>
      cases b with
      | ok b => rw [hd _ _ _ _ h h']
      | error _ => exact absurd hn (by simp)
    | error a =>
      cases b with
      | ok _ => exact absurd hn (by simp)
      | error b => rw [hd' _ _ _ _ h h']

end CyclesLedger.Candid
