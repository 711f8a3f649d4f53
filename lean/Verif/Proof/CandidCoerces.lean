import Verif.Proof.CandidCoerce
/-!
# Reading the arguments of the endpoints at the types of `cycles-ledger.did`
-/
namespace CyclesLedger.Candid

open Spec.Candid

theorem coercing_account : Coercing desAccount Did.account Mean.account := by
  have key := coercing_record (d := desAccount) (E := [(nameHash "owner", .principal), (nameHash "subaccount", (.opt Did.blob))])
    (F := fun a => [Mean.principal a.owner, Mean.opt (Mean.subaccount) a.subaccount])
    (L := _) rfl rfl ?_ ?_
  · exact key
  · intro fs hp hs
    have c0 := fit_iff coercing_principal hp hs (nameHash "owner")
    have c1 := fit_iff (coercing_opt coercing_subaccount) hp hs (nameHash "subaccount")
    simp only [List.map_cons, List.map_nil, List.forall_mem_cons, label_eq, c0, c1]
    exact ⟨fun ⟨h0, h1, h⟩ => ⟨h0, h1, (fun _ h => by cases h)⟩, fun ⟨h0, h1, h⟩ => ⟨h0, h1, (fun _ h => by cases h)⟩⟩
  · intro s t v a hr hs ht hf
    have c0 := is_iff coercing_principal hr hs ht (l := nameHash "owner")
      (hf (nameHash "owner", .principal) (List.mem_of_getElem? (i := 0) rfl))
    have c1 := is_iff (coercing_opt coercing_subaccount) hr hs ht (l := nameHash "subaccount")
      (hf (nameHash "subaccount", (.opt Did.blob)) (List.mem_of_getElem? (i := 1) rfl))
    simp only [desAccount, Candid.field, label_eq, Option.bind_eq_bind, Option.bind_eq_some_iff, Option.pure_def,
      Option.some.injEq, allAre_cons, allAre_nil, c0, c1]
    constructor
    · rintro ⟨_, h0, _, h1, rfl⟩; exact ⟨h0, h1, trivial⟩
    · rintro ⟨h0, h1, _⟩; exact ⟨_, h0, _, h1, rfl⟩

theorem coercing_deposit : Coercing desDeposit Did.depositArgs Mean.depositArgs := by
  have key := coercing_record (d := desDeposit) (E := [(nameHash "to", Did.account), (nameHash "memo", (.opt Did.blob))])
    (F := fun a => [Mean.account a.to, Mean.opt (Mean.blob) a.memo])
    (L := _) rfl rfl ?_ ?_
  · exact key
  · intro fs hp hs
    have c0 := fit_iff coercing_account hp hs (nameHash "to")
    have c1 := fit_iff (coercing_opt coercing_blob) hp hs (nameHash "memo")
    simp only [List.map_cons, List.map_nil, List.forall_mem_cons, label_eq, c0, c1]
    exact ⟨fun ⟨h0, h1, h⟩ => ⟨h0, h1, (fun _ h => by cases h)⟩, fun ⟨h0, h1, h⟩ => ⟨h0, h1, (fun _ h => by cases h)⟩⟩
  · intro s t v a hr hs ht hf
    have c0 := is_iff coercing_account hr hs ht (l := nameHash "to")
      (hf (nameHash "to", Did.account) (List.mem_of_getElem? (i := 0) rfl))
    have c1 := is_iff (coercing_opt coercing_blob) hr hs ht (l := nameHash "memo")
      (hf (nameHash "memo", (.opt Did.blob)) (List.mem_of_getElem? (i := 1) rfl))
    simp only [desDeposit, Candid.field, label_eq, Option.bind_eq_bind, Option.bind_eq_some_iff, Option.pure_def,
      Option.some.injEq, allAre_cons, allAre_nil, c0, c1]
    constructor
    · rintro ⟨_, h0, _, h1, rfl⟩; exact ⟨h0, h1, trivial⟩
    · rintro ⟨h0, h1, _⟩; exact ⟨_, h0, _, h1, rfl⟩

theorem coercing_transfer : Coercing desTransfer Did.transferArgs Mean.transferArgs := by
  have key := coercing_record (d := desTransfer) (E := [(nameHash "from_subaccount", (.opt Did.blob)), (nameHash "to", Did.account), (nameHash "amount", .nat), (nameHash "fee", (.opt .nat)), (nameHash "memo", (.opt Did.blob)), (nameHash "created_at_time", (.opt Did.nat64))])
    (F := fun a => [Mean.opt (Mean.subaccount) a.fromSubaccount, Mean.account a.to, .nat a.amount, Mean.opt (.nat) a.fee, Mean.opt (Mean.blob) a.memo, Mean.opt (Mean.nat64) a.createdAtTime])
    (L := _) rfl rfl ?_ ?_
  · exact key
  · intro fs hp hs
    have c0 := fit_iff (coercing_opt coercing_subaccount) hp hs (nameHash "from_subaccount")
    have c1 := fit_iff coercing_account hp hs (nameHash "to")
    have c2 := fit_iff (coercing_opt coercing_nat) hp hs (nameHash "fee")
    have c3 := fit_iff (coercing_opt coercing_nat64) hp hs (nameHash "created_at_time")
    have c4 := fit_iff (coercing_opt coercing_blob) hp hs (nameHash "memo")
    have c5 := fit_iff coercing_nat hp hs (nameHash "amount")
    simp only [List.map_cons, List.map_nil, List.forall_mem_cons, label_eq, c0, c1, c2, c3, c4, c5]
    exact ⟨fun ⟨h0, h1, h2, h3, h4, h5, h⟩ => ⟨h0, h1, h5, h2, h4, h3, (fun _ h => by cases h)⟩, fun ⟨h0, h1, h5, h2, h4, h3, h⟩ => ⟨h0, h1, h2, h3, h4, h5, (fun _ h => by cases h)⟩⟩
  · intro s t v a hr hs ht hf
    have c0 := is_iff (coercing_opt coercing_subaccount) hr hs ht (l := nameHash "from_subaccount")
      (hf (nameHash "from_subaccount", (.opt Did.blob)) (List.mem_of_getElem? (i := 0) rfl))
    have c1 := is_iff coercing_account hr hs ht (l := nameHash "to")
      (hf (nameHash "to", Did.account) (List.mem_of_getElem? (i := 1) rfl))
    have c2 := is_iff (coercing_opt coercing_nat) hr hs ht (l := nameHash "fee")
      (hf (nameHash "fee", (.opt .nat)) (List.mem_of_getElem? (i := 3) rfl))
    have c3 := is_iff (coercing_opt coercing_nat64) hr hs ht (l := nameHash "created_at_time")
      (hf (nameHash "created_at_time", (.opt Did.nat64)) (List.mem_of_getElem? (i := 5) rfl))
    have c4 := is_iff (coercing_opt coercing_blob) hr hs ht (l := nameHash "memo")
      (hf (nameHash "memo", (.opt Did.blob)) (List.mem_of_getElem? (i := 4) rfl))
    have c5 := is_iff coercing_nat hr hs ht (l := nameHash "amount")
      (hf (nameHash "amount", .nat) (List.mem_of_getElem? (i := 2) rfl))
    simp only [desTransfer, Candid.field, label_eq, Option.bind_eq_bind, Option.bind_eq_some_iff, Option.pure_def,
      Option.some.injEq, allAre_cons, allAre_nil, c0, c1, c2, c3, c4, c5]
    constructor
    · rintro ⟨_, h0, _, h1, _, h2, _, h3, _, h4, _, h5, rfl⟩; exact ⟨h0, h1, h5, h2, h4, h3, trivial⟩
    · rintro ⟨h0, h1, h5, h2, h4, h3, _⟩; exact ⟨_, h0, _, h1, _, h2, _, h3, _, h4, _, h5, rfl⟩

theorem coercing_transferFrom : Coercing desTransferFrom Did.transferFromArgs Mean.transferFromArgs := by
  have key := coercing_record (d := desTransferFrom) (E := [(nameHash "spender_subaccount", (.opt Did.blob)), (nameHash "from", Did.account), (nameHash "to", Did.account), (nameHash "amount", .nat), (nameHash "fee", (.opt .nat)), (nameHash "memo", (.opt Did.blob)), (nameHash "created_at_time", (.opt Did.nat64))])
    (F := fun a => [Mean.opt (Mean.subaccount) a.spenderSubaccount, Mean.account a.frm, Mean.account a.to, .nat a.amount, Mean.opt (.nat) a.fee, Mean.opt (Mean.blob) a.memo, Mean.opt (Mean.nat64) a.createdAtTime])
    (L := _) rfl rfl ?_ ?_
  · exact key
  · intro fs hp hs
    have c0 := fit_iff (coercing_opt coercing_subaccount) hp hs (nameHash "spender_subaccount")
    have c1 := fit_iff coercing_account hp hs (nameHash "from")
    have c2 := fit_iff coercing_account hp hs (nameHash "to")
    have c3 := fit_iff coercing_nat hp hs (nameHash "amount")
    have c4 := fit_iff (coercing_opt coercing_nat) hp hs (nameHash "fee")
    have c5 := fit_iff (coercing_opt coercing_blob) hp hs (nameHash "memo")
    have c6 := fit_iff (coercing_opt coercing_nat64) hp hs (nameHash "created_at_time")
    simp only [List.map_cons, List.map_nil, List.forall_mem_cons, label_eq, c0, c1, c2, c3, c4, c5, c6]
    exact ⟨fun ⟨h0, h1, h2, h3, h4, h5, h6, h⟩ => ⟨h0, h1, h2, h3, h4, h5, h6, (fun _ h => by cases h)⟩, fun ⟨h0, h1, h2, h3, h4, h5, h6, h⟩ => ⟨h0, h1, h2, h3, h4, h5, h6, (fun _ h => by cases h)⟩⟩
  · intro s t v a hr hs ht hf
    have c0 := is_iff (coercing_opt coercing_subaccount) hr hs ht (l := nameHash "spender_subaccount")
      (hf (nameHash "spender_subaccount", (.opt Did.blob)) (List.mem_of_getElem? (i := 0) rfl))
    have c1 := is_iff coercing_account hr hs ht (l := nameHash "from")
      (hf (nameHash "from", Did.account) (List.mem_of_getElem? (i := 1) rfl))
    have c2 := is_iff coercing_account hr hs ht (l := nameHash "to")
      (hf (nameHash "to", Did.account) (List.mem_of_getElem? (i := 2) rfl))
    have c3 := is_iff coercing_nat hr hs ht (l := nameHash "amount")
      (hf (nameHash "amount", .nat) (List.mem_of_getElem? (i := 3) rfl))
    have c4 := is_iff (coercing_opt coercing_nat) hr hs ht (l := nameHash "fee")
      (hf (nameHash "fee", (.opt .nat)) (List.mem_of_getElem? (i := 4) rfl))
    have c5 := is_iff (coercing_opt coercing_blob) hr hs ht (l := nameHash "memo")
      (hf (nameHash "memo", (.opt Did.blob)) (List.mem_of_getElem? (i := 5) rfl))
    have c6 := is_iff (coercing_opt coercing_nat64) hr hs ht (l := nameHash "created_at_time")
      (hf (nameHash "created_at_time", (.opt Did.nat64)) (List.mem_of_getElem? (i := 6) rfl))
    simp only [desTransferFrom, Candid.field, label_eq, Option.bind_eq_bind, Option.bind_eq_some_iff, Option.pure_def,
      Option.some.injEq, allAre_cons, allAre_nil, c0, c1, c2, c3, c4, c5, c6]
    constructor
    · rintro ⟨_, h0, _, h1, _, h2, _, h3, _, h4, _, h5, _, h6, rfl⟩; exact ⟨h0, h1, h2, h3, h4, h5, h6, trivial⟩
    · rintro ⟨h0, h1, h2, h3, h4, h5, h6, _⟩; exact ⟨_, h0, _, h1, _, h2, _, h3, _, h4, _, h5, _, h6, rfl⟩

theorem coercing_approve : Coercing desApprove Did.approveArgs Mean.approveArgs := by
  have key := coercing_record (d := desApprove) (E := [(nameHash "from_subaccount", (.opt Did.blob)), (nameHash "spender", Did.account), (nameHash "amount", .nat), (nameHash "expected_allowance", (.opt .nat)), (nameHash "expires_at", (.opt Did.nat64)), (nameHash "fee", (.opt .nat)), (nameHash "memo", (.opt Did.blob)), (nameHash "created_at_time", (.opt Did.nat64))])
    (F := fun a => [Mean.opt (Mean.subaccount) a.fromSubaccount, Mean.account a.spender, .nat a.amount, Mean.opt (.nat) a.expectedAllowance, Mean.opt (Mean.nat64) a.expiresAt, Mean.opt (.nat) a.fee, Mean.opt (Mean.blob) a.memo, Mean.opt (Mean.nat64) a.createdAtTime])
    (L := _) rfl rfl ?_ ?_
  · exact key
  · intro fs hp hs
    have c0 := fit_iff (coercing_opt coercing_subaccount) hp hs (nameHash "from_subaccount")
    have c1 := fit_iff coercing_account hp hs (nameHash "spender")
    have c2 := fit_iff coercing_nat hp hs (nameHash "amount")
    have c3 := fit_iff (coercing_opt coercing_nat) hp hs (nameHash "expected_allowance")
    have c4 := fit_iff (coercing_opt coercing_nat64) hp hs (nameHash "expires_at")
    have c5 := fit_iff (coercing_opt coercing_nat) hp hs (nameHash "fee")
    have c6 := fit_iff (coercing_opt coercing_blob) hp hs (nameHash "memo")
    have c7 := fit_iff (coercing_opt coercing_nat64) hp hs (nameHash "created_at_time")
    simp only [List.map_cons, List.map_nil, List.forall_mem_cons, label_eq, c0, c1, c2, c3, c4, c5, c6, c7]
    exact ⟨fun ⟨h0, h1, h2, h3, h4, h5, h6, h7, h⟩ => ⟨h0, h1, h2, h3, h4, h5, h6, h7, (fun _ h => by cases h)⟩, fun ⟨h0, h1, h2, h3, h4, h5, h6, h7, h⟩ => ⟨h0, h1, h2, h3, h4, h5, h6, h7, (fun _ h => by cases h)⟩⟩
  · intro s t v a hr hs ht hf
    have c0 := is_iff (coercing_opt coercing_subaccount) hr hs ht (l := nameHash "from_subaccount")
      (hf (nameHash "from_subaccount", (.opt Did.blob)) (List.mem_of_getElem? (i := 0) rfl))
    have c1 := is_iff coercing_account hr hs ht (l := nameHash "spender")
      (hf (nameHash "spender", Did.account) (List.mem_of_getElem? (i := 1) rfl))
    have c2 := is_iff coercing_nat hr hs ht (l := nameHash "amount")
      (hf (nameHash "amount", .nat) (List.mem_of_getElem? (i := 2) rfl))
    have c3 := is_iff (coercing_opt coercing_nat) hr hs ht (l := nameHash "expected_allowance")
      (hf (nameHash "expected_allowance", (.opt .nat)) (List.mem_of_getElem? (i := 3) rfl))
    have c4 := is_iff (coercing_opt coercing_nat64) hr hs ht (l := nameHash "expires_at")
      (hf (nameHash "expires_at", (.opt Did.nat64)) (List.mem_of_getElem? (i := 4) rfl))
    have c5 := is_iff (coercing_opt coercing_nat) hr hs ht (l := nameHash "fee")
      (hf (nameHash "fee", (.opt .nat)) (List.mem_of_getElem? (i := 5) rfl))
    have c6 := is_iff (coercing_opt coercing_blob) hr hs ht (l := nameHash "memo")
      (hf (nameHash "memo", (.opt Did.blob)) (List.mem_of_getElem? (i := 6) rfl))
    have c7 := is_iff (coercing_opt coercing_nat64) hr hs ht (l := nameHash "created_at_time")
      (hf (nameHash "created_at_time", (.opt Did.nat64)) (List.mem_of_getElem? (i := 7) rfl))
    simp only [desApprove, Candid.field, label_eq, Option.bind_eq_bind, Option.bind_eq_some_iff, Option.pure_def,
      Option.some.injEq, allAre_cons, allAre_nil, c0, c1, c2, c3, c4, c5, c6, c7]
    constructor
    · rintro ⟨_, h0, _, h1, _, h2, _, h3, _, h4, _, h5, _, h6, _, h7, rfl⟩; exact ⟨h0, h1, h2, h3, h4, h5, h6, h7, trivial⟩
    · rintro ⟨h0, h1, h2, h3, h4, h5, h6, h7, _⟩; exact ⟨_, h0, _, h1, _, h2, _, h3, _, h4, _, h5, _, h6, _, h7, rfl⟩

theorem coercing_withdraw : Coercing desWithdraw Did.withdrawArgs Mean.withdrawArgs := by
  have key := coercing_record (d := desWithdraw) (E := [(nameHash "amount", .nat), (nameHash "from_subaccount", (.opt Did.blob)), (nameHash "to", .principal), (nameHash "created_at_time", (.opt Did.nat64))])
    (F := fun a => [.nat a.amount, Mean.opt (Mean.subaccount) a.fromSubaccount, Mean.principal a.to, Mean.opt (Mean.nat64) a.createdAtTime])
    (L := _) rfl rfl ?_ ?_
  · exact key
  · intro fs hp hs
    have c0 := fit_iff (coercing_opt coercing_subaccount) hp hs (nameHash "from_subaccount")
    have c1 := fit_iff coercing_principal hp hs (nameHash "to")
    have c2 := fit_iff (coercing_opt coercing_nat64) hp hs (nameHash "created_at_time")
    have c3 := fit_iff coercing_nat hp hs (nameHash "amount")
    simp only [List.map_cons, List.map_nil, List.forall_mem_cons, label_eq, c0, c1, c2, c3]
    exact ⟨fun ⟨h0, h1, h2, h3, h⟩ => ⟨h3, h0, h1, h2, (fun _ h => by cases h)⟩, fun ⟨h3, h0, h1, h2, h⟩ => ⟨h0, h1, h2, h3, (fun _ h => by cases h)⟩⟩
  · intro s t v a hr hs ht hf
    have c0 := is_iff (coercing_opt coercing_subaccount) hr hs ht (l := nameHash "from_subaccount")
      (hf (nameHash "from_subaccount", (.opt Did.blob)) (List.mem_of_getElem? (i := 1) rfl))
    have c1 := is_iff coercing_principal hr hs ht (l := nameHash "to")
      (hf (nameHash "to", .principal) (List.mem_of_getElem? (i := 2) rfl))
    have c2 := is_iff (coercing_opt coercing_nat64) hr hs ht (l := nameHash "created_at_time")
      (hf (nameHash "created_at_time", (.opt Did.nat64)) (List.mem_of_getElem? (i := 3) rfl))
    have c3 := is_iff coercing_nat hr hs ht (l := nameHash "amount")
      (hf (nameHash "amount", .nat) (List.mem_of_getElem? (i := 0) rfl))
    simp only [desWithdraw, Candid.field, label_eq, Option.bind_eq_bind, Option.bind_eq_some_iff, Option.pure_def,
      Option.some.injEq, allAre_cons, allAre_nil, c0, c1, c2, c3]
    constructor
    · rintro ⟨_, h0, _, h1, _, h2, _, h3, rfl⟩; exact ⟨h3, h0, h1, h2, trivial⟩
    · rintro ⟨h3, h0, h1, h2, _⟩; exact ⟨_, h0, _, h1, _, h2, _, h3, rfl⟩

theorem coercing_withdrawFrom : Coercing desWithdrawFrom Did.withdrawFromArgs Mean.withdrawFromArgs := by
  have key := coercing_record (d := desWithdrawFrom) (E := [(nameHash "spender_subaccount", (.opt Did.blob)), (nameHash "from", Did.account), (nameHash "to", .principal), (nameHash "amount", .nat), (nameHash "created_at_time", (.opt Did.nat64))])
    (F := fun a => [Mean.opt (Mean.subaccount) a.spenderSubaccount, Mean.account a.frm, Mean.principal a.to, .nat a.amount, Mean.opt (Mean.nat64) a.createdAtTime])
    (L := _) rfl rfl ?_ ?_
  · exact key
  · intro fs hp hs
    have c0 := fit_iff (coercing_opt coercing_subaccount) hp hs (nameHash "spender_subaccount")
    have c1 := fit_iff coercing_account hp hs (nameHash "from")
    have c2 := fit_iff coercing_principal hp hs (nameHash "to")
    have c3 := fit_iff (coercing_opt coercing_nat64) hp hs (nameHash "created_at_time")
    have c4 := fit_iff coercing_nat hp hs (nameHash "amount")
    simp only [List.map_cons, List.map_nil, List.forall_mem_cons, label_eq, c0, c1, c2, c3, c4]
    exact ⟨fun ⟨h0, h1, h2, h3, h4, h⟩ => ⟨h0, h1, h2, h4, h3, (fun _ h => by cases h)⟩, fun ⟨h0, h1, h2, h4, h3, h⟩ => ⟨h0, h1, h2, h3, h4, (fun _ h => by cases h)⟩⟩
  · intro s t v a hr hs ht hf
    have c0 := is_iff (coercing_opt coercing_subaccount) hr hs ht (l := nameHash "spender_subaccount")
      (hf (nameHash "spender_subaccount", (.opt Did.blob)) (List.mem_of_getElem? (i := 0) rfl))
    have c1 := is_iff coercing_account hr hs ht (l := nameHash "from")
      (hf (nameHash "from", Did.account) (List.mem_of_getElem? (i := 1) rfl))
    have c2 := is_iff coercing_principal hr hs ht (l := nameHash "to")
      (hf (nameHash "to", .principal) (List.mem_of_getElem? (i := 2) rfl))
    have c3 := is_iff (coercing_opt coercing_nat64) hr hs ht (l := nameHash "created_at_time")
      (hf (nameHash "created_at_time", (.opt Did.nat64)) (List.mem_of_getElem? (i := 4) rfl))
    have c4 := is_iff coercing_nat hr hs ht (l := nameHash "amount")
      (hf (nameHash "amount", .nat) (List.mem_of_getElem? (i := 3) rfl))
    simp only [desWithdrawFrom, Candid.field, label_eq, Option.bind_eq_bind, Option.bind_eq_some_iff, Option.pure_def,
      Option.some.injEq, allAre_cons, allAre_nil, c0, c1, c2, c3, c4]
    constructor
    · rintro ⟨_, h0, _, h1, _, h2, _, h3, _, h4, rfl⟩; exact ⟨h0, h1, h2, h4, h3, trivial⟩
    · rintro ⟨h0, h1, h2, h4, h3, _⟩; exact ⟨_, h0, _, h1, _, h2, _, h3, _, h4, rfl⟩

theorem coercing_allowance : Coercing desAllowance Did.allowanceArgs Mean.allowanceArgs := by
  have key := coercing_record (d := desAllowance) (E := [(nameHash "account", Did.account), (nameHash "spender", Did.account)])
    (F := fun a => [Mean.account a.1, Mean.account a.2])
    (L := _) rfl rfl ?_ ?_
  · exact key
  · intro fs hp hs
    have c0 := fit_iff coercing_account hp hs (nameHash "account")
    have c1 := fit_iff coercing_account hp hs (nameHash "spender")
    simp only [List.map_cons, List.map_nil, List.forall_mem_cons, label_eq, c0, c1]
    exact ⟨fun ⟨h0, h1, h⟩ => ⟨h0, h1, (fun _ h => by cases h)⟩, fun ⟨h0, h1, h⟩ => ⟨h0, h1, (fun _ h => by cases h)⟩⟩
  · intro s t v a hr hs ht hf
    have c0 := is_iff coercing_account hr hs ht (l := nameHash "account")
      (hf (nameHash "account", Did.account) (List.mem_of_getElem? (i := 0) rfl))
    have c1 := is_iff coercing_account hr hs ht (l := nameHash "spender")
      (hf (nameHash "spender", Did.account) (List.mem_of_getElem? (i := 1) rfl))
    simp only [desAllowance, Candid.field, label_eq, Option.bind_eq_bind, Option.bind_eq_some_iff, Option.pure_def,
      Option.some.injEq, allAre_cons, allAre_nil, c0, c1]
    constructor
    · rintro ⟨_, h0, _, h1, rfl⟩; exact ⟨h0, h1, trivial⟩
    · rintro ⟨h0, h1, _⟩; exact ⟨_, h0, _, h1, rfl⟩

theorem coercing_getAllowances : Coercing desGetAllowances Did.getAllowancesArgs Mean.getAllowancesArgs := by
  have key := coercing_record (d := desGetAllowances) (E := [(nameHash "from_account", (.opt Did.account)), (nameHash "prev_spender", (.opt Did.account)), (nameHash "take", (.opt .nat))])
    (F := fun a => [Mean.opt (Mean.account) a.1, Mean.opt (Mean.account) a.2.1, Mean.opt (.nat) a.2.2])
    (L := _) rfl rfl ?_ ?_
  · exact key
  · intro fs hp hs
    have c0 := fit_iff (coercing_opt coercing_account) hp hs (nameHash "from_account")
    have c1 := fit_iff (coercing_opt coercing_account) hp hs (nameHash "prev_spender")
    have c2 := fit_iff (coercing_opt coercing_nat) hp hs (nameHash "take")
    simp only [List.map_cons, List.map_nil, List.forall_mem_cons, label_eq, c0, c1, c2]
    exact ⟨fun ⟨h0, h1, h2, h⟩ => ⟨h0, h1, h2, (fun _ h => by cases h)⟩, fun ⟨h0, h1, h2, h⟩ => ⟨h0, h1, h2, (fun _ h => by cases h)⟩⟩
  · intro s t v a hr hs ht hf
    have c0 := is_iff (coercing_opt coercing_account) hr hs ht (l := nameHash "from_account")
      (hf (nameHash "from_account", (.opt Did.account)) (List.mem_of_getElem? (i := 0) rfl))
    have c1 := is_iff (coercing_opt coercing_account) hr hs ht (l := nameHash "prev_spender")
      (hf (nameHash "prev_spender", (.opt Did.account)) (List.mem_of_getElem? (i := 1) rfl))
    have c2 := is_iff (coercing_opt coercing_nat) hr hs ht (l := nameHash "take")
      (hf (nameHash "take", (.opt .nat)) (List.mem_of_getElem? (i := 2) rfl))
    simp only [desGetAllowances, Candid.field, label_eq, Option.bind_eq_bind, Option.bind_eq_some_iff, Option.pure_def,
      Option.some.injEq, allAre_cons, allAre_nil, c0, c1, c2]
    constructor
    · rintro ⟨_, h0, _, h1, _, h2, rfl⟩; exact ⟨h0, h1, h2, trivial⟩
    · rintro ⟨h0, h1, h2, _⟩; exact ⟨_, h0, _, h1, _, h2, rfl⟩

theorem coercing_range : Coercing desRange (Did.record [("start", .nat), ("length", .nat)]) (fun r => Mean.record [.nat r.start, .nat r.length]) := by
  have key := coercing_record (d := desRange) (E := [(nameHash "start", .nat), (nameHash "length", .nat)])
    (F := fun a => [.nat a.start, .nat a.length])
    (L := _) rfl rfl ?_ ?_
  · exact key
  · intro fs hp hs
    have c0 := fit_iff coercing_nat hp hs (nameHash "start")
    have c1 := fit_iff coercing_nat hp hs (nameHash "length")
    simp only [List.map_cons, List.map_nil, List.forall_mem_cons, label_eq, c0, c1]
    exact ⟨fun ⟨h0, h1, h⟩ => ⟨h0, h1, (fun _ h => by cases h)⟩, fun ⟨h0, h1, h⟩ => ⟨h0, h1, (fun _ h => by cases h)⟩⟩
  · intro s t v a hr hs ht hf
    have c0 := is_iff coercing_nat hr hs ht (l := nameHash "start")
      (hf (nameHash "start", .nat) (List.mem_of_getElem? (i := 0) rfl))
    have c1 := is_iff coercing_nat hr hs ht (l := nameHash "length")
      (hf (nameHash "length", .nat) (List.mem_of_getElem? (i := 1) rfl))
    simp only [desRange, Candid.field, label_eq, Option.bind_eq_bind, Option.bind_eq_some_iff, Option.pure_def,
      Option.some.injEq, allAre_cons, allAre_nil, c0, c1]
    constructor
    · rintro ⟨_, h0, _, h1, rfl⟩; exact ⟨h0, h1, trivial⟩
    · rintro ⟨h0, h1, _⟩; exact ⟨_, h0, _, h1, rfl⟩

theorem coercing_getBlocks : Coercing desGetBlocks Did.getBlocksArgs Mean.getBlocksArgs :=
  coercing_vec coercing_range

theorem coercing_variable : Coercing desVariable Did.environmentVariable Mean.environmentVariable := by
  have key := coercing_record (d := desVariable) (E := [(nameHash "name", .text), (nameHash "value", .text)])
    (F := fun a => [.text a.1, .text a.2])
    (L := _) rfl rfl ?_ ?_
  · exact key
  · intro fs hp hs
    have c0 := fit_iff coercing_text hp hs (nameHash "name")
    have c1 := fit_iff coercing_text hp hs (nameHash "value")
    simp only [List.map_cons, List.map_nil, List.forall_mem_cons, label_eq, c0, c1]
    exact ⟨fun ⟨h0, h1, h⟩ => ⟨h0, h1, (fun _ h => by cases h)⟩, fun ⟨h0, h1, h⟩ => ⟨h0, h1, (fun _ h => by cases h)⟩⟩
  · intro s t v a hr hs ht hf
    have c0 := is_iff coercing_text hr hs ht (l := nameHash "name")
      (hf (nameHash "name", .text) (List.mem_of_getElem? (i := 0) rfl))
    have c1 := is_iff coercing_text hr hs ht (l := nameHash "value")
      (hf (nameHash "value", .text) (List.mem_of_getElem? (i := 1) rfl))
    simp only [desVariable, Candid.field, label_eq, Option.bind_eq_bind, Option.bind_eq_some_iff, Option.pure_def,
      Option.some.injEq, allAre_cons, allAre_nil, c0, c1]
    constructor
    · rintro ⟨_, h0, _, h1, rfl⟩; exact ⟨h0, h1, trivial⟩
    · rintro ⟨h0, h1, _⟩; exact ⟨_, h0, _, h1, rfl⟩

theorem coercing_filter : Coercing desFilter Did.subnetFilter Mean.subnetFilter := by
  have key := coercing_record (d := desFilter) (E := [(nameHash "subnet_type", (.opt .text))])
    (F := fun a => [Mean.opt (.text) a]) (L := _) rfl rfl ?_ ?_
  · exact key
  · intro fs hp hs
    have c0 := fit_iff (coercing_opt coercing_text) hp hs (nameHash "subnet_type")
    simp only [List.map_cons, List.map_nil, List.forall_mem_cons, label_eq, c0]
    exact ⟨fun ⟨h0, h⟩ => ⟨h0, (fun _ h => by cases h)⟩, fun ⟨h0, h⟩ => ⟨h0, (fun _ h => by cases h)⟩⟩
  · intro s t v a hr hs ht hf
    have c0 := is_iff (coercing_opt coercing_text) hr hs ht (l := nameHash "subnet_type") (hf (nameHash "subnet_type", (.opt .text)) (.head _))
    simp only [desFilter, Candid.field, label_eq, allAre_cons, allAre_nil, c0, and_true]

theorem coercing_subnet : Coercing desSubnet (Did.record [("subnet", .principal)]) (fun p => Mean.record [Mean.principal p]) := by
  have key := coercing_record (d := desSubnet) (E := [(nameHash "subnet", .principal)])
    (F := fun a => [Mean.principal a]) (L := _) rfl rfl ?_ ?_
  · exact key
  · intro fs hp hs
    have c0 := fit_iff coercing_principal hp hs (nameHash "subnet")
    simp only [List.map_cons, List.map_nil, List.forall_mem_cons, label_eq, c0]
    exact ⟨fun ⟨h0, h⟩ => ⟨h0, (fun _ h => by cases h)⟩, fun ⟨h0, h⟩ => ⟨h0, (fun _ h => by cases h)⟩⟩
  · intro s t v a hr hs ht hf
    have c0 := is_iff coercing_principal hr hs ht (l := nameHash "subnet") (hf (nameHash "subnet", .principal) (.head _))
    simp only [desSubnet, Candid.field, label_eq, allAre_cons, allAre_nil, c0, and_true]

theorem exists_variant {i : Nat} {x : Val} {P : Nat → Val → Prop} :
    (∃ j y, Val.variant i x = .variant j y ∧ P j y) ↔ P i x := by
  constructor
  · rintro ⟨_, _, h, hp⟩; cases h; exact hp
  · intro h; exact ⟨_, _, rfl, h⟩

theorem below_null (u : Ty) : accepts .null u = true ↔ Below .null u := by
  cases u <;> simp [accepts, Below]

theorem null_only {u : Ty} {x : Val} (ht : HasTy u x) (hb : Below .null u) : u = .null ∧ x = .null := by
  rw [Below] at hb
  rcases hb with rfl | rfl
  · rw [HasTy] at ht; exact ⟨rfl, ht⟩
  · simp only [HasTy] at ht

theorem coercing_logVisibility : Coercing desLogVisibility Did.logVisibility Mean.logVisibility := by
  have n_controllers_public : nameHash "controllers" ≠ nameHash "public" := by decide +kernel
  have n_controllers_allowed_viewers : nameHash "controllers" ≠ nameHash "allowed_viewers" := by decide +kernel
  have n_public_controllers : nameHash "public" ≠ nameHash "controllers" := by decide +kernel
  have n_public_allowed_viewers : nameHash "public" ≠ nameHash "allowed_viewers" := by decide +kernel
  have n_allowed_viewers_controllers : nameHash "allowed_viewers" ≠ nameHash "controllers" := by decide +kernel
  have n_allowed_viewers_public : nameHash "allowed_viewers" ≠ nameHash "public" := by decide +kernel
  have key := coercing_variant (d := desLogVisibility) (F := Mean.logVisibility) (E := [(nameHash "controllers", .null), (nameHash "public", .null), (nameHash "allowed_viewers", (.vec .principal))]) (L := _) rfl rfl ?_ ?_
  · exact key
  · intro l u hs
    have c0 := below_null u
    have c2 := (coercing_vec coercing_principal).sub u hs
    simp only [List.map_cons, List.map_nil, List.forall_mem_cons, label_eq, c0, c2]
    simp only [List.mem_cons, List.not_mem_nil, Fields.ofList, BelowCase]
    grind
  · intro t v l u x a hc hs ht hb
    simp only [Fields.ofList, BelowCase, or_false] at hb
    simp only [desLogVisibility, hc, label_eq, Fields.ofList, CoercesCase]
    rcases hb with ⟨rfl, hb⟩ | ⟨rfl, hb⟩ | ⟨rfl, hb⟩
    · simp only [n_controllers_public, n_controllers_allowed_viewers, if_false, if_true, false_and, false_or]
      obtain ⟨rfl, rfl⟩ := null_only ht hb
      cases a <;> simp only [Mean.logVisibility, exists_variant] <;> simp [Coerces]
    · simp only [n_public_controllers, n_public_allowed_viewers, if_false, if_true, false_and, false_or]
      obtain ⟨rfl, rfl⟩ := null_only ht hb
      cases a <;> simp only [Mean.logVisibility, exists_variant] <;> simp [Coerces]
    · simp only [n_allowed_viewers_controllers, n_allowed_viewers_public, if_false, if_true, false_and, false_or]
      have g := fun b => (coercing_vec coercing_principal).get u x b hs ht hb
      cases a <;> simp only [Mean.logVisibility, exists_variant] <;> simp [g, Option.map_eq_some_iff]

theorem coercing_selection : Coercing desSelection Did.subnetSelection Mean.subnetSelection := by
  have n_Filter_Subnet : nameHash "Filter" ≠ nameHash "Subnet" := by decide +kernel
  have n_Subnet_Filter : nameHash "Subnet" ≠ nameHash "Filter" := by decide +kernel
  have key := coercing_variant (d := desSelection) (F := Mean.subnetSelection) (E := [(nameHash "Subnet", (Did.record [("subnet", .principal)])), (nameHash "Filter", Did.subnetFilter)]) (L := _) rfl rfl ?_ ?_
  · exact key
  · intro l u hs
    have c0 := coercing_filter.sub u hs
    have c1 := coercing_subnet.sub u hs
    simp only [List.map_cons, List.map_nil, List.forall_mem_cons, label_eq, c0, c1]
    simp only [List.mem_cons, List.not_mem_nil, Fields.ofList, BelowCase]
    grind
  · intro t v l u x a hc hs ht hb
    simp only [Fields.ofList, BelowCase, or_false] at hb
    simp only [desSelection, hc, label_eq, Fields.ofList, CoercesCase]
    rcases hb with ⟨rfl, hb⟩ | ⟨rfl, hb⟩
    · simp only [n_Subnet_Filter, if_false, if_true, false_and, false_or]
      have g := fun b => coercing_subnet.get u x b hs ht hb
      cases a <;> simp only [Mean.subnetSelection, exists_variant] <;> simp [g, Option.map_eq_some_iff]
    · simp only [n_Filter_Subnet, if_false, if_true, false_and, false_or]
      have g := fun b => coercing_filter.get u x b hs ht hb
      cases a <;> simp only [Mean.subnetSelection, exists_variant] <;> simp [g, Option.map_eq_some_iff]

theorem coercing_settings : Coercing desSettings Did.canisterSettings Mean.canisterSettings := by
  have key := coercing_record (d := desSettings) (E := [(nameHash "controllers", (.opt (.vec .principal))), (nameHash "compute_allocation", (.opt .nat)), (nameHash "memory_allocation", (.opt .nat)), (nameHash "freezing_threshold", (.opt .nat)), (nameHash "reserved_cycles_limit", (.opt .nat)), (nameHash "wasm_memory_limit", (.opt .nat)), (nameHash "wasm_memory_threshold", (.opt .nat)), (nameHash "log_visibility", (.opt Did.logVisibility)), (nameHash "environment_variables", (.opt (.vec Did.environmentVariable)))])
    (F := fun a => [Mean.opt (Mean.vec (Mean.principal)) a.controllers, Mean.opt (.nat) a.computeAllocation, Mean.opt (.nat) a.memoryAllocation, Mean.opt (.nat) a.freezingThreshold, Mean.opt (.nat) a.reservedCyclesLimit, Mean.opt (.nat) a.wasmMemoryLimit, Mean.opt (.nat) a.wasmMemoryThreshold, Mean.opt (Mean.logVisibility) a.logVisibility, Mean.opt (Mean.vec (Mean.environmentVariable)) a.environmentVariables])
    (L := _) rfl rfl ?_ ?_
  · exact key
  · intro fs hp hs
    have c0 := fit_iff (coercing_opt (coercing_vec coercing_principal)) hp hs (nameHash "controllers")
    have c1 := fit_iff (coercing_opt coercing_nat) hp hs (nameHash "compute_allocation")
    have c2 := fit_iff (coercing_opt coercing_nat) hp hs (nameHash "memory_allocation")
    have c3 := fit_iff (coercing_opt coercing_nat) hp hs (nameHash "freezing_threshold")
    have c4 := fit_iff (coercing_opt coercing_nat) hp hs (nameHash "reserved_cycles_limit")
    have c5 := fit_iff (coercing_opt coercing_logVisibility) hp hs (nameHash "log_visibility")
    have c6 := fit_iff (coercing_opt coercing_nat) hp hs (nameHash "wasm_memory_limit")
    have c7 := fit_iff (coercing_opt coercing_nat) hp hs (nameHash "wasm_memory_threshold")
    have c8 := fit_iff (coercing_opt (coercing_vec coercing_variable)) hp hs (nameHash "environment_variables")
    simp only [List.map_cons, List.map_nil, List.forall_mem_cons, label_eq, c0, c1, c2, c3, c4, c5, c6, c7, c8]
    exact ⟨fun ⟨h0, h1, h2, h3, h4, h5, h6, h7, h8, h⟩ => ⟨h0, h1, h2, h3, h4, h6, h7, h5, h8, (fun _ h => by cases h)⟩, fun ⟨h0, h1, h2, h3, h4, h6, h7, h5, h8, h⟩ => ⟨h0, h1, h2, h3, h4, h5, h6, h7, h8, (fun _ h => by cases h)⟩⟩
  · intro s t v a hr hs ht hf
    have c0 := is_iff (coercing_opt (coercing_vec coercing_principal)) hr hs ht (l := nameHash "controllers")
      (hf (nameHash "controllers", (.opt (.vec .principal))) (List.mem_of_getElem? (i := 0) rfl))
    have c1 := is_iff (coercing_opt coercing_nat) hr hs ht (l := nameHash "compute_allocation")
      (hf (nameHash "compute_allocation", (.opt .nat)) (List.mem_of_getElem? (i := 1) rfl))
    have c2 := is_iff (coercing_opt coercing_nat) hr hs ht (l := nameHash "memory_allocation")
      (hf (nameHash "memory_allocation", (.opt .nat)) (List.mem_of_getElem? (i := 2) rfl))
    have c3 := is_iff (coercing_opt coercing_nat) hr hs ht (l := nameHash "freezing_threshold")
      (hf (nameHash "freezing_threshold", (.opt .nat)) (List.mem_of_getElem? (i := 3) rfl))
    have c4 := is_iff (coercing_opt coercing_nat) hr hs ht (l := nameHash "reserved_cycles_limit")
      (hf (nameHash "reserved_cycles_limit", (.opt .nat)) (List.mem_of_getElem? (i := 4) rfl))
    have c5 := is_iff (coercing_opt coercing_logVisibility) hr hs ht (l := nameHash "log_visibility")
      (hf (nameHash "log_visibility", (.opt Did.logVisibility)) (List.mem_of_getElem? (i := 7) rfl))
    have c6 := is_iff (coercing_opt coercing_nat) hr hs ht (l := nameHash "wasm_memory_limit")
      (hf (nameHash "wasm_memory_limit", (.opt .nat)) (List.mem_of_getElem? (i := 5) rfl))
    have c7 := is_iff (coercing_opt coercing_nat) hr hs ht (l := nameHash "wasm_memory_threshold")
      (hf (nameHash "wasm_memory_threshold", (.opt .nat)) (List.mem_of_getElem? (i := 6) rfl))
    have c8 := is_iff (coercing_opt (coercing_vec coercing_variable)) hr hs ht (l := nameHash "environment_variables")
      (hf (nameHash "environment_variables", (.opt (.vec Did.environmentVariable))) (List.mem_of_getElem? (i := 8) rfl))
    simp only [desSettings, Candid.field, label_eq, Option.bind_eq_bind, Option.bind_eq_some_iff, Option.pure_def,
      Option.some.injEq, allAre_cons, allAre_nil, c0, c1, c2, c3, c4, c5, c6, c7, c8]
    constructor
    · rintro ⟨_, h0, _, h1, _, h2, _, h3, _, h4, _, h5, _, h6, _, h7, _, h8, rfl⟩; exact ⟨h0, h1, h2, h3, h4, h6, h7, h5, h8, trivial⟩
    · rintro ⟨h0, h1, h2, h3, h4, h6, h7, h5, h8, _⟩; exact ⟨_, h0, _, h1, _, h2, _, h3, _, h4, _, h5, _, h6, _, h7, _, h8, rfl⟩

theorem coercing_cmcArgs : Coercing desCmcArgs Did.cmcArgs Mean.cmcArgs := by
  have key := coercing_record (d := desCmcArgs) (E := [(nameHash "settings", (.opt Did.canisterSettings)), (nameHash "subnet_selection", (.opt Did.subnetSelection))])
    (F := fun a => [Mean.opt (Mean.canisterSettings) a.settings, Mean.opt (Mean.subnetSelection) a.subnetSelection])
    (L := _) rfl rfl ?_ ?_
  · exact key
  · intro fs hp hs
    have c0 := fit_iff (coercing_opt coercing_selection) hp hs (nameHash "subnet_selection")
    have c1 := fit_iff (coercing_opt coercing_settings) hp hs (nameHash "settings")
    simp only [List.map_cons, List.map_nil, List.forall_mem_cons, label_eq, c0, c1]
    exact ⟨fun ⟨h0, h1, h⟩ => ⟨h1, h0, (fun _ h => by cases h)⟩, fun ⟨h1, h0, h⟩ => ⟨h0, h1, (fun _ h => by cases h)⟩⟩
  · intro s t v a hr hs ht hf
    have c0 := is_iff (coercing_opt coercing_selection) hr hs ht (l := nameHash "subnet_selection")
      (hf (nameHash "subnet_selection", (.opt Did.subnetSelection)) (List.mem_of_getElem? (i := 1) rfl))
    have c1 := is_iff (coercing_opt coercing_settings) hr hs ht (l := nameHash "settings")
      (hf (nameHash "settings", (.opt Did.canisterSettings)) (List.mem_of_getElem? (i := 0) rfl))
    simp only [desCmcArgs, Candid.field, label_eq, Option.bind_eq_bind, Option.bind_eq_some_iff, Option.pure_def,
      Option.some.injEq, allAre_cons, allAre_nil, c0, c1]
    constructor
    · rintro ⟨_, h0, _, h1, rfl⟩; exact ⟨h1, h0, trivial⟩
    · rintro ⟨h1, h0, _⟩; exact ⟨_, h0, _, h1, rfl⟩

theorem coercing_create : Coercing desCreate Did.createArgs Mean.createArgs := by
  have key := coercing_record (d := desCreate) (E := [(nameHash "from_subaccount", (.opt Did.blob)), (nameHash "created_at_time", (.opt Did.nat64)), (nameHash "amount", .nat), (nameHash "creation_args", (.opt Did.cmcArgs))])
    (F := fun a => [Mean.opt (Mean.subaccount) a.fromSubaccount, Mean.opt (Mean.nat64) a.createdAtTime, .nat a.amount, Mean.opt (Mean.cmcArgs) a.creationArgs])
    (L := _) rfl rfl ?_ ?_
  · exact key
  · intro fs hp hs
    have c0 := fit_iff (coercing_opt coercing_subaccount) hp hs (nameHash "from_subaccount")
    have c1 := fit_iff (coercing_opt coercing_nat64) hp hs (nameHash "created_at_time")
    have c2 := fit_iff coercing_nat hp hs (nameHash "amount")
    have c3 := fit_iff (coercing_opt coercing_cmcArgs) hp hs (nameHash "creation_args")
    simp only [List.map_cons, List.map_nil, List.forall_mem_cons, label_eq, c0, c1, c2, c3]
    exact ⟨fun ⟨h0, h1, h2, h3, h⟩ => ⟨h0, h1, h2, h3, (fun _ h => by cases h)⟩, fun ⟨h0, h1, h2, h3, h⟩ => ⟨h0, h1, h2, h3, (fun _ h => by cases h)⟩⟩
  · intro s t v a hr hs ht hf
    have c0 := is_iff (coercing_opt coercing_subaccount) hr hs ht (l := nameHash "from_subaccount")
      (hf (nameHash "from_subaccount", (.opt Did.blob)) (List.mem_of_getElem? (i := 0) rfl))
    have c1 := is_iff (coercing_opt coercing_nat64) hr hs ht (l := nameHash "created_at_time")
      (hf (nameHash "created_at_time", (.opt Did.nat64)) (List.mem_of_getElem? (i := 1) rfl))
    have c2 := is_iff coercing_nat hr hs ht (l := nameHash "amount")
      (hf (nameHash "amount", .nat) (List.mem_of_getElem? (i := 2) rfl))
    have c3 := is_iff (coercing_opt coercing_cmcArgs) hr hs ht (l := nameHash "creation_args")
      (hf (nameHash "creation_args", (.opt Did.cmcArgs)) (List.mem_of_getElem? (i := 3) rfl))
    simp only [desCreate, Candid.field, label_eq, Option.bind_eq_bind, Option.bind_eq_some_iff, Option.pure_def,
      Option.some.injEq, allAre_cons, allAre_nil, c0, c1, c2, c3]
    constructor
    · rintro ⟨_, h0, _, h1, _, h2, _, h3, rfl⟩; exact ⟨h0, h1, h2, h3, trivial⟩
    · rintro ⟨h0, h1, h2, h3, _⟩; exact ⟨_, h0, _, h1, _, h2, _, h3, rfl⟩

theorem coercing_createFrom : Coercing desCreateFrom Did.createFromArgs Mean.createFromArgs := by
  have key := coercing_record (d := desCreateFrom) (E := [(nameHash "from", Did.account), (nameHash "spender_subaccount", (.opt Did.blob)), (nameHash "created_at_time", (.opt Did.nat64)), (nameHash "amount", .nat), (nameHash "creation_args", (.opt Did.cmcArgs))])
    (F := fun a => [Mean.account a.frm, Mean.opt (Mean.subaccount) a.spenderSubaccount, Mean.opt (Mean.nat64) a.createdAtTime, .nat a.amount, Mean.opt (Mean.cmcArgs) a.creationArgs])
    (L := _) rfl rfl ?_ ?_
  · exact key
  · intro fs hp hs
    have c0 := fit_iff coercing_account hp hs (nameHash "from")
    have c1 := fit_iff (coercing_opt coercing_subaccount) hp hs (nameHash "spender_subaccount")
    have c2 := fit_iff (coercing_opt coercing_nat64) hp hs (nameHash "created_at_time")
    have c3 := fit_iff coercing_nat hp hs (nameHash "amount")
    have c4 := fit_iff (coercing_opt coercing_cmcArgs) hp hs (nameHash "creation_args")
    simp only [List.map_cons, List.map_nil, List.forall_mem_cons, label_eq, c0, c1, c2, c3, c4]
    exact ⟨fun ⟨h0, h1, h2, h3, h4, h⟩ => ⟨h0, h1, h2, h3, h4, (fun _ h => by cases h)⟩, fun ⟨h0, h1, h2, h3, h4, h⟩ => ⟨h0, h1, h2, h3, h4, (fun _ h => by cases h)⟩⟩
  · intro s t v a hr hs ht hf
    have c0 := is_iff coercing_account hr hs ht (l := nameHash "from")
      (hf (nameHash "from", Did.account) (List.mem_of_getElem? (i := 0) rfl))
    have c1 := is_iff (coercing_opt coercing_subaccount) hr hs ht (l := nameHash "spender_subaccount")
      (hf (nameHash "spender_subaccount", (.opt Did.blob)) (List.mem_of_getElem? (i := 1) rfl))
    have c2 := is_iff (coercing_opt coercing_nat64) hr hs ht (l := nameHash "created_at_time")
      (hf (nameHash "created_at_time", (.opt Did.nat64)) (List.mem_of_getElem? (i := 2) rfl))
    have c3 := is_iff coercing_nat hr hs ht (l := nameHash "amount")
      (hf (nameHash "amount", .nat) (List.mem_of_getElem? (i := 3) rfl))
    have c4 := is_iff (coercing_opt coercing_cmcArgs) hr hs ht (l := nameHash "creation_args")
      (hf (nameHash "creation_args", (.opt Did.cmcArgs)) (List.mem_of_getElem? (i := 4) rfl))
    simp only [desCreateFrom, Candid.field, label_eq, Option.bind_eq_bind, Option.bind_eq_some_iff, Option.pure_def,
      Option.some.injEq, allAre_cons, allAre_nil, c0, c1, c2, c3, c4]
    constructor
    · rintro ⟨_, h0, _, h1, _, h2, _, h3, _, h4, rfl⟩; exact ⟨h0, h1, h2, h3, h4, trivial⟩
    · rintro ⟨h0, h1, h2, h3, h4, _⟩; exact ⟨_, h0, _, h1, _, h2, _, h3, _, h4, rfl⟩

theorem coercing_change : Coercing desChange Did.changeIndexId Mean.changeIndexId := by
  have n_Unset_SetTo : nameHash "Unset" ≠ nameHash "SetTo" := by decide +kernel
  have n_SetTo_Unset : nameHash "SetTo" ≠ nameHash "Unset" := by decide +kernel
  have key := coercing_variant (d := desChange) (F := Mean.changeIndexId) (E := [(nameHash "Unset", .null), (nameHash "SetTo", .principal)]) (L := _) rfl rfl ?_ ?_
  · exact key
  · intro l u hs
    have c0 := below_null u
    have c1 := coercing_principal.sub u hs
    simp only [List.map_cons, List.map_nil, List.forall_mem_cons, label_eq, c0, c1]
    simp only [List.mem_cons, List.not_mem_nil, Fields.ofList, BelowCase]
    grind
  · intro t v l u x a hc hs ht hb
    simp only [Fields.ofList, BelowCase, or_false] at hb
    simp only [desChange, hc, label_eq, Fields.ofList, CoercesCase]
    rcases hb with ⟨rfl, hb⟩ | ⟨rfl, hb⟩
    · simp only [n_Unset_SetTo, if_false, if_true, false_and, false_or]
      obtain ⟨rfl, rfl⟩ := null_only ht hb
      cases a <;> simp only [Mean.changeIndexId, exists_variant] <;> simp [Coerces]
    · simp only [n_SetTo_Unset, if_false, if_true, false_and, false_or]
      have g := fun b => coercing_principal.get u x b hs ht hb
      cases a <;> simp only [Mean.changeIndexId, exists_variant] <;> simp [g, Option.map_eq_some_iff]

theorem coercing_upgrade : Coercing desUpgrade Did.upgradeArgs Mean.upgradeArgs := by
  have key := coercing_record (d := desUpgrade) (E := [(nameHash "max_blocks_per_request", (.opt Did.nat64)), (nameHash "change_index_id", (.opt Did.changeIndexId))])
    (F := fun a => [Mean.opt (Mean.nat64) a.maxBlocksPerRequest, Mean.opt (Mean.changeIndexId) a.changeIndexId])
    (L := _) rfl rfl ?_ ?_
  · exact key
  · intro fs hp hs
    have c0 := fit_iff (coercing_opt coercing_nat64) hp hs (nameHash "max_blocks_per_request")
    have c1 := fit_iff (coercing_opt coercing_change) hp hs (nameHash "change_index_id")
    simp only [List.map_cons, List.map_nil, List.forall_mem_cons, label_eq, c0, c1]
    exact ⟨fun ⟨h0, h1, h⟩ => ⟨h0, h1, (fun _ h => by cases h)⟩, fun ⟨h0, h1, h⟩ => ⟨h0, h1, (fun _ h => by cases h)⟩⟩
  · intro s t v a hr hs ht hf
    have c0 := is_iff (coercing_opt coercing_nat64) hr hs ht (l := nameHash "max_blocks_per_request")
      (hf (nameHash "max_blocks_per_request", (.opt Did.nat64)) (List.mem_of_getElem? (i := 0) rfl))
    have c1 := is_iff (coercing_opt coercing_change) hr hs ht (l := nameHash "change_index_id")
      (hf (nameHash "change_index_id", (.opt Did.changeIndexId)) (List.mem_of_getElem? (i := 1) rfl))
    simp only [desUpgrade, Candid.field, label_eq, Option.bind_eq_bind, Option.bind_eq_some_iff, Option.pure_def,
      Option.some.injEq, allAre_cons, allAre_nil, c0, c1]
    constructor
    · rintro ⟨_, h0, _, h1, rfl⟩; exact ⟨h0, h1, trivial⟩
    · rintro ⟨h0, h1, _⟩; exact ⟨_, h0, _, h1, rfl⟩

theorem coercing_u128 : Coercing desU128 .nat (fun n => if n < 2 ^ 128 then .nat n else .null) where
  sub := coercing_nat.sub
  opt := coercing_nat.opt
  miss := by simp [desU128, Omitted]
  get := by
    intro t v a _ ht hb
    rw [Below] at hb
    rcases hb with rfl | rfl
    · rw [HasTy] at ht; obtain ⟨n, rfl⟩ := ht
      have hm := U128MAX_eq
      simp only [desU128, Coerces, toU128]
      constructor
      · intro h
        by_cases hn : n ≤ U128MAX
        · rw [if_pos hn] at h; cases h; rw [if_pos (by omega)]
        · rw [if_neg hn] at h; cases h
      · intro h
        by_cases hn : a < 2 ^ 128
        · rw [if_pos hn] at h; cases h; rw [if_pos (by omega)]
        · rw [if_neg hn] at h; cases h
    · simp only [HasTy] at ht

/-- `desU64`, as a number. -/
def desMax : Des Nat where
  ty := desU64.ty
  get := fun t v => (desU64.get t v).map UInt64.toNat

theorem fieldAt_max {l : Nat} {t : Ty} {v : Val} {n : Nat} :
    (∃ m : UInt64, fieldAt desU64 l t v = some m ∧ m.toNat = n) ↔ fieldAt desMax l t v = some n := by
  unfold fieldAt
  split
  · split
    · simp only [desMax, Option.map_eq_some_iff]
    · simp [desMax, desU64]
  · simp

theorem coercing_max : Coercing desMax Did.nat64
    (fun n => if n < 2 ^ 64 then .fixed (le 8 n) else .null) where
  sub := coercing_nat64.sub
  opt := coercing_nat64.opt
  miss := by simp [desMax, Omitted, Did.nat64]
  get := by
    intro t v a hs ht hb
    have g := fun m => coercing_nat64.get t v m hs ht hb
    simp only [desMax, Option.map_eq_some_iff, g]
    constructor
    · rintro ⟨m, h, rfl⟩
      rw [if_pos (by have := m.toNat_lt; omega)]
      exact h
    · intro h
      split at h
      · rename_i ha
        refine ⟨UInt64.ofNat a, ?_, by rw [UInt64.toNat_ofNat', Nat.mod_eq_of_lt (by omega)]⟩
        rw [Mean.nat64, UInt64.toNat_ofNat', Nat.mod_eq_of_lt (by omega)]
        exact h
      · exfalso
        rw [Did.nat64, Below] at hb
        rcases hb with rfl | rfl
        · rw [HasTy] at ht; obtain ⟨bs, rfl, _⟩ := ht
          simp only [Did.nat64, Coerces] at h
          cases h
        · simp only [HasTy] at ht

theorem coercing_balance : Coercing desBalance (.record (Fields.ofList [(0, Did.account), (1, .nat)]))
    Mean.balance := by
  have key := coercing_record (d := desBalance) (E := [(0, Did.account), (1, .nat)])
    (F := fun b => [Mean.account b.1, if b.2 < 2 ^ 128 then .nat b.2 else .null])
    (L := _) rfl rfl ?_ ?_
  · exact key
  · intro fs hp hs
    have c0 := fit_iff coercing_account hp hs 0
    have c1 := fit_iff coercing_u128 hp hs 1
    simp only [List.forall_mem_cons, c0, c1]
    exact ⟨fun ⟨h0, h1, h⟩ => ⟨h0, h1, (fun _ h => by cases h)⟩,
      fun ⟨h0, h1, h⟩ => ⟨h0, h1, (fun _ h => by cases h)⟩⟩
  · intro s t v a hr hs ht hf
    have c0 := is_iff coercing_account hr hs ht (l := 0) (hf (0, Did.account) (.head _))
    have c1 := is_iff coercing_u128 hr hs ht (l := 1) (hf (1, .nat) (.tail _ (.head _)))
    simp only [desBalance, Option.bind_eq_bind, Option.bind_eq_some_iff, Option.pure_def,
      Option.some.injEq, allAre_cons, allAre_nil, c0, c1]
    constructor
    · rintro ⟨_, h0, _, h1, rfl⟩; exact ⟨h0, h1, trivial⟩
    · rintro ⟨h0, h1, _⟩; exact ⟨_, h0, _, h1, rfl⟩

theorem coercing_config : Coercing desConfig Did.initArgs Mean.initArgs := by
  have key := coercing_record (d := desConfig) (E := [(nameHash "max_blocks_per_request", Did.nat64),
      (nameHash "index_id", .opt .principal), (nameHash "initial_balances",
        .opt (.vec (.record (Fields.ofList [(0, Did.account), (1, .nat)]))))])
    (F := fun c => [if c.maxBlocksPerRequest < 2 ^ 64 then .fixed (le 8 c.maxBlocksPerRequest) else .null,
      Mean.opt Mean.principal c.indexId, Mean.opt (Mean.vec Mean.balance) c.initialBalances])
    (L := _) rfl rfl ?_ ?_
  · exact key
  · intro fs hp hs
    have c0 := fit_iff coercing_nat64 hp hs (nameHash "max_blocks_per_request")
    have c1 := fit_iff (coercing_opt coercing_principal) hp hs (nameHash "index_id")
    have c2 := fit_iff (coercing_opt (coercing_vec coercing_balance)) hp hs (nameHash "initial_balances")
    simp only [List.map_cons, List.map_nil, List.forall_mem_cons, label_eq, c0, c1, c2]
    exact ⟨fun ⟨h0, h1, h2, h⟩ => ⟨h0, h1, h2, (fun _ h => by cases h)⟩,
      fun ⟨h0, h1, h2, h⟩ => ⟨h0, h1, h2, (fun _ h => by cases h)⟩⟩
  · intro s t v a hr hs ht hf
    have c0 := is_iff coercing_max hr hs ht (l := nameHash "max_blocks_per_request")
      (hf (nameHash "max_blocks_per_request", Did.nat64) (.head _))
    have c1 := is_iff (coercing_opt coercing_principal) hr hs ht (l := nameHash "index_id")
      (hf (nameHash "index_id", .opt .principal) (.tail _ (.head _)))
    have c2 := is_iff (coercing_opt (coercing_vec coercing_balance)) hr hs ht
      (l := nameHash "initial_balances") (hf (nameHash "initial_balances", _) (.tail _ (.tail _ (.head _))))
    simp only [allAre_cons, allAre_nil, ← c0, ← fieldAt_max]
    simp only [desConfig, Candid.field, label_eq, Option.bind_eq_bind, Option.bind_eq_some_iff,
      Option.pure_def, Option.some.injEq, c1, c2]
    constructor
    · rintro ⟨m, h0, _, h1, _, h2, rfl⟩; exact ⟨⟨m, h0, rfl⟩, h1, h2, trivial⟩
    · rintro ⟨⟨m, h0, he⟩, h1, h2, _⟩; exact ⟨m, h0, _, h1, _, h2, by rw [he]⟩

theorem coercing_ledger : Coercing desLedger Did.ledgerArgs Mean.ledgerArgs := by
  have n_Init_Upgrade : nameHash "Init" ≠ nameHash "Upgrade" := by decide +kernel
  have n_Upgrade_Init : nameHash "Upgrade" ≠ nameHash "Init" := by decide +kernel
  have key := coercing_variant (d := desLedger) (F := Mean.ledgerArgs) (E := [(nameHash "Init", Did.initArgs), (nameHash "Upgrade", (.opt Did.upgradeArgs))]) (L := _) rfl rfl ?_ ?_
  · exact key
  · intro l u hs
    have c0 := coercing_config.sub u hs
    have c1 := (coercing_opt coercing_upgrade).sub u hs
    simp only [List.map_cons, List.map_nil, List.forall_mem_cons, label_eq, c0, c1]
    simp only [List.mem_cons, List.not_mem_nil, Fields.ofList, BelowCase]
    grind
  · intro t v l u x a hc hs ht hb
    simp only [Fields.ofList, BelowCase, or_false] at hb
    simp only [desLedger, hc, label_eq, Fields.ofList, CoercesCase]
    rcases hb with ⟨rfl, hb⟩ | ⟨rfl, hb⟩
    · simp only [n_Init_Upgrade, if_false, if_true, false_and, false_or]
      have g := fun b => coercing_config.get u x b hs ht hb
      cases a <;> simp only [Mean.ledgerArgs, exists_variant] <;> simp [g, Option.map_eq_some_iff]
    · simp only [n_Upgrade_Init, if_false, if_true, false_and, false_or]
      have g := fun b => (coercing_opt coercing_upgrade).get u x b hs ht hb
      cases a <;> simp only [Mean.ledgerArgs, exists_variant] <;> simp [g, Option.map_eq_some_iff]

end CyclesLedger.Candid
