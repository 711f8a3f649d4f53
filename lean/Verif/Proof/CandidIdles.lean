import Verif.Proof.CandidIdle
/-!
# Parts of a request that say nothing: the endpoints
-/
namespace CyclesLedger.Candid

open Spec.Candid

variable {bs bs' : Bytes}

theorem idle_deposit (h : SaysNoMore "deposit" bs bs') :
    decode desDeposit bs = decode desDeposit bs' := by
  obtain ⟨s, t, v, more, s', t', v', more', h1, h2, h3, h4, hs, hi⟩ := h
  obtain ⟨h5, h6⟩ := same_idle h2 h4 (typed_first h1) hs hi (by decide +kernel)
  simp only [mustHave, mayHave, List.forall_mem_cons] at h5 h6
  obtain ⟨n0, _⟩ := h5
  obtain ⟨o0, _⟩ := h6
  have n0 := n0 desAccount
  have o0 := o0 desBlob unlike_blob
  refine decode_same h1 h2 h3 h4 rfl ?_ ?_
  · simp only [List.forall_mem_cons]
    exact ⟨n0.1, o0.1, fun _ h => by cases h⟩
  · simp only [desDeposit, n0.2, o0.2]

theorem idle_transfer (h : SaysNoMore "icrc1_transfer" bs bs') :
    decode desTransfer bs = decode desTransfer bs' := by
  obtain ⟨s, t, v, more, s', t', v', more', h1, h2, h3, h4, hs, hi⟩ := h
  obtain ⟨h5, h6⟩ := same_idle h2 h4 (typed_first h1) hs hi (by decide +kernel)
  simp only [mustHave, mayHave, List.forall_mem_cons] at h5 h6
  obtain ⟨n0, n1, _⟩ := h5
  obtain ⟨o0, o1, o2, o3, _⟩ := h6
  have n0 := n0 desAccount
  have n1 := n1 desNat
  have o0 := o0 desSubaccount unlike_blob
  have o1 := o1 desNat unlike_nat
  have o2 := o2 desBlob unlike_blob
  have o3 := o3 desU64 unlike_nat64
  refine decode_same h1 h2 h3 h4 rfl ?_ ?_
  · simp only [List.forall_mem_cons]
    exact ⟨o0.1, n0.1, o1.1, o3.1, o2.1, n1.1, fun _ h => by cases h⟩
  · simp only [desTransfer, o0.2, n0.2, o1.2, o3.2, o2.2, n1.2]

theorem idle_transferFrom (h : SaysNoMore "icrc2_transfer_from" bs bs') :
    decode desTransferFrom bs = decode desTransferFrom bs' := by
  obtain ⟨s, t, v, more, s', t', v', more', h1, h2, h3, h4, hs, hi⟩ := h
  obtain ⟨h5, h6⟩ := same_idle h2 h4 (typed_first h1) hs hi (by decide +kernel)
  simp only [mustHave, mayHave, List.forall_mem_cons] at h5 h6
  obtain ⟨n0, n1, n2, _⟩ := h5
  obtain ⟨o0, o1, o2, o3, _⟩ := h6
  have n0 := n0 desAccount
  have n1 := n1 desAccount
  have n2 := n2 desNat
  have o0 := o0 desSubaccount unlike_blob
  have o1 := o1 desNat unlike_nat
  have o2 := o2 desBlob unlike_blob
  have o3 := o3 desU64 unlike_nat64
  refine decode_same h1 h2 h3 h4 rfl ?_ ?_
  · simp only [List.forall_mem_cons]
    exact ⟨o0.1, n0.1, n1.1, n2.1, o1.1, o2.1, o3.1, fun _ h => by cases h⟩
  · simp only [desTransferFrom, o0.2, n0.2, n1.2, n2.2, o1.2, o2.2, o3.2]

theorem idle_approve (h : SaysNoMore "icrc2_approve" bs bs') :
    decode desApprove bs = decode desApprove bs' := by
  obtain ⟨s, t, v, more, s', t', v', more', h1, h2, h3, h4, hs, hi⟩ := h
  obtain ⟨h5, h6⟩ := same_idle h2 h4 (typed_first h1) hs hi (by decide +kernel)
  simp only [mustHave, mayHave, List.forall_mem_cons] at h5 h6
  obtain ⟨n0, n1, _⟩ := h5
  obtain ⟨o0, o1, o2, o3, o4, o5, _⟩ := h6
  have n0 := n0 desAccount
  have n1 := n1 desNat
  have o0 := o0 desSubaccount unlike_blob
  have o1 := o1 desNat unlike_nat
  have o2 := o2 desU64 unlike_nat64
  have o3 := o3 desNat unlike_nat
  have o4 := o4 desBlob unlike_blob
  have o5 := o5 desU64 unlike_nat64
  refine decode_same h1 h2 h3 h4 rfl ?_ ?_
  · simp only [List.forall_mem_cons]
    exact ⟨o0.1, n0.1, n1.1, o1.1, o2.1, o3.1, o4.1, o5.1, fun _ h => by cases h⟩
  · simp only [desApprove, o0.2, n0.2, n1.2, o1.2, o2.2, o3.2, o4.2, o5.2]

theorem idle_withdraw (h : SaysNoMore "withdraw" bs bs') :
    decode desWithdraw bs = decode desWithdraw bs' := by
  obtain ⟨s, t, v, more, s', t', v', more', h1, h2, h3, h4, hs, hi⟩ := h
  obtain ⟨h5, h6⟩ := same_idle h2 h4 (typed_first h1) hs hi (by decide +kernel)
  simp only [mustHave, mayHave, List.forall_mem_cons] at h5 h6
  obtain ⟨n0, n1, _⟩ := h5
  obtain ⟨o0, o1, _⟩ := h6
  have n0 := n0 desPrincipal
  have n1 := n1 desNat
  have o0 := o0 desSubaccount unlike_blob
  have o1 := o1 desU64 unlike_nat64
  refine decode_same h1 h2 h3 h4 rfl ?_ ?_
  · simp only [List.forall_mem_cons]
    exact ⟨o0.1, n0.1, o1.1, n1.1, fun _ h => by cases h⟩
  · simp only [desWithdraw, o0.2, n0.2, o1.2, n1.2]

theorem idle_withdrawFrom (h : SaysNoMore "withdraw_from" bs bs') :
    decode desWithdrawFrom bs = decode desWithdrawFrom bs' := by
  obtain ⟨s, t, v, more, s', t', v', more', h1, h2, h3, h4, hs, hi⟩ := h
  obtain ⟨h5, h6⟩ := same_idle h2 h4 (typed_first h1) hs hi (by decide +kernel)
  simp only [mustHave, mayHave, List.forall_mem_cons] at h5 h6
  obtain ⟨n0, n1, n2, _⟩ := h5
  obtain ⟨o0, o1, _⟩ := h6
  have n0 := n0 desAccount
  have n1 := n1 desPrincipal
  have n2 := n2 desNat
  have o0 := o0 desSubaccount unlike_blob
  have o1 := o1 desU64 unlike_nat64
  refine decode_same h1 h2 h3 h4 rfl ?_ ?_
  · simp only [List.forall_mem_cons]
    exact ⟨o0.1, n0.1, n1.1, o1.1, n2.1, fun _ h => by cases h⟩
  · simp only [desWithdrawFrom, o0.2, n0.2, n1.2, o1.2, n2.2]

theorem idle_create (h : SaysNoMore "create_canister" bs bs') :
    decode desCreate bs = decode desCreate bs' := by
  obtain ⟨s, t, v, more, s', t', v', more', h1, h2, h3, h4, hs, hi⟩ := h
  obtain ⟨h5, h6⟩ := same_idle h2 h4 (typed_first h1) hs hi (by decide +kernel)
  simp only [mustHave, mayHave, List.forall_mem_cons] at h5 h6
  obtain ⟨n0, _⟩ := h5
  obtain ⟨o0, o1, o2, _⟩ := h6
  have n0 := n0 desNat
  have o0 := o0 desSubaccount unlike_blob
  have o1 := o1 desU64 unlike_nat64
  have o2 := o2 desCmcArgs unlike_record
  refine decode_same h1 h2 h3 h4 rfl ?_ ?_
  · simp only [List.forall_mem_cons]
    exact ⟨o0.1, o1.1, n0.1, o2.1, fun _ h => by cases h⟩
  · simp only [desCreate, o0.2, o1.2, n0.2, o2.2]

theorem idle_createFrom (h : SaysNoMore "create_canister_from" bs bs') :
    decode desCreateFrom bs = decode desCreateFrom bs' := by
  obtain ⟨s, t, v, more, s', t', v', more', h1, h2, h3, h4, hs, hi⟩ := h
  obtain ⟨h5, h6⟩ := same_idle h2 h4 (typed_first h1) hs hi (by decide +kernel)
  simp only [mustHave, mayHave, List.forall_mem_cons] at h5 h6
  obtain ⟨n0, n1, _⟩ := h5
  obtain ⟨o0, o1, o2, _⟩ := h6
  have n0 := n0 desAccount
  have n1 := n1 desNat
  have o0 := o0 desSubaccount unlike_blob
  have o1 := o1 desU64 unlike_nat64
  have o2 := o2 desCmcArgs unlike_record
  refine decode_same h1 h2 h3 h4 rfl ?_ ?_
  · simp only [List.forall_mem_cons]
    exact ⟨n0.1, o0.1, o1.1, n1.1, o2.1, fun _ h => by cases h⟩
  · simp only [desCreateFrom, n0.2, o0.2, o1.2, n1.2, o2.2]

theorem idle_account (h : SaysNoMore "icrc1_balance_of" bs bs') :
    decode desAccount bs = decode desAccount bs' := by
  obtain ⟨s, t, v, more, s', t', v', more', h1, h2, h3, h4, hs, hi⟩ := h
  obtain ⟨h5, h6⟩ := same_idle h2 h4 (typed_first h1) hs hi (by decide +kernel)
  simp only [mustHave, mayHave, List.forall_mem_cons] at h5 h6
  obtain ⟨n0, _⟩ := h5
  obtain ⟨o0, _⟩ := h6
  have n0 := n0 desPrincipal
  have o0 := o0 desSubaccount unlike_blob
  refine decode_same h1 h2 h3 h4 rfl ?_ ?_
  · simp only [List.forall_mem_cons]
    exact ⟨n0.1, o0.1, fun _ h => by cases h⟩
  · simp only [desAccount, n0.2, o0.2]

theorem idle_allowance (h : SaysNoMore "icrc2_allowance" bs bs') :
    decode desAllowance bs = decode desAllowance bs' := by
  obtain ⟨s, t, v, more, s', t', v', more', h1, h2, h3, h4, hs, hi⟩ := h
  obtain ⟨h5, h6⟩ := same_idle h2 h4 (typed_first h1) hs hi (by decide +kernel)
  simp only [mustHave, mayHave, List.forall_mem_cons] at h5 h6
  obtain ⟨n0, n1, _⟩ := h5
  have n0 := n0 desAccount
  have n1 := n1 desAccount
  refine decode_same h1 h2 h3 h4 rfl ?_ ?_
  · simp only [List.forall_mem_cons]
    exact ⟨n0.1, n1.1, fun _ h => by cases h⟩
  · simp only [desAllowance, n0.2, n1.2]

theorem idle_getAllowances (h : SaysNoMore "icrc103_get_allowances" bs bs') :
    decode desGetAllowances bs = decode desGetAllowances bs' := by
  obtain ⟨s, t, v, more, s', t', v', more', h1, h2, h3, h4, hs, hi⟩ := h
  obtain ⟨h5, h6⟩ := same_idle h2 h4 (typed_first h1) hs hi (by decide +kernel)
  simp only [mustHave, mayHave, List.forall_mem_cons] at h5 h6
  obtain ⟨o0, o1, o2, _⟩ := h6
  have o0 := o0 desAccount unlike_record
  have o1 := o1 desAccount unlike_record
  have o2 := o2 desNat unlike_nat
  refine decode_same h1 h2 h3 h4 rfl ?_ ?_
  · simp only [List.forall_mem_cons]
    exact ⟨o0.1, o1.1, o2.1, fun _ h => by cases h⟩
  · simp only [desGetAllowances, o0.2, o1.2, o2.2]

end CyclesLedger.Candid
