import Verif.Proof.CandidErrors
import Verif.Proof.Exec
/-! # Replies as Candid: times, and the replies one by one -/
namespace CyclesLedger.Candid
open Spec.Candid

/-! ## The times in a reply are the time of the ledger -/

def timesReply : Reply → List Nat
  | .transfer (.error e) => timesTransferError e
  | .transferFrom (.error e) => timesTransferFromError e
  | .approve (.error e) => timesApproveError e
  | .withdraw (.error e) => timesWithdrawError e
  | .withdrawFrom (.error e) => timesWithdrawFromError e
  | .createCanister (.error e) => timesCreateCanisterError e
  | .createCanisterFrom (.error e) => timesCreateCanisterFromError e
  | _ => []

variable [Crypto]

theorem times_finishWithdraw (y : Sys) (s : State) (k : CallKind) (p : Suspended)
    (r : Option CallError) : timesReply (finishWithdraw y s k p r).2 = [] := by
  have h : ∀ e s', withdrawFinish s p r y.now = .err e s' →
      ∃ a b c d, e = .failedToWithdrawFrom a b c d := by
    intro e s' h
    unfold withdrawFinish at h
    split at h
    · cases h
    · simp only at h
      split at h
      · cases h; exact ⟨_, _, _, _, rfl⟩
      · split at h
        · cases h
        · cases h
        · split at h
          · cases h; exact ⟨_, _, _, _, rfl⟩
          · split at h
            · split at h
              · cases h; exact ⟨_, _, _, _, rfl⟩
              · cases h
              · cases h
            · cases h; exact ⟨_, _, _, _, rfl⟩
  unfold finishWithdraw
  generalize hres : withdrawFinish s p r y.now = res at h
  cases res with
  | trap => cases k <;> rfl
  | ok i s' => cases k <;> rfl
  | err e s' =>
    obtain ⟨a, b, c, d, rfl⟩ := h e s' rfl
    cases k <;> rfl

theorem times_finishCreate (y : Sys) (s : State) (k : CallKind) (p : Suspended)
    (r : CmcResult) : timesReply (finishCreate y s k p r).2 = [] := by
  have h : ∀ e s', createCanisterFinish s p r y.now = .err e s' →
      ∃ a b c d, e = .failedToCreateFrom a b c d := by
    intro e s' h
    unfold createCanisterFinish at h
    simp only at h
    split at h
    case h_4 =>
      split at h <;> cases h
    all_goals
      split at h
      · cases h; exact ⟨_, _, _, _, rfl⟩
      · split at h
        · cases h
        · cases h
        · split at h
          · cases h; exact ⟨_, _, _, _, rfl⟩
          · split at h
            · split at h
              · cases h; exact ⟨_, _, _, _, rfl⟩
              · cases h
              · cases h
            · cases h; exact ⟨_, _, _, _, rfl⟩
  unfold finishCreate
  generalize hres : createCanisterFinish s p r y.now = res at h
  cases res with
  | trap => cases k <;> rfl
  | ok i s' => cases k <;> rfl
  | err e s' =>
    obtain ⟨a, b, c, d, rfl⟩ := h e s' rfl
    cases k <;> rfl

theorem times_sendWithdraw {y : Sys} (hi : SInv y) (r : Spec.BurnReq) (to : Principal)
    (hc : OptLe r.createdAt U64MAX) (k : CallKind) (sync : Option CallError) :
    ∀ t ∈ timesReply (sendWithdraw y (executeWithdraw y.ledger r.frm to r.spender r.amount
      r.createdAt y.now) k to sync).2, t = y.now := by
  have h := executeWithdraw_class hi.ledger r to hc
  generalize executeWithdraw y.ledger r.frm to r.spender r.amount r.createdAt y.now = res at h
  intro t ht
  unfold sendWithdraw at ht
  cases res with
  | trap => cases ht
  | ok p s =>
    cases sync with
    | none => cases ht
    | some c =>
      simp only at ht
      rw [times_finishWithdraw] at ht; cases ht
  | err e s =>
    obtain ⟨_, h, _⟩ := h
    cases e with
    | createdInFuture t' =>
      have : t = t' := by cases k <;> exact List.mem_singleton.mp ht
      rw [this]; exact h.1
    | _ => cases k <;> cases ht

theorem times_sendCreate {y : Sys} (hi : SInv y) (r : Spec.BurnReq) (caller : Principal)
    (args : Option CmcArgs) (hc : OptLe r.createdAt U64MAX) (k : CallKind)
    (sync : Option CallError) :
    ∀ t ∈ timesReply (sendCreate y (executeCreateCanister y.ledger r.frm r.spender r.amount
      r.createdAt y.now) k caller args sync).2, t = y.now := by
  have h := executeCreateCanister_class hi.ledger r hc
  generalize executeCreateCanister y.ledger r.frm r.spender r.amount r.createdAt y.now = res at h
  intro t ht
  unfold sendCreate at ht
  cases res with
  | trap => cases ht
  | ok p s =>
    cases sync with
    | none => cases ht
    | some c =>
      simp only at ht
      rw [times_finishCreate] at ht; cases ht
  | err e s =>
    obtain ⟨_, h, _⟩ := h
    cases e with
    | createdInFuture t' =>
      have : t = t' := by cases k <;> exact List.mem_singleton.mp ht
      rw [this]; exact h.1
    | _ => cases k <;> cases ht

theorem times_exec {y : Sys} (hi : SInv y) (m : Msg) :
    ∀ t ∈ timesReply (y.exec m).2, t = y.now := by
  intro t ht
  cases m with
  | deposit p n a =>
    simp only [Sys.exec] at ht
    split at ht
    · cases ht
    · rename_i e _ _; exact nomatch e
    · cases ht
  | transfer p a =>
    have hc := executeTransfer_class hi.ledger ⟨⟨p, a.fromSubaccount⟩, a.to, none,
      a.amount, a.fee, a.memo, a.createdAtTime.map UInt64.toNat⟩ (opt64_le _)
    simp only at hc
    simp only [Sys.exec, icrc1Transfer, opt64] at ht
    generalize executeTransfer y.ledger ⟨p, a.fromSubaccount⟩ a.to none
      a.amount a.fee a.memo (a.createdAtTime.map UInt64.toNat) y.now = res at hc ht
    cases res with
    | ok i s' => cases ht
    | trap => cases ht
    | err e s' =>
      obtain ⟨_, hr, _⟩ := hc
      cases e with
      | createdInFuture t' => rw [show t = t' from List.mem_singleton.mp ht]; exact hr.1
      | _ => cases ht
  | transferFrom p a =>
    have hc := executeTransfer_class hi.ledger ⟨a.frm, a.to, some ⟨p, a.spenderSubaccount⟩,
      a.amount, a.fee, a.memo, a.createdAtTime.map UInt64.toNat⟩ (opt64_le _)
    simp only at hc
    simp only [Sys.exec, icrc2TransferFrom, opt64] at ht
    generalize executeTransfer y.ledger a.frm a.to (some ⟨p, a.spenderSubaccount⟩)
      a.amount a.fee a.memo (a.createdAtTime.map UInt64.toNat) y.now = res at hc ht
    cases res with
    | ok i s' => cases ht
    | trap => cases ht
    | err e s' =>
      obtain ⟨_, hr, _⟩ := hc
      cases e with
      | createdInFuture t' => rw [show t = t' from List.mem_singleton.mp ht]; exact hr.1
      | _ => cases ht
  | approve p a =>
    have hc := icrc2Approve_class hi.ledger p a
    simp only [Sys.exec] at ht
    generalize icrc2Approve y.ledger p a y.now = res at hc ht
    cases res with
    | ok i s' => cases ht
    | trap => cases ht
    | err e s' =>
      obtain ⟨_, hr, _⟩ := hc
      cases e with
      | createdInFuture t' => rw [show t = t' from List.mem_singleton.mp ht]; exact hr.1
      | expired t' => rw [show t = t' from List.mem_singleton.mp ht]; exact hr.1
      | _ => cases ht
  | withdraw p a sync =>
    exact times_sendWithdraw hi ⟨⟨p, a.fromSubaccount⟩, none, a.amount, opt64 a.createdAtTime⟩ a.to
      (opt64_le _) _ sync t ht
  | withdrawFrom p a sync =>
    exact times_sendWithdraw hi ⟨a.frm, some ⟨p, a.spenderSubaccount⟩, a.amount,
      opt64 a.createdAtTime⟩ a.to (opt64_le _) _ sync t ht
  | createCanister p a sync =>
    exact times_sendCreate hi ⟨⟨p, a.fromSubaccount⟩, none, a.amount, opt64 a.createdAtTime⟩ p
      a.creationArgs (opt64_le _) _ sync t ht
  | createCanisterFrom p a sync =>
    exact times_sendCreate hi ⟨a.frm, some ⟨p, a.spenderSubaccount⟩, a.amount,
      opt64 a.createdAtTime⟩ p a.creationArgs (opt64_le _) _ sync t ht
  | callback i answer =>
    simp only [Sys.exec] at ht
    split at ht
    · cases ht
    · split at ht
      · rw [times_finishWithdraw] at ht; cases ht
      · rw [times_finishWithdraw] at ht; cases ht
      · rw [times_finishCreate] at ht; cases ht
      · rw [times_finishCreate] at ht; cases ht
      · cases ht
  | lostCallback i => cases ht
  | upgrade arg =>
    simp only [Sys.exec] at ht
    split at ht <;> cases ht

end CyclesLedger.Candid
