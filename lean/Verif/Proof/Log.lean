import Verif.Model.Log
import Verif.Proof.Exec
import Verif.Proof.PruneExact
import Verif.Props.Metrics
/-!
# What is logged
-/
namespace CyclesLedger
variable [Crypto]

/-! ## Pruning -/

omit [Crypto] in
/-- The state after one approval has been pruned. -/
theorem QueueInv.dropFirst {s : State} (hq : QueueInv s) {key : Nat × ApprovalKey} {u : Unit}
    (hf : s.expirationQueue.first? = some (key, u)) :
    s.approvals.get key.2 ≠ none ∧
    QueueInv { s with approvals := s.approvals.erase key.2
                      expirationQueue := s.expirationQueue.erase key } := by
  obtain ⟨e, k0⟩ := key
  have hmem := SMap.first?_eq_some hf
  rw [hq] at hmem
  obtain ⟨he, a, ha⟩ := hmem
  refine ⟨by rw [ha]; exact (nomatch ·), ?_⟩
  intro e' k
  simp only [SMap.get_erase]
  by_cases hk : k0 = k
  · subst hk
    simp only [if_true]
    by_cases hee : e = e'
    · subst hee; simp
    · rw [if_neg (by simpa using hee), hq, ha]
      simp only [Option.some.injEq, Prod.mk.injEq]
      constructor
      · rintro ⟨_, _, _, h⟩; exact absurd h hee
      · rintro ⟨_, _, h⟩; cases h
  · rw [if_neg (by simp [hk]), if_neg hk]
    exact hq e' k

omit [Crypto] in
theorem pruneApprovalsAlarms_nil {now : Nat} {s : State} (hq : QueueInv s) (n : Nat) :
    pruneApprovalsAlarms now s n = [] := by
  induction n generalizing s with
  | zero => rfl
  | succ n ih =>
    unfold pruneApprovalsAlarms
    split
    · rfl
    · rename_i key u hf
      split
      · rfl
      · obtain ⟨h1, h2⟩ := hq.dropFirst hf
        rw [if_neg h1, ih h2]
        rfl

omit [Crypto] in
theorem pruneApprovalsCount_eq (now : Nat) (s : State) (n : Nat) :
    s.expirationQueue.entries.length =
      pruneApprovalsCount now s n + (pruneApprovals now s n).expirationQueue.entries.length := by
  induction n generalizing s with
  | zero => simp [pruneApprovalsCount, pruneApprovals]
  | succ n ih =>
    unfold pruneApprovalsCount pruneApprovals
    cases hf : s.expirationQueue.first? with
    | none => simp only; omega
    | some kv =>
      obtain ⟨key, u⟩ := kv
      simp only
      by_cases hk : key.1 > now
      · rw [if_pos hk, if_pos hk]; omega
      · rw [if_neg hk, if_neg hk, SMap.erase_first hf, List.length_cons, ih { s with
          approvals := s.approvals.erase key.2
          expirationQueue := s.expirationQueue.erase key }]
        omega

theorem pruneTransactionsLog_nil {now : Nat} {s : State} (hi : HashInv now s) (n : Nat) :
    pruneTransactionsLog now s n = [] := by
  induction n generalizing s with
  | zero => rfl
  | succ n ih =>
    unfold pruneTransactionsLog
    split
    · rfl
    · rename_i ts idx u hf
      split
      · rfl
      · rename_i hw
        simp only [Bool.not_eq_true', Bool.not_eq_false] at hw
        have ht := SMap.first?_eq_some hf
        obtain ⟨b, hb, hc, c, hh⟩ := hi.time ts idx ht
        simp only [hb, Transaction.hash_eq_some, hh]
        rw [ih (pruneTx_step hi hb hc ht hw).inv]
        simp

theorem pruneTransactionsLog_p0 {now : Nat} {s : State} {n : Nat} {x : LogMsg}
    (hx : x ∈ pruneTransactionsLog now s n) : x.priority = .p0 := by
  induction n generalizing s with
  | zero => cases hx
  | succ n ih =>
    unfold pruneTransactionsLog at hx
    split at hx
    · cases hx
    · split at hx
      · cases hx
      · simp only at hx
        split at hx
        · rcases List.mem_cons.1 hx with rfl | hx
          · rfl
          · exact ih hx
        · split at hx
          · rcases List.mem_cons.1 hx with rfl | hx
            · rfl
            · exact ih hx
          · rcases List.mem_append.1 hx with hx | hx
            · split at hx
              · rw [List.mem_singleton.1 hx]; rfl
              · split at hx
                · rw [List.mem_singleton.1 hx]; rfl
                · cases hx
            · exact ih hx

omit [Crypto] in
theorem QueueInv.no_alarm {s : State} (hq : QueueInv s) : checkInvariantsLog s = [] := by
  have := hq.len_le
  unfold checkInvariantsLog
  rw [if_neg]
  simp only [checkInvariantsAlarm, decide_eq_true_eq]
  omega

/-- The allowance an approval sets. -/
def Spec.approveKey (t : Transaction) : Option ApprovalKey :=
  match t.operation with
  | .approve frm sp _ _ _ _ => some (frm.key, sp.key)
  | _ => none

/-- An approval that pruning removes. -/
def Spec.Swept (now : Nat) (s : State) (k : ApprovalKey) : Prop :=
  (∃ a e, s.approvals.get k = some (a, e) ∧ 0 < e ∧ e ≤ now) ∧
    (prune now s).approvals.get k = none

/-- The count is the number of approvals removed. -/
theorem pruneApprovalsCount_counts {now : Nat} {s : State} (hq : QueueInv s) :
    pruneApprovalsCount now s APPROVE_PRUNE_LIMIT ≤ 100 ∧
    Spec.Counts (Spec.Swept now s) (pruneApprovalsCount now s APPROVE_PRUNE_LIMIT) := by
  have hae : (prune now s).approvals = (pruneApprovals now s APPROVE_PRUNE_LIMIT).approvals :=
    (pruneTransactions_same now (pruneApprovals now s APPROVE_PRUNE_LIMIT)
      TRANSACTION_PRUNE_LIMIT).approvals
  have hc := pruneApprovalsCount_eq now s APPROVE_PRUNE_LIMIT
  obtain ⟨taken, h1, h2, h3, h4, h5⟩ := pruneApprovals_exact now s APPROVE_PRUNE_LIMIT
  have hlen : taken.length = pruneApprovalsCount now s APPROVE_PRUNE_LIMIT := by
    rw [h1, List.length_append] at hc
    omega
  rw [APPROVE_PRUNE_LIMIT_eq] at h2
  refine ⟨by omega, taken.map (fun x => x.1.2), ?_, ?_, by simp [hlen]⟩
  · have := hq.keys_nodup
    rw [h1, List.map_append] at this
    exact (List.nodup_append.1 this).1
  · intro k
    constructor
    · intro hk
      refine ⟨?_, by rw [hae, h5, if_pos hk]⟩
      obtain ⟨x, hx, rfl⟩ := List.mem_map.1 hk
      have hxs : x ∈ s.expirationQueue.entries := by rw [h1]; exact List.mem_append_left _ hx
      obtain ⟨hp, a, ha⟩ := (hq x.1.1 x.1.2).mp ((SMap.get_eq_some_iff _ _ _).mpr hxs)
      exact ⟨a, x.1.1, ha, hp, h3 x hx⟩
    · rintro ⟨⟨a, e, ha, _⟩, hn⟩
      refine Classical.byContradiction fun hk => ?_
      rw [hae, h5, if_neg hk, ha] at hn
      cases hn

/-- What pruning reports about approvals. -/
def sweepReport (n : Nat) : List LogMsg := if n = 0 then [] else [.prunedApprovals n]

/-- The log of pruning a consistent ledger. -/
theorem pruneLog_eq {now : Nat} {s : State} (hi : LInv now s)
    (hn : ¬Spec.Collision (s.blocks.map Block.transaction)) :
    pruneLog now s = sweepReport (pruneApprovalsCount now s APPROVE_PRUNE_LIMIT) := by
  have hp := prune_spec (now := now) hi.queue
  have hs := (pruneApprovals_spec (now := now) hi.queue APPROVE_PRUNE_LIMIT).same
  unfold pruneLog pruneApprovalsLog sweepReport
  rw [hp.queue.no_alarm, pruneApprovalsAlarms_nil hi.queue,
    pruneTransactionsLog_nil ((hi.hashInv hn).1.congr hs.blocks hs.hashes hs.timestamps)]
  simp only [List.nil_append, List.append_nil]
  split <;> split <;> first | rfl | omega

/-- Its low-priority part, whether or not hashes collide. -/
theorem pruneLog_p1 {now : Nat} {s : State} (hq : QueueInv s) :
    (pruneLog now s).filter (fun x => x.priority = .p1) =
      sweepReport (pruneApprovalsCount now s APPROVE_PRUNE_LIMIT) := by
  have hp := prune_spec (now := now) hq
  have hnil : (pruneTransactionsLog now (pruneApprovals now s APPROVE_PRUNE_LIMIT)
      TRANSACTION_PRUNE_LIMIT).filter (fun x => x.priority = .p1) = [] := by
    rw [List.filter_eq_nil_iff]
    intro x hx
    rw [pruneTransactionsLog_p0 hx]
    decide
  unfold pruneLog pruneApprovalsLog sweepReport
  rw [hp.queue.no_alarm, pruneApprovalsAlarms_nil hq]
  simp only [List.nil_append, List.append_nil, List.filter_append, hnil]
  split <;> split <;> first | rfl | omega

/-! ## The endpoints -/

theorem checkDuplicateLog_nil (t : Transaction) : checkDuplicateLog t = [] := by
  unfold checkDuplicateLog
  rw [if_neg]
  rw [Transaction.hash_eq_some]
  exact (nomatch ·)

theorem depositLog_cases (s : State) (arg : DepositArg) (amount now : Nat) :
    (∃ r s1 t, depositEndpoint s arg amount now = .ok r (prune now s1) ∧ Appended now s s1 t ∧
      Spec.approveKey t = none ∧ depositLog s arg.to amount arg.memo now = pruneLog now s1) ∨
    depositEndpoint s arg amount now = .trap := by
  unfold depositEndpoint deposit depositLog
  cases hamt : checkedSub amount FEE with
  | none => exact Or.inr rfl
  | some am =>
    cases am with
    | zero => exact Or.inr rfl
    | succ am =>
      simp only
      cases hm : mint s arg.to (am + 1) arg.memo now with
      | trap => exact Or.inr rfl
      | err e s1 => exact Or.inr rfl
      | ok i s1 =>
        left
        refine ⟨(i, balanceOf (prune now s1) arg.to), s1, _, rfl, (mint_ok hm).2, rfl, ?_⟩
        unfold mint at hm
        split at hm
        · cases hm
        · rename_i hcr
          rw [if_neg hcr]
          rfl

theorem executeTransferLog_cases (s : State) (frm to : Account) (sp : Option Account) (amount : Nat)
    (fee : Option Nat) (memo : Option Bytes) (cat : Option Nat) (now : Nat) :
    (∃ i s1 t, executeTransfer s frm to sp amount fee memo cat now = .ok i (prune now s1) ∧
      Appended now s s1 t ∧ Spec.approveKey t = none ∧
      executeTransferLog s frm to sp amount fee memo cat now = pruneLog now s1) ∨
    ((∀ i s', executeTransfer s frm to sp amount fee memo cat now ≠ .ok i s') ∧
      executeTransferLog s frm to sp amount fee memo cat now = []) := by
  unfold executeTransfer executeTransferLog
  cases toU128 amount with
  | none => exact Or.inr ⟨fun _ _ => (nomatch ·), rfl⟩
  | some amt =>
    simp only
    cases natOpt fee with
    | none => exact Or.inr ⟨fun _ _ => (nomatch ·), rfl⟩
    | some f =>
      simp only [checkDuplicateLog_nil, List.nil_append]
      cases ht : transfer s frm to sp amt memo now cat f with
      | trap => exact Or.inr ⟨fun _ _ => (nomatch ·), rfl⟩
      | err e s1 => exact Or.inr ⟨fun _ _ => (nomatch ·), rfl⟩
      | ok i s1 => exact Or.inl ⟨i, s1, _, rfl, (transfer_ok ht).2, rfl, rfl⟩

theorem icrc2ApproveLog_cases (s : State) (caller : Principal) (args : ApproveArgs) (now : Nat) :
    (∃ i s1, icrc2Approve s caller args now = .ok i (prune now s1) ∧
      Appended now s s1 ⟨.approve ⟨caller, args.fromSubaccount⟩ args.spender
        (min args.amount U128MAX) args.expectedAllowance (opt64 args.expiresAt) args.fee,
        opt64 args.createdAtTime, args.memo⟩ ∧
      icrc2ApproveLog s caller args now =
        recordApprovalLog s ⟨caller, args.fromSubaccount⟩ args.spender (min args.amount U128MAX) ++
          pruneLog now s1) ∨
    ((∀ i s', icrc2Approve s caller args now ≠ .ok i s') ∧
      icrc2ApproveLog s caller args now = []) := by
  have hmin : (toU128 args.amount).getD U128MAX = min args.amount U128MAX := by
    unfold toU128
    split
    · simp; omega
    · simp; omega
  unfold icrc2Approve icrc2ApproveLog
  simp only [hmin]
  cases hea : natOpt args.expectedAllowance with
  | none => exact Or.inr ⟨fun _ _ => (nomatch ·), rfl⟩
  | some ea =>
    simp only
    cases hfee : natOpt args.fee with
    | none => exact Or.inr ⟨fun _ _ => (nomatch ·), rfl⟩
    | some f =>
      rw [natOpt_eq_some] at hea hfee
      obtain ⟨rfl, hea⟩ := hea
      obtain ⟨rfl, _⟩ := hfee
      simp only [approveLog, checkDuplicateLog_nil, List.nil_append]
      cases ha : approve s ⟨caller, args.fromSubaccount⟩ args.spender (min args.amount U128MAX)
          args.memo now (opt64 args.createdAtTime) args.fee args.expectedAllowance
          (opt64 args.expiresAt) with
      | trap => exact Or.inr ⟨fun _ _ => (nomatch ·), rfl⟩
      | err e s1 => exact Or.inr ⟨fun _ _ => (nomatch ·), rfl⟩
      | ok i s1 =>
        exact Or.inl ⟨i, s1, rfl, (approve_ok (Nat.min_le_right _ _) hea (opt64_le _) ha).2, rfl⟩

/-- `withdrawBurn` is `withdrawStart` without the pruning. -/
theorem withdrawBurn_cases (s : State) (frm : Account) (to : Principal) (sp : Option Account)
    (amount now : Nat) (cat : Option Nat) :
    (∃ p s1 t, withdrawStart s frm to sp amount now cat = .ok p (prune now s1) ∧
      Appended now s s1 t ∧ Spec.approveKey t = none ∧
      withdrawBurn s frm to sp amount now cat = some s1) ∨
    ((∀ p s', withdrawStart s frm to sp amount now cat ≠ .ok p s') ∧
      withdrawBurn s frm to sp amount now cat = none) := by
  unfold withdrawStart withdrawBurn
  simp only
  by_cases hself : isSelfAuthenticating to = true
  · simp only [hself, if_true]; exact Or.inr ⟨fun _ _ => (nomatch ·), trivial⟩
  simp only [hself]
  by_cases h0 : amount = 0
  · simp only [h0, if_true]; exact Or.inr ⟨fun _ _ => (nomatch ·), by simp⟩
  simp only [h0, if_false]
  cases hdup : checkDuplicate s ⟨.burn frm sp amount, cat, some (encodeWithdrawMemo to)⟩ with
  | some e => exact Or.inr ⟨fun _ _ => (nomatch ·), rfl⟩
  | none =>
  simp only
  cases hawf : checkedAdd amount FEE with
  | none => exact Or.inr ⟨fun _ _ => (nomatch ·), rfl⟩
  | some awf =>
  simp only
  cases hal : checkAllowanceOpt s frm sp awf now with
  | error e => exact Or.inr ⟨fun _ _ => errOrTrap_ne_ok, rfl⟩
  | ok a =>
  simp only
  cases checkDebitFromAccount s frm awf with
  | none => exact Or.inr ⟨fun _ _ => (nomatch ·), rfl⟩
  | some b =>
  simp only
  cases checkTotalSupplyDecrease s awf with
  | none => exact Or.inr ⟨fun _ _ => (nomatch ·), rfl⟩
  | some c =>
  simp only
  cases hp : processTransaction s ⟨.burn frm sp amount, cat, some (encodeWithdrawMemo to)⟩ now with
  | trap => exact Or.inr ⟨fun _ _ => (nomatch ·), rfl⟩
  | err e s1 => exact Or.inr ⟨fun _ _ => (nomatch ·), rfl⟩
  | ok i s1 =>
  simp only
  cases hu : useAllowanceOpt s1 frm sp awf now with
  | error e => exact Or.inr ⟨fun _ _ => (nomatch ·), rfl⟩
  | ok s2 =>
  simp only
  cases hde : debit s2 frm awf with
  | none => exact Or.inr ⟨fun _ _ => (nomatch ·), rfl⟩
  | some s3 =>
  rw [checkDuplicate_eq_none] at hdup
  rw [checkedAdd_eq_some] at hawf
  obtain ⟨rfl, hawf⟩ := hawf
  obtain ⟨hm, hc, rfl, rfl⟩ := processTransaction_ok hp
  exact Or.inl ⟨_, s3, _, rfl, appended_burn hdup hm hc hawf hu hde, rfl, rfl⟩

/-- `createBurn` is `createCanisterStart` without the pruning. -/
theorem createBurn_cases (s : State) (frm : Account) (sp : Option Account)
    (amount now : Nat) (cat : Option Nat) :
    (∃ p s1 t, createCanisterStart s frm sp amount now cat = .ok p (prune now s1) ∧
      Appended now s s1 t ∧ Spec.approveKey t = none ∧
      createBurn s frm sp amount now cat = some s1) ∨
    ((∀ p s', createCanisterStart s frm sp amount now cat ≠ .ok p s') ∧
      createBurn s frm sp amount now cat = none) := by
  unfold createCanisterStart createBurn
  simp only
  cases hdup : checkDuplicate s ⟨.burn frm sp amount, cat, some CREATE_CANISTER_MEMO⟩ with
  | some e => exact Or.inr ⟨fun _ _ => (nomatch ·), rfl⟩
  | none =>
  simp only
  cases hawf : checkedAdd amount FEE with
  | none => exact Or.inr ⟨fun _ _ => (nomatch ·), rfl⟩
  | some awf =>
  simp only
  cases hal : checkAllowanceOpt s frm sp awf now with
  | error e => exact Or.inr ⟨fun _ _ => errOrTrap_ne_ok, rfl⟩
  | ok a =>
  simp only
  cases checkDebitFromAccount s frm awf with
  | none => exact Or.inr ⟨fun _ _ => (nomatch ·), rfl⟩
  | some b =>
  simp only
  cases checkTotalSupplyDecrease s awf with
  | none => exact Or.inr ⟨fun _ _ => (nomatch ·), rfl⟩
  | some c =>
  simp only
  cases hp : processTransaction s ⟨.burn frm sp amount, cat, some CREATE_CANISTER_MEMO⟩ now with
  | trap => exact Or.inr ⟨fun _ _ => (nomatch ·), rfl⟩
  | err e s1 => exact Or.inr ⟨fun _ _ => (nomatch ·), rfl⟩
  | ok i s1 =>
  simp only
  cases hu : useAllowanceOpt s1 frm sp awf now with
  | error e => exact Or.inr ⟨fun _ _ => (nomatch ·), rfl⟩
  | ok s2 =>
  simp only
  cases hde : debit s2 frm awf with
  | none => exact Or.inr ⟨fun _ _ => (nomatch ·), rfl⟩
  | some s3 =>
  rw [checkDuplicate_eq_none] at hdup
  rw [checkedAdd_eq_some] at hawf
  obtain ⟨rfl, hawf⟩ := hawf
  obtain ⟨hm, hc, rfl, rfl⟩ := processTransaction_ok hp
  exact Or.inl ⟨_, s3, _, rfl, appended_burn hdup hm hc hawf hu hde, rfl, rfl⟩

theorem executeWithdrawLog_cases (s : State) (frm : Account) (to : Principal) (sp : Option Account)
    (amount now : Nat) (cat : Option Nat) :
    (∃ p s1 t, executeWithdraw s frm to sp amount cat now = .ok p (prune now s1) ∧
      Appended now s s1 t ∧ Spec.approveKey t = none ∧
      executeWithdrawLog s frm to sp amount cat now = pruneLog now s1) ∨
    ((∀ p s', executeWithdraw s frm to sp amount cat now ≠ .ok p s') ∧
      executeWithdrawLog s frm to sp amount cat now = []) := by
  unfold executeWithdraw executeWithdrawLog
  cases toU128 amount with
  | none => exact Or.inr ⟨fun _ _ => (nomatch ·), rfl⟩
  | some amt =>
    simp only [checkDuplicateLog_nil, ite_self, List.nil_append]
    rcases withdrawBurn_cases s frm to sp amt now cat with ⟨p, s1, t, h1, h2, h3, h4⟩ | ⟨h1, h2⟩
    · rw [h4]; exact Or.inl ⟨p, s1, t, h1, h2, h3, rfl⟩
    · rw [h2]; exact Or.inr ⟨h1, rfl⟩

theorem executeCreateLog_cases (s : State) (frm : Account) (sp : Option Account)
    (amount now : Nat) (cat : Option Nat) :
    (∃ p s1 t, executeCreateCanister s frm sp amount cat now = .ok p (prune now s1) ∧
      Appended now s s1 t ∧ Spec.approveKey t = none ∧
      executeCreateLog s frm sp amount cat now = pruneLog now s1) ∨
    ((∀ p s', executeCreateCanister s frm sp amount cat now ≠ .ok p s') ∧
      executeCreateLog s frm sp amount cat now = []) := by
  unfold executeCreateCanister executeCreateLog
  cases toU128 amount with
  | none => exact Or.inr ⟨fun _ _ => (nomatch ·), rfl⟩
  | some amt =>
    simp only [checkDuplicateLog_nil, List.nil_append]
    rcases createBurn_cases s frm sp amt now cat with ⟨p, s1, t, h1, h2, h3, h4⟩ | ⟨h1, h2⟩
    · rw [h4]; exact Or.inl ⟨p, s1, t, h1, h2, h3, rfl⟩
    · rw [h2]; exact Or.inr ⟨h1, rfl⟩

/-- `reimburseMint` is `reimburse` without the pruning. -/
theorem reimburseMint_cases (s : State) (acc : Account) (amount now : Nat) (memo : Bytes) :
    (∃ i s1, reimburse s acc amount now memo = .ok i (prune now s1) ∧
      Appended now s s1 ⟨.mint acc amount 0, none, some memo⟩ ∧
      reimburseMint s acc amount now memo = some s1) ∨
    ((∀ i s', reimburse s acc amount now memo ≠ .ok i s') ∧
      reimburseMint s acc amount now memo = none) := by
  unfold reimburse reimburseMint
  cases hp : processTransaction s ⟨.mint acc amount 0, none, some memo⟩ now with
  | trap => exact Or.inr ⟨fun _ _ => (nomatch ·), rfl⟩
  | err e s1 => exact Or.inr ⟨fun _ _ => (nomatch ·), rfl⟩
  | ok i s1 =>
    simp only
    cases hcr : credit s1 acc amount with
    | none => exact Or.inr ⟨fun _ _ => (nomatch ·), rfl⟩
    | some s2 =>
      obtain ⟨hm, hc, rfl, rfl⟩ := processTransaction_ok hp
      exact Or.inl ⟨_, s2, rfl, appended_mint (Or.inr rfl) hm hcr, rfl⟩

/-- A refund logs two prunings. -/
theorem refundLog_cases {now : Nat} {s s' : State} {p : Suspended} {r : Nat} {memo : Bytes}
    {cond : Bool} {fb ab : Option Nat} (hi : LInv now s) (hexp : OptLe p.oldExpiresAt U64MAX)
    (hcond : cond = true → r > FEE)
    (h : refund s p r memo cond now = some (fb, ab, s')) :
    (s' = s ∧ refundLog s p r memo cond now = []) ∨
    ∃ s1, Appended now s s1 ⟨.mint p.frm r 0, none, some memo⟩ ∧ LInv now s1 ∧
      (∃ suf, s'.blocks = s1.blocks ++ suf) ∧
      refundLog s p r memo cond now = pruneLog now s1 ++ pruneLog now (prune now s1) := by
  unfold refundLog
  by_cases h0 : r = 0
  · rw [if_pos h0]
    unfold refund at h
    rw [if_pos h0] at h
    simp only [Option.some.injEq, Prod.mk.injEq] at h
    exact Or.inl ⟨h.2.2.symm, rfl⟩
  rw [if_neg h0]
  rcases reimburseMint_cases s p.frm r now memo with ⟨i, s1, h1, ha, h3⟩ | ⟨h1, h2⟩
  case inr =>
    exfalso
    unfold refund at h
    rw [if_neg h0] at h
    split at h
    · cases h
    · cases h
    · rename_i hr
      exact h1 _ _ hr
  right
  have hi1 : LInv now s1 := hi.append ha
  have hi2 : LInv now (prune now (prune now s1)) := hi1.prune.prune
  have hb2 : (prune now (prune now s1)).blocks = s1.blocks := by
    rw [(prune_spec hi1.prune.queue).blocks, (prune_spec hi1.queue).blocks]
  rw [h3]
  unfold refund at h
  rw [if_neg h0, h1] at h
  simp only at h
  refine ⟨s1, ha, hi1, ?_, ?_⟩
  · split at h
    · simp only [Option.some.injEq, Prod.mk.injEq] at h
      obtain ⟨_, _, rfl⟩ := h
      exact ⟨[], by rw [hb2, List.append_nil]⟩
    · rename_i sp hsp
      split at h
      · split at h
        · rename_i j s3 hap
          simp only [Option.some.injEq, Prod.mk.injEq] at h
          obtain ⟨_, _, rfl⟩ := h
          unfold reimburseApproval at hap
          simp only at hap
          have hok := approve_ok (satAdd128_le _ _) (by intro n hn; cases hn) (by
            intro n hn
            split at hn
            · simp only [Option.some.injEq] at hn
              rw [← hn]
              exact (hi2.allowance_le p.frm sp).2
            · exact hexp n hn) hap
          exact ⟨_, by rw [hok.2.blocks, hb2]⟩
        · cases h
        · cases h
      · simp only [Option.some.injEq, Prod.mk.injEq] at h
        obtain ⟨_, _, rfl⟩ := h
        exact ⟨[], by rw [hb2, List.append_nil]⟩
  · simp only
    conv => rhs; rw [← List.append_nil (pruneLog now s1 ++ pruneLog now (prune now s1))]
    congr 1
    split
    · rfl
    · rename_i sp hsp
      split
      · rename_i hc
        simp only [Bool.and_eq_true] at hc
        have hr := hcond hc.1.2
        unfold reimburseApprovalLog approveLog
        simp only [checkDuplicateLog_nil, List.nil_append]
        split
        · unfold recordApprovalLog
          split
          · rw [if_neg]
            rw [satAdd128_eq, satSub_eq]
            omega
          · rfl
        · rfl
        · rfl
      · rfl

/-! ## One message -/

/-- A message of a pruning on the way to `s'`. -/
def FromPrune (now : Nat) (s' : State) (x : LogMsg) : Prop :=
  ∃ s1, LInv now s1 ∧ (∃ suf, s'.blocks = s1.blocks ++ suf) ∧ x ∈ pruneLog now s1

theorem refund_prefix {now : Nat} {s s' : State} {p : Suspended} {r : Nat} {memo : Bytes}
    {cond : Bool} {fb ab : Option Nat} (hi : LInv now s) (hexp : OptLe p.oldExpiresAt U64MAX)
    (h : refund s p r memo cond now = some (fb, ab, s')) : ∃ suf, s'.blocks = s.blocks ++ suf := by
  obtain ⟨suf, hs⟩ := (refund_chain hi hexp h).blocks_prefix hi
  exact ⟨suf, hs.symm⟩

theorem refundLog_mem {now : Nat} {s s' : State} {p : Suspended} {r : Nat} {memo : Bytes}
    {cond : Bool} {fb ab : Option Nat} (hi : LInv now s) (hexp : OptLe p.oldExpiresAt U64MAX)
    (hcond : cond = true → r > FEE)
    (h : refund s p r memo cond now = some (fb, ab, s')) {x : LogMsg}
    (hx : x ∈ refundLog s p r memo cond now) : FromPrune now s' x := by
  rcases refundLog_cases hi hexp hcond h with ⟨_, h1⟩ | ⟨s1, _, hi1, hs, h1⟩
  · rw [h1] at hx; cases hx
  · rw [h1] at hx
    rcases List.mem_append.1 hx with hx | hx
    · exact ⟨s1, hi1, hs, hx⟩
    · exact ⟨prune now s1, hi1.prune, by rw [(prune_spec hi1.queue).blocks]; exact hs, hx⟩

theorem withdrawFinish_log {now : Nat} {s : State} {p : Suspended} {r : Option CallError}
    (hi : LInv now s) (hp : PendOk s p) :
    withdrawFinish s p r now = .trap ∨
    (∃ a, withdrawFinish s p r now = .ok a s ∧ withdrawFinishLog s p r now = []) ∨
    ∃ e s', withdrawFinish s p r now = .err e s' ∧ (∃ suf, s'.blocks = s.blocks ++ suf) ∧
      ∀ x ∈ withdrawFinishLog s p r now, FromPrune now s' x := by
  cases r with
  | none => exact Or.inr (Or.inl ⟨_, rfl, rfl⟩)
  | some code =>
    rw [withdrawFinish_eq]
    cases hr : refund s p (satSub p.amount FEE) PENALIZE_MEMO (decide (p.amount > 2 * FEE)) now with
    | none => exact Or.inl rfl
    | some v =>
      obtain ⟨fb, ab, s'⟩ := v
      refine Or.inr (Or.inr ⟨_, s', rfl, refund_prefix hi hp.expiry hr, fun x hx => ?_⟩)
      refine refundLog_mem hi hp.expiry ?_ hr hx
      rw [satSub_eq, decide_eq_true_eq]
      omega

theorem createFailed_log {now : Nat} {s : State} {p : Suspended} {code : RejectionCode}
    {returned : Nat} (hi : LInv now s) (hp : PendOk s p) :
    createFailed s p code returned now = .trap ∨
    ∃ e s', createFailed s p code returned now = .err e s' ∧
      (∃ suf, s'.blocks = s.blocks ++ suf) ∧
      ∀ x ∈ refundLog s p (satSub returned FEE) REFUND_MEMO
        (decide (satSub returned FEE > FEE)) now, FromPrune now s' x := by
  unfold createFailed
  cases hr : refund s p (satSub returned FEE) REFUND_MEMO
      (decide (satSub returned FEE > FEE)) now with
  | none => exact Or.inl rfl
  | some v =>
    obtain ⟨fb, ab, s'⟩ := v
    refine Or.inr ⟨_, s', rfl, refund_prefix hi hp.expiry hr, fun x hx => ?_⟩
    exact refundLog_mem hi hp.expiry (fun h => of_decide_eq_true h) hr hx

theorem createCanisterFinish_log {now : Nat} {s : State} {p : Suspended} {r : CmcResult}
    (hi : LInv now s) (hp : PendOk s p) :
    createCanisterFinish s p r now = .trap ∨
    (∃ a s', createCanisterFinish s p r now = .ok a s' ∧ s'.blocks = s.blocks ∧
      createCanisterFinishLog s p r now = []) ∨
    ∃ e s', createCanisterFinish s p r now = .err e s' ∧ (∃ suf, s'.blocks = s.blocks ++ suf) ∧
      ∀ x ∈ createCanisterFinishLog s p r now, FromPrune now s' x := by
  have hf := createCanisterFinish_failed s p now
  cases r with
  | refunded amt =>
    rw [hf.1]
    rcases createFailed_log (code := .canisterError) (returned := amt) hi hp with h | h
    · exact Or.inl h
    · exact Or.inr (Or.inr h)
  | refundFailed =>
    rw [hf.2.1]
    rcases createFailed_log (code := .canisterError) (returned := 0) hi hp with h | h
    · exact Or.inl h
    · exact Or.inr (Or.inr h)
  | callError e =>
    rw [hf.2.2]
    rcases createFailed_log (code := callErrorToReject e) (returned := p.amount) hi hp with h | h
    · exact Or.inl h
    · exact Or.inr (Or.inr h)
  | created canister =>
    simp only [createCanisterFinish, Transaction.hash_eq_some]
    refine Or.inr (Or.inl ⟨_, _, rfl, ?_, rfl⟩)
    split <;> rfl

theorem finishWithdraw_log {y : Sys} {s : State} {kind : CallKind} {p : Suspended}
    {r : Option CallError} (hi : LInv y.now s) (hp : PendOk s p) :
    (finishWithdraw y s kind p r).2 = .trapped ∨
    ((∃ suf, (finishWithdraw y s kind p r).1.ledger.blocks = s.blocks ++ suf) ∧
      (∀ x ∈ withdrawFinishLog s p r y.now,
        FromPrune y.now (finishWithdraw y s kind p r).1.ledger x)) := by
  rcases withdrawFinish_log (r := r) hi hp with h | ⟨a, h, hl⟩ | ⟨e, s', h, hs, hl⟩
  · left
    unfold finishWithdraw
    rw [h]
    split <;> rfl
  · right
    unfold finishWithdraw
    rw [h, hl]
    split <;> exact ⟨⟨[], (List.append_nil _).symm⟩, fun x hx => nomatch hx⟩
  · unfold finishWithdraw
    rw [h]
    split
    · cases he : withdrawFromErrorToWithdrawError e with
      | none => left; simp only [Res.mapErr, he, Sys.commit]
      | some e' =>
        right
        simp only [Res.mapErr, he, Sys.commit]
        exact ⟨hs, hl⟩
    · exact Or.inr ⟨hs, hl⟩

theorem finishCreate_log {y : Sys} {s : State} {kind : CallKind} {p : Suspended}
    {r : CmcResult} (hi : LInv y.now s) (hp : PendOk s p) :
    (finishCreate y s kind p r).2 = .trapped ∨
    ((∃ suf, (finishCreate y s kind p r).1.ledger.blocks = s.blocks ++ suf) ∧
      (∀ x ∈ createCanisterFinishLog s p r y.now,
        FromPrune y.now (finishCreate y s kind p r).1.ledger x)) := by
  rcases createCanisterFinish_log (r := r) hi hp with h | ⟨a, s', h, hb, hl⟩ | ⟨e, s', h, hs, hl⟩
  · left
    unfold finishCreate
    rw [h]
    split <;> rfl
  · right
    unfold finishCreate
    rw [h, hl]
    split <;> exact ⟨⟨[], by rw [List.append_nil]; exact hb⟩, fun x hx => nomatch hx⟩
  · unfold finishCreate
    rw [h]
    split
    · cases he : createFromErrorToCreateError e with
      | none => left; simp only [Res.mapErr, he, Sys.commit]
      | some e' =>
        right
        simp only [Res.mapErr, he, Sys.commit]
        exact ⟨hs, hl⟩
    · exact Or.inr ⟨hs, hl⟩

/-- The pruning after an append, seen from any later state. -/
theorem Appended.fromPrune {now : Nat} {s s1 s' : State} {t : Transaction} (hi : LInv now s)
    (ha : Appended now s s1 t) (hs : ∃ suf, s'.blocks = (prune now s1).blocks ++ suf) {x : LogMsg}
    (hx : x ∈ pruneLog now s1) : FromPrune now s' x := by
  have hi1 := hi.append ha
  rw [(prune_spec hi1.queue).blocks] at hs
  exact ⟨s1, hi1, hs, hx⟩

theorem sendWithdrawLog_mem {y : Sys} (hi : SInv y) {frm : Account} {to : Principal}
    {sp : Option Account} {amount : Nat} {cat : Option Nat} {kind : CallKind}
    {sync : Option CallError} :
    (sendWithdraw y (executeWithdraw y.ledger frm to sp amount cat y.now) kind to sync).2 =
      .trapped ∨
    ∀ x ∈ sendWithdrawLog y frm to sp amount cat sync, FromPrune y.now
      (sendWithdraw y (executeWithdraw y.ledger frm to sp amount cat y.now) kind to sync).1.ledger
      x := by
  unfold sendWithdrawLog
  rcases executeWithdrawLog_cases y.ledger frm to sp amount y.now cat with
    ⟨p, s1, t, h1, ha, _, h2⟩ | ⟨h1, h2⟩
  · rw [h1, h2]
    have hp : PendOk (prune y.now s1) p := by
      obtain ⟨_, _, ⟨old, rfl, hex⟩, s1', he, ha'⟩ := withdrawStart_ok (executeWithdraw_eq h1)
      rw [he]
      exact pendOk_start hi.ledger hex ha'
    have hi1 := (hi.ledger.append ha).prune
    unfold sendWithdraw
    cases sync with
    | none =>
      right
      intro x hx
      simp only [withdrawFinishLog, List.append_nil] at hx
      exact ha.fromPrune hi.ledger ⟨[], (List.append_nil _).symm⟩ hx
    | some code =>
      simp only
      rcases finishWithdraw_log (kind := kind) (r := some code) hi1 hp with h | ⟨hs, hl⟩
      · exact Or.inl h
      · right
        intro x hx
        rcases List.mem_append.1 hx with hx | hx
        · exact ha.fromPrune hi.ledger hs hx
        · exact hl x hx
  · right
    rw [h2]
    intro x hx
    cases he : executeWithdraw y.ledger frm to sp amount cat y.now with
    | ok p s => exact absurd he (h1 p s)
    | err e s => rw [he] at hx; cases hx
    | trap => rw [he] at hx; cases hx

theorem sendCreateLog_mem {y : Sys} (hi : SInv y) {frm : Account} {caller : Principal}
    {args : Option CmcArgs} {sp : Option Account} {amount : Nat} {cat : Option Nat}
    {kind : CallKind} {sync : Option CallError} :
    (sendCreate y (executeCreateCanister y.ledger frm sp amount cat y.now) kind caller args sync).2 =
      .trapped ∨
    ∀ x ∈ sendCreateLog y frm sp amount cat sync, FromPrune y.now
      (sendCreate y (executeCreateCanister y.ledger frm sp amount cat y.now) kind caller args
        sync).1.ledger x := by
  unfold sendCreateLog
  rcases executeCreateLog_cases y.ledger frm sp amount y.now cat with
    ⟨p, s1, t, h1, ha, _, h2⟩ | ⟨h1, h2⟩
  · rw [h1, h2]
    have hp : PendOk (prune y.now s1) p := by
      obtain ⟨⟨old, rfl, hex⟩, s1', he, ha'⟩ :=
        createCanisterStart_ok (executeCreateCanister_eq h1)
      rw [he]
      exact pendOk_start hi.ledger hex ha'
    have hi1 := (hi.ledger.append ha).prune
    unfold sendCreate
    cases sync with
    | none =>
      right
      intro x hx
      simp only [List.append_nil] at hx
      exact ha.fromPrune hi.ledger ⟨[], (List.append_nil _).symm⟩ hx
    | some code =>
      simp only
      rcases finishCreate_log (kind := kind) (r := .callError code) hi1 hp with h | ⟨hs, hl⟩
      · exact Or.inl h
      · right
        intro x hx
        rcases List.mem_append.1 hx with hx | hx
        · exact ha.fromPrune hi.ledger hs hx
        · exact hl x hx
  · right
    rw [h2]
    intro x hx
    cases he : executeCreateCanister y.ledger frm sp amount cat y.now with
    | ok p s => exact absurd he (h1 p s)
    | err e s => rw [he] at hx; cases hx
    | trap => rw [he] at hx; cases hx

/-- A message says that an approval of nothing was accepted, where nothing was stored. -/
def Spec.ZeroApproved (y : Sys) (m : Msg) : Prop :=
  ∃ r i, Spec.approveRequest m = some r ∧ r.amount = 0 ∧
    Spec.stored y.ledger r.frm r.spender = none ∧ Spec.okIndex (y.exec m).2 = some i

/-- Every message in the log is the one about an approval of nothing, or of a pruning. -/
theorem log_mem {y : Sys} (hi : SInv y) {m : Msg} {x : LogMsg} (hx : x ∈ y.log m) :
    (x = .zeroApproval ∧ Spec.ZeroApproved y m) ∨ FromPrune y.now (y.exec m).1.ledger x := by
  unfold Sys.log at hx
  split at hx
  · cases hx
  rename_i hnt
  cases m with
  | deposit caller cycles arg =>
    right
    simp only [Sys.written] at hx
    simp only [Sys.exec] at hnt ⊢
    rcases depositLog_cases y.ledger arg cycles.val y.now with ⟨r, s1, t, h1, ha, _, h2⟩ | h1
    · rw [h1] at hnt ⊢
      rw [h2] at hx
      exact ha.fromPrune hi.ledger ⟨[], (List.append_nil _).symm⟩ hx
    · rw [h1] at hnt
      exact absurd rfl hnt
  | transfer caller args =>
    right
    simp only [Sys.written] at hx
    simp only [Sys.exec, icrc1Transfer]
    rcases executeTransferLog_cases y.ledger ⟨caller, args.fromSubaccount⟩ args.to none args.amount
      args.fee args.memo (opt64 args.createdAtTime) y.now with ⟨r, s1, t, h1, ha, _, h2⟩ | ⟨_, h2⟩
    · rw [h1]
      rw [h2] at hx
      exact ha.fromPrune hi.ledger ⟨[], (List.append_nil _).symm⟩ hx
    · rw [h2] at hx
      cases hx
  | transferFrom caller args =>
    right
    simp only [Sys.written] at hx
    simp only [Sys.exec, icrc2TransferFrom]
    rcases executeTransferLog_cases y.ledger args.frm args.to (some ⟨caller, args.spenderSubaccount⟩)
      args.amount args.fee args.memo (opt64 args.createdAtTime) y.now with
      ⟨r, s1, t, h1, ha, _, h2⟩ | ⟨_, h2⟩
    · rw [h1]
      rw [h2] at hx
      exact ha.fromPrune hi.ledger ⟨[], (List.append_nil _).symm⟩ hx
    · rw [h2] at hx
      cases hx
  | approve caller args =>
    simp only [Sys.written] at hx
    rcases icrc2ApproveLog_cases y.ledger caller args y.now with ⟨i, s1, h1, ha, h2⟩ | ⟨_, h2⟩
    · rw [h2] at hx
      rcases List.mem_append.1 hx with hx | hx
      · left
        unfold recordApprovalLog at hx
        split at hx
        · rename_i hg
          split at hx
          · rename_i h0
            refine ⟨List.mem_singleton.1 hx, _, i, rfl, ?_, hg, ?_⟩
            · have := U128MAX_eq
              simp only
              omega
            · simp only [Sys.exec, h1, Sys.commit, Spec.okIndex]
          · cases hx
        · cases hx
      · right
        simp only [Sys.exec, h1, Sys.commit]
        exact ha.fromPrune hi.ledger ⟨[], (List.append_nil _).symm⟩ hx
    · rw [h2] at hx
      cases hx
  | withdraw caller args sync =>
    exact Or.inr ((sendWithdrawLog_mem hi).resolve_left hnt x hx)
  | withdrawFrom caller args sync =>
    exact Or.inr ((sendWithdrawLog_mem hi).resolve_left hnt x hx)
  | createCanister caller args sync =>
    exact Or.inr ((sendCreateLog_mem hi).resolve_left hnt x hx)
  | createCanisterFrom caller args sync =>
    exact Or.inr ((sendCreateLog_mem hi).resolve_left hnt x hx)
  | callback i answer =>
    right
    simp only [Sys.written] at hx
    simp only [Sys.exec] at hnt ⊢
    cases hp : y.pending[i]? with
    | none => simp only [hp] at hx; cases hx
    | some p =>
      have hpo := hi.pending p (List.mem_of_getElem? hp)
      simp only [hp] at hx hnt ⊢
      split at hx
      · rename_i r hk
        simp only [hk] at hnt ⊢
        exact ((finishWithdraw_log (y := { y with pending := y.pending.eraseIdx i, cycles := y.cycles + (if r.isSome then (p.call.cycles : Int) else 0) }) hi.ledger hpo).resolve_left hnt).2 x hx
      · rename_i r hk
        simp only [hk] at hnt ⊢
        exact ((finishWithdraw_log (y := { y with pending := y.pending.eraseIdx i, cycles := y.cycles + (if r.isSome then (p.call.cycles : Int) else 0) }) hi.ledger hpo).resolve_left hnt).2 x hx
      · rename_i r refund hk
        simp only [hk] at hnt ⊢
        exact ((finishCreate_log (y := { y with pending := y.pending.eraseIdx i, cycles := y.cycles + refund }) hi.ledger hpo).resolve_left hnt).2 x hx
      · rename_i r refund hk
        simp only [hk] at hnt ⊢
        exact ((finishCreate_log (y := { y with pending := y.pending.eraseIdx i, cycles := y.cycles + refund }) hi.ledger hpo).resolve_left hnt).2 x hx
      · cases hx
  | lostCallback i => cases hx
  | upgrade arg => cases hx

theorem sendWithdrawLog_accepted {y : Sys} {frm : Account} {to : Principal}
    {sp : Option Account} {amount : Nat} {cat : Option Nat} {kind : CallKind}
    {sync : Option CallError}
    (hacc : Spec.Accepted
      (sendWithdraw y (executeWithdraw y.ledger frm to sp amount cat y.now) kind to sync).2) :
    ∃ s1 t pre, Appended y.now y.ledger s1 t ∧
      (sendWithdraw y (executeWithdraw y.ledger frm to sp amount cat y.now) kind to sync).1.ledger =
        prune y.now s1 ∧
      Spec.approveKey t = none ∧
      sendWithdrawLog y frm to sp amount cat sync = pre ++ pruneLog y.now s1 ∧
      ∀ x ∈ pre, x.priority = .p0 := by
  unfold sendWithdrawLog
  unfold sendWithdraw at hacc ⊢
  rcases executeWithdrawLog_cases y.ledger frm to sp amount y.now cat with
    ⟨p, s1, t, h1, ha, hk, h2⟩ | ⟨h1, h2⟩
  · rw [h1] at hacc ⊢
    rw [h2]
    cases sync with
    | none =>
      exact ⟨s1, t, [], ha, rfl, hk, by simp [withdrawFinishLog], fun x hx => nomatch hx⟩
    | some code =>
      exfalso
      simp only [finishWithdraw, withdrawFinish_eq] at hacc
      split at hacc
      · split at hacc
        · rcases hacc with h | ⟨i, h⟩ <;> cases h
        · simp only [Res.mapErr, withdrawFromErrorToWithdrawError, Sys.commit] at hacc
          rcases hacc with h | ⟨i, h⟩ <;> cases h
      · split at hacc <;> (rcases hacc with h | ⟨i, h⟩ <;> cases h)
  · exfalso
    cases he : executeWithdraw y.ledger frm to sp amount cat y.now with
    | ok p s => exact absurd he (h1 p s)
    | trap => rw [he] at hacc; rcases hacc with h | ⟨i, h⟩ <;> cases h
    | err e s =>
      rw [he] at hacc
      simp only at hacc
      split at hacc
      · unfold Res.mapErr at hacc
        simp only at hacc
        split at hacc
        · rcases hacc with h | ⟨i, h⟩ <;> cases h
        · rcases hacc with h | ⟨i, h⟩ <;> cases h
      · rcases hacc with h | ⟨i, h⟩ <;> cases h

theorem sendCreateLog_accepted {y : Sys} {frm : Account} {caller : Principal}
    {args : Option CmcArgs} {sp : Option Account} {amount : Nat} {cat : Option Nat}
    {kind : CallKind} {sync : Option CallError}
    (hacc : Spec.Accepted
      (sendCreate y (executeCreateCanister y.ledger frm sp amount cat y.now) kind caller args
        sync).2) :
    ∃ s1 t pre, Appended y.now y.ledger s1 t ∧
      (sendCreate y (executeCreateCanister y.ledger frm sp amount cat y.now) kind caller args
        sync).1.ledger = prune y.now s1 ∧
      Spec.approveKey t = none ∧
      sendCreateLog y frm sp amount cat sync = pre ++ pruneLog y.now s1 ∧
      ∀ x ∈ pre, x.priority = .p0 := by
  unfold sendCreateLog
  unfold sendCreate at hacc ⊢
  rcases executeCreateLog_cases y.ledger frm sp amount y.now cat with
    ⟨p, s1, t, h1, ha, hk, h2⟩ | ⟨h1, h2⟩
  · rw [h1] at hacc ⊢
    rw [h2]
    cases sync with
    | none =>
      exact ⟨s1, t, [], ha, rfl, hk, by simp, fun x hx => nomatch hx⟩
    | some code =>
      exfalso
      simp only [finishCreate, (createCanisterFinish_failed _ p y.now).2.2, createFailed] at hacc
      split at hacc
      · split at hacc
        · rcases hacc with h | ⟨i, h⟩ <;> cases h
        · simp only [Res.mapErr, createFromErrorToCreateError, Sys.commit] at hacc
          rcases hacc with h | ⟨i, h⟩ <;> cases h
      · split at hacc <;> (rcases hacc with h | ⟨i, h⟩ <;> cases h)
  · exfalso
    cases he : executeCreateCanister y.ledger frm sp amount cat y.now with
    | ok p s => exact absurd he (h1 p s)
    | trap => rw [he] at hacc; rcases hacc with h | ⟨i, h⟩ <;> cases h
    | err e s =>
      rw [he] at hacc
      simp only at hacc
      split at hacc
      · unfold Res.mapErr at hacc
        simp only at hacc
        split at hacc
        · rcases hacc with h | ⟨i, h⟩ <;> cases h
        · rcases hacc with h | ⟨i, h⟩ <;> cases h
      · rcases hacc with h | ⟨i, h⟩ <;> cases h

/-- What has expired after an append had expired before, unless it is the allowance that the
request sets. -/
theorem Appended.expired_iff {now : Nat} {s s1 : State} {t : Transaction} (ha : Appended now s s1 t)
    (k : ApprovalKey) :
    (∃ a e, s1.approvals.get k = some (a, e) ∧ 0 < e ∧ e ≤ now) ↔ Spec.approveKey t ≠ some k ∧
      ∃ a e, s.approvals.get k = some (a, e) ∧ 0 < e ∧ e ≤ now := by
  have hall := ha.allow k
  have hsp := ha.spend
  have hop := ha.op
  rw [hall]
  have other : Spec.approveKey t = none →
      Spec.allowStep s.approvals.get (mkBlock s t now) =
        (match Spec.spends (mkBlock s t now) with
          | some (key, x) => Spec.spend s.approvals.get key x
          | none => s.approvals.get) := by
    intro hk
    unfold Spec.approveKey at hk
    unfold Spec.allowStep
    split
    · rename_i ho
      have ho' : t.operation = _ := ho
      rw [ho'] at hk
      cases hk
    · rfl
  cases hak : Spec.approveKey t with
  | some key =>
    cases ho : t.operation with
    | approve frm sp amount ea exp fee =>
      rw [ho] at hop
      have hkey : key = (Spec.idOf frm, Spec.idOf sp) := by
        unfold Spec.approveKey at hak
        rw [ho] at hak
        exact (Option.some.inj hak).symm
      have hstep : Spec.allowStep s.approvals.get (mkBlock s t now) k =
          if k = (Spec.idOf frm, Spec.idOf sp) then
            (if amount = 0 then none else some (amount, exp.getD 0)) else s.approvals.get k := by
        unfold Spec.allowStep mkBlock
        simp only [ho]
      rw [hstep]
      by_cases hk : k = (Spec.idOf frm, Spec.idOf sp)
      · rw [if_pos hk]
        have hkk : some key = some k := by rw [hk, hkey]
        simp only [hkk, ne_eq, not_true, false_and, iff_false]
        rintro ⟨a, e, h1, h2, h3⟩
        split at h1
        · cases h1
        · simp only [Option.some.injEq, Prod.mk.injEq] at h1
          have := hop.2.2.2.2.2.2.2
          cases exp with
          | none => simp at h1; omega
          | some v => simp at h1 this; omega
      · rw [if_neg hk]
        have hkk : some key ≠ some k := fun h => hk (by rw [← hkey]; exact (Option.some.inj h).symm)
        simp only [hkk, ne_eq, not_false_iff, true_and]
    | mint _ _ _ => simp only [Spec.approveKey, ho] at hak; cases hak
    | burn _ _ _ => simp only [Spec.approveKey, ho] at hak; cases hak
    | transfer _ _ _ _ _ => simp only [Spec.approveKey, ho] at hak; cases hak
  | none =>
    rw [other hak]
    simp only [ne_eq, reduceCtorEq, not_false_iff, true_and]
    cases hs : Spec.spends (mkBlock s t now) with
    | none => rfl
    | some kx =>
      obtain ⟨key, x⟩ := kx
      obtain ⟨a, e, h1, h2, h3⟩ := hsp key x hs
      simp only [Spec.spend]
      by_cases hk : k = key
      · subst hk
        rw [if_pos rfl, h1]
        simp only [Option.some.injEq, Prod.mk.injEq]
        constructor
        · rintro ⟨a', e', h, h4, h5⟩
          split at h
          · cases h
          · simp only [Option.some.injEq, Prod.mk.injEq] at h
            omega
        · rintro ⟨a', e', h, h4, h5⟩
          omega
      · rw [if_neg hk]

/-- What pruning after an append removes had expired before, unless it is the allowance that the
request sets. -/
theorem Appended.swept {now : Nat} {s s1 : State} {t : Transaction} (ha : Appended now s s1 t)
    (k : ApprovalKey) :
    Spec.Swept now s1 k ↔ Spec.approveKey t ≠ some k ∧
      (∃ a e, s.approvals.get k = some (a, e) ∧ 0 < e ∧ e ≤ now) ∧
      (prune now s1).approvals.get k = none := by
  unfold Spec.Swept
  rw [ha.expired_iff, and_assoc]

/-- A request that succeeds logs its own message, if any, and one pruning. -/
theorem log_accepted {y : Sys} {m : Msg} (hm : ∀ i ans, m ≠ .callback i ans)
    (hacc : Spec.Accepted (y.exec m).2) :
    ∃ s1 t pre, Appended y.now y.ledger s1 t ∧ (y.exec m).1.ledger = prune y.now s1 ∧
      Spec.approveKey t = (Spec.approveRequest m).map (fun r => (r.frm.key, r.spender.key)) ∧
      y.log m = pre ++ pruneLog y.now s1 ∧ ∀ x ∈ pre, x.priority = .p0 := by
  have hnt : (y.exec m).2 ≠ .trapped := by
    intro h
    rw [h] at hacc
    rcases hacc with h | ⟨i, h⟩ <;> cases h
  unfold Sys.log
  rw [if_neg hnt]
  clear hnt
  cases m with
  | deposit caller cycles arg =>
    simp only [Sys.exec] at hacc ⊢
    rcases depositLog_cases y.ledger arg cycles.val y.now with ⟨r, s1, t, h1, ha, hk, h2⟩ | h1
    · rw [h1]
      exact ⟨s1, t, [], ha, rfl, hk, h2, fun x hx => nomatch hx⟩
    · rw [h1] at hacc
      rcases hacc with h | ⟨i, h⟩ <;> cases h
  | transfer caller args =>
    simp only [Sys.exec, icrc1Transfer] at hacc ⊢
    rcases executeTransferLog_cases y.ledger ⟨caller, args.fromSubaccount⟩ args.to none args.amount
      args.fee args.memo (opt64 args.createdAtTime) y.now with ⟨r, s1, t, h1, ha, hk, h2⟩ | ⟨h1, _⟩
    · rw [h1]
      exact ⟨s1, t, [], ha, rfl, hk, h2, fun x hx => nomatch hx⟩
    · exfalso
      rcases commit_cases y ((executeTransfer y.ledger ⟨caller, args.fromSubaccount⟩ args.to none
          args.amount args.fee args.memo (opt64 args.createdAtTime) y.now).mapErr
          transferFromErrorToTransferError) .transfer with ⟨_, h⟩ | ⟨a, s', hr, h⟩ | ⟨e, s', hr, h⟩
      · rw [h] at hacc; rcases hacc with h | ⟨i, h⟩ <;> cases h
      · rw [mapErr_ok] at hr; exact h1 _ _ hr
      · rw [h] at hacc; rcases hacc with h | ⟨i, h⟩ <;> cases h
  | transferFrom caller args =>
    simp only [Sys.exec, icrc2TransferFrom] at hacc ⊢
    rcases executeTransferLog_cases y.ledger args.frm args.to (some ⟨caller, args.spenderSubaccount⟩)
      args.amount args.fee args.memo (opt64 args.createdAtTime) y.now with
      ⟨r, s1, t, h1, ha, hk, h2⟩ | ⟨h1, _⟩
    · rw [h1]
      exact ⟨s1, t, [], ha, rfl, hk, h2, fun x hx => nomatch hx⟩
    · exfalso
      rcases commit_cases y (executeTransfer y.ledger args.frm args.to
          (some ⟨caller, args.spenderSubaccount⟩)
          args.amount args.fee args.memo (opt64 args.createdAtTime) y.now) .transferFrom with
          ⟨_, h⟩ | ⟨a, s', hr, h⟩ | ⟨e, s', hr, h⟩
      · rw [h] at hacc; rcases hacc with h | ⟨i, h⟩ <;> cases h
      · exact h1 _ _ hr
      · rw [h] at hacc; rcases hacc with h | ⟨i, h⟩ <;> cases h
  | approve caller args =>
    simp only [Sys.exec] at hacc ⊢
    rcases icrc2ApproveLog_cases y.ledger caller args y.now with ⟨i, s1, h1, ha, h2⟩ | ⟨h1, _⟩
    · rw [h1]
      refine ⟨s1, _, _, ha, rfl, rfl, h2, ?_⟩
      intro x hx
      unfold recordApprovalLog at hx
      split at hx
      · split at hx
        · rw [List.mem_singleton.1 hx]; rfl
        · cases hx
      · cases hx
    · exfalso
      rcases commit_cases y (icrc2Approve y.ledger caller args y.now) .approve with
          ⟨_, h⟩ | ⟨a, s', hr, h⟩ | ⟨e, s', hr, h⟩
      · rw [h] at hacc; rcases hacc with h | ⟨i, h⟩ <;> cases h
      · exact h1 _ _ hr
      · rw [h] at hacc; rcases hacc with h | ⟨i, h⟩ <;> cases h
  | withdraw caller args sync =>
    exact sendWithdrawLog_accepted hacc
  | withdrawFrom caller args sync =>
    exact sendWithdrawLog_accepted hacc
  | createCanister caller args sync =>
    exact sendCreateLog_accepted hacc
  | createCanisterFrom caller args sync =>
    exact sendCreateLog_accepted hacc
  | callback i ans => exact absurd rfl (hm i ans)
  | lostCallback i => rcases hacc with h | ⟨i, h⟩ <;> cases h
  | upgrade arg =>
    exfalso
    simp only [Sys.exec] at hacc
    split at hacc <;> (rcases hacc with h | ⟨i, h⟩ <;> cases h)

end CyclesLedger
