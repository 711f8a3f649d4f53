import Verif.Proof.Log
/-!
# How many approvals every message prunes, and what it reports
-/
namespace CyclesLedger

/-- A stored approval that has expired. -/
def Spec.HasExpired (now : Nat) (s : State) (k : ApprovalKey) : Prop :=
  ∃ a e, s.approvals.get k = some (a, e) ∧ 0 < e ∧ e ≤ now

/-- The message about `n` pruned approvals, unless there were none. -/
def Spec.report (n : Nat) : List LogMsg := if n = 0 then [] else [.prunedApprovals n]

/-- The reports of some passes over the expired approvals, `n` at first: each pass removes a hundred,
or all if there are fewer. -/
def Spec.passes : Nat → Nat → List LogMsg
  | 0, _ => []
  | p + 1, n => Spec.report (min 100 n) ++ Spec.passes p (n - 100)

/-- The messages of low priority. -/
def Spec.low (l : List LogMsg) : List LogMsg := l.filter (fun x => x.priority = .p1)

variable [Crypto]

omit [Crypto] in
theorem low_append (a b : List LogMsg) : Spec.low (a ++ b) = Spec.low a ++ Spec.low b :=
  List.filter_append ..

omit [Crypto] in
theorem low_nil {a : List LogMsg} (h : ∀ x ∈ a, x.priority = .p0) : Spec.low a = [] := by
  unfold Spec.low
  rw [List.filter_eq_nil_iff]
  intro x hx
  rw [h x hx]
  decide

omit [Crypto] in
theorem Counts.congr {α : Type} {P Q : α → Prop} {n : Nat} (h : Spec.Counts P n)
    (hpq : ∀ a, P a ↔ Q a) : Spec.Counts Q n := by
  obtain ⟨l, h1, h2, h3⟩ := h
  exact ⟨l, h1, fun a => (h2 a).trans (hpq a), h3⟩

omit [Crypto] in
theorem Counts.filter {α : Type} {P : α → Prop} {n : Nat} (h : Spec.Counts P n) (Q : α → Prop) :
    ∃ m, Spec.Counts (fun a => Q a ∧ P a) m := by
  classical
  obtain ⟨l, h1, h2, _⟩ := h
  refine ⟨_, l.filter (fun a => decide (Q a)), h1.filter _, ?_, rfl⟩
  intro a
  rw [List.mem_filter, h2, decide_eq_true_eq]
  exact And.comm

omit [Crypto] in
/-- The expired approvals are the first entries of the queue. -/
theorem expired_counts {now : Nat} {s : State} (hq : QueueInv s) :
    Spec.Counts (Spec.HasExpired now s)
      (s.expirationQueue.entries.filter (fun x => decide (x.1.1 ≤ now))).length := by
  refine ⟨(s.expirationQueue.entries.filter (fun x => decide (x.1.1 ≤ now))).map (fun x => x.1.2),
    ?_, ?_, List.length_map ..⟩
  · exact hq.keys_nodup.sublist (List.filter_sublist.map _)
  · intro k
    rw [List.mem_map]
    constructor
    · rintro ⟨x, hx, rfl⟩
      rw [List.mem_filter, decide_eq_true_eq] at hx
      obtain ⟨hp, a, ha⟩ := (hq x.1.1 x.1.2).mp ((SMap.get_eq_some_iff _ _ _).mpr hx.1)
      exact ⟨a, x.1.1, ha, hp, hx.2⟩
    · rintro ⟨a, e, ha, h0, h1⟩
      have := (SMap.get_eq_some_iff _ _ _).mp ((hq e k).mpr ⟨h0, a, ha⟩)
      exact ⟨_, List.mem_filter.2 ⟨this, decide_eq_true h1⟩, rfl⟩

omit [Crypto] in
theorem Counts.unique {α : Type} {P : α → Prop} {m n : Nat} (h1 : Spec.Counts P m)
    (h2 : Spec.Counts P n) : m = n := by
  obtain ⟨l1, a1, b1, rfl⟩ := h1
  obtain ⟨l2, a2, b2, rfl⟩ := h2
  classical
  exact Nat.le_antisymm (length_le_of_subset a1 (fun x hx => (b2 x).2 ((b1 x).1 hx)))
    (length_le_of_subset a2 (fun x hx => (b1 x).2 ((b2 x).1 hx)))

/-- One pass. -/
theorem pass {now N : Nat} {s : State} (hq : QueueInv s) (hN : Spec.Counts (Spec.HasExpired now s) N) :
    Spec.low (pruneLog now s) = Spec.report (min 100 N) ∧
    Spec.Counts (Spec.HasExpired now (prune now s)) (N - 100) := by
  have hq' := (prune_spec (now := now) hq).queue
  obtain rfl := Counts.unique hN (expired_counts hq)
  have hc := pruneApprovalsCount_eq now s APPROVE_PRUNE_LIMIT
  obtain ⟨taken, h1, h2, h3, h4, h5⟩ := pruneApprovals_exact now s APPROVE_PRUNE_LIMIT
  have hlen : taken.length = pruneApprovalsCount now s APPROVE_PRUNE_LIMIT := by
    rw [h1, List.length_append] at hc
    omega
  have hqe : (prune now s).expirationQueue =
      (pruneApprovals now s APPROVE_PRUNE_LIMIT).expirationQueue :=
    (pruneTransactions_same now (pruneApprovals now s APPROVE_PRUNE_LIMIT)
      TRANSACTION_PRUNE_LIMIT).queue
  have hsplit : (s.expirationQueue.entries.filter (fun x => decide (x.1.1 ≤ now))).length =
      taken.length +
      ((prune now s).expirationQueue.entries.filter (fun x => decide (x.1.1 ≤ now))).length := by
    rw [hqe, h1, List.filter_append, List.length_append]
    congr 2
    rw [List.filter_eq_self]
    intro x hx
    exact decide_eq_true (h3 x hx)
  have hrest : taken.length < APPROVE_PRUNE_LIMIT →
      ((prune now s).expirationQueue.entries.filter (fun x => decide (x.1.1 ≤ now))).length = 0 := by
    intro hlt
    rw [hqe, List.length_eq_zero_iff, List.filter_eq_nil_iff]
    intro x hx
    have := h4 hlt x hx
    rw [decide_eq_true_eq]
    omega
  rw [APPROVE_PRUNE_LIMIT_eq] at h2 hrest
  constructor
  · unfold Spec.low
    rw [pruneLog_p1 hq, ← hlen]
    unfold sweepReport Spec.report
    congr 3 <;> (first | rfl | omega)
  · have := expired_counts (now := now) hq'
    have he : ((prune now s).expirationQueue.entries.filter
        (fun x => decide (x.1.1 ≤ now))).length =
        (s.expirationQueue.entries.filter (fun x => decide (x.1.1 ≤ now))).length - 100 := by omega
    rwa [he] at this

/-- The low-priority messages of a refund. -/
theorem refund_low {now N : Nat} {s s' : State} {p : Suspended} {r : Nat} {memo : Bytes}
    {cond : Bool} {fb ab : Option Nat} (hi : LInv now s) (hexp : OptLe p.oldExpiresAt U64MAX)
    (hcond : cond = true → r > FEE) (hN : Spec.Counts (Spec.HasExpired now s) N)
    (h : refund s p r memo cond now = some (fb, ab, s')) :
    (s'.blocks.length = s.blocks.length ∧ Spec.low (refundLog s p r memo cond now) = []) ∨
    (s.blocks.length < s'.blocks.length ∧
      Spec.low (refundLog s p r memo cond now) = Spec.passes 2 N) := by
  rcases refundLog_cases hi hexp hcond h with ⟨rfl, h1⟩ | ⟨s1, ha, hi1, ⟨suf, hs⟩, h1⟩
  · exact Or.inl ⟨rfl, by rw [h1]; rfl⟩
  · right
    have hN1 : Spec.Counts (Spec.HasExpired now s1) N := Counts.congr hN (fun k => by
      unfold Spec.HasExpired
      rw [ha.expired_iff]
      simp [Spec.approveKey])
    obtain ⟨p1, hN2⟩ := pass hi1.queue hN1
    obtain ⟨p2, _⟩ := pass hi1.prune.queue hN2
    refine ⟨?_, ?_⟩
    · rw [hs, ha.blocks]
      simp
    · rw [h1, low_append, p1, p2]
      simp [Spec.passes]

theorem finishWithdraw_low {y : Sys} {s : State} {kind : CallKind} {p : Suspended} {N : Nat}
    {r : Option CallError} (hi : LInv y.now s) (hp : PendOk s p)
    (hN : Spec.Counts (Spec.HasExpired y.now s) N) (hnt : (finishWithdraw y s kind p r).2 ≠ .trapped) :
    ((finishWithdraw y s kind p r).1.ledger.blocks.length = s.blocks.length ∧
      Spec.low (withdrawFinishLog s p r y.now) = []) ∨
    (s.blocks.length < (finishWithdraw y s kind p r).1.ledger.blocks.length ∧
      Spec.low (withdrawFinishLog s p r y.now) = Spec.passes 2 N) := by
  cases r with
  | none =>
    left
    unfold finishWithdraw
    split <;> exact ⟨rfl, rfl⟩
  | some code =>
    unfold finishWithdraw at hnt ⊢
    simp only [withdrawFinish_eq] at hnt ⊢
    cases hr : refund s p (satSub p.amount FEE) PENALIZE_MEMO (decide (p.amount > 2 * FEE)) y.now with
    | none =>
      rw [hr] at hnt
      exact absurd (by split <;> rfl) hnt
    | some v =>
      obtain ⟨fb, ab, s'⟩ := v
      have := refund_low hi hp.expiry (by rw [satSub_eq, decide_eq_true_eq]; omega) hN hr
      split
      · simp only [Res.mapErr, withdrawFromErrorToWithdrawError, Sys.commit]
        exact this
      · exact this

theorem finishCreate_low {y : Sys} {s : State} {kind : CallKind} {p : Suspended} {N : Nat}
    {r : CmcResult} (hi : LInv y.now s) (hp : PendOk s p)
    (hN : Spec.Counts (Spec.HasExpired y.now s) N) (hnt : (finishCreate y s kind p r).2 ≠ .trapped) :
    ((finishCreate y s kind p r).1.ledger.blocks.length = s.blocks.length ∧
      Spec.low (createCanisterFinishLog s p r y.now) = []) ∨
    (s.blocks.length < (finishCreate y s kind p r).1.ledger.blocks.length ∧
      Spec.low (createCanisterFinishLog s p r y.now) = Spec.passes 2 N) := by
  have hf := createCanisterFinish_failed s p y.now
  have failed : ∀ {code : RejectionCode} {returned : Nat},
      createCanisterFinish s p r y.now = createFailed s p code returned y.now →
      createCanisterFinishLog s p r y.now = refundLog s p (satSub returned FEE) REFUND_MEMO
        (decide (satSub returned FEE > FEE)) y.now →
      ((finishCreate y s kind p r).1.ledger.blocks.length = s.blocks.length ∧
        Spec.low (createCanisterFinishLog s p r y.now) = []) ∨
      (s.blocks.length < (finishCreate y s kind p r).1.ledger.blocks.length ∧
        Spec.low (createCanisterFinishLog s p r y.now) = Spec.passes 2 N) := by
    intro code returned h1 h2
    unfold finishCreate at hnt ⊢
    rw [h2]
    rw [h1] at hnt ⊢
    unfold createFailed at hnt ⊢
    cases hr : refund s p (satSub returned FEE) REFUND_MEMO
        (decide (satSub returned FEE > FEE)) y.now with
    | none =>
      rw [hr] at hnt
      exact absurd (by split <;> rfl) hnt
    | some v =>
      obtain ⟨fb, ab, s'⟩ := v
      have := refund_low hi hp.expiry (fun h => of_decide_eq_true h) hN hr
      split
      · simp only [Res.mapErr, createFromErrorToCreateError, Sys.commit]
        exact this
      · exact this
  cases r with
  | refunded amt => exact failed (hf.1 amt) rfl
  | refundFailed => exact failed hf.2.1 rfl
  | callError e => exact failed (hf.2.2 e) rfl
  | created canister =>
    left
    unfold finishCreate
    simp only [createCanisterFinish, Transaction.hash_eq_some]
    refine ⟨?_, rfl⟩
    split <;> (simp only [Res.mapErr, Sys.commit]; split <;> rfl)

/-- How many passes a message makes that adds some blocks. -/
def Spec.passesOf (m : Msg) (added : Nat) : Nat :=
  match m with
  | .callback _ _ => if added = 0 then 0 else 2
  | _ => if added = 0 then 0 else if added = 1 then 1 else 3

theorem sendWithdraw_low {y : Sys} (hi : SInv y) {frm : Account} {to : Principal}
    {sp : Option Account} {amount : Nat} {cat : Option Nat} {kind : CallKind}
    {sync : Option CallError} {N : Nat} (hN : Spec.Counts (Spec.HasExpired y.now y.ledger) N)
    (hnt : (sendWithdraw y (executeWithdraw y.ledger frm to sp amount cat y.now) kind to sync).2 ≠
      .trapped) :
    ∃ n, (sendWithdraw y (executeWithdraw y.ledger frm to sp amount cat y.now) kind to
        sync).1.ledger.blocks.length = y.ledger.blocks.length + n ∧
      Spec.low (sendWithdrawLog y frm to sp amount cat sync) =
        Spec.passes (if n = 0 then 0 else if n = 1 then 1 else 3) N := by
  unfold sendWithdrawLog
  rcases executeWithdrawLog_cases y.ledger frm to sp amount y.now cat with
    ⟨p, s1, t, h1, ha, hk, h2⟩ | ⟨h1, h2⟩
  · rw [h1] at hnt ⊢
    rw [h2]
    have hp : PendOk (prune y.now s1) p := by
      obtain ⟨_, _, ⟨old, rfl, hex⟩, s1', he, ha'⟩ := withdrawStart_ok (executeWithdraw_eq h1)
      rw [he]
      exact pendOk_start hi.ledger hex ha'
    have hi0 := hi.ledger.append ha
    have hlen : (prune y.now s1).blocks.length = y.ledger.blocks.length + 1 := by
      rw [(prune_spec hi0.queue).blocks, ha.blocks, List.length_append, List.length_singleton]
    obtain ⟨p1, hN1⟩ := pass hi0.queue (Counts.congr hN (fun k => by
      unfold Spec.HasExpired
      rw [ha.expired_iff, hk]
      simp))
    unfold sendWithdraw at hnt ⊢
    cases sync with
    | none => exact ⟨1, hlen, by simp [withdrawFinishLog, p1, Spec.passes]⟩
    | some code =>
      simp only at hnt ⊢
      rw [low_append, p1]
      rcases finishWithdraw_low hi0.prune hp hN1 hnt with ⟨h3, h4⟩ | ⟨h3, h4⟩
      · exact ⟨1, by rw [h3, hlen], by rw [h4]; simp [Spec.passes]⟩
      · rw [hlen] at h3
        refine ⟨_, (Nat.add_sub_cancel' (by omega : y.ledger.blocks.length ≤ _)).symm, ?_⟩
        rw [if_neg (by omega), if_neg (by omega), h4]
        rfl
  · refine ⟨0, ?_, ?_⟩
    · unfold sendWithdraw
      cases he : executeWithdraw y.ledger frm to sp amount cat y.now with
      | ok p s => exact absurd he (h1 p s)
      | trap => rfl
      | err e s =>
        obtain rfl := executeWithdraw_err he
        simp only
        split
        · simp only [Res.mapErr]
          split <;> rfl
        · rfl
    · rw [h2]
      cases he : executeWithdraw y.ledger frm to sp amount cat y.now with
      | ok p s => exact absurd he (h1 p s)
      | err e s => rfl
      | trap => rfl

theorem sendCreate_low {y : Sys} (hi : SInv y) {frm : Account} {caller : Principal}
    {args : Option CmcArgs} {sp : Option Account} {amount : Nat} {cat : Option Nat} {kind : CallKind}
    {sync : Option CallError} {N : Nat} (hN : Spec.Counts (Spec.HasExpired y.now y.ledger) N)
    (hnt : (sendCreate y (executeCreateCanister y.ledger frm sp amount cat y.now) kind caller args sync).2 ≠
      .trapped) :
    ∃ n, (sendCreate y (executeCreateCanister y.ledger frm sp amount cat y.now) kind caller args
        sync).1.ledger.blocks.length = y.ledger.blocks.length + n ∧
      Spec.low (sendCreateLog y frm sp amount cat sync) =
        Spec.passes (if n = 0 then 0 else if n = 1 then 1 else 3) N := by
  unfold sendCreateLog
  rcases executeCreateLog_cases y.ledger frm sp amount y.now cat with
    ⟨p, s1, t, h1, ha, hk, h2⟩ | ⟨h1, h2⟩
  · rw [h1] at hnt ⊢
    rw [h2]
    have hp : PendOk (prune y.now s1) p := by
      obtain ⟨⟨old, rfl, hex⟩, s1', he, ha'⟩ :=
        createCanisterStart_ok (executeCreateCanister_eq h1)
      rw [he]
      exact pendOk_start hi.ledger hex ha'
    have hi0 := hi.ledger.append ha
    have hlen : (prune y.now s1).blocks.length = y.ledger.blocks.length + 1 := by
      rw [(prune_spec hi0.queue).blocks, ha.blocks, List.length_append, List.length_singleton]
    obtain ⟨p1, hN1⟩ := pass hi0.queue (Counts.congr hN (fun k => by
      unfold Spec.HasExpired
      rw [ha.expired_iff, hk]
      simp))
    unfold sendCreate at hnt ⊢
    cases sync with
    | none => exact ⟨1, hlen, by simp [p1, Spec.passes]⟩
    | some code =>
      simp only at hnt ⊢
      rw [low_append, p1]
      rcases finishCreate_low hi0.prune hp hN1 hnt with ⟨h3, h4⟩ | ⟨h3, h4⟩
      · exact ⟨1, by rw [h3, hlen], by rw [h4]; simp [Spec.passes]⟩
      · rw [hlen] at h3
        refine ⟨_, (Nat.add_sub_cancel' (by omega : y.ledger.blocks.length ≤ _)).symm, ?_⟩
        rw [if_neg (by omega), if_neg (by omega), h4]
        rfl
  · refine ⟨0, ?_, ?_⟩
    · unfold sendCreate
      cases he : executeCreateCanister y.ledger frm sp amount cat y.now with
      | ok p s => exact absurd he (h1 p s)
      | trap => rfl
      | err e s =>
        obtain rfl := executeCreateCanister_err he
        simp only
        split
        · simp only [Res.mapErr]
          split <;> rfl
        · rfl
    · rw [h2]
      cases he : executeCreateCanister y.ledger frm sp amount cat y.now with
      | ok p s => exact absurd he (h1 p s)
      | err e s => rfl
      | trap => rfl

/-- What every message reports about pruned approvals. -/
theorem log_low {y : Sys} (hi : SInv y) {m : Msg} (hnt : (y.exec m).2 ≠ .trapped) :
    ∃ n N, (y.exec m).1.ledger.blocks.length = y.ledger.blocks.length + n ∧
      Spec.Counts (fun k : ApprovalKey =>
        (∀ r, Spec.approveRequest m = some r → k ≠ (r.frm.key, r.spender.key)) ∧
        Spec.HasExpired y.now y.ledger k) N ∧
      Spec.low (y.log m) = Spec.passes (Spec.passesOf m n) N := by
  unfold Sys.log
  rw [if_neg hnt]
  have hq := hi.ledger.queue
  have hN0 := expired_counts (now := y.now) hq
  have hN1 : Spec.approveRequest m = none → Spec.Counts (fun k : ApprovalKey =>
        (∀ r, Spec.approveRequest m = some r → k ≠ (r.frm.key, r.spender.key)) ∧
        Spec.HasExpired y.now y.ledger k) _ := fun hm => Counts.congr hN0 (fun k => by simp [hm])
  have one : ∀ {s1 : State} {t : Transaction} {pre l : List LogMsg},
      Appended y.now y.ledger s1 t → (y.exec m).1.ledger = prune y.now s1 →
      Spec.approveKey t = (Spec.approveRequest m).map (fun r => (r.frm.key, r.spender.key)) →
      l = pre ++ pruneLog y.now s1 → (∀ x ∈ pre, x.priority = .p0) → (∀ i ans, m ≠ .callback i ans) →
      ∃ n N, (y.exec m).1.ledger.blocks.length = y.ledger.blocks.length + n ∧
      Spec.Counts (fun k : ApprovalKey =>
        (∀ r, Spec.approveRequest m = some r → k ≠ (r.frm.key, r.spender.key)) ∧
        Spec.HasExpired y.now y.ledger k) N ∧
      Spec.low l = Spec.passes (Spec.passesOf m n) N := by
    intro s1 t pre l ha hs hk hl hpre hm
    have hq1 := (hi.ledger.append ha).queue
    have hN := expired_counts (now := y.now) hq1
    refine ⟨1, _, ?_, Counts.congr hN (fun k => ?_), ?_⟩
    · rw [hs, (prune_spec hq1).blocks, ha.blocks, List.length_append, List.length_singleton]
    · unfold Spec.HasExpired
      rw [ha.expired_iff, hk]
      cases Spec.approveRequest m with
      | none => simp
      | some r => simp [eq_comm]
    · rw [hl, low_append, low_nil hpre, (pass hq1 hN).1]
      have : Spec.passesOf m 1 = 1 := by
        cases m with
        | callback i ans => exact absurd rfl (hm i ans)
        | _ => rfl
      rw [this]
      simp [Spec.passes]
  have zero : ∀ {l : List LogMsg}, (y.exec m).1.ledger = y.ledger → l = [] →
      ∃ n N, (y.exec m).1.ledger.blocks.length = y.ledger.blocks.length + n ∧
      Spec.Counts (fun k : ApprovalKey =>
        (∀ r, Spec.approveRequest m = some r → k ≠ (r.frm.key, r.spender.key)) ∧
        Spec.HasExpired y.now y.ledger k) N ∧
      Spec.low l = Spec.passes (Spec.passesOf m n) N := by
    intro l hs hl
    obtain ⟨N, hN⟩ := Counts.filter hN0
      (fun k => ∀ r, Spec.approveRequest m = some r → k ≠ (r.frm.key, r.spender.key))
    refine ⟨0, N, by rw [hs]; rfl, hN, ?_⟩
    have : Spec.passesOf m 0 = 0 := by cases m <;> rfl
    rw [hl, this]
    rfl
  cases m with
  | deposit caller cycles arg =>
    simp only [Sys.written]
    rcases depositLog_cases y.ledger arg cycles.val y.now with ⟨r, s1, t, h1, ha, hk, h2⟩ | h1
    · exact one (pre := []) ha (by simp only [Sys.exec, h1]) hk h2
        (fun x hx => nomatch hx) (fun _ _ => (nomatch ·))
    · simp only [Sys.exec, h1] at hnt
      exact absurd rfl hnt
  | transfer caller args =>
    simp only [Sys.written]
    rcases executeTransferLog_cases y.ledger ⟨caller, args.fromSubaccount⟩ args.to none args.amount
      args.fee args.memo (opt64 args.createdAtTime) y.now with ⟨r, s1, t, h1, ha, hk, h2⟩ | ⟨h1, h2⟩
    · exact one (pre := []) ha (by
        simp only [Sys.exec, icrc1Transfer, h1]; rfl) hk h2
        (fun x hx => nomatch hx) (fun _ _ => (nomatch ·))
    · refine zero ?_ h2
      simp only [Sys.exec, icrc1Transfer]
      cases he : executeTransfer y.ledger ⟨caller, args.fromSubaccount⟩ args.to none
          args.amount args.fee args.memo (opt64 args.createdAtTime) y.now with
      | ok a s => exact absurd he (h1 a s)
      | trap => rfl
      | err e s =>
        obtain rfl := executeTransfer_err he
        simp only [Res.mapErr]
        split <;> rfl
  | transferFrom caller args =>
    simp only [Sys.written]
    rcases executeTransferLog_cases y.ledger args.frm args.to (some ⟨caller, args.spenderSubaccount⟩)
      args.amount args.fee args.memo (opt64 args.createdAtTime) y.now with
      ⟨r, s1, t, h1, ha, hk, h2⟩ | ⟨h1, h2⟩
    · exact one (pre := []) ha (by
        simp only [Sys.exec, icrc2TransferFrom, h1]; rfl) hk h2
        (fun x hx => nomatch hx) (fun _ _ => (nomatch ·))
    · refine zero ?_ h2
      simp only [Sys.exec, icrc2TransferFrom]
      cases he : executeTransfer y.ledger args.frm args.to (some ⟨caller, args.spenderSubaccount⟩)
          args.amount args.fee args.memo (opt64 args.createdAtTime) y.now with
      | ok a s => exact absurd he (h1 a s)
      | trap => rfl
      | err e s =>
        obtain rfl := executeTransfer_err he
        rfl
  | approve caller args =>
    simp only [Sys.written]
    rcases icrc2ApproveLog_cases y.ledger caller args y.now with ⟨i, s1, h1, ha, h2⟩ | ⟨h1, h2⟩
    · refine one ha (by simp only [Sys.exec, h1]; rfl) rfl h2 ?_ (fun _ _ => (nomatch ·))
      intro x hx
      unfold recordApprovalLog at hx
      split at hx
      · split at hx
        · rw [List.mem_singleton.1 hx]; rfl
        · cases hx
      · cases hx
    · refine zero ?_ h2
      simp only [Sys.exec]
      cases he : icrc2Approve y.ledger caller args y.now with
      | ok a s => exact absurd he (h1 a s)
      | trap => rfl
      | err e s =>
        obtain rfl := icrc2Approve_err he
        rfl
  | withdraw caller args sync =>
    obtain ⟨n, h1, h2⟩ := sendWithdraw_low hi hN0 hnt
    exact ⟨n, _, h1, hN1 rfl, h2⟩
  | withdrawFrom caller args sync =>
    obtain ⟨n, h1, h2⟩ := sendWithdraw_low hi hN0 hnt
    exact ⟨n, _, h1, hN1 rfl, h2⟩
  | createCanister caller args sync =>
    obtain ⟨n, h1, h2⟩ := sendCreate_low hi hN0 hnt
    exact ⟨n, _, h1, hN1 rfl, h2⟩
  | createCanisterFrom caller args sync =>
    obtain ⟨n, h1, h2⟩ := sendCreate_low hi hN0 hnt
    exact ⟨n, _, h1, hN1 rfl, h2⟩
  | callback i answer =>
    have fin : ∀ {a b : Nat} {l : List LogMsg}, (a = b ∧ Spec.low l = []) ∨
        (b < a ∧ Spec.low l = Spec.passes 2
          (y.ledger.expirationQueue.entries.filter (fun x => decide (x.1.1 ≤ y.now))).length) →
        ∃ n N, a = b + n ∧ Spec.Counts (fun k : ApprovalKey =>
          (∀ r, Spec.approveRequest (.callback i answer) = some r → k ≠ (r.frm.key, r.spender.key)) ∧
          Spec.HasExpired y.now y.ledger k) N ∧
          Spec.low l = Spec.passes (Spec.passesOf (.callback i answer) n) N := by
      rintro a b l (⟨rfl, h⟩ | ⟨h1, h⟩)
      · exact ⟨0, _, rfl, hN1 rfl, h⟩
      · obtain ⟨n, rfl⟩ := Nat.exists_eq_add_of_lt h1
        exact ⟨n + 1, _, rfl, hN1 rfl, h⟩
    simp only [Sys.written]
    simp only [Sys.exec] at hnt ⊢
    cases hp : y.pending[i]? with
    | none => exact fin (Or.inl ⟨rfl, rfl⟩)
    | some p =>
      have hpo := hi.pending p (List.mem_of_getElem? hp)
      simp only [hp] at hnt ⊢
      split
      · rename_i r hk
        simp only [hk] at hnt ⊢
        exact fin (finishWithdraw_low (y := { y with pending := y.pending.eraseIdx i, cycles := y.cycles + (if r.isSome then (p.call.cycles : Int) else 0) }) hi.ledger hpo hN0 hnt)
      · rename_i r hk
        simp only [hk] at hnt ⊢
        exact fin (finishWithdraw_low (y := { y with pending := y.pending.eraseIdx i, cycles := y.cycles + (if r.isSome then (p.call.cycles : Int) else 0) }) hi.ledger hpo hN0 hnt)
      · rename_i r refund hk
        simp only [hk] at hnt ⊢
        exact fin (finishCreate_low (y := { y with pending := y.pending.eraseIdx i, cycles := y.cycles + refund }) hi.ledger hpo hN0 hnt)
      · rename_i r refund hk
        simp only [hk] at hnt ⊢
        exact fin (finishCreate_low (y := { y with pending := y.pending.eraseIdx i, cycles := y.cycles + refund }) hi.ledger hpo hN0 hnt)
      · refine fin (Or.inl ⟨?_, ?_⟩) <;> first | rfl | (split <;> first | rfl | simp_all)
  | lostCallback i =>
    refine zero ?_ rfl
    simp only [Sys.exec]
  | upgrade arg =>
    refine ⟨0, _, ?_, hN1 rfl, rfl⟩
    simp only [Sys.exec]
    cases hp : postUpgrade y.ledger arg with
    | none => rfl
    | some s =>
      simp only
      rw [(hi.ledger.postUpgrade hp).1]
      rfl

end CyclesLedger
