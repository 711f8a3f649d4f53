import Verif.Proof.LogExact
import Verif.Proof.Dedup
import Verif.Proof.Toy
import Verif.Props.Accounting
/-!
# What the ledger writes to its log

C85.
-/
namespace CyclesLedger

/-- The last `n` elements of a list. -/
def Spec.lastN {α : Type} (n : Nat) (l : List α) : List α := l.drop (l.length - n)

/-- Everything that a list of events logs, with the time of the message. -/
def Spec.logged [Crypto] (y : Sys) : List Event → List (Nat × LogMsg)
  | [] => []
  | e :: es => ((y.tick e.dt).log e.msg).map (fun x => ((y.tick e.dt).now, x)) ++
      Spec.logged (y.step e).1 es

/-- **C85**: no false alarm.  As long as no two transactions of the log have the same hash, the only
high-priority message a request or callback can leave in the log is the one about an approval of
nothing, and it does so only if it is an accepted `icrc2_approve` with amount zero for which nothing
was stored. -/
theorem C85_alarms [Crypto] {y : Sys} (h : Reachable y) {m : Msg}
    (hn : ¬Spec.Collision ((y.exec m).1.ledger.blocks.map Block.transaction)) {x : LogMsg}
    (hx : x ∈ y.log m) (hp : x.priority = .p0) :
    x = .zeroApproval ∧ Spec.ZeroApproved y m := by
  rcases log_mem h.inv hx with h1 | ⟨s1, hi1, ⟨suf, hs⟩, hx1⟩
  · exact h1
  · exfalso
    rw [pruneLog_eq hi1 (fun hc => hn (hc.mono (by
      intro t ht
      rw [hs, List.map_append]
      exact List.mem_append_left _ ht)))] at hx1
    unfold sweepReport at hx1
    split at hx1
    · cases hx1
    · rw [List.mem_singleton.1 hx1] at hp
      cases hp

/-- **C85**: the message about an approval of nothing is written whenever there is cause. -/
theorem C85_zero_approval [Crypto] {y : Sys} {m : Msg} (hz : Spec.ZeroApproved y m) :
    .zeroApproval ∈ y.log m := by
  obtain ⟨r, i, hr, h0, hs, hi⟩ := hz
  cases m with
  | approve caller args =>
    simp only [Spec.approveRequest, Option.some.injEq] at hr
    subst hr
    have hnt : (y.exec (.approve caller args)).2 ≠ .trapped := by
      intro h; rw [h] at hi; cases hi
    unfold Sys.log
    rw [if_neg hnt]
    simp only [Sys.written]
    rcases icrc2ApproveLog_cases y.ledger caller args y.now with ⟨i, s1, h1, ha, h2⟩ | ⟨h1, _⟩
    · rw [h2]
      refine List.mem_append_left _ ?_
      have hg : y.ledger.approvals.get ((⟨caller, args.fromSubaccount⟩ : Account).key,
        args.spender.key) = none := hs
      have h0' : args.amount = 0 := h0
      unfold recordApprovalLog
      rw [hg, h0']
      simp
    · exfalso
      simp only [Sys.exec] at hi
      rcases commit_cases y (icrc2Approve y.ledger caller args y.now) .approve with
          ⟨_, h⟩ | ⟨a, s', hr, h⟩ | ⟨e, s', hr, h⟩
      · rw [h] at hi; cases hi
      · exact h1 _ _ hr
      · rw [h] at hi; cases hi
  | _ => cases hr

/-- **C85**: the report about pruned approvals.  A request that succeeds reports, in at most one
low-priority message, exactly the number of approvals that had expired before it and are gone
after it (the one that the request itself sets not counted). -/
theorem C85_pruned [Crypto] {y : Sys} (h : Reachable y) {m : Msg}
    (hm : ∀ i ans, m ≠ .callback i ans) (hacc : Spec.Accepted (y.exec m).2) :
    ∃ n, (y.log m).filter (fun x => x.priority = .p1) = Spec.report n ∧ n ≤ 100 ∧
      Spec.Counts (fun k : ApprovalKey =>
        (∀ r, Spec.approveRequest m = some r → k ≠ (r.frm.key, r.spender.key)) ∧
        (∃ a e, y.ledger.approvals.get k = some (a, e) ∧ 0 < e ∧ e ≤ y.now) ∧
        (y.exec m).1.ledger.approvals.get k = none) n := by
  obtain ⟨s1, t, pre, ha, hs, hk, hl, hpre⟩ := log_accepted hm hacc
  have hq := (h.inv.ledger.append ha).queue
  obtain ⟨hle, l, hnd, hmem, hlen⟩ := pruneApprovalsCount_counts (now := y.now) hq
  refine ⟨_, ?_, hle, l, hnd, ?_, hlen⟩
  · rw [hl, List.filter_append, pruneLog_p1 hq]
    rw [List.filter_eq_nil_iff.2]
    · rfl
    · intro x hx
      rw [hpre x hx]
      decide
  · intro k
    rw [hmem, ha.swept, hs, hk]
    refine and_congr_left' ?_
    cases Spec.approveRequest m with
    | none => simp
    | some r => simp [eq_comm]

/-- **C85**: every report, exactly.  Whatever a message does short of trapping, its low-priority
messages report one pass over the expired approvals if it adds one block, two if it is an answer that
makes the ledger refund, three if the call cannot be sent and the ledger refunds at once, and none if
it adds no block; a pass removes a hundred, or all if there are fewer.  (The approval that the request
itself sets is not counted.) -/
theorem C85_passes [Crypto] {y : Sys} (h : Reachable y) {m : Msg}
    (hnt : (y.exec m).2 ≠ .trapped) :
    ∃ n N, (y.exec m).1.ledger.blocks.length = y.ledger.blocks.length + n ∧
      Spec.Counts (fun k : ApprovalKey =>
        (∀ r, Spec.approveRequest m = some r → k ≠ (r.frm.key, r.spender.key)) ∧
        Spec.HasExpired y.now y.ledger k) N ∧
      Spec.low (y.log m) = Spec.passes (Spec.passesOf m n) N :=
  log_low h.inv hnt

/-- **C85**: no message reports zero approvals, or more than a hundred. -/
theorem C85_bound [Crypto] {y : Sys} (h : Reachable y) {m : Msg} {n : Nat}
    (hx : .prunedApprovals n ∈ y.log m) : 0 < n ∧ n ≤ 100 := by
  rcases log_mem h.inv hx with ⟨h1, _⟩ | ⟨s1, hi1, _, hx1⟩
  · cases h1
  · have hx2 : LogMsg.prunedApprovals n ∈
        (pruneLog y.now s1).filter (fun x => x.priority = .p1) :=
      List.mem_filter.2 ⟨hx1, decide_eq_true rfl⟩
    rw [pruneLog_p1 hi1.queue] at hx2
    have := (pruneApprovalsCount_counts (now := y.now) hi1.queue).1
    unfold sweepReport at hx2
    split at hx2
    · cases hx2
    · have := List.mem_singleton.1 hx2
      simp only [LogMsg.prunedApprovals.injEq] at this
      omega

/-- **C85**: a request that traps leaves nothing in the log. -/
theorem C85_trap [Crypto] {y : Sys} {m : Msg} (ht : (y.exec m).2 = .trapped) : y.log m = [] := by
  unfold Sys.log
  rw [if_pos ht]

/-! ## The buffers -/

theorem bufferAppend_lastN (l : List (Nat × LogMsg)) (x : Nat × LogMsg) :
    bufferAppend (Spec.lastN LOG_CAPACITY l) x = Spec.lastN LOG_CAPACITY (l ++ [x]) := by
  have hc : 0 < LOG_CAPACITY := by decide
  unfold bufferAppend Spec.lastN
  rw [List.drop_drop, List.length_drop, List.length_append, List.length_singleton]
  generalize LOG_CAPACITY = c at *
  rw [List.drop_append_of_le_length (by omega)]
  congr 2
  omega

theorem LogBuffers.add_all (b : LogBuffers) (now : Nat) (l : List LogMsg)
    (l0 l1 : List (Nat × LogMsg)) (h0 : b.p0 = Spec.lastN LOG_CAPACITY l0)
    (h1 : b.p1 = Spec.lastN LOG_CAPACITY l1) :
    (l.foldl (fun b x => b.add now x) b).p0 = Spec.lastN LOG_CAPACITY (l0 ++
      (l.map (fun x => (now, x))).filter (fun e => e.2.priority = .p0)) ∧
    (l.foldl (fun b x => b.add now x) b).p1 = Spec.lastN LOG_CAPACITY (l1 ++
      (l.map (fun x => (now, x))).filter (fun e => e.2.priority = .p1)) := by
  induction l generalizing b l0 l1 with
  | nil => simpa using ⟨h0, h1⟩
  | cons x l ih =>
    simp only [List.foldl_cons, List.map_cons]
    cases hp : x.priority with
    | p0 =>
      have := ih (b.add now x) (l0 ++ [(now, x)]) l1
        (by unfold LogBuffers.add; rw [hp]; simp only; rw [h0, bufferAppend_lastN])
        (by unfold LogBuffers.add; rw [hp]; exact h1)
      rw [this.1, this.2, List.filter_cons_of_pos (by simp [hp]),
        List.filter_cons_of_neg (by simp [hp]), List.append_assoc]
      exact ⟨rfl, rfl⟩
    | p1 =>
      have := ih (b.add now x) l0 (l1 ++ [(now, x)])
        (by unfold LogBuffers.add; rw [hp]; exact h0)
        (by unfold LogBuffers.add; rw [hp]; simp only; rw [h1, bufferAppend_lastN])
      rw [this.1, this.2, List.filter_cons_of_neg (by simp [hp]),
        List.filter_cons_of_pos (by simp [hp]), List.append_assoc]
      exact ⟨rfl, rfl⟩

theorem runLog_general [Crypto] (y : Sys) (es : List Event) (b : LogBuffers)
    (l0 l1 : List (Nat × LogMsg)) (h0 : b.p0 = Spec.lastN LOG_CAPACITY l0)
    (h1 : b.p1 = Spec.lastN LOG_CAPACITY l1) (hu : ∀ e ∈ es, ∀ arg, e.msg ≠ .upgrade arg) :
    (y.runLog b es).p0 = Spec.lastN LOG_CAPACITY (l0 ++
      (Spec.logged y es).filter (fun e => e.2.priority = .p0)) ∧
    (y.runLog b es).p1 = Spec.lastN LOG_CAPACITY (l1 ++
      (Spec.logged y es).filter (fun e => e.2.priority = .p1)) := by
  induction es generalizing y b l0 l1 with
  | nil => simpa [Sys.runLog, Spec.logged] using ⟨h0, h1⟩
  | cons e es ih =>
    have hst : y.stepLog b e =
        ((y.tick e.dt).log e.msg).foldl (fun b x => b.add (y.tick e.dt).now x) b := by
      unfold Sys.stepLog
      split
      · rename_i arg hm
        exact absurd hm (hu e List.mem_cons_self arg)
      · rfl
    simp only [Sys.runLog, Spec.logged, hst, List.filter_append]
    have ha := LogBuffers.add_all b (y.tick e.dt).now ((y.tick e.dt).log e.msg) l0 l1 h0 h1
    have := ih (y.step e).1 _ _ _ ha.1 ha.2 (fun e' he' => hu e' (List.mem_cons_of_mem _ he'))
    rw [this.1, this.2, List.append_assoc, List.append_assoc]
    exact ⟨rfl, rfl⟩

/-- **C85**: the buffers.  After any events without an upgrade, starting from empty buffers, each
buffer holds the last thousand messages of its priority, in order, with the time of the message. -/
theorem C85_buffers [Crypto] (y : Sys) (es : List Event)
    (hu : ∀ e ∈ es, ∀ arg, e.msg ≠ .upgrade arg) :
    (y.runLog {} es).p0 =
      Spec.lastN 1000 ((Spec.logged y es).filter (fun e => e.2.priority = .p0)) ∧
    (y.runLog {} es).p1 =
      Spec.lastN 1000 ((Spec.logged y es).filter (fun e => e.2.priority = .p1)) :=
  runLog_general y es {} [] [] rfl rfl hu

/-- **C85**: an upgrade that succeeds empties the buffers, one that fails leaves them. -/
theorem C85_upgrade [Crypto] (y : Sys) (b : LogBuffers) (dt : Nat) (arg : PostUpgradeArg) :
    y.stepLog b ⟨dt, .upgrade arg⟩ =
      if (y.step ⟨dt, .upgrade arg⟩).2 = .trapped then b else {} := by
  have hst : y.stepLog b ⟨dt, .upgrade arg⟩ =
      if (postUpgrade (y.tick dt).ledger arg).isSome then {} else b := rfl
  rw [hst]
  cases hp : postUpgrade (y.tick dt).ledger arg with
  | none =>
    have h2 : (y.step ⟨dt, .upgrade arg⟩).2 = .trapped := by
      simp only [Sys.step, Sys.exec, hp]
    rw [if_pos h2]
    rfl
  | some s =>
    have h2 : (y.step ⟨dt, .upgrade arg⟩).2 ≠ .trapped := by
      simp only [Sys.step, Sys.exec, hp]
      exact fun h => nomatch h
    rw [if_neg h2]
    rfl

/-- The entries of the buffers, without looking at their order. -/
theorem runLog_mem [Crypto] {y : Sys} {es : List Event} {b : LogBuffers} {P : Nat × LogMsg → Prop}
    (hb0 : ∀ e ∈ b.p0, P e ∧ e.2.priority = .p0) (hb1 : ∀ e ∈ b.p1, P e ∧ e.2.priority = .p1)
    (hall : ∀ e ∈ Spec.logged y es, P e) :
    (∀ e ∈ (y.runLog b es).p0, P e ∧ e.2.priority = .p0) ∧
    ∀ e ∈ (y.runLog b es).p1, P e ∧ e.2.priority = .p1 := by
  have fold : ∀ (now : Nat) (l : List LogMsg) (b : LogBuffers),
      (∀ e ∈ b.p0, P e ∧ e.2.priority = .p0) → (∀ e ∈ b.p1, P e ∧ e.2.priority = .p1) →
      (∀ x ∈ l, P (now, x)) →
      (∀ e ∈ (l.foldl (fun b x => b.add now x) b).p0, P e ∧ e.2.priority = .p0) ∧
      ∀ e ∈ (l.foldl (fun b x => b.add now x) b).p1, P e ∧ e.2.priority = .p1 := by
    intro now l
    induction l with
    | nil => intro b h0 h1 _; exact ⟨h0, h1⟩
    | cons x l ih =>
      intro b h0 h1 hl
      refine ih (b.add now x) ?_ ?_ (fun z hz => hl z (List.mem_cons_of_mem _ hz))
      · intro e he
        unfold LogBuffers.add at he
        split at he
        · rename_i hp
          rcases List.mem_append.1 he with he | he
          · exact h0 e (List.mem_of_mem_drop he)
          · rw [List.mem_singleton.1 he]
            exact ⟨hl x List.mem_cons_self, hp⟩
        · exact h0 e he
      · intro e he
        unfold LogBuffers.add at he
        split at he
        · exact h1 e he
        · rename_i hp
          rcases List.mem_append.1 he with he | he
          · exact h1 e (List.mem_of_mem_drop he)
          · rw [List.mem_singleton.1 he]
            exact ⟨hl x List.mem_cons_self, hp⟩
  induction es generalizing y b with
  | nil => exact ⟨hb0, hb1⟩
  | cons e es ih =>
    have hst : (∀ x ∈ (y.stepLog b e).p0, P x ∧ x.2.priority = .p0) ∧
        ∀ x ∈ (y.stepLog b e).p1, P x ∧ x.2.priority = .p1 := by
      unfold Sys.stepLog
      split
      · dsimp only
        split
        · exact ⟨(fun x hx => nomatch hx), (fun x hx => nomatch hx)⟩
        · exact ⟨hb0, hb1⟩
      · refine fold _ _ b hb0 hb1 ?_
        intro x hx
        exact hall _ (List.mem_append_left _ (List.mem_map_of_mem hx))
    exact ih hst.1 hst.2 (fun x hx => hall x (List.mem_append_right _ hx))

/-- **C85**: the page.  Whatever happens after installation, upgrades included, as long as no two
transactions of the log have the same hash, `/logs` lists nothing but messages about approvals of
nothing (high priority, first) and about one to a hundred pruned approvals (low priority). -/
theorem C85_page [Crypto] {config : Config} {now cycles : Nat} {y0 : Sys}
    (h0 : Sys.init config now cycles = some y0) (es : List Event)
    (hn : ¬Spec.Collision ((y0.run es).ledger.blocks.map Block.transaction)) :
    ∃ p0 p1, logsPage (y0.runLog {} es) = p0 ++ p1 ∧
      (∀ e ∈ p0, e.2 = (.p0, .zeroApproval) ∧ e.1 ≤ (y0.run es).now) ∧
      (∀ e ∈ p1, (∃ n, e.2 = (.p1, .prunedApprovals n) ∧ 0 < n ∧ n ≤ 100) ∧
        e.1 ≤ (y0.run es).now) := by
  have key : ∀ (es : List Event) (y : Sys), Reachable y →
      ¬Spec.Collision ((y.run es).ledger.blocks.map Block.transaction) →
      y.now ≤ (y.run es).now ∧ ∀ e ∈ Spec.logged y es,
        (e.2 = .zeroApproval ∨ ∃ n, e.2 = .prunedApprovals n ∧ 0 < n ∧ n ≤ 100) ∧
        e.1 ≤ (y.run es).now := by
    intro es
    induction es with
    | nil => intro y _ _; exact ⟨Nat.le_refl _, fun e he => nomatch he⟩
    | cons e es ih =>
      intro y hy hn
      have hy1 : Reachable (y.step e).1 := hy.step e
      have hyt : Reachable (y.tick e.dt) := hy.tick e.dt
      obtain ⟨hle, hih⟩ := ih (y.step e).1 hy1 hn
      have hnow : (y.step e).1.now = (y.tick e.dt).now := (exec_moved hyt.inv e.msg).now
      have htick : y.now ≤ (y.tick e.dt).now := by
        have := hy.inv.ledger.clock
        simp only [Sys.tick]
        omega
      have hn1 : ¬Spec.Collision ((y.step e).1.ledger.blocks.map Block.transaction) := by
        obtain ⟨l, hl⟩ := C30_append_only hy1 es
        intro hc
        refine hn (hc.mono ?_)
        intro t ht
        simp only [Sys.run]
        rw [← hl, List.map_append]
        exact List.mem_append_left _ ht
      rw [hnow] at hle
      refine ⟨Nat.le_trans htick hle, ?_⟩
      intro x hx
      rcases List.mem_append.1 hx with hx | hx
      · obtain ⟨z, hz, rfl⟩ := List.mem_map.1 hx
        refine ⟨?_, hle⟩
        cases hp : z.priority with
        | p0 => exact Or.inl (C85_alarms hyt hn1 hz hp).1
        | p1 =>
          right
          cases z with
          | prunedApprovals n => exact ⟨n, rfl, C85_bound hyt hz⟩
          | _ => cases hp
      · exact hih x hx
  have hy0 : Reachable y0 := ⟨config, now, cycles, y0, [], h0, rfl⟩
  obtain ⟨h1, h2⟩ := runLog_mem (y := y0) (es := es) (b := {}) (P := fun e =>
      (e.2 = .zeroApproval ∨ ∃ n, e.2 = .prunedApprovals n ∧ 0 < n ∧ n ≤ 100) ∧
        e.1 ≤ (y0.run es).now) (fun e he => nomatch he) (fun e he => nomatch he)
      (key es y0 hy0 hn).2
  refine ⟨_, _, rfl, ?_, ?_⟩
  · intro e he
    obtain ⟨⟨t, x⟩, hx, rfl⟩ := List.mem_map.1 he
    obtain ⟨⟨h3, h4⟩, h5⟩ := h1 _ hx
    refine ⟨?_, h4⟩
    rcases h3 with h3 | ⟨n, h3, _⟩
    · simp only at h3; rw [h3]
    · simp only at h3 h5; rw [h3] at h5; cases h5
  · intro e he
    obtain ⟨⟨t, x⟩, hx, rfl⟩ := List.mem_map.1 he
    obtain ⟨⟨h3, h4⟩, h5⟩ := h2 _ hx
    refine ⟨?_, h4⟩
    rcases h3 with h3 | ⟨n, h3, h6⟩
    · simp only at h3 h5; rw [h3] at h5; cases h5
    · simp only at h3; exact ⟨n, by rw [h3], h6⟩

open Toy in
/-- An answer that makes the ledger refund, with an expired approval around: the first of the two
passes reports it. -/
example : ∃ es m, Reachable (start.run es) ∧ ((start.run es).exec m).2 ≠ .trapped ∧
    ((start.run es).exec m).1.ledger.blocks.length = (start.run es).ledger.blocks.length + 1 ∧
    (start.run es).log m = [.prunedApprovals 1] :=
  ⟨[dep alice 1000000000000, appr alice carol 7 (some 1000000050), wdr alice 500000000,
      ⟨100, .lostCallback 7⟩], .callback 0 (.depositCycles (some .callPerformFailed)), run_reachable _, by decide +kernel, by decide +kernel, by decide +kernel⟩

open Toy in
/-- A history in which both messages are written: an approval of nothing, and two approvals that
expire and are pruned by a later deposit. -/
example : ∃ es, Reachable (start.run es) ∧
    ¬Spec.Collision ((start.run es).ledger.blocks.map Block.transaction) ∧
    logsPage (start.runLog {} es) =
      [(1000000002, .p0, .zeroApproval), (1000000105, .p1, .prunedApprovals 2)] :=
  ⟨[dep alice 1000000000000, appr alice bob 0, appr alice bob 5 (some 1000000050),
      appr alice carol 7 (some 1000000050), ⟨101, (dep alice 1000000000).msg⟩],
    run_reachable _, by decide +kernel, by decide +kernel⟩

end CyclesLedger
