import Verif.Props.Dedup
/-!
# Pruning

C47.  `prune` is one pruning step, as every accepted request does at the end.
-/
namespace CyclesLedger

/-- The approval `k` is stored and has expired. -/
def Spec.Expired (s : State) (now : Nat) (k : ApprovalKey) : Prop :=
  ∃ a e, s.approvals.get k = some (a, e) ∧ 0 < e ∧ e ≤ now

theorem prune_approvals [Crypto] {now : Nat} {s : State} (hq : QueueInv s) :
    ∃ gone : List ApprovalKey, gone.Nodup ∧ gone.length ≤ 100 ∧
      (∀ k ∈ gone, Spec.Expired s now k) ∧
      (∀ k, (prune now s).approvals.get k =
        if k ∈ gone then none else s.approvals.get k) ∧
      (∀ k ∈ gone, ∀ a e, s.approvals.get k = some (a, e) →
        ∀ k' a' e', (prune now s).approvals.get k' = some (a', e') → 0 < e' → e ≤ e') ∧
      (∀ k, Spec.Expired (prune now s) now k → gone.length = 100) := by
  obtain ⟨taken, h1, h2, h3, h4, h5⟩ := pruneApprovals_exact now s APPROVE_PRUNE_LIMIT
  have hsame := pruneTransactions_same now (pruneApprovals now s APPROVE_PRUNE_LIMIT)
    TRANSACTION_PRUNE_LIMIT
  have hae : (prune now s).approvals =
      (pruneApprovals now s APPROVE_PRUNE_LIMIT).approvals := hsame.approvals
  have hq' := (pruneApprovals_spec (now := now) hq APPROVE_PRUNE_LIMIT).queue
  have hin : ∀ k a e, (prune now s).approvals.get k = some (a, e) → 0 < e →
      ((e, k), ()) ∈ (pruneApprovals now s APPROVE_PRUNE_LIMIT).expirationQueue.entries := by
    intro k a e hg h0
    rw [hae] at hg
    exact (SMap.get_eq_some_iff _ _ _).mp ((hq' e k).mpr ⟨h0, a, hg⟩)
  have hold : ∀ x ∈ taken, 0 < x.1.1 ∧ ∃ a, s.approvals.get x.1.2 = some (a, x.1.1) := by
    intro x hx
    exact (hq x.1.1 x.1.2).mp ((SMap.get_eq_some_iff _ _ _).mpr (by
      rw [h1]; exact List.mem_append_left _ hx))
  have hnd := hq.keys_nodup
  have hsorted := s.expirationQueue.sorted
  rw [h1] at hnd hsorted
  rw [List.map_append] at hnd
  rw [APPROVE_PRUNE_LIMIT_eq] at h2
  refine ⟨taken.map (fun x => x.1.2), (List.nodup_append.mp hnd).1, by simpa using h2, ?_, ?_, ?_, ?_⟩
  · intro k hk
    obtain ⟨x, hx, rfl⟩ := List.mem_map.mp hk
    obtain ⟨h0, a, ha⟩ := hold x hx
    exact ⟨a, x.1.1, ha, h0, h3 x hx⟩
  · intro k
    rw [hae]; exact h5 k
  · intro k hk a e hg k' a' e' hg' h0
    obtain ⟨x, hx, rfl⟩ := List.mem_map.mp hk
    obtain ⟨_, a2, ha2⟩ := hold x hx
    rw [hg] at ha2
    cases ha2
    have hlt := (List.pairwise_append.mp hsorted).2.2 x hx _ (hin k' a' e' hg' h0)
    have hlt : lexLt x.1 (e', k') = true := hlt
    simp only [lexLt, Bool.or_eq_true, Bool.and_eq_true, decide_eq_true_eq] at hlt
    rcases hlt with hlt | ⟨hlt, _⟩
    · have hlt : decide (x.1.1 < e') = true := hlt
      rw [decide_eq_true_eq] at hlt
      omega
    · omega
  · rintro k ⟨a, e, hg, h0, hle⟩
    rw [List.length_map]
    refine Classical.byContradiction fun hne => ?_
    have := h4 (by rw [APPROVE_PRUNE_LIMIT_eq]; omega) _ (hin k a e hg h0)
    simp only at this
    omega

theorem prune_transactions [Crypto] {now : Nat} {s : State} (hi : LInv now s)
    (hn : ¬Spec.Collision (s.blocks.map Block.transaction)) :
    ∃ gone : List (Nat × Nat), gone.Nodup ∧ gone.length ≤ 100000 ∧
      (∀ x ∈ gone, s.transactionTimestamps.get x = some () ∧
        x.1 + 86400000000000 + 60000000000 < now) ∧
      (∀ x, (prune now s).transactionTimestamps.get x =
        if x ∈ gone then none else s.transactionTimestamps.get x) ∧
      (∀ x ∈ gone, ∀ z, (prune now s).transactionTimestamps.get z = some () → x.1 ≤ z.1) ∧
      (∀ hash, (prune now s).transactionHashes.get hash =
        if ∃ x ∈ gone, ∃ b, s.blocks[x.2]? = some b ∧ b.transaction.hash! = hash then none
        else s.transactionHashes.get hash) ∧
      (∀ x, (prune now s).transactionTimestamps.get x = some () →
        x.1 + 86400000000000 + 60000000000 < now → gone.length = 100000) := by
  have hh := (hi.hashInv hn).1
  have hps := (pruneApprovals_spec (now := now) hi.queue APPROVE_PRUNE_LIMIT).same
  obtain ⟨taken, h1, h2, h3, h4, h5⟩ := pruneTransactions_exact now
    (pruneApprovals now s APPROVE_PRUNE_LIMIT) TRANSACTION_PRUNE_LIMIT (by
      intro t i hg
      rw [hps.timestamps] at hg
      obtain ⟨b, hb, _⟩ := hh.time t i hg
      rw [hps.blocks]
      exact ⟨b, hb⟩)
  rw [hps.timestamps] at h1
  rw [hps.blocks, hps.hashes] at h5
  have hsorted := s.transactionTimestamps.sorted
  have hget := fun x => SMap.get_eq_some_iff s.transactionTimestamps x ()
  have hget' := fun x => SMap.get_eq_some_iff (prune now s).transactionTimestamps x ()
  rw [h1] at hsorted
  simp only [h1] at hget
  have hpr : (pruneTransactions now (pruneApprovals now s APPROVE_PRUNE_LIMIT)
    TRANSACTION_PRUNE_LIMIT) = prune now s := rfl
  rw [hpr] at hsorted hget h4 h5
  rw [TRANSACTION_PRUNE_LIMIT_eq] at h2 h4
  have hnd : (taken.map (fun x => x.1)).Nodup := by
    rw [List.nodup_iff_pairwise_ne, List.pairwise_map]
    refine (List.pairwise_append.mp hsorted).1.imp ?_
    intro a b hlt heq
    rw [heq, TotOrd.irrefl] at hlt
    cases hlt
  have hmem : ∀ x, x ∈ taken.map (fun x => x.1) ↔ (x, ()) ∈ taken := by
    intro x
    rw [List.mem_map]
    exact ⟨fun ⟨z, hz, hzx⟩ => by rw [← hzx]; exact hz, fun hx => ⟨_, hx, rfl⟩⟩
  have hclk := hi.clock
  have hold : ∀ c, isBeforeTransactionWindow c now = true ↔ c + 86400000000000 + 60000000000 < now := by
    intro c
    constructor
    · intro hb
      refine Nat.lt_of_not_le fun hle => ?_
      rw [inWindow_not_before hle hclk] at hb; cases hb
    · intro hlt
      unfold isBeforeTransactionWindow satAdd64
      rw [TRANSACTION_WINDOW_eq, PERMITTED_DRIFT_eq, decide_eq_true_eq]
      repeat' split
      all_goals omega
  refine ⟨taken.map (fun x => x.1), hnd, by simpa using h2, ?_, ?_, ?_, ?_, ?_⟩
  · intro x hx
    have hx' := (hmem x).mp hx
    exact ⟨(hget x).mpr (List.mem_append_left _ hx'), (hold _).mp (h3 _ hx')⟩
  · intro x
    by_cases hx : x ∈ taken.map (fun x => x.1)
    · rw [if_pos hx]
      cases hg : (prune now s).transactionTimestamps.get x with
      | none => rfl
      | some u =>
        exfalso
        have := (List.pairwise_append.mp hsorted).2.2 _ ((hmem x).mp hx) _ ((hget' x).mp hg)
        rw [TotOrd.irrefl] at this
        cases this
    · rw [if_neg hx]
      cases hg : s.transactionTimestamps.get x with
      | none =>
        cases hg' : (prune now s).transactionTimestamps.get x with
        | none => rfl
        | some u =>
          have := (hget x).mpr (List.mem_append_right _ ((hget' x).mp hg'))
          rw [hg] at this; cases this
      | some u =>
        rcases List.mem_append.mp ((hget x).mp hg) with hm | hm
        · exact absurd ((hmem x).mpr hm) hx
        · exact (hget' x).mpr hm
  · intro x hx z hz
    have hlt := (List.pairwise_append.mp hsorted).2.2 _ ((hmem x).mp hx) _ ((hget' z).mp hz)
    have hlt : lexLt x z = true := hlt
    simp only [lexLt, Bool.or_eq_true, Bool.and_eq_true, decide_eq_true_eq] at hlt
    rcases hlt with hlt | ⟨hlt, _⟩
    · have hlt : decide (x.1 < z.1) = true := hlt
      rw [decide_eq_true_eq] at hlt
      omega
    · omega
  · intro hash
    rw [h5 hash]
    have : (∃ x ∈ taken, ∃ b, s.blocks[x.1.2]? = some b ∧ b.transaction.hash! = hash) ↔
        ∃ x ∈ taken.map (fun x => x.1), ∃ b, s.blocks[x.2]? = some b ∧
          b.transaction.hash! = hash := by
      simp only [List.mem_map]
      constructor
      · rintro ⟨x, hx, hb⟩; exact ⟨x.1, ⟨x, hx, rfl⟩, hb⟩
      · rintro ⟨_, ⟨x, hx, rfl⟩, hb⟩; exact ⟨x, hx, hb⟩
    by_cases hc : ∃ x ∈ taken, ∃ b, s.blocks[x.1.2]? = some b ∧ b.transaction.hash! = hash
    · rw [if_pos hc, if_pos (this.mp hc)]
    · rw [if_neg hc, if_neg (fun hcc => hc (this.mpr hcc))]
  · intro x hx hlt
    rw [List.length_map]
    refine Classical.byContradiction fun hne => ?_
    have := h4 (by omega) _ ((hget' x).mp hx)
    rw [(hold _).mpr hlt] at this
    cases this

/-- **C47**, approvals: one step removes at most 100, all of them expired, none later
than one that stays; if an expired one stays, there were more than 100. -/
theorem C47_approvals [Crypto] {y : Sys} (h : Reachable y) :
    ∃ gone : List ApprovalKey, gone.Nodup ∧ gone.length ≤ 100 ∧
      (∀ k ∈ gone, Spec.Expired y.ledger y.now k) ∧
      (∀ k, (prune y.now y.ledger).approvals.get k =
        if k ∈ gone then none else y.ledger.approvals.get k) ∧
      (∀ k ∈ gone, ∀ a e, y.ledger.approvals.get k = some (a, e) →
        ∀ k' a' e', (prune y.now y.ledger).approvals.get k' = some (a', e') → 0 < e' → e ≤ e') ∧
      (∀ k, Spec.Expired (prune y.now y.ledger) y.now k → gone.length = 100) :=
  prune_approvals h.inv.ledger.queue

/-- **C47**, deduplication data: one step removes at most 100000 entries, each more than
the window old, none newer than one that stays; exactly the hashes of their transactions
are forgotten; if such an entry stays, there were more than 100000. -/
theorem C47_transactions [Crypto] {y : Sys} (h : Reachable y)
    (hn : ¬Spec.Collision (y.ledger.blocks.map Block.transaction)) :
    ∃ gone : List (Nat × Nat), gone.Nodup ∧ gone.length ≤ 100000 ∧
      (∀ x ∈ gone, y.ledger.transactionTimestamps.get x = some () ∧
        x.1 + 86400000000000 + 60000000000 < y.now) ∧
      (∀ x, (prune y.now y.ledger).transactionTimestamps.get x =
        if x ∈ gone then none else y.ledger.transactionTimestamps.get x) ∧
      (∀ x ∈ gone, ∀ z, (prune y.now y.ledger).transactionTimestamps.get z = some () → x.1 ≤ z.1) ∧
      (∀ hash, (prune y.now y.ledger).transactionHashes.get hash =
        if ∃ x ∈ gone, ∃ b, y.ledger.blocks[x.2]? = some b ∧ b.transaction.hash! = hash then none
        else y.ledger.transactionHashes.get hash) ∧
      (∀ x, (prune y.now y.ledger).transactionTimestamps.get x = some () →
        x.1 + 86400000000000 + 60000000000 < y.now → gone.length = 100000) :=
  prune_transactions h.inv.ledger hn

/-- **C47**: a step changes nothing else. -/
theorem C47_nothing_else [Crypto] {y : Sys} (h : Reachable y) :
    (prune y.now y.ledger).blocks = y.ledger.blocks ∧
    (∀ a, icrc1BalanceOf (prune y.now y.ledger) a = icrc1BalanceOf y.ledger a) ∧
    icrc1TotalSupply (prune y.now y.ledger) = icrc1TotalSupply y.ledger ∧
    (∀ a b t, y.now ≤ t → Spec.spendable (prune y.now y.ledger) a b t =
      Spec.spendable y.ledger a b t) ∧
    (prune y.now y.ledger).certifiedData = y.ledger.certifiedData := by
  have hp := prune_spec (now := y.now) h.inv.ledger.queue
  refine ⟨hp.blocks, ?_, ?_, ?_, hp.cert⟩
  · intro a; unfold icrc1BalanceOf balanceOf; rw [hp.balances]
  · unfold icrc1TotalSupply; rw [hp.cache]
  · intro a b t ht
    obtain ⟨gone, _, _, h3, h4, _⟩ := C47_approvals h
    unfold Spec.spendable Spec.stored
    rw [h4]
    split
    · rename_i hg
      obtain ⟨x, e, hx, h0, hle⟩ := h3 _ hg
      rw [hx]
      simp only [Spec.live]
      rw [if_neg (by omega)]
    · rfl

open Toy in
/-- Long after an approval has expired and a transfer has left the window, both are still
there, and a step removes them. -/
example :
    let y := (start.run [dep alice 1000000000000, appr alice bob 5 (some 2000000000),
      xfer alice bob 7 (some 1000000000)]).tick 100000000000000
    Reachable y ∧ ¬Spec.Collision (y.ledger.blocks.map Block.transaction) ∧
    y.ledger.approvals.len = 1 ∧ (prune y.now y.ledger).approvals.len = 0 ∧
    y.ledger.transactionHashes.len = 1 ∧ (prune y.now y.ledger).transactionHashes.len = 0 :=
  ⟨(run_reachable _).tick _, by decide +kernel, by decide +kernel, by decide +kernel,
    by decide +kernel, by decide +kernel⟩

end CyclesLedger
