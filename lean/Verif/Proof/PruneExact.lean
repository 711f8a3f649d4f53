import Verif.Proof.Prune
/-!
# Exactly what pruning removes: the oldest entries, up to the limit
-/
namespace CyclesLedger
variable [Crypto]

omit [Crypto] in
theorem SMap.erase_first {K V : Type} [TotOrd K] {m : SMap K V} {k : K} {v : V}
    (h : m.first? = some (k, v)) : m.entries = (k, v) :: (m.erase k).entries := by
  obtain ⟨l, hs⟩ := m
  cases l with
  | nil => simp [SMap.first?] at h
  | cons a t =>
    simp only [SMap.first?, List.head?_cons, Option.some.injEq] at h
    subst h
    simp [SMap.erase, SMap.eraseL]

omit [Crypto] in
/-- The approvals that pruning removes are the first of the queue. -/
theorem pruneApprovals_exact (now : Nat) (s : State) (n : Nat) :
    ∃ taken, s.expirationQueue.entries = taken ++ (pruneApprovals now s n).expirationQueue.entries ∧
      taken.length ≤ n ∧ (∀ x ∈ taken, x.1.1 ≤ now) ∧
      (taken.length < n → ∀ x ∈ (pruneApprovals now s n).expirationQueue.entries, now < x.1.1) ∧
      (∀ k, (pruneApprovals now s n).approvals.get k =
        if k ∈ taken.map (fun x => x.1.2) then none else s.approvals.get k) := by
  induction n generalizing s with
  | zero => exact ⟨[], rfl, Nat.le_refl _, (fun x h => nomatch h), (fun h => nomatch h), fun k => rfl⟩
  | succ n ih =>
    unfold pruneApprovals
    split
    · rename_i hf
      refine ⟨[], rfl, by simp, (fun x h => nomatch h), ?_, fun k => rfl⟩
      intro _ x hx
      have := SMap.first?_eq_none hf x.1
      rw [(SMap.get_eq_some_iff _ _ x.2).mpr hx] at this
      cases this
    · rename_i key u hf
      split
      · rename_i hgt
        refine ⟨[], rfl, by simp, (fun x h => nomatch h), ?_, fun k => rfl⟩
        intro _ x hx
        rcases SMap.first?_le hf ((SMap.get_eq_some_iff _ _ x.2).mpr hx) with h | h
        · rw [h]; exact hgt
        · have h : lexLt key x.1 = true := h
          simp only [lexLt, Bool.or_eq_true, Bool.and_eq_true, decide_eq_true_eq] at h
          rcases h with h | ⟨h, _⟩
          · have h : decide (key.1 < x.1.1) = true := h
            rw [decide_eq_true_eq] at h
            omega
          · omega
      · rename_i hle
        obtain ⟨taken, h1, h2, h3, h4, h5⟩ := ih { s with approvals := s.approvals.erase key.2
                                                          expirationQueue := s.expirationQueue.erase key }
        refine ⟨(key, u) :: taken, ?_, ?_, ?_, ?_, ?_⟩
        · rw [SMap.erase_first hf]
          simp only [List.cons_append, List.cons.injEq, true_and]
          exact h1
        · simp; exact h2
        · intro x hx
          rcases List.mem_cons.mp hx with rfl | hx
          · simp only; omega
          · exact h3 x hx
        · intro hl
          exact h4 (by simpa using hl)
        · intro k
          rw [h5 k]
          simp only [SMap.get_erase, List.map_cons, List.mem_cons]
          by_cases hk : k = key.2
          · subst hk; simp
          · rw [if_neg (Ne.symm hk)]; simp only [hk, false_or]

theorem pruneTransactions_same (now : Nat) (s : State) (n : Nat) :
    SameExceptTx s (pruneTransactions now s n) := by
  induction n generalizing s with
  | zero => exact .refl s
  | succ n ih =>
    unfold pruneTransactions
    split
    · exact .refl s
    · split
      · exact .refl s
      · simp only
        split
        · (refine SameExceptTx.trans ?_ (ih _); exact ⟨rfl, rfl, rfl, rfl, rfl, rfl, rfl⟩)
        · split <;> (refine SameExceptTx.trans ?_ (ih _); exact ⟨rfl, rfl, rfl, rfl, rfl, rfl, rfl⟩)

omit [Crypto] in
theorem isBefore_anti {t t' now : Nat} (h : t ≤ t') (hb : isBeforeTransactionWindow t now = false) :
    isBeforeTransactionWindow t' now = false := by
  unfold isBeforeTransactionWindow satAdd64 at *
  simp only [decide_eq_false_iff_not, Nat.not_lt] at *
  repeat' split
  all_goals (repeat' split at hb)
  all_goals omega

/-- The deduplication entries that pruning removes are the first, too. -/
theorem pruneTransactions_exact (now : Nat) (s : State) (n : Nat)
    (hb : ∀ t i, s.transactionTimestamps.get (t, i) = some () → ∃ b, s.blocks[i]? = some b) :
    ∃ taken, s.transactionTimestamps.entries =
        taken ++ (pruneTransactions now s n).transactionTimestamps.entries ∧
      taken.length ≤ n ∧ (∀ x ∈ taken, isBeforeTransactionWindow x.1.1 now = true) ∧
      (taken.length < n → ∀ x ∈ (pruneTransactions now s n).transactionTimestamps.entries,
        isBeforeTransactionWindow x.1.1 now = false) ∧
      (∀ h, (pruneTransactions now s n).transactionHashes.get h =
        if (∃ x ∈ taken, ∃ b, s.blocks[x.1.2]? = some b ∧ b.transaction.hash! = h) then none
        else s.transactionHashes.get h) := by
  induction n generalizing s with
  | zero =>
    refine ⟨[], rfl, Nat.le_refl _, (fun x h => nomatch h), (fun h => nomatch h), fun h => ?_⟩
    rw [if_neg]
    · rfl
    · rintro ⟨x, hx, _⟩; cases hx
  | succ n ih =>
    unfold pruneTransactions
    have nil : ∀ h : Hash, (if (∃ x ∈ ([] : List ((Nat × Nat) × Unit)), ∃ b, s.blocks[x.1.2]? = some b ∧
        b.transaction.hash! = h) then none else s.transactionHashes.get h) =
        s.transactionHashes.get h := by
      intro h
      rw [if_neg]
      rintro ⟨x, hx, _⟩; cases hx
    split
    · rename_i hf
      refine ⟨[], rfl, by simp, (fun x h => nomatch h), ?_, fun h => (nil h).symm⟩
      intro _ x hx
      have := SMap.first?_eq_none hf x.1
      rw [(SMap.get_eq_some_iff _ _ x.2).mpr hx] at this
      cases this
    · rename_i ts idx u hf
      split
      · rename_i hgt
        refine ⟨[], rfl, by simp, (fun x h => nomatch h), ?_, fun h => (nil h).symm⟩
        simp only [Bool.not_eq_true'] at hgt
        intro _ x hx
        refine isBefore_anti ?_ hgt
        rcases SMap.first?_le hf ((SMap.get_eq_some_iff _ _ x.2).mpr hx) with h | h
        · rw [h]; exact Nat.le_refl _
        · have h : lexLt (ts, idx) x.1 = true := h
          simp only [lexLt, Bool.or_eq_true, Bool.and_eq_true, decide_eq_true_eq] at h
          rcases h with h | ⟨h, _⟩
          · have h : decide (ts < x.1.1) = true := h
            rw [decide_eq_true_eq] at h
            omega
          · omega
      · rename_i hle
        simp only [Bool.not_eq_true', Bool.not_eq_false] at hle
        obtain ⟨b, hbi⟩ := hb ts idx (SMap.first?_eq_some hf)
        simp only [hbi, Transaction.hash_eq_some]
        obtain ⟨taken, h1, h2, h3, h4, h5⟩ := ih { s with
            transactionTimestamps := s.transactionTimestamps.erase (ts, idx)
            transactionHashes := s.transactionHashes.erase b.transaction.hash! } (by
          intro t i hg
          simp only [SMap.get_erase] at hg
          split at hg
          · cases hg
          · exact hb t i hg)
        refine ⟨((ts, idx), u) :: taken, ?_, ?_, ?_, ?_, ?_⟩
        · rw [SMap.erase_first hf]
          simp only [List.cons_append, List.cons.injEq, true_and]
          exact h1
        · simp; exact h2
        · intro x hx
          rcases List.mem_cons.mp hx with rfl | hx
          · exact hle
          · exact h3 x hx
        · intro hl
          exact h4 (by simpa using hl)
        · intro h
          rw [h5 h]
          simp only [SMap.get_erase]
          by_cases hk : b.transaction.hash! = h
          · rw [if_pos hk, ite_self, if_pos ⟨((ts, idx), u), List.mem_cons_self, b, hbi, hk⟩]
          · rw [if_neg hk]
            by_cases hex : ∃ x ∈ taken, ∃ b, s.blocks[x.1.2]? = some b ∧ b.transaction.hash! = h
            · rw [if_pos hex, if_pos]
              obtain ⟨x, hx, hxx⟩ := hex
              exact ⟨x, List.mem_cons_of_mem _ hx, hxx⟩
            · rw [if_neg hex, if_neg]
              rintro ⟨x, hx, b', hb', hh'⟩
              rcases List.mem_cons.mp hx with rfl | hx
              · rw [hbi] at hb'; cases hb'; exact hk hh'
              · exact hex ⟨x, hx, b', hb', hh'⟩

/-! ## Two rounds of pruning -/

omit [Crypto] in
/-- No approval is twice in the queue. -/
theorem QueueInv.keys_nodup {s : State} (hq : QueueInv s) :
    (s.expirationQueue.entries.map (fun x => x.1.2)).Nodup := by
  have hs := s.expirationQueue.sorted
  rw [List.nodup_iff_pairwise_ne, List.pairwise_map]
  refine List.Pairwise.imp_of_mem ?_ hs
  intro x y hx hy hlt heq
  have h1 := (hq x.1.1 x.1.2).mp ((SMap.get_eq_some_iff _ _ _).mpr hx)
  have h2 := (hq y.1.1 y.1.2).mp ((SMap.get_eq_some_iff _ _ _).mpr hy)
  obtain ⟨_, a, ha⟩ := h1
  obtain ⟨_, b, hb⟩ := h2
  rw [heq, hb] at ha
  simp only [Option.some.injEq, Prod.mk.injEq] at ha
  have : x.1 = y.1 := Prod.ext ha.2.symm heq
  rw [this] at hlt
  exact absurd hlt (by simp [TotOrd.irrefl])

/-- Whether an expired approval survives two rounds of pruning depends on two hundred others. -/
theorem prune_backlog {now : Nat} {s : State} (hq : QueueInv s) {k : ApprovalKey} {a e : Nat}
    (hk : (prune now (prune now s)).approvals.get k = some (a, e)) (h0 : 0 < e) (hle : e ≤ now) :
    ∃ ks : List ApprovalKey, ks.Nodup ∧ ks.length = 200 ∧ k ∉ ks ∧
      ∀ j ∈ ks, ∃ a' e', s.approvals.get j = some (a', e') ∧ 0 < e' ∧ e' ≤ now ∧
        TotOrd.lt (e', j) (e, k) = true := by
  have step : ∀ s : State, QueueInv s → QueueInv (prune now s) ∧
      ∃ taken, s.expirationQueue.entries = taken ++ (prune now s).expirationQueue.entries ∧
        (∀ x ∈ taken, x.1.1 ≤ now) ∧
        ((∃ x ∈ (prune now s).expirationQueue.entries, x.1.1 ≤ now) → taken.length = 100) := by
    intro s hq
    obtain ⟨taken, h1, h2, h3, h4, _⟩ := pruneApprovals_exact now s APPROVE_PRUNE_LIMIT
    have hsame := pruneTransactions_same now (pruneApprovals now s APPROVE_PRUNE_LIMIT) TRANSACTION_PRUNE_LIMIT
    have hqe : (prune now s).expirationQueue = (pruneApprovals now s APPROVE_PRUNE_LIMIT).expirationQueue :=
      hsame.queue
    have hae : (prune now s).approvals = (pruneApprovals now s APPROVE_PRUNE_LIMIT).approvals :=
      hsame.approvals
    refine ⟨?_, taken, by rw [hqe]; exact h1, h3, ?_⟩
    · intro e k
      rw [hqe, hae]
      exact (pruneApprovals_spec hq _).queue e k
    · rintro ⟨x, hx, hxn⟩
      rw [hqe] at hx
      rw [APPROVE_PRUNE_LIMIT_eq] at h2 h4 hx
      refine Classical.byContradiction fun hne => ?_
      have := h4 (by omega) x hx
      omega
  obtain ⟨hq1, t1, e1, le1, l1⟩ := step s hq
  obtain ⟨hq2, t2, e2, le2, l2⟩ := step _ hq1
  have hin : ((e, k), ()) ∈ (prune now (prune now s)).expirationQueue.entries :=
    (SMap.get_eq_some_iff _ _ _).mp ((hq2 e k).mpr ⟨h0, a, hk⟩)
  have hl2 := l2 ⟨_, hin, hle⟩
  have hl1 := l1 ⟨((e, k), ()), by rw [e2]; exact List.mem_append_right _ hin, hle⟩
  have hnd := hq.keys_nodup
  rw [e1, e2, ← List.append_assoc, List.map_append] at hnd
  obtain ⟨hn1, _, hn3⟩ := List.nodup_append.mp hnd
  refine ⟨(t1 ++ t2).map (fun x => x.1.2), hn1, by simp [hl1, hl2], ?_, ?_⟩
  · intro hmem
    exact hn3 k hmem k (List.mem_map.mpr ⟨_, hin, rfl⟩) rfl
  · intro j hj
    obtain ⟨x, hx, rfl⟩ := List.mem_map.mp hj
    have hxs : x ∈ s.expirationQueue.entries := by
      rw [e1, e2, ← List.append_assoc]; exact List.mem_append_left _ hx
    obtain ⟨hp, a', ha'⟩ := (hq x.1.1 x.1.2).mp ((SMap.get_eq_some_iff _ _ _).mpr hxs)
    refine ⟨a', x.1.1, ha', hp, ?_, ?_⟩
    · rcases List.mem_append.mp hx with h | h
      · exact le1 x h
      · exact le2 x h
    · have hs := s.expirationQueue.sorted
      rw [e1, e2, ← List.append_assoc] at hs
      exact (List.pairwise_append.mp hs).2.2 x hx _ hin

omit [Crypto] in
theorem length_le_of_subset {α : Type} [DecidableEq α] : ∀ {l m : List α}, l.Nodup → l ⊆ m →
    l.length ≤ m.length := by
  intro l
  induction l with
  | nil => intro m _ _; simp
  | cons a l ih =>
    intro m hn hs
    obtain ⟨ha, hn⟩ := List.nodup_cons.mp hn
    have hm : a ∈ m := hs (List.mem_cons_self ..)
    have hsub : l ⊆ m.erase a := by
      intro x hx
      have hne : x ≠ a := by rintro rfl; exact ha hx
      exact (List.mem_erase_of_ne hne).mpr (hs (List.mem_cons_of_mem _ hx))
    have h1 := ih hn hsub
    have h2 := List.length_erase_of_mem hm
    have h3 := List.length_pos_of_mem hm
    simp only [List.length_cons]
    omega

/-- An approval behind two hundred others survives two rounds of pruning. -/
theorem prune_keeps {now : Nat} {s : State} (hq : QueueInv s) {k : ApprovalKey} {a e : Nat}
    (hk : s.approvals.get k = some (a, e)) {ks : List ApprovalKey} (hn : ks.Nodup)
    (hl : 200 ≤ ks.length)
    (hb : ∀ j ∈ ks, ∃ a' e', s.approvals.get j = some (a', e') ∧ 0 < e' ∧
      TotOrd.lt (e', j) (e, k) = true) :
    (prune now (prune now s)).approvals.get k = some (a, e) := by
  have step : ∀ s : State, ∃ taken,
      s.expirationQueue.entries = taken ++ (prune now s).expirationQueue.entries ∧
        taken.length ≤ 100 ∧ ∀ k, (prune now s).approvals.get k =
          if k ∈ taken.map (fun x => x.1.2) then none else s.approvals.get k := by
    intro s
    obtain ⟨taken, h1, h2, _, _, h5⟩ := pruneApprovals_exact now s APPROVE_PRUNE_LIMIT
    have hsame := pruneTransactions_same now (pruneApprovals now s APPROVE_PRUNE_LIMIT) TRANSACTION_PRUNE_LIMIT
    have hqe : (prune now s).expirationQueue = (pruneApprovals now s APPROVE_PRUNE_LIMIT).expirationQueue :=
      hsame.queue
    have hae : (prune now s).approvals = (pruneApprovals now s APPROVE_PRUNE_LIMIT).approvals :=
      hsame.approvals
    refine ⟨taken, by rw [hqe]; exact h1, by rw [APPROVE_PRUNE_LIMIT_eq] at h2; exact h2, ?_⟩
    intro k
    rw [hae]; exact h5 k
  obtain ⟨t1, e1, l1, g1⟩ := step s
  obtain ⟨t2, e2, l2, g2⟩ := step (prune now s)
  have hent : s.expirationQueue.entries =
      (t1 ++ t2) ++ (prune now (prune now s)).expirationQueue.entries := by
    rw [e1, e2, List.append_assoc]
  have hnot : k ∉ (t1 ++ t2).map (fun x => x.1.2) := by
    intro hmem
    have hin : ((e, k), ()) ∈ t1 ++ t2 := by
      obtain ⟨x, hx, hxk⟩ := List.mem_map.mp hmem
      have hxs : x ∈ s.expirationQueue.entries := by
        rw [hent]; exact List.mem_append_left _ hx
      obtain ⟨_, a', ha'⟩ := (hq x.1.1 x.1.2).mp ((SMap.get_eq_some_iff _ _ _).mpr hxs)
      rw [hxk, hk] at ha'
      simp only [Option.some.injEq, Prod.mk.injEq] at ha'
      have : x = ((e, k), ()) := Prod.ext (Prod.ext ha'.2.symm hxk) rfl
      rw [← this]; exact hx
    have hsub : (k :: ks) ⊆ (t1 ++ t2).map (fun x => x.1.2) := by
      intro j hj
      rcases List.mem_cons.mp hj with rfl | hj
      · exact hmem
      obtain ⟨a', e', h1, h2, h3⟩ := hb j hj
      have hjs : ((e', j), ()) ∈ s.expirationQueue.entries :=
        (SMap.get_eq_some_iff _ _ _).mp ((hq e' j).mpr ⟨h2, a', h1⟩)
      rw [hent] at hjs
      rcases List.mem_append.mp hjs with h | h
      · exact List.mem_map.mpr ⟨_, h, rfl⟩
      · have hs := s.expirationQueue.sorted
        rw [hent] at hs
        have := (List.pairwise_append.mp hs).2.2 _ hin _ h
        rw [TotOrd.asymm h3] at this
        cases this
    have hkn : k ∉ ks := by
      intro h
      obtain ⟨a', e', h1, _, h3⟩ := hb k h
      rw [hk] at h1
      simp only [Option.some.injEq, Prod.mk.injEq] at h1
      rw [← h1.2, TotOrd.irrefl] at h3
      cases h3
    have := length_le_of_subset (List.nodup_cons.mpr ⟨hkn, hn⟩) hsub
    simp only [List.length_cons, List.length_map, List.length_append] at this
    omega
  rw [List.map_append, List.mem_append, not_or] at hnot
  rw [g2 k, if_neg hnot.2, g1 k, if_neg hnot.1, hk]

end CyclesLedger
