import Verif.Proof.Appended
/-!
# What pruning removes
-/
namespace CyclesLedger
variable [Crypto]

/-! ## Approvals -/

/-- `s'` is `s` less some approvals that have expired. -/
structure PrunedApprovals (now : Nat) (s s' : State) : Prop where
  same : SameExceptAllow s s'
  get : ∀ k, s'.approvals.get k = s.approvals.get k ∨
    (s'.approvals.get k = none ∧ ∃ a e, s.approvals.get k = some (a, e) ∧ 0 < e ∧ e ≤ now)
  queue : QueueInv s'

omit [Crypto] in
theorem pruneApprovals_spec {now : Nat} {s : State} (hq : QueueInv s) (n : Nat) :
    PrunedApprovals now s (pruneApprovals now s n) := by
  induction n generalizing s with
  | zero => exact ⟨.refl s, fun _ => Or.inl rfl, hq⟩
  | succ n ih =>
    unfold pruneApprovals
    split
    · exact ⟨.refl s, fun _ => Or.inl rfl, hq⟩
    · rename_i key u hf
      split
      · exact ⟨.refl s, fun _ => Or.inl rfl, hq⟩
      · rename_i hle
        obtain ⟨e, k0⟩ := key
        have hmem := SMap.first?_eq_some hf
        rw [hq] at hmem
        obtain ⟨he, a, ha⟩ := hmem
        have hq' : QueueInv { s with approvals := s.approvals.erase k0
                                     expirationQueue := s.expirationQueue.erase (e, k0) } := by
          intro e' k
          simp only [SMap.get_erase]
          by_cases hk : k0 = k
          · subst hk
            simp only [if_true]
            by_cases hee : e = e'
            · subst hee; simp
            · rw [if_neg (by simpa using hee), hq, ha]
              simp only [Option.some.injEq, Prod.mk.injEq]
              constructor
              · rintro ⟨_, _, _, h⟩; exact absurd h hee
              · rintro ⟨_, _, h⟩; cases h
          · rw [if_neg (by simp [hk]), if_neg hk]
            exact hq e' k
        have h := ih hq'
        refine ⟨⟨h.same.blocks, h.same.balances, h.same.hashes, h.same.timestamps, h.same.config,
          h.same.cache, h.same.cert⟩, ?_, h.queue⟩
        intro k
        by_cases hk : k0 = k
        · subst hk
          right
          refine ⟨?_, a, e, ha, he, by omega⟩
          rcases h.get k0 with h1 | ⟨h1, _⟩
          · rw [h1]; simp
          · exact h1
        · have hg : (s.approvals.erase k0).get k = s.approvals.get k := by
            rw [SMap.get_erase, if_neg hk]
          have := h.get k
          simp only [hg] at this
          exact this

/-! ## Transactions -/

/-- Everything but the two deduplication tables is the same. -/
structure SameExceptTx (s s' : State) : Prop where
  blocks : s'.blocks = s.blocks
  balances : s'.balances = s.balances
  approvals : s'.approvals = s.approvals
  queue : s'.expirationQueue = s.expirationQueue
  config : s'.config = s.config
  cache : s'.cache = s.cache
  cert : s'.certifiedData = s.certifiedData

omit [Crypto] in
theorem SameExceptTx.refl (s : State) : SameExceptTx s s := ⟨rfl, rfl, rfl, rfl, rfl, rfl, rfl⟩

omit [Crypto] in
theorem SameExceptTx.trans {s s1 s2 : State} (h1 : SameExceptTx s s1) (h2 : SameExceptTx s1 s2) :
    SameExceptTx s s2 :=
  ⟨h2.blocks.trans h1.blocks, h2.balances.trans h1.balances,
    h2.approvals.trans h1.approvals, h2.queue.trans h1.queue,
    h2.config.trans h1.config, h2.cache.trans h1.cache, h2.cert.trans h1.cert⟩

/-- The deduplication tables describe exactly the blocks with a `created_at_time`
that can still be in the transaction window. -/
structure HashInv (now : Nat) (s : State) : Prop where
  hash : ∀ h i c, s.transactionHashes.get h = some (i, c) →
    ∃ b t, s.blocks[i]? = some b ∧ b.transaction.hash! = h ∧
      b.transaction.createdAtTime = some t ∧ s.transactionTimestamps.get (t, i) = some ()
  time : ∀ t i, s.transactionTimestamps.get (t, i) = some () →
    ∃ b, s.blocks[i]? = some b ∧ b.transaction.createdAtTime = some t ∧
      ∃ c, s.transactionHashes.get b.transaction.hash! = some (i, c)
  all : ∀ i b t, s.blocks[i]? = some b → b.transaction.createdAtTime = some t →
    s.transactionTimestamps.get (t, i) = some () ∨ isBeforeTransactionWindow t now = true

/-- `s'` is `s` less some deduplication entries that are out of the window. -/
structure PrunedTx (now : Nat) (s s' : State) : Prop where
  same : SameExceptTx s s'
  sub : ∀ h v, s'.transactionHashes.get h = some v → s.transactionHashes.get h = some v
  keep : ∀ h i c b t, s.transactionHashes.get h = some (i, c) → s.blocks[i]? = some b →
    b.transaction.createdAtTime = some t → isBeforeTransactionWindow t now = false →
    s'.transactionHashes.get h = some (i, c)
  inv : HashInv now s'

/-- One iteration of the pruning loop. -/
theorem pruneTx_step {now : Nat} {s : State} (hi : HashInv now s) {t i : Nat} {b : Block}
    (hb : s.blocks[i]? = some b) (hc : b.transaction.createdAtTime = some t)
    (ht : s.transactionTimestamps.get (t, i) = some ())
    (hw : isBeforeTransactionWindow t now = true) :
    PrunedTx now s { s with
      transactionTimestamps := s.transactionTimestamps.erase (t, i)
      transactionHashes := s.transactionHashes.erase b.transaction.hash! } := by
  have hbi : ∃ c, s.transactionHashes.get b.transaction.hash! = some (i, c) := by
    obtain ⟨b', hb', _, hc'⟩ := hi.time t i ht
    rw [hb] at hb'; cases hb'; exact hc'
  obtain ⟨c0, hc0⟩ := hbi
  refine ⟨⟨rfl, rfl, rfl, rfl, rfl, rfl, rfl⟩, ?_, ?_, ?_, ?_, ?_⟩
  · intro h v
    simp only [SMap.get_erase]
    split
    · simp
    · exact id
  · intro h i' c b' t' hg hb' hc' hw'
    simp only [SMap.get_erase]
    split
    · rename_i heq
      subst heq
      rw [hc0] at hg
      simp only [Option.some.injEq, Prod.mk.injEq] at hg
      obtain ⟨rfl, _⟩ := hg
      rw [hb] at hb'; cases hb'
      rw [hc] at hc'; cases hc'
      rw [hw] at hw'; cases hw'
    · exact hg
  · intro h i' c hg
    simp only [SMap.get_erase] at hg ⊢
    split at hg
    · cases hg
    · rename_i hne
      obtain ⟨b', t', hb', hh', hc', ht'⟩ := hi.hash h i' c hg
      refine ⟨b', t', hb', hh', hc', ?_⟩
      split
      · rename_i heq
        simp only [Prod.mk.injEq] at heq
        obtain ⟨rfl, rfl⟩ := heq
        rw [hb] at hb'; cases hb'
        exact absurd hh' hne
      · exact ht'
  · intro t' i' hg
    simp only [SMap.get_erase] at hg ⊢
    split at hg
    · cases hg
    · rename_i hne
      obtain ⟨b', hb', hc', c', hh'⟩ := hi.time t' i' hg
      refine ⟨b', hb', hc', c', ?_⟩
      split
      · rename_i heq
        rw [← heq, hc0] at hh'
        simp only [Option.some.injEq, Prod.mk.injEq] at hh'
        obtain ⟨rfl, _⟩ := hh'
        rw [hb] at hb'; cases hb'
        rw [hc] at hc'; cases hc'
        exact absurd rfl hne
      · exact hh'
  · intro i' b' t' hb' hc'
    simp only [SMap.get_erase]
    split
    · rename_i heq
      simp only [Prod.mk.injEq] at heq
      obtain ⟨rfl, rfl⟩ := heq
      exact Or.inr hw
    · exact hi.all i' b' t' hb' hc'

theorem PrunedTx.refl {now : Nat} {s : State} (hi : HashInv now s) : PrunedTx now s s :=
  ⟨.refl s, fun _ _ h => h, fun _ _ _ _ _ h _ _ _ => h, hi⟩

theorem PrunedTx.trans {now : Nat} {s s1 s2 : State} (h1 : PrunedTx now s s1)
    (h2 : PrunedTx now s1 s2) : PrunedTx now s s2 :=
  { same := h1.same.trans h2.same
    sub := fun h v hg => h1.sub h v (h2.sub h v hg)
    keep := fun h i c b t hg hb hc hw =>
      h2.keep h i c b t (h1.keep h i c b t hg hb hc hw) (by rw [h1.same.blocks]; exact hb) hc hw
    inv := h2.inv }

theorem pruneTransactions_spec {now : Nat} {s : State} (hi : HashInv now s) (n : Nat) :
    PrunedTx now s (pruneTransactions now s n) := by
  induction n generalizing s with
  | zero => exact .refl hi
  | succ n ih =>
    unfold pruneTransactions
    split
    · exact .refl hi
    · rename_i ts idx u hf
      split
      · exact .refl hi
      · rename_i hw
        simp only [Bool.not_eq_true', Bool.not_eq_false] at hw
        have ht := SMap.first?_eq_some hf
        obtain ⟨b, hb, hc, c, hh⟩ := hi.time ts idx ht
        simp only [hb, Transaction.hash_eq_some]
        have h1 := pruneTx_step hi hb hc ht hw
        exact h1.trans (ih h1.inv)

/-! ## Both -/

/-- `s'` is `s` less expired approvals and deduplication entries out of the window. -/
structure Pruned (now : Nat) (s s' : State) : Prop where
  blocks : s'.blocks = s.blocks
  balances : s'.balances = s.balances
  config : s'.config = s.config
  cache : s'.cache = s.cache
  cert : s'.certifiedData = s.certifiedData
  approvals : ∀ k, s'.approvals.get k = s.approvals.get k ∨
    (s'.approvals.get k = none ∧ ∃ a e, s.approvals.get k = some (a, e) ∧ 0 < e ∧ e ≤ now)
  queue : QueueInv s'

/-- What pruning does to everything but the deduplication tables. -/
theorem prune_spec {now : Nat} {s : State} (hq : QueueInv s) : Pruned now s (prune now s) := by
  have h1 := pruneApprovals_spec (now := now) hq APPROVE_PRUNE_LIMIT
  have h2 : ∀ n (s1 : State), SameExceptTx s1 (pruneTransactions now s1 n) := by
    intro n
    induction n with
    | zero => intro s1; exact .refl s1
    | succ n ih =>
      intro s1
      unfold pruneTransactions
      split
      · exact .refl s1
      · split
        · exact .refl s1
        · simp only
          split
          · (refine SameExceptTx.trans ?_ (ih _); exact ⟨rfl, rfl, rfl, rfl, rfl, rfl, rfl⟩)
          · split <;> (refine SameExceptTx.trans ?_ (ih _); exact ⟨rfl, rfl, rfl, rfl, rfl, rfl, rfl⟩)
  have h3 := h2 TRANSACTION_PRUNE_LIMIT (pruneApprovals now s APPROVE_PRUNE_LIMIT)
  refine ⟨h3.blocks.trans h1.same.blocks, h3.balances.trans h1.same.balances,
    h3.config.trans h1.same.config, h3.cache.trans h1.same.cache, h3.cert.trans h1.same.cert,
    ?_, ?_⟩
  · intro k
    have := h1.get k
    unfold prune
    rw [h3.approvals]
    exact this
  · intro e k
    unfold prune
    rw [h3.approvals, h3.queue]
    exact h1.queue e k

omit [Crypto] in
theorem HashInv.congr {now : Nat} {s s' : State} [Crypto] (h : HashInv now s)
    (hb : s'.blocks = s.blocks) (hh : s'.transactionHashes = s.transactionHashes)
    (ht : s'.transactionTimestamps = s.transactionTimestamps) : HashInv now s' := by
  refine ⟨?_, ?_, ?_⟩
  · rw [hb, hh, ht]; exact h.hash
  · rw [hb, hh, ht]; exact h.time
  · rw [hb, ht]; exact h.all

/-- What pruning does to the deduplication tables. -/
theorem prune_tx {now : Nat} {s : State} (hq : QueueInv s) (hi : HashInv now s) :
    HashInv now (prune now s) ∧
    (∀ h v, (prune now s).transactionHashes.get h = some v → s.transactionHashes.get h = some v) ∧
    (∀ h i c b t, s.transactionHashes.get h = some (i, c) → s.blocks[i]? = some b →
      b.transaction.createdAtTime = some t → isBeforeTransactionWindow t now = false →
      (prune now s).transactionHashes.get h = some (i, c)) := by
  have h1 := pruneApprovals_spec (now := now) hq APPROVE_PRUNE_LIMIT
  have hi1 : HashInv now (pruneApprovals now s APPROVE_PRUNE_LIMIT) :=
    hi.congr h1.same.blocks h1.same.hashes h1.same.timestamps
  have h2 := pruneTransactions_spec hi1 TRANSACTION_PRUNE_LIMIT
  refine ⟨h2.inv, ?_, ?_⟩
  · intro h v hg
    have := h2.sub h v hg
    rwa [h1.same.hashes] at this
  · intro h i c b t hg hb hc hw
    exact h2.keep h i c b t (by rw [h1.same.hashes]; exact hg) (by rw [h1.same.blocks]; exact hb)
      hc hw

end CyclesLedger
