import Verif.Proof.Cases
/-!
# The deduplication tables without any assumption on the hash function

`HashInv` holds as long as no two transactions of the log collide.  What is needed for
"never twice" holds in any case.
-/
namespace CyclesLedger

variable [Crypto]

/-- The same transaction, with a `created_at_time`, is nowhere twice. -/
def NeverTwice (bs : List Block) : Prop :=
  ∀ (i j : Nat) (b b' : Block), bs[i]? = some b → bs[j]? = some b' →
    b.transaction.createdAtTime.isSome → b.transaction = b'.transaction → i = j

/-- What holds of the tables with any hash function. -/
structure KeyInv (now : Nat) (s : State) : Prop where
  time : ∀ t i, s.transactionTimestamps.get (t, i) = some () →
    ∃ b, s.blocks[i]? = some b ∧ b.transaction.createdAtTime = some t ∧
      ∃ v, s.transactionHashes.get b.transaction.hash! = some v
  uniq : ∀ t i t' i' b b', s.transactionTimestamps.get (t, i) = some () →
    s.transactionTimestamps.get (t', i') = some () → s.blocks[i]? = some b →
    s.blocks[i']? = some b' → b.transaction.hash! = b'.transaction.hash! → i = i'
  all : ∀ i b t, s.blocks[i]? = some b → b.transaction.createdAtTime = some t →
    s.transactionTimestamps.get (t, i) = some () ∨ isBeforeTransactionWindow t now = true
  keys : ∀ h v, s.transactionHashes.get h = some v → ∃ t i b,
    s.transactionTimestamps.get (t, i) = some () ∧ s.blocks[i]? = some b ∧
      b.transaction.hash! = h
  once : NeverTwice s.blocks

theorem KeyInv.later {now now' : Nat} {s : State} (h : KeyInv now s) (hn : now ≤ now') :
    KeyInv now' s :=
  { h with all := fun i b t hb hc => (h.all i b t hb hc).imp id (fun hw => isBefore_mono hw hn) }

theorem KeyInv.congr {now : Nat} {s s' : State} (h : KeyInv now s)
    (hb : s'.blocks = s.blocks) (hh : s'.transactionHashes = s.transactionHashes)
    (ht : s'.transactionTimestamps = s.transactionTimestamps) : KeyInv now s' := by
  refine ⟨?_, ?_, ?_, ?_, ?_⟩
  · rw [hb, hh, ht]; exact h.time
  · rw [hb, ht]; exact h.uniq
  · rw [hb, ht]; exact h.all
  · rw [hb, hh, ht]; exact h.keys
  · rw [hb]; exact h.once

theorem KeyInv.append {now : Nat} {s s' : State} {t : Transaction} (ha : Appended now s s' t)
    (hi : KeyInv now s) : KeyInv now s' := by
  have hlen : ∀ (i : Nat) (b : Block), s.blocks[i]? = some b → i < s.blocks.length :=
    fun i b h => (List.getElem?_eq_some_iff.mp h).1
  have hget : ∀ (i : Nat) (b : Block), s'.blocks[i]? = some b →
      s.blocks[i]? = some b ∨ (i = s.blocks.length ∧ b = mkBlock s t now) := by
    intro i b h
    rw [ha.blocks] at h
    by_cases hi : i < s.blocks.length
    · rw [List.getElem?_append_left hi] at h; exact Or.inl h
    · rw [List.getElem?_append_right (by omega)] at h
      right
      by_cases h0 : i - s.blocks.length = 0
      · rw [h0] at h; simp at h; exact ⟨by omega, h.symm⟩
      · rw [List.getElem?_eq_none (by simp; omega)] at h; cases h
  have hold : ∀ (i : Nat) (b : Block), s.blocks[i]? = some b → s'.blocks[i]? = some b := by
    intro i b h
    rw [ha.blocks, List.getElem?_append_left (hlen i b h)]
    exact h
  have hnew : s'.blocks[s.blocks.length]? = some (mkBlock s t now) := by
    rw [ha.blocks]; simp
  cases hc : t.createdAtTime with
  | none =>
    have hh : s'.transactionHashes = s.transactionHashes := by
      rw [ha.hashes]; simp [pushBlock, mkBlock, hc]
    have ht : s'.transactionTimestamps = s.transactionTimestamps := by
      rw [ha.timestamps]; simp [pushBlock, mkBlock, hc]
    refine ⟨?_, ?_, ?_, ?_, ?_⟩
    · intro t' i hg
      rw [ht] at hg
      obtain ⟨b, hb, h2, h3⟩ := hi.time t' i hg
      exact ⟨b, hold i b hb, h2, by rw [hh]; exact h3⟩
    · intro t1 i t2 j b b' h1 h2 hb hb' he
      rw [ht] at h1 h2
      obtain ⟨x, hx, _⟩ := hi.time t1 i h1
      obtain ⟨z, hz, _⟩ := hi.time t2 j h2
      rw [hold i x hx] at hb; cases hb
      rw [hold j z hz] at hb'; cases hb'
      exact hi.uniq t1 i t2 j b b' h1 h2 hx hz he
    · intro i b t' hb hcb
      rcases hget i b hb with h1 | ⟨_, rfl⟩
      · rw [ht]; exact hi.all i b t' h1 hcb
      · simp [mkBlock, hc] at hcb
    · intro h v hg
      rw [hh] at hg
      obtain ⟨t', i, b, h1, h2, h3⟩ := hi.keys h v hg
      exact ⟨t', i, b, by rw [ht]; exact h1, hold i b h2, h3⟩
    · intro i j b b' hb hb' hcb he
      rcases hget i b hb with h1 | ⟨rfl, rfl⟩
      · rcases hget j b' hb' with h2 | ⟨rfl, rfl⟩
        · exact hi.once i j b b' h1 h2 hcb he
        · rw [he] at hcb; simp [mkBlock, hc] at hcb
      · simp [mkBlock, hc] at hcb
  | some ts =>
    have hh : s'.transactionHashes = s.transactionHashes.insert t.hash! (s.blocks.length, none) := by
      rw [ha.hashes]; simp [pushBlock, mkBlock, hc]
    have ht : s'.transactionTimestamps =
        s.transactionTimestamps.insert (ts, s.blocks.length) () := by
      rw [ha.timestamps]; simp [pushBlock, mkBlock, hc]
    have hfresh := ha.fresh (by simp [hc])
    have hwin : isBeforeTransactionWindow ts now = false := by
      have := ha.createdAt
      rw [hc] at this
      exact validateCreatedAt_window this
    have hne : ∀ t' i b, s.transactionTimestamps.get (t', i) = some () → s.blocks[i]? = some b →
        b.transaction.hash! ≠ t.hash! := by
      intro t' i b h1 h2 h3
      obtain ⟨b', hb', _, v, hv⟩ := hi.time t' i h1
      rw [h2] at hb'; cases hb'
      rw [h3, hfresh] at hv; cases hv
    have hdist : ∀ (i : Nat) (b : Block), s.blocks[i]? = some b → b.transaction ≠ t := by
      intro i b hb heq
      have hcb : b.transaction.createdAtTime = some ts := by rw [heq, hc]
      rcases hi.all i b ts hb hcb with h1 | h1
      · exact hne ts i b h1 hb (by rw [heq])
      · rw [hwin] at h1; cases h1
    have hts : ∀ t' i, s'.transactionTimestamps.get (t', i) = some () →
        (t' = ts ∧ i = s.blocks.length) ∨ s.transactionTimestamps.get (t', i) = some () := by
      intro t' i hg
      rw [ht, SMap.get_insert] at hg
      split at hg
      · rename_i heq
        simp only [Prod.mk.injEq] at heq
        exact Or.inl ⟨heq.1.symm, heq.2.symm⟩
      · exact Or.inr hg
    refine ⟨?_, ?_, ?_, ?_, ?_⟩
    · intro t' i hg
      rcases hts t' i hg with ⟨rfl, rfl⟩ | h1
      · exact ⟨mkBlock s t now, hnew, by simp [mkBlock, hc], (s.blocks.length, none), by
          rw [hh, SMap.get_insert]; simp [mkBlock]⟩
      · obtain ⟨b, hb, h2, v, h3⟩ := hi.time t' i h1
        refine ⟨b, hold i b hb, h2, v, ?_⟩
        rw [hh, SMap.get_insert, if_neg (fun h => hne t' i b h1 hb h.symm)]
        exact h3
    · intro t1 i t2 j b b' h1 h2 hb hb' he
      rcases hts t1 i h1 with ⟨rfl, rfl⟩ | h1
      · rcases hts t2 j h2 with ⟨rfl, rfl⟩ | h2
        · rfl
        · obtain ⟨z, hz, _⟩ := hi.time t2 j h2
          rw [hold j z hz] at hb'; cases hb'
          rw [hnew] at hb; cases hb
          exact absurd he.symm (hne t2 j b' h2 hz)
      · obtain ⟨x, hx, _⟩ := hi.time t1 i h1
        rw [hold i x hx] at hb; cases hb
        rcases hts t2 j h2 with ⟨rfl, rfl⟩ | h2
        · rw [hnew] at hb'; cases hb'
          exact absurd he (hne t1 i b h1 hx)
        · obtain ⟨z, hz, _⟩ := hi.time t2 j h2
          rw [hold j z hz] at hb'; cases hb'
          exact hi.uniq t1 i t2 j b b' h1 h2 hx hz he
    · intro i b t' hb hcb
      rw [ht, SMap.get_insert]
      rcases hget i b hb with h1 | ⟨rfl, rfl⟩
      · split
        · exact Or.inl rfl
        · exact hi.all i b t' h1 hcb
      · simp only [mkBlock, hc, Option.some.injEq] at hcb
        subst hcb
        simp
    · intro h v hg
      rw [hh, SMap.get_insert] at hg
      split at hg
      · rename_i heq
        exact ⟨ts, s.blocks.length, mkBlock s t now, by rw [ht, SMap.get_insert, if_pos rfl], hnew, heq⟩
      · obtain ⟨t', i, b, h1, h2, h3⟩ := hi.keys h v hg
        refine ⟨t', i, b, ?_, hold i b h2, h3⟩
        rw [ht, SMap.get_insert]
        split
        · rfl
        · exact h1
    · intro i j b b' hb hb' hcb he
      rcases hget i b hb with h1 | ⟨rfl, rfl⟩
      · rcases hget j b' hb' with h2 | ⟨rfl, rfl⟩
        · exact hi.once i j b b' h1 h2 hcb he
        · exact absurd he (hdist i b h1)
      · rcases hget j b' hb' with h2 | ⟨rfl, rfl⟩
        · exact absurd he.symm (hdist j b' h2)
        · rfl

theorem KeyInv.pruneStep {now : Nat} {s : State} (hi : KeyInv now s) {t i : Nat} {b : Block}
    (hb : s.blocks[i]? = some b)
    (ht : s.transactionTimestamps.get (t, i) = some ())
    (hw : isBeforeTransactionWindow t now = true) :
    KeyInv now { s with
      transactionTimestamps := s.transactionTimestamps.erase (t, i)
      transactionHashes := s.transactionHashes.erase b.transaction.hash! } := by
  refine ⟨?_, ?_, ?_, ?_, hi.once⟩
  · intro t' i' hg
    simp only [SMap.get_erase] at hg ⊢
    split at hg
    · cases hg
    · rename_i hne
      obtain ⟨b', hb', hc', v, hv⟩ := hi.time t' i' hg
      refine ⟨b', hb', hc', v, ?_⟩
      rw [if_neg]
      · exact hv
      · intro heq
        have := hi.uniq t i t' i' b b' ht hg hb hb' heq
        subst this
        obtain ⟨x, hx, hcx, _⟩ := hi.time t i ht
        rw [hb] at hx; cases hx
        rw [hb] at hb'; cases hb'
        rw [hcx] at hc'; cases hc'
        exact hne rfl
  · intro t1 i1 t2 i2 b1 b2 h1 h2
    simp only [SMap.get_erase] at h1 h2
    split at h1
    · cases h1
    · split at h2
      · cases h2
      · exact hi.uniq t1 i1 t2 i2 b1 b2 h1 h2
  · intro i' b' t' hb' hc'
    simp only [SMap.get_erase]
    split
    · rename_i heq
      simp only [Prod.mk.injEq] at heq
      obtain ⟨rfl, rfl⟩ := heq
      exact Or.inr hw
    · exact hi.all i' b' t' hb' hc'
  · intro h v hg
    simp only [SMap.get_erase] at hg ⊢
    split at hg
    · cases hg
    · rename_i hne
      obtain ⟨t', i', b', h1, h2, h3⟩ := hi.keys h v hg
      refine ⟨t', i', b', ?_, h2, h3⟩
      rw [if_neg]
      · exact h1
      · intro heq
        simp only [Prod.mk.injEq] at heq
        obtain ⟨rfl, rfl⟩ := heq
        rw [hb] at h2; cases h2
        exact hne h3

theorem KeyInv.pruneTx {now : Nat} {s : State} (hi : KeyInv now s) (n : Nat) :
    KeyInv now (pruneTransactions now s n) := by
  induction n generalizing s with
  | zero => exact hi
  | succ n ih =>
    unfold pruneTransactions
    split
    · exact hi
    · rename_i ts idx u hf
      split
      · exact hi
      · rename_i hw
        simp only [Bool.not_eq_true', Bool.not_eq_false] at hw
        have ht := SMap.first?_eq_some hf
        obtain ⟨b, hb, _⟩ := hi.time ts idx ht
        simp only [hb, Transaction.hash_eq_some]
        exact ih (hi.pruneStep hb ht hw)

theorem KeyInv.atom {now : Nat} {s s' : State} (ha : Atom now s s') (hl : LInv now s)
    (hi : KeyInv now s) : KeyInv now s' := by
  cases ha with
  | append h => exact hi.append h
  | prune =>
    have h1 := pruneApprovals_spec (now := now) hl.queue APPROVE_PRUNE_LIMIT
    exact (hi.congr h1.same.blocks h1.same.hashes h1.same.timestamps).pruneTx _
  | mark i b c hb hcon =>
    unfold SMap.contains at hcon
    rw [Option.isSome_iff_exists] at hcon
    obtain ⟨v0, hv0⟩ := hcon
    refine ⟨?_, hi.uniq, hi.all, ?_, hi.once⟩
    · intro t' i' hg
      obtain ⟨b', hb', hc', v, hv⟩ := hi.time t' i' hg
      refine ⟨b', hb', hc', ?_⟩
      simp only [SMap.get_insert]
      split
      · exact ⟨_, rfl⟩
      · exact ⟨v, hv⟩
    · intro h v hg
      simp only [SMap.get_insert] at hg
      split at hg
      · rename_i heq
        rw [← heq]
        exact hi.keys _ v0 hv0
      · exact hi.keys h v hg
  | reload c => exact hi.congr rfl rfl rfl

theorem KeyInv.chain {now : Nat} {s s' : State} (hc : Chain now s s') (hl : LInv now s)
    (hi : KeyInv now s) : KeyInv now s' := by
  induction hc with
  | refl => exact hi
  | tail h1 ha ih => exact ih.atom ha (hl.chain h1)

theorem KeyInv.empty (now : Nat) : KeyInv now State.empty := by
  refine ⟨?_, ?_, ?_, ?_, ?_⟩
  · intro t i hg; simp [State.empty, SMap.get_empty] at hg
  · intro t i t' i' b b' hg; simp [State.empty, SMap.get_empty] at hg
  · intro i b t hb; simp [State.empty] at hb
  · intro h v hg; simp [State.empty, SMap.get_empty] at hg
  · intro i j b b' hb; simp [State.empty] at hb

theorem Reachable.keys {y : Sys} (h : Reachable y) : KeyInv y.now y.ledger := by
  obtain ⟨config, now, cycles, y0, es, h0, rfl⟩ := h
  have hi0 := SInv.init h0
  have hk0 : KeyInv y0.now y0.ledger := by
    unfold Sys.init initLedger at h0
    rw [Option.map_eq_some_iff] at h0
    obtain ⟨s, h1, rfl⟩ := h0
    split at h1
    · cases h1
    · rename_i s0 hm
      simp only [Option.some.injEq] at h1
      subst h1
      exact ((KeyInv.empty _).chain (mintInitial_chain hm)
        (LInv.empty (Nat.min_le_right _ _))).congr rfl rfl rfl
  clear h0
  induction es generalizing y0 with
  | nil => exact hk0
  | cons e es ih =>
    refine ih _ (hi0.step e) ?_
    have hm := exec_moved (hi0.tick e.dt) e.msg
    have hk : KeyInv (y0.tick e.dt).now (y0.tick e.dt).ledger := by
      have := hi0.ledger.clock
      exact hk0.later (by simp only [Sys.tick]; omega)
    have := hk.chain hm.chain (hi0.tick e.dt).ledger
    rw [Sys.step, hm.now]
    exact this

/-- A block whose `created_at_time` is not too old has its hash in the table. -/
theorem KeyInv.has {now : Nat} {s : State} (hi : KeyInv now s) (hn : now ≤ U64MAX) {i : Nat}
    {b : Block} {c : Nat} (hb : s.blocks[i]? = some b) (hc : b.transaction.createdAtTime = some c)
    (hw : now ≤ c + 86400000000000 + 60000000000) :
    ∃ d p, s.transactionHashes.get b.transaction.hash! = some (d, p) := by
  rcases hi.all i b c hb hc with h1 | h1
  · obtain ⟨b', hb', _, v, hv⟩ := hi.time _ _ h1
    rw [hb] at hb'
    cases hb'
    exact ⟨v.1, v.2, hv⟩
  · rw [inWindow_not_before hw hn] at h1; cases h1

end CyclesLedger
