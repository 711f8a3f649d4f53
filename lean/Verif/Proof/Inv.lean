import Verif.Proof.Prune
/-!
# The ledger invariant

`Atom` are the elementary changes a message makes to the ledger; `LInv` is kept by
each of them.
-/
namespace CyclesLedger
variable [Crypto]

/-! ## The specification under one more block -/

omit [Crypto] in
theorem balance_snoc (bs : List Block) (b : Block) (k : AccountKey) :
    Spec.balance (bs ++ [b]) k = Spec.balance bs k + Spec.delta b k := by
  simp [Spec.balance]

omit [Crypto] in
theorem supply_snoc (bs : List Block) (b : Block) :
    Spec.supply (bs ++ [b]) = Spec.supply bs + Spec.supplyDelta b := by
  simp [Spec.supply]

omit [Crypto] in
theorem allowances_snoc (bs : List Block) (b : Block) :
    Spec.allowances (bs ++ [b]) = Spec.allowStep (Spec.allowances bs) b := by
  simp [Spec.allowances]

omit [Crypto] in
theorem snoc_split {α : Type} {l pre suf : List α} {x b : α} (h : l ++ [x] = pre ++ b :: suf) :
    (suf = [] ∧ pre = l ∧ b = x) ∨ ∃ suf', suf = suf' ++ [x] ∧ l = pre ++ b :: suf' := by
  rcases List.eq_nil_or_concat suf with rfl | ⟨suf', y, rfl⟩
  · left
    have := List.append_inj' h rfl
    simp only [List.cons.injEq, and_true] at this
    exact ⟨rfl, this.1.symm, this.2.symm⟩
  · right
    rw [show pre ++ b :: suf'.concat y = (pre ++ b :: suf') ++ [y] by simp] at h
    have := List.append_inj' h rfl
    simp only [List.cons.injEq, and_true] at this
    exact ⟨suf', by simp [this.2], this.1⟩

omit [Crypto] in
theorem emptyCredit_snoc (bs : List Block) (b : Block) (k : AccountKey) :
    Spec.EmptyCredit (bs ++ [b]) k ↔
      (Spec.credits b k = some 0 ∧ Spec.balance (bs ++ [b]) k = 0) ∨
      (Spec.EmptyCredit bs k ∧ Spec.delta b k = 0) := by
  constructor
  · rintro ⟨pre, c, suf, heq, h1, h2, h3⟩
    rcases snoc_split heq with ⟨rfl, rfl, rfl⟩ | ⟨suf', rfl, rfl⟩
    · exact Or.inl ⟨h1, h2⟩
    · exact Or.inr ⟨⟨pre, c, suf', rfl, h1, h2, fun d hd => h3 d (by simp [hd])⟩,
        h3 b (by simp)⟩
  · rintro (⟨h1, h2⟩ | ⟨⟨pre, c, suf, rfl, h1, h2, h3⟩, h4⟩)
    · exact ⟨bs, b, [], rfl, h1, h2, by simp⟩
    · refine ⟨pre, c, suf ++ [b], by simp, h1, h2, ?_⟩
      intro d hd
      simp only [List.mem_append, List.mem_singleton] at hd
      rcases hd with hd | rfl
      · exact h3 d hd
      · exact h4

/-! ## Elementary changes -/

/-- The elementary changes to the ledger at time `now`. -/
inductive Atom (now : Nat) : State → State → Prop
  | append {s s' : State} {t : Transaction} : Appended now s s' t → Atom now s s'
  | prune (s : State) : Atom now s (prune now s)
  | mark {s : State} (i : Nat) (b : Block) (c : Principal) : s.blocks[i]? = some b →
      s.transactionHashes.contains b.transaction.hash! = true →
      Atom now s { s with transactionHashes :=
        s.transactionHashes.insert b.transaction.hash! (i, some c) }
  | reload (s : State) (c : Config) : Atom now s { reload s with config := c }

/-- A sequence of elementary changes at time `now`. -/
inductive Chain (now : Nat) : State → State → Prop
  | refl (s : State) : Chain now s s
  | tail {s s1 s2 : State} : Chain now s s1 → Atom now s1 s2 → Chain now s s2

theorem Chain.trans {now : Nat} {s s1 s2 : State} (h1 : Chain now s s1) (h2 : Chain now s1 s2) :
    Chain now s s2 := by
  induction h2 with
  | refl => exact h1
  | tail _ ha ih => exact .tail ih ha

theorem Chain.one {now : Nat} {s s1 : State} (h : Atom now s s1) : Chain now s s1 :=
  .tail (.refl s) h

/-! ## The invariant -/

/-- Two blocks of the log with different transactions of the same hash. -/
def LogCollision (bs : List Block) : Prop :=
  ∃ b ∈ bs, ∃ b' ∈ bs, b.transaction ≠ b'.transaction ∧ b.transaction.hash! = b'.transaction.hash!

/-- No transaction with a `created_at_time` is in the log twice. -/
def OnceInLog (bs : List Block) : Prop :=
  ∀ (i j : Nat) (b b' : Block), bs[i]? = some b → bs[j]? = some b' →
    b.transaction.createdAtTime.isSome → b'.transaction.createdAtTime.isSome →
    b.transaction.hash! = b'.transaction.hash! → i = j

/-- What holds of a block `b` that comes after the blocks `pre`. -/
structure BlockOk (pre : List Block) (b : Block) : Prop where
  phash : b.phash = pre.getLast?.map Block.hash
  time : ∀ b' ∈ pre, b'.timestamp ≤ b.timestamp
  op : OpOk b.timestamp b.transaction.operation
  memo : validateMemo b.transaction.memo = true
  createdAt : validateCreatedAtTime b.transaction.createdAtTime b.timestamp = none
  fee : b.effectiveFee = effectiveFee b.transaction.operation
  balance : ∀ k, 0 ≤ Spec.balance (pre ++ [b]) k
  supply : 0 ≤ Spec.supply (pre ++ [b]) ∧ Spec.supply (pre ++ [b]) ≤ U128MAX
  spend : ∀ key x, Spec.spends b = some (key, x) →
    ∃ a e, Spec.allowances pre key = some (a, e) ∧ x ≤ a ∧ (e = 0 ∨ b.timestamp < e)

/-- The invariant of the ledger at time `now`. -/
structure LInv (now : Nat) (s : State) : Prop where
  clock : now ≤ U64MAX
  sum : s.cache.totalSupply = s.balances.sum
  bound : s.cache.totalSupply ≤ U128MAX
  queue : QueueInv s
  approvals : ∀ k a e, s.approvals.get k = some (a, e) →
    0 < a ∧ a ≤ U128MAX ∧ e ≤ U64MAX ∧ k.1.1 ≠ k.2.1 ∧
      k.1.1 ≠ managementCanister ∧ k.2.1 ≠ managementCanister
  phash : s.cache.phash = (computeTip s.blocks).1
  tree : s.cache.hashTree = (computeTip s.blocks).2
  cert : s.blocks ≠ [] → s.certifiedData = some s.cache.hashTree.rootHash
  nocert : s.blocks = [] → s.certifiedData = none
  log : ∀ pre b suf, s.blocks = pre ++ b :: suf → BlockOk pre b
  times : ∀ b ∈ s.blocks, b.timestamp ≤ now
  bal : ∀ k, (balAt s k : Int) = Spec.balance s.blocks k
  supply : (s.cache.totalSupply : Int) = Spec.supply s.blocks
  allow : ∀ k, s.approvals.get k = Spec.allowances s.blocks k ∨
    (s.approvals.get k = none ∧ ∃ a e, Spec.allowances s.blocks k = some (a, e) ∧ 0 < e ∧ e ≤ now)
  dedup : LogCollision s.blocks ∨ (HashInv now s ∧ OnceInLog s.blocks)
  zeros : ∀ k, s.balances.get k = some 0 ↔ Spec.EmptyCredit s.blocks k

/-! ## Small facts -/

omit [Crypto] in
theorem populateTree_nil (i : Nat) (h : Hash) :
    populateTree .nil i h =
      .node .black (.node .red .nil kLastBlockHash h.val .nil) kLastBlockIndex (leb128 i) .nil := by
  rfl

omit [Crypto] in
theorem populateTree_again (i j : Nat) (h g : Hash) :
    populateTree (populateTree .nil i h) j g = populateTree .nil j g := by
  rfl

theorem computeTip_snoc (bs : List Block) (b : Block) :
    computeTip (bs ++ [b]) = (some b.hash, populateTree .nil bs.length b.hash) := by
  simp [computeTip]

theorem populateTree_tip (bs : List Block) (b : Block) :
    populateTree (computeTip bs).2 bs.length b.hash = (computeTip (bs ++ [b])).2 := by
  rw [computeTip_snoc]
  unfold computeTip
  cases bs.getLast? with
  | none => rfl
  | some x => exact populateTree_again _ _ _ _

omit [Crypto] in
theorem foldl_mod_eq (l : List (AccountKey × Nat)) (acc : Nat) :
    (acc + (l.map Prod.snd).sum ≤ U128MAX) →
    l.foldl (fun acc e => (acc + e.2) % (U128MAX + 1)) acc = acc + (l.map Prod.snd).sum := by
  induction l generalizing acc with
  | nil => intro _; simp
  | cons x xs ih =>
    intro h
    simp only [List.map_cons, List.sum_cons, List.foldl_cons] at h ⊢
    rw [Nat.mod_eq_of_lt (by omega), ih _ (by omega)]
    omega

omit [Crypto] in
theorem computeTotalSupply_eq {m : SMap AccountKey Nat} (h : m.sum ≤ U128MAX) :
    computeTotalSupply m = m.sum := by
  unfold computeTotalSupply
  rw [foldl_mod_eq _ _ (by unfold SMap.sum at h; omega)]
  unfold SMap.sum
  omega

omit [Crypto] in
theorem satAdd64_mono {a b c d : Nat} (h1 : a ≤ c) (h2 : b ≤ d) : satAdd64 a b ≤ satAdd64 c d := by
  unfold satAdd64
  split <;> split <;> omega

omit [Crypto] in
theorem isBefore_mono {t now now' : Nat} (h : isBeforeTransactionWindow t now = true)
    (hn : now ≤ now') : isBeforeTransactionWindow t now' = true := by
  unfold isBeforeTransactionWindow at *
  simp only [decide_eq_true_eq] at *
  omega

omit [Crypto] in
theorem validateCreatedAt_window {t now : Nat} (h : validateCreatedAtTime (some t) now = none) :
    isBeforeTransactionWindow t now = false := by
  unfold validateCreatedAtTime at h
  simp only at h
  unfold isBeforeTransactionWindow
  split at h
  · cases h
  · simp only [decide_eq_false_iff_not]; assumption

theorem LogCollision.mono {bs bs' : List Block} (h : LogCollision bs) (hsub : ∀ b ∈ bs, b ∈ bs') :
    LogCollision bs' := by
  obtain ⟨b, hb, b', hb', h1, h2⟩ := h
  exact ⟨b, hsub b hb, b', hsub b' hb', h1, h2⟩

theorem HashInv.later {now now' : Nat} {s : State} (h : HashInv now s) (hn : now ≤ now') :
    HashInv now' s :=
  ⟨h.hash, h.time, fun i b t hb hc => (h.all i b t hb hc).imp id (fun hw => isBefore_mono hw hn)⟩

theorem LInv.later {now now' : Nat} {s : State} (h : LInv now s) (hn : now ≤ now')
    (hc : now' ≤ U64MAX) : LInv now' s :=
  { h with
    clock := hc
    times := fun b hb => Nat.le_trans (h.times b hb) hn
    allow := fun k => (h.allow k).imp id
      (fun ⟨h1, a, e, h2, h3, h4⟩ => ⟨h1, a, e, h2, h3, Nat.le_trans h4 hn⟩)
    dedup := h.dedup.imp id (fun ⟨h1, h2⟩ => ⟨h1.later hn, h2⟩) }

/-! ## Appending a block -/

omit [Crypto] in
/-- A block sets an allowance, spends from one, or leaves them alone. -/
theorem allowStep_cases (b : Block) :
    (∃ key v, ∀ f, Spec.allowStep f b = fun k => if k = key then v else f k) ∨
    (∃ key x, Spec.spends b = some (key, x) ∧ ∀ f, Spec.allowStep f b = Spec.spend f key x) ∨
    (∀ f, Spec.allowStep f b = f) := by
  cases hop : b.transaction.operation with
  | approve frm sp amount ea exp fee =>
    left
    refine ⟨(frm.key, sp.key), if amount = 0 then none else some (amount, exp.getD 0), ?_⟩
    intro f
    simp only [Spec.allowStep, hop]
    rfl
  | _ =>
    right
    cases hsp : Spec.spends b with
    | none => right; intro f; simp only [Spec.allowStep, hop, hsp]
    | some kx => left; exact ⟨kx.1, kx.2, rfl, fun f => by simp only [Spec.allowStep, hop, hsp]⟩

omit [Crypto] in
theorem allowStep_sync {now : Nat} {f g : Spec.AllowFn} {b : Block}
    (hs : ∀ key x, Spec.spends b = some (key, x) → ∃ v, f key = some v)
    (h : ∀ k, f k = g k ∨ (f k = none ∧ ∃ a e, g k = some (a, e) ∧ 0 < e ∧ e ≤ now)) (k : ApprovalKey) :
    Spec.allowStep f b k = Spec.allowStep g b k ∨
      (Spec.allowStep f b k = none ∧ ∃ a e, Spec.allowStep g b k = some (a, e) ∧ 0 < e ∧ e ≤ now) := by
  rcases allowStep_cases b with ⟨key, v, hs'⟩ | ⟨key, x, hsp, hs'⟩ | hs'
  · rw [hs' f, hs' g]
    simp only
    split
    · exact Or.inl rfl
    · exact h k
  · rw [hs' f, hs' g]
    obtain ⟨v, hv⟩ := hs key x hsp
    simp only [Spec.spend]
    split
    · rename_i hk
      subst hk
      left
      rcases h k with h1 | ⟨h1, _⟩
      · rw [h1]
      · rw [h1] at hv; cases hv
    · exact h k
  · rw [hs' f, hs' g]; exact h k

theorem HashInv.append {now : Nat} {s s' : State} {t : Transaction} (ha : Appended now s s' t)
    (hi : HashInv now s) (ho : OnceInLog s.blocks) :
    LogCollision s'.blocks ∨ (HashInv now s' ∧ OnceInLog s'.blocks) := by
  have hlen : ∀ (i : Nat) (b : Block), s.blocks[i]? = some b → i < s.blocks.length := by
    intro i b h
    exact (List.getElem?_eq_some_iff.mp h).1
  have hget : ∀ (i : Nat) (b : Block), s'.blocks[i]? = some b →
      s.blocks[i]? = some b ∨ (i = s.blocks.length ∧ b = mkBlock s t now) := by
    intro i b h
    rw [ha.blocks] at h
    by_cases hi : i < s.blocks.length
    · rw [List.getElem?_append_left hi] at h; exact Or.inl h
    · rw [List.getElem?_append_right (by omega)] at h
      right
      by_cases h0 : i - s.blocks.length = 0
      · rw [h0] at h; simp at h; exact ⟨by omega, h.symm⟩
      · rw [List.getElem?_eq_none (by simp; omega)] at h; cases h
  have hold : ∀ (i : Nat) (b : Block), s.blocks[i]? = some b → s'.blocks[i]? = some b := by
    intro i b h
    rw [ha.blocks, List.getElem?_append_left (hlen i b h)]
    exact h
  have hnew : s'.blocks[s.blocks.length]? = some (mkBlock s t now) := by
    rw [ha.blocks]; simp
  cases hc : t.createdAtTime with
  | none =>
    have hh : s'.transactionHashes = s.transactionHashes := by
      rw [ha.hashes]; simp [pushBlock, mkBlock, hc]
    have ht : s'.transactionTimestamps = s.transactionTimestamps := by
      rw [ha.timestamps]; simp [pushBlock, mkBlock, hc]
    right
    refine ⟨⟨?_, ?_, ?_⟩, ?_⟩
    · intro h i c hg
      rw [hh] at hg
      obtain ⟨b, t', hb, h2, h3, h4⟩ := hi.hash h i c hg
      exact ⟨b, t', hold i b hb, h2, h3, by rw [ht]; exact h4⟩
    · intro t' i hg
      rw [ht] at hg
      obtain ⟨b, hb, h2, c, h3⟩ := hi.time t' i hg
      exact ⟨b, hold i b hb, h2, c, by rw [hh]; exact h3⟩
    · intro i b t' hb hcb
      rcases hget i b hb with h1 | ⟨_, rfl⟩
      · rw [ht]; exact hi.all i b t' h1 hcb
      · simp [mkBlock, hc] at hcb
    · intro i j b b' hb hb' hcb hcb' hhh
      rcases hget i b hb with h1 | ⟨rfl, rfl⟩
      · rcases hget j b' hb' with h2 | ⟨rfl, rfl⟩
        · exact ho i j b b' h1 h2 hcb hcb' hhh
        · simp [mkBlock, hc] at hcb'
      · simp [mkBlock, hc] at hcb
  | some ts =>
    have hh : s'.transactionHashes = s.transactionHashes.insert t.hash! (s.blocks.length, none) := by
      rw [ha.hashes]; simp [pushBlock, mkBlock, hc]
    have ht : s'.transactionTimestamps =
        s.transactionTimestamps.insert (ts, s.blocks.length) () := by
      rw [ha.timestamps]; simp [pushBlock, mkBlock, hc]
    have hfresh := ha.fresh (by simp [hc])
    have hwin : isBeforeTransactionWindow ts now = false := by
      have := ha.createdAt
      rw [hc] at this
      exact validateCreatedAt_window this
    -- no earlier block has this hash, or there is a collision
    have hdist : LogCollision s'.blocks ∨ ∀ (i : Nat) (b : Block), s.blocks[i]? = some b →
        b.transaction.createdAtTime.isSome → b.transaction.hash! ≠ t.hash! := by
      apply Classical.byContradiction
      intro hcon
      simp only [not_or, Classical.not_forall] at hcon
      obtain ⟨hnc, i, b, hb, hcb, heq⟩ := hcon
      simp only [ne_eq, Classical.not_not] at heq
      by_cases hteq : b.transaction = t
      · have hcb' : b.transaction.createdAtTime = some ts := by rw [hteq, hc]
        rcases hi.all i b ts hb hcb' with h1 | h1
        · obtain ⟨b2, hb2, _, c, hg⟩ := hi.time ts i h1
          rw [hb] at hb2; cases hb2
          rw [heq, hfresh] at hg; cases hg
        · rw [hwin] at h1; cases h1
      · exact hnc ⟨b, List.mem_of_getElem? (hold i b hb), mkBlock s t now,
          List.mem_of_getElem? hnew, hteq, heq⟩
    rcases hdist with hcol | hdist
    · exact Or.inl hcol
    right
    refine ⟨⟨?_, ?_, ?_⟩, ?_⟩
    · intro h i c hg
      rw [hh, SMap.get_insert] at hg
      split at hg
      · rename_i heq
        simp only [Option.some.injEq, Prod.mk.injEq] at hg
        obtain ⟨rfl, _⟩ := hg
        refine ⟨mkBlock s t now, ts, hnew, heq, by simp [mkBlock, hc], ?_⟩
        rw [ht, SMap.get_insert, if_pos rfl]
      · obtain ⟨b, t', hb, h2, h3, h4⟩ := hi.hash h i c hg
        refine ⟨b, t', hold i b hb, h2, h3, ?_⟩
        rw [ht, SMap.get_insert]
        split
        · rfl
        · exact h4
    · intro t' i hg
      rw [ht, SMap.get_insert] at hg
      split at hg
      · rename_i heq
        simp only [Prod.mk.injEq] at heq
        obtain ⟨rfl, rfl⟩ := heq
        exact ⟨mkBlock s t now, hnew, by simp [mkBlock, hc], none, by
          rw [hh, SMap.get_insert]; simp [mkBlock]⟩
      · obtain ⟨b, hb, h2, c, h3⟩ := hi.time t' i hg
        refine ⟨b, hold i b hb, h2, c, ?_⟩
        rw [hh, SMap.get_insert]
        split
        · rename_i heq
          exact absurd heq.symm (hdist i b hb (by simp [h2]))
        · exact h3
    · intro i b t' hb hcb
      rw [ht, SMap.get_insert]
      rcases hget i b hb with h1 | ⟨rfl, rfl⟩
      · split
        · exact Or.inl rfl
        · exact hi.all i b t' h1 hcb
      · simp only [mkBlock, hc, Option.some.injEq] at hcb
        subst hcb
        simp
    · intro i j b b' hb hb' hcb hcb' hhh
      rcases hget i b hb with h1 | ⟨rfl, rfl⟩
      · rcases hget j b' hb' with h2 | ⟨rfl, rfl⟩
        · exact ho i j b b' h1 h2 hcb hcb' hhh
        · exact absurd hhh (hdist i b h1 hcb)
      · rcases hget j b' hb' with h2 | ⟨rfl, rfl⟩
        · exact absurd hhh.symm (hdist j b' h2 hcb')
        · rfl

omit [Crypto] in
theorem approvals_spend {f : Spec.AllowFn} {key : ApprovalKey} {x : Nat}
    (h : ∀ k a e, f k = some (a, e) → 0 < a ∧ a ≤ U128MAX ∧ e ≤ U64MAX ∧ k.1.1 ≠ k.2.1 ∧
      k.1.1 ≠ managementCanister ∧ k.2.1 ≠ managementCanister) :
    ∀ k a e, Spec.spend f key x k = some (a, e) → 0 < a ∧ a ≤ U128MAX ∧ e ≤ U64MAX ∧
      k.1.1 ≠ k.2.1 ∧ k.1.1 ≠ managementCanister ∧ k.2.1 ≠ managementCanister := by
  intro k a e hk
  simp only [Spec.spend] at hk
  split at hk
  · split at hk
    · rename_i a0 e0 hf
      split at hk
      · cases hk
      · simp only [Option.some.injEq, Prod.mk.injEq] at hk
        obtain ⟨rfl, rfl⟩ := hk
        have := h k a0 e0 hf
        exact ⟨by omega, by omega, this.2.2⟩
    · cases hk
  · exact h k a e hk

omit [Crypto] in
theorem approvals_allowStep {now : Nat} {f : Spec.AllowFn} {b : Block}
    (h : ∀ k a e, f k = some (a, e) → 0 < a ∧ a ≤ U128MAX ∧ e ≤ U64MAX ∧ k.1.1 ≠ k.2.1 ∧
      k.1.1 ≠ managementCanister ∧ k.2.1 ≠ managementCanister)
    (hop : OpOk now b.transaction.operation) :
    ∀ k a e, Spec.allowStep f b k = some (a, e) → 0 < a ∧ a ≤ U128MAX ∧ e ≤ U64MAX ∧
      k.1.1 ≠ k.2.1 ∧ k.1.1 ≠ managementCanister ∧ k.2.1 ≠ managementCanister := by
  intro k a e hk
  cases hopeq : b.transaction.operation with
  | approve frm sp amount ea exp fee =>
    rw [hopeq] at hop
    obtain ⟨h1, h2, h3, h4, h5, h6, h7, h8⟩ := hop
    simp only [Spec.idOf_eq, Spec.allowStep, hopeq] at hk
    by_cases hkk : k = (frm.key, sp.key)
    · subst hkk
      simp only [if_true] at hk
      split at hk
      · cases hk
      · simp only [Option.some.injEq, Prod.mk.injEq] at hk
        obtain ⟨rfl, rfl⟩ := hk
        refine ⟨by omega, h1, ?_, h5, h6, h7⟩
        cases exp with
        | none => simp
        | some x => exact h3 x rfl
    · simp only [hkk, if_false] at hk
      exact h k a e hk
  | _ =>
    rcases allowStep_cases b with ⟨key, v, hs'⟩ | ⟨key, x, hsp, hs'⟩ | hs'
    · cases hsp : Spec.spends b with
      | none => simp only [Spec.allowStep, hopeq, hsp] at hk; exact h k a e hk
      | some kx =>
        simp only [Spec.allowStep, hopeq, hsp] at hk
        exact approvals_spend h k a e hk
    · rw [hs' f] at hk; exact approvals_spend h k a e hk
    · rw [hs' f] at hk; exact h k a e hk

theorem LInv.append {now : Nat} {s s' : State} {t : Transaction} (ha : Appended now s s' t)
    (hi : LInv now s) : LInv now s' := by
  have hsum : s'.cache.totalSupply = s'.balances.sum := by
    have h1 := ha.supply
    have h2 := ha.sum
    have h3 := hi.sum
    omega
  have hbound := ha.bound hi.bound
  have hbal : ∀ k, (balAt s' k : Int) = Spec.balance s'.blocks k := by
    intro k
    rw [ha.bal k, ha.blocks, balance_snoc, hi.bal k]
  have hsup : (s'.cache.totalSupply : Int) = Spec.supply s'.blocks := by
    rw [ha.supply, ha.blocks, supply_snoc, hi.supply]
  have hallow : ∀ k, s.approvals.get k = Spec.allowances s.blocks k ∨ _ := hi.allow
  refine
    { clock := hi.clock
      sum := hsum
      bound := hbound
      queue := ha.queue hi.queue
      approvals := ?_
      phash := ?_
      tree := ?_
      cert := fun _ => ha.cert
      nocert := ?_
      log := ?_
      times := ?_
      bal := hbal
      supply := hsup
      allow := ?_
      dedup := ?_
      zeros := ?_ }
  · intro k a e hk
    rw [ha.allow] at hk
    exact approvals_allowStep (b := mkBlock s t now) hi.approvals ha.op k a e hk
  · rw [ha.phash, ha.blocks, computeTip_snoc]
  · rw [ha.tree, hi.tree, populateTree_tip, ha.blocks]
  · rw [ha.blocks]; simp
  · intro pre b suf heq
    rw [ha.blocks] at heq
    rcases snoc_split heq with ⟨rfl, rfl, rfl⟩ | ⟨suf', _, h2⟩
    · refine
        { phash := ?_
          time := fun b' hb' => hi.times b' hb'
          op := ha.op
          memo := ha.memo
          createdAt := ha.createdAt
          fee := rfl
          balance := ?_
          supply := ?_
          spend := ?_ }
      · show s.cache.phash = _
        rw [hi.phash]
        unfold computeTip
        cases s.blocks.getLast? <;> rfl
      · intro k
        rw [← ha.blocks, ← hbal k]
        omega
      · rw [← ha.blocks, ← hsup]
        omega
      · intro key x hsp
        obtain ⟨a, e, h1, h2, h3⟩ := ha.spend key x hsp
        refine ⟨a, e, ?_, h2, h3⟩
        rcases hi.allow key with h4 | ⟨h4, _⟩
        · rw [← h4]; exact h1
        · rw [h4] at h1; cases h1
    · exact hi.log pre b suf' h2
  · intro b hb
    rw [ha.blocks, List.mem_append] at hb
    rcases hb with hb | hb
    · exact hi.times b hb
    · simp only [List.mem_singleton] at hb
      subst hb
      exact Nat.le_refl _
  · intro k
    rw [ha.blocks, allowances_snoc, ha.allow k]
    refine allowStep_sync ?_ hi.allow k
    intro key x hsp
    obtain ⟨a, e, h1, _⟩ := ha.spend key x hsp
    exact ⟨_, h1⟩
  · rcases hi.dedup with hcol | ⟨h1, h2⟩
    · left
      refine hcol.mono ?_
      intro b hb
      rw [ha.blocks]
      exact List.mem_append_left _ hb
    · exact h1.append ha h2
  · intro k
    rw [ha.zeros k, hi.zeros k, ha.blocks, emptyCredit_snoc, ← ha.blocks, ← hbal k]
    simp only [Int.natCast_eq_zero]

/-! ## The other changes -/

theorem LInv.prune {now : Nat} {s : State} (hi : LInv now s) : LInv now (prune now s) := by
  have h := prune_spec (now := now) hi.queue
  refine
    { clock := hi.clock
      sum := by rw [h.cache, h.balances]; exact hi.sum
      bound := by rw [h.cache]; exact hi.bound
      queue := h.queue
      approvals := ?_
      phash := by rw [h.cache, h.blocks]; exact hi.phash
      tree := by rw [h.cache, h.blocks]; exact hi.tree
      cert := by rw [h.cert, h.cache, h.blocks]; exact hi.cert
      nocert := by rw [h.cert, h.blocks]; exact hi.nocert
      log := by rw [h.blocks]; exact hi.log
      times := by rw [h.blocks]; exact hi.times
      bal := by intro k; unfold balAt; rw [h.balances, h.blocks]; exact hi.bal k
      supply := by rw [h.cache, h.blocks]; exact hi.supply
      allow := ?_
      dedup := ?_
      zeros := by rw [h.balances, h.blocks]; exact hi.zeros }
  · intro k a e hk
    rcases h.approvals k with h1 | ⟨h1, _⟩
    · rw [h1] at hk; exact hi.approvals k a e hk
    · rw [h1] at hk; cases hk
  · intro k
    rw [h.blocks]
    rcases h.approvals k with h1 | ⟨h1, a, e, h2, h3⟩
    · rw [h1]; exact hi.allow k
    · right
      rcases hi.allow k with h4 | ⟨h4, _⟩
      · exact ⟨h1, a, e, by rw [← h4]; exact h2, h3⟩
      · rw [h4] at h2; cases h2
  · rw [h.blocks]
    rcases hi.dedup with hcol | ⟨h1, h2⟩
    · exact Or.inl hcol
    · exact Or.inr ⟨(prune_tx hi.queue h1).1, h2⟩

/-- Recording the created canister keeps the tables consistent. -/
theorem HashInv.mark {now : Nat} {s : State} {i : Nat} {b : Block} {c : Principal}
    (hb : s.blocks[i]? = some b) (hcon : s.transactionHashes.contains b.transaction.hash! = true)
    (hi : HashInv now s) (ho : OnceInLog s.blocks) :
    LogCollision s.blocks ∨ HashInv now { s with
      transactionHashes := s.transactionHashes.insert b.transaction.hash! (i, some c) } := by
  unfold SMap.contains at hcon
  rw [Option.isSome_iff_exists] at hcon
  obtain ⟨⟨j, c0⟩, hj⟩ := hcon
  obtain ⟨b', t', hb', hh', hc', ht'⟩ := hi.hash _ _ _ hj
  by_cases hteq : b'.transaction = b.transaction
  · right
    have hij : i = j := ho i j b b' hb hb' (by rw [← hteq, hc']; rfl) (by rw [hc']; rfl) hh'.symm
    subst hij
    rw [hb] at hb'; cases hb'
    refine ⟨?_, ?_, hi.all⟩
    · intro h i' c' hg
      simp only [SMap.get_insert] at hg
      split at hg
      · rename_i heq
        simp only [Option.some.injEq, Prod.mk.injEq] at hg
        obtain ⟨rfl, _⟩ := hg
        exact ⟨b, t', hb, heq, hc', ht'⟩
      · exact hi.hash h i' c' hg
    · intro t2 i2 hg
      obtain ⟨b2, hb2, hc2, c2, hg2⟩ := hi.time t2 i2 hg
      refine ⟨b2, hb2, hc2, ?_⟩
      simp only [SMap.get_insert]
      split
      · rename_i heq
        rw [← heq, hj] at hg2
        simp only [Option.some.injEq, Prod.mk.injEq] at hg2
        exact ⟨some c, by rw [hg2.1]⟩
      · exact ⟨c2, hg2⟩
  · exact Or.inl ⟨b', List.mem_of_getElem? hb', b, List.mem_of_getElem? hb, hteq, hh'⟩

theorem LInv.atom {now : Nat} {s s' : State} (ha : Atom now s s') (hi : LInv now s) :
    LInv now s' := by
  cases ha with
  | append h => exact hi.append h
  | prune => exact hi.prune
  | mark i b c hb hcon =>
    refine { hi with dedup := ?_ }
    rcases hi.dedup with hcol | ⟨h1, h2⟩
    · exact Or.inl hcol
    · rcases h1.mark (c := c) hb hcon h2 with h3 | h3
      · exact Or.inl h3
      · exact Or.inr ⟨h3, h2⟩
  | reload c =>
    have hs : computeTotalSupply s.balances = s.cache.totalSupply := by
      rw [computeTotalSupply_eq (by rw [← hi.sum]; exact hi.bound), hi.sum]
    refine
      { clock := hi.clock
        sum := ?_
        bound := ?_
        queue := hi.queue
        approvals := hi.approvals
        phash := rfl
        tree := rfl
        cert := ?_
        nocert := hi.nocert
        log := hi.log
        times := hi.times
        bal := hi.bal
        supply := ?_
        allow := hi.allow
        dedup := ?_
        zeros := hi.zeros }
    · simp only [reload, hs]; exact hi.sum
    · simp only [reload, hs]; exact hi.bound
    · intro hne
      have := hi.cert hne
      rw [hi.tree] at this
      exact this
    · simp only [reload, hs]; exact hi.supply
    · rcases hi.dedup with hcol | ⟨h1, h2⟩
      · exact Or.inl hcol
      · exact Or.inr ⟨h1.congr rfl rfl rfl, h2⟩

theorem LInv.chain {now : Nat} {s s' : State} (hc : Chain now s s') (hi : LInv now s) :
    LInv now s' := by
  induction hc with
  | refl => exact hi
  | tail _ ha ih => exact ih.atom ha

theorem Atom.blocks_prefix {now : Nat} {s s' : State} (ha : Atom now s s') (hi : LInv now s) :
    s.blocks <+: s'.blocks := by
  cases ha with
  | append h => rw [h.blocks]; exact List.prefix_append _ _
  | prune => rw [(prune_spec hi.queue).blocks]; exact List.prefix_refl _
  | mark => exact List.prefix_refl _
  | reload => exact List.prefix_refl _

theorem Chain.blocks_prefix {now : Nat} {s s' : State} (hc : Chain now s s') (hi : LInv now s) :
    s.blocks <+: s'.blocks := by
  induction hc with
  | refl => exact List.prefix_refl _
  | tail h1 ha ih => exact ih.trans (ha.blocks_prefix (hi.chain h1))

/-- The empty ledger satisfies the invariant. -/
theorem LInv.empty {now : Nat} (h : now ≤ U64MAX) : LInv now State.empty := by
  refine
    { clock := h
      sum := rfl
      bound := by simp [State.empty]
      queue := ?_
      approvals := ?_
      phash := rfl
      tree := rfl
      cert := by simp [State.empty]
      nocert := fun _ => rfl
      log := ?_
      times := ?_
      bal := ?_
      supply := rfl
      allow := ?_
      dedup := ?_
      zeros := ?_ }
  · intro e k; simp [State.empty, SMap.get_empty]
  · intro k a e hk; simp [State.empty, SMap.get_empty] at hk
  · intro pre b suf heq; simp [State.empty] at heq
  · intro b hb; simp [State.empty] at hb
  · intro k; rfl
  · intro k; left; rfl
  · right
    refine ⟨⟨?_, ?_, ?_⟩, ?_⟩
    · intro h i c hg; simp [State.empty, SMap.get_empty] at hg
    · intro t i hg; simp [State.empty, SMap.get_empty] at hg
    · intro i b t hb; simp [State.empty] at hb
    · intro i j b b' hb; simp [State.empty] at hb
  · intro k
    simp [State.empty, SMap.get_empty, Spec.EmptyCredit]

end CyclesLedger
