import Verif.Model.System
import Verif.Proof.TxHash
import Verif.Proof.Ident
/-!
# What the storage functions do

Characterisations of the model functions: every success has one common shape
(`Appended`), errors before the first mutation leave the state alone.
-/
namespace CyclesLedger

/-! ## Arithmetic helpers -/

theorem checkedAdd_eq_some {a b c : Nat} : checkedAdd a b = some c ↔ c = a + b ∧ a + b ≤ U128MAX := by
  unfold checkedAdd
  split
  · simp; constructor
    · intro h; exact ⟨h.symm, by omega⟩
    · intro h; exact h.1.symm
  · simp; omega

theorem checkedAdd_eq_none {a b : Nat} : checkedAdd a b = none ↔ U128MAX < a + b := by
  unfold checkedAdd; split <;> simp <;> omega

theorem checkedSub_eq_some {a b c : Nat} : checkedSub a b = some c ↔ b ≤ a ∧ c = a - b := by
  unfold checkedSub
  split
  · simp; constructor
    · intro h; exact ⟨by assumption, h.symm⟩
    · intro h; exact h.2.symm
  · simp; omega

theorem checkedSub_eq_none {a b : Nat} : checkedSub a b = none ↔ a < b := by
  unfold checkedSub; split <;> simp <;> omega

/-- Balance at a key. -/
def balAt (s : State) (k : AccountKey) : Nat := (s.balances.get k).getD 0

theorem balanceOf_eq (s : State) (a : Account) : balanceOf s a = balAt s a.key := rfl

/-! ## `credit`, `debit` -/

/-- Everything but balances and supply is the same. -/
structure SameExceptBalances (s s' : State) : Prop where
  blocks : s'.blocks = s.blocks
  approvals : s'.approvals = s.approvals
  queue : s'.expirationQueue = s.expirationQueue
  hashes : s'.transactionHashes = s.transactionHashes
  timestamps : s'.transactionTimestamps = s.transactionTimestamps
  config : s'.config = s.config
  phash : s'.cache.phash = s.cache.phash
  tree : s'.cache.hashTree = s.cache.hashTree
  cert : s'.certifiedData = s.certifiedData

theorem credit_eq_some {s s' : State} {a : Account} {x : Nat} (h : credit s a x = some s') :
    SameExceptBalances s s' ∧
    (∀ k, balAt s' k = balAt s k + if a.key = k then x else 0) ∧
    s'.cache.totalSupply = s.cache.totalSupply + x ∧
    s'.balances.sum = s.balances.sum + x ∧
    s.cache.totalSupply + x ≤ U128MAX ∧ balAt s a.key + x ≤ U128MAX := by
  unfold credit at h
  split at h
  · cases h
  · rename_i nb hnb
    split at h
    · cases h
    · rename_i ns hns
      rw [checkedAdd_eq_some] at hnb hns
      cases h
      refine ⟨⟨rfl, rfl, rfl, rfl, rfl, rfl, rfl, rfl, rfl⟩, ?_, hns.1, ?_, hns.2, ?_⟩
      · intro k
        simp only [balAt, SMap.get_insert]
        split
        · rename_i hk; subst hk; simp [hnb.1, balanceOf]
        · simp
      · have := s.balances.sum_insert a.key nb
        have h2 := hnb.1
        unfold balanceOf at h2
        simp only
        omega
      · have := hnb.2; rwa [balanceOf_eq] at this

theorem credit_get {s s' : State} {a : Account} {x : Nat} (h : credit s a x = some s')
    (k : AccountKey) :
    s'.balances.get k = if a.key = k then some (balAt s k + x) else s.balances.get k := by
  unfold credit at h
  split at h
  · cases h
  · rename_i nb hnb
    split at h
    · cases h
    · rw [checkedAdd_eq_some, balanceOf_eq] at hnb
      cases h
      simp only [SMap.get_insert]
      split
      · rename_i hk; subst hk; rw [hnb.1]
      · rfl

theorem debit_get {s s' : State} {a : Account} {x : Nat} (h : debit s a x = some s')
    (k : AccountKey) :
    s'.balances.get k = if a.key = k then
      (if balAt s k - x = 0 then none else some (balAt s k - x)) else s.balances.get k := by
  unfold debit at h
  split at h
  · cases h
  · rename_i nb hnb
    split at h
    · cases h
    · rw [checkedSub_eq_some, balanceOf_eq] at hnb
      cases h
      simp only
      by_cases hk : a.key = k
      · subst hk
        by_cases h0 : nb = 0
        · simp only [h0, if_true, SMap.get_erase]
          rw [if_pos (by rw [← hnb.2]; exact h0)]
        · simp only [h0, if_false, if_true, SMap.get_insert]
          rw [if_neg (by rw [← hnb.2]; exact h0), hnb.2]
      · by_cases h0 : nb = 0
        · simp only [h0, if_true, SMap.get_erase, if_neg hk]
        · simp only [h0, if_false, SMap.get_insert, if_neg hk]

theorem credit_isSome {s : State} {a : Account} {x : Nat}
    (h1 : balAt s a.key + x ≤ U128MAX) (h2 : s.cache.totalSupply + x ≤ U128MAX) :
    ∃ s', credit s a x = some s' := by
  unfold credit
  rw [balanceOf_eq, checkedAdd_eq_some.mpr ⟨rfl, h1⟩]
  simp only
  rw [checkedAdd_eq_some.mpr ⟨rfl, h2⟩]
  exact ⟨_, rfl⟩

theorem debit_eq_some {s s' : State} {a : Account} {x : Nat} (h : debit s a x = some s') :
    SameExceptBalances s s' ∧
    (∀ k, balAt s' k = balAt s k - if a.key = k then x else 0) ∧
    s'.cache.totalSupply = s.cache.totalSupply - x ∧
    s'.balances.sum + x = s.balances.sum ∧
    x ≤ s.cache.totalSupply ∧ x ≤ balAt s a.key := by
  unfold debit at h
  split at h
  · cases h
  · rename_i nb hnb
    split at h
    · cases h
    · rename_i ns hns
      rw [checkedSub_eq_some] at hnb hns
      rw [balanceOf_eq] at hnb
      cases h
      refine ⟨⟨rfl, rfl, rfl, rfl, rfl, rfl, rfl, rfl, rfl⟩, ?_, hns.2, ?_, hns.1, hnb.1⟩
      · intro k
        simp only [balAt]
        split
        · rename_i h0
          rw [SMap.get_erase]
          split
          · rename_i hk; subst hk
            have := hnb.2; unfold balAt at this; simp; omega
          · simp
        · rw [SMap.get_insert]
          split
          · rename_i hk; subst hk; simp [hnb.2, balAt]
          · simp
      · have h1 := hnb.1
        have h2 := hnb.2
        unfold balAt at h1 h2
        simp only
        split
        · have := s.balances.sum_erase a.key
          omega
        · have := s.balances.sum_insert a.key nb
          omega

theorem debit_isSome {s : State} {a : Account} {x : Nat}
    (h1 : x ≤ balAt s a.key) (h2 : x ≤ s.cache.totalSupply) : ∃ s', debit s a x = some s' := by
  unfold debit
  rw [balanceOf_eq, checkedSub_eq_some.mpr ⟨h1, rfl⟩]
  simp only
  rw [checkedSub_eq_some.mpr ⟨h2, rfl⟩]
  exact ⟨_, rfl⟩

/-! ## Appending a block -/

variable [Crypto]

/-- The block `process_transaction` builds. -/
def mkBlock (s : State) (t : Transaction) (now : Nat) : Block :=
  ⟨t, now, s.cache.phash, effectiveFee t.operation⟩

/-- The state after appending block `b` (`emit_block`). -/
def pushBlock (s : State) (b : Block) : State :=
  let s1 : State := { s with
    cache := { s.cache with phash := some b.hash
                            hashTree := populateTree s.cache.hashTree s.blocks.length b.hash }
    blocks := s.blocks ++ [b]
    certifiedData := some (populateTree s.cache.hashTree s.blocks.length b.hash).rootHash }
  match b.transaction.createdAtTime with
  | none => s1
  | some ts =>
    { s1 with
      transactionHashes := s.transactionHashes.insert b.transaction.hash! (s.blocks.length, none)
      transactionTimestamps := s.transactionTimestamps.insert (ts, s.blocks.length) () }

theorem emitBlock_eq (s : State) (b : Block) : emitBlock s b = some (pushBlock s b) := by
  unfold emitBlock pushBlock
  rw [Transaction.hash_eq_some]
  simp only [List.length_append, List.length_singleton, Nat.add_sub_cancel]
  cases b.transaction.createdAtTime <;> rfl

@[simp] theorem pushBlock_blocks (s : State) (b : Block) :
    (pushBlock s b).blocks = s.blocks ++ [b] := by
  unfold pushBlock; simp only; split <;> rfl
@[simp] theorem pushBlock_balances (s : State) (b : Block) :
    (pushBlock s b).balances = s.balances := by
  unfold pushBlock; simp only; split <;> rfl
@[simp] theorem pushBlock_approvals (s : State) (b : Block) :
    (pushBlock s b).approvals = s.approvals := by
  unfold pushBlock; simp only; split <;> rfl
@[simp] theorem pushBlock_queue (s : State) (b : Block) :
    (pushBlock s b).expirationQueue = s.expirationQueue := by
  unfold pushBlock; simp only; split <;> rfl
@[simp] theorem pushBlock_config (s : State) (b : Block) :
    (pushBlock s b).config = s.config := by
  unfold pushBlock; simp only; split <;> rfl
@[simp] theorem pushBlock_supply (s : State) (b : Block) :
    (pushBlock s b).cache.totalSupply = s.cache.totalSupply := by
  unfold pushBlock; simp only; split <;> rfl
@[simp] theorem pushBlock_phash (s : State) (b : Block) :
    (pushBlock s b).cache.phash = some b.hash := by
  unfold pushBlock; simp only; split <;> rfl
@[simp] theorem pushBlock_tree (s : State) (b : Block) :
    (pushBlock s b).cache.hashTree = populateTree s.cache.hashTree s.blocks.length b.hash := by
  unfold pushBlock; simp only; split <;> rfl
@[simp] theorem pushBlock_cert (s : State) (b : Block) :
    (pushBlock s b).certifiedData =
      some (populateTree s.cache.hashTree s.blocks.length b.hash).rootHash := by
  unfold pushBlock; simp only; split <;> rfl
@[simp] theorem balAt_pushBlock (s : State) (b : Block) (k : AccountKey) :
    balAt (pushBlock s b) k = balAt s k := by unfold balAt; simp

theorem processTransaction_ok {s s' : State} {t : Transaction} {now i : Nat}
    (h : processTransaction s t now = .ok i s') :
    validateMemo t.memo = true ∧ validateCreatedAtTime t.createdAtTime now = none ∧
    i = s.blocks.length ∧ s' = pushBlock s (mkBlock s t now) := by
  unfold processTransaction at h
  split at h
  · cases h
  · rename_i hm
    simp only [Bool.not_eq_true', Bool.not_eq_false] at hm
    split at h
    · cases h
    · rename_i hc
      rw [emitBlock_eq] at h
      simp only [Res.ok.injEq] at h
      obtain ⟨rfl, rfl⟩ := h
      refine ⟨hm, hc, ?_, rfl⟩
      simp

theorem processTransaction_err {s s' : State} {t : Transaction} {now : Nat} {e : PTErr}
    (h : processTransaction s t now = .err e s') :
    s' = s ∧ validateMemo t.memo = true ∧
    ∃ c, e = .invalidCreatedAtTime c ∧ validateCreatedAtTime t.createdAtTime now = some c := by
  unfold processTransaction at h
  split at h
  · cases h
  · rename_i hm
    simp only [Bool.not_eq_true', Bool.not_eq_false] at hm
    split at h
    · rename_i c hc
      simp only [Res.err.injEq] at h
      exact ⟨h.2.symm, hm, c, h.1.symm, hc⟩
    · rw [emitBlock_eq] at h; cases h

theorem processTransaction_trap {s : State} {t : Transaction} {now : Nat} :
    processTransaction s t now = .trap ↔ validateMemo t.memo = false := by
  unfold processTransaction
  rw [emitBlock_eq]
  cases hm : validateMemo t.memo
  · simp
  · simp; split <;> simp

theorem processTransaction_eq_ok {s : State} {t : Transaction} {now : Nat}
    (hm : validateMemo t.memo = true) (hc : validateCreatedAtTime t.createdAtTime now = none) :
    processTransaction s t now = .ok s.blocks.length (pushBlock s (mkBlock s t now)) := by
  unfold processTransaction
  rw [emitBlock_eq]
  simp [hm, hc, mkBlock]

theorem checkDuplicate_eq_none {s : State} {t : Transaction} :
    checkDuplicate s t = none ↔ s.transactionHashes.get t.hash! = none := by
  unfold checkDuplicate
  rw [Transaction.hash_eq_some]
  simp only
  split <;> simp_all

theorem checkDuplicate_eq_some {s : State} {t : Transaction} {e : PTErr} :
    checkDuplicate s t = some e ↔
      ∃ i c, s.transactionHashes.get t.hash! = some (i, c) ∧ e = .duplicate i c := by
  unfold checkDuplicate
  rw [Transaction.hash_eq_some]
  simp only
  split
  · rename_i i c h
    simp only [h, Option.some.injEq, Prod.mk.injEq]
    constructor
    · rintro rfl; exact ⟨i, c, ⟨rfl, rfl⟩, rfl⟩
    · rintro ⟨_, _, ⟨rfl, rfl⟩, rfl⟩; rfl
  · rename_i h
    simp [h]

end CyclesLedger
