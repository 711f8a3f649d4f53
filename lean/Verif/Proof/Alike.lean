import Verif.Proof.Exec
import Verif.Proof.Values
import Verif.Spec.Writing
/-!
# Ledgers that differ only in how accounts are written

`Alike` ledgers have the same balances, allowances, supply and log length.  Requests that
name the same accounts keep ledgers alike and get the same answers, unless one of them is a
duplicate.
-/
namespace CyclesLedger
variable [Crypto]

omit [Crypto] in
/-- The two ledgers agree on everything but the contents of the log and the tables and hashes
derived from it. -/
structure Alike (s s' : State) : Prop where
  balances : s.balances = s'.balances
  approvals : s.approvals = s'.approvals
  queue : s.expirationQueue = s'.expirationQueue
  config : s.config = s'.config
  supply : s.cache.totalSupply = s'.cache.totalSupply
  length : s.blocks.length = s'.blocks.length

omit [Crypto] in
theorem Alike.refl (s : State) : Alike s s := ⟨rfl, rfl, rfl, rfl, rfl, rfl⟩

omit [Crypto] in
/-- Two results with alike states. -/
def ResSim {ε α : Type} (R : α → α → Prop) : Res State ε α → Res State ε α → Prop
  | .ok a s, .ok a' s' => R a a' ∧ Alike s s'
  | .err e s, .err e' s' => e = e' ∧ Alike s s'
  | .trap, .trap => True
  | _, _ => False

omit [Crypto] in
def OptSim : Option State → Option State → Prop
  | some s, some s' => Alike s s'
  | none, none => True
  | _, _ => False

omit [Crypto] in
def ExSim {ε : Type} : Except ε State → Except ε State → Prop
  | .ok s, .ok s' => Alike s s'
  | .error e, .error e' => e = e'
  | _, _ => False

section
variable {s s' : State} (h : Alike s s') {a a' b b' : Account} {sp sp' : Option Account}
  (ha : a.key = a'.key) (hb : b.key = b'.key) (hs : sp.map Account.key = sp'.map Account.key)
include h ha

omit [Crypto] in
theorem Alike.balanceOf : balanceOf s a = balanceOf s' a' := by
  unfold CyclesLedger.balanceOf; rw [h.balances, ha]

omit [Crypto] in
theorem Alike.checkCredit (x : Nat) : checkCredit s a x = checkCredit s' a' x := by
  unfold CyclesLedger.checkCredit checkCreditToAccount checkTotalSupplyIncrease
  rw [h.balanceOf ha, h.supply]

omit [Crypto] in
theorem Alike.credit (x : Nat) : OptSim (credit s a x) (credit s' a' x) := by
  unfold CyclesLedger.credit
  rw [h.balanceOf ha, h.supply]
  cases checkedAdd (CyclesLedger.balanceOf s' a') x with
  | none => trivial
  | some nb =>
    cases checkedAdd s'.cache.totalSupply x with
    | none => trivial
    | some ns =>
      exact ⟨by simp only [h.balances, ha], h.approvals, h.queue, h.config, rfl, h.length⟩

omit [Crypto] in
theorem Alike.debit (x : Nat) : OptSim (debit s a x) (debit s' a' x) := by
  unfold CyclesLedger.debit
  rw [h.balanceOf ha, h.supply]
  cases checkedSub (CyclesLedger.balanceOf s' a') x with
  | none => trivial
  | some nb =>
    cases checkedSub s'.cache.totalSupply x with
    | none => trivial
    | some ns =>
      exact ⟨by simp only [h.balances, ha], h.approvals, h.queue, h.config, rfl, h.length⟩

include hb

omit [Crypto] in
theorem Alike.allowance (now : Nat) : allowance s a b now = allowance s' a' b' now := by
  unfold CyclesLedger.allowance; rw [h.approvals, ha, hb]

omit [Crypto] in
theorem Alike.checkAllowance (x now : Nat) :
    checkAllowance s a b x now = checkAllowance s' a' b' x now := by
  unfold CyclesLedger.checkAllowance; rw [h.approvals, ha, hb]

omit [Crypto] in
theorem Alike.useAllowance (x now : Nat) :
    ExSim (useAllowance s a b x now) (useAllowance s' a' b' x now) := by
  unfold CyclesLedger.useAllowance
  rw [h.checkAllowance ha hb]
  cases CyclesLedger.checkAllowance s' a' b' x now with
  | error e => rfl
  | ok r =>
    obtain ⟨new, exp⟩ := r
    simp only
    split
    · exact ⟨h.balances, by simp only [h.approvals, ha, hb],
        by simp only [h.queue, ha, hb], h.config, h.supply, h.length⟩
    · exact ⟨h.balances, by simp only [h.approvals, ha, hb], h.queue, h.config, h.supply, h.length⟩

omit [Crypto] in
theorem Alike.recordApproval (x : Nat) (e : Option Nat) :
    Alike (recordApproval s a b x e) (recordApproval s' a' b' x e) := by
  unfold CyclesLedger.recordApproval
  simp only [h.approvals, ha, hb, h.queue]
  cases s'.approvals.get (a'.key, b'.key) with
  | none =>
    simp only
    split
    · exact h
    · exact ⟨h.balances, rfl, rfl, h.config, h.supply, h.length⟩
  | some r =>
    obtain ⟨r1, cur⟩ := r
    simp only
    split
    · exact ⟨h.balances, rfl, rfl, h.config, h.supply, h.length⟩
    · split
      · exact ⟨h.balances, rfl, rfl, h.config, h.supply, h.length⟩
      · exact ⟨h.balances, rfl, rfl, h.config, h.supply, h.length⟩

omit hb
include hs

omit [Crypto] h in
theorem chargedSpender_alike :
    (chargedSpender a sp).map Account.key = (chargedSpender a' sp').map Account.key := by
  unfold chargedSpender Account.same
  cases sp with
  | none =>
    cases sp' with
    | none => rfl
    | some y => simp at hs
  | some x =>
    cases sp' with
    | none => simp at hs
    | some y =>
      simp only [Option.map_some, Option.some.injEq] at hs
      simp only [hs, ha]
      split <;> simp [hs]

omit [Crypto] in
theorem Alike.checkAllowanceOpt (x now : Nat) :
    checkAllowanceOpt s a sp x now = checkAllowanceOpt s' a' sp' x now := by
  have hc := chargedSpender_alike ha hs
  unfold CyclesLedger.checkAllowanceOpt
  cases h1 : chargedSpender a sp <;> cases h2 : chargedSpender a' sp' <;>
    simp only [h1, h2, Option.map_some, Option.map_none, Option.some.injEq, reduceCtorEq] at hc ⊢
  exact h.checkAllowance ha hc x now

omit [Crypto] in
theorem Alike.useAllowanceOpt (x now : Nat) :
    ExSim (useAllowanceOpt s a sp x now) (useAllowanceOpt s' a' sp' x now) := by
  have hc := chargedSpender_alike ha hs
  unfold CyclesLedger.useAllowanceOpt
  cases h1 : chargedSpender a sp <;> cases h2 : chargedSpender a' sp' <;>
    simp only [h1, h2, Option.map_some, Option.map_none, Option.some.injEq, reduceCtorEq] at hc ⊢
  · exact h
  · exact h.useAllowance ha hc x now

end

/-! ## Pruning -/

omit [Crypto] in
theorem Alike.pruneApprovals (now n : Nat) {s s' : State} (h : Alike s s') :
    Alike (pruneApprovals now s n) (pruneApprovals now s' n) := by
  induction n generalizing s s' with
  | zero => exact h
  | succ n ih =>
    unfold CyclesLedger.pruneApprovals
    rw [h.queue]
    cases s'.expirationQueue.first? with
    | none => exact h
    | some r =>
      obtain ⟨key, u⟩ := r
      simp only
      split
      · exact h
      · exact ih ⟨h.balances, by simp only [h.approvals], rfl, h.config, h.supply, h.length⟩

theorem pruneTransactions_alike (now n : Nat) (s : State) : Alike s (pruneTransactions now s n) := by
  induction n generalizing s with
  | zero => exact .refl s
  | succ n ih =>
    unfold pruneTransactions
    cases s.transactionTimestamps.first? with
    | none => exact .refl s
    | some r =>
      obtain ⟨⟨ts, idx⟩, u⟩ := r
      simp only
      split
      · exact .refl s
      · split
        · have := ih { s with transactionTimestamps := s.transactionTimestamps.erase (ts, idx) }
          exact ⟨this.1, this.2, this.3, this.4, this.5, this.6⟩
        · rename_i b hb
          rw [Transaction.hash_eq_some]
          simp only
          have := ih { s with
            transactionTimestamps := s.transactionTimestamps.erase (ts, idx)
            transactionHashes := s.transactionHashes.erase b.transaction.hash! }
          exact ⟨this.1, this.2, this.3, this.4, this.5, this.6⟩

omit [Crypto] in
theorem Alike.trans {s1 s2 s3 : State} (h : Alike s1 s2) (g : Alike s2 s3) : Alike s1 s3 :=
  ⟨h.1.trans g.1, h.2.trans g.2, h.3.trans g.3, h.4.trans g.4, h.5.trans g.5, h.6.trans g.6⟩

omit [Crypto] in
theorem Alike.symm {s1 s2 : State} (h : Alike s1 s2) : Alike s2 s1 :=
  ⟨h.1.symm, h.2.symm, h.3.symm, h.4.symm, h.5.symm, h.6.symm⟩

theorem Alike.prune (now : Nat) {s s' : State} (h : Alike s s') :
    Alike (prune now s) (prune now s') :=
  ((pruneTransactions_alike now _ _).symm.trans (h.pruneApprovals now _)).trans
    (pruneTransactions_alike now _ _)

/-! ## Blocks -/

theorem Alike.pushBlock {s s' : State} (h : Alike s s') (b b' : Block) :
    Alike (pushBlock s b) (pushBlock s' b') :=
  ⟨by simp [h.balances], by simp [h.approvals], by simp [h.queue], by simp [h.config],
    by simp [h.supply], by simp [h.length]⟩

theorem Alike.processTransaction {s s' : State} (h : Alike s s') {t t' : Transaction}
    (hm : t.memo = t'.memo) (hc : t.createdAtTime = t'.createdAtTime) (now : Nat) :
    ResSim (· = ·) (processTransaction s t now) (processTransaction s' t' now) := by
  unfold CyclesLedger.processTransaction
  rw [emitBlock_eq, emitBlock_eq, hm, hc]
  split
  · trivial
  · cases validateCreatedAtTime t'.createdAtTime now with
    | some e => exact ⟨rfl, h⟩
    | none =>
      refine ⟨?_, h.pushBlock _ _⟩
      simp [h.length]

/-- The table of recent transactions is empty. -/
def Blank (s : State) : Prop := ∀ h, s.transactionHashes.get h = none

theorem Blank.append {now : Nat} {s s' : State} {t : Transaction} (h : Blank s)
    (ha : Appended now s s' t) (hc : t.createdAtTime = none) : Blank s' := by
  intro k
  rw [ha.hashes]
  unfold CyclesLedger.pushBlock
  simp only [mkBlock, hc]
  exact h k

omit [Crypto] in
theorem pruneApprovals_hashes (now : Nat) (s : State) (n : Nat) :
    (pruneApprovals now s n).transactionHashes = s.transactionHashes := by
  induction n generalizing s with
  | zero => rfl
  | succ n ih =>
    unfold CyclesLedger.pruneApprovals
    split
    · rfl
    · split
      · rfl
      · rw [ih]

theorem Blank.pruneTransactions {s : State} (h : Blank s) (now n : Nat) :
    Blank (pruneTransactions now s n) := by
  induction n generalizing s with
  | zero => exact h
  | succ n ih =>
    unfold CyclesLedger.pruneTransactions
    split
    · exact h
    · split
      · exact h
      · simp only
        split
        · exact ih h
        · rw [Transaction.hash_eq_some]
          refine ih ?_
          intro k
          show (s.transactionHashes.erase _).get k = none
          rw [SMap.get_erase]; split
          · rfl
          · exact h k

theorem Blank.prune {s : State} (h : Blank s) (now : Nat) : Blank (prune now s) := by
  unfold CyclesLedger.prune
  refine Blank.pruneTransactions ?_ now _
  intro k
  rw [pruneApprovals_hashes]
  exact h k

theorem not_blank {s : State} {t : Transaction} {e : PTErr} (h : checkDuplicate s t = some e) :
    ¬Blank s := by
  intro hb
  unfold checkDuplicate at h
  rw [Transaction.hash_eq_some] at h
  have := hb t.hash!
  simp only at h
  rw [this] at h
  cases h

/-- Either there is no duplicate or the answer says so. -/
theorem checkDuplicate_cases (s : State) (t : Transaction) :
    checkDuplicate s t = none ∨ ∃ i c, checkDuplicate s t = some (.duplicate i c) := by
  unfold checkDuplicate
  rw [Transaction.hash_eq_some]
  simp only
  split
  · exact Or.inr ⟨_, _, rfl⟩
  · exact Or.inl rfl

omit [Crypto] in
theorem ResSim.err {ε α : Type} {R : α → α → Prop} {e : ε} {s s' : State} (h : Alike s s') :
    ResSim R (.err e s) (.err e s') := ⟨rfl, h⟩

omit [Crypto] in
theorem ResSim.errOrTrap {ε α : Type} {R : α → α → Prop} {e : Option ε} {s s' : State}
    (h : Alike s s') : ResSim R (errOrTrap e s) (errOrTrap e s') := by
  cases e with
  | none => trivial
  | some e => exact ⟨rfl, h⟩

/-- The end shared by `transfer`, `withdraw`, `create_canister`: block, allowance, debit. -/
theorem Alike.burnTail {ε α : Type} {R : α → α → Prop} {s s' : State} (h : Alike s s')
    {t t' : Transaction} {a a' : Account} {sp sp' : Option Account} {x now : Nat}
    (hm : t.memo = t'.memo) (hc : t.createdAtTime = t'.createdAtTime) (ha : a.key = a'.key)
    (hs : sp.map Account.key = sp'.map Account.key) (f : PTErr → ε)
    (k k' : Nat → State → Res State ε α)
    (hk : ∀ i u u', Alike u u' → ResSim R (k i u) (k' i u')) :
    ResSim R
      (match CyclesLedger.processTransaction s t now with
        | .trap => .trap
        | .err e s => .err (f e) s
        | .ok idx s =>
          match CyclesLedger.useAllowanceOpt s a sp x now with
          | .error _ => .trap
          | .ok s =>
            match CyclesLedger.debit s a x with
            | none => .trap
            | some s => k idx s)
      (match CyclesLedger.processTransaction s' t' now with
        | .trap => .trap
        | .err e s => .err (f e) s
        | .ok idx s =>
          match CyclesLedger.useAllowanceOpt s a' sp' x now with
          | .error _ => .trap
          | .ok s =>
            match CyclesLedger.debit s a' x with
            | none => .trap
            | some s => k' idx s) := by
  have hp := h.processTransaction hm hc now
  revert hp
  cases CyclesLedger.processTransaction s t now <;>
    cases CyclesLedger.processTransaction s' t' now <;> intro hp <;>
    simp only [ResSim] at hp ⊢
  · obtain ⟨rfl, hp⟩ := hp
    have hu := hp.useAllowanceOpt ha hs x now
    revert hu
    rename_i i u u'
    cases CyclesLedger.useAllowanceOpt u a sp x now <;>
      cases CyclesLedger.useAllowanceOpt u' a' sp' x now <;> intro hu <;>
      simp only [ExSim] at hu ⊢
    · have hd := hu.debit ha x
      revert hd
      rename_i v v'
      cases CyclesLedger.debit v a x <;> cases CyclesLedger.debit v' a' x <;> intro hd <;>
        simp only [OptSim] at hd ⊢
      exact hk _ _ _ hd
  · exact ⟨by rw [hp.1], hp.2⟩

/-! ## Operations -/

theorem Alike.mint {s s' : State} (h : Alike s s') {a a' : Account} (ha : a.key = a'.key)
    (x : Nat) (memo : Option Bytes) (now : Nat) :
    ResSim (· = ·) (mint s a x memo now) (mint s' a' x memo now) := by
  unfold CyclesLedger.mint
  rw [h.checkCredit ha]
  split
  · exact .err h
  · have hp := h.processTransaction (t := ⟨.mint a x FEE, none, memo⟩)
      (t' := ⟨.mint a' x FEE, none, memo⟩) rfl rfl now
    revert hp
    cases CyclesLedger.processTransaction s ⟨.mint a x FEE, none, memo⟩ now <;>
      cases CyclesLedger.processTransaction s' ⟨.mint a' x FEE, none, memo⟩ now <;> intro hp <;>
      simp only [ResSim] at hp ⊢
    · obtain ⟨rfl, hp⟩ := hp
      have hd := hp.credit ha x
      revert hd
      rename_i i v v'
      cases CyclesLedger.credit v a x <;> cases CyclesLedger.credit v' a' x <;> intro hd <;>
        simp only [OptSim] at hd ⊢
      exact ⟨trivial, hd⟩
    · exact ⟨by rw [hp.1], hp.2⟩

theorem Alike.reimburse {s s' : State} (h : Alike s s') {a a' : Account} (ha : a.key = a'.key)
    (x now : Nat) (memo : Bytes) :
    ResSim (· = ·) (reimburse s a x now memo) (reimburse s' a' x now memo) := by
  unfold CyclesLedger.reimburse
  have hp := h.processTransaction (t := ⟨.mint a x 0, none, some memo⟩)
    (t' := ⟨.mint a' x 0, none, some memo⟩) rfl rfl now
  revert hp
  cases CyclesLedger.processTransaction s ⟨.mint a x 0, none, some memo⟩ now <;>
    cases CyclesLedger.processTransaction s' ⟨.mint a' x 0, none, some memo⟩ now <;> intro hp <;>
    simp only [ResSim] at hp ⊢
  · obtain ⟨rfl, hp⟩ := hp
    have hd := hp.credit ha x
    revert hd
    rename_i i v v'
    cases CyclesLedger.credit v a x <;> cases CyclesLedger.credit v' a' x <;> intro hd <;>
      simp only [OptSim] at hd ⊢
    exact ⟨trivial, hd.prune now⟩
  · exact hp

theorem Alike.deposit {s s' : State} (h : Alike s s') {a a' : Account} (ha : a.key = a'.key)
    (x : Nat) (memo : Option Bytes) (now : Nat) :
    ResSim (· = ·) (deposit s a x memo now) (deposit s' a' x memo now) := by
  unfold CyclesLedger.deposit
  split
  · exact .err h
  · exact .err h
  · rename_i n _ _
    have hp := h.mint ha n memo now
    revert hp
    cases CyclesLedger.mint s a n memo now <;> cases CyclesLedger.mint s' a' n memo now <;>
      intro hp <;> simp only [ResSim] at hp ⊢
    · obtain ⟨rfl, hp⟩ := hp
      exact ⟨by rw [(hp.prune now).balanceOf ha], hp.prune now⟩
    · exact hp

omit [Crypto] in
theorem key_owner {a a' : Account} (h : a.key = a'.key) : a.owner = a'.owner :=
  congrArg Prod.fst h

omit [Crypto] in
theorem any_denied {sp sp' : Option Account} (hs : sp.map Account.key = sp'.map Account.key) :
    sp.any (fun x => isDenied x.owner) = sp'.any (fun x => isDenied x.owner) := by
  cases sp <;> cases sp' <;> simp at hs ⊢
  rw [key_owner hs]

/-- An answer that says `Duplicate`. -/
def SaysDup {ε α : Type} (f : PTErr → ε) (s : State) (r : Res State ε α) : Prop :=
  ∃ i c, r = .err (f (.duplicate i c)) s ∧ ¬Blank s

theorem Alike.transfer {s s' : State} (h : Alike s s') {a a' b b' : Account}
    {sp sp' : Option Account} (ha : a.key = a'.key) (hb : b.key = b'.key)
    (hs : sp.map Account.key = sp'.map Account.key) (x : Nat) (memo : Option Bytes) (now : Nat)
    (cat fee : Option Nat) :
    ResSim (· = ·) (transfer s a b sp x memo now cat fee) (transfer s' a' b' sp' x memo now cat fee) ∨
    SaysDup PTErr.toTransferFrom s (transfer s a b sp x memo now cat fee) ∨
    SaysDup PTErr.toTransferFrom s' (transfer s' a' b' sp' x memo now cat fee) := by
  rcases checkDuplicate_cases s ⟨.transfer a b sp x fee, cat, memo⟩ with hd | ⟨i, c, hd⟩
  case inr =>
    right; left
    exact ⟨i, c, by simp only [CyclesLedger.transfer, hd], not_blank hd⟩
  rcases checkDuplicate_cases s' ⟨.transfer a' b' sp' x fee, cat, memo⟩ with hd' | ⟨i, c, hd'⟩
  case inr =>
    right; right
    exact ⟨i, c, by simp only [CyclesLedger.transfer, hd'], not_blank hd'⟩
  left
  simp only [CyclesLedger.transfer, hd, hd']
  rw [key_owner ha, key_owner hb, any_denied hs]
  split
  · exact .err h
  split
  · exact .err h
  split
  · exact .err h
  split
  · exact .err h
  cases hx : checkedAdd x FEE with
  | none => simp only; rw [h.balanceOf ha]; exact .err h
  | some y =>
  simp only
  rw [h.checkAllowanceOpt ha hs]
  cases CyclesLedger.checkAllowanceOpt s' a' sp' y now with
  | error e => exact .err h
  | ok r =>
  simp only [checkDebitFromAccount, checkCreditToAccount, checkTotalSupplyDecrease]
  rw [h.balanceOf ha, h.balanceOf hb, h.supply]
  cases checkedSub (CyclesLedger.balanceOf s' a') y with
  | none => exact .err h
  | some z =>
  cases checkedAdd (CyclesLedger.balanceOf s' b') x with
  | none => exact .err h
  | some z =>
  cases checkedSub s'.cache.totalSupply FEE with
  | none => exact .err h
  | some z =>
  simp only
  refine h.burnTail (t := ⟨.transfer a b sp x fee, cat, memo⟩)
    (t' := ⟨.transfer a' b' sp' x fee, cat, memo⟩) (x := y) rfl rfl ha hs PTErr.toTransferFrom
    (fun i u => match CyclesLedger.credit u b x with
      | none => .trap
      | some u => .ok i u)
    (fun i u => match CyclesLedger.credit u b' x with
      | none => .trap
      | some u => .ok i u) ?_
  intro i u u' hu
  have hd := hu.credit hb x
  revert hd
  cases CyclesLedger.credit u b x <;> cases CyclesLedger.credit u' b' x <;> intro hd <;>
    simp only [OptSim] at hd ⊢
  · trivial
  · exact ⟨rfl, hd⟩

theorem Alike.approve {s s' : State} (h : Alike s s') {a a' b b' : Account}
    (ha : a.key = a'.key) (hb : b.key = b'.key)
    (x : Nat) (memo : Option Bytes) (now : Nat) (cat fee ea exp : Option Nat) :
    ResSim (· = ·) (approve s a b x memo now cat fee ea exp)
      (approve s' a' b' x memo now cat fee ea exp) ∨
    SaysDup PTErr.toApprove s (approve s a b x memo now cat fee ea exp) ∨
    SaysDup PTErr.toApprove s' (approve s' a' b' x memo now cat fee ea exp) := by
  rcases checkDuplicate_cases s ⟨.approve a b x ea exp fee, cat, memo⟩ with hd | ⟨i, c, hd⟩
  case inr =>
    right; left
    exact ⟨i, c, by simp only [CyclesLedger.approve, hd], not_blank hd⟩
  rcases checkDuplicate_cases s' ⟨.approve a' b' x ea exp fee, cat, memo⟩ with hd' | ⟨i, c, hd'⟩
  case inr =>
    right; right
    exact ⟨i, c, by simp only [CyclesLedger.approve, hd'], not_blank hd'⟩
  left
  simp only [CyclesLedger.approve, hd, hd', checkTotalSupplyDecrease]
  rw [key_owner ha, key_owner hb, h.allowance ha hb, h.balanceOf ha, h.supply]
  split
  · trivial
  split
  · exact .err h
  split
  · exact .err h
  split
  · exact .err h
  split
  · exact .err h
  split
  · exact .err h
  split
  · exact .err h
  cases checkedSub s'.cache.totalSupply FEE with
  | none => exact .err h
  | some z =>
  simp only
  have hp := h.processTransaction (t := ⟨.approve a b x ea exp fee, cat, memo⟩)
    (t' := ⟨.approve a' b' x ea exp fee, cat, memo⟩) rfl rfl now
  revert hp
  cases CyclesLedger.processTransaction s ⟨.approve a b x ea exp fee, cat, memo⟩ now <;>
    cases CyclesLedger.processTransaction s' ⟨.approve a' b' x ea exp fee, cat, memo⟩ now <;>
    intro hp <;> simp only [ResSim] at hp ⊢
  · obtain ⟨rfl, hp⟩ := hp
    have hd := (hp.recordApproval ha hb x exp).debit ha FEE
    revert hd
    rename_i i v v'
    cases CyclesLedger.debit (CyclesLedger.recordApproval v a b x exp) a FEE <;>
      cases CyclesLedger.debit (CyclesLedger.recordApproval v' a' b' x exp) a' FEE <;>
      intro hd <;> simp only [OptSim] at hd ⊢
    exact ⟨trivial, hd⟩
  · exact ⟨by rw [hp.1], hp.2⟩

omit [Crypto] in
/-- Suspended calls that name the same accounts. -/
structure SusAlike (p p' : Suspended) : Prop where
  frm : p.frm.key = p'.frm.key
  spender : p.spender.map Account.key = p'.spender.map Account.key
  amount : p.amount = p'.amount
  blockIndex : p.blockIndex = p'.blockIndex
  oldExpiresAt : p.oldExpiresAt = p'.oldExpiresAt

theorem Alike.withdrawStart {s s' : State} (h : Alike s s') {a a' : Account}
    {sp sp' : Option Account} (ha : a.key = a'.key)
    (hs : sp.map Account.key = sp'.map Account.key) (to : Principal) (x now : Nat)
    (cat : Option Nat) :
    ResSim (fun p p' => SusAlike p p' ∧ p.spender = sp) (withdrawStart s a to sp x now cat) (withdrawStart s' a' to sp' x now cat) ∨
    SaysDup PTErr.toWithdrawFrom s (withdrawStart s a to sp x now cat) ∨
    SaysDup PTErr.toWithdrawFrom s' (withdrawStart s' a' to sp' x now cat) := by
  by_cases h1 : isSelfAuthenticating to = true
  · left
    simp only [CyclesLedger.withdrawStart, h1, if_true]
    exact .err h
  by_cases h2 : x = 0
  · left
    simp only [CyclesLedger.withdrawStart, h1, h2, if_true]
    exact .err h
  rcases checkDuplicate_cases s ⟨.burn a sp x, cat, some (encodeWithdrawMemo to)⟩ with
    hd | ⟨i, c, hd⟩
  case inr =>
    right; left
    exact ⟨i, c, by simp only [CyclesLedger.withdrawStart, h1, h2, if_false, hd]; rfl, not_blank hd⟩
  rcases checkDuplicate_cases s' ⟨.burn a' sp' x, cat, some (encodeWithdrawMemo to)⟩ with
    hd' | ⟨i, c, hd'⟩
  case inr =>
    right; right
    exact ⟨i, c, by simp only [CyclesLedger.withdrawStart, h1, h2, if_false, hd']; rfl, not_blank hd'⟩
  left
  simp only [CyclesLedger.withdrawStart, h1, h2, if_false, hd, hd', Bool.false_eq_true]
  cases hx : checkedAdd x FEE with
  | none => simp only; rw [h.balanceOf ha]; exact .err h
  | some y =>
  simp only
  rw [h.checkAllowanceOpt ha hs]
  cases CyclesLedger.checkAllowanceOpt s' a' sp' y now with
  | error e => exact .errOrTrap h
  | ok r =>
  simp only [checkDebitFromAccount, checkTotalSupplyDecrease]
  rw [h.balanceOf ha, h.supply]
  cases checkedSub (CyclesLedger.balanceOf s' a') y with
  | none => exact .err h
  | some z =>
  cases checkedSub s'.cache.totalSupply y with
  | none => exact .err h
  | some z =>
  simp only
  refine h.burnTail (R := fun p p' => SusAlike p p' ∧ p.spender = sp) (t := ⟨.burn a sp x, cat, some (encodeWithdrawMemo to)⟩)
    (t' := ⟨.burn a' sp' x, cat, some (encodeWithdrawMemo to)⟩) (x := y) rfl rfl ha hs
    PTErr.toWithdrawFrom
    (fun i u => .ok (Suspended.mk a sp x i (oldExpiry r.2)
      ⟨.burn a sp x, cat, some (encodeWithdrawMemo to)⟩) (CyclesLedger.prune now u))
    (fun i u => .ok (Suspended.mk a' sp' x i (oldExpiry r.2)
      ⟨.burn a' sp' x, cat, some (encodeWithdrawMemo to)⟩) (CyclesLedger.prune now u)) ?_
  intro i u u' hu
  exact ⟨⟨⟨ha, hs, rfl, rfl, rfl⟩, rfl⟩, hu.prune now⟩

theorem Alike.createCanisterStart {s s' : State} (h : Alike s s') {a a' : Account}
    {sp sp' : Option Account} (ha : a.key = a'.key)
    (hs : sp.map Account.key = sp'.map Account.key) (x now : Nat) (cat : Option Nat) :
    ResSim (fun p p' => SusAlike p p' ∧ p.spender = sp) (createCanisterStart s a sp x now cat)
      (createCanisterStart s' a' sp' x now cat) ∨
    SaysDup PTErr.toCreateFrom s (createCanisterStart s a sp x now cat) ∨
    SaysDup PTErr.toCreateFrom s' (createCanisterStart s' a' sp' x now cat) := by
  rcases checkDuplicate_cases s ⟨.burn a sp x, cat, some CREATE_CANISTER_MEMO⟩ with
    hd | ⟨i, c, hd⟩
  case inr =>
    right; left
    exact ⟨i, c, by simp only [CyclesLedger.createCanisterStart, hd], not_blank hd⟩
  rcases checkDuplicate_cases s' ⟨.burn a' sp' x, cat, some CREATE_CANISTER_MEMO⟩ with
    hd' | ⟨i, c, hd'⟩
  case inr =>
    right; right
    exact ⟨i, c, by simp only [CyclesLedger.createCanisterStart, hd'], not_blank hd'⟩
  left
  simp only [CyclesLedger.createCanisterStart, hd, hd']
  cases hx : checkedAdd x FEE with
  | none => simp only; rw [h.balanceOf ha]; exact .err h
  | some y =>
  simp only
  rw [h.checkAllowanceOpt ha hs]
  cases CyclesLedger.checkAllowanceOpt s' a' sp' y now with
  | error e => exact .errOrTrap h
  | ok r =>
  simp only [checkDebitFromAccount, checkTotalSupplyDecrease]
  rw [h.balanceOf ha, h.supply]
  cases checkedSub (CyclesLedger.balanceOf s' a') y with
  | none => exact .err h
  | some z =>
  cases checkedSub s'.cache.totalSupply y with
  | none => exact .err h
  | some z =>
  simp only
  refine h.burnTail (R := fun p p' => SusAlike p p' ∧ p.spender = sp) (t := ⟨.burn a sp x, cat, some CREATE_CANISTER_MEMO⟩)
    (t' := ⟨.burn a' sp' x, cat, some CREATE_CANISTER_MEMO⟩) (x := y) rfl rfl ha hs
    PTErr.toCreateFrom
    (fun i u => .ok (Suspended.mk a sp x i (oldExpiry r.2)
      ⟨.burn a sp x, cat, some CREATE_CANISTER_MEMO⟩) (CyclesLedger.prune now u))
    (fun i u => .ok (Suspended.mk a' sp' x i (oldExpiry r.2)
      ⟨.burn a' sp' x, cat, some CREATE_CANISTER_MEMO⟩) (CyclesLedger.prune now u)) ?_
  intro i u u' hu
  exact ⟨⟨⟨ha, hs, rfl, rfl, rfl⟩, rfl⟩, hu.prune now⟩

/-! ## Finishing suspended calls -/

theorem Alike.reimburseApproval {s s' : State} (h : Alike s s') {a a' b b' : Account}
    (ha : a.key = a'.key) (hb : b.key = b'.key) (x : Nat) (old : Option Nat) (now : Nat) :
    ResSim (· = ·) (reimburseApproval s a b x old now) (reimburseApproval s' a' b' x old now) ∨
    (∃ e u, CyclesLedger.reimburseApproval s a b x old now = .err e u ∧ ¬Blank s) ∨
    (∃ e u, CyclesLedger.reimburseApproval s' a' b' x old now = .err e u ∧ ¬Blank s') := by
  unfold CyclesLedger.reimburseApproval
  simp only [h.allowance ha hb]
  rcases h.approve ha hb (satAdd128 x (CyclesLedger.allowance s' a' b' now).1)
    (some PENALIZE_MEMO) now none none none
    (if (CyclesLedger.allowance s' a' b' now).2 > 0 then
      some (CyclesLedger.allowance s' a' b' now).2 else old) with h1 | ⟨i, c, h1⟩ | ⟨i, c, h1⟩
  · exact Or.inl h1
  · exact Or.inr (Or.inl ⟨_, _, h1⟩)
  · exact Or.inr (Or.inr ⟨_, _, h1⟩)

omit [Crypto] in
theorem same_alike {a a' b b' : Account} (ha : a.key = a'.key) (hb : b.key = b'.key) :
    a.same b = a'.same b' := by
  unfold Account.same; rw [ha, hb]

/-- The refund of `withdraw` and `create_canister`. -/
theorem Alike.refund {ε α : Type} {s s' : State} (h : Alike s s') {p p' : Suspended}
    (hp : SusAlike p p') (x y now : Nat) (memo : Bytes) (q : Bool)
    (fail : Nat → Option Nat → ε) :
    let out (s : State) (p : Suspended) : Res State ε α :=
      match CyclesLedger.reimburse s p.frm x now memo with
      | .trap => .trap
      | .err _ _ => .trap
      | .ok fb s =>
        match p.spender with
        | none => .err (fail fb none) (CyclesLedger.prune now s)
        | some spender =>
          if !spender.same p.frm && q && approvalStillValid p.oldExpiresAt now then
            match CyclesLedger.reimburseApproval (CyclesLedger.prune now s) p.frm spender y
                p.oldExpiresAt now with
            | .ok ab s => .err (fail fb (some ab)) s
            | .err _ _ => .trap
            | .trap => .trap
          else .err (fail fb none) (CyclesLedger.prune now s)
    ResSim (· = ·) (out s p) (out s' p') ∨
      (p.spender ≠ none ∧ (out s p = .trap ∨ out s' p' = .trap) ∧ ¬(Blank s ∧ Blank s')) := by
  intro out
  simp only [out]
  have hr := h.reimburse hp.frm x now memo
  have hb1 : ∀ i u, CyclesLedger.reimburse s p.frm x now memo = .ok i u → Blank s → Blank u := by
    intro i u h1 h2
    obtain ⟨_, v, rfl, ha⟩ := reimburse_ok h1
    exact (h2.append ha rfl).prune now
  have hb2 : ∀ i u, CyclesLedger.reimburse s' p'.frm x now memo = .ok i u → Blank s' →
      Blank u := by
    intro i u h1 h2
    obtain ⟨_, v, rfl, ha⟩ := reimburse_ok h1
    exact (h2.append ha rfl).prune now
  revert hr hb1 hb2
  cases CyclesLedger.reimburse s p.frm x now memo <;>
    cases CyclesLedger.reimburse s' p'.frm x now memo <;> intro hr hb1 hb2 <;>
    simp only [ResSim] at hr ⊢
  · obtain ⟨rfl, hr⟩ := hr
    rename_i i u u'
    have hb1 := hb1 _ _ rfl
    have hb2 := hb2 _ _ rfl
    have hu := hr.prune now
    have hsp := hp.spender
    cases h1 : p.spender <;> cases h2 : p'.spender <;>
      simp only [h1, h2, Option.map_some, Option.map_none, Option.some.injEq, reduceCtorEq] at hsp ⊢
    · exact Or.inl ⟨trivial, hu⟩
    · rename_i b b'
      rw [same_alike hsp hp.frm, hp.oldExpiresAt]
      generalize (!b'.same p'.frm && q && approvalStillValid p'.oldExpiresAt now) = c
      cases c
      · exact Or.inl ⟨rfl, hu⟩
      · simp only [if_true]
        rcases hu.reimburseApproval hp.frm hsp y p'.oldExpiresAt now with
          h3 | ⟨e, v, h3, h4⟩ | ⟨e, v, h3, h4⟩
        · left
          revert h3
          cases CyclesLedger.reimburseApproval (CyclesLedger.prune now u) p.frm b y p'.oldExpiresAt now <;>
            cases CyclesLedger.reimburseApproval (CyclesLedger.prune now u') p'.frm b' y
              p'.oldExpiresAt now <;> intro h3 <;> simp only [ResSim] at h3 ⊢
          exact ⟨by rw [h3.1], h3.2⟩
        · right
          exact ⟨by simp, Or.inl (by rw [h3]), fun h5 => h4 ((hb1 h5.1).prune now)⟩
        · right
          exact ⟨by simp, Or.inr (by rw [h3]), fun h5 => h4 ((hb2 h5.2).prune now)⟩
  all_goals simp

theorem Alike.withdrawFinish {s s' : State} (h : Alike s s') {p p' : Suspended}
    (hp : SusAlike p p') (r : Option CallError) (now : Nat) :
    ResSim (· = ·) (withdrawFinish s p r now) (withdrawFinish s' p' r now) ∨
      (p.spender ≠ none ∧ (CyclesLedger.withdrawFinish s p r now = .trap ∨
        CyclesLedger.withdrawFinish s' p' r now = .trap) ∧ ¬(Blank s ∧ Blank s')) := by
  unfold CyclesLedger.withdrawFinish
  cases r with
  | none => exact Or.inl ⟨hp.blockIndex, h⟩
  | some code =>
    simp only
    rw [hp.amount, hp.blockIndex]
    split
    · exact Or.inl (.err h)
    · exact h.refund (α := Nat) hp (satSub p'.amount FEE) (satSub (satSub p'.amount FEE) FEE) now
        PENALIZE_MEMO (decide (p'.amount > 2 * FEE))
        (fun fb ab => WithdrawFromError.failedToWithdrawFrom (some p'.blockIndex) (some fb) ab (callErrorToReject code))

theorem Alike.createCanisterFinish {s s' : State} (h : Alike s s') {p p' : Suspended}
    (hp : SusAlike p p') (r : CmcResult) (now : Nat) :
    ResSim (· = ·) (createCanisterFinish s p r now) (createCanisterFinish s' p' r now) ∨
      (p.spender ≠ none ∧ (CyclesLedger.createCanisterFinish s p r now = .trap ∨
        CyclesLedger.createCanisterFinish s' p' r now = .trap) ∧ ¬(Blank s ∧ Blank s')) := by
  unfold CyclesLedger.createCanisterFinish
  have hfail : ∀ (code : RejectionCode) (x : Nat), _ := fun code x =>
    h.refund (α := Nat × Principal) hp (satSub x FEE) (satSub (satSub x FEE) FEE) now REFUND_MEMO
        (decide (satSub x FEE > FEE))
        (fun fb ab => CreateCanisterFromError.failedToCreateFrom (some p'.blockIndex) (some fb) ab code)
  simp only
  rw [hp.amount, hp.blockIndex]
  cases r with
  | created c =>
    simp only [Transaction.hash_eq_some]
    refine Or.inl ⟨rfl, ?_⟩
    split <;> split <;> exact ⟨h.1, h.2, h.3, h.4, h.5, h.6⟩
  | refunded x =>
    simp only
    split
    · exact Or.inl (.err h)
    · exact hfail _ x
  | refundFailed =>
    simp only
    split
    · exact Or.inl (.err h)
    · exact hfail _ 0
  | callError code =>
    simp only
    split
    · exact Or.inl (.err h)
    · exact hfail (callErrorToReject code) p'.amount

end CyclesLedger
