import Verif.Proof.Allow
/-!
# The common effect of every successful operation: one block, and what it says
-/
namespace CyclesLedger
variable [Crypto]

omit [Crypto] in
/-- An optional number is at most `m`. -/
def OptLe (o : Option Nat) (m : Nat) : Prop := ∀ n, o = some n → n ≤ m

omit [Crypto] in
/-- A fee field that passed the `BadFee` check. -/
def FeeOk (f : Option Nat) : Prop := f = none ∨ f = some FEE

omit [Crypto] in
/-- What is known about an operation that made it into a block at time `now`. -/
def OpOk (now : Nat) : Operation → Prop
  | .mint _ amount fee => amount ≤ U128MAX ∧ (fee = FEE ∨ fee = 0)
  | .transfer frm to sp amount fee =>
    amount + FEE ≤ U128MAX ∧ FeeOk fee ∧ frm.owner ≠ managementCanister ∧
    to.owner ≠ managementCanister ∧ ∀ x, sp = some x → x.owner ≠ managementCanister
  | .burn _ _ amount => amount + FEE ≤ U128MAX
  | .approve frm sp amount ea exp fee =>
    amount ≤ U128MAX ∧ OptLe ea U128MAX ∧ OptLe exp U64MAX ∧ FeeOk fee ∧
    frm.owner ≠ sp.owner ∧ frm.owner ≠ managementCanister ∧ sp.owner ≠ managementCanister ∧
    now < exp.getD U64MAX

/-- `s'` is `s` with one more block holding transaction `t`, and balances, supply and
allowances changed the way that block says. -/
structure Appended (now : Nat) (s s' : State) (t : Transaction) : Prop where
  blocks : s'.blocks = s.blocks ++ [mkBlock s t now]
  hashes : s'.transactionHashes = (pushBlock s (mkBlock s t now)).transactionHashes
  timestamps : s'.transactionTimestamps = (pushBlock s (mkBlock s t now)).transactionTimestamps
  config : s'.config = s.config
  phash : s'.cache.phash = some (mkBlock s t now).hash
  tree : s'.cache.hashTree = populateTree s.cache.hashTree s.blocks.length (mkBlock s t now).hash
  cert : s'.certifiedData = some s'.cache.hashTree.rootHash
  memo : validateMemo t.memo = true
  createdAt : validateCreatedAtTime t.createdAtTime now = none
  fresh : t.createdAtTime.isSome → s.transactionHashes.get t.hash! = none
  op : OpOk now t.operation
  bal : ∀ k, (balAt s' k : Int) = balAt s k + Spec.delta (mkBlock s t now) k
  supply : (s'.cache.totalSupply : Int) = s.cache.totalSupply + Spec.supplyDelta (mkBlock s t now)
  sum : (s'.balances.sum : Int) = s.balances.sum + Spec.supplyDelta (mkBlock s t now)
  bound : s.cache.totalSupply ≤ U128MAX → s'.cache.totalSupply ≤ U128MAX
  allow : ∀ k, s'.approvals.get k = Spec.allowStep s.approvals.get (mkBlock s t now) k
  spend : ∀ key x, Spec.spends (mkBlock s t now) = some (key, x) →
    ∃ a e, s.approvals.get key = some (a, e) ∧ x ≤ a ∧ (e = 0 ∨ now < e)
  queue : QueueInv s → QueueInv s'
  zeros : ∀ k, s'.balances.get k = some 0 ↔
    (Spec.credits (mkBlock s t now) k = some 0 ∧ balAt s' k = 0) ∨
    (s.balances.get k = some 0 ∧ Spec.delta (mkBlock s t now) k = 0)

omit [Crypto] in
theorem fee_mkBlock_transfer {s : State} {frm to : Account} {sp : Option Account} {x now : Nat}
    {f c : Option Nat} {m : Option Bytes} (hf : FeeOk f) :
    Spec.fee (mkBlock s ⟨.transfer frm to sp x f, c, m⟩ now) = FEE := by
  rcases hf with rfl | rfl <;> simp [Spec.fee, mkBlock, effectiveFee]

omit [Crypto] in
theorem fee_mkBlock_approve {s : State} {frm sp : Account} {x now : Nat}
    {ea ex f c : Option Nat} {m : Option Bytes} (hf : FeeOk f) :
    Spec.fee (mkBlock s ⟨.approve frm sp x ea ex f, c, m⟩ now) = FEE := by
  rcases hf with rfl | rfl <;> simp [Spec.fee, mkBlock, effectiveFee]

omit [Crypto] in
theorem fee_mkBlock_burn {s : State} {frm : Account} {sp : Option Account} {x now : Nat}
    {c : Option Nat} {m : Option Bytes} :
    Spec.fee (mkBlock s ⟨.burn frm sp x, c, m⟩ now) = FEE := by
  simp [Spec.fee, mkBlock, effectiveFee]

omit [Crypto] in
theorem feeOk_of_check {f : Option Nat} (h : ¬(f.isSome && f != some FEE) = true) : FeeOk f := by
  cases f with
  | none => exact Or.inl rfl
  | some x =>
    right
    simpa using h

omit [Crypto] in
theorem isDenied_false {p : Principal} (h : ¬isDenied p = true) : p ≠ managementCanister := by
  simpa [isDenied] using h

omit [Crypto] in
theorem useAllowanceOpt_same {s s' : State} {frm : Account} {sp : Option Account} {x now : Nat}
    (h : useAllowanceOpt s frm sp x now = .ok s') : SameExceptAllow s s' := by
  unfold useAllowanceOpt at h
  split at h
  · cases h; exact .refl s
  · exact (useAllowance_ok h).1

omit [Crypto] in
theorem errOrTrap_ne_ok {σ ε α : Type} {e : Option ε} {s s' : σ} {a : α} :
    errOrTrap e s ≠ .ok a s' := by
  unfold errOrTrap
  split <;> simp

omit [Crypto] in
theorem errOrTrap_eq_err {σ ε α : Type} {e : Option ε} {s s' : σ} {e' : ε} :
    (errOrTrap e s : Res σ ε α) = .err e' s' ↔ e = some e' ∧ s' = s := by
  unfold errOrTrap
  split <;> simp [eq_comm]

omit [Crypto] in
theorem entry_ne_zero (x : Nat) : (if x = 0 then none else some x) ≠ some 0 := by
  split
  · simp
  · simpa using ‹_›

/-! ## Mint, reimburse -/

/-- A mint block and the matching credit. -/
theorem appended_mint {s s' : State} {to : Account} {amount fee now : Nat} {memo : Option Bytes}
    (hfee : fee = FEE ∨ fee = 0) (hm : validateMemo memo = true)
    (hc : credit (pushBlock s (mkBlock s ⟨.mint to amount fee, none, memo⟩ now)) to amount = some s') :
    Appended now s s' ⟨.mint to amount fee, none, memo⟩ := by
  obtain ⟨same, hb, hsup, hsum, hle1, hle2⟩ := credit_eq_some hc
  simp only [pushBlock_supply, pushBlock_balances, balAt_pushBlock] at hb hsup hsum hle1 hle2
  refine
    { blocks := by rw [same.blocks]; simp
      hashes := same.hashes
      timestamps := same.timestamps
      config := by rw [same.config]; simp
      phash := by rw [same.phash]; simp
      tree := by rw [same.tree]; simp
      cert := by rw [same.cert, same.tree]; simp
      memo := hm
      createdAt := rfl
      fresh := by simp
      op := ⟨by omega, hfee⟩
      bal := ?_
      supply := ?_
      sum := ?_
      bound := by intro _; omega
      allow := ?_
      spend := ?_
      queue := ?_
      zeros := ?_ }
  · intro k
    rw [hb k]
    simp only [Spec.idOf_eq, Spec.delta, mkBlock]
    by_cases hk : to.key = k <;> simp [hk]
  · simp [Spec.supplyDelta, mkBlock, hsup]
  · simp [Spec.supplyDelta, mkBlock, hsum]
  · intro k
    rw [same.approvals]
    simp [Spec.allowStep, Spec.spends, mkBlock]
  · intro key x h
    simp [Spec.spends, mkBlock] at h
  · intro hq e k
    rw [same.approvals, same.queue]
    simp only [pushBlock_queue, pushBlock_approvals]
    exact hq e k
  · intro k
    rw [hb k, credit_get hc k]
    simp only [Spec.idOf_eq, Spec.credits, Spec.delta, mkBlock, balAt_pushBlock, pushBlock_balances]
    by_cases hk : to.key = k
    · simp only [hk, if_true, Option.some.injEq]
      constructor
      · intro h; left; omega
      · rintro (h | ⟨h1, h2⟩)
        · omega
        · have : balAt s k = 0 := by unfold balAt; rw [h1]; rfl
          omega
    · simp [hk]

theorem mint_ok {s s' : State} {to : Account} {amount now i : Nat} {memo : Option Bytes}
    (h : mint s to amount memo now = .ok i s') :
    i = s.blocks.length ∧ Appended now s s' ⟨.mint to amount FEE, none, memo⟩ := by
  unfold mint at h
  split at h
  · cases h
  · split at h
    · cases h
    · cases h
    · rename_i idx s1 hp
      obtain ⟨hm, hc, rfl, rfl⟩ := processTransaction_ok hp
      split at h
      · cases h
      · rename_i s2 hcr
        simp only [Res.ok.injEq] at h
        obtain ⟨rfl, rfl⟩ := h
        exact ⟨rfl, appended_mint (Or.inl rfl) hm hcr⟩

theorem mint_err {s s' : State} {to : Account} {amount now : Nat} {memo : Option Bytes}
    {e : DepositErr} (h : mint s to amount memo now = .err e s') : s' = s := by
  unfold mint at h
  split at h
  · simp only [Res.err.injEq] at h; exact h.2.symm
  · split at h
    · cases h
    · rename_i e1 s1 hp
      simp only [Res.err.injEq] at h
      rw [← h.2, (processTransaction_err hp).1]
    · split at h <;> cases h

theorem reimburse_ok {s s' : State} {acc : Account} {amount now i : Nat} {memo : Bytes}
    (h : reimburse s acc amount now memo = .ok i s') :
    i = s.blocks.length ∧ ∃ s1, s' = prune now s1 ∧
      Appended now s s1 ⟨.mint acc amount 0, none, some memo⟩ := by
  unfold reimburse at h
  split at h
  · cases h
  · cases h
  · rename_i idx s1 hp
    obtain ⟨hm, hc, rfl, rfl⟩ := processTransaction_ok hp
    split at h
    · cases h
    · rename_i s2 hcr
      simp only [Res.ok.injEq] at h
      obtain ⟨rfl, rfl⟩ := h
      exact ⟨rfl, s2, rfl, appended_mint (Or.inr rfl) hm hcr⟩

/-! ## Transfer -/

theorem transfer_ok {s s' : State} {frm to : Account} {sp : Option Account} {amount now i : Nat}
    {memo : Option Bytes} {cat sf : Option Nat}
    (h : transfer s frm to sp amount memo now cat sf = .ok i s') :
    i = s.blocks.length ∧ Appended now s s' ⟨.transfer frm to sp amount sf, cat, memo⟩ := by
  unfold transfer at h
  simp only at h
  split at h
  · cases h
  rename_i hdup
  rw [checkDuplicate_eq_none] at hdup
  split at h
  · cases h
  rename_i hd1
  split at h
  · cases h
  rename_i hd2
  split at h
  · cases h
  rename_i hd3
  split at h
  · cases h
  rename_i hfee
  split at h
  · cases h
  rename_i awf hawf
  rw [checkedAdd_eq_some] at hawf
  obtain ⟨hawfe, hawf⟩ := hawf
  split at h
  · cases h
  rename_i al hal
  split at h
  · cases h
  split at h
  · cases h
  split at h
  · cases h
  split at h
  · cases h
  · cases h
  rename_i idx s1 hp
  obtain ⟨hm, hc, rfl, rfl⟩ := processTransaction_ok hp
  split at h
  · cases h
  rename_i s2 hu
  split at h
  · cases h
  rename_i s3 hde
  split at h
  · cases h
  rename_i s4 hcr
  subst hawfe
  simp only [Res.ok.injEq] at h
  obtain ⟨rfl, rfl⟩ := h
  refine ⟨rfl, ?_⟩
  have hfee := feeOk_of_check hfee
  have hF := fee_mkBlock_transfer (s := s) (frm := frm) (to := to) (sp := sp) (x := amount)
    (now := now) (c := cat) (m := memo) hfee
  have sameA := useAllowanceOpt_same hu
  obtain ⟨sameD, hdb, hdsup, hdsum, hdle1, hdle2⟩ := debit_eq_some hde
  obtain ⟨sameC, hcb, hcsup, hcsum, hcle1, hcle2⟩ := credit_eq_some hcr
  have hb0 : ∀ k, balAt s2 k = balAt s k := by intro k; rw [sameA.balAt]; simp
  have hs0 : s2.cache.totalSupply = s.cache.totalSupply := by rw [sameA.cache]; simp
  have hsum0 : s2.balances.sum = s.balances.sum := by rw [sameA.balances]; simp
  refine
    { blocks := by rw [sameC.blocks, sameD.blocks, sameA.blocks]; simp
      hashes := by rw [sameC.hashes, sameD.hashes, sameA.hashes]
      timestamps := by rw [sameC.timestamps, sameD.timestamps, sameA.timestamps]
      config := by rw [sameC.config, sameD.config, sameA.config]; simp
      phash := by rw [sameC.phash, sameD.phash, sameA.cache]; simp
      tree := by rw [sameC.tree, sameD.tree, sameA.cache]; simp
      cert := by
        rw [sameC.cert, sameD.cert, sameA.cert, sameC.tree, sameD.tree, sameA.cache]; simp
      memo := hm
      createdAt := hc
      fresh := fun _ => hdup
      op := ⟨hawf, hfee, isDenied_false hd1, isDenied_false hd2, ?_⟩
      bal := ?_
      supply := ?_
      sum := ?_
      bound := ?_
      allow := ?_
      spend := ?_
      queue := ?_
      zeros := ?_ }
  · rintro x rfl
    exact isDenied_false (by simpa using hd3)
  · intro k
    have h1 := hcb k
    have h2 := hdb k
    have h3 := hb0 k
    rw [hb0 frm.key] at hdle2
    simp only [Spec.idOf_eq, Spec.delta, mkBlock] at hF ⊢
    rw [hF]
    by_cases h4 : frm.key = k
    · subst h4
      by_cases h5 : to.key = frm.key <;> simp [h5] at h1 h2 ⊢ <;> omega
    · by_cases h5 : to.key = k <;> simp [h4, h5] at h1 h2 ⊢ <;> omega
  · simp only [Spec.supplyDelta]
    rw [hF]
    simp only [mkBlock]
    omega
  · simp only [Spec.supplyDelta]
    rw [hF]
    simp only [mkBlock]
    omega
  · intro _; omega
  · intro k
    rw [sameC.approvals, sameD.approvals]
    unfold useAllowanceOpt at hu
    split at hu
    · rename_i hch
      rw [chargedSpender_eq_none] at hch
      cases hu
      simp only [pushBlock_approvals, Spec.allowStep, Spec.spends, mkBlock]
      cases sp with
      | none => simp
      | some x => simp [hch x rfl]
    · rename_i x hch
      rw [chargedSpender_eq_some] at hch
      obtain ⟨rfl, hne⟩ := hch
      have := (useAllowance_ok hu).2.1 k
      rw [this]
      simp only [pushBlock_approvals, Spec.allowStep, Spec.spends]
      rw [hF]
      simp [mkBlock, hne]
  · intro key x hsp
    unfold useAllowanceOpt at hu
    split at hu
    · rename_i hch
      rw [chargedSpender_eq_none] at hch
      simp only [Spec.idOf_eq, Spec.spends, mkBlock] at hsp
      cases sp with
      | none => simp at hsp
      | some y => simp [hch y rfl] at hsp
    · rename_i y hch
      rw [chargedSpender_eq_some] at hch
      obtain ⟨rfl, hne⟩ := hch
      obtain ⟨cur, e, hg, hle, he, _⟩ := (useAllowance_ok hu).2.2.2
      simp only [Spec.idOf_eq, Spec.spends] at hsp
      rw [hF] at hsp
      simp only [mkBlock, hne, if_false, Option.some.injEq, Prod.mk.injEq] at hsp
      obtain ⟨rfl, rfl⟩ := hsp
      exact ⟨cur, e, by simpa using hg, hle, he⟩
  · intro hq
    have hq1 : QueueInv (pushBlock s (mkBlock s ⟨.transfer frm to sp amount sf, cat, memo⟩ now)) := by
      intro e k; simp only [pushBlock_queue, pushBlock_approvals]; exact hq e k
    have hq2 : QueueInv s2 := by
      unfold useAllowanceOpt at hu
      split at hu
      · cases hu; exact hq1
      · exact (useAllowance_ok hu).2.2.1 hq1
    intro e k
    rw [sameC.approvals, sameD.approvals, sameC.queue, sameD.queue]
    exact hq2 e k
  · intro k
    have h1 := hcb k
    have h2 := hdb k
    have h3 := hb0 k
    have hpos : 0 < FEE := by rw [FEE_eq]; decide
    have hz : s.balances.get k = some 0 → balAt s k = 0 := by
      intro h; unfold balAt; rw [h]; rfl
    have hg : s2.balances.get k = s.balances.get k := by rw [sameA.balances]; simp
    rw [hb0 frm.key] at hdle2
    rw [credit_get hcr k, debit_get hde k, hg]
    simp only [Spec.idOf_eq, Spec.delta]
    rw [hF]
    simp only [Spec.idOf_eq, Spec.credits, mkBlock]
    by_cases h5 : to.key = k
    · simp only [h5, if_true, Option.some.injEq] at h1 ⊢
      by_cases h4 : frm.key = k
      · subst h4
        simp only [if_true] at h2 ⊢
        constructor
        · intro h; left; omega
        · rintro (h | ⟨h6, h7⟩) <;> omega
      · simp only [h4, if_false] at h2 ⊢
        constructor
        · intro h; left; omega
        · rintro (h | ⟨h6, h7⟩)
          · omega
          · have := hz h6; omega
    · by_cases h4 : frm.key = k
      · subst h4
        simp only [h5, if_false, if_true] at h1 h2 ⊢
        constructor
        · intro h
          split at h
          · cases h
          · simp only [Option.some.injEq] at h; omega
        · rintro (⟨h, _⟩ | ⟨h6, h7⟩)
          · cases h
          · omega
      · simp [h4, h5]

theorem transfer_err {s s' : State} {frm to : Account} {sp : Option Account} {amount now : Nat}
    {memo : Option Bytes} {cat sf : Option Nat} {e : TransferFromError}
    (h : transfer s frm to sp amount memo now cat sf = .err e s') : s' = s := by
  unfold transfer at h
  simp only at h
  repeat' split at h
  all_goals first
    | (simp only [Res.err.injEq] at h; exact h.2.symm)
    | (cases h; done)
    | (rename_i hp; simp only [Res.err.injEq] at h; rw [← h.2, (processTransaction_err hp).1])

/-! ## Approve -/

theorem approve_ok {s s' : State} {frm sp : Account} {amount now i : Nat} {memo : Option Bytes}
    {cat sf ea exp : Option Nat} (ha : amount ≤ U128MAX) (hea : OptLe ea U128MAX)
    (hexp : OptLe exp U64MAX)
    (h : approve s frm sp amount memo now cat sf ea exp = .ok i s') :
    i = s.blocks.length ∧ Appended now s s' ⟨.approve frm sp amount ea exp sf, cat, memo⟩ := by
  unfold approve at h
  simp only at h
  split at h
  · cases h
  rename_i hdup
  rw [checkDuplicate_eq_none] at hdup
  split at h
  · cases h
  rename_i hself
  split at h
  · cases h
  rename_i hd1
  split at h
  · cases h
  rename_i hd2
  split at h
  · cases h
  rename_i hcas
  split at h
  · cases h
  rename_i hfee
  split at h
  · cases h
  rename_i hbal
  split at h
  · cases h
  rename_i hexpiry
  split at h
  · cases h
  split at h
  · cases h
  · cases h
  rename_i idx s1 hp
  obtain ⟨hm, hc, rfl, rfl⟩ := processTransaction_ok hp
  split at h
  · cases h
  rename_i s3 hde
  simp only [Res.ok.injEq] at h
  obtain ⟨rfl, rfl⟩ := h
  refine ⟨rfl, ?_⟩
  have hfee := feeOk_of_check hfee
  have hF := fee_mkBlock_approve (s := s) (frm := frm) (sp := sp) (x := amount)
    (now := now) (ea := ea) (ex := exp) (c := cat) (m := memo) hfee
  have sameA := recordApproval_same
    (pushBlock s (mkBlock s ⟨.approve frm sp amount ea exp sf, cat, memo⟩ now)) frm sp amount exp
  obtain ⟨sameD, hdb, hdsup, hdsum, hdle1, hdle2⟩ := debit_eq_some hde
  have hb0 := fun k => sameA.balAt k
  have hs0 : _ = s.cache.totalSupply :=
    (congrArg Cache.totalSupply sameA.cache).trans (pushBlock_supply _ _)
  have hsum0 : _ = s.balances.sum :=
    (congrArg SMap.sum sameA.balances).trans (congrArg SMap.sum (pushBlock_balances _ _))
  simp only [balAt_pushBlock] at hb0
  refine
    { blocks := by rw [sameD.blocks, sameA.blocks]; simp
      hashes := by rw [sameD.hashes, sameA.hashes]
      timestamps := by rw [sameD.timestamps, sameA.timestamps]
      config := by rw [sameD.config, sameA.config]; simp
      phash := by rw [sameD.phash, sameA.cache]; simp
      tree := by rw [sameD.tree, sameA.cache]; simp
      cert := by rw [sameD.cert, sameA.cert, sameD.tree, sameA.cache]; simp
      memo := hm
      createdAt := hc
      fresh := fun _ => hdup
      op := ⟨ha, hea, hexp, hfee, hself, isDenied_false hd1, isDenied_false hd2, by omega⟩
      bal := ?_
      supply := ?_
      sum := ?_
      bound := ?_
      allow := ?_
      spend := ?_
      queue := ?_
      zeros := ?_ }
  · intro k
    have h1 := hdb k
    have h3 := hb0 k
    rw [hb0 frm.key] at hdle2
    simp only [Spec.idOf_eq, Spec.delta]
    rw [hF]
    simp only [mkBlock]
    by_cases h4 : frm.key = k
    · subst h4; simp at h1 ⊢; omega
    · simp [h4] at h1 ⊢; omega
  · simp only [Spec.supplyDelta]
    rw [hF]
    simp only [mkBlock]
    omega
  · simp only [Spec.supplyDelta]
    rw [hF]
    simp only [mkBlock]
    omega
  · intro _; omega
  · intro k
    rw [sameD.approvals, recordApproval_get]
    by_cases hk : k = (frm.key, sp.key) <;> simp [Spec.allowStep, mkBlock, hk]
  · intro key x hsp
    simp [Spec.spends, mkBlock] at hsp
  · intro hq
    have hq1 : QueueInv (pushBlock s (mkBlock s ⟨.approve frm sp amount ea exp sf, cat, memo⟩ now)) := by
      intro e k; simp only [pushBlock_queue, pushBlock_approvals]; exact hq e k
    have hq2 := recordApproval_queue frm sp amount exp hq1
    intro e k
    rw [sameD.approvals, sameD.queue]
    exact hq2 e k
  · intro k
    have hpos : 0 < FEE := by rw [FEE_eq]; decide
    have hg : _ = s.balances.get k := congrArg (SMap.get · k) (sameA.balances.trans (pushBlock_balances _ _))
    rw [debit_get hde k, hg]
    simp only [Spec.idOf_eq, Spec.delta]
    rw [hF]
    simp only [Spec.credits, mkBlock]
    by_cases h4 : frm.key = k
    · subst h4
      simp only [if_true]
      constructor
      · intro h; exact absurd h (entry_ne_zero _)
      · rintro (⟨h, _⟩ | ⟨h6, h7⟩)
        · cases h
        · omega
    · simp [h4]

theorem approve_err {s s' : State} {frm sp : Account} {amount now : Nat} {memo : Option Bytes}
    {cat sf ea exp : Option Nat} {e : ApproveError}
    (h : approve s frm sp amount memo now cat sf ea exp = .err e s') : s' = s := by
  unfold approve at h
  simp only at h
  repeat' split at h
  all_goals first
    | (simp only [Res.err.injEq] at h; exact h.2.symm)
    | (cases h; done)
    | (rename_i hp; simp only [Res.err.injEq] at h; rw [← h.2, (processTransaction_err hp).1])

/-! ## Burns: `withdraw` and `create_canister` up to their call -/

/-- The burn block, allowance use and debit shared by the two. -/
theorem appended_burn {s s2 s3 : State} {frm : Account} {sp : Option Account} {amount now : Nat}
    {cat : Option Nat} {memo : Option Bytes}
    (hdup : s.transactionHashes.get (Transaction.mk (.burn frm sp amount) cat memo).hash! = none)
    (hm : validateMemo memo = true) (hc : validateCreatedAtTime cat now = none)
    (hawf : amount + FEE ≤ U128MAX)
    (hu : useAllowanceOpt (pushBlock s (mkBlock s ⟨.burn frm sp amount, cat, memo⟩ now)) frm sp
      (amount + FEE) now = .ok s2)
    (hde : debit s2 frm (amount + FEE) = some s3) :
    Appended now s s3 ⟨.burn frm sp amount, cat, memo⟩ := by
  have hF := fee_mkBlock_burn (s := s) (frm := frm) (sp := sp) (x := amount)
    (now := now) (c := cat) (m := memo)
  have sameA := useAllowanceOpt_same hu
  obtain ⟨sameD, hdb, hdsup, hdsum, hdle1, hdle2⟩ := debit_eq_some hde
  have hb0 : ∀ k, balAt s2 k = balAt s k := by intro k; rw [sameA.balAt]; simp
  have hs0 : s2.cache.totalSupply = s.cache.totalSupply := by rw [sameA.cache]; simp
  have hsum0 : s2.balances.sum = s.balances.sum := by rw [sameA.balances]; simp
  refine
    { blocks := by rw [sameD.blocks, sameA.blocks]; simp
      hashes := by rw [sameD.hashes, sameA.hashes]
      timestamps := by rw [sameD.timestamps, sameA.timestamps]
      config := by rw [sameD.config, sameA.config]; simp
      phash := by rw [sameD.phash, sameA.cache]; simp
      tree := by rw [sameD.tree, sameA.cache]; simp
      cert := by rw [sameD.cert, sameA.cert, sameD.tree, sameA.cache]; simp
      memo := hm
      createdAt := hc
      fresh := fun _ => hdup
      op := hawf
      bal := ?_
      supply := ?_
      sum := ?_
      bound := ?_
      allow := ?_
      spend := ?_
      queue := ?_
      zeros := ?_ }
  · intro k
    have h1 := hdb k
    have h3 := hb0 k
    rw [hb0 frm.key] at hdle2
    simp only [Spec.idOf_eq, Spec.delta]
    rw [hF]
    simp only [mkBlock]
    by_cases h4 : frm.key = k
    · subst h4; simp at h1 ⊢; omega
    · simp [h4] at h1 ⊢; omega
  · simp only [Spec.supplyDelta]
    rw [hF]
    simp only [mkBlock]
    omega
  · simp only [Spec.supplyDelta]
    rw [hF]
    simp only [mkBlock]
    omega
  · intro _; omega
  · intro k
    rw [sameD.approvals]
    unfold useAllowanceOpt at hu
    split at hu
    · rename_i hch
      rw [chargedSpender_eq_none] at hch
      cases hu
      simp only [pushBlock_approvals, Spec.allowStep, Spec.spends, mkBlock]
      cases sp with
      | none => simp
      | some x => simp [hch x rfl]
    · rename_i x hch
      rw [chargedSpender_eq_some] at hch
      obtain ⟨rfl, hne⟩ := hch
      have := (useAllowance_ok hu).2.1 k
      rw [this]
      simp only [pushBlock_approvals, Spec.allowStep, Spec.spends]
      rw [hF]
      simp [mkBlock, hne]
  · intro key x hsp
    unfold useAllowanceOpt at hu
    split at hu
    · rename_i hch
      rw [chargedSpender_eq_none] at hch
      simp only [Spec.idOf_eq, Spec.spends, mkBlock] at hsp
      cases sp with
      | none => simp at hsp
      | some y => simp [hch y rfl] at hsp
    · rename_i y hch
      rw [chargedSpender_eq_some] at hch
      obtain ⟨rfl, hne⟩ := hch
      obtain ⟨cur, e, hg, hle, he, _⟩ := (useAllowance_ok hu).2.2.2
      simp only [Spec.idOf_eq, Spec.spends] at hsp
      rw [hF] at hsp
      simp only [mkBlock, hne, if_false, Option.some.injEq, Prod.mk.injEq] at hsp
      obtain ⟨rfl, rfl⟩ := hsp
      exact ⟨cur, e, by simpa using hg, hle, he⟩
  · intro hq
    have hq1 : QueueInv (pushBlock s (mkBlock s ⟨.burn frm sp amount, cat, memo⟩ now)) := by
      intro e k; simp only [pushBlock_queue, pushBlock_approvals]; exact hq e k
    have hq2 : QueueInv s2 := by
      unfold useAllowanceOpt at hu
      split at hu
      · cases hu; exact hq1
      · exact (useAllowance_ok hu).2.2.1 hq1
    intro e k
    rw [sameD.approvals, sameD.queue]
    exact hq2 e k
  · intro k
    have hpos : 0 < FEE := by rw [FEE_eq]; decide
    have hg : s2.balances.get k = s.balances.get k := by rw [sameA.balances]; simp
    rw [debit_get hde k, hg]
    simp only [Spec.idOf_eq, Spec.delta]
    rw [hF]
    simp only [Spec.credits, mkBlock]
    by_cases h4 : frm.key = k
    · subst h4
      simp only [if_true]
      constructor
      · intro h; exact absurd h (entry_ne_zero _)
      · rintro (⟨h, _⟩ | ⟨h6, h7⟩)
        · cases h
        · omega
    · simp [h4]

omit [Crypto] in
/-- What a suspended call remembers about the allowance it used: the expiry found by
the check. -/
def ExpiryFrom (s : State) (frm : Account) (sp : Option Account) (now : Nat) (old : Option Nat) :
    Prop :=
  match chargedSpender frm sp with
  | none => old = none
  | some x => ∃ a e, s.approvals.get (frm.key, x.key) = some (a, e) ∧ (e = 0 ∨ now < e) ∧
      old = oldExpiry e

theorem withdrawStart_ok {s s' : State} {frm : Account} {to : Principal} {sp : Option Account}
    {amount now : Nat} {cat : Option Nat} {p : Suspended}
    (h : withdrawStart s frm to sp amount now cat = .ok p s') :
    isSelfAuthenticating to = false ∧ 0 < amount ∧
    (∃ old, p = ⟨frm, sp, amount, s.blocks.length, old,
      ⟨.burn frm sp amount, cat, some (encodeWithdrawMemo to)⟩⟩ ∧ ExpiryFrom s frm sp now old) ∧
    ∃ s1, s' = prune now s1 ∧
      Appended now s s1 ⟨.burn frm sp amount, cat, some (encodeWithdrawMemo to)⟩ := by
  unfold withdrawStart at h
  simp only at h
  split at h
  · cases h
  rename_i hself
  split at h
  · cases h
  rename_i h0
  split at h
  · cases h
  rename_i hdup
  rw [checkDuplicate_eq_none] at hdup
  split at h
  · cases h
  rename_i awf hawf
  rw [checkedAdd_eq_some] at hawf
  obtain ⟨hawfe, hawf⟩ := hawf
  split at h
  · exact absurd h errOrTrap_ne_ok
  rename_i a hal
  split at h
  · cases h
  split at h
  · cases h
  split at h
  · cases h
  · cases h
  rename_i idx s1 hp
  obtain ⟨hm, hc, rfl, rfl⟩ := processTransaction_ok hp
  split at h
  · cases h
  rename_i s2 hu
  split at h
  · cases h
  rename_i s3 hde
  subst hawfe
  simp only [Res.ok.injEq] at h
  obtain ⟨rfl, rfl⟩ := h
  refine ⟨by simpa using hself, by omega, ⟨_, rfl, ?_⟩, s3, rfl,
    appended_burn hdup hm hc hawf hu hde⟩
  unfold ExpiryFrom
  unfold checkAllowanceOpt at hal
  split at hal
  · rename_i hch; cases hal; rw [hch]; rfl
  · rename_i x hch
    obtain ⟨_, cur, hg, he, _, _⟩ := checkAllowance_ok (n := a.1) (e := a.2) hal
    rw [hch]
    exact ⟨cur, a.2, hg, he, rfl⟩

theorem withdrawStart_err {s s' : State} {frm : Account} {to : Principal} {sp : Option Account}
    {amount now : Nat} {cat : Option Nat} {e : WithdrawFromError}
    (h : withdrawStart s frm to sp amount now cat = .err e s') : s' = s := by
  unfold withdrawStart at h
  simp only at h
  repeat' split at h
  all_goals first
    | (simp only [Res.err.injEq] at h; exact h.2.symm)
    | (cases h; done)
    | exact (errOrTrap_eq_err.mp h).2
    | (rename_i hp; simp only [Res.err.injEq] at h; rw [← h.2, (processTransaction_err hp).1])

theorem createCanisterStart_ok {s s' : State} {frm : Account} {sp : Option Account}
    {amount now : Nat} {cat : Option Nat} {p : Suspended}
    (h : createCanisterStart s frm sp amount now cat = .ok p s') :
    (∃ old, p = ⟨frm, sp, amount, s.blocks.length, old,
      ⟨.burn frm sp amount, cat, some CREATE_CANISTER_MEMO⟩⟩ ∧ ExpiryFrom s frm sp now old) ∧
    ∃ s1, s' = prune now s1 ∧
      Appended now s s1 ⟨.burn frm sp amount, cat, some CREATE_CANISTER_MEMO⟩ := by
  unfold createCanisterStart at h
  simp only at h
  split at h
  · cases h
  rename_i hdup
  rw [checkDuplicate_eq_none] at hdup
  split at h
  · cases h
  rename_i awf hawf
  rw [checkedAdd_eq_some] at hawf
  obtain ⟨hawfe, hawf⟩ := hawf
  split at h
  · exact absurd h errOrTrap_ne_ok
  rename_i a hal
  split at h
  · cases h
  split at h
  · cases h
  split at h
  · cases h
  · cases h
  rename_i idx s1 hp
  obtain ⟨hm, hc, rfl, rfl⟩ := processTransaction_ok hp
  split at h
  · cases h
  rename_i s2 hu
  split at h
  · cases h
  rename_i s3 hde
  subst hawfe
  simp only [Res.ok.injEq] at h
  obtain ⟨rfl, rfl⟩ := h
  refine ⟨⟨_, rfl, ?_⟩, s3, rfl, appended_burn hdup hm hc hawf hu hde⟩
  unfold ExpiryFrom
  unfold checkAllowanceOpt at hal
  split at hal
  · rename_i hch; cases hal; rw [hch]; rfl
  · rename_i x hch
    obtain ⟨_, cur, hg, he, _, _⟩ := checkAllowance_ok (n := a.1) (e := a.2) hal
    rw [hch]
    exact ⟨cur, a.2, hg, he, rfl⟩

theorem createCanisterStart_err {s s' : State} {frm : Account} {sp : Option Account}
    {amount now : Nat} {cat : Option Nat} {e : CreateCanisterFromError}
    (h : createCanisterStart s frm sp amount now cat = .err e s') : s' = s := by
  unfold createCanisterStart at h
  simp only at h
  repeat' split at h
  all_goals first
    | (simp only [Res.err.injEq] at h; exact h.2.symm)
    | (cases h; done)
    | exact (errOrTrap_eq_err.mp h).2
    | (rename_i hp; simp only [Res.err.injEq] at h; rw [← h.2, (processTransaction_err hp).1])

end CyclesLedger
