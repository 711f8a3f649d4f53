import Verif.Proof.Exec
/-!
# Effects of single blocks and of spending requests, in the terms of the specification
-/
namespace CyclesLedger

variable [Crypto]

omit [Crypto] in
theorem spec_key_iff (a b : Account) : b.key = a.key ↔ Spec.SameAccount a b := by
  rw [sameAccount_iff]; exact eq_comm

/-! ## Balances and supply -/

theorem Effect.transfer {now : Nat} {s s' : State} {r : Spec.TransferReq}
    (h : Effect now s s' r.transaction) :
    (∀ a : Account, (balanceOf s' a : Int) = balanceOf s a
      + (if Spec.SameAccount a r.to then (r.amount : Int) else 0)
      - (if Spec.SameAccount a r.frm then (r.amount : Int) + 100000000 else 0)) ∧
    s.cache.totalSupply = s'.cache.totalSupply + 100000000 := by
  have hop := h.op
  have hfee : Spec.fee (mkBlock s r.transaction now) = 100000000 := by
    rw [← FEE_eq]; exact fee_mkBlock_transfer hop.2.1
  constructor
  · intro a
    have := h.bal a
    unfold Spec.delta at this
    rw [hfee] at this
    simp only [mkBlock, Spec.TransferReq.transaction, Spec.idOf_eq, spec_key_iff] at this
    rw [this]
    split <;> split <;> omega
  · have := h.supply
    unfold Spec.supplyDelta at this
    rw [hfee] at this
    simp only [mkBlock, Spec.TransferReq.transaction] at this
    omega

theorem Effect.burn {now : Nat} {s s' : State} {r : Spec.BurnReq} {to : Option Principal}
    (h : Effect now s s' (r.transaction to)) :
    (∀ a : Account, (balanceOf s' a : Int) = balanceOf s a
      - (if Spec.SameAccount a r.frm then (r.amount : Int) + 100000000 else 0)) ∧
    s.cache.totalSupply = s'.cache.totalSupply + (r.amount + 100000000) := by
  have hfee : Spec.fee (mkBlock s (r.transaction to) now) = 100000000 := by
    rw [← FEE_eq]; exact fee_mkBlock_burn
  constructor
  · intro a
    have := h.bal a
    unfold Spec.delta at this
    rw [hfee] at this
    simp only [mkBlock, Spec.BurnReq.transaction, Spec.idOf_eq, spec_key_iff] at this
    rw [this]
    split <;> omega
  · have := h.supply
    unfold Spec.supplyDelta at this
    rw [hfee] at this
    simp only [mkBlock, Spec.BurnReq.transaction] at this
    omega

theorem Effect.approve {now : Nat} {s s' : State} {frm sp : Account} {x : Nat}
    {ea ex f c : Option Nat} {m : Option Bytes}
    (h : Effect now s s' ⟨.approve frm sp x ea ex f, c, m⟩) :
    (∀ a : Account, (balanceOf s' a : Int) = balanceOf s a
      - (if Spec.SameAccount a frm then 100000000 else 0)) ∧
    s.cache.totalSupply = s'.cache.totalSupply + 100000000 := by
  have hop := h.op
  have hfee : Spec.fee (mkBlock s ⟨.approve frm sp x ea ex f, c, m⟩ now) = 100000000 := by
    rw [← FEE_eq]; exact fee_mkBlock_approve hop.2.2.2.1
  constructor
  · intro a
    have := h.bal a
    unfold Spec.delta at this
    rw [hfee] at this
    simp only [mkBlock, Spec.idOf_eq, spec_key_iff] at this
    rw [this]
    split <;> omega
  · have := h.supply
    unfold Spec.supplyDelta at this
    rw [hfee] at this
    simp only [mkBlock] at this
    omega

theorem Effect.mint {now : Nat} {s s' : State} {to : Account} {x f : Nat}
    {c : Option Nat} {m : Option Bytes} (h : Effect now s s' ⟨.mint to x f, c, m⟩) :
    (∀ a : Account, balanceOf s' a = balanceOf s a + (if Spec.SameAccount a to then x else 0)) ∧
    s'.cache.totalSupply = s.cache.totalSupply + x ∧
    ∀ k t, now ≤ t → Spec.live t (s'.approvals.get k) = Spec.live t (s.approvals.get k) := by
  refine ⟨?_, ?_, ?_⟩
  · intro a
    have := h.bal a
    simp only [Spec.delta, mkBlock, Spec.idOf_eq, spec_key_iff] at this
    split at this <;> rename_i hk <;> simp only [hk, if_true, if_false] <;> omega
  · have := h.supply
    simp only [Spec.supplyDelta, mkBlock] at this
    omega
  · intro k t ht
    exact h.live k ht

/-! ## Allowances -/

omit [Crypto] in
/-- The allowance a request to spend charges, if any. -/
theorem charged_iff {frm sp : Account} {spender : Option Account} :
    Spec.OnBehalf frm spender sp ↔ spender = some sp ∧ sp.key ≠ frm.key := by
  rw [Spec.OnBehalf, sameAccount_iff]

/-- A transaction that spends `x` of `frm` by `spender`. -/
def SpendsBy (t : Transaction) (frm : Account) (spender : Option Account) (x : Nat) : Prop :=
  (∃ to f, t.operation = .transfer frm to spender x f) ∨ t.operation = .burn frm spender x

omit [Crypto] in
theorem SpendsBy.spends {now : Nat} {s : State} {t : Transaction} {frm : Account}
    {spender : Option Account} {x : Nat} (h : SpendsBy t frm spender x)
    (hop : OpOk now t.operation) (f : Spec.AllowFn) :
    (∀ sp, Spec.OnBehalf frm spender sp →
      Spec.spends (mkBlock s t now) = some ((frm.key, sp.key), x + 100000000) ∧
      Spec.allowStep f (mkBlock s t now) = Spec.spend f (frm.key, sp.key) (x + 100000000)) ∧
    ((∀ sp, ¬Spec.OnBehalf frm spender sp) → Spec.spends (mkBlock s t now) = none ∧
      Spec.allowStep f (mkBlock s t now) = f) := by
  obtain ⟨op, c, m⟩ := t
  have hfee : Spec.fee (mkBlock s ⟨op, c, m⟩ now) = 100000000 := by
    rw [← FEE_eq]
    rcases h with ⟨to, f, h⟩ | h
    · simp only at h; subst h; exact fee_mkBlock_transfer hop.2.1
    · simp only at h; subst h; exact fee_mkBlock_burn
  have hsp : ∀ sp, Spec.OnBehalf frm spender sp →
      Spec.spends (mkBlock s ⟨op, c, m⟩ now) = some ((frm.key, sp.key), x + 100000000) := by
    intro sp hb
    obtain ⟨rfl, hne⟩ := charged_iff.mp hb
    rcases h with ⟨to, f, h⟩ | h
    · simp only at h; subst h
      unfold Spec.spends; rw [hfee]; simp [mkBlock, hne]
    · simp only at h; subst h
      unfold Spec.spends; rw [hfee]; simp [mkBlock, hne]
  have hsn : (∀ sp, ¬Spec.OnBehalf frm spender sp) →
      Spec.spends (mkBlock s ⟨op, c, m⟩ now) = none := by
    intro hb
    cases spender with
    | none =>
      rcases h with ⟨to, f, h⟩ | h
      · simp only at h; subst h; rfl
      · simp only at h; subst h; rfl
    | some sp =>
      have hk : sp.key = frm.key := by
        refine Classical.byContradiction fun hne => hb sp (charged_iff.mpr ⟨rfl, hne⟩)
      rcases h with ⟨to, f, h⟩ | h
      · simp only at h; subst h; simp [Spec.spends, mkBlock, hk]
      · simp only at h; subst h; simp [Spec.spends, mkBlock, hk]
  have hst : Spec.allowStep f (mkBlock s ⟨op, c, m⟩ now) =
      match Spec.spends (mkBlock s ⟨op, c, m⟩ now) with
      | some (key, x) => Spec.spend f key x
      | none => f := by
    rcases h with ⟨to, f, h⟩ | h <;> (simp only at h; subst h; rfl)
  refine ⟨fun sp hb => ⟨hsp sp hb, ?_⟩, fun hb => ⟨hsn hb, ?_⟩⟩
  · rw [hst, hsp sp hb]
  · rw [hst, hsn hb]

/-- What spending does to allowances. -/
theorem Effect.spending {now : Nat} {s s' : State} {t : Transaction} {frm : Account}
    {spender : Option Account} {x : Nat} (he : Effect now s s' t) (h : SpendsBy t frm spender x) :
    (∀ sp, Spec.OnBehalf frm spender sp →
      ∃ a e, Spec.stored s frm sp = some (a, e) ∧ x + 100000000 ≤ a ∧ (e = 0 ∨ now < e) ∧
        Spec.stored s' frm sp =
          if a = x + 100000000 then none else some (a - (x + 100000000), e)) ∧
    (∀ a b t', now ≤ t' →
      (∀ sp, Spec.OnBehalf frm spender sp → ¬(Spec.SameAccount a frm ∧ Spec.SameAccount b sp)) →
      Spec.spendable s' a b t' = Spec.spendable s a b t') := by
  have hs := h.spends (s := s) he.op s.approvals.get
  constructor
  · intro sp hb
    obtain ⟨h1, h2⟩ := hs.1 sp hb
    obtain ⟨a, e, hg, hx, hlive⟩ := he.spend _ _ h1
    refine ⟨a, e, hg, hx, hlive, ?_⟩
    have hv : Spec.allowStep s.approvals.get (mkBlock s t now) (frm.key, sp.key) =
        if a = x + 100000000 then none else some (a - (x + 100000000), e) := by
      rw [h2]
      simp only [Spec.spend, if_true, hg]
      split <;> split <;> first | rfl | omega
    unfold Spec.stored
    by_cases hz : a = x + 100000000
    · rw [if_pos hz] at hv ⊢
      rcases he.allow (frm.key, sp.key) with h3 | ⟨h3, _⟩
      · rw [h3, hv]
      · exact h3
    · rw [if_neg hz] at hv ⊢
      exact he.allow_live hv hlive
  · intro a b t' ht hne
    have := he.live (a.key, b.key) ht
    unfold Spec.spendable Spec.stored
    rw [this]
    cases hsp : spender with
    | none =>
      rw [(hs.2 (fun sp h => by rw [h.1] at hsp; cases hsp)).2]
    | some sp =>
      by_cases hk : sp.key = frm.key
      · rw [(hs.2 (fun sp' h => by
          rw [charged_iff] at h
          rw [hsp] at h
          obtain ⟨h1, h2⟩ := h
          cases h1
          exact h2 hk)).2]
      · have hb : Spec.OnBehalf frm spender sp := charged_iff.mpr ⟨hsp, hk⟩
        rw [(hs.1 sp hb).2]
        simp only [Spec.spend]
        rw [if_neg]
        intro heq
        simp only [Prod.mk.injEq] at heq
        exact hne sp hb ⟨(sameAccount_iff _ _).mpr heq.1, (sameAccount_iff _ _).mpr heq.2⟩

/-- What an approval does to allowances. -/
theorem Effect.approving {now : Nat} {s s' : State} {frm sp : Account} {x : Nat}
    {ea ex f c : Option Nat} {m : Option Bytes}
    (he : Effect now s s' ⟨.approve frm sp x ea ex f, c, m⟩) :
    Spec.stored s' frm sp = (if x = 0 then none else some (x, ex.getD 0)) ∧
    (∀ a b t', now ≤ t' → ¬(Spec.SameAccount a frm ∧ Spec.SameAccount b sp) →
      Spec.spendable s' a b t' = Spec.spendable s a b t') := by
  have hst : ∀ k, Spec.allowStep s.approvals.get
      (mkBlock s ⟨.approve frm sp x ea ex f, c, m⟩ now) k =
      if k = (frm.key, sp.key) then (if x = 0 then none else some (x, ex.getD 0))
      else s.approvals.get k := fun k => rfl
  constructor
  · have hv := hst (frm.key, sp.key)
    rw [if_pos rfl] at hv
    unfold Spec.stored
    by_cases hz : x = 0
    · rw [if_pos hz] at hv ⊢
      rcases he.allow (frm.key, sp.key) with h3 | ⟨h3, _⟩
      · rw [h3, hv]
      · exact h3
    · rw [if_neg hz] at hv ⊢
      refine he.allow_live hv ?_
      have := he.op.2.2.2.2.2.2.2
      cases ex with
      | none => exact Or.inl rfl
      | some e => exact Or.inr this
  · intro a b t' ht hne
    have := he.live (a.key, b.key) ht
    unfold Spec.spendable Spec.stored
    rw [this, hst, if_neg]
    intro heq
    simp only [Prod.mk.injEq] at heq
    exact hne ⟨(sameAccount_iff _ _).mpr heq.1, (sameAccount_iff _ _).mpr heq.2⟩

/-! ## Spending requests -/

/-- A spending request either goes ahead, or is refused without effect. -/
theorem exec_spend {y : Sys} (hi : SInv y) {m : Msg} {frm : Account} {spender : Option Account}
    {x : Nat} (hm : Spec.spendRequest m = some (frm, spender, x)) :
    (∃ s1 t, SpendsBy t frm spender x ∧ Effect y.now y.ledger s1 t ∧
      x + 100000000 ≤ balanceOf y.ledger frm ∧
      ((Spec.Accepted (y.exec m).2 ∧ (y.exec m).1.ledger = s1) ∨
       (∃ p : Suspended, p.frm = frm ∧ p.spender = spender ∧ p.amount = x ∧
          p.blockIndex = y.ledger.blocks.length ∧ p.transaction = t ∧
          ExpiryFrom y.ledger frm spender y.now p.oldExpiresAt ∧ PendOk s1 p ∧
          Failed y s1 (Spec.kindOf m) p x (y.exec m)))) ∨
    ((y.exec m).1 = y ∧ ¬Spec.Accepted (y.exec m).2 ∧ Spec.failedBlocks (y.exec m).2 = none) := by
  unfold Spec.spendRequest at hm
  cases ht : Spec.transferRequest m with
  | some r =>
    rw [ht] at hm
    simp only [Option.some.injEq, Prod.mk.injEq] at hm
    obtain ⟨rfl, rfl, rfl⟩ := hm
    rcases exec_transfer hi ht with ⟨s', h1, h2, _, _, he, hv, _⟩ | ⟨e, h1, h2, h3, _⟩ | ⟨h1, _⟩
    · refine Or.inl ⟨s', r.transaction, Or.inl ⟨_, _, rfl⟩, he, hv.funds,
        Or.inl ⟨Or.inr ⟨_, h2⟩, by rw [h1]⟩⟩
    · refine Or.inr ⟨h1, ?_, ?_⟩
      · rintro (h | ⟨i, h⟩)
        · rw [h] at h3; cases h3
        · rw [h2] at h; cases h
      · generalize (y.exec m).2 = rep at h3
        cases rep <;> first | rfl | cases h3
    · rw [h1]
      refine Or.inr ⟨rfl, ?_, rfl⟩
      rintro (h | ⟨i, h⟩) <;> cases h
  | none =>
    rw [ht] at hm
    simp only [Option.map_eq_some_iff] at hm
    obtain ⟨⟨r, to⟩, hb, hm⟩ := hm
    simp only [Prod.mk.injEq] at hm
    obtain ⟨rfl, rfl, rfl⟩ := hm
    rcases exec_burn hi hb with ⟨s1, p, he, hv, _, _, ⟨old, rfl, hold⟩, hp, h⟩ | ⟨e, h⟩
    · refine Or.inl ⟨s1, r.transaction to, Or.inr rfl, he, hv.funds, ?_⟩
      rcases h with ⟨_, h⟩ | ⟨_, h⟩
      · rw [h]
        exact Or.inl ⟨Or.inl rfl, rfl⟩
      · exact Or.inr ⟨_, rfl, rfl, rfl, rfl, rfl, hold, hp, h⟩
    · refine Or.inr ⟨h.1, ?_, h.2.2.2.2.2.1⟩
      rintro (h' | ⟨i, h'⟩)
      · exact h.2.2.2.2.1 h'
      · rw [h.2.1] at h'; cases h'

/-! ## Refunds -/

/-- Balances, supply and log after a refund. -/
theorem Refunded.effect {s s' : State} {now : Nat} {kind : CallKind} {p : Suspended} {back : Nat}
    {fb ab : Option Nat} (h : Refunded s s' now kind p back fb ab) :
    ∃ x, (x = 0 ∨ x = 100000000) ∧
      (x = 100000000 ↔ ∃ sp, Spec.RefundsAllowance now p back sp) ∧
      (x = 100000000 → 200000000 < back) ∧
      (∀ a : Account, balanceOf s' a + (if Spec.SameAccount a p.frm then x else 0) =
        balanceOf s a + (if Spec.SameAccount a p.frm then back - 100000000 else 0)) ∧
      s'.cache.totalSupply + x = s.cache.totalSupply + (back - 100000000) := by
  rcases h with ⟨hle, _, _, rfl⟩ | ⟨hgt, _, _, he, hno⟩ | ⟨hgt, _, _, sp, s2, hr, he, he2⟩
  · refine ⟨0, Or.inl rfl, ⟨(fun h => nomatch h), ?_⟩, (fun h => nomatch h), ?_, ?_⟩
    · rintro ⟨sp, _, h, _⟩; omega
    · intro a; split <;> omega
    · omega
  · refine ⟨0, Or.inl rfl, ⟨(fun h => nomatch h), ?_⟩, (fun h => nomatch h), ?_, ?_⟩
    · rintro ⟨sp, h⟩; exact absurd h (hno sp)
    · intro a
      have := he.mint.1 a
      rw [this]; split <;> omega
    · have := he.mint.2.1; omega
  · refine ⟨100000000, Or.inr rfl, ⟨fun _ => ⟨sp, hr⟩, fun _ => rfl⟩, fun _ => hr.2.1, ?_, ?_⟩
    · intro a
      have h1 := he.mint.1 a
      have h2 := he2.approve.1 a
      have := hr.2.1
      split at h1 <;> split at h2 <;> first | contradiction | skip
      all_goals simp only [*, if_true, if_false]; omega
    · have h1 := he.mint.2.1
      have h2 := he2.approve.2
      omega

/-! ## The deduplication table -/

omit [Crypto] in
theorem inWindow_not_before {c now : Nat} (h : now ≤ c + 86400000000000 + 60000000000)
    (hn : now ≤ U64MAX) : isBeforeTransactionWindow c now = false := by
  unfold isBeforeTransactionWindow satAdd64
  rw [TRANSACTION_WINDOW_eq, PERMITTED_DRIFT_eq]
  simp only [decide_eq_false_iff_not]
  repeat' split
  all_goals omega

/-- A block whose `created_at_time` is not too old is in the table. -/
theorem table_has {now : Nat} {s : State} (hi : LInv now s)
    (hn : ¬Spec.Collision (s.blocks.map Block.transaction)) {i : Nat} {b : Block} {c : Nat}
    (hb : s.blocks[i]? = some b) (hc : b.transaction.createdAtTime = some c)
    (hw : now ≤ c + 86400000000000 + 60000000000) :
    ∃ p, s.transactionHashes.get b.transaction.hash! = some (i, p) := by
  have h := (hi.hashInv hn).1
  rcases h.all i b c hb hc with h1 | h1
  · obtain ⟨b', hb', _, h2⟩ := h.time _ _ h1
    rw [hb] at hb'
    cases hb'
    exact h2
  · rw [inWindow_not_before hw hi.clock] at h1; cases h1

/-! ## Upgrades -/

/-- Rebuilding the heap from stable memory gives the same state. -/
theorem LInv.reload_eq {now : Nat} {s : State} (hi : LInv now s) : reload s = s := by
  have hs : computeTotalSupply s.balances = s.cache.totalSupply := by
    rw [computeTotalSupply_eq (by rw [← hi.sum]; exact hi.bound), hi.sum]
  have h1 := hi.phash
  have h2 := hi.tree
  unfold reload
  simp only [hs, ← h1, ← h2]

theorem LInv.postUpgrade {now : Nat} {s s' : State} (hi : LInv now s) {arg : PostUpgradeArg}
    (h : CyclesLedger.postUpgrade s arg = some s') :
    s' = { s with config := s'.config } ∧
      ∀ u, arg = .upgrade (some u) → s'.config = applyUpgradeArgs s.config u := by
  unfold CyclesLedger.postUpgrade at h
  rw [hi.reload_eq] at h
  split at h <;> cases h <;> refine ⟨rfl, ?_⟩ <;> intro u hu <;> cases hu <;> rfl

end CyclesLedger
