import Verif.Proof.SysInv
import Verif.Spec.Request
/-!
# What every answer of an endpoint means

Complete classification of the results of the ledger operations in a state that
satisfies the invariant.
-/
namespace CyclesLedger
variable [Crypto]

/-! ## Small facts -/

omit [Crypto] in
theorem sameAccount_iff (a b : Account) : Spec.SameAccount a b ↔ a.key = b.key := by
  simp [Spec.SameAccount, Account.key]

omit [Crypto] in
theorem onBehalf_iff {frm sp : Account} {o : Option Account} :
    Spec.OnBehalf frm o sp ↔ chargedSpender frm o = some sp := by
  rw [chargedSpender_eq_some]
  simp [Spec.OnBehalf, sameAccount_iff]

omit [Crypto] in
theorem memoFits_iff {m : Option Bytes} : Spec.MemoFits m ↔ validateMemo m = true := by
  cases m with
  | none => simp [Spec.MemoFits, validateMemo]
  | some m => simp [Spec.MemoFits, validateMemo, MAX_MEMO_LENGTH]

omit [Crypto] in
theorem validateCreatedAt_tooOld {cat : Option Nat} {now : Nat} (hn : now ≤ U64MAX)
    (h : validateCreatedAtTime cat now = some .tooOld) :
    ∃ c, cat = some c ∧ c + 86400000000000 + 60000000000 < now := by
  cases cat with
  | none => simp [validateCreatedAtTime] at h
  | some c =>
    refine ⟨c, rfl, ?_⟩
    unfold validateCreatedAtTime at h
    simp only at h
    split at h
    · rename_i hlt
      unfold satAdd64 at hlt
      rw [TRANSACTION_WINDOW_eq, PERMITTED_DRIFT_eq] at hlt
      repeat' split at hlt
      all_goals omega
    · split at h <;> cases h

omit [Crypto] in
theorem validateCreatedAt_future {cat : Option Nat} {now l : Nat} (hc : OptLe cat U64MAX)
    (h : validateCreatedAtTime cat now = some (.inTheFuture l)) :
    l = now ∧ ∃ c, cat = some c ∧ now + 60000000000 < c := by
  cases cat with
  | none => simp [validateCreatedAtTime] at h
  | some c =>
    have hc := hc c rfl
    unfold validateCreatedAtTime at h
    simp only at h
    split at h
    · cases h
    · split at h
      · rename_i hlt
        simp only [Option.some.injEq, CreatedAtErr.inTheFuture.injEq] at h
        refine ⟨h.symm, c, rfl, ?_⟩
        unfold satAdd64 at hlt
        rw [PERMITTED_DRIFT_eq] at hlt
        split at hlt <;> omega
      · cases h

omit [Crypto] in
theorem validateCreatedAt_none {cat : Option Nat} {now : Nat} (hn : now ≤ U64MAX)
    (h : validateCreatedAtTime cat now = none) : Spec.InWindow cat now := by
  intro c hc
  subst hc
  unfold validateCreatedAtTime at h
  simp only at h
  split at h
  · cases h
  · rename_i h1
    split at h
    · cases h
    · rename_i h2
      unfold satAdd64 at h1 h2
      rw [PERMITTED_DRIFT_eq, TRANSACTION_WINDOW_eq] at h1
      rw [PERMITTED_DRIFT_eq] at h2
      constructor
      · repeat' split at h1
        all_goals omega
      · split at h2 <;> omega

omit [Crypto] in
/-- What a check of an allowance says. -/
theorem checkAllowanceOpt_error {s : State} {frm : Account} {sp : Option Account} {x now : Nat}
    {e : AllowErr} (hx : 0 < x) (h : checkAllowanceOpt s frm sp x now = .error e) :
    ∃ y, Spec.OnBehalf frm sp y ∧
      ((e = .expiredApproval ∧ ∃ a e, Spec.stored s frm y = some (a, e) ∧ 0 < e ∧ e ≤ now) ∨
       (e = .insufficientAllowance (Spec.spendable s frm y now) ∧
        Spec.spendable s frm y now < x)) := by
  unfold checkAllowanceOpt at h
  split at h
  · cases h
  · rename_i y hy
    refine ⟨y, onBehalf_iff.mpr hy, ?_⟩
    unfold checkAllowance at h
    rw [if_neg (by omega)] at h
    unfold Spec.spendable Spec.stored
    split at h
    · rename_i hg
      right
      rw [hg]
      cases h
      exact ⟨rfl, hx⟩
    · rename_i cur exp hg
      rw [hg]
      split at h
      · rename_i hexp
        left
        cases h
        simp at hexp
        exact ⟨rfl, cur, exp, rfl, by omega, by omega⟩
      · rename_i hexp
        simp at hexp
        have hl : Spec.live now (some (cur, exp)) = cur := by
          simp only [Spec.live]
          rw [if_pos (by omega)]
        split at h
        · rename_i hc
          rw [checkedSub_eq_none] at hc
          cases h
          rw [hl]
          exact Or.inr ⟨rfl, hc⟩
        · cases h

omit [Crypto] in
theorem checkAllowanceOpt_spendable {s : State} {frm y : Account} {sp : Option Account} {x now : Nat}
    {a : Nat × Nat} (h : checkAllowanceOpt s frm sp x now = .ok a) (hy : Spec.OnBehalf frm sp y) :
    x ≤ Spec.spendable s frm y now := by
  rw [onBehalf_iff] at hy
  unfold checkAllowanceOpt at h
  rw [hy] at h
  simp only at h
  obtain ⟨_, cur, hg, he, hle, _⟩ := checkAllowance_ok h
  unfold Spec.spendable Spec.stored
  rw [hg]
  simp only [Spec.live]
  rw [if_pos he]
  exact hle

omit [Crypto] in
theorem useAllowanceOpt_of_check {s s1 : State} {frm : Account} {sp : Option Account} {x now : Nat}
    {a : Nat × Nat} (h : checkAllowanceOpt s frm sp x now = .ok a)
    (hs : s1.approvals = s.approvals) : ∃ s', useAllowanceOpt s1 frm sp x now = .ok s' := by
  unfold checkAllowanceOpt at h
  unfold useAllowanceOpt
  split at h
  · exact ⟨s1, rfl⟩
  · rename_i y hch
    have h' : checkAllowance s1 frm y x now = .ok (a.1, a.2) := by
      unfold checkAllowance at h ⊢
      rw [hs]
      exact h
    exact useAllowance_eq_ok h'

theorem LInv.balance_le {now : Nat} {s : State} (hi : LInv now s) (a : Account) :
    balanceOf s a ≤ s.cache.totalSupply := by
  rw [hi.sum]; exact SMap.le_sum _ _

theorem LInv.two_balances {now : Nat} {s : State} (hi : LInv now s) {a b : Account}
    (h : a.key ≠ b.key) : balanceOf s a + balanceOf s b ≤ s.cache.totalSupply := by
  rw [hi.sum]; exact SMap.get_two_le_sum _ h

/-! ## Transfer -/

/-- The result of `transfer` in terms of the request. -/
theorem transfer_class {now : Nat} {s : State} (hi : LInv now s) (r : Spec.TransferReq)
    (hc : OptLe r.createdAt U64MAX) :
    match transfer s r.frm r.to r.spender r.amount r.memo now r.createdAt r.fee with
    | .ok _ _ => Spec.TransferValid s now r ∧ ¬Spec.SelfOverflow s r ∧
        s.transactionHashes.get r.transaction.hash! = none
    | .err e s' => s' = s ∧ Spec.TransferRefused s now r e ∧
        ((∃ d, e = .duplicate d) ↔ s.transactionHashes.get r.transaction.hash! ≠ none) ∧
        ∀ d, e = .duplicate d → ∃ c, s.transactionHashes.get r.transaction.hash! = some (d, c)
    | .trap => ¬Spec.MemoFits r.memo := by
  obtain ⟨frm, to, sp, amount, sf, memo, cat⟩ := r
  simp only [Spec.TransferReq.transaction] at *
  have hle := hi.balance_le frm
  have hbd := hi.bound
  generalize hres : transfer s frm to sp amount memo now cat sf = res
  unfold transfer at hres
  simp only at hres
  split at hres
  · rename_i e hdup
    rw [checkDuplicate_eq_some] at hdup
    obtain ⟨i, c, hg, rfl⟩ := hdup
    subst hres
    refine ⟨rfl, trivial, ?_, ?_⟩
    · rw [hg]; simp [PTErr.toTransferFrom]
    · intro d hd
      simp only [PTErr.toTransferFrom, TransferFromError.duplicate.injEq] at hd
      subst hd
      exact ⟨c, hg⟩
  rename_i hdup
  rw [checkDuplicate_eq_none] at hdup
  have nodup : ∀ e : TransferFromError, (∀ d, e ≠ .duplicate d) →
      ((∃ d, e = .duplicate d) ↔ s.transactionHashes.get
        (Transaction.mk (.transfer frm to sp amount sf) cat memo).hash! ≠ none) ∧
      ∀ d, e = .duplicate d → ∃ c, s.transactionHashes.get
        (Transaction.mk (.transfer frm to sp amount sf) cat memo).hash! = some (d, c) := by
    intro e he
    exact ⟨⟨fun ⟨d, hd⟩ => absurd hd (he d), fun h => absurd hdup h⟩, fun d hd => absurd hd (he d)⟩
  split at hres
  · rename_i hd
    subst hres
    refine ⟨rfl, Or.inl ⟨rfl, Or.inl (by simpa [isDenied] using hd)⟩, nodup _ (by simp)⟩
  rename_i hd1
  split at hres
  · rename_i hd
    subst hres
    refine ⟨rfl, Or.inl ⟨rfl, Or.inr (Or.inl (by simpa [isDenied] using hd))⟩, nodup _ (by simp)⟩
  rename_i hd2
  split at hres
  · rename_i hd
    subst hres
    refine ⟨rfl, Or.inl ⟨rfl, Or.inr (Or.inr ?_)⟩, nodup _ (by simp)⟩
    cases sp with
    | none => simp at hd
    | some x => exact ⟨x, rfl, by simpa [isDenied] using hd⟩
  rename_i hd3
  split at hres
  · rename_i hf
    subst hres
    refine ⟨rfl, ⟨FEE_eq, ?_⟩, nodup _ (by simp)⟩
    rw [← FEE_eq]
    simp only [Bool.and_eq_true, Option.isSome_iff_ne_none, bne_iff_ne] at hf
    exact hf
  rename_i hfee
  split at hres
  · rename_i hov
    rw [checkedAdd_eq_none] at hov
    subst hres
    refine ⟨rfl, ⟨rfl, ?_⟩, nodup _ (by simp)⟩
    simp only
    rw [← FEE_eq]
    omega
  rename_i awf hawf
  rw [checkedAdd_eq_some] at hawf
  obtain ⟨hawfe, hawf⟩ := hawf
  have hpos : 0 < awf := by rw [hawfe, FEE_eq]; omega
  have hawf' : awf = amount + 100000000 := by rw [hawfe, FEE_eq]
  clear hawfe
  split at hres
  · rename_i e hal
    obtain ⟨y, hy, ⟨rfl, a, ex, hst, h0, h1⟩ | ⟨rfl, hlt⟩⟩ := checkAllowanceOpt_error hpos hal
    · subst hres
      exact ⟨rfl, Or.inr (Or.inl ⟨rfl, y, a, ex, hy, hst, h0, h1⟩), nodup _ (by simp [AllowErr.toTransferFrom])⟩
    · subst hres
      refine ⟨rfl, ⟨y, hy, rfl, ?_⟩, nodup _ (by simp [AllowErr.toTransferFrom])⟩
      simp only
      omega
  rename_i al hal
  split at hres
  · rename_i hde
    unfold checkDebitFromAccount at hde
    rw [checkedSub_eq_none] at hde
    subst hres
    refine ⟨rfl, ⟨rfl, ?_⟩, nodup _ (by simp)⟩
    simp only
    omega
  rename_i x1 hde
  unfold checkDebitFromAccount at hde
  rw [checkedSub_eq_some] at hde
  have hself : to.key = frm.key → balanceOf s to = balanceOf s frm := by
    intro h; unfold balanceOf; rw [h]
  split at hres
  · rename_i hcr
    unfold checkCreditToAccount at hcr
    rw [checkedAdd_eq_none] at hcr
    subst hres
    refine ⟨rfl, Or.inr (Or.inr ⟨rfl, ?_⟩), nodup _ (by simp)⟩
    by_cases hk : to.key = frm.key
    · refine ⟨(sameAccount_iff _ _).mpr hk, ?_⟩
      have := hself hk
      rw [U128MAX_eq] at hcr
      simp only
      omega
    · have := hi.two_balances hk
      exfalso
      omega
  rename_i x2 hcr
  unfold checkCreditToAccount at hcr
  rw [checkedAdd_eq_some] at hcr
  split at hres
  · rename_i hsu
    unfold checkTotalSupplyDecrease at hsu
    rw [checkedSub_eq_none] at hsu
    exfalso
    rw [FEE_eq] at hsu
    omega
  rename_i x3 hsu
  split at hres
  · rename_i hp
    rw [processTransaction_trap] at hp
    subst hres
    simp only
    rw [memoFits_iff, hp]
    simp
  · rename_i e s1 hp
    obtain ⟨rfl, _, c, rfl, hcat⟩ := processTransaction_err hp
    subst hres
    cases c with
    | tooOld =>
      exact ⟨rfl, validateCreatedAt_tooOld hi.clock hcat, nodup _ (by simp [PTErr.toTransferFrom])⟩
    | inTheFuture l =>
      exact ⟨rfl, validateCreatedAt_future hc hcat, nodup _ (by simp [PTErr.toTransferFrom])⟩
  · rename_i idx s1 hp
    obtain ⟨hm, hcat, rfl, rfl⟩ := processTransaction_ok hp
    have hvalid : Spec.TransferValid s now ⟨frm, to, sp, amount, sf, memo, cat⟩ := by
      refine ⟨⟨isDenied_false hd1, isDenied_false hd2, ?_⟩, ?_, memoFits_iff.mpr hm,
        validateCreatedAt_none hi.clock hcat, by simp only; omega, ?_⟩
      · rintro x rfl
        exact isDenied_false (by simpa using hd3)
      · have := feeOk_of_check hfee
        unfold FeeOk at this
        rw [FEE_eq] at this
        exact this
      · intro y hy
        rw [← hawf']
        exact checkAllowanceOpt_spendable hal hy
    have hno : ¬Spec.SelfOverflow s ⟨frm, to, sp, amount, sf, memo, cat⟩ := by
      rintro ⟨h1, h2⟩
      rw [sameAccount_iff] at h1
      simp only at h1 h2
      have := hself h1
      have := hcr.2
      rw [U128MAX_eq] at this
      omega
    obtain ⟨s2, hu⟩ := useAllowanceOpt_of_check (s1 := pushBlock s (mkBlock s
      ⟨.transfer frm to sp amount sf, cat, memo⟩ now)) hal (by simp)
    rw [hu] at hres
    simp only at hres
    have sameA := useAllowanceOpt_same hu
    have hb0 : ∀ k, balAt s2 k = balAt s k := by intro k; rw [sameA.balAt]; simp
    have hs0 : s2.cache.totalSupply = s.cache.totalSupply := by rw [sameA.cache]; simp
    obtain ⟨s3, hdb⟩ := debit_isSome (s := s2) (a := frm) (x := awf)
      (by rw [hb0]; exact hde.1) (by rw [hs0]; omega)
    rw [hdb] at hres
    simp only at hres
    obtain ⟨same3, hbal3, hsup3, _, _, _⟩ := debit_eq_some hdb
    have hb3 := hbal3 to.key
    rw [hb0] at hb3
    rw [hs0] at hsup3
    have hd1 := hde.1
    have hc2 := hcr.2
    rw [balanceOf_eq] at hc2
    obtain ⟨s4, hc4⟩ := credit_isSome (s := s3) (a := to) (x := amount) (by omega) (by omega)
    rw [hc4] at hres
    simp only at hres
    subst hres
    exact ⟨hvalid, hno, hdup⟩

/-- `execute_transfer`, the same. -/
theorem executeTransfer_class {now : Nat} {s : State} (hi : LInv now s) (r : Spec.TransferReq)
    (hc : OptLe r.createdAt U64MAX) :
    match executeTransfer s r.frm r.to r.spender r.amount r.fee r.memo r.createdAt now with
    | .ok _ _ => Spec.TransferValid s now r ∧ ¬Spec.SelfOverflow s r ∧
        s.transactionHashes.get r.transaction.hash! = none
    | .err e s' => s' = s ∧ Spec.TransferRefused s now r e ∧
        ∀ d, e = .duplicate d → ∃ c, s.transactionHashes.get r.transaction.hash! = some (d, c)
    | .trap => ¬Spec.MemoFits r.memo := by
  have h := transfer_class hi r hc
  have hle := hi.balance_le r.frm
  have hbd := hi.bound
  generalize hres : executeTransfer s r.frm r.to r.spender r.amount r.fee r.memo r.createdAt now = res
  unfold executeTransfer at hres
  split at hres
  · rename_i hn
    rw [toU128_eq_none] at hn
    subst hres
    exact ⟨rfl, ⟨rfl, by omega⟩, by simp⟩
  · rename_i a ha
    rw [toU128_eq_some] at ha
    rw [ha.2] at hres
    split at hres
    · rename_i hn
      subst hres
      refine ⟨rfl, ⟨FEE_eq, ?_⟩, by simp⟩
      unfold natOpt at hn
      split at hn
      · cases hn
      · rename_i f hf
        simp only [Option.map_eq_none_iff, toU128_eq_none, U128MAX_eq] at hn
        rw [hf]
        simp
        omega
    · rename_i fee hfee
      rw [natOpt_eq_some] at hfee
      rw [hfee.1] at hres
      split at hres
      · rename_i i s1 ht
        rw [ht] at h
        subst hres
        exact h
      · rename_i e s1 ht
        rw [ht] at h
        subst hres
        exact ⟨h.1, h.2.1, h.2.2.2⟩
      · rename_i ht
        rw [ht] at h
        subst hres
        exact h

/-! ## Approve -/

/-- The result of `approve` in terms of the request. -/
theorem approve_class {now : Nat} {s : State} (hi : LInv now s) (r : Spec.ApproveReq)
    (hc : OptLe r.createdAt U64MAX) (ha : r.amount ≤ U128MAX) :
    match approve s r.frm r.spender r.amount r.memo now r.createdAt r.fee r.expectedAllowance
      r.expiresAt with
    | .ok _ _ => Spec.ApproveValid s now r ∧ s.transactionHashes.get r.transaction.hash! = none
    | .err e s' => s' = s ∧ Spec.ApproveRefused s now r e ∧
        ∀ d, e = .duplicate d → ∃ c, s.transactionHashes.get r.transaction.hash! = some (d, c)
    | .trap => ¬Spec.MemoFits r.memo ∨ r.frm.owner = r.spender.owner := by
  obtain ⟨frm, sp, amount, ea, exp, sf, memo, cat⟩ := r
  have hmin : min amount (2 ^ 128 - 1) = amount := by
    simp only at ha
    rw [U128MAX_eq] at ha
    omega
  simp only [Spec.ApproveReq.transaction, hmin] at *
  have hle := hi.balance_le frm
  have hal : (icrc2Allowance s frm sp now).1 = (allowance s frm sp now).1 := rfl
  generalize hres : approve s frm sp amount memo now cat sf ea exp = res
  unfold approve at hres
  simp only at hres
  split at hres
  · rename_i e hdup
    rw [checkDuplicate_eq_some] at hdup
    obtain ⟨i, c, hg, rfl⟩ := hdup
    subst hres
    refine ⟨rfl, trivial, ?_⟩
    intro d hd
    simp only [PTErr.toApprove, ApproveError.duplicate.injEq] at hd
    subst hd
    exact ⟨c, hg⟩
  rename_i hdup
  rw [checkDuplicate_eq_none] at hdup
  split at hres
  · rename_i hself; subst hres; exact Or.inr hself
  rename_i hself
  split at hres
  · rename_i hd
    subst hres
    exact ⟨rfl, ⟨rfl, Or.inl (by simpa [isDenied] using hd)⟩, by simp⟩
  rename_i hd1
  split at hres
  · rename_i hd
    subst hres
    exact ⟨rfl, ⟨rfl, Or.inr (by simpa [isDenied] using hd)⟩, by simp⟩
  rename_i hd2
  split at hres
  · rename_i hea
    subst hres
    refine ⟨rfl, ⟨hal.symm, ?_⟩, by simp⟩
    simp only [Bool.and_eq_true, Option.isSome_iff_ne_none, bne_iff_ne] at hea
    exact hea
  rename_i hea
  split at hres
  · rename_i hf
    subst hres
    refine ⟨rfl, ⟨FEE_eq, ?_⟩, by simp⟩
    rw [← FEE_eq]
    simp only [Bool.and_eq_true, Option.isSome_iff_ne_none, bne_iff_ne] at hf
    exact hf
  rename_i hfee
  split at hres
  · rename_i hb
    subst hres
    rw [FEE_eq] at hb
    exact ⟨rfl, ⟨rfl, hb⟩, by simp⟩
  rename_i hb
  split at hres
  · rename_i hexp
    subst hres
    rw [U64MAX_eq] at hexp
    exact ⟨rfl, ⟨rfl, hexp⟩, by simp⟩
  rename_i hexp
  split at hres
  · rename_i hsu
    unfold checkTotalSupplyDecrease at hsu
    rw [checkedSub_eq_none] at hsu
    exfalso
    omega
  rename_i x3 hsu
  unfold checkTotalSupplyDecrease at hsu
  rw [checkedSub_eq_some] at hsu
  split at hres
  · rename_i hp
    rw [processTransaction_trap] at hp
    subst hres
    left
    rw [memoFits_iff, hp]
    simp
  · rename_i e s1 hp
    obtain ⟨rfl, _, c, rfl, hcat⟩ := processTransaction_err hp
    subst hres
    cases c with
    | tooOld => exact ⟨rfl, validateCreatedAt_tooOld hi.clock hcat, by simp [PTErr.toApprove]⟩
    | inTheFuture l => exact ⟨rfl, validateCreatedAt_future hc hcat, by simp [PTErr.toApprove]⟩
  · rename_i idx s1 hp
    obtain ⟨hm, hcat, rfl, rfl⟩ := processTransaction_ok hp
    have hvalid : Spec.ApproveValid s now ⟨frm, sp, amount, ea, exp, sf, memo, cat⟩ := by
      refine ⟨hself, ⟨isDenied_false hd1, isDenied_false hd2⟩, ?_, ?_, memoFits_iff.mpr hm,
        validateCreatedAt_none hi.clock hcat, ?_, ?_⟩
      · rintro x hx
        simp only at hx
        subst hx
        simpa [hal] using hea
      · have := feeOk_of_check hfee
        unfold FeeOk at this
        rw [FEE_eq] at this
        exact this
      · rw [FEE_eq] at hb
        simp only
        omega
      · rw [U64MAX_eq] at hexp
        simp only
        omega
    have sameA := recordApproval_same
      (pushBlock s (mkBlock s ⟨.approve frm sp amount ea exp sf, cat, memo⟩ now)) frm sp amount exp
    obtain ⟨s3, hdb⟩ := debit_isSome (a := frm) (x := FEE) (s := recordApproval
      (pushBlock s (mkBlock s ⟨.approve frm sp amount ea exp sf, cat, memo⟩ now)) frm sp amount exp)
      (by rw [sameA.balAt, balAt_pushBlock, ← balanceOf_eq]; omega)
      (by rw [sameA.cache, pushBlock_supply]; exact hsu.1)
    rw [hdb] at hres
    simp only at hres
    subst hres
    exact ⟨hvalid, hdup⟩

/-- The request behind a call of `icrc2_approve`. -/
def ApproveArgs.req (args : ApproveArgs) (caller : Principal) : Spec.ApproveReq :=
  ⟨⟨caller, args.fromSubaccount⟩, args.spender, args.amount, args.expectedAllowance,
    opt64 args.expiresAt, args.fee, args.memo, opt64 args.createdAtTime⟩

/-- `icrc2_approve`, the same. -/
theorem icrc2Approve_class {now : Nat} {s : State} (hi : LInv now s) (caller : Principal)
    (args : ApproveArgs) :
    match icrc2Approve s caller args now with
    | .ok _ _ => Spec.ApproveValid s now (args.req caller) ∧
        s.transactionHashes.get (args.req caller).transaction.hash! = none
    | .err e s' => s' = s ∧ Spec.ApproveRefused s now (args.req caller) e ∧
        ∀ d, e = .duplicate d →
          ∃ c, s.transactionHashes.get (args.req caller).transaction.hash! = some (d, c)
    | .trap => ¬Spec.MemoFits args.memo ∨ caller = args.spender.owner := by
  have hU : 2 ^ 128 - 1 = U128MAX := by rw [U128MAX_eq]
  have h := approve_class hi { args.req caller with amount := min args.amount U128MAX }
    (opt64_le _) (Nat.min_le_right _ _)
  generalize hres : icrc2Approve s caller args now = res
  unfold icrc2Approve at hres
  simp only at hres
  have hlea := hi.allowance_le ⟨caller, args.fromSubaccount⟩ args.spender
  split at hres
  · rename_i hn
    subst hres
    refine ⟨rfl, ⟨rfl, ?_⟩, by simp⟩
    simp only [ApproveArgs.req]
    unfold natOpt at hn
    split at hn
    · cases hn
    · rename_i f hf
      simp only [Option.map_eq_none_iff, toU128_eq_none] at hn
      rw [hf]
      simp
      omega
  · rename_i ea hea
    rw [natOpt_eq_some] at hea
    rw [hea.1] at hres
    split at hres
    · rename_i hn
      subst hres
      refine ⟨rfl, ⟨FEE_eq, ?_⟩, by simp⟩
      simp only [ApproveArgs.req]
      unfold natOpt at hn
      split at hn
      · cases hn
      · rename_i f hf
        simp only [Option.map_eq_none_iff, toU128_eq_none, U128MAX_eq] at hn
        rw [hf]
        simp
        omega
    · rename_i fee hfee
      rw [natOpt_eq_some] at hfee
      rw [hfee.1] at hres
      have hmin : (toU128 args.amount).getD U128MAX = min args.amount U128MAX := by
        unfold toU128
        split
        · simp; omega
        · simp; omega
      rw [hmin] at hres
      simp only [Spec.ApproveReq.transaction, ApproveArgs.req, hU, Nat.min_assoc, Nat.min_self] at h ⊢
      split at hres
      · rename_i i s1 ht
        rw [ht] at h
        subst hres
        exact ⟨⟨h.1.1, h.1.2, h.1.3, h.1.4, h.1.5, h.1.6, h.1.7, h.1.8⟩, h.2⟩
      · rename_i e s1 ht
        rw [ht] at h
        subst hres
        exact h
      · rename_i ht
        rw [ht] at h
        subst hres
        exact h

/-! ## Withdraw, create canister -/

omit [Crypto] in
theorem isSelfAuthenticating_iff (p : Principal) :
    isSelfAuthenticating p = true ↔ Spec.IsUserPrincipal p := by
  obtain ⟨b, hb⟩ := p
  unfold isSelfAuthenticating Spec.IsUserPrincipal
  simp only
  constructor
  · intro h
    split at h
    · rename_i x hx
      have hlt := (List.getElem?_eq_some_iff.mp hx).1
      have hl : b.length = 29 := by omega
      refine ⟨hl, ?_⟩
      rw [List.getLast?_eq_getElem?, hl]
      simp only [beq_iff_eq] at h
      rw [hx, h]
    · cases h
  · rintro ⟨h1, h2⟩
    rw [List.getLast?_eq_getElem?, h1] at h2
    simp at h2
    rw [h2]
    rfl

omit [Crypto] in
theorem encodeWithdrawMemo_fits (p : Principal) :
    validateMemo (some (encodeWithdrawMemo p)) = true := by
  have := p.le
  simp only [validateMemo, encodeWithdrawMemo, MAX_MEMO_LENGTH]
  split <;> simp <;> omega

theorem withdrawStart_class {now : Nat} {s : State} (hi : LInv now s) (r : Spec.BurnReq)
    (to : Principal) (hc : OptLe r.createdAt U64MAX) :
    match withdrawStart s r.frm to r.spender r.amount now r.createdAt with
    | .ok _ _ => Spec.BurnValid s now r ∧ ¬Spec.IsUserPrincipal to ∧ 0 < r.amount ∧
        s.transactionHashes.get (Transaction.mk (.burn r.frm r.spender r.amount) r.createdAt
          (some (encodeWithdrawMemo to))).hash! = none
    | .err e s' => s' = s ∧ Spec.WithdrawRefused s now r to e ∧
        ∀ d, e = .duplicate d → ∃ c, s.transactionHashes.get (Transaction.mk
          (.burn r.frm r.spender r.amount) r.createdAt
          (some (encodeWithdrawMemo to))).hash! = some (d, c)
    | .trap => False := by
  obtain ⟨frm, sp, amount, cat⟩ := r
  simp only at *
  have hle := hi.balance_le frm
  have hbd := hi.bound
  generalize hres : withdrawStart s frm to sp amount now cat = res
  unfold withdrawStart at hres
  split at hres
  · rename_i hself
    subst hres
    exact ⟨rfl, ⟨rfl, (isSelfAuthenticating_iff to).mp hself⟩, by simp⟩
  rename_i hself
  split at hres
  · rename_i h0
    subst hres
    exact ⟨rfl, ⟨rfl, h0⟩, by simp⟩
  rename_i h0
  simp only at hres
  split at hres
  · rename_i e hdup
    rw [checkDuplicate_eq_some] at hdup
    obtain ⟨i, c, hg, rfl⟩ := hdup
    subst hres
    refine ⟨rfl, trivial, ?_⟩
    intro d hd
    simp only [PTErr.toWithdrawFrom, WithdrawFromError.duplicate.injEq] at hd
    subst hd
    exact ⟨c, hg⟩
  rename_i hdup
  rw [checkDuplicate_eq_none] at hdup
  split at hres
  · rename_i hov
    rw [checkedAdd_eq_none] at hov
    subst hres
    refine ⟨rfl, ⟨rfl, ?_⟩, by simp⟩
    simp only
    rw [← FEE_eq]
    omega
  rename_i awf hawf
  rw [checkedAdd_eq_some] at hawf
  obtain ⟨hawfe, hawf⟩ := hawf
  have hpos : 0 < awf := by rw [hawfe, FEE_eq]; omega
  have hawf' : awf = amount + 100000000 := by rw [hawfe, FEE_eq]
  clear hawfe
  split at hres
  · rename_i e hal
    obtain ⟨y, hy, ⟨rfl, a, ex, hst, h0, h1⟩ | ⟨rfl, hlt⟩⟩ := checkAllowanceOpt_error hpos hal
    · subst hres
      refine ⟨rfl, ⟨y, hy, ?_, ?_⟩, by simp⟩
      · unfold Spec.spendable; rw [hst]; simp only [Spec.live]; rw [if_neg (by omega)]
      · simp only; omega
    · subst hres
      refine ⟨rfl, ⟨y, hy, rfl, ?_⟩, by simp⟩
      simp only
      omega
  rename_i al hal
  split at hres
  · rename_i hde
    unfold checkDebitFromAccount at hde
    rw [checkedSub_eq_none] at hde
    subst hres
    refine ⟨rfl, ⟨rfl, ?_⟩, by simp⟩
    simp only
    omega
  rename_i x1 hde
  unfold checkDebitFromAccount at hde
  rw [checkedSub_eq_some] at hde
  split at hres
  · rename_i hsu
    unfold checkTotalSupplyDecrease at hsu
    rw [checkedSub_eq_none] at hsu
    exfalso
    omega
  rename_i x3 hsu
  split at hres
  · rename_i hp
    rw [processTransaction_trap] at hp
    have := encodeWithdrawMemo_fits to
    rw [hp] at this
    cases this
  · rename_i e s1 hp
    obtain ⟨rfl, _, c, rfl, hcat⟩ := processTransaction_err hp
    subst hres
    cases c with
    | tooOld =>
      exact ⟨rfl, validateCreatedAt_tooOld hi.clock hcat, by simp [PTErr.toWithdrawFrom]⟩
    | inTheFuture l =>
      exact ⟨rfl, validateCreatedAt_future hc hcat, by simp [PTErr.toWithdrawFrom]⟩
  · rename_i idx s1 hp
    obtain ⟨hm, hcat, rfl, rfl⟩ := processTransaction_ok hp
    have hvalid : Spec.BurnValid s now ⟨frm, sp, amount, cat⟩ := by
      refine ⟨validateCreatedAt_none hi.clock hcat, by simp only; omega, ?_⟩
      intro y hy
      rw [← hawf']
      exact checkAllowanceOpt_spendable hal hy
    obtain ⟨s2, hu⟩ := useAllowanceOpt_of_check (s1 := pushBlock s (mkBlock s
      ⟨.burn frm sp amount, cat, some (encodeWithdrawMemo to)⟩ now)) hal (by simp)
    rw [hu] at hres
    simp only at hres
    have sameA := useAllowanceOpt_same hu
    have hb0 : ∀ k, balAt s2 k = balAt s k := by intro k; rw [sameA.balAt]; simp
    have hs0 : s2.cache.totalSupply = s.cache.totalSupply := by rw [sameA.cache]; simp
    obtain ⟨s3, hdb⟩ := debit_isSome (s := s2) (a := frm) (x := awf)
      (by rw [hb0]; exact hde.1) (by rw [hs0]; omega)
    rw [hdb] at hres
    simp only at hres
    subst hres
    exact ⟨hvalid, fun h => hself ((isSelfAuthenticating_iff to).mpr h), by omega, hdup⟩

theorem createCanisterStart_class {now : Nat} {s : State} (hi : LInv now s) (r : Spec.BurnReq)
    (hc : OptLe r.createdAt U64MAX) :
    match createCanisterStart s r.frm r.spender r.amount now r.createdAt with
    | .ok _ _ => Spec.BurnValid s now r ∧
        s.transactionHashes.get (Transaction.mk (.burn r.frm r.spender r.amount) r.createdAt
          (some CREATE_CANISTER_MEMO)).hash! = none
    | .err e s' => s' = s ∧ Spec.CreateRefused s now r e ∧
        ∀ d c, e = .duplicate d c → s.transactionHashes.get (Transaction.mk
          (.burn r.frm r.spender r.amount) r.createdAt (some CREATE_CANISTER_MEMO)).hash! =
            some (d, c)
    | .trap => False := by
  obtain ⟨frm, sp, amount, cat⟩ := r
  simp only at *
  have hle := hi.balance_le frm
  have hbd := hi.bound
  generalize hres : createCanisterStart s frm sp amount now cat = res
  unfold createCanisterStart at hres
  simp only at hres
  split at hres
  · rename_i e hdup
    rw [checkDuplicate_eq_some] at hdup
    obtain ⟨i, c, hg, rfl⟩ := hdup
    subst hres
    refine ⟨rfl, trivial, ?_⟩
    intro d c' hd
    simp only [PTErr.toCreateFrom, CreateCanisterFromError.duplicate.injEq] at hd
    obtain ⟨rfl, rfl⟩ := hd
    exact hg
  rename_i hdup
  rw [checkDuplicate_eq_none] at hdup
  split at hres
  · rename_i hov
    rw [checkedAdd_eq_none] at hov
    subst hres
    refine ⟨rfl, ⟨rfl, ?_⟩, by simp⟩
    simp only
    rw [← FEE_eq]
    omega
  rename_i awf hawf
  rw [checkedAdd_eq_some] at hawf
  obtain ⟨hawfe, hawf⟩ := hawf
  have hpos : 0 < awf := by rw [hawfe, FEE_eq]; omega
  have hawf' : awf = amount + 100000000 := by rw [hawfe, FEE_eq]
  clear hawfe
  split at hres
  · rename_i e hal
    obtain ⟨y, hy, ⟨rfl, a, ex, hst, h0, h1⟩ | ⟨rfl, hlt⟩⟩ := checkAllowanceOpt_error hpos hal
    · subst hres
      refine ⟨rfl, ⟨y, hy, ?_, ?_⟩, by simp⟩
      · unfold Spec.spendable; rw [hst]; simp only [Spec.live]; rw [if_neg (by omega)]
      · simp only; omega
    · subst hres
      refine ⟨rfl, ⟨y, hy, rfl, ?_⟩, by simp⟩
      simp only
      omega
  rename_i al hal
  split at hres
  · rename_i hde
    unfold checkDebitFromAccount at hde
    rw [checkedSub_eq_none] at hde
    subst hres
    refine ⟨rfl, ⟨rfl, ?_⟩, by simp⟩
    simp only
    omega
  rename_i x1 hde
  unfold checkDebitFromAccount at hde
  rw [checkedSub_eq_some] at hde
  split at hres
  · rename_i hsu
    unfold checkTotalSupplyDecrease at hsu
    rw [checkedSub_eq_none] at hsu
    exfalso
    omega
  rename_i x3 hsu
  split at hres
  · rename_i hp
    rw [processTransaction_trap] at hp
    have : validateMemo (some CREATE_CANISTER_MEMO) = true := by decide
    simp only at hp
    rw [this] at hp
    cases hp
  · rename_i e s1 hp
    obtain ⟨rfl, _, c, rfl, hcat⟩ := processTransaction_err hp
    subst hres
    cases c with
    | tooOld =>
      exact ⟨rfl, validateCreatedAt_tooOld hi.clock hcat, by simp [PTErr.toCreateFrom]⟩
    | inTheFuture l =>
      exact ⟨rfl, validateCreatedAt_future hc hcat, by simp [PTErr.toCreateFrom]⟩
  · rename_i idx s1 hp
    obtain ⟨hm, hcat, rfl, rfl⟩ := processTransaction_ok hp
    have hvalid : Spec.BurnValid s now ⟨frm, sp, amount, cat⟩ := by
      refine ⟨validateCreatedAt_none hi.clock hcat, by simp only; omega, ?_⟩
      intro y hy
      rw [← hawf']
      exact checkAllowanceOpt_spendable hal hy
    obtain ⟨s2, hu⟩ := useAllowanceOpt_of_check (s1 := pushBlock s (mkBlock s
      ⟨.burn frm sp amount, cat, some CREATE_CANISTER_MEMO⟩ now)) hal (by simp)
    rw [hu] at hres
    simp only at hres
    have sameA := useAllowanceOpt_same hu
    have hb0 : ∀ k, balAt s2 k = balAt s k := by intro k; rw [sameA.balAt]; simp
    have hs0 : s2.cache.totalSupply = s.cache.totalSupply := by rw [sameA.cache]; simp
    obtain ⟨s3, hdb⟩ := debit_isSome (s := s2) (a := frm) (x := awf)
      (by rw [hb0]; exact hde.1) (by rw [hs0]; omega)
    rw [hdb] at hres
    simp only at hres
    subst hres
    exact ⟨hvalid, hdup⟩

/-- `execute_withdraw`. -/
theorem executeWithdraw_class {now : Nat} {s : State} (hi : LInv now s) (r : Spec.BurnReq)
    (to : Principal) (hc : OptLe r.createdAt U64MAX) :
    match executeWithdraw s r.frm to r.spender r.amount r.createdAt now with
    | .ok _ _ => Spec.BurnValid s now r ∧ ¬Spec.IsUserPrincipal to ∧ 0 < r.amount ∧
        s.transactionHashes.get (Transaction.mk (.burn r.frm r.spender r.amount) r.createdAt
          (some (encodeWithdrawMemo to))).hash! = none
    | .err e s' => s' = s ∧ Spec.WithdrawRefused s now r to e ∧
        ∀ d, e = .duplicate d → ∃ c, s.transactionHashes.get (Transaction.mk
          (.burn r.frm r.spender r.amount) r.createdAt
          (some (encodeWithdrawMemo to))).hash! = some (d, c)
    | .trap => False := by
  have h := withdrawStart_class hi r to hc
  have hle := hi.balance_le r.frm
  have hbd := hi.bound
  generalize hres : executeWithdraw s r.frm to r.spender r.amount r.createdAt now = res
  unfold executeWithdraw at hres
  split at hres
  · rename_i hn
    rw [toU128_eq_none] at hn
    subst hres
    exact ⟨rfl, ⟨rfl, by omega⟩, by simp⟩
  · rename_i a ha
    rw [toU128_eq_some] at ha
    rw [ha.2] at hres
    rw [hres] at h
    exact h

/-- `execute_create_canister`. -/
theorem executeCreateCanister_class {now : Nat} {s : State} (hi : LInv now s) (r : Spec.BurnReq)
    (hc : OptLe r.createdAt U64MAX) :
    match executeCreateCanister s r.frm r.spender r.amount r.createdAt now with
    | .ok _ _ => Spec.BurnValid s now r ∧
        s.transactionHashes.get (Transaction.mk (.burn r.frm r.spender r.amount) r.createdAt
          (some CREATE_CANISTER_MEMO)).hash! = none
    | .err e s' => s' = s ∧ Spec.CreateRefused s now r e ∧
        ∀ d c, e = .duplicate d c → s.transactionHashes.get (Transaction.mk
          (.burn r.frm r.spender r.amount) r.createdAt (some CREATE_CANISTER_MEMO)).hash! =
            some (d, c)
    | .trap => False := by
  have h := createCanisterStart_class hi r hc
  have hle := hi.balance_le r.frm
  have hbd := hi.bound
  generalize hres : executeCreateCanister s r.frm r.spender r.amount r.createdAt now = res
  unfold executeCreateCanister at hres
  split at hres
  · rename_i hn
    rw [toU128_eq_none] at hn
    subst hres
    exact ⟨rfl, ⟨rfl, by omega⟩, by simp⟩
  · rename_i a ha
    rw [toU128_eq_some] at ha
    rw [ha.2] at hres
    rw [hres] at h
    exact h

/-! ## Deposit -/

theorem mint_class {now : Nat} {s : State} (hi : LInv now s) (to : Account) (amount : Nat)
    (memo : Option Bytes) :
    match mint s to amount memo now with
    | .ok _ _ => Spec.MemoFits memo ∧ s.cache.totalSupply + amount ≤ U128MAX
    | .err _ _ => U128MAX < s.cache.totalSupply + amount
    | .trap => ¬Spec.MemoFits memo := by
  have hle := hi.balance_le to
  generalize hres : mint s to amount memo now = res
  unfold mint at hres
  split at hres
  · rename_i hcc
    subst hres
    simp only
    unfold checkCredit checkCreditToAccount checkTotalSupplyIncrease at hcc
    refine Nat.lt_of_not_le fun hn => ?_
    have h1 : checkedAdd (balanceOf s to) amount = some (balanceOf s to + amount) := by
      rw [checkedAdd_eq_some]; exact ⟨rfl, by omega⟩
    have h2 : checkedAdd s.cache.totalSupply amount = some (s.cache.totalSupply + amount) := by
      rw [checkedAdd_eq_some]; exact ⟨rfl, by omega⟩
    rw [h1, h2] at hcc
    simp at hcc
  rename_i hcc
  have hsup : s.cache.totalSupply + amount ≤ U128MAX := by
    unfold checkCredit checkCreditToAccount checkTotalSupplyIncrease at hcc
    cases h2 : checkedAdd s.cache.totalSupply amount with
    | none => rw [h2] at hcc; simp at hcc
    | some x =>
      rw [checkedAdd_eq_some] at h2
      obtain ⟨rfl, h⟩ := h2
      exact h
  split at hres
  · rename_i hp
    rw [processTransaction_trap] at hp
    subst hres
    simp only
    rw [memoFits_iff, hp]
    simp
  · rename_i e s1 hp
    obtain ⟨rfl, _, c, rfl, hcat⟩ := processTransaction_err hp
    cases hcat
  · rename_i idx s1 hp
    obtain ⟨hm, hcat, rfl, rfl⟩ := processTransaction_ok hp
    obtain ⟨s2, hs2⟩ := credit_isSome (s := pushBlock s (mkBlock s ⟨.mint to amount FEE, none, memo⟩ now))
      (a := to) (x := amount) (by rw [balAt_pushBlock, ← balanceOf_eq]; omega)
      (by rw [pushBlock_supply]; exact hsup)
    rw [hs2] at hres
    simp only at hres
    subst hres
    exact ⟨memoFits_iff.mpr hm, hsup⟩

theorem depositEndpoint_class {now : Nat} {s : State} (hi : LInv now s) (arg : DepositArg)
    (cycles : Nat) :
    match depositEndpoint s arg cycles now with
    | .ok _ _ => 100000000 < cycles ∧ Spec.MemoFits arg.memo ∧
        s.cache.totalSupply + (cycles - 100000000) < 2 ^ 128
    | .err _ _ => False
    | .trap => cycles ≤ 100000000 ∨ ¬Spec.MemoFits arg.memo ∨
        2 ^ 128 ≤ s.cache.totalSupply + (cycles - 100000000) := by
  have hbd := hi.bound
  rw [← FEE_eq]
  have h128 : 2 ^ 128 = U128MAX + 1 := by rw [U128MAX_eq]
  rw [h128]
  have hmint := mint_class hi arg.to (cycles - FEE) arg.memo
  generalize hres : depositEndpoint s arg cycles now = res
  unfold depositEndpoint deposit at hres
  cases hsub : checkedSub cycles FEE with
  | none =>
    rw [hsub] at hres
    simp only at hres
    subst hres
    rw [checkedSub_eq_none] at hsub
    exact Or.inl (by omega)
  | some a =>
    rw [hsub] at hres
    rw [checkedSub_eq_some] at hsub
    obtain ⟨hge, rfl⟩ := hsub
    generalize hx : cycles - FEE = x at *
    cases x with
    | zero =>
      simp only at hres
      subst hres
      exact Or.inl (by omega)
    | succ n =>
      simp only at hres
      generalize mint s arg.to (n + 1) arg.memo now = m at *
      cases m with
      | ok i s1 =>
        simp only at hres hmint
        subst hres
        exact ⟨by omega, hmint.1, by omega⟩
      | err e s1 =>
        simp only at hres hmint
        subst hres
        exact Or.inr (Or.inr (by omega))
      | trap =>
        simp only at hres hmint
        subst hres
        exact Or.inr (Or.inl hmint)

end CyclesLedger
