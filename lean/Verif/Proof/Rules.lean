import Verif.Spec.Rules
import Verif.Proof.Cases
/-!
# The endpoints follow the lists of rules
-/
namespace CyclesLedger

theorem Spec.FirstOf.skip {α : Type} {p : Prop} {a : α} {rs : List (Spec.Rule α)} {o : Option α}
    (h : ¬p) (t : Spec.FirstOf rs o) : Spec.FirstOf (Spec.onlyIf p a :: rs) o :=
  .miss (fun _ hx => h hx.1) t

theorem Spec.FirstOf.stop {α : Type} {p : Prop} {a : α} {rs : List (Spec.Rule α)} (h : p) :
    Spec.FirstOf (Spec.onlyIf p a :: rs) (some a) := .hit ⟨h, rfl⟩

/-- The outcome of an endpoint as a verdict. -/
def Res.verdict {σ ε α : Type} : Res σ ε α → Option (Spec.Verdict ε)
  | .ok _ _ => none
  | .err e _ => some (.refuse e)
  | .trap => some .trap

theorem natOpt_eq_none {o : Option Nat} : natOpt o = none ↔ ∃ f, o = some f ∧ 2 ^ 128 ≤ f := by
  unfold natOpt
  cases o with
  | none => simp
  | some f =>
    simp only [Option.map_eq_none_iff, toU128_eq_none, U128MAX_eq, Option.some.injEq]
    constructor
    · intro h; exact ⟨f, rfl, by omega⟩
    · rintro ⟨_, rfl, h⟩; omega

theorem not_tooOld {cat : Option Nat} {now : Nat} (h : Spec.InWindow cat now) :
    ¬Spec.TooOld cat now := by
  rintro ⟨c, hc, h1⟩
  have := (h c hc).1
  omega

theorem not_inFuture {cat : Option Nat} {now : Nat} (h : Spec.InWindow cat now) :
    ¬Spec.InFuture cat now := by
  rintro ⟨c, hc, h1⟩
  have := (h c hc).2
  omega

theorem not_tooOld_of_future {cat : Option Nat} {now : Nat} (h : Spec.InFuture cat now) :
    ¬Spec.TooOld cat now := by
  rintro ⟨c, hc, h1⟩
  obtain ⟨c', hc', h2⟩ := h
  rw [hc] at hc'
  cases hc'
  omega

variable [Crypto]

/-- The index the table of recent transactions holds for `t`. -/
def tableDup (s : State) (t : Transaction) : Option Nat :=
  (s.transactionHashes.get t.hash!).map Prod.fst

theorem transfer_rules {now : Nat} {s : State} (hi : LInv now s) (r : Spec.TransferReq)
    (hc : OptLe r.createdAt U64MAX) :
    Spec.FirstOf ((Spec.transferRules s now (tableDup s r.transaction) r).drop 2)
      (transfer s r.frm r.to r.spender r.amount r.memo now r.createdAt r.fee).verdict := by
  have hcl := transfer_class hi r hc
  obtain ⟨frm, to, sp, amount, sf, memo, cat⟩ := r
  simp only [Spec.TransferReq.transaction] at *
  have hle := hi.balance_le frm
  have hbd := hi.bound
  simp only [Spec.transferRules, List.drop_succ_cons, List.drop_zero]
  generalize hres : transfer s frm to sp amount memo now cat sf = res at hcl ⊢
  have hres0 := hres
  unfold transfer at hres
  simp only at hres
  split at hres
  · rename_i e hdup
    rw [checkDuplicate_eq_some] at hdup
    obtain ⟨i, c, hg, rfl⟩ := hdup
    subst hres
    exact .hit ⟨i, by rw [tableDup, hg]; rfl, rfl⟩
  rename_i hdup
  rw [checkDuplicate_eq_none] at hdup
  refine .miss ?_ ?_
  · rintro v ⟨d, hd, _⟩
    rw [tableDup, hdup] at hd
    cases hd
  split at hres
  · rename_i hd
    subst hres
    exact .stop (Or.inl (by simpa [isDenied] using hd))
  rename_i hd1
  split at hres
  · rename_i hd
    subst hres
    exact .stop (Or.inr (Or.inl (by simpa [isDenied] using hd)))
  rename_i hd2
  split at hres
  · rename_i hd
    subst hres
    refine .stop (Or.inr (Or.inr ?_))
    cases sp with
    | none => simp at hd
    | some x => exact ⟨x, rfl, by simpa [isDenied] using hd⟩
  rename_i hd3
  refine .skip ?_ ?_
  · rintro (h | h | ⟨x, rfl, h⟩)
    · exact isDenied_false hd1 h
    · exact isDenied_false hd2 h
    · exact isDenied_false (by simpa using hd3) h
  split at hres
  · rename_i hf
    subst hres
    simp only [Bool.and_eq_true, Option.isSome_iff_ne_none, bne_iff_ne] at hf
    rw [FEE_eq] at hf ⊢
    exact .stop hf
  rename_i hfee
  refine .skip ?_ ?_
  · rintro ⟨h1, h2⟩
    have := feeOk_of_check hfee
    unfold FeeOk at this
    rw [FEE_eq] at this
    rcases this with h | h
    · exact h1 h
    · exact h2 h
  split at hres
  · rename_i hov
    rw [checkedAdd_eq_none, FEE_eq, U128MAX_eq] at hov
    subst hres
    exact .stop (by omega)
  rename_i awf hawf
  rw [checkedAdd_eq_some] at hawf
  obtain ⟨hawfe, hawf⟩ := hawf
  have hpos : 0 < awf := by rw [hawfe, FEE_eq]; omega
  have hawf' : awf = amount + 100000000 := by rw [hawfe, FEE_eq]
  clear hawfe
  refine .skip (by rw [U128MAX_eq, FEE_eq] at hawf; omega) ?_
  split at hres
  · rename_i e hal
    obtain ⟨y, hy, ⟨rfl, a, ex, hst, h0, h1⟩ | ⟨rfl, hlt⟩⟩ := checkAllowanceOpt_error hpos hal
    · subst hres
      exact .stop ⟨y, a, ex, hy, hst, h0, h1⟩
    · subst hres
      refine .skip ?_ (.hit ⟨y, hy, by omega, rfl⟩)
      rintro ⟨y', a, ex, hy', hst, h0, h1⟩
      have : y' = y := by
        have h2 := hy'.1; rw [hy.1] at h2; cases h2; rfl
      subst this
      have hne := checkAllowanceOpt_error hpos hal
      rw [onBehalf_iff] at hy
      unfold checkAllowanceOpt at hal
      rw [hy] at hal
      simp only at hal
      unfold checkAllowance at hal
      unfold Spec.stored at hst
      rw [if_neg (by omega), hst] at hal
      simp only at hal
      rw [if_pos (by simp; omega)] at hal
      cases hal
  rename_i al hal
  refine .skip ?_ (.miss ?_ ?_)
  · rintro ⟨y, a, ex, hy, hst, h0, h1⟩
    have := checkAllowanceOpt_spendable hal hy
    unfold Spec.spendable at this
    rw [hst] at this
    simp only [Spec.live] at this
    rw [if_neg (by omega)] at this
    omega
  · rintro v ⟨y, hy, hlt, _⟩
    have := checkAllowanceOpt_spendable hal hy
    omega
  split at hres
  · rename_i hde
    unfold checkDebitFromAccount at hde
    rw [checkedSub_eq_none] at hde
    subst hres
    exact .stop (by omega)
  rename_i x1 hde
  unfold checkDebitFromAccount at hde
  rw [checkedSub_eq_some] at hde
  refine .skip (by omega) ?_
  have hself : to.key = frm.key → balanceOf s to = balanceOf s frm := by
    intro h; unfold balanceOf; rw [h]
  split at hres
  · rename_i hcr
    subst hres
    obtain ⟨_, hr, _⟩ := hcl
    rcases hr with ⟨h1, _⟩ | ⟨h1, _⟩ | ⟨_, h1⟩
    · simp [UNKNOWN_GENERIC_ERROR] at h1
    · simp [UNKNOWN_GENERIC_ERROR] at h1
    · exact .stop h1
  rename_i x2 hcr
  unfold checkCreditToAccount at hcr
  rw [checkedAdd_eq_some] at hcr
  refine .skip ?_ ?_
  · rintro ⟨h1, h2⟩
    rw [sameAccount_iff] at h1
    simp only at h1 h2
    have := hself h1
    have := hcr.2
    rw [U128MAX_eq] at this
    omega
  split at hres
  · rename_i hsu
    unfold checkTotalSupplyDecrease at hsu
    rw [checkedSub_eq_none] at hsu
    exfalso
    rw [FEE_eq] at hsu
    omega
  rename_i x3 hsu
  split at hres
  · rename_i hp
    rw [processTransaction_trap] at hp
    subst hres
    exact .stop hcl
  · rename_i e s1 hp
    obtain ⟨rfl, hmm, c, rfl, hcat⟩ := processTransaction_err hp
    subst hres
    refine .skip (fun h => h (memoFits_iff.mpr hmm)) ?_
    cases c with
    | tooOld => exact .stop (validateCreatedAt_tooOld hi.clock hcat)
    | inTheFuture l =>
      obtain ⟨rfl, h1⟩ := validateCreatedAt_future hc hcat
      exact .skip (not_tooOld_of_future h1) (.stop h1)
  · rename_i idx s1 hp
    obtain ⟨hm, hcat, rfl, rfl⟩ := processTransaction_ok hp
    have hw := validateCreatedAt_none hi.clock hcat
    have hok : ∃ i s', res = .ok i s' := by
      cases res with
      | ok i s' => exact ⟨i, s', rfl⟩
      | trap => exact absurd (memoFits_iff.mpr hm) hcl
      | err e s' =>
        exfalso
        split at hres
        · cases hres
        · split at hres
          · cases hres
          · split at hres <;> cases hres
    obtain ⟨i, s', rfl⟩ := hok
    exact .skip (fun h => h (memoFits_iff.mpr hm)) (.skip (not_tooOld hw)
      (.skip (not_inFuture hw) .done))

theorem executeTransfer_rules {now : Nat} {s : State} (hi : LInv now s) (r : Spec.TransferReq)
    (hc : OptLe r.createdAt U64MAX) :
    Spec.FirstOf (Spec.transferRules s now (tableDup s r.transaction) r)
      (executeTransfer s r.frm r.to r.spender r.amount r.fee r.memo r.createdAt now).verdict := by
  have h := transfer_rules hi r hc
  have hsplit : ∀ {o : Option (Spec.Verdict TransferFromError)},
      ¬2 ^ 128 ≤ r.amount → ¬(∃ f, r.fee = some f ∧ 2 ^ 128 ≤ f) →
      Spec.FirstOf ((Spec.transferRules s now (tableDup s r.transaction) r).drop 2) o →
      Spec.FirstOf (Spec.transferRules s now (tableDup s r.transaction) r) o :=
    fun h1 h2 h3 => .skip h1 (.skip h2 h3)
  generalize hres : executeTransfer s r.frm r.to r.spender r.amount r.fee r.memo r.createdAt now = res
  unfold executeTransfer at hres
  split at hres
  · rename_i hn
    rw [toU128_eq_none, U128MAX_eq] at hn
    subst hres
    exact .stop (by omega)
  · rename_i a ha
    rw [toU128_eq_some, U128MAX_eq] at ha
    split at hres
    · rename_i hn
      rw [natOpt_eq_none] at hn
      subst hres
      rw [FEE_eq]
      exact .skip (by omega) (.stop hn)
    · rename_i fee hfee
      have hf : ¬∃ f, r.fee = some f ∧ 2 ^ 128 ≤ f := by
        rw [← natOpt_eq_none, hfee]; simp
      rw [natOpt_eq_some] at hfee
      rw [hfee.1, ha.2] at hres
      refine hsplit (by omega) hf ?_
      split at hres
      · rename_i i s1 ht
        rw [ht] at h
        subst hres
        exact h
      · rename_i e s1 ht
        rw [ht] at h
        subst hres
        exact h
      · rename_i ht
        rw [ht] at h
        subst hres
        exact h

/-! ## Approvals -/

theorem approve_rules {now : Nat} {s : State} (hi : LInv now s) (r : Spec.ApproveReq)
    (hc : OptLe r.createdAt U64MAX) (ha : r.amount ≤ U128MAX) :
    Spec.FirstOf ((Spec.approveRules s now (tableDup s r.transaction) r).drop 2)
      (approve s r.frm r.spender r.amount r.memo now r.createdAt r.fee r.expectedAllowance
        r.expiresAt).verdict := by
  have hcl := approve_class hi r hc ha
  obtain ⟨frm, sp, amount, ea, exp, sf, memo, cat⟩ := r
  have hmin : min amount (2 ^ 128 - 1) = amount := by
    simp only at ha
    rw [U128MAX_eq] at ha
    omega
  simp only [Spec.ApproveReq.transaction, hmin] at *
  have hle := hi.balance_le frm
  have hal : (icrc2Allowance s frm sp now).1 = (allowance s frm sp now).1 := rfl
  simp only [Spec.approveRules, List.drop_succ_cons, List.drop_zero]
  generalize hres : approve s frm sp amount memo now cat sf ea exp = res at hcl ⊢
  unfold approve at hres
  simp only at hres
  split at hres
  · rename_i e hdup
    rw [checkDuplicate_eq_some] at hdup
    obtain ⟨i, c, hg, rfl⟩ := hdup
    subst hres
    exact .hit ⟨i, by rw [tableDup, hg]; rfl, rfl⟩
  rename_i hdup
  rw [checkDuplicate_eq_none] at hdup
  refine .miss ?_ ?_
  · rintro v ⟨d, hd, _⟩
    rw [tableDup, hdup] at hd
    cases hd
  split at hres
  · rename_i hself; subst hres; exact .stop hself
  rename_i hself
  refine .skip hself ?_
  split at hres
  · rename_i hd
    subst hres
    exact .stop (Or.inl (by simpa [isDenied] using hd))
  rename_i hd1
  split at hres
  · rename_i hd
    subst hres
    exact .stop (Or.inr (by simpa [isDenied] using hd))
  rename_i hd2
  refine .skip ?_ ?_
  · rintro (h | h)
    · exact isDenied_false hd1 h
    · exact isDenied_false hd2 h
  split at hres
  · rename_i hea
    subst hres
    simp only [Bool.and_eq_true, Option.isSome_iff_exists, bne_iff_ne] at hea
    obtain ⟨⟨x, rfl⟩, hne⟩ := hea
    exact .stop ⟨x, rfl, fun h => hne (by rw [h, hal])⟩
  rename_i hea
  refine .skip ?_ ?_
  · rintro ⟨x, rfl, hne⟩
    apply hea
    simp only [Option.isSome_some, Bool.true_and, bne_iff_ne, ne_eq, Option.some.injEq]
    rw [hal] at hne
    exact hne
  split at hres
  · rename_i hf
    subst hres
    simp only [Bool.and_eq_true, Option.isSome_iff_ne_none, bne_iff_ne] at hf
    rw [FEE_eq] at hf ⊢
    exact .stop hf
  rename_i hfee
  refine .skip ?_ ?_
  · rintro ⟨h1, h2⟩
    have := feeOk_of_check hfee
    unfold FeeOk at this
    rw [FEE_eq] at this
    rcases this with h | h
    · exact h1 h
    · exact h2 h
  split at hres
  · rename_i hb
    subst hres
    rw [FEE_eq] at hb
    exact .stop hb
  rename_i hb
  refine .skip (by rw [FEE_eq] at hb; exact hb) ?_
  split at hres
  · rename_i hexp
    subst hres
    rw [U64MAX_eq] at hexp
    exact .stop hexp
  rename_i hexp
  refine .skip (by rw [U64MAX_eq] at hexp; exact hexp) ?_
  split at hres
  · rename_i hsu
    unfold checkTotalSupplyDecrease at hsu
    rw [checkedSub_eq_none] at hsu
    exfalso
    omega
  rename_i x3 hsu
  split at hres
  · rename_i hp
    rw [processTransaction_trap] at hp
    subst hres
    refine .stop (fun h => ?_)
    rw [memoFits_iff, hp] at h
    cases h
  · rename_i e s1 hp
    obtain ⟨rfl, hmm, c, rfl, hcat⟩ := processTransaction_err hp
    subst hres
    refine .skip (fun h => h (memoFits_iff.mpr hmm)) ?_
    cases c with
    | tooOld => exact .stop (validateCreatedAt_tooOld hi.clock hcat)
    | inTheFuture l =>
      obtain ⟨rfl, h1⟩ := validateCreatedAt_future hc hcat
      exact .skip (not_tooOld_of_future h1) (.stop h1)
  · rename_i idx s1 hp
    obtain ⟨hm, hcat, rfl, rfl⟩ := processTransaction_ok hp
    have hw := validateCreatedAt_none hi.clock hcat
    have hok : ∃ i s', res = .ok i s' := by
      cases res with
      | ok i s' => exact ⟨i, s', rfl⟩
      | trap =>
        rcases hcl with h | h
        · exact absurd (memoFits_iff.mpr hm) h
        · exact absurd h hself
      | err e s' => exfalso; split at hres <;> cases hres
    obtain ⟨i, s', rfl⟩ := hok
    exact .skip (fun h => h (memoFits_iff.mpr hm)) (.skip (not_tooOld hw)
      (.skip (not_inFuture hw) .done))

theorem icrc2Approve_rules {now : Nat} {s : State} (hi : LInv now s) (caller : Principal)
    (args : ApproveArgs) :
    Spec.FirstOf (Spec.approveRules s now (tableDup s (args.req caller).transaction)
      (args.req caller)) (icrc2Approve s caller args now).verdict := by
  have hU : 2 ^ 128 - 1 = U128MAX := by rw [U128MAX_eq]
  have h := approve_rules hi { args.req caller with amount := min args.amount U128MAX }
    (opt64_le _) (Nat.min_le_right _ _)
  have ht : ({ args.req caller with amount := min args.amount U128MAX } : Spec.ApproveReq).transaction =
      (args.req caller).transaction := by
    simp only [Spec.ApproveReq.transaction, ApproveArgs.req, hU, Nat.min_assoc, Nat.min_self]
  rw [ht] at h
  generalize tableDup s (args.req caller).transaction = dup at h ⊢
  have hsplit : ∀ {o : Option (Spec.Verdict ApproveError)},
      ¬(∃ x, args.expectedAllowance = some x ∧ 2 ^ 128 ≤ x) →
      ¬(∃ f, args.fee = some f ∧ 2 ^ 128 ≤ f) →
      Spec.FirstOf ((Spec.approveRules s now dup
        { args.req caller with amount := min args.amount U128MAX }).drop 2) o →
      Spec.FirstOf (Spec.approveRules s now dup (args.req caller)) o :=
    fun h1 h2 h3 => .skip h1 (.skip h2 h3)
  generalize hres : icrc2Approve s caller args now = res
  unfold icrc2Approve at hres
  simp only at hres
  split at hres
  · rename_i hn
    rw [natOpt_eq_none] at hn
    subst hres
    exact .stop hn
  · rename_i ea hea
    have he : ¬∃ f, args.expectedAllowance = some f ∧ 2 ^ 128 ≤ f := by
      rw [← natOpt_eq_none, hea]; simp
    rw [natOpt_eq_some] at hea
    rw [hea.1] at hres
    split at hres
    · rename_i hn
      rw [natOpt_eq_none] at hn
      subst hres
      rw [FEE_eq]
      exact .skip he (.stop hn)
    · rename_i fee hfee
      have hf : ¬∃ f, args.fee = some f ∧ 2 ^ 128 ≤ f := by
        rw [← natOpt_eq_none, hfee]; simp
      rw [natOpt_eq_some] at hfee
      rw [hfee.1] at hres
      have hmin : (toU128 args.amount).getD U128MAX = min args.amount U128MAX := by
        unfold toU128
        split
        · simp; omega
        · simp; omega
      rw [hmin] at hres
      refine hsplit he hf ?_
      simp only [ApproveArgs.req] at h ⊢
      split at hres
      · rename_i i s1 ht
        rw [ht] at h
        subst hres
        exact h
      · rename_i e s1 ht
        rw [ht] at h
        subst hres
        exact h
      · rename_i ht
        rw [ht] at h
        subst hres
        exact h

/-! ## Burns -/

/-- The outcome of the first half of a withdrawal. -/
def withdrawVerdict : Res State WithdrawFromError Suspended → Option Spec.BurnError
  | .err e _ => Spec.burnError (.withdrawFrom (.error e))
  | _ => none

/-- The outcome of the first half of a canister creation. -/
def createVerdict : Res State CreateCanisterFromError Suspended → Option Spec.BurnError
  | .err e _ => Spec.burnError (.createCanisterFrom (.error e))
  | _ => none

theorem withdrawStart_rules {now : Nat} {s : State} (hi : LInv now s) (r : Spec.BurnReq)
    (to : Principal) (hc : OptLe r.createdAt U64MAX) :
    Spec.FirstOf ((Spec.burnRules s now (tableDup s (r.transaction (some to))) r (some to)).drop 1)
      (withdrawVerdict (withdrawStart s r.frm to r.spender r.amount now r.createdAt)) := by
  have hcl := withdrawStart_class hi r to hc
  obtain ⟨frm, sp, amount, cat⟩ := r
  simp only [Spec.BurnReq.transaction, burnMemo_some] at *
  have hle := hi.balance_le frm
  have hbd := hi.bound
  simp only [Spec.burnRules, List.drop_succ_cons, List.drop_zero]
  generalize hres : withdrawStart s frm to sp amount now cat = res at hcl ⊢
  unfold withdrawStart at hres
  split at hres
  · rename_i hself
    subst hres
    exact .hit ⟨to, rfl, (isSelfAuthenticating_iff to).mp hself, rfl⟩
  rename_i hself
  refine .miss ?_ ?_
  · rintro v ⟨p, hp, h1, _⟩
    cases hp
    exact hself ((isSelfAuthenticating_iff to).mpr h1)
  split at hres
  · rename_i h0
    subst hres
    exact .stop ⟨by simp, h0⟩
  rename_i h0
  refine .skip (fun h => h0 h.2) ?_
  simp only at hres
  split at hres
  · rename_i e hdup
    rw [checkDuplicate_eq_some] at hdup
    obtain ⟨i, c, hg, rfl⟩ := hdup
    subst hres
    exact .hit ⟨i, none, by rw [tableDup, hg]; rfl, rfl, by simp⟩
  rename_i hdup
  rw [checkDuplicate_eq_none] at hdup
  refine .miss ?_ ?_
  · rintro v ⟨d, c, hd, _⟩
    rw [tableDup, hdup] at hd
    cases hd
  split at hres
  · rename_i hov
    rw [checkedAdd_eq_none, FEE_eq, U128MAX_eq] at hov
    subst hres
    exact .stop (by omega)
  rename_i awf hawf
  rw [checkedAdd_eq_some] at hawf
  obtain ⟨hawfe, hawf⟩ := hawf
  have hpos : 0 < awf := by rw [hawfe, FEE_eq]; omega
  have hawf' : awf = amount + 100000000 := by rw [hawfe, FEE_eq]
  clear hawfe
  refine .skip (by rw [U128MAX_eq, FEE_eq] at hawf; omega) ?_
  split at hres
  · rename_i e hal
    obtain ⟨y, hy, ⟨rfl, a, ex, hst, h0, h1⟩ | ⟨rfl, hlt⟩⟩ := checkAllowanceOpt_error hpos hal
    · subst hres
      have hz : Spec.spendable s frm y now = 0 := by
        unfold Spec.spendable; rw [hst]; simp only [Spec.live]; rw [if_neg (by omega)]
      refine .hit ⟨y, hy, by omega, by rw [hz]⟩
    · subst hres
      exact .hit ⟨y, hy, by omega, rfl⟩
  rename_i al hal
  refine .miss ?_ ?_
  · rintro v ⟨y, hy, hlt, _⟩
    have := checkAllowanceOpt_spendable hal hy
    omega
  split at hres
  · rename_i hde
    unfold checkDebitFromAccount at hde
    rw [checkedSub_eq_none] at hde
    subst hres
    exact .stop (by omega)
  rename_i x1 hde
  unfold checkDebitFromAccount at hde
  rw [checkedSub_eq_some] at hde
  refine .skip (by omega) ?_
  split at hres
  · rename_i hsu
    unfold checkTotalSupplyDecrease at hsu
    rw [checkedSub_eq_none] at hsu
    exfalso
    omega
  rename_i x3 hsu
  split at hres
  · rename_i hp
    subst hres
    exact absurd hcl id
  · rename_i e s1 hp
    obtain ⟨rfl, hmm, c, rfl, hcat⟩ := processTransaction_err hp
    subst hres
    cases c with
    | tooOld => exact .stop (validateCreatedAt_tooOld hi.clock hcat)
    | inTheFuture l =>
      obtain ⟨rfl, h1⟩ := validateCreatedAt_future hc hcat
      exact .skip (not_tooOld_of_future h1) (.stop h1)
  · rename_i idx s1 hp
    obtain ⟨hm, hcat, rfl, rfl⟩ := processTransaction_ok hp
    have hw := validateCreatedAt_none hi.clock hcat
    have hok : withdrawVerdict res = none := by
      cases res with
      | ok i s' => rfl
      | trap => rfl
      | err e s' =>
        exfalso
        split at hres
        · cases hres
        · split at hres <;> cases hres
    rw [hok]
    exact .skip (not_tooOld hw) (.skip (not_inFuture hw) .done)

theorem createCanisterStart_rules {now : Nat} {s : State} (hi : LInv now s) (r : Spec.BurnReq)
    (hc : OptLe r.createdAt U64MAX) :
    Spec.FirstOf ((Spec.burnRules s now (tableDup s (r.transaction none)) r none).drop 1)
      (createVerdict (createCanisterStart s r.frm r.spender r.amount now r.createdAt)) := by
  have hcl := createCanisterStart_class hi r hc
  obtain ⟨frm, sp, amount, cat⟩ := r
  have hmemo : Spec.burnMemo none = CREATE_CANISTER_MEMO := rfl
  simp only [Spec.BurnReq.transaction, hmemo] at *
  have hle := hi.balance_le frm
  have hbd := hi.bound
  simp only [Spec.burnRules, List.drop_succ_cons, List.drop_zero]
  generalize hres : createCanisterStart s frm sp amount now cat = res at hcl ⊢
  unfold createCanisterStart at hres
  refine .miss ?_ (.skip (by simp) ?_)
  · rintro v ⟨p, hp, _⟩
    cases hp
  simp only at hres
  split at hres
  · rename_i e hdup
    rw [checkDuplicate_eq_some] at hdup
    obtain ⟨i, c, hg, rfl⟩ := hdup
    subst hres
    exact .hit ⟨i, some c, by rw [tableDup, hg]; rfl, rfl, by simp⟩
  rename_i hdup
  rw [checkDuplicate_eq_none] at hdup
  refine .miss ?_ ?_
  · rintro v ⟨d, c, hd, _⟩
    rw [tableDup, hdup] at hd
    cases hd
  split at hres
  · rename_i hov
    rw [checkedAdd_eq_none, FEE_eq, U128MAX_eq] at hov
    subst hres
    exact .stop (by omega)
  rename_i awf hawf
  rw [checkedAdd_eq_some] at hawf
  obtain ⟨hawfe, hawf⟩ := hawf
  have hpos : 0 < awf := by rw [hawfe, FEE_eq]; omega
  have hawf' : awf = amount + 100000000 := by rw [hawfe, FEE_eq]
  clear hawfe
  refine .skip (by rw [U128MAX_eq, FEE_eq] at hawf; omega) ?_
  split at hres
  · rename_i e hal
    obtain ⟨y, hy, ⟨rfl, a, ex, hst, h0, h1⟩ | ⟨rfl, hlt⟩⟩ := checkAllowanceOpt_error hpos hal
    · subst hres
      have hz : Spec.spendable s frm y now = 0 := by
        unfold Spec.spendable; rw [hst]; simp only [Spec.live]; rw [if_neg (by omega)]
      refine .hit ⟨y, hy, by omega, by rw [hz]⟩
    · subst hres
      exact .hit ⟨y, hy, by omega, rfl⟩
  rename_i al hal
  refine .miss ?_ ?_
  · rintro v ⟨y, hy, hlt, _⟩
    have := checkAllowanceOpt_spendable hal hy
    omega
  split at hres
  · rename_i hde
    unfold checkDebitFromAccount at hde
    rw [checkedSub_eq_none] at hde
    subst hres
    exact .stop (by omega)
  rename_i x1 hde
  unfold checkDebitFromAccount at hde
  rw [checkedSub_eq_some] at hde
  refine .skip (by omega) ?_
  split at hres
  · rename_i hsu
    unfold checkTotalSupplyDecrease at hsu
    rw [checkedSub_eq_none] at hsu
    exfalso
    omega
  rename_i x3 hsu
  split at hres
  · rename_i hp
    subst hres
    exact absurd hcl id
  · rename_i e s1 hp
    obtain ⟨rfl, hmm, c, rfl, hcat⟩ := processTransaction_err hp
    subst hres
    cases c with
    | tooOld => exact .stop (validateCreatedAt_tooOld hi.clock hcat)
    | inTheFuture l =>
      obtain ⟨rfl, h1⟩ := validateCreatedAt_future hc hcat
      exact .skip (not_tooOld_of_future h1) (.stop h1)
  · rename_i idx s1 hp
    obtain ⟨hm, hcat, rfl, rfl⟩ := processTransaction_ok hp
    have hw := validateCreatedAt_none hi.clock hcat
    have hok : createVerdict res = none := by
      cases res with
      | ok i s' => rfl
      | trap => rfl
      | err e s' =>
        exfalso
        split at hres
        · cases hres
        · split at hres <;> cases hres
    rw [hok]
    exact .skip (not_tooOld hw) (.skip (not_inFuture hw) .done)

theorem executeWithdraw_rules {now : Nat} {s : State} (hi : LInv now s) (r : Spec.BurnReq)
    (to : Principal) (hc : OptLe r.createdAt U64MAX) :
    Spec.FirstOf (Spec.burnRules s now (tableDup s (r.transaction (some to))) r (some to))
      (withdrawVerdict (executeWithdraw s r.frm to r.spender r.amount r.createdAt now)) := by
  have h := withdrawStart_rules hi r to hc
  unfold executeWithdraw
  split
  · rename_i hn
    rw [toU128_eq_none, U128MAX_eq] at hn
    exact .stop (by omega)
  · rename_i a ha
    rw [toU128_eq_some, U128MAX_eq] at ha
    rw [ha.2]
    exact .skip (by omega) h

theorem executeCreateCanister_rules {now : Nat} {s : State} (hi : LInv now s) (r : Spec.BurnReq)
    (hc : OptLe r.createdAt U64MAX) :
    Spec.FirstOf (Spec.burnRules s now (tableDup s (r.transaction none)) r none)
      (createVerdict (executeCreateCanister s r.frm r.spender r.amount r.createdAt now)) := by
  have h := createCanisterStart_rules hi r hc
  unfold executeCreateCanister
  split
  · rename_i hn
    rw [toU128_eq_none, U128MAX_eq] at hn
    exact .stop (by omega)
  · rename_i a ha
    rw [toU128_eq_some, U128MAX_eq] at ha
    rw [ha.2]
    exact .skip (by omega) h

end CyclesLedger
