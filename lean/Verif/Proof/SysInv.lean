import Verif.Proof.Inv
/-!
# The invariant of the system, and its induction over events
-/
namespace CyclesLedger
variable [Crypto]

/-! ## Refunds after a failed call -/

/-- The common part of the failure branches of `withdraw` and `create_canister`:
mint back `r`, then maybe restore the allowance; `none` is a trap. -/
def refund (s : State) (p : Suspended) (r : Nat) (memo : Bytes) (cond : Bool) (now : Nat) :
    Option (Option Nat × Option Nat × State) :=
  if r = 0 then some (none, none, s)
  else match reimburse s p.frm r now memo with
    | .trap => none
    | .err _ _ => none
    | .ok fb s =>
      match p.spender with
      | none => some (some fb, none, prune now s)
      | some sp =>
        if !sp.same p.frm && cond && approvalStillValid p.oldExpiresAt now then
          match reimburseApproval (prune now s) p.frm sp (satSub r FEE) p.oldExpiresAt now with
          | .ok ab s => some (some fb, some ab, s)
          | .err _ _ => none
          | .trap => none
        else some (some fb, none, prune now s)

theorem withdrawFinish_eq (s : State) (p : Suspended) (code : CallError) (now : Nat) :
    withdrawFinish s p (some code) now =
      match refund s p (satSub p.amount FEE) PENALIZE_MEMO (decide (p.amount > 2 * FEE)) now with
      | none => .trap
      | some (fb, ab, s') =>
        .err (.failedToWithdrawFrom (some p.blockIndex) fb ab (callErrorToReject code)) s' := by
  unfold withdrawFinish refund
  generalize satSub p.amount FEE = r
  simp only
  split
  · rfl
  · split
    · rename_i h; simp only [h]
    · rename_i h; simp only [h]
    · rename_i fb s1 h
      simp only [h]
      split
      · rename_i h2; simp only [h2]
      · rename_i sp h2
        simp only [h2]
        split
        · split
          · rename_i h3; simp only [h3]
          · rename_i h3; simp only [h3]
          · rename_i h3; simp only [h3]
        · rfl

/-- The result of a failed canister creation of which `returned` cycles came back. -/
def createFailed (s : State) (p : Suspended) (code : RejectionCode) (returned now : Nat) :
    Res State CreateCanisterFromError (Nat × Principal) :=
  match refund s p (satSub returned FEE) REFUND_MEMO (decide (satSub returned FEE > FEE)) now with
  | none => .trap
  | some (fb, ab, s') => .err (.failedToCreateFrom (some p.blockIndex) fb ab code) s'

theorem createCanisterFinish_failed (s : State) (p : Suspended) (now : Nat) :
    (∀ amt, createCanisterFinish s p (.refunded amt) now =
      createFailed s p .canisterError amt now) ∧
    createCanisterFinish s p .refundFailed now = createFailed s p .canisterError 0 now ∧
    (∀ code, createCanisterFinish s p (.callError code) now =
      createFailed s p (callErrorToReject code) p.amount now) := by
  have key : ∀ code returned, (
      let amountToReimburse := satSub returned FEE
      if amountToReimburse = 0 then
        (Res.err (.failedToCreateFrom (some p.blockIndex) none none code) s :
          Res State CreateCanisterFromError (Nat × Principal))
      else match reimburse s p.frm amountToReimburse now REFUND_MEMO with
        | .trap => .trap
        | .err _ _ => .trap
        | .ok refundBlock s =>
          let s := prune now s
          match p.spender with
          | none => .err (.failedToCreateFrom (some p.blockIndex) (some refundBlock) none code) s
          | some spender =>
            if !spender.same p.frm && decide (amountToReimburse > FEE) &&
                approvalStillValid p.oldExpiresAt now then
              match reimburseApproval s p.frm spender (satSub amountToReimburse FEE)
                  p.oldExpiresAt now with
              | .ok approvalBlock s =>
                .err (.failedToCreateFrom (some p.blockIndex) (some refundBlock)
                  (some approvalBlock) code) s
              | .err _ _ => .trap
              | .trap => .trap
            else .err (.failedToCreateFrom (some p.blockIndex) (some refundBlock) none code) s)
      = createFailed s p code returned now := by
    intro code returned
    unfold createFailed refund
    generalize satSub returned FEE = r
    simp only
    by_cases h0 : r = 0
    · simp only [h0, if_true]
    · simp only [h0, if_false]
      cases hr : reimburse s p.frm r now REFUND_MEMO with
      | trap => rfl
      | err e s1 => rfl
      | ok fb s1 =>
        simp only
        cases hsp : p.spender with
        | none => rfl
        | some sp =>
          simp only
          by_cases hc : (!sp.same p.frm && decide (r > FEE) &&
              approvalStillValid p.oldExpiresAt now) = true
          · simp only [hc, if_true]
            cases reimburseApproval (prune now s1) p.frm sp (satSub r FEE) p.oldExpiresAt now <;> rfl
          · simp only [hc]
            rfl
  refine ⟨fun amt => key _ _, key _ _, fun code => key _ _⟩

omit [Crypto] in
theorem satAdd128_le (a b : Nat) : satAdd128 a b ≤ U128MAX := by
  unfold satAdd128; split <;> omega

/-- The expiry a restored allowance gets. -/
def refundExpiry (s : State) (frm sp : Account) (old : Option Nat) (now : Nat) : Option Nat :=
  if (allowance s frm sp now).2 > 0 then some (allowance s frm sp now).2 else old

omit [Crypto] in
theorem allowance_le {now : Nat} {s : State} (h : ∀ k a e, s.approvals.get k = some (a, e) →
    a ≤ U128MAX ∧ e ≤ U64MAX) (frm sp : Account) :
    (allowance s frm sp now).1 ≤ U128MAX ∧ (allowance s frm sp now).2 ≤ U64MAX := by
  unfold allowance
  simp only
  split
  · simp
  · cases hg : s.approvals.get (frm.key, sp.key) with
    | none => simp
    | some v => exact h _ v.1 v.2 hg

theorem LInv.allowance_le {now : Nat} {s : State} (hi : LInv now s) (frm sp : Account) :
    (allowance s frm sp now).1 ≤ U128MAX ∧ (allowance s frm sp now).2 ≤ U64MAX :=
  CyclesLedger.allowance_le (fun k a e h => ⟨(hi.approvals k a e h).2.1, (hi.approvals k a e h).2.2.1⟩)
    frm sp

theorem refund_cases {now : Nat} {s s' : State} {p : Suspended} {r : Nat} {memo : Bytes}
    {cond : Bool} {fb ab : Option Nat} (hi : LInv now s) (hexp : OptLe p.oldExpiresAt U64MAX)
    (h : refund s p r memo cond now = some (fb, ab, s')) :
    (r = 0 ∧ fb = none ∧ ab = none ∧ s' = s) ∨
    (0 < r ∧ fb = some s.blocks.length ∧ ∃ s1,
      Appended now s s1 ⟨.mint p.frm r 0, none, some memo⟩ ∧
      ((ab = none ∧ s' = prune now (prune now s1) ∧
        (∀ sp, p.spender = some sp → sp.key ≠ p.frm.key → cond = true →
          approvalStillValid p.oldExpiresAt now = false)) ∨
       (∃ sp, p.spender = some sp ∧ sp.key ≠ p.frm.key ∧ cond = true ∧
        approvalStillValid p.oldExpiresAt now = true ∧ ab = some (s.blocks.length + 1) ∧
        Appended now (prune now (prune now s1)) s'
          ⟨.approve p.frm sp
            (satAdd128 (satSub r FEE) (allowance (prune now (prune now s1)) p.frm sp now).1) none
            (refundExpiry (prune now (prune now s1)) p.frm sp p.oldExpiresAt now) none,
            none, some PENALIZE_MEMO⟩))) := by
  unfold refund at h
  split at h
  · rename_i h0
    simp only [Option.some.injEq, Prod.mk.injEq] at h
    obtain ⟨rfl, rfl, rfl⟩ := h
    exact Or.inl ⟨h0, rfl, rfl, rfl⟩
  · rename_i h0
    right
    split at h
    · cases h
    · cases h
    · rename_i i s2 hr
      obtain ⟨rfl, s1, rfl, ha⟩ := reimburse_ok hr
      refine ⟨by omega, ?_⟩
      have hi1 := hi.append ha
      have hi2 : LInv now (prune now (prune now s1)) := hi1.prune.prune
      have hlen : (prune now (prune now s1)).blocks.length = s.blocks.length + 1 := by
        rw [(prune_spec hi1.prune.queue).blocks, (prune_spec hi1.queue).blocks, ha.blocks]
        simp
      split at h
      · rename_i hsp
        simp only [Option.some.injEq, Prod.mk.injEq] at h
        obtain ⟨rfl, rfl, rfl⟩ := h
        exact ⟨rfl, s1, ha, Or.inl ⟨rfl, rfl, fun sp h => by rw [hsp] at h; cases h⟩⟩
      · rename_i sp hsp
        split at h
        · rename_i hcond
          simp only [Account.same, Bool.and_eq_true, Bool.not_eq_true', decide_eq_false_iff_not]
            at hcond
          split at h
          · rename_i j s3 hap
            simp only [Option.some.injEq, Prod.mk.injEq] at h
            obtain ⟨rfl, rfl, rfl⟩ := h
            unfold reimburseApproval at hap
            simp only at hap
            have hok := approve_ok (satAdd128_le _ _) (by intro n hn; cases hn) (by
              intro n hn
              split at hn
              · simp only [Option.some.injEq] at hn
                rw [← hn]
                exact (hi2.allowance_le p.frm sp).2
              · exact hexp n hn) hap
            refine ⟨rfl, s1, ha, Or.inr ⟨sp, hsp, hcond.1.1, hcond.1.2, hcond.2, ?_, hok.2⟩⟩
            rw [hok.1, hlen]
          · cases h
          · cases h
        · rename_i hcond
          simp only [Account.same, Bool.and_eq_true, Bool.not_eq_true', decide_eq_false_iff_not,
            not_and, Bool.not_eq_true] at hcond
          simp only [Option.some.injEq, Prod.mk.injEq] at h
          obtain ⟨rfl, rfl, rfl⟩ := h
          refine ⟨rfl, s1, ha, Or.inl ⟨rfl, rfl, ?_⟩⟩
          intro sp' hsp' hne hc
          rw [hsp] at hsp'; cases hsp'
          exact hcond ⟨hne, hc⟩

theorem refund_chain {now : Nat} {s s' : State} {p : Suspended} {r : Nat} {memo : Bytes}
    {cond : Bool} {fb ab : Option Nat} (hi : LInv now s) (hexp : OptLe p.oldExpiresAt U64MAX)
    (h : refund s p r memo cond now = some (fb, ab, s')) : Chain now s s' := by
  rcases refund_cases hi hexp h with ⟨_, _, _, rfl⟩ | ⟨_, _, s1, ha, ⟨_, rfl, _⟩ | ⟨sp, _, _, _, _, _, ha2⟩⟩
  · exact .refl _
  · exact .tail (.tail (.one (.append ha)) (.prune _)) (.prune _)
  · exact .tail (.tail (.tail (.one (.append ha)) (.prune _)) (.prune _)) (.append ha2)

/-! ## Outstanding calls -/

/-- What is known about an outstanding call. -/
structure PendOk (s : State) (p : Suspended) : Prop where
  block : ∃ b, s.blocks[p.blockIndex]? = some b ∧ b.transaction = p.transaction
  op : p.transaction.operation = .burn p.frm p.spender p.amount
  amount : p.amount + FEE ≤ U128MAX
  spender : ∀ sp, chargedSpender p.frm p.spender = some sp → p.frm.owner ≠ sp.owner ∧
    p.frm.owner ≠ managementCanister ∧ sp.owner ≠ managementCanister
  expiry : OptLe p.oldExpiresAt U64MAX
  expiryPos : ∀ e, p.oldExpiresAt = some e → 0 < e

omit [Crypto] in
theorem PendOk.mono {s s' : State} {p : Suspended} (h : PendOk s p)
    (hb : s.blocks <+: s'.blocks) : PendOk s' p := by
  refine { h with block := ?_ }
  obtain ⟨b, h1, h2⟩ := h.block
  refine ⟨b, ?_, h2⟩
  obtain ⟨l, hl⟩ := hb
  rw [← hl, List.getElem?_append_left (List.getElem?_eq_some_iff.mp h1).1]
  exact h1

/-- The invariant of the system. -/
structure SInv (y : Sys) : Prop where
  ledger : LInv y.now y.ledger
  pending : ∀ p ∈ y.pending, PendOk y.ledger p.data

theorem pendOk_start {now : Nat} {s s1 : State} {frm : Account} {sp : Option Account}
    {amount : Nat} {old cat : Option Nat} {memo : Bytes} (hi : LInv now s)
    (he : ExpiryFrom s frm sp now old)
    (ha : Appended now s s1 ⟨.burn frm sp amount, cat, some memo⟩) :
    PendOk (prune now s1)
      ⟨frm, sp, amount, s.blocks.length, old, ⟨.burn frm sp amount, cat, some memo⟩⟩ := by
  have hi1 := hi.append ha
  refine ⟨?_, rfl, ha.op, ?_, ?_, ?_⟩
  · refine ⟨mkBlock s ⟨.burn frm sp amount, cat, some memo⟩ now, ?_, rfl⟩
    rw [(prune_spec hi1.queue).blocks, ha.blocks]
    simp
  · intro x hx
    simp only at hx
    unfold ExpiryFrom at he
    rw [hx] at he
    simp only at he
    obtain ⟨a, e, hg, _⟩ := he
    have := hi.approvals _ a e hg
    exact ⟨this.2.2.2.1, this.2.2.2.2.1, this.2.2.2.2.2⟩
  · intro n hn
    simp only at hn
    unfold ExpiryFrom at he
    split at he
    · rw [he] at hn; cases hn
    · obtain ⟨a, e, hg, _, hold⟩ := he
      rw [hold] at hn
      unfold oldExpiry at hn
      split at hn
      · cases hn
        exact (hi.approvals _ a _ hg).2.2.1
      · cases hn
  · intro n hn
    simp only at hn
    unfold ExpiryFrom at he
    split at he
    · rw [he] at hn; cases hn
    · obtain ⟨a, e, hg, _, hold⟩ := he
      rw [hold] at hn
      unfold oldExpiry at hn
      split at hn
      · rename_i hpos; cases hn; exact hpos
      · cases hn

/-! ## Endpoints -/

omit [Crypto] in
theorem mapErr_ok {σ ε ε' α : Type} {r : Res σ ε α} {f : ε → Option ε'} {a : α} {s : σ} :
    r.mapErr f = .ok a s ↔ r = .ok a s := by
  cases r with
  | ok => simp [Res.mapErr]
  | trap => simp [Res.mapErr]
  | err e s => simp only [Res.mapErr]; split <;> simp

omit [Crypto] in
theorem mapErr_err {σ ε ε' α : Type} {r : Res σ ε α} {f : ε → Option ε'} {e' : ε'} {s : σ} :
    r.mapErr f = .err e' s ↔ ∃ e, r = .err e s ∧ f e = some e' := by
  cases r with
  | ok => simp [Res.mapErr]
  | trap => simp [Res.mapErr]
  | err e s =>
    simp only [Res.mapErr]
    split
    · rename_i h
      simp only [Res.err.injEq, reduceCtorEq, false_iff]
      rintro ⟨e2, ⟨rfl, rfl⟩, h2⟩
      rw [h] at h2; cases h2
    · rename_i x h
      simp only [Res.err.injEq]
      constructor
      · rintro ⟨rfl, rfl⟩; exact ⟨e, ⟨rfl, rfl⟩, h⟩
      · rintro ⟨e2, ⟨rfl, rfl⟩, h2⟩
        rw [h] at h2; cases h2; exact ⟨rfl, rfl⟩

omit [Crypto] in
theorem toU128_eq_some {n m : Nat} : toU128 n = some m ↔ n ≤ U128MAX ∧ m = n := by
  unfold toU128
  split
  · rename_i h; simp [h, eq_comm]
  · rename_i h; simp [h]

omit [Crypto] in
theorem toU128_eq_none {n : Nat} : toU128 n = none ↔ U128MAX < n := by
  unfold toU128
  split
  · simp; omega
  · simp; omega

omit [Crypto] in
theorem natOpt_eq_some {o o' : Option Nat} :
    natOpt o = some o' ↔ o' = o ∧ OptLe o U128MAX := by
  unfold natOpt
  cases o with
  | none => simp only [Option.some.injEq]; exact ⟨fun h => ⟨h.symm, by intro n hn; cases hn⟩, fun h => h.1.symm⟩
  | some n =>
    simp only [Option.map_eq_some_iff, toU128_eq_some]
    constructor
    · rintro ⟨a, ⟨h1, rfl⟩, rfl⟩
      exact ⟨rfl, by intro m hm; cases hm; exact h1⟩
    · rintro ⟨rfl, h⟩
      exact ⟨n, ⟨h n rfl, rfl⟩, rfl⟩

theorem executeTransfer_ok {s s' : State} {frm to : Account} {sp : Option Account}
    {amount now i : Nat} {fee cat : Option Nat} {memo : Option Bytes}
    (h : executeTransfer s frm to sp amount fee memo cat now = .ok i s') :
    i = s.blocks.length ∧ ∃ s1, s' = prune now s1 ∧
      Appended now s s1 ⟨.transfer frm to sp amount fee, cat, memo⟩ := by
  unfold executeTransfer at h
  split at h
  · cases h
  rename_i amt hamt
  rw [toU128_eq_some] at hamt
  obtain ⟨_, rfl⟩ := hamt
  split at h
  · cases h
  rename_i fee' hfee
  rw [natOpt_eq_some] at hfee
  obtain ⟨rfl, _⟩ := hfee
  split at h
  · rename_i j s1 ht
    simp only [Res.ok.injEq] at h
    obtain ⟨rfl, rfl⟩ := h
    have := transfer_ok ht
    exact ⟨this.1, s1, rfl, this.2⟩
  · cases h
  · cases h

theorem executeTransfer_err {s s' : State} {frm to : Account} {sp : Option Account}
    {amount now : Nat} {fee cat : Option Nat} {memo : Option Bytes} {e : TransferFromError}
    (h : executeTransfer s frm to sp amount fee memo cat now = .err e s') : s' = s := by
  unfold executeTransfer at h
  split at h
  · simp only [Res.err.injEq] at h; exact h.2.symm
  split at h
  · simp only [Res.err.injEq] at h; exact h.2.symm
  split at h
  · cases h
  · rename_i ht
    simp only [Res.err.injEq] at h
    rw [← h.2]
    exact transfer_err ht
  · cases h

omit [Crypto] in
theorem opt64_le (o : Option UInt64) : OptLe (opt64 o) U64MAX := by
  intro n hn
  unfold opt64 at hn
  simp only [Option.map_eq_some_iff] at hn
  obtain ⟨x, _, rfl⟩ := hn
  have := x.toNat_lt
  rw [U64MAX_eq]
  omega

theorem icrc2Approve_ok {s s' : State} {caller : Principal} {args : ApproveArgs} {now i : Nat}
    (h : icrc2Approve s caller args now = .ok i s') :
    i = s.blocks.length ∧ OptLe args.expectedAllowance U128MAX ∧ ∃ s1, s' = prune now s1 ∧
      Appended now s s1 ⟨.approve ⟨caller, args.fromSubaccount⟩ args.spender
        (min args.amount U128MAX) args.expectedAllowance (opt64 args.expiresAt) args.fee,
        opt64 args.createdAtTime, args.memo⟩ ∧
      approve s ⟨caller, args.fromSubaccount⟩ args.spender (min args.amount U128MAX) args.memo now
        (opt64 args.createdAtTime) args.fee args.expectedAllowance (opt64 args.expiresAt) =
        .ok i s1 := by
  unfold icrc2Approve at h
  simp only at h
  split at h
  · cases h
  rename_i ea hea
  rw [natOpt_eq_some] at hea
  obtain ⟨rfl, hea⟩ := hea
  split at h
  · cases h
  rename_i fee hfee
  rw [natOpt_eq_some] at hfee
  obtain ⟨rfl, _⟩ := hfee
  have hmin : (toU128 args.amount).getD U128MAX = min args.amount U128MAX := by
    unfold toU128
    split
    · simp; omega
    · simp; omega
  rw [hmin] at h
  split at h
  · rename_i j s1 ha
    simp only [Res.ok.injEq] at h
    obtain ⟨rfl, rfl⟩ := h
    have := approve_ok (Nat.min_le_right _ _) hea (opt64_le _) ha
    exact ⟨this.1, hea, s1, rfl, this.2, ha⟩
  · cases h
  · cases h

theorem icrc2Approve_err {s s' : State} {caller : Principal} {args : ApproveArgs} {now : Nat}
    {e : ApproveError} (h : icrc2Approve s caller args now = .err e s') : s' = s := by
  unfold icrc2Approve at h
  simp only at h
  split at h
  · simp only [Res.err.injEq] at h; exact h.2.symm
  split at h
  · simp only [Res.err.injEq] at h; exact h.2.symm
  split at h
  · cases h
  · rename_i ha
    simp only [Res.err.injEq] at h
    rw [← h.2]
    exact approve_err ha
  · cases h

theorem executeWithdraw_eq {s : State} {frm : Account} {to : Principal} {sp : Option Account}
    {amount now : Nat} {cat : Option Nat} {p : Suspended} {s' : State}
    (h : executeWithdraw s frm to sp amount cat now = .ok p s') :
    withdrawStart s frm to sp amount now cat = .ok p s' := by
  unfold executeWithdraw at h
  split at h
  · cases h
  · rename_i a ha
    rw [toU128_eq_some] at ha
    rw [ha.2] at h
    exact h

theorem executeWithdraw_err {s : State} {frm : Account} {to : Principal} {sp : Option Account}
    {amount now : Nat} {cat : Option Nat} {e : WithdrawFromError} {s' : State}
    (h : executeWithdraw s frm to sp amount cat now = .err e s') : s' = s := by
  unfold executeWithdraw at h
  split at h
  · simp only [Res.err.injEq] at h; exact h.2.symm
  · exact withdrawStart_err h

theorem executeCreateCanister_eq {s : State} {frm : Account} {sp : Option Account}
    {amount now : Nat} {cat : Option Nat} {p : Suspended} {s' : State}
    (h : executeCreateCanister s frm sp amount cat now = .ok p s') :
    createCanisterStart s frm sp amount now cat = .ok p s' := by
  unfold executeCreateCanister at h
  split at h
  · cases h
  · rename_i a ha
    rw [toU128_eq_some] at ha
    rw [ha.2] at h
    exact h

theorem executeCreateCanister_err {s : State} {frm : Account} {sp : Option Account}
    {amount now : Nat} {cat : Option Nat} {e : CreateCanisterFromError} {s' : State}
    (h : executeCreateCanister s frm sp amount cat now = .err e s') : s' = s := by
  unfold executeCreateCanister at h
  split at h
  · simp only [Res.err.injEq] at h; exact h.2.symm
  · exact createCanisterStart_err h

theorem deposit_ok {s s' : State} {to : Account} {amount now : Nat} {memo : Option Bytes}
    {r : Nat × Nat} (h : deposit s to amount memo now = .ok r s') :
    FEE < amount ∧ r.1 = s.blocks.length ∧ r.2 = balanceOf s' to ∧ ∃ s1, s' = prune now s1 ∧
      Appended now s s1 ⟨.mint to (amount - FEE) FEE, none, memo⟩ := by
  unfold deposit at h
  split at h
  · cases h
  · cases h
  · rename_i x am hne hamt
    rw [checkedSub_eq_some] at hamt
    obtain ⟨hle, hamt⟩ := hamt
    split at h
    · cases h
    · cases h
    · rename_i i s1 hm
      simp only [Res.ok.injEq] at h
      obtain ⟨rfl, rfl⟩ := h
      have := mint_ok hm
      rw [hamt] at this
      refine ⟨?_, this.1, rfl, s1, rfl, this.2⟩
      have : am ≠ 0 := by
        intro h0
        exact hne (by rw [h0])
      omega

/-! ## Finishing a call -/

theorem withdrawFinish_chain {now : Nat} {s s' : State} {p : Suspended}
    {r : Option CallError} (hi : LInv now s) (hp : PendOk s p) :
    (∀ i, withdrawFinish s p r now = .ok i s' → i = p.blockIndex ∧ r = none ∧ s' = s) ∧
    (∀ e, withdrawFinish s p r now = .err e s' → Chain now s s') := by
  cases r with
  | none => simp [withdrawFinish, eq_comm]
  | some code =>
    rw [withdrawFinish_eq]
    constructor
    · intro i h
      split at h <;> cases h
    · intro e h
      split at h
      · cases h
      · rename_i fb ab s2 hr
        simp only [Res.err.injEq] at h
        rw [← h.2]
        exact refund_chain hi hp.expiry hr

theorem createFailed_chain {now : Nat} {s s' : State} {p : Suspended} {code : RejectionCode}
    {returned : Nat} (hi : LInv now s) (hp : PendOk s p) :
    (∀ a, createFailed s p code returned now ≠ .ok a s') ∧
    (∀ e, createFailed s p code returned now = .err e s' → Chain now s s') := by
  unfold createFailed
  constructor
  · intro i h
    split at h <;> cases h
  · intro e h
    split at h
    · cases h
    · rename_i fb ab s2 hr
      simp only [Res.err.injEq] at h
      rw [← h.2]
      exact refund_chain hi hp.expiry hr

theorem createCanisterFinish_chain {now : Nat} {s s' : State} {p : Suspended} {r : CmcResult}
    (hi : LInv now s) (hp : PendOk s p) :
    (∀ a, createCanisterFinish s p r now = .ok a s' → Chain now s s') ∧
    (∀ e, createCanisterFinish s p r now = .err e s' → Chain now s s') := by
  have hf := createCanisterFinish_failed s p now
  cases r with
  | refunded amt =>
    rw [hf.1]
    exact ⟨fun a h => absurd h ((createFailed_chain hi hp).1 a), (createFailed_chain hi hp).2⟩
  | refundFailed =>
    rw [hf.2.1]
    exact ⟨fun a h => absurd h ((createFailed_chain hi hp).1 a), (createFailed_chain hi hp).2⟩
  | callError code =>
    rw [hf.2.2]
    exact ⟨fun a h => absurd h ((createFailed_chain hi hp).1 a), (createFailed_chain hi hp).2⟩
  | created canister =>
    obtain ⟨b, hb, hbt⟩ := hp.block
    simp only [createCanisterFinish, Transaction.hash_eq_some]
    constructor
    · intro a h
      simp only [Res.ok.injEq] at h
      rw [← h.2]
      split
      · rename_i hc
        rw [← hbt] at hc ⊢
        exact .one (.mark _ b canister hb hc)
      · exact .refl _
    · intro e h; cases h

/-! ## One message -/

omit [Crypto] in
theorem commit_cases {ε α : Type} (y : Sys) (r : Res State ε α) (f : Except ε α → Reply) :
    (r = .trap ∧ y.commit r f = (y, .trapped)) ∨
    (∃ a s, r = .ok a s ∧ y.commit r f = ({ y with ledger := s }, f (.ok a))) ∨
    (∃ e s, r = .err e s ∧ y.commit r f = ({ y with ledger := s }, f (.error e))) := by
  cases r with
  | trap => exact Or.inl ⟨rfl, rfl⟩
  | ok a s => exact Or.inr (Or.inl ⟨a, s, rfl, rfl⟩)
  | err e s => exact Or.inr (Or.inr ⟨e, s, rfl, rfl⟩)

/-- A message moved the system on at a fixed time. -/
structure Moved (y y' : Sys) : Prop where
  now : y'.now = y.now
  chain : Chain y.now y.ledger y'.ledger
  pending : ∀ p ∈ y'.pending, p ∈ y.pending ∨ PendOk y'.ledger p.data

theorem Moved.refl (y : Sys) : Moved y y := ⟨rfl, .refl _, fun _ h => Or.inl h⟩

theorem Moved.inv {y y' : Sys} (h : Moved y y') (hi : SInv y) : SInv y' := by
  refine ⟨by rw [h.now]; exact hi.ledger.chain h.chain, ?_⟩
  intro p hp
  rcases h.pending p hp with h1 | h1
  · exact (hi.pending p h1).mono (h.chain.blocks_prefix hi.ledger)
  · exact h1

theorem commit_moved {ε α : Type} {y : Sys} {r : Res State ε α} {f : Except ε α → Reply}
    (hok : ∀ a s, r = .ok a s → Chain y.now y.ledger s)
    (herr : ∀ e s, r = .err e s → Chain y.now y.ledger s) : Moved y (y.commit r f).1 := by
  rcases commit_cases y r f with ⟨_, h⟩ | ⟨a, s, hr, h⟩ | ⟨e, s, hr, h⟩
  · rw [h]; exact .refl y
  · rw [h]; exact ⟨rfl, hok a s hr, fun _ h => Or.inl h⟩
  · rw [h]; exact ⟨rfl, herr e s hr, fun _ h => Or.inl h⟩

theorem Appended.pruned_chain {now : Nat} {s s1 : State} {t : Transaction}
    (h : Appended now s s1 t) : Chain now s (prune now s1) :=
  .tail (.one (.append h)) (.prune _)

theorem finishWithdraw_chain {y : Sys} {s : State} {kind : CallKind} {p : Suspended}
    {r : Option CallError} (hi : LInv y.now s) (hp : PendOk s p) :
    (finishWithdraw y s kind p r).1 = y ∨
      ∃ s', (finishWithdraw y s kind p r).1 = { y with ledger := s' } ∧ Chain y.now s s' := by
  have hwc := fun s' => withdrawFinish_chain (s' := s') (r := r) hi hp
  unfold finishWithdraw
  split
  · rcases commit_cases y ((withdrawFinish s p r y.now).mapErr withdrawFromErrorToWithdrawError)
      .withdraw with ⟨_, h⟩ | ⟨a, s', hr, h⟩ | ⟨e, s', hr, h⟩
    · rw [h]; exact Or.inl rfl
    · rw [h]
      rw [mapErr_ok] at hr
      exact Or.inr ⟨s', rfl, by rw [((hwc s').1 a hr).2.2]; exact .refl _⟩
    · rw [h]
      rw [mapErr_err] at hr
      obtain ⟨e', hr, _⟩ := hr
      exact Or.inr ⟨s', rfl, (hwc s').2 e' hr⟩
  · rcases commit_cases y (withdrawFinish s p r y.now)
      .withdrawFrom with ⟨_, h⟩ | ⟨a, s', hr, h⟩ | ⟨e, s', hr, h⟩
    · rw [h]; exact Or.inl rfl
    · rw [h]
      exact Or.inr ⟨s', rfl, by rw [((hwc s').1 a hr).2.2]; exact .refl _⟩
    · rw [h]
      exact Or.inr ⟨s', rfl, (hwc s').2 e hr⟩

theorem finishCreate_chain {y : Sys} {s : State} {kind : CallKind} {p : Suspended}
    {r : CmcResult} (hi : LInv y.now s) (hp : PendOk s p) :
    (finishCreate y s kind p r).1 = y ∨
      ∃ s', (finishCreate y s kind p r).1 = { y with ledger := s' } ∧ Chain y.now s s' := by
  have hwc := fun s' => createCanisterFinish_chain (s' := s') (r := r) hi hp
  unfold finishCreate
  split
  · rcases commit_cases y ((createCanisterFinish s p r y.now).mapErr createFromErrorToCreateError)
      .createCanister with ⟨_, h⟩ | ⟨a, s', hr, h⟩ | ⟨e, s', hr, h⟩
    · rw [h]; exact Or.inl rfl
    · rw [h]
      rw [mapErr_ok] at hr
      exact Or.inr ⟨s', rfl, (hwc s').1 a hr⟩
    · rw [h]
      rw [mapErr_err] at hr
      obtain ⟨e', hr, _⟩ := hr
      exact Or.inr ⟨s', rfl, (hwc s').2 e' hr⟩
  · rcases commit_cases y (createCanisterFinish s p r y.now)
      .createCanisterFrom with ⟨_, h⟩ | ⟨a, s', hr, h⟩ | ⟨e, s', hr, h⟩
    · rw [h]; exact Or.inl rfl
    · rw [h]
      exact Or.inr ⟨s', rfl, (hwc s').1 a hr⟩
    · rw [h]
      exact Or.inr ⟨s', rfl, (hwc s').2 e hr⟩

theorem sendWithdraw_moved {y : Sys} {frm : Account} {to : Principal} {sp : Option Account}
    {amount : Nat} {cat : Option Nat} {kind : CallKind} {sync : Option CallError}
    (hi : SInv y) :
    Moved y (sendWithdraw y (executeWithdraw y.ledger frm to sp amount cat y.now) kind to sync).1 := by
  unfold sendWithdraw
  split
  · exact .refl y
  · rename_i e s he
    have hs := executeWithdraw_err he
    subst hs
    split
    · refine commit_moved ?_ ?_
      · intro a s h; rw [mapErr_ok] at h; cases h
      · intro e s h
        rw [mapErr_err] at h
        obtain ⟨_, h, _⟩ := h
        simp only [Res.err.injEq] at h
        rw [← h.2]; exact .refl _
    · refine commit_moved ?_ ?_
      · intro a s h; cases h
      · intro e s h
        simp only [Res.err.injEq] at h
        rw [← h.2]; exact .refl _
  · rename_i p s hok
    have hst := withdrawStart_ok (executeWithdraw_eq hok)
    obtain ⟨_, _, ⟨old, rfl, hex⟩, s1, rfl, ha⟩ := hst
    have hp := pendOk_start hi.ledger hex ha
    have hc := ha.pruned_chain
    split
    · refine ⟨rfl, hc, ?_⟩
      intro p hp'
      simp only [List.mem_append, List.mem_singleton] at hp'
      rcases hp' with h | rfl
      · exact Or.inl h
      · exact Or.inr hp
    · rename_i code
      rcases finishWithdraw_chain (y := y) (kind := kind) (r := some code)
        (hi.ledger.append ha).prune hp with h | ⟨s', h, hc'⟩
      · rw [h]; exact .refl y
      · rw [h]; exact ⟨rfl, hc.trans hc', fun _ h => Or.inl h⟩

theorem sendCreate_moved {y : Sys} {frm : Account} {sp : Option Account} {caller : Principal}
    {args : Option CmcArgs}
    {amount : Nat} {cat : Option Nat} {kind : CallKind} {sync : Option CallError}
    (hi : SInv y) :
    Moved y (sendCreate y (executeCreateCanister y.ledger frm sp amount cat y.now) kind caller args sync).1 := by
  unfold sendCreate
  split
  · exact .refl y
  · rename_i e s he
    have hs := executeCreateCanister_err he
    subst hs
    split
    · refine commit_moved ?_ ?_
      · intro a s h; rw [mapErr_ok] at h; cases h
      · intro e s h
        rw [mapErr_err] at h
        obtain ⟨_, h, _⟩ := h
        simp only [Res.err.injEq] at h
        rw [← h.2]; exact .refl _
    · refine commit_moved ?_ ?_
      · intro a s h; cases h
      · intro e s h
        simp only [Res.err.injEq] at h
        rw [← h.2]; exact .refl _
  · rename_i p s hok
    have hst := createCanisterStart_ok (executeCreateCanister_eq hok)
    obtain ⟨⟨old, rfl, hex⟩, s1, rfl, ha⟩ := hst
    have hp := pendOk_start hi.ledger hex ha
    have hc := ha.pruned_chain
    split
    · refine ⟨rfl, hc, ?_⟩
      intro p hp'
      simp only [List.mem_append, List.mem_singleton] at hp'
      rcases hp' with h | rfl
      · exact Or.inl h
      · exact Or.inr hp
    · rename_i code
      rcases finishCreate_chain (y := y) (kind := kind) (r := .callError code)
        (hi.ledger.append ha).prune hp with h | ⟨s', h, hc'⟩
      · rw [h]; exact .refl y
      · rw [h]; exact ⟨rfl, hc.trans hc', fun _ h => Or.inl h⟩

omit [Crypto] in
theorem mem_eraseIdx_sub {α : Type} {l : List α} {i : Nat} {x : α} (h : x ∈ l.eraseIdx i) : x ∈ l :=
  List.mem_of_mem_eraseIdx h

theorem exec_moved {y : Sys} (hi : SInv y) (m : Msg) : Moved y (y.exec m).1 := by
  cases m with
  | deposit caller cycles arg =>
    simp only [Sys.exec]
    split
    · rename_i idx bal s h
      unfold depositEndpoint at h
      split at h
      · rename_i r s' hd
        simp only [Res.ok.injEq] at h
        obtain ⟨rfl, rfl⟩ := h
        obtain ⟨_, _, _, s1, rfl, ha⟩ := deposit_ok hd
        exact ⟨rfl, ha.pruned_chain, fun _ h => Or.inl h⟩
      · cases h
      · cases h
    · rename_i e _ _; exact nomatch e
    · exact .refl y
  | transfer caller args =>
    refine commit_moved ?_ ?_
    · intro a s h
      unfold icrc1Transfer at h
      rw [mapErr_ok] at h
      obtain ⟨_, s1, rfl, ha⟩ := executeTransfer_ok h
      exact ha.pruned_chain
    · intro e s h
      unfold icrc1Transfer at h
      rw [mapErr_err] at h
      obtain ⟨_, h, _⟩ := h
      rw [executeTransfer_err h]; exact .refl _
  | transferFrom caller args =>
    refine commit_moved ?_ ?_
    · intro a s h
      obtain ⟨_, s1, rfl, ha⟩ := executeTransfer_ok h
      exact ha.pruned_chain
    · intro e s h
      rw [executeTransfer_err h]; exact .refl _
  | approve caller args =>
    refine commit_moved ?_ ?_
    · intro a s h
      obtain ⟨_, _, s1, rfl, ha, _⟩ := icrc2Approve_ok h
      exact ha.pruned_chain
    · intro e s h
      rw [icrc2Approve_err h]; exact .refl _
  | withdraw caller args sync => exact sendWithdraw_moved hi
  | withdrawFrom caller args sync => exact sendWithdraw_moved hi
  | createCanister caller args sync => exact sendCreate_moved hi
  | createCanisterFrom caller args sync => exact sendCreate_moved hi
  | callback i answer =>
    simp only [Sys.exec]
    split
    · exact .refl y
    · rename_i p hp
      have hpo := hi.pending p (List.mem_of_getElem? hp)
      have hsub : ∀ q ∈ y.pending.eraseIdx i, q ∈ y.pending := fun q h => mem_eraseIdx_sub h
      split
      · rename_i r hk
        rcases finishWithdraw_chain (kind := p.kind) (r := r)
          (y := { y with pending := y.pending.eraseIdx i, cycles := y.cycles + (if r.isSome then (p.call.cycles : Int) else 0) })
          hi.ledger hpo with h | ⟨s', h, hc⟩
        · rw [h]; exact ⟨rfl, .refl _, fun q hq => Or.inl (hsub q hq)⟩
        · rw [h]; exact ⟨rfl, hc, fun q hq => Or.inl (hsub q hq)⟩
      · rename_i r hk
        rcases finishWithdraw_chain (kind := p.kind) (r := r)
          (y := { y with pending := y.pending.eraseIdx i, cycles := y.cycles + (if r.isSome then (p.call.cycles : Int) else 0) })
          hi.ledger hpo with h | ⟨s', h, hc⟩
        · rw [h]; exact ⟨rfl, .refl _, fun q hq => Or.inl (hsub q hq)⟩
        · rw [h]; exact ⟨rfl, hc, fun q hq => Or.inl (hsub q hq)⟩
      · rename_i r refund hk
        rcases finishCreate_chain (kind := p.kind) (r := r)
          (y := { y with pending := y.pending.eraseIdx i, cycles := y.cycles + refund })
          hi.ledger hpo with h | ⟨s', h, hc⟩
        · rw [h]; exact ⟨rfl, .refl _, fun q hq => Or.inl (hsub q hq)⟩
        · rw [h]; exact ⟨rfl, hc, fun q hq => Or.inl (hsub q hq)⟩
      · rename_i r refund hk
        rcases finishCreate_chain (kind := p.kind) (r := r)
          (y := { y with pending := y.pending.eraseIdx i, cycles := y.cycles + refund })
          hi.ledger hpo with h | ⟨s', h, hc⟩
        · rw [h]; exact ⟨rfl, .refl _, fun q hq => Or.inl (hsub q hq)⟩
        · rw [h]; exact ⟨rfl, hc, fun q hq => Or.inl (hsub q hq)⟩
      · exact .refl y
  | lostCallback i => exact ⟨rfl, .refl _, fun q hq => Or.inl (mem_eraseIdx_sub hq)⟩
  | upgrade arg =>
    simp only [Sys.exec]
    split
    · exact .refl y
    · rename_i s h
      refine ⟨rfl, ?_, fun _ h => Or.inl h⟩
      unfold postUpgrade at h
      split at h
      · simp only [Option.some.injEq] at h; rw [← h]; exact .one (.reload _ _)
      · simp only [Option.some.injEq] at h; rw [← h]; exact .one (.reload y.ledger y.ledger.config)
      · simp only [Option.some.injEq] at h; rw [← h]; exact .one (.reload y.ledger y.ledger.config)
      · cases h

/-! ## Induction -/

theorem SInv.tick {y : Sys} (hi : SInv y) (dt : Nat) : SInv (y.tick dt) := by
  refine ⟨?_, hi.pending⟩
  have := hi.ledger.clock
  exact hi.ledger.later (by simp only [Sys.tick]; omega) (by simp only [Sys.tick]; omega)

theorem SInv.exec {y : Sys} (hi : SInv y) (m : Msg) : SInv (y.exec m).1 := (exec_moved hi m).inv hi

theorem SInv.step {y : Sys} (hi : SInv y) (e : Event) : SInv (y.step e).1 := (hi.tick e.dt).exec e.msg

theorem SInv.run {y : Sys} (hi : SInv y) (es : List Event) : SInv (y.run es) := by
  induction es generalizing y with
  | nil => exact hi
  | cons e es ih => exact ih (hi.step e)

theorem mintInitial_chain {now : Nat} {s s' : State} {l : List (Account × Nat)}
    (h : mintInitial s now l = some s') : Chain now s s' := by
  induction l generalizing s with
  | nil => simp only [mintInitial, Option.some.injEq] at h; rw [h]; exact .refl _
  | cons x xs ih =>
    obtain ⟨a, amount⟩ := x
    simp only [mintInitial] at h
    split at h
    · rename_i i s1 hm
      exact Chain.trans (.one (.append (mint_ok hm).2)) (ih h)
    · cases h

theorem SInv.init {config : Config} {now cycles : Nat} {y : Sys}
    (h : Sys.init config now cycles = some y) : SInv y := by
  unfold Sys.init initLedger at h
  rw [Option.map_eq_some_iff] at h
  obtain ⟨s, h1, rfl⟩ := h
  split at h1
  · cases h1
  · rename_i s0 hm
    simp only [Option.some.injEq] at h1
    subst h1
    have hc := mintInitial_chain hm
    have := (LInv.empty (now := min now U64MAX) (Nat.min_le_right _ _)).chain hc
    refine ⟨?_, by intro p hp; cases hp⟩
    exact { this with
      dedup := this.dedup.imp id (fun ⟨h1, h2⟩ => ⟨h1.congr rfl rfl rfl, h2⟩) }

theorem Reachable.inv {y : Sys} (h : Reachable y) : SInv y := by
  obtain ⟨config, now, cycles, y0, es, h0, rfl⟩ := h
  exact (SInv.init h0).run es

theorem Reachable.step {y : Sys} (h : Reachable y) (e : Event) : Reachable (y.step e).1 := by
  obtain ⟨config, now, cycles, y0, es, h0, rfl⟩ := h
  refine ⟨config, now, cycles, y0, es ++ [e], h0, ?_⟩
  clear h0
  induction es generalizing y0 with
  | nil => rfl
  | cons x xs ih => exact ih _

end CyclesLedger
