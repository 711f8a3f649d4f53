import Verif.Proof.Exec
/-!
# When a refund certainly traps
-/
namespace CyclesLedger
variable [Crypto]

omit [Crypto] in
/-- When a refund traps, whatever the hash. -/
def SureTraps (s : State) (now : Nat) (p : Suspended) (back : Nat) : Prop :=
  2 ^ 128 ≤ s.cache.totalSupply + (back - 100000000) ∨
  ∃ sp, Spec.RefundsAllowance now p back sp ∧
    ((∃ a, Spec.stored s p.frm sp = some (a, now) ∧ 0 < now ∧ Spec.Backlog s now p.frm sp) ∨
     (now = 18446744073709551615 ∧ p.oldExpiresAt = none))

theorem refund_traps {now : Nat} {s : State} {p : Suspended} {back : Nat} {memo : Bytes}
    (hi : LInv now s) (hp : PendOk s p) (h : SureTraps s now p back) :
    refund s p (satSub back FEE) memo (decide (satSub back FEE > FEE)) now = none := by
  have hback : satSub back FEE = back - 100000000 := by rw [satSub_eq, FEE_eq]
  cases hr : refund s p (satSub back FEE) memo (decide (satSub back FEE > FEE)) now with
  | none => rfl
  | some v =>
    exfalso
    obtain ⟨fb, ab, s'⟩ := v
    have hbd := hi.bound
    rw [U128MAX_eq] at hbd
    rcases refund_cases hi hp.expiry hr with ⟨h0, _⟩ | ⟨h0, _, s1, ha, hc⟩
    · rcases h with h | ⟨sp, hra, _⟩
      · omega
      · have := hra.2.1; omega
    · rcases h with h | ⟨sp, ⟨hob, hgt, hv⟩, h⟩
      · have h1 := ha.bound hi.bound
        have h2 := ha.supply
        rw [U128MAX_eq] at h1
        simp [Spec.supplyDelta, mkBlock] at h2
        omega
      · rw [Spec.OnBehalf, sameAccount_iff] at hob
        have hcond : decide (satSub back FEE > FEE) = true := by
          rw [hback, FEE_eq, decide_eq_true_eq]; omega
        rcases hc with ⟨_, _, hno⟩ | ⟨sp', hsp, _, _, _, _, ha2⟩
        · have := hno sp hob.1 hob.2 hcond
          rw [stillValid_iff.mpr hv] at this
          cases this
        · rw [hob.1] at hsp
          cases hsp
          have hop := ha2.op
          simp only [OpOk] at hop
          have hexp := hop.2.2.2.2.2.2.2
          have hle := hop.2.2.1
          rcases h with ⟨a, hst, hpos, ks, hn, hl, hks⟩ | ⟨hmax, _⟩
          · have hget : ∀ k, s1.approvals.get k = s.approvals.get k := fun k => by
              rw [ha.allow]; rfl
            have hkeep := prune_keeps (now := now) (ha.queue hi.queue) (k := (p.frm.key, sp.key))
              (by rw [hget]; exact hst) hn (by omega)
              (by
                intro j hj
                obtain ⟨a', e', h1, h2, h3⟩ := hks j hj
                exact ⟨a', e', by rw [hget]; exact h1, h2, queue_lt.mpr h3⟩)
            have he : refundExpiry (prune now (prune now s1)) p.frm sp p.oldExpiresAt now = some now := by
              unfold refundExpiry allowance
              simp [hkeep, hpos]
            rw [he] at hexp
            simp at hexp
          · generalize refundExpiry (prune now (prune now s1)) p.frm sp p.oldExpiresAt now = x at hexp hle
            rw [U64MAX_eq] at hexp hle
            cases x with
            | none => simp at hexp; omega
            | some e => have := hle e rfl; simp at hexp; omega

/-- The end of a failed call that certainly traps. -/
theorem exec_callback_traps {y : Sys} (hi : SInv y) {i : Nat} {p : Pending} {ans : Answer}
    {back : Nat} (hp : y.pending[i]? = some p) (hf : Spec.Fits p ans)
    (hr : Spec.returned p ans = some back) (ht : SureTraps y.ledger y.now p.data back) :
    (y.exec (.callback i ans)).2 = .trapped := by
  have hpo := hi.pending p (List.mem_of_getElem? hp)
  obtain ⟨kind, d, call⟩ := p
  cases ans with
  | depositCycles r =>
    cases r with
    | none => simp [Spec.returned] at hr
    | some code =>
      simp only [Spec.returned, Option.isSome_some, if_true, Option.some.injEq] at hr
      subst hr
      have hwf := withdrawFinish_eq y.ledger d code y.now
      rw [twoFee, refund_traps hi.ledger hpo ht] at hwf
      rcases hf with hf | hf <;>
      · simp only at hf
        subst hf
        simp only [Sys.exec, hp, finishWithdraw, hwf]
        rfl
  | cmc r refund =>
    have hcf : createCanisterFinish y.ledger d r y.now = .trap := by
      have := createCanisterFinish_failed y.ledger d y.now
      have hnone := refund_traps (memo := REFUND_MEMO) hi.ledger hpo ht
      have hx : ∀ code, createFailed y.ledger d code back y.now = .trap := by
        intro code; unfold createFailed; rw [hnone]
      cases r with
      | created c => simp [Spec.returned] at hr
      | refunded amt => simp [Spec.returned] at hr; subst hr; rw [this.1, hx]
      | refundFailed => simp [Spec.returned] at hr; subst hr; rw [this.2.1, hx]
      | callError code => simp [Spec.returned] at hr; subst hr; rw [this.2.2, hx]
    rcases hf with hf | hf <;>
    · simp only at hf
      subst hf
      simp only [Sys.exec, hp, finishCreate, hcf]
      rfl

end CyclesLedger
