import Verif.Props.Refunds
import Verif.Spec.Machine
/-!
# What the answer to a failed call says

C64: the rejection code.
-/
namespace CyclesLedger

/-- The rejection code in a negative answer of an endpoint that had started.
`create_canister` reports none. -/
def Spec.failedCode : Reply → Option RejectionCode
  | .withdraw (.error (.failedToWithdraw _ c)) => some c
  | .withdrawFrom (.error (.failedToWithdrawFrom _ _ _ c)) => some c
  | .createCanisterFrom (.error (.failedToCreateFrom _ _ _ c)) => some c
  | _ => none

theorem explains_reject (e : CallError) : Spec.Explains e (callErrorToReject e) := by
  cases e with
  | rejected c =>
    cases c with
    | none => exact .notKnown
    | some c => cases c <;> constructor
  | _ => constructor

theorem finishWithdraw_code [Crypto] {y : Sys} {s : State} {kind : CallKind} {p : Suspended}
    {e : CallError} (hk : kind = .withdraw ∨ kind = .withdrawFrom)
    (hnt : (finishWithdraw y s kind p (some e)).2 ≠ .trapped) :
    Spec.failedCode (finishWithdraw y s kind p (some e)).2 = some (callErrorToReject e) := by
  revert hnt
  unfold finishWithdraw
  rw [withdrawFinish_eq]
  generalize refund s p (satSub p.amount FEE) PENALIZE_MEMO (decide (p.amount > 2 * FEE)) y.now = r
  intro hnt
  cases r with
  | none => rcases hk with rfl | rfl <;> exact absurd rfl hnt
  | some v => rcases hk with rfl | rfl <;> rfl

theorem finishCreateFrom_code [Crypto] {y : Sys} {s : State} {p : Suspended} {r : CmcResult}
    {code : RejectionCode} {back : Nat}
    (hr : createCanisterFinish s p r y.now = createFailed s p code back y.now)
    (hnt : (finishCreate y s .createCanisterFrom p r).2 ≠ .trapped) :
    Spec.failedCode (finishCreate y s .createCanisterFrom p r).2 = some code := by
  revert hnt
  unfold finishCreate
  simp only [hr]
  unfold createFailed
  generalize refund s p (satSub back FEE) REFUND_MEMO (decide (satSub back FEE > FEE)) y.now = r
  intro hnt
  cases r with
  | none => exact absurd rfl hnt
  | some v => rfl

/-- **C64**, calls that were answered: the rejection code explains the error of the call; an
error the CMC itself reports is a `CanisterError`. -/
theorem C64_code_of_callback [Crypto] {y : Sys} {i : Nat} {q : Pending} {ans : Answer}
    (hq : y.pending[i]? = some q) (hnt : (y.exec (.callback i ans)).2 ≠ .trapped) :
    (∀ e, (q.kind = .withdraw ∨ q.kind = .withdrawFrom) → ans = .depositCycles (some e) →
      ∃ c, Spec.failedCode (y.exec (.callback i ans)).2 = some c ∧ Spec.Explains e c) ∧
    (∀ e refund, q.kind = .createCanisterFrom → ans = .cmc (.callError e) refund →
      ∃ c, Spec.failedCode (y.exec (.callback i ans)).2 = some c ∧ Spec.Explains e c) ∧
    (∀ r refund, q.kind = .createCanisterFrom → ans = .cmc r refund →
      (r = .refundFailed ∨ ∃ amount, r = .refunded amount) →
      Spec.failedCode (y.exec (.callback i ans)).2 = some .canisterError) := by
  obtain ⟨kind, p, call⟩ := q
  refine ⟨?_, ?_, ?_⟩
  · rintro e (hk | hk) rfl <;>
    · simp only at hk
      subst hk
      simp only [Sys.exec, hq] at hnt ⊢
      exact ⟨_, finishWithdraw_code (by simp) hnt, explains_reject e⟩
  · rintro e refund hk rfl
    simp only at hk
    subst hk
    simp only [Sys.exec, hq] at hnt ⊢
    exact ⟨_, finishCreateFrom_code ((createCanisterFinish_failed _ p _).2.2 e) hnt, explains_reject e⟩
  · rintro r refund hk rfl hr
    simp only at hk
    subst hk
    simp only [Sys.exec, hq] at hnt ⊢
    rcases hr with rfl | ⟨amount, rfl⟩
    · exact finishCreateFrom_code (createCanisterFinish_failed _ p _).2.1 hnt
    · exact finishCreateFrom_code ((createCanisterFinish_failed _ p _).1 amount) hnt

/-- **C64**, calls that could not even be sent. -/
theorem C64_code_of_request [Crypto] {y : Sys} (h : Reachable y) {m : Msg} {r : Spec.BurnReq}
    {to : Option Principal} (hm : Spec.burnRequest m = some (r, to)) {e : CallError}
    (hs : Spec.syncOf m = some e) (hb : Spec.failedBlocks (y.exec m).2 ≠ none)
    (hk : Spec.kindOf m ≠ .createCanister) :
    ∃ c, Spec.failedCode (y.exec m).2 = some c ∧ Spec.Explains e c := by
  refine ⟨_, ?_, explains_reject e⟩
  have hnt : (y.exec m).2 ≠ .trapped := fun ht => by rw [ht] at hb; exact hb rfl
  rcases exec_burn h.inv hm with ⟨_, _, _⟩ | ⟨_, _, _, _, _, _, h1, _⟩
  · cases m with
    | withdraw c a sync =>
      simp only [Spec.syncOf] at hs
      subst hs
      have hcl := executeWithdraw_class h.inv.ledger ⟨⟨c, a.fromSubaccount⟩, none, a.amount,
        opt64 a.createdAtTime⟩ a.to (opt64_le _)
      simp only [Sys.exec] at hnt hb hcl ⊢
      generalize executeWithdraw _ _ _ _ _ _ _ = res at hnt hb hcl ⊢
      cases res with
      | ok p s => exact finishWithdraw_code (by simp) hnt
      | err e s =>
        cases e <;> first
          | exact absurd hcl.2.1 id
          | simp [sendWithdraw, Sys.commit, Res.mapErr, withdrawFromErrorToWithdrawError,
              Spec.failedBlocks] at hb
      | trap => exact absurd rfl hnt
    | withdrawFrom c a sync =>
      simp only [Spec.syncOf] at hs
      subst hs
      have hcl := executeWithdraw_class h.inv.ledger ⟨a.frm, some ⟨c, a.spenderSubaccount⟩, a.amount,
        opt64 a.createdAtTime⟩ a.to (opt64_le _)
      simp only [Sys.exec] at hnt hb hcl ⊢
      generalize executeWithdraw _ _ _ _ _ _ _ = res at hnt hb hcl ⊢
      cases res with
      | ok p s => exact finishWithdraw_code (by simp) hnt
      | err e s =>
        cases e <;> first
          | exact absurd hcl.2.1 id
          | simp [sendWithdraw, Sys.commit, Spec.failedBlocks] at hb
      | trap => exact absurd rfl hnt
    | createCanister => exact absurd rfl hk
    | createCanisterFrom c a sync =>
      simp only [Spec.syncOf] at hs
      subst hs
      have hcl := executeCreateCanister_class h.inv.ledger ⟨a.frm, some ⟨c, a.spenderSubaccount⟩,
        a.amount, opt64 a.createdAtTime⟩ (opt64_le _)
      simp only [Sys.exec] at hnt hb hcl ⊢
      generalize executeCreateCanister _ _ _ _ _ _ = res at hnt hb hcl ⊢
      cases res with
      | ok p s => exact finishCreateFrom_code ((createCanisterFinish_failed _ p _).2.2 e) hnt
      | err e s =>
        cases e <;> first
          | exact absurd hcl.2.1 id
          | simp [sendCreate, Sys.commit, Spec.failedBlocks] at hb
      | trap => exact absurd rfl hnt
    | _ => simp [Spec.burnRequest] at hm
  · exact absurd h1 hb

open Toy in
/-- A `withdraw_from` whose call is rejected, one whose call cannot be sent, and a
`create_canister_from` the CMC refuses. -/
example : Reachable demo ∧
    Spec.failedCode (demo.exec (.callback 0 (.depositCycles (some (.rejected (some .destinationInvalid)))))).2 =
      some .destinationInvalid ∧
    Spec.failedCode (demo.exec (.withdrawFrom bob ⟨none, acc alice, target, none, 250000000⟩
      (some .callPerformFailed))).2 = some .sysTransient ∧
    Spec.failedCode ((demo.exec (.createCanisterFrom bob ⟨acc alice, none, none, 250000000, none⟩
      none)).1.exec (.callback 2 (.cmc (.refunded 7) 7))).2 = some .canisterError :=
  ⟨demo_reachable, by decide +kernel, by decide +kernel, by decide +kernel⟩

end CyclesLedger
