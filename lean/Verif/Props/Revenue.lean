import Verif.Props.Solvency
import Verif.Props.Accounting
/-!
# What the ledger keeps

C68.
-/
namespace CyclesLedger

/-- The fee a block says was taken; that of a mint is in its transaction. -/
def Spec.collected (b : Block) : Int :=
  match b.transaction.operation with
  | .mint _ _ f => f
  | _ => Spec.fee b

/-- Cycles that come back with an answer. -/
def Spec.came (p : Pending) : Answer → Int
  | .depositCycles r => if r.isSome then p.call.cycles else 0
  | .cmc _ refund => refund

/-- Cycles credited for an answer: what was returned, less one fee. -/
def Spec.credited (p : Pending) (ans : Answer) : Nat :=
  match Spec.returned p ans with
  | some back => back - 100000000
  | none => 0

instance (p : Pending) (ans : Answer) : Decidable (Spec.Fits p ans) := by
  cases ans <;> (unfold Spec.Fits; infer_instance)

/-- What the ledger keeps besides the fees of the blocks: of a call that failed the returned
cycles that are not credited (one fee, or less if less was returned), all of them if the
callback traps, and whatever comes back with a success. -/
def Spec.kept (y : Sys) (m : Msg) (r : Reply) : Int :=
  match m with
  | .callback i ans =>
    match y.pending[i]? with
    | some p =>
      if Spec.Fits p ans then
        Spec.came p ans - (if r = .trapped then 0 else (Spec.credited p ans : Int))
      else 0
    | none => 0
  | m =>
    match Spec.burnRequest m with
    | some (q, _) => if (Spec.failedBlocks r).isSome then ((min q.amount 100000000 : Nat) : Int) else 0
    | none => 0

theorem refunded_collected [Crypto] {s s' : State} {now : Nat} {kind : CallKind} {p : Suspended}
    {back : Nat} {fb ab : Option Nat} (h : Refunded s s' now kind p back fb ab) :
    ∃ new, s'.blocks = s.blocks ++ new ∧
    (s'.cache.totalSupply : Int) + (new.map Spec.collected).sum =
      s.cache.totalSupply + (back - 100000000 : Nat) := by
  rcases h with ⟨h1, _, _, rfl⟩ | ⟨_, _, _, he, _⟩ | ⟨_, _, _, sp, s2, _, he, he2⟩
  · exact ⟨[], by simp, by simp; omega⟩
  · refine ⟨_, he.blocks, ?_⟩
    rw [(Effect.mint he).2.1]
    simp [Spec.collected, mkBlock, Spec.refundTransaction]
  · have h1 := (Effect.mint he).2.1
    have h2 := (Effect.approve he2).2
    have h3 : Spec.fee (mkBlock s2 (Spec.allowanceRefund s now p sp back) now) = 100000000 := by
      have := he2.supply
      simp only [Spec.supplyDelta, mkBlock, Spec.allowanceRefund] at this
      simp only [mkBlock, Spec.allowanceRefund]
      omega
    refine ⟨_, by rw [he2.blocks, he.blocks, List.append_assoc], ?_⟩
    simp only [List.map_append, List.map_cons, List.map_nil, List.sum_append, List.sum_cons,
      List.sum_nil]
    have t1 : Spec.collected (mkBlock s (Spec.refundTransaction kind p back) now) = 0 := by
      simp [Spec.collected, mkBlock, Spec.refundTransaction]
    have t2 : Spec.collected (mkBlock s2 (Spec.allowanceRefund s now p sp back) now) =
        Spec.fee (mkBlock s2 (Spec.allowanceRefund s now p sp back) now) := rfl
    rw [t1, t2, h3]
    omega

theorem surplus_exact [Crypto] {y : Sys} (hi : SInv y) (m : Msg) :
    ∃ new, (y.exec m).1.ledger.blocks = y.ledger.blocks ++ new ∧
    Spec.surplus (y.exec m).1 = Spec.surplus y + (new.map Spec.collected).sum +
      Spec.kept y m (y.exec m).2 := by
  unfold Spec.surplus icrc1TotalSupply
  have one : ∀ {s' : State} {t : Transaction}, Effect y.now y.ledger s' t →
      (∀ a x f, t.operation ≠ .mint a x f) →
      Spec.collected (mkBlock y.ledger t y.now) = Spec.fee (mkBlock y.ledger t y.now) := by
    intro s' t _ hm
    unfold Spec.collected
    split
    · rename_i a x f h; exact absurd h (hm a x f)
    · rfl
  rcases msg_cases m with ⟨r, to, hr⟩ | ⟨r, hr⟩ | ⟨r, hr⟩ | ⟨c, cy, a, rfl⟩ | ⟨i, ans, rfl⟩ |
    ⟨i, rfl⟩ | ⟨a, rfl⟩
  · have hk : ∀ rep, Spec.kept y m rep =
        if (Spec.failedBlocks rep).isSome then ((min r.amount 100000000 : Nat) : Int) else 0 := by
      intro rep
      unfold Spec.kept
      cases m <;> simp_all [Spec.burnRequest]
    rw [hk]
    rcases exec_burn hi hr with ⟨s1, p, hs⟩ | ⟨e, he⟩
    · have hco := callOk_started hr hs
      obtain ⟨he, _, _, _, ⟨old, hp, _⟩, _, h1⟩ := hs
      have hb := he.burn.2
      have ht : Spec.collected (mkBlock y.ledger (r.transaction to) y.now) = 100000000 := by
        rw [one he (by intro a x f h; cases h)]
        rw [show Spec.fee (mkBlock y.ledger (r.transaction to) y.now) = 100000000 from by
          rw [← FEE_eq]; exact fee_mkBlock_burn]
        rfl
      rcases h1 with ⟨_, h1⟩ | ⟨_, h1⟩
      · rw [h1]
        have hcy : (callOf m).cycles = r.amount := by rw [hco.cycles]; simp [hp]
        refine ⟨_, he.blocks, ?_⟩
        simp only [sent, hcy, List.map_cons, List.map_nil, List.sum_cons, List.sum_nil, ht,
          Spec.failedBlocks]
        simp
        omega
      · rcases h1 with ⟨h1, _⟩ | ⟨fb, ab, s', h1, h2, _, _, _, _, h3⟩
        · rw [h1]
          refine ⟨[], by simp, ?_⟩
          simp [Spec.failedBlocks]
        · obtain ⟨new, hn, hs⟩ := refunded_collected h2
          rw [h1, h3]
          refine ⟨_, by simp only [hn, he.blocks, List.append_assoc]; rfl, ?_⟩
          simp only [List.map_append, List.map_cons, List.map_nil, List.sum_cons, List.sum_nil,
            List.sum_append, ht, Option.isSome_some, if_true]
          omega
    · rw [he.1, he.2.2.2.2.2.1]
      exact ⟨[], by simp, by simp⟩
  · have hk : ∀ rep, Spec.kept y m rep = 0 := by
      intro rep
      unfold Spec.kept
      cases m <;> simp_all [Spec.burnRequest, Spec.transferRequest]
    rw [hk]
    rcases exec_transfer hi hr with ⟨s', h1, _, _, _, he, _⟩ | ⟨e, h1, _⟩ | ⟨h1, _⟩
    · have := he.transfer.2
      rw [h1]
      refine ⟨_, he.blocks, ?_⟩
      have h2 := one he (by intro a x f h; cases h)
      have h3 : Spec.fee (mkBlock y.ledger r.transaction y.now) = 100000000 := by
        rw [← FEE_eq]; exact fee_mkBlock_transfer he.op.2.1
      simp only [List.map_cons, List.map_nil, List.sum_cons, List.sum_nil, h2, h3]
      omega
    · rw [h1]; exact ⟨[], by simp, by simp⟩
    · rw [h1]; exact ⟨[], by simp, by simp⟩
  · have hk : ∀ rep, Spec.kept y m rep = 0 := by
      intro rep
      unfold Spec.kept
      cases m <;> simp_all [Spec.burnRequest, Spec.approveRequest]
    rw [hk]
    rcases exec_approve hi hr with ⟨s', h1, _, _, _, he, _⟩ | ⟨e, h1, _⟩ | ⟨h1, _⟩
    · have := (Effect.approve he).2
      rw [h1]
      refine ⟨_, he.blocks, ?_⟩
      have h2 := one he (by intro a x f h; cases h)
      have h3 : Spec.fee (mkBlock y.ledger r.transaction y.now) = 100000000 := by
        rw [← FEE_eq]; exact fee_mkBlock_approve he.op.2.2.2.1
      simp only [List.map_cons, List.map_nil, List.sum_cons, List.sum_nil, h2, h3]
      omega
    · rw [h1]; exact ⟨[], by simp, by simp⟩
    · rw [h1]; exact ⟨[], by simp, by simp⟩
  · rcases exec_deposit hi c cy a with ⟨s', h1, he, h2, _⟩ | ⟨h1, _⟩
    · have := (Effect.mint he).2.1
      rw [h1]
      refine ⟨_, he.blocks, ?_⟩
      simp only [List.map_cons, List.map_nil, List.sum_cons, List.sum_nil, Spec.collected, mkBlock,
        Spec.kept, Spec.burnRequest]
      omega
    · rw [h1]; exact ⟨[], by simp, by simp [Spec.kept, Spec.burnRequest]⟩
  · rcases exec_callback_cases hi i ans with ⟨h1, h2⟩ | ⟨p, hp, hf, ⟨hr, h1, h2⟩ | ⟨back, hr, h1⟩⟩
    · rw [h1]
      refine ⟨[], by simp, ?_⟩
      simp only [List.map_nil, List.sum_nil, Spec.kept]
      cases hp : y.pending[i]? with
      | none => simp
      | some p => simp [h2 p hp]
    · have hsup : (noteCanister y.ledger p.data ans).cache = y.ledger.cache ∧
          (noteCanister y.ledger p.data ans).blocks = y.ledger.blocks := by
        unfold noteCanister
        split
        · split <;> exact ⟨rfl, rfl⟩
        · exact ⟨rfl, rfl⟩
      have hnt : (y.exec (.callback i ans)).2 ≠ .trapped := by
        intro h; rw [h] at h2; cases h2
      simp only [Spec.kept, hp, hf, if_true, hnt, if_false, Spec.credited, hr]
      rw [h1]
      refine ⟨[], by simp [hsup.2], ?_⟩
      simp only [hsup.1, answered, List.map_nil, List.sum_nil, Spec.came]
      cases ans <;> simp only <;> omega
    · have hcame : (answered y i p ans).cycles = y.cycles + Spec.came p ans := by
        unfold answered Spec.came
        cases ans <;> rfl
      rcases h1 with ⟨h1, _⟩ | ⟨fb, ab, s', h1, h2, _, _, h3, _⟩
      · rw [h1]
        refine ⟨[], by simp [answered], ?_⟩
        simp only [Spec.kept, hp, hf, if_true, List.map_nil, List.sum_nil, hcame]
        show _ - (y.ledger.cache.totalSupply : Int) = _
        omega
      · obtain ⟨new, hn, hs⟩ := refunded_collected h2
        simp only [Spec.kept, hp, hf, if_true, h3, if_false, Spec.credited, hr]
        rw [h1]
        refine ⟨new, hn, ?_⟩
        simp only [hcame]
        omega
  · refine ⟨[], by simp [Sys.exec], ?_⟩
    simp [Sys.exec, Spec.kept, Spec.burnRequest]
  · have hk : ∀ rep, Spec.kept y (.upgrade a) rep = 0 := by
      intro rep; simp [Spec.kept, Spec.burnRequest]
    rw [hk]
    simp only [Sys.exec]
    split
    · exact ⟨[], by simp, by simp⟩
    · rename_i s' hs
      have := (hi.ledger.postUpgrade hs).1
      rw [this]
      exact ⟨[], by simp, by simp⟩

/-- **C68**: a message changes the surplus by exactly the fees of the blocks it adds, plus what
is kept of the cycles that came back from a call. -/
theorem C68_exact [Crypto] {y : Sys} (h : Reachable y) (e : Event) :
    ∃ new, (y.step e).1.ledger.blocks = y.ledger.blocks ++ new ∧
    Spec.surplus (y.step e).1 = Spec.surplus y + (new.map Spec.collected).sum +
      Spec.kept y e.msg (y.step e).2 :=
  surplus_exact (y := y.tick e.dt) (h.inv.tick e.dt) e.msg

/-- The answer is fair: exactly the cycles it says were returned come back, none with a
success.  (For `deposit_cycles` the IC guarantees it.) -/
def Spec.Fair (y : Sys) (m : Msg) : Prop :=
  ∀ i r refund p, m = .callback i (.cmc r refund) → y.pending[i]? = some p →
    refund = (Spec.returned p (.cmc r refund)).getD 0

/-- **C68**: beyond the fees of the blocks at most one fee is kept, and only if a call failed;
provided the answer is fair and the callback does not trap. -/
theorem C68_one_fee [Crypto] {y : Sys} (h : Reachable y) (e : Event) (hf : Spec.Fair y e.msg)
    (ht : (y.step e).2 ≠ .trapped) :
    0 ≤ Spec.kept y e.msg (y.step e).2 ∧ Spec.kept y e.msg (y.step e).2 ≤ 100000000 ∧
    (Spec.failedBlocks (y.step e).2 = none → Spec.kept y e.msg (y.step e).2 = 0) := by
  have hc := h.callOk
  have hi := h.inv.tick e.dt
  have hex : (y.step e) = (y.tick e.dt).exec e.msg := rfl
  by_cases hcb : ∃ i ans, e.msg = .callback i ans
  · obtain ⟨i, ans, hm⟩ := hcb
    rw [hm] at hf hex ⊢
    simp only [Spec.kept, ht, if_false]
    cases hp : y.pending[i]? with
    | none => simp
    | some p =>
      simp only
      split
      · rename_i hfit
        have hcy := (hc p (List.mem_of_getElem? hp)).cycles
        have hcame : Spec.came p ans = ((Spec.returned p ans).getD 0 : Nat) := by
          cases ans with
          | depositCycles r => cases r <;> simp [Spec.came, Spec.returned, hcy]
          | cmc r refund =>
            have := hf i r refund p rfl hp
            simp only [Spec.came]
            exact congrArg Int.ofNat this
        rw [hcame]
        cases hr : Spec.returned p ans with
        | none => simp [Spec.credited, hr]
        | some back =>
          simp only [Spec.credited, hr, Option.getD_some]
          refine ⟨by omega, by omega, ?_⟩
          intro hb
          rcases exec_callback_cases hi i ans with ⟨_, h2⟩ | ⟨p', hp', _, ⟨hr', _⟩ | ⟨back', hr', h1⟩⟩
          · exact absurd hfit (h2 p hp)
          · have : p' = p := by
              have h3 : y.pending[i]? = some p' := hp'
              rw [hp] at h3; exact (Option.some.inj h3).symm
            subst this
            rw [hr] at hr'; cases hr'
          · rw [← hex] at h1
            rcases h1 with ⟨h1, _⟩ | ⟨fb, ab, s', _, _, _, _, _, _, h3⟩
            · rw [h1] at ht; exact absurd rfl ht
            · rw [h3] at hb; cases hb
      · simp
  · have hk : Spec.kept y e.msg (y.step e).2 =
        match Spec.burnRequest e.msg with
        | some (q, _) => if (Spec.failedBlocks (y.step e).2).isSome then
            ((min q.amount 100000000 : Nat) : Int) else 0
        | none => 0 := by
      unfold Spec.kept
      split
      · rename_i i ans hm; exact absurd ⟨i, ans, hm⟩ hcb
      · rfl
    rw [hk]
    cases Spec.burnRequest e.msg with
    | none => simp
    | some q =>
      simp only
      cases hfb : Spec.failedBlocks (y.step e).2 with
      | none => simp
      | some x => simp; omega

/-- What is kept besides fees along a history. -/
def Spec.keptRun [Crypto] (y : Sys) : List Event → Int
  | [] => 0
  | e :: es => Spec.kept y e.msg (y.step e).2 + Spec.keptRun (y.step e).1 es

/-- **C68**: the surplus after any history is the one at its start, the fees of the blocks added,
and what was kept of cycles that came back. -/
theorem C68_history [Crypto] {y : Sys} (h : Reachable y) (es : List Event) :
    ∃ new, (y.run es).ledger.blocks = y.ledger.blocks ++ new ∧
    Spec.surplus (y.run es) = Spec.surplus y + (new.map Spec.collected).sum + Spec.keptRun y es := by
  induction es generalizing y with
  | nil => exact ⟨[], by simp [Sys.run], by simp [Sys.run, Spec.keptRun]⟩
  | cons e es ih =>
    obtain ⟨n1, h1, h2⟩ := C68_exact h e
    obtain ⟨n2, h3, h4⟩ := ih (h.step e)
    refine ⟨n1 ++ n2, ?_, ?_⟩
    · rw [Sys.run, h3, h1, List.append_assoc]
    · rw [Sys.run, h4, h2, List.map_append, List.sum_append, Spec.keptRun]
      omega

/-- **C68**: the fee of a block is 100000000, except that a refund is free. -/
theorem C68_block_fee [Crypto] {y : Sys} (h : Reachable y) {b : Block} (hb : b ∈ y.ledger.blocks) :
    Spec.collected b = 100000000 ∨
    (Spec.collected b = 0 ∧ ∃ a x, b.transaction.operation = .mint a x 0 ∧
      (b.transaction.memo = some (List.replicate 32 255) ∨
        b.transaction.memo = some (List.replicate 32 253))) := by
  have mint : ∀ b ∈ y.ledger.blocks, ∀ a x f, b.transaction.operation = .mint a x f →
      f = 100000000 ∨ (f = 0 ∧ (b.transaction.memo = some (List.replicate 32 255) ∨
        b.transaction.memo = some (List.replicate 32 253))) := by
    refine h.block_induct ?_ ?_
    · intro b a x hb a' x' f hop
      rw [hb] at hop; cases hop
      exact .inl FEE_eq
    · intro y m b _ _ hrec a x f hop
      cases hrec with
      | request h1 h2 =>
        cases m <;> simp only [Spec.requestTransaction, Spec.transferRequest, Spec.approveRequest,
          Spec.burnRequest, Spec.TransferReq.transaction, Spec.ApproveReq.transaction,
          Spec.BurnReq.transaction, Option.some.injEq, reduceCtorEq] at h1 <;> rw [← h1] at hop <;>
          cases hop
        exact .inl rfl
      | refund kind p back _ _ h1 =>
        rw [h1] at hop ⊢
        cases hop
        cases kind <;> simp [Spec.refundTransaction, Spec.refundMemo]
      | allowance kind p back sp' s _ _ h1 => rw [h1] at hop; cases hop
  have hfee := (C40_block_fee h b hb).1
  cases ho : b.transaction.operation with
  | mint a x f =>
    simp only [Spec.collected, ho]
    rcases mint b hb a x f ho with rfl | ⟨rfl, hm⟩
    · exact .inl rfl
    · exact .inr ⟨rfl, a, x, rfl, hm⟩
  | _ =>
    left
    simp only [Spec.collected, Spec.fee, statedFee, ho] at hfee ⊢
    cases he : b.effectiveFee <;> simp_all

open Toy in
/-- The example history, and then the two calls fail: 7 blocks with a fee each (the last one
restores the allowance), and one more fee for each of the failed calls. -/
example :
    Spec.surplus (start.run (events ++ [⟨1, .callback 1 (.cmc (.refunded 400000000) 400000000)⟩,
      ⟨1, .callback 0 (.depositCycles (some .callPerformFailed))⟩])) = 900000000 ∧
    Spec.keptRun start (events ++ [⟨1, .callback 1 (.cmc (.refunded 400000000) 400000000)⟩,
      ⟨1, .callback 0 (.depositCycles (some .callPerformFailed))⟩]) = 200000000 := by
  decide +kernel

end CyclesLedger
