import Verif.Props.Pruning
import Verif.Props.Validity
/-!
# Which requests are accepted, and the housekeeping they do

C60 (approvals), C61 (burns), C63 (transfers): exactly which requests are accepted.
C62: an accepted request also removes what has expired.
-/
namespace CyclesLedger

/-! ## C60, C61, C63 -/

/-- **C60**: an approval is granted exactly if the request is valid and no duplicate. -/
theorem C60_approve_iff [Crypto] {y : Sys} (h : Reachable y) {m : Msg} {r : Spec.ApproveReq}
    (hm : Spec.approveRequest m = some r) (hn : Spec.NoClash y.ledger r.transaction) :
    (∃ i, Spec.okIndex (y.exec m).2 = some i) ↔
      (Spec.ApproveValid y.ledger y.now r ∧ ¬Spec.IsDuplicate y.ledger r.transaction) := by
  have hi := h.inv
  constructor
  · rintro ⟨i, hi'⟩
    rcases exec_approve hi hm with ⟨s', _, _, _, _, _, hv, hf⟩ | ⟨e, _, h2, _⟩ | ⟨h1, _⟩
    · refine ⟨hv, ?_⟩
      rintro ⟨hc, b, hb, hbt⟩
      obtain ⟨c, hc⟩ := Option.isSome_iff_exists.mp hc
      obtain ⟨j, hj⟩ := List.getElem?_of_mem hb
      have hw := hv.window c hc
      rw [← hbt] at hc
      obtain ⟨p, hp⟩ := table_has hi.ledger hn.log hj hc hw.1
      rw [hbt] at hp
      rw [hp] at hf
      cases hf
    · rw [h2] at hi'; cases hi'
    · rw [h1] at hi'; cases hi'
  · rintro ⟨hv, hd⟩
    rcases exec_approve hi hm with ⟨s', _, h2, _⟩ | ⟨e, _, _, _, _, hr, hdup⟩ | ⟨_, h1⟩
    · exact ⟨_, h2⟩
    · exfalso
      cases e with
      | badFee f => obtain ⟨_, h1, h2⟩ := hr; rcases hv.fee with h | h <;> simp_all
      | insufficientFunds b => obtain ⟨rfl, h1⟩ := hr; have := hv.funds; omega
      | allowanceChanged x =>
        obtain ⟨rfl, h1, h2⟩ := hr
        cases he : r.expectedAllowance with
        | none => exact h1 he
        | some z => rw [he] at h2; exact h2 (by rw [hv.expected z he])
      | expired t => obtain ⟨_, h1⟩ := hr; have := hv.notExpired; omega
      | tooOld => obtain ⟨c, hc, h1⟩ := hr; have := (hv.window c hc).1; omega
      | createdInFuture t => obtain ⟨_, c, hc, h1⟩ := hr; have := (hv.window c hc).2; omega
      | duplicate d =>
        obtain ⟨c, hc⟩ := hdup d rfl
        obtain ⟨b, hb, hbt, hsome⟩ := table_hit hi.ledger hn hc
        exact hd ⟨hsome, b, List.mem_of_getElem? hb, hbt⟩
      | temporarilyUnavailable => exact hr
      | genericError code =>
        rcases hr with ⟨_, h1 | h1⟩
        · exact hv.notManagement.1 h1
        · exact hv.notManagement.2 h1
    · rcases h1 with h1 | h1
      · exact absurd hv.memo h1
      · exact absurd h1 hv.notSelf

open Toy in
/-- An approval that is granted, one that comes too late, one whose expectation is wrong. -/
example : Reachable demo ∧
    (∀ r, Spec.approveRequest (appr alice carol 5 (some 1000000007)).msg = some r →
      Spec.NoClash demo.ledger r.transaction) ∧
    Spec.okIndex (demo.exec (appr alice carol 5 (some 1000000007)).msg).2 = some 6 ∧
    (demo.exec (appr alice carol 5 (some 1000000006)).msg).2 = .approve (.error (.expired 1000000006)) ∧
    (demo.exec (.approve alice ⟨none, acc bob, 5, some 399995001, none, none, none, none⟩)).2 =
      .approve (.error (.allowanceChanged 399995000)) :=
  ⟨demo_reachable, fun r hr => by cases hr; decide +kernel, by decide +kernel, by decide +kernel, by decide +kernel⟩

/-- **C61**: a burn is started exactly if the request is valid and no duplicate: otherwise it
is answered with one of the errors of `Spec.BurnError`.  If the outgoing call can be sent, a
started burn is one that waits for the answer. -/
theorem C61_burn_iff [Crypto] {y : Sys} (h : Reachable y) {m : Msg} {r : Spec.BurnReq}
    {to : Option Principal} (hm : Spec.burnRequest m = some (r, to))
    (hn : Spec.NoClash y.ledger (r.transaction to)) :
    (Spec.burnError (y.exec m).2 = none ↔
      (Spec.BurnValid y.ledger y.now r ∧ Spec.ReceiverValid r to ∧
        ¬Spec.IsDuplicate y.ledger (r.transaction to))) ∧
    (Spec.syncOf m = none → ((y.exec m).2 = .suspended ↔ Spec.burnError (y.exec m).2 = none)) ∧
    ((y.exec m).2 = .suspended → Spec.syncOf m = none) := by
  have hi := h.inv
  rcases exec_burn hi hm with ⟨s1, p, _, hv, hrv, hf, _, _, hrest⟩ | ⟨e, he, hok, hbe, hnt, hns, _, hr, hdup⟩
  · have hnd : ¬Spec.IsDuplicate y.ledger (r.transaction to) := by
      rintro ⟨hc, b, hb, hbt⟩
      obtain ⟨c, hc⟩ := Option.isSome_iff_exists.mp hc
      obtain ⟨j, hj⟩ := List.getElem?_of_mem hb
      have hw := hv.window c hc
      rw [← hbt] at hc
      obtain ⟨p, hp⟩ := table_has hi.ledger hn.log hj hc hw.1
      rw [hbt] at hp
      rw [hp] at hf
      cases hf
    rcases hrest with ⟨hs, hx⟩ | ⟨hs, hx⟩
    · have hbe : Spec.burnError (y.exec m).2 = none := by rw [hx]; rfl
      refine ⟨⟨fun _ => ⟨hv, hrv, hnd⟩, fun _ => hbe⟩, fun _ => ⟨fun _ => hbe, fun _ => ?_⟩, fun _ => hs⟩
      rw [hx]
    · have hbe : Spec.burnError (y.exec m).2 = none ∧ (y.exec m).2 ≠ .suspended := by
        rcases hx with ⟨hx, _⟩ | ⟨_, _, _, _, _, _, hx, _, hx', _⟩
        · rw [hx]; exact ⟨rfl, by simp⟩
        · exact ⟨hx, hx'⟩
      exact ⟨⟨fun _ => ⟨hv, hrv, hnd⟩, fun _ => hbe.1⟩, fun h1 => absurd h1 hs,
        fun h1 => absurd h1 hbe.2⟩
  · refine ⟨⟨fun h1 => ?_, ?_⟩, fun _ => ⟨fun h1 => absurd h1 hns, fun h1 => ?_⟩,
      fun h1 => absurd h1 hns⟩
    · rw [hbe] at h1; cases h1
    · rintro ⟨hv, hrv, hd⟩
      exfalso
      cases e with
      | insufficientFunds b => obtain ⟨rfl, h1⟩ := hr; have := hv.funds; omega
      | insufficientAllowance a =>
        obtain ⟨sp, hb, rfl, h1⟩ := hr
        have := hv.allowance sp hb
        omega
      | tooOld => obtain ⟨c, hc, h1⟩ := hr; have := (hv.window c hc).1; omega
      | createdInFuture t => obtain ⟨_, c, hc, h1⟩ := hr; have := (hv.window c hc).2; omega
      | duplicate d c =>
        obtain ⟨c', hc, _⟩ := hdup d c rfl
        obtain ⟨b, hb, hbt, hsome⟩ := table_hit hi.ledger hn hc
        exact hd ⟨hsome, b, List.mem_of_getElem? hb, hbt⟩
      | zeroAmount =>
        obtain ⟨h1, h2⟩ := hr
        cases to with
        | none => exact h2 rfl
        | some p => have := hrv.2; omega
      | invalidReceiver p =>
        obtain ⟨rfl, h2⟩ := hr
        exact hrv.1 h2
    · rw [hbe] at h1; cases h1

open Toy in
/-- A burn that is started, and ones that are not. -/
example : Reachable demo ∧
    (∀ r to, Spec.burnRequest (wdrFrom bob alice 299995000).msg = some (r, to) →
      Spec.NoClash demo.ledger (r.transaction to)) ∧
    (demo.exec (wdrFrom bob alice 299995000).msg).2 = .suspended ∧
    (demo.exec (wdrFrom bob alice 299995001).msg).2 =
      .withdrawFrom (.error (.insufficientAllowance 399995000)) ∧
    (demo.exec (wdr alice 0).msg).2 = .withdraw (.error (.genericError 100002)) :=
  ⟨demo_reachable, fun r to hr => by cases hr; decide +kernel, by decide +kernel, by decide +kernel, by decide +kernel⟩

/-- **C63**: a transfer is carried out exactly if it is valid, is no duplicate, and is not one
to the same account whose balance plus amount exceeds 128 bits. -/
theorem C63_transfer_iff [Crypto] {y : Sys} (h : Reachable y) {m : Msg} {r : Spec.TransferReq}
    (hm : Spec.transferRequest m = some r) (hn : Spec.NoClash y.ledger r.transaction) :
    (∃ i, Spec.okIndex (y.exec m).2 = some i) ↔
      (Spec.TransferValid y.ledger y.now r ∧ ¬Spec.IsDuplicate y.ledger r.transaction ∧
        ¬Spec.SelfOverflow y.ledger r) :=
  C43_valid_iff_partial h hm (y' := (y.exec m).1) (reply := (y.exec m).2) rfl hn

open Toy in
/-- A transfer of the whole allowance, and one cycle more. -/
example : Reachable demo ∧
    (∀ r, Spec.transferRequest (xferFrom bob alice carol 299995000).msg = some r →
      Spec.NoClash demo.ledger r.transaction) ∧
    Spec.okIndex (demo.exec (xferFrom bob alice carol 299995000).msg).2 = some 6 ∧
    (demo.exec (xferFrom bob alice carol 299995001).msg).2 =
      .transferFrom (.error (.insufficientAllowance 399995000)) :=
  ⟨demo_reachable, fun r hr => by cases hr; decide +kernel, by decide +kernel, by decide +kernel⟩

/-! ## C62 -/

/-- The state after an accepted request: the block was appended, then one pruning step. -/
theorem exec_pruned [Crypto] {y : Sys} (hi : SInv y) {m : Msg} (hr : Spec.IsRequest m)
    (hacc : Spec.Accepted (y.exec m).2) :
    ∃ s1 t, Appended y.now y.ledger s1 t ∧ (y.exec m).1.ledger = prune y.now s1 := by
  have hw : ∀ {r : Spec.BurnReq} {to}, Spec.burnRequest m = some (r, to) → Spec.syncOf m = none := by
    intro r to hm
    rcases exec_burn hi hm with ⟨s1, p, _, _, _, _, _, _, ⟨hs, _⟩ | ⟨_, hx⟩⟩ | ⟨e, _, hok, _, _, hns, _⟩
    · exact hs
    · exfalso
      rcases hx with ⟨hx, _⟩ | ⟨_, _, _, _, _, hok, _, _, hns, _⟩
      · rw [hx] at hacc
        rcases hacc with h1 | ⟨_, h1⟩ <;> cases h1
      · rcases hacc with h1 | ⟨_, h1⟩
        · exact hns h1
        · rw [hok] at h1; cases h1
    · rcases hacc with h1 | ⟨_, h1⟩
      · exact absurd h1 hns
      · rw [hok] at h1; cases h1
  cases m with
  | deposit c cy a =>
    simp only [Sys.exec] at hacc ⊢
    generalize hres : depositEndpoint y.ledger a cy.val y.now = res at hacc ⊢
    cases res with
    | ok r s' =>
      unfold depositEndpoint at hres
      split at hres
      · rename_i r' s1 hd
        cases hres
        obtain ⟨_, _, _, s1, rfl, ha⟩ := deposit_ok hd
        exact ⟨_, _, ha, rfl⟩
      · cases hres
      · cases hres
    | err e s' => nomatch e
    | trap => rcases hacc with h1 | ⟨_, h1⟩ <;> cases h1
  | transfer c a =>
    simp only [Sys.exec, icrc1Transfer] at hacc ⊢
    generalize hres : executeTransfer _ _ _ _ _ _ _ _ _ = res at hacc ⊢
    cases res with
    | ok i s' =>
      obtain ⟨_, s1, rfl, ha⟩ := executeTransfer_ok hres
      exact ⟨_, _, ha, rfl⟩
    | err e s' =>
      rcases hacc with h1 | ⟨_, h1⟩ <;> cases e <;>
        simp [Sys.commit, Res.mapErr, transferFromErrorToTransferError, Spec.okIndex] at h1
    | trap => rcases hacc with h1 | ⟨_, h1⟩ <;> cases h1
  | transferFrom c a =>
    simp only [Sys.exec, icrc2TransferFrom] at hacc ⊢
    generalize hres : executeTransfer _ _ _ _ _ _ _ _ _ = res at hacc ⊢
    cases res with
    | ok i s' =>
      obtain ⟨_, s1, rfl, ha⟩ := executeTransfer_ok hres
      exact ⟨_, _, ha, rfl⟩
    | err e s' => rcases hacc with h1 | ⟨_, h1⟩ <;> cases h1
    | trap => rcases hacc with h1 | ⟨_, h1⟩ <;> cases h1
  | approve c a =>
    simp only [Sys.exec] at hacc ⊢
    generalize hres : icrc2Approve _ _ _ _ = res at hacc ⊢
    cases res with
    | ok i s' =>
      obtain ⟨_, _, s1, rfl, ha, _⟩ := icrc2Approve_ok hres
      exact ⟨_, _, ha, rfl⟩
    | err e s' => rcases hacc with h1 | ⟨_, h1⟩ <;> cases h1
    | trap => rcases hacc with h1 | ⟨_, h1⟩ <;> cases h1
  | withdraw c a sync =>
    have hs : sync = none := hw rfl
    subst hs
    simp only [Sys.exec] at hacc ⊢
    generalize hres : executeWithdraw _ _ _ _ _ _ _ = res at hacc ⊢
    cases res with
    | ok p s' =>
      obtain ⟨_, _, _, s1, rfl, ha⟩ := withdrawStart_ok (executeWithdraw_eq hres)
      exact ⟨_, _, ha, rfl⟩
    | err e s' =>
      rcases hacc with h1 | ⟨_, h1⟩ <;> cases e <;>
        simp [sendWithdraw, Sys.commit, Res.mapErr, withdrawFromErrorToWithdrawError, Spec.okIndex] at h1
    | trap => rcases hacc with h1 | ⟨_, h1⟩ <;> cases h1
  | withdrawFrom c a sync =>
    have hs : sync = none := hw rfl
    subst hs
    simp only [Sys.exec] at hacc ⊢
    generalize hres : executeWithdraw _ _ _ _ _ _ _ = res at hacc ⊢
    cases res with
    | ok p s' =>
      obtain ⟨_, _, _, s1, rfl, ha⟩ := withdrawStart_ok (executeWithdraw_eq hres)
      exact ⟨_, _, ha, rfl⟩
    | err e s' => rcases hacc with h1 | ⟨_, h1⟩ <;> cases h1
    | trap => rcases hacc with h1 | ⟨_, h1⟩ <;> cases h1
  | createCanister c a sync =>
    have hs : sync = none := hw rfl
    subst hs
    simp only [Sys.exec] at hacc ⊢
    generalize hres : executeCreateCanister _ _ _ _ _ _ = res at hacc ⊢
    cases res with
    | ok p s' =>
      obtain ⟨_, s1, rfl, ha⟩ := createCanisterStart_ok (executeCreateCanister_eq hres)
      exact ⟨_, _, ha, rfl⟩
    | err e s' =>
      rcases hacc with h1 | ⟨_, h1⟩ <;> cases e <;>
        simp [sendCreate, Sys.commit, Res.mapErr, createFromErrorToCreateError, Spec.okIndex] at h1
    | trap => rcases hacc with h1 | ⟨_, h1⟩ <;> cases h1
  | createCanisterFrom c a sync =>
    have hs : sync = none := hw rfl
    subst hs
    simp only [Sys.exec] at hacc ⊢
    generalize hres : executeCreateCanister _ _ _ _ _ _ = res at hacc ⊢
    cases res with
    | ok p s' =>
      obtain ⟨_, s1, rfl, ha⟩ := createCanisterStart_ok (executeCreateCanister_eq hres)
      exact ⟨_, _, ha, rfl⟩
    | err e s' => rcases hacc with h1 | ⟨_, h1⟩ <;> cases h1
    | trap => rcases hacc with h1 | ⟨_, h1⟩ <;> cases h1
  | _ => exact absurd rfl hr

/-- Recording a transaction leaves nothing expired that was not before. -/
theorem Appended.expired [Crypto] {now T : Nat} (hT : T ≤ now) {s s1 : State} {t : Transaction}
    (ha : Appended now s s1 t) {k : ApprovalKey} (h : Spec.Expired s1 T k) :
    Spec.Expired s T k := by
  obtain ⟨a, e, hg, h0, hle⟩ := h
  rw [ha.allow k] at hg
  have hop := ha.op
  have hsp := ha.spend
  obtain ⟨op, cat, memo⟩ := t
  have hspend : ∀ key x, Spec.spends (mkBlock s ⟨op, cat, memo⟩ now) = some (key, x) →
      Spec.spend s.approvals.get key x k = some (a, e) → Spec.Expired s T k := by
    intro key x hs hg
    obtain ⟨a0, e0, h1, _, h3⟩ := hsp key x hs
    unfold Spec.spend at hg
    split at hg
    · rename_i hk
      subst hk
      rw [h1] at hg
      simp only at hg
      split at hg
      · cases hg
      · cases hg
        exact ⟨a0, _, h1, h0, hle⟩
    · exact ⟨a, e, hg, h0, hle⟩
  have hrest : (match Spec.spends (mkBlock s ⟨op, cat, memo⟩ now) with
      | some (key, x) => Spec.spend s.approvals.get key x
      | none => s.approvals.get) k = some (a, e) → Spec.Expired s T k := by
    intro hg
    cases hs : Spec.spends (mkBlock s ⟨op, cat, memo⟩ now) with
    | none => rw [hs] at hg; exact ⟨a, e, hg, h0, hle⟩
    | some v => rw [hs] at hg; exact hspend v.1 v.2 hs hg
  cases op with
  | approve frm sp amount ea exp fee =>
    simp only [Spec.allowStep, mkBlock] at hg
    split at hg
    · split at hg
      · cases hg
      · simp only [Option.some.injEq, Prod.mk.injEq] at hg
        obtain ⟨_, _, _, _, _, _, _, hlt⟩ := hop
        cases exp with
        | none => simp at hg; omega
        | some z => simp at hg hlt; omega
    · exact ⟨a, e, hg, h0, hle⟩
  | mint => exact hrest hg
  | transfer => exact hrest hg
  | burn => exact hrest hg

/-- **C62**, approvals: after an accepted request an expired approval is still stored only if
more than a hundred were; a hundred others are then gone. -/
theorem C62_approvals [Crypto] {y : Sys} (h : Reachable y) {m : Msg} (hr : Spec.IsRequest m)
    (hacc : Spec.Accepted (y.exec m).2) {k : ApprovalKey}
    (hk : Spec.Expired (y.exec m).1.ledger y.now k) :
    Spec.Expired y.ledger y.now k ∧
    ∃ gone : List ApprovalKey, gone.Nodup ∧ gone.length = 100 ∧ k ∉ gone ∧
      ∀ k' ∈ gone, Spec.Expired y.ledger y.now k' ∧
        (y.exec m).1.ledger.approvals.get k' = none := by
  obtain ⟨s1, t, ha, hs⟩ := exec_pruned h.inv hr hacc
  rw [hs] at hk ⊢
  obtain ⟨gone, h1, _, h3, h4, _, h6⟩ := prune_approvals (now := y.now) (ha.queue h.inv.ledger.queue)
  have hkn : k ∉ gone := by
    intro hg
    obtain ⟨a, e, hg', _⟩ := hk
    rw [h4, if_pos hg] at hg'
    cases hg'
  refine ⟨ha.expired (Nat.le_refl _) ?_, gone, h1, h6 k hk, hkn, fun k' hk' => ⟨ha.expired (Nat.le_refl _) (h3 k' hk'), ?_⟩⟩
  · obtain ⟨a, e, hg', hrest⟩ := hk
    rw [h4, if_neg hkn] at hg'
    exact ⟨a, e, hg', hrest⟩
  · rw [h4, if_pos hk']

/-- **C62**, deduplication data: after an accepted request an entry more than the window old is
still there only if more than 100000 were; so many others are then gone. -/
theorem C62_transactions [Crypto] {y : Sys} (h : Reachable y) {m : Msg} (hr : Spec.IsRequest m)
    (hacc : Spec.Accepted (y.exec m).2)
    (hn : ¬Spec.Collision ((y.exec m).1.ledger.blocks.map Block.transaction)) {x : Nat × Nat}
    (hx : (y.exec m).1.ledger.transactionTimestamps.get x = some ())
    (hold : x.1 + 86400000000000 + 60000000000 < y.now) :
    y.ledger.transactionTimestamps.get x = some () ∧
    ∃ gone : List (Nat × Nat), gone.Nodup ∧ gone.length = 100000 ∧ x ∉ gone ∧
      ∀ z ∈ gone, y.ledger.transactionTimestamps.get z = some () ∧
        z.1 + 86400000000000 + 60000000000 < y.now ∧
        (y.exec m).1.ledger.transactionTimestamps.get z = none := by
  obtain ⟨s1, t, ha, hs⟩ := exec_pruned h.inv hr hacc
  rw [hs] at hn hx ⊢
  have hi := h.inv.ledger.append ha
  rw [(prune_spec (now := y.now) hi.queue).blocks] at hn
  obtain ⟨gone, h1, _, h3, h4, _, _, h7⟩ := prune_transactions hi hn
  have hback : ∀ z : Nat × Nat, s1.transactionTimestamps.get z = some () →
      z.1 + 86400000000000 + 60000000000 < y.now → y.ledger.transactionTimestamps.get z = some () := by
    intro z hz hlt
    rw [ha.timestamps] at hz
    unfold pushBlock at hz
    simp only [mkBlock] at hz
    split at hz
    · exact hz
    · rename_i ts hts
      simp only [SMap.get_insert] at hz
      split at hz
      · rename_i heq
        subst heq
        have hw := ha.createdAt
        rw [hts] at hw
        have hw := validateCreatedAt_window hw
        have hclk := hi.clock
        unfold isBeforeTransactionWindow satAdd64 at hw
        rw [TRANSACTION_WINDOW_eq, PERMITTED_DRIFT_eq, decide_eq_false_iff_not] at hw
        repeat' split at hw
        all_goals omega
      · exact hz
  have hxn : x ∉ gone := by
    intro hg
    rw [h4, if_pos hg] at hx
    cases hx
  refine ⟨hback x ?_ hold, gone, h1, h7 x hx hold, hxn, fun z hz => ⟨hback z (h3 z hz).1 (h3 z hz).2,
    (h3 z hz).2, ?_⟩⟩
  · rw [h4, if_neg hxn] at hx; exact hx
  · rw [h4, if_pos hz]

open Toy in
/-- An expired approval and an old deduplication entry are there; a deposit, a transfer and a
withdrawal each remove both. -/
example :
    let y := (start.run [dep alice 1000000000000, appr alice bob 5 (some 2000000000),
      xfer alice bob 7 (some 1000000000)]).tick 100000000000000
    Reachable y ∧ y.ledger.approvals.len = 1 ∧ y.ledger.transactionTimestamps.len = 1 ∧
    ∀ e ∈ [dep bob 1000000000, xfer alice carol 5, wdr alice 5],
      Spec.IsRequest e.msg ∧ Spec.Accepted (y.exec e.msg).2 ∧
      ¬Spec.Collision ((y.exec e.msg).1.ledger.blocks.map Block.transaction) ∧
      (y.exec e.msg).1.ledger.approvals.len = 0 ∧
      (y.exec e.msg).1.ledger.transactionTimestamps.len = 0 := by
  refine ⟨(run_reachable _).tick _, by decide +kernel, by decide +kernel, ?_⟩
  intro e he
  simp only [List.mem_cons, List.not_mem_nil, or_false] at he
  rcases he with rfl | rfl | rfl
  · exact ⟨by simp [Spec.IsRequest, Spec.sender, dep], Or.inr ⟨3, by decide +kernel⟩,
      by decide +kernel, by decide +kernel, by decide +kernel⟩
  · exact ⟨by simp [Spec.IsRequest, Spec.sender, xfer], Or.inr ⟨3, by decide +kernel⟩,
      by decide +kernel, by decide +kernel, by decide +kernel⟩
  · exact ⟨by simp [Spec.IsRequest, Spec.sender, wdr], Or.inl (by decide +kernel),
      by decide +kernel, by decide +kernel, by decide +kernel⟩

end CyclesLedger
