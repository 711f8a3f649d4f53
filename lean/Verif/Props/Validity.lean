import Verif.Props.Requests
/-!
# When requests succeed, and what refusals mean

C12, C39, C42, C43, C44, C50, C51, and C55: every error answer is true.
-/
namespace CyclesLedger

/-! ## C12 -/

/-- **C12**: a request adds a block only if its `created_at_time` is in the window. -/
theorem C12_block_only_in_window [Crypto] {y y' : Sys} (h : Reachable y) {m : Msg} {reply : Reply}
    (hreq : Spec.IsRequest m) (hx : y.exec m = (y', reply))
    (hb : y'.ledger.blocks ≠ y.ledger.blocks) :
    Spec.InWindow (Spec.createdAt m) y.now := by
  have hi := h.inv
  have hne : y' ≠ y := fun h => hb (by rw [h])
  have htr : ∀ r, Spec.transferRequest m = some r → Spec.InWindow r.createdAt y.now := by
    intro r ht
    rcases exec_transfer hi ht with ⟨_, _, _, _, _, _, hv, _⟩ | ⟨e, h1, _⟩ | ⟨h1, _⟩
    · exact hv.window
    · rw [hx] at h1; exact absurd h1 hne
    · rw [hx] at h1; cases h1; exact absurd rfl hne
  have hbu : ∀ r to, Spec.burnRequest m = some (r, to) → Spec.InWindow r.createdAt y.now := by
    intro r to hr
    rcases exec_burn hi hr with ⟨_, _, _, hv, _⟩ | ⟨e, h1, _⟩
    · exact hv.window
    · rw [hx] at h1; exact absurd h1 hne
  cases m with
  | deposit => intro c hc; cases hc
  | transfer => exact htr _ rfl
  | transferFrom => exact htr _ rfl
  | approve caller args =>
    rcases exec_approve hi (m := .approve caller args) rfl with
      ⟨_, _, _, _, _, _, hv, _⟩ | ⟨e, h1, _⟩ | ⟨h1, _⟩
    · exact hv.window
    · rw [hx] at h1; exact absurd h1 hne
    · rw [hx] at h1; cases h1; exact absurd rfl hne
  | withdraw => exact hbu _ _ rfl
  | withdrawFrom => exact hbu _ _ rfl
  | createCanister => exact hbu _ _ rfl
  | createCanisterFrom => exact hbu _ _ rfl
  | callback => exact absurd rfl hreq
  | lostCallback => exact absurd rfl hreq
  | upgrade => exact absurd rfl hreq

/-- The refusals of a request. -/
theorem refusal [Crypto] {y y' : Sys} (h : Reachable y) {m : Msg} {reply : Reply}
    (hreq : Spec.IsRequest m) (hx : y.exec m = (y', reply)) :
    (∀ e, Spec.transferError reply = some e →
      ∃ r, Spec.transferRequest m = some r ∧ Spec.createdAt m = r.createdAt ∧
        Spec.TransferRefused y.ledger y.now r e) ∧
    (∀ e, Spec.approveError reply = some e →
      ∃ r, Spec.approveRequest m = some r ∧ Spec.createdAt m = r.createdAt ∧
        Spec.ApproveRefused y.ledger y.now r e) ∧
    (∀ e, Spec.burnError reply = some e →
      ∃ r to, Spec.burnRequest m = some (r, to) ∧ Spec.createdAt m = r.createdAt ∧
        Spec.BurnRefused y.ledger y.now r to e) := by
  have hi := h.inv
  have htr : ∀ r, Spec.transferRequest m = some r → Spec.createdAt m = r.createdAt →
      (∀ e, Spec.transferError reply = some e →
        ∃ r, Spec.transferRequest m = some r ∧ Spec.createdAt m = r.createdAt ∧
          Spec.TransferRefused y.ledger y.now r e) ∧
      Spec.approveError reply = none ∧ Spec.burnError reply = none := by
    intro r ht hc
    have hshape : (∃ v, reply = .transfer v) ∨ (∃ v, reply = .transferFrom v) ∨ reply = .trapped := by
      cases m <;> first | cases ht | skip
      all_goals
        simp only [Sys.exec, Sys.commit] at hx
        split at hx <;> cases hx <;> simp
    refine ⟨?_, ?_, ?_⟩
    · intro e he
      refine ⟨r, ht, hc, ?_⟩
      rcases exec_transfer hi ht with ⟨_, _, _, h3, _⟩ | ⟨e', _, _, h3, _, h4, _⟩ | ⟨h1, _⟩
      · rw [hx] at h3; rw [h3] at he; cases he
      · rw [hx] at h3; rw [h3] at he; cases he; exact h4
      · rw [hx] at h1; cases h1; cases he
    · rcases hshape with ⟨v, rfl⟩ | ⟨v, rfl⟩ | rfl <;> rfl
    · rcases hshape with ⟨v, rfl⟩ | ⟨v, rfl⟩ | rfl <;> rfl
  have hbu : ∀ r to, Spec.burnRequest m = some (r, to) → Spec.createdAt m = r.createdAt →
      (∀ e, Spec.burnError reply = some e →
        ∃ r to, Spec.burnRequest m = some (r, to) ∧ Spec.createdAt m = r.createdAt ∧
          Spec.BurnRefused y.ledger y.now r to e) := by
    intro r to hr hc e he
    refine ⟨r, to, hr, hc, ?_⟩
    rcases exec_burn hi hr with ⟨_, _, _, _, _, _, _, _, ⟨_, h1⟩ | ⟨_, h1 | ⟨_, _, _, _, _, _, h2, _⟩⟩⟩ |
      ⟨e', _, _, h1, _, _, _, h2, _⟩
    · rw [hx] at h1; cases h1; cases he
    · have := h1.1; rw [hx] at this; cases this; cases he
    · rw [hx] at h2; rw [h2] at he; cases he
    · rw [hx] at h1; rw [h1] at he; cases he; exact h2
  have hburnreply : ∀ r to, Spec.burnRequest m = some (r, to) →
      Spec.transferError reply = none ∧ Spec.approveError reply = none := by
    intro r to hr
    have hshape : (∃ v, reply = .withdraw v) ∨ (∃ v, reply = .withdrawFrom v) ∨
        (∃ v, reply = .createCanister v) ∨ (∃ v, reply = .createCanisterFrom v) ∨
        reply = .trapped ∨ reply = .suspended := by
      cases m <;> first | cases hr | skip
      all_goals
        simp only [Sys.exec, sendWithdraw, sendCreate, finishWithdraw, finishCreate, Sys.commit] at hx
        repeat' split at hx
        all_goals first | (cases hx; simp; done) | (cases hx; simp_all; done)
    rcases hshape with ⟨v, rfl⟩ | ⟨v, rfl⟩ | ⟨v, rfl⟩ | ⟨v, rfl⟩ | rfl | rfl <;> exact ⟨rfl, rfl⟩
  have go : ∀ r to, Spec.burnRequest m = some (r, to) → Spec.createdAt m = r.createdAt → _ :=
    fun r to hr hc =>
    (⟨(fun e he => by rw [(hburnreply r to hr).1] at he; cases he),
      (fun e he => by rw [(hburnreply r to hr).2] at he; cases he), hbu r to hr hc⟩ :
      (∀ e, Spec.transferError reply = some e →
        ∃ r, Spec.transferRequest m = some r ∧ Spec.createdAt m = r.createdAt ∧
          Spec.TransferRefused y.ledger y.now r e) ∧
      (∀ e, Spec.approveError reply = some e →
        ∃ r, Spec.approveRequest m = some r ∧ Spec.createdAt m = r.createdAt ∧
          Spec.ApproveRefused y.ledger y.now r e) ∧
      (∀ e, Spec.burnError reply = some e →
        ∃ r to, Spec.burnRequest m = some (r, to) ∧ Spec.createdAt m = r.createdAt ∧
          Spec.BurnRefused y.ledger y.now r to e))
  have gt : ∀ r, Spec.transferRequest m = some r → Spec.createdAt m = r.createdAt → _ :=
    fun r hr hc =>
    (⟨(htr r hr hc).1, (fun e he => by rw [(htr r hr hc).2.1] at he; cases he),
      (fun e he => by rw [(htr r hr hc).2.2] at he; cases he)⟩ :
      (∀ e, Spec.transferError reply = some e →
        ∃ r, Spec.transferRequest m = some r ∧ Spec.createdAt m = r.createdAt ∧
          Spec.TransferRefused y.ledger y.now r e) ∧
      (∀ e, Spec.approveError reply = some e →
        ∃ r, Spec.approveRequest m = some r ∧ Spec.createdAt m = r.createdAt ∧
          Spec.ApproveRefused y.ledger y.now r e) ∧
      (∀ e, Spec.burnError reply = some e →
        ∃ r to, Spec.burnRequest m = some (r, to) ∧ Spec.createdAt m = r.createdAt ∧
          Spec.BurnRefused y.ledger y.now r to e))
  cases m with
  | deposit c cy a =>
    rcases exec_deposit hi c cy a with ⟨_, h1, _⟩ | ⟨h1, _⟩ <;>
    · rw [hx] at h1
      cases h1
      exact ⟨(fun e h => nomatch h), (fun e h => nomatch h), (fun e h => nomatch h)⟩
  | transfer => exact gt _ rfl rfl
  | transferFrom => exact gt _ rfl rfl
  | approve caller args =>
    have hshape : (∃ v, reply = .approve v) ∨ reply = .trapped := by
      simp only [Sys.exec, Sys.commit] at hx
      split at hx <;> cases hx <;> simp
    refine ⟨?_, ?_, ?_⟩
    · intro e he; rcases hshape with ⟨v, rfl⟩ | rfl <;> cases he
    · intro e he
      refine ⟨_, rfl, rfl, ?_⟩
      rcases exec_approve hi (m := .approve caller args) rfl with
        ⟨_, _, _, h3, _⟩ | ⟨e', _, _, h3, _, h4, _⟩ | ⟨h1, _⟩
      · rw [hx] at h3; rw [h3] at he; cases he
      · rw [hx] at h3; rw [h3] at he; cases he; exact h4
      · rw [hx] at h1; cases h1; cases he
    · intro e he; rcases hshape with ⟨v, rfl⟩ | rfl <;> cases he
  | withdraw => exact go _ _ rfl rfl
  | withdrawFrom => exact go _ _ rfl rfl
  | createCanister => exact go _ _ rfl rfl
  | createCanisterFrom => exact go _ _ rfl rfl
  | callback => exact absurd rfl hreq
  | lostCallback => exact absurd rfl hreq
  | upgrade => exact absurd rfl hreq

/-- **C12**: `TooOld` and `CreatedInFuture` are only answered outside the window. -/
theorem C12_answers [Crypto] {y y' : Sys} (h : Reachable y) {m : Msg} {reply : Reply}
    (hreq : Spec.IsRequest m) (hx : y.exec m = (y', reply)) :
    (Spec.SaysTooOld reply →
      ∃ c, Spec.createdAt m = some c ∧ c + 86400000000000 + 60000000000 < y.now) ∧
    (∀ t, Spec.SaysInFuture reply t →
      t = y.now ∧ ∃ c, Spec.createdAt m = some c ∧ y.now + 60000000000 < c) := by
  obtain ⟨h1, h2, h3⟩ := refusal h hreq hx
  constructor
  · rintro (he | he | he)
    · obtain ⟨r, _, hc, hr⟩ := h1 _ he; rw [hc]; exact hr
    · obtain ⟨r, _, hc, hr⟩ := h2 _ he; rw [hc]; exact hr
    · obtain ⟨r, to, _, hc, hr⟩ := h3 _ he; rw [hc]; exact hr
  · rintro t (he | he | he)
    · obtain ⟨r, _, hc, hr⟩ := h1 _ he; rw [hc]; exact hr
    · obtain ⟨r, _, hc, hr⟩ := h2 _ he; rw [hc]; exact hr
    · obtain ⟨r, to, _, hc, hr⟩ := h3 _ he; rw [hc]; exact hr

open Toy in
/-- At the two ends of the window a transfer is accepted, one nanosecond further out not. -/
example : let y := demo.tick 86460000000000
    Reachable y ∧ y.now = 86461000000006 ∧
    Spec.okIndex (y.exec (xfer alice carol 7 (some 1000000006)).msg).2 = some 6 ∧
    (y.exec (xfer alice carol 7 (some 1000000005)).msg).2 = .transfer (.error .tooOld) ∧
    Spec.okIndex (y.exec (xfer alice carol 7 (some 86521000000006)).msg).2 = some 6 ∧
    (y.exec (xfer alice carol 7 (some 86521000000007)).msg).2 =
      .transfer (.error (.createdInFuture 86461000000006)) :=
  ⟨demo_reachable.tick _, by decide +kernel, by decide +kernel, by decide +kernel,
    by decide +kernel, by decide +kernel⟩

/-! ## C55: refusals are true -/

/-- **C55**: whatever an error answer says is so: a reported balance, allowance or time
is the current one, and the condition the error stands for does hold. -/
theorem C55_refusals_true [Crypto] {y y' : Sys} (h : Reachable y) {m : Msg} {reply : Reply}
    (hreq : Spec.IsRequest m) (hx : y.exec m = (y', reply)) :
    (∀ e, Spec.transferError reply = some e →
      ∃ r, Spec.transferRequest m = some r ∧ Spec.TransferRefused y.ledger y.now r e) ∧
    (∀ e, Spec.approveError reply = some e →
      ∃ r, Spec.approveRequest m = some r ∧ Spec.ApproveRefused y.ledger y.now r e) ∧
    (∀ e, Spec.burnError reply = some e →
      ∃ r to, Spec.burnRequest m = some (r, to) ∧ Spec.BurnRefused y.ledger y.now r to e) := by
  obtain ⟨h1, h2, h3⟩ := refusal h hreq hx
  refine ⟨fun e he => ?_, fun e he => ?_, fun e he => ?_⟩
  · obtain ⟨r, hr, _, h⟩ := h1 e he; exact ⟨r, hr, h⟩
  · obtain ⟨r, hr, _, h⟩ := h2 e he; exact ⟨r, hr, h⟩
  · obtain ⟨r, to, hr, _, h⟩ := h3 e he; exact ⟨r, to, hr, h⟩

open Toy in
example : Reachable demo ∧
    Spec.transferError (demo.exec (xferFrom bob alice carol 900000000).msg).2 =
      some (.insufficientAllowance 399995000) ∧
    Spec.approveError (demo.exec (appr carol bob 5).msg).2 = some (.insufficientFunds 5000) ∧
    Spec.burnError (demo.exec (wdr carol 5).msg).2 = some (.insufficientFunds 5000) :=
  ⟨demo_reachable, by decide +kernel, by decide +kernel, by decide +kernel⟩

/-! ## C39, C42 -/

/-- **C42**: when the update endpoints trap. -/
theorem C42_traps [Crypto] {y y' : Sys} (h : Reachable y) {m : Msg}
    (hx : y.exec m = (y', .trapped)) :
    (∀ r, Spec.transferRequest m = some r → ¬Spec.MemoFits r.memo) ∧
    (∀ r, Spec.approveRequest m = some r → ¬Spec.MemoFits r.memo ∨ r.frm.owner = r.spender.owner) ∧
    (∀ c cycles arg, m = .deposit c cycles arg → cycles.val ≤ 100000000 ∨ ¬Spec.MemoFits arg.memo ∨
      2 ^ 128 ≤ icrc1TotalSupply y.ledger + (cycles.val - 100000000)) ∧
    (∀ r to, Spec.burnRequest m = some (r, to) → Spec.syncOf m ≠ none) := by
  have hi := h.inv
  refine ⟨?_, ?_, ?_, ?_⟩
  · intro r hr
    rcases exec_transfer hi hr with ⟨_, _, _, _, h1, _⟩ | ⟨e, _, _, _, h1, _⟩ | ⟨_, h1⟩
    · rw [hx] at h1; exact absurd rfl h1
    · rw [hx] at h1; exact absurd rfl h1
    · exact h1
  · intro r hr
    rcases exec_approve hi hr with ⟨_, _, _, _, h1, _⟩ | ⟨e, _, _, _, h1, _⟩ | ⟨_, h1⟩
    · rw [hx] at h1; exact absurd rfl h1
    · rw [hx] at h1; exact absurd rfl h1
    · exact h1
  · rintro c cycles arg rfl
    rcases exec_deposit hi c cycles arg with ⟨_, h1, _⟩ | ⟨_, h1⟩
    · rw [hx] at h1; cases h1
    · exact h1
  · intro r to hr
    rcases exec_burn hi hr with ⟨_, _, _, _, _, _, _, _, ⟨_, h1⟩ | ⟨h1, _⟩⟩ | ⟨e, _, _, _, h1, _⟩
    · rw [hx] at h1; cases h1
    · exact h1
    · rw [hx] at h1; exact absurd rfl h1

open Toy in
/-- The traps do occur. -/
example : let long : Bytes := List.replicate 33 0
    Reachable demo ∧
    (demo.exec (.transfer alice ⟨none, acc bob, 7, none, some long, none⟩)).2 = .trapped ∧
    (demo.exec (appr alice alice 5).msg).2 = .trapped ∧
    (demo.exec (.deposit alice ⟨340282366920938463463374607431768211455, by decide +kernel⟩
      ⟨acc bob, none⟩)).2 = .trapped :=
  ⟨demo_reachable, by decide +kernel, by decide +kernel, by decide +kernel⟩

/-- **C39**, second part: a request with a memo of more than 32 bytes changes nothing. -/
theorem C39_long_memo_refused [Crypto] {y y' : Sys} (h : Reachable y) {m : Msg} {reply : Reply}
    {memo : Bytes} (hm : (∃ r, Spec.transferRequest m = some r ∧ r.memo = some memo) ∨
      (∃ r, Spec.approveRequest m = some r ∧ r.memo = some memo) ∨
      ∃ c cycles to, m = .deposit c cycles ⟨to, some memo⟩)
    (hlong : 32 < memo.length) (hx : y.exec m = (y', reply)) :
    y' = y ∧ Spec.okIndex reply = none := by
  have hi := h.inv
  have hfit : ¬Spec.MemoFits (some memo) := fun h => by have := h memo rfl; omega
  rcases hm with ⟨r, hr, he⟩ | ⟨r, hr, he⟩ | ⟨c, cycles, to, rfl⟩
  · rcases exec_transfer hi hr with ⟨_, _, _, _, _, _, hv, _⟩ | ⟨e, h1, h2, _⟩ | ⟨h1, _⟩
    · have := hv.memo; rw [he] at this; exact absurd this hfit
    · rw [hx] at h1 h2; exact ⟨h1, h2⟩
    · rw [hx] at h1; cases h1; exact ⟨rfl, rfl⟩
  · rcases exec_approve hi hr with ⟨_, _, _, _, _, _, hv, _⟩ | ⟨e, h1, h2, _⟩ | ⟨h1, _⟩
    · have := hv.memo; rw [he] at this; exact absurd this hfit
    · rw [hx] at h1 h2; exact ⟨h1, h2⟩
    · rw [hx] at h1; cases h1; exact ⟨rfl, rfl⟩
  · rcases exec_deposit hi c cycles ⟨to, some memo⟩ with ⟨_, _, _, _, h1, _⟩ | ⟨h1, _⟩
    · exact absurd h1 hfit
    · rw [hx] at h1; cases h1; exact ⟨rfl, rfl⟩

open Toy in
example : Reachable demo ∧ 32 < (List.replicate 33 (0 : UInt8)).length :=
  ⟨demo_reachable, by decide⟩

/-! ## C43 -/

/-- The requested transaction is already in the log and carries a `created_at_time`. -/
def Spec.IsDuplicate (s : State) (t : Transaction) : Prop :=
  t.createdAtTime.isSome ∧ ∃ b ∈ s.blocks, b.transaction = t

/-- **C43**, up to the corner `SelfOverflow` (a transfer to oneself for which balance
plus amount do not fit 128 bits, see `C43_refuted`): a transfer succeeds if and only if
it satisfies the documented conditions.  What is missing: in that corner valid transfers
are refused.  `NoClash` excludes SHA-256 collisions with this transaction. -/
theorem C43_valid_iff_partial [Crypto] {y y' : Sys} (h : Reachable y) {m : Msg} {reply : Reply}
    {r : Spec.TransferReq} (hm : Spec.transferRequest m = some r) (hx : y.exec m = (y', reply))
    (hn : Spec.NoClash y.ledger r.transaction) :
    (∃ i, Spec.okIndex reply = some i) ↔
      (Spec.TransferValid y.ledger y.now r ∧ ¬Spec.IsDuplicate y.ledger r.transaction ∧
        ¬Spec.SelfOverflow y.ledger r) := by
  have hi := h.inv
  constructor
  · rintro ⟨i, hi'⟩
    rcases exec_transfer hi hm with ⟨s', _, _, _, _, _, hv, hs, hf⟩ | ⟨e, _, h2, _⟩ | ⟨h1, _⟩
    · refine ⟨hv, ?_, hs⟩
      rintro ⟨hc, b, hb, hbt⟩
      obtain ⟨c, hc⟩ := Option.isSome_iff_exists.mp hc
      obtain ⟨j, hj⟩ := List.getElem?_of_mem hb
      have hw := hv.window c hc
      rw [← hbt] at hc
      obtain ⟨p, hp⟩ := table_has hi.ledger hn.log hj hc hw.1
      rw [hbt] at hp
      rw [hp] at hf
      cases hf
    · rw [hx] at h2; rw [h2] at hi'; cases hi'
    · rw [hx] at h1; cases h1; cases hi'
  · rintro ⟨hv, hd, hs⟩
    rcases exec_transfer hi hm with ⟨s', _, h2, _⟩ | ⟨e, _, _, _, _, hr, hdup⟩ | ⟨_, h1⟩
    · rw [hx] at h2; exact ⟨_, h2⟩
    · exfalso
      cases e with
      | badFee f => obtain ⟨_, h1, h2⟩ := hr; rcases hv.fee with h | h <;> simp_all
      | badBurn => exact hr
      | insufficientFunds b => obtain ⟨rfl, h1⟩ := hr; have := hv.funds; omega
      | insufficientAllowance a =>
        obtain ⟨sp, hb, rfl, h1⟩ := hr
        have := hv.allowance sp hb
        omega
      | tooOld => obtain ⟨c, hc, h1⟩ := hr; have := (hv.window c hc).1; omega
      | createdInFuture t => obtain ⟨_, c, hc, h1⟩ := hr; have := (hv.window c hc).2; omega
      | duplicate d =>
        obtain ⟨c, hc⟩ := hdup d rfl
        obtain ⟨b, hb, hbt, hsome⟩ := table_hit hi.ledger hn hc
        exact hd ⟨hsome, b, List.mem_of_getElem? hb, hbt⟩
      | temporarilyUnavailable => exact hr
      | genericError code =>
        rcases hr with ⟨_, h1 | h1 | ⟨sp, h1, h2⟩⟩ | ⟨_, sp, x, e, hb, hst, h1, h2⟩ | ⟨_, h1⟩
        · exact hv.notManagement.1 h1
        · exact hv.notManagement.2.1 h1
        · exact hv.notManagement.2.2 sp h1 h2
        · have := hv.allowance sp hb
          unfold Spec.spendable at this
          rw [hst] at this
          simp only [Spec.live] at this
          rw [if_neg (by omega)] at this
          omega
        · exact hs h1
    · exact absurd hv.memo h1

open Toy in
/-- The conditions hold for transfers that go through, and fail for others. -/
example : Reachable demo ∧
    (∀ r, Spec.transferRequest (xferFrom bob alice carol 5).msg = some r →
      Spec.NoClash demo.ledger r.transaction) ∧
    Spec.okIndex (demo.exec (xferFrom bob alice carol 5).msg).2 = some 6 ∧
    (demo.exec (xfer alice bob 1000 (some 1000000000)).msg).2 = .transfer (.error (.duplicate 1)) :=
  ⟨demo_reachable, fun r hr => by cases hr; decide +kernel, by decide +kernel, by decide +kernel⟩

namespace Toy
/-- An account with almost all cycles there can be. -/
def rich : Sys := start.run [dep alice 340282366920938463463374607431768211455]
end Toy

open Toy in
/-- **C43 does not hold as stated**: a transfer to oneself that satisfies every condition,
and is no duplicate, is refused with a generic error, because the credit is checked
against the balance before the debit. -/
theorem C43_refuted : ∃ (y : Sys) (m : Msg) (r : Spec.TransferReq), Reachable y ∧
    Spec.transferRequest m = some r ∧ Spec.TransferValid y.ledger y.now r ∧
    r.createdAt = none ∧ Spec.NoClash y.ledger r.transaction ∧
    (y.exec m).2 = .transfer (.error (.genericError 100000)) := by
  refine ⟨rich, (xfer alice alice 200000000).msg,
    ⟨acc alice, acc alice, none, 200000000, none, none, none⟩, run_reachable _, rfl,
    ⟨?_, Or.inl rfl, ?_, ?_, ?_, ?_⟩, rfl, ?_, by decide +kernel⟩
  · exact ⟨by decide +kernel, by decide +kernel, fun sp h => nomatch h⟩
  · intro m h; cases h
  · intro c h; cases h
  · decide +kernel
  · rintro sp ⟨h, _⟩; cases h
  · unfold Spec.NoClash Spec.Collision
    decide +kernel

/-! ## C44 -/

theorem transfer_badFee [Crypto] {s s' : State} {frm to : Account} {sp : Option Account} {x now : Nat}
    {memo : Option Bytes} {cat : Option Nat} {f b : Nat} (hf : f ≠ FEE) :
    transfer s frm to sp x memo now cat (some f) ≠ .err (.insufficientFunds b) s' := by
  intro h
  unfold transfer at h
  have hb : ((some f).isSome && some f != some FEE) = true := by simp [hf]
  simp only [hb, if_true] at h
  split at h
  · rename_i e _
    simp only [Res.err.injEq] at h
    unfold PTErr.toTransferFrom at h
    split at h <;> cases h.1
  · repeat' split at h
    all_goals simp at h

theorem approve_badFee [Crypto] {s s' : State} {frm sp : Account} {x now : Nat}
    {memo : Option Bytes} {cat ea ex : Option Nat} {f b : Nat} (hf : f ≠ FEE) :
    approve s frm sp x memo now cat (some f) ea ex ≠ .err (.insufficientFunds b) s' := by
  intro h
  unfold approve at h
  have hb : ((some f).isSome && some f != some FEE) = true := by simp [hf]
  simp only [hb, if_true] at h
  split at h
  · rename_i e _
    simp only [Res.err.injEq] at h
    unfold PTErr.toApprove at h
    split at h <;> cases h.1
  · repeat' split at h
    all_goals simp at h

/-- **C44** for approvals, and for transfers of an amount below 2^128.  What is missing:
transfers of more than that, which no balance can cover, see `C44_refuted`. -/
theorem C44_badFee_first_partial [Crypto] {y : Sys} {m : Msg} {f : Nat}
    (hf : f ≠ 100000000) :
    (∀ r, Spec.transferRequest m = some r → r.fee = some f → r.amount < 2 ^ 128 →
      ∀ b, Spec.transferError (y.exec m).2 ≠ some (.insufficientFunds b)) ∧
    (∀ r, Spec.approveRequest m = some r → r.fee = some f →
      ∀ b, Spec.approveError (y.exec m).2 ≠ some (.insufficientFunds b)) := by
  have hf' : f ≠ FEE := by rw [FEE_eq]; exact hf
  have key : ∀ s frm to sp x memo cat now b s', x < 2 ^ 128 →
      executeTransfer s frm to sp x (some f) memo cat now ≠ .err (.insufficientFunds b) s' := by
    intro s frm to sp x memo cat now b s' hx h
    unfold executeTransfer at h
    have : toU128 x = some x := by unfold toU128; rw [U128MAX_eq, if_pos (by omega)]
    simp only [this] at h
    cases hn : natOpt (some f) with
    | none => simp [hn] at h
    | some g =>
      have hg : g = some f := by
        unfold natOpt at hn
        simp only at hn
        cases hu : toU128 f with
        | none => simp [hu] at hn
        | some v =>
          simp only [hu, Option.map_some, Option.some.injEq] at hn
          unfold toU128 at hu
          split at hu
          · cases hu; exact hn.symm
          · cases hu
      subst hg
      simp only [hn] at h
      split at h
      · cases h
      · rename_i e s1 ht
        simp only [Res.err.injEq] at h
        rw [h.1, h.2] at ht
        exact transfer_badFee hf' ht
      · cases h
  constructor
  · intro r hr hfee hx b
    cases m with
    | transfer caller args =>
      cases hr
      simp only at hfee hx
      simp only [Sys.exec, icrc1Transfer]
      rw [hfee]
      generalize hres : executeTransfer y.ledger ⟨caller, args.fromSubaccount⟩ args.to none
        args.amount (some f) args.memo (opt64 args.createdAtTime) y.now = res
      cases res with
      | ok i s' => simp [Res.mapErr, Sys.commit, Spec.transferError]
      | trap => simp [Res.mapErr, Sys.commit, Spec.transferError]
      | err e s' =>
        have := key y.ledger ⟨caller, args.fromSubaccount⟩ args.to none args.amount args.memo
          (opt64 args.createdAtTime) y.now b s' hx
        rw [hres] at this
        cases e <;> simp_all [Res.mapErr, Sys.commit, Spec.transferError,
          transferFromErrorToTransferError, Spec.widenTransfer]
    | transferFrom caller args =>
      cases hr
      simp only at hfee hx
      simp only [Sys.exec, icrc2TransferFrom]
      rw [hfee]
      generalize hres : executeTransfer y.ledger args.frm args.to
        (some ⟨caller, args.spenderSubaccount⟩)
        args.amount (some f) args.memo (opt64 args.createdAtTime) y.now = res
      cases res with
      | ok i s' => simp [Sys.commit, Spec.transferError]
      | trap => simp [Sys.commit, Spec.transferError]
      | err e s' =>
        have := key y.ledger args.frm args.to (some ⟨caller, args.spenderSubaccount⟩) args.amount
          args.memo (opt64 args.createdAtTime) y.now b s' hx
        rw [hres] at this
        cases e <;> simp_all [Sys.commit, Spec.transferError]
    | _ => cases hr
  · intro r hr hfee b
    cases m with
    | approve caller args =>
      cases hr
      simp only at hfee
      simp only [Sys.exec]
      generalize hres : icrc2Approve y.ledger caller args y.now = res
      cases res with
      | ok i s' => simp [Sys.commit, Spec.approveError]
      | trap => simp [Sys.commit, Spec.approveError]
      | err e s' =>
        simp only [Sys.commit, Spec.approveError]
        intro he
        cases he
        unfold icrc2Approve at hres
        simp only at hres
        split at hres
        · cases hres
        · split at hres
          · cases hres
          · rename_i g hn
            have hg : g = some f := by
              rw [hfee] at hn
              unfold natOpt at hn
              simp only at hn
              cases hu : toU128 f with
              | none => simp [hu] at hn
              | some v =>
                simp only [hu, Option.map_some, Option.some.injEq] at hn
                unfold toU128 at hu
                split at hu
                · cases hu; exact hn.symm
                · cases hu
            subst hg
            split at hres
            · cases hres
            · rename_i e s1 ht
              simp only [Res.err.injEq] at hres
              rw [hres.1, hres.2] at ht
              exact approve_badFee hf' ht
            · cases hres
    | _ => cases hr

open Toy in
example : (demo.exec (.transfer bob ⟨none, acc carol, 2000, some 7, none, none⟩)).2 =
      .transfer (.error (.badFee 100000000)) ∧
    (demo.exec (.approve carol ⟨none, acc bob, 7, none, none, some 7, none, none⟩)).2 =
      .approve (.error (.badFee 100000000)) :=
  ⟨by decide +kernel, by decide +kernel⟩

open Toy in
/-- **C44 does not hold as stated**: with an amount of 2^128 the wrong fee goes
unnoticed. -/
theorem C44_refuted : ∃ (y : Sys) (m : Msg) (r : Spec.TransferReq) (b : Nat), Reachable y ∧
    Spec.transferRequest m = some r ∧ r.fee = some 7 ∧
    Spec.transferError (y.exec m).2 = some (.insufficientFunds b) :=
  ⟨demo, .transfer bob ⟨none, acc carol, 340282366920938463463374607431768211456, some 7, none, none⟩,
    _, 1000, demo_reachable, rfl, rfl, by decide +kernel⟩

/-! ## C50 -/

/-- A `withdraw` error says the same as a `withdraw_from` error.  (`FailedToWithdraw` has
no field for the burn block, and without a spender there is no approval refund.) -/
def Spec.SameWithdrawError : WithdrawError → WithdrawFromError → Prop
  | .insufficientFunds b, .insufficientFunds b' => b = b'
  | .tooOld, .tooOld => True
  | .createdInFuture t, .createdInFuture t' => t = t'
  | .temporarilyUnavailable, .temporarilyUnavailable => True
  | .duplicate d, .duplicate d' => d = d'
  | .failedToWithdraw fb c, .failedToWithdrawFrom _ fb' _ c' => fb = fb' ∧ c = c'
  | .genericError c, .genericError c' => c = c'
  | .invalidReceiver p, .invalidReceiver p' => p = p'
  | _, _ => False

/-- A `create_canister` error says the same as a `create_canister_from` error. -/
def Spec.SameCreateError : CreateCanisterError → CreateCanisterFromError → Prop
  | .insufficientFunds b, .insufficientFunds b' => b = b'
  | .tooOld, .tooOld => True
  | .createdInFuture t, .createdInFuture t' => t = t'
  | .temporarilyUnavailable, .temporarilyUnavailable => True
  | .duplicate d c, .duplicate d' c' => d = d' ∧ c = c'
  | .failedToCreate cb rb, .failedToCreateFrom cb' rb' _ _ => cb = cb' ∧ rb = rb'
  | .genericError c, .genericError c' => c = c'
  | _, _ => False

/-- **C50** for `icrc1_transfer`: the result of the shared operation is passed on, and
the conversion never traps. -/
theorem C50_transfer [Crypto] {y : Sys} (h : Reachable y) (caller : Principal) (a : TransferArgs) :
    match executeTransfer y.ledger ⟨caller, a.fromSubaccount⟩ a.to none a.amount a.fee a.memo
        (a.createdAtTime.map UInt64.toNat) y.now with
    | .ok i s => y.exec (.transfer caller a) = ({ y with ledger := s }, .transfer (.ok i))
    | .err e s => ∃ e', Spec.widenTransfer e' = e ∧
        y.exec (.transfer caller a) = ({ y with ledger := s }, .transfer (.error e'))
    | .trap => y.exec (.transfer caller a) = (y, .trapped) := by
  have hc := executeTransfer_class h.inv.ledger ⟨⟨caller, a.fromSubaccount⟩, a.to, none,
    a.amount, a.fee, a.memo, a.createdAtTime.map UInt64.toNat⟩ (opt64_le _)
  simp only at hc
  simp only [Sys.exec, icrc1Transfer, opt64]
  generalize executeTransfer y.ledger ⟨caller, a.fromSubaccount⟩ a.to none a.amount a.fee a.memo
    (a.createdAtTime.map UInt64.toNat) y.now = res at hc ⊢
  cases res with
  | ok i s => rfl
  | trap => rfl
  | err e s =>
    obtain ⟨_, hr, _⟩ := hc
    cases e with
    | insufficientAllowance x => obtain ⟨sp, hb, _⟩ := hr; cases hb.1
    | _ => exact ⟨_, rfl, rfl⟩

/-- **C50** for `withdraw`, refused at once. -/
theorem C50_withdraw_start [Crypto] {y : Sys} (h : Reachable y) (caller : Principal)
    (a : WithdrawArgs) (sync : Option CallError) {e : WithdrawFromError} {s : State}
    (he : executeWithdraw y.ledger ⟨caller, a.fromSubaccount⟩ a.to none a.amount
      (a.createdAtTime.map UInt64.toNat) y.now = .err e s) :
    ∃ e', Spec.SameWithdrawError e' e ∧
      y.exec (.withdraw caller a sync) = ({ y with ledger := s }, .withdraw (.error e')) := by
  have hc := executeWithdraw_class h.inv.ledger ⟨⟨caller, a.fromSubaccount⟩, none, a.amount,
    a.createdAtTime.map UInt64.toNat⟩ a.to (opt64_le _)
  simp only at hc
  rw [he] at hc
  obtain ⟨_, hr, _⟩ := hc
  simp only [Sys.exec, opt64]
  rw [he]
  cases e with
  | insufficientAllowance x => obtain ⟨sp, hb, _⟩ := hr; cases hb.1
  | failedToWithdrawFrom => exact absurd hr id
  | temporarilyUnavailable => exact absurd hr id
  | insufficientFunds => exact ⟨.insufficientFunds _, rfl, rfl⟩
  | tooOld => exact ⟨.tooOld, trivial, rfl⟩
  | createdInFuture => exact ⟨.createdInFuture _, rfl, rfl⟩
  | duplicate => exact ⟨.duplicate _, rfl, rfl⟩
  | genericError => exact ⟨.genericError _, rfl, rfl⟩
  | invalidReceiver => exact ⟨.invalidReceiver _, rfl, rfl⟩

/-- **C50** for `withdraw`, at the end of the call. -/
theorem C50_withdraw_end [Crypto] (y : Sys) (s : State) (p : Suspended) (r : Option CallError) :
    match withdrawFinish s p r y.now with
    | .ok i s' => finishWithdraw y s .withdraw p r = ({ y with ledger := s' }, .withdraw (.ok i))
    | .err e s' => ∃ e', Spec.SameWithdrawError e' e ∧
        finishWithdraw y s .withdraw p r = ({ y with ledger := s' }, .withdraw (.error e'))
    | .trap => finishWithdraw y s .withdraw p r = (y, .trapped) := by
  unfold finishWithdraw
  cases r with
  | none => rfl
  | some code =>
    have := withdrawFinish_eq s p code y.now
    simp only [this]
    split <;> rename_i heq <;> split at heq <;> first | (cases heq; rfl) | (cases heq) | skip
    all_goals exact ⟨.failedToWithdraw _ _, ⟨rfl, rfl⟩, rfl⟩

/-- **C50** for `create_canister`, refused at once. -/
theorem C50_create_start [Crypto] {y : Sys} (h : Reachable y) (caller : Principal)
    (a : CreateCanisterArgs) (sync : Option CallError) {e : CreateCanisterFromError} {s : State}
    (he : executeCreateCanister y.ledger ⟨caller, a.fromSubaccount⟩ none a.amount
      (a.createdAtTime.map UInt64.toNat) y.now = .err e s) :
    ∃ e', Spec.SameCreateError e' e ∧
      y.exec (.createCanister caller a sync) = ({ y with ledger := s }, .createCanister (.error e')) := by
  have hc := executeCreateCanister_class h.inv.ledger ⟨⟨caller, a.fromSubaccount⟩, none, a.amount,
    a.createdAtTime.map UInt64.toNat⟩ (opt64_le _)
  simp only at hc
  rw [he] at hc
  obtain ⟨_, hr, _⟩ := hc
  simp only [Sys.exec, opt64]
  rw [he]
  cases e with
  | insufficientAllowance x => obtain ⟨sp, hb, _⟩ := hr; cases hb.1
  | failedToCreateFrom => exact absurd hr id
  | temporarilyUnavailable => exact absurd hr id
  | genericError => exact absurd hr id
  | insufficientFunds => exact ⟨.insufficientFunds _, rfl, rfl⟩
  | tooOld => exact ⟨.tooOld, trivial, rfl⟩
  | createdInFuture => exact ⟨.createdInFuture _, rfl, rfl⟩
  | duplicate => exact ⟨.duplicate _ _, ⟨rfl, rfl⟩, rfl⟩

/-- **C50** for `create_canister`, at the end of the call. -/
theorem C50_create_end [Crypto] (y : Sys) (s : State) (p : Suspended) (r : CmcResult) :
    match createCanisterFinish s p r y.now with
    | .ok i s' => finishCreate y s .createCanister p r =
        ({ y with ledger := s' }, .createCanister (.ok i))
    | .err e s' => ∃ e', Spec.SameCreateError e' e ∧
        finishCreate y s .createCanister p r = ({ y with ledger := s' }, .createCanister (.error e'))
    | .trap => finishCreate y s .createCanister p r = (y, .trapped) := by
  unfold finishCreate
  have key : ∀ code back, createCanisterFinish s p r y.now = createFailed s p code back y.now →
      match createCanisterFinish s p r y.now with
      | .ok i s' => y.commit ((createCanisterFinish s p r y.now).mapErr createFromErrorToCreateError)
          .createCanister = ({ y with ledger := s' }, .createCanister (.ok i))
      | .err e s' => ∃ e', Spec.SameCreateError e' e ∧
          y.commit ((createCanisterFinish s p r y.now).mapErr createFromErrorToCreateError)
            .createCanister = ({ y with ledger := s' }, .createCanister (.error e'))
      | .trap => y.commit ((createCanisterFinish s p r y.now).mapErr createFromErrorToCreateError)
          .createCanister = (y, .trapped) := by
    intro code back heq
    rw [heq]
    unfold createFailed
    split <;> rename_i heq <;> split at heq <;> first | (cases heq; rfl) | (cases heq) | skip
    all_goals exact ⟨.failedToCreate _ _, ⟨rfl, rfl⟩, rfl⟩
  have hf := createCanisterFinish_failed s p y.now
  cases r with
  | created c =>
    simp only [createCanisterFinish, Transaction.hash_eq_some]
    rfl
  | refunded amt => exact key _ _ (hf.1 amt)
  | refundFailed => exact key _ _ hf.2.1
  | callError code => exact key _ _ (hf.2.2 code)

open Toy in
example : Reachable demo ∧
    (demo.exec (wdr bob 5).msg).2 = .withdraw (.error (.insufficientFunds 1000)) ∧
    (demo.exec (.callback 1 (.cmc (.refunded 7) 7))).2 =
      .createCanister (.error (.failedToCreate (some 5) none)) :=
  ⟨demo_reachable, by decide +kernel, by decide +kernel⟩

/-! ## C51 -/

/-- **C51**: a withdrawal to a user principal, or of nothing, is refused without effect. -/
theorem C51_bad_receiver_refused [Crypto] {y y' : Sys} (h : Reachable y) {m : Msg} {reply : Reply}
    {r : Spec.BurnReq} {to : Principal} (hm : Spec.burnRequest m = some (r, some to))
    (hbad : Spec.IsUserPrincipal to ∨ r.amount = 0) (hx : y.exec m = (y', reply)) :
    y' = y ∧ ∃ e, Spec.burnError reply = some e := by
  rcases exec_burn h.inv hm with ⟨_, _, _, _, hv, _⟩ | ⟨e, h1, _, h2, _⟩
  · obtain ⟨h1, h2⟩ := hv
    rcases hbad with hb | hb
    · exact absurd hb h1
    · omega
  · rw [hx] at h1 h2; exact ⟨h1, e, h2⟩

/-- **C51**: other receivers and amounts are not refused for that reason. -/
theorem C51_only_bad_receiver [Crypto] {y y' : Sys} (h : Reachable y) {m : Msg} {reply : Reply}
    {r : Spec.BurnReq} {to : Option Principal} (hm : Spec.burnRequest m = some (r, to))
    (hx : y.exec m = (y', reply)) :
    (∀ p, Spec.burnError reply = some (.invalidReceiver p) → to = some p ∧ Spec.IsUserPrincipal p) ∧
    (Spec.burnError reply = some .zeroAmount → r.amount = 0 ∧ to ≠ none) := by
  have hreq : Spec.IsRequest m := by cases m <;> first | (simp [Spec.IsRequest, Spec.sender]; done) | cases hm
  have h3 := (refusal h hreq hx).2.2
  constructor
  · intro p he
    obtain ⟨r', to', hm', _, hr⟩ := h3 _ he
    rw [hm] at hm'; cases hm'; exact hr
  · intro he
    obtain ⟨r', to', hm', _, hr⟩ := h3 _ he
    rw [hm] at hm'; cases hm'; exact hr

open Toy in
example : let user : Principal := ⟨List.replicate 28 7 ++ [2], by decide⟩
    Reachable demo ∧ Spec.IsUserPrincipal user ∧
    (demo.exec (.withdraw alice ⟨none, user, none, 5⟩ none)).2 =
      .withdraw (.error (.invalidReceiver user)) ∧
    (demo.exec (wdr alice 0).msg).2 = .withdraw (.error (.genericError 100002)) :=
  ⟨demo_reachable, by unfold Spec.IsUserPrincipal; decide, by decide +kernel, by decide +kernel⟩

end CyclesLedger
