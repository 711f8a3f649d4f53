import Verif.Proof.Dedup
import Verif.Proof.Traps
import Verif.Props.Requests
import Verif.Props.TrapWitness
/-!
# What happens when an outgoing call is answered

C23, C24, C25, C28, C53.
-/
namespace CyclesLedger

/-! ## Outstanding calls -/

/-- `q` is the call that message `m` made in `y0`, after any later events, still
unanswered in `y` (at position `i` of the outstanding calls). -/
structure Spec.Awaiting [Crypto] (y0 : Sys) (m : Msg) (y : Sys) (i : Nat) (q : Pending) : Prop where
  start : Reachable y0
  sent : (y0.exec m).2 = .suspended
  later : ∃ es, y = (y0.exec m).1.run es
  here : y.pending[i]? = some q
  index : q.data.blockIndex = y0.ledger.blocks.length

/-- An outstanding call with an old block index has been outstanding all the time. -/
theorem run_pending_old [Crypto] {y : Sys} (hi : SInv y) (es : List Event) {q : Pending}
    (hq : q ∈ (y.run es).pending) (hlt : q.data.blockIndex < y.ledger.blocks.length) :
    q ∈ y.pending := by
  induction es generalizing y with
  | nil => exact hq
  | cons e es ih =>
    have hg := (step_grows hi e).2.2.length_le
    have h1 := ih (hi.step e) hq (by omega)
    rcases exec_pending (hi.tick e.dt) e.msg h1 with h2 | ⟨r, to, s1, p, hm, hs, rfl⟩
    · exact h2
    · obtain ⟨_, _, _, _, ⟨old, rfl, _⟩, _⟩ := hs
      exact absurd hlt (by simp [Sys.tick])

/-- What an outstanding call remembers is what the request said, and the expiry of the
allowance at that time. -/
theorem Spec.Awaiting.data [Crypto] {y0 y : Sys} {m : Msg} {i : Nat} {q : Pending}
    {r : Spec.BurnReq} {to : Option Principal} (h : Spec.Awaiting y0 m y i q)
    (hm : Spec.burnRequest m = some (r, to)) :
    Reachable y ∧ q.kind = Spec.kindOf m ∧ q.data.frm = r.frm ∧ q.data.spender = r.spender ∧
    q.data.amount = r.amount ∧
    (∀ sp, Spec.OnBehalf r.frm r.spender sp → ∃ a e, Spec.stored y0.ledger r.frm sp = some (a, e) ∧
      q.data.oldExpiresAt = if e = 0 then none else some e) := by
  obtain ⟨h0, hsent, ⟨es, rfl⟩, hhere, hidx⟩ := h
  have hr1 := h0.exec m
  refine ⟨hr1.run es, ?_⟩
  have hmem := List.mem_of_getElem? hhere
  rcases exec_burn h0.inv hm with ⟨s1, p, hs⟩ | ⟨e, he⟩
  · obtain ⟨he, _, _, _, ⟨old, rfl, hold⟩, _, ⟨_, h1⟩ | ⟨_, h1⟩⟩ := hs
    · have hlen : (y0.exec m).1.ledger.blocks.length = y0.ledger.blocks.length + 1 := by
        rw [h1]; simp only [CyclesLedger.sent]; rw [he.blocks]; simp
      have hq := run_pending_old hr1.inv es hmem (by rw [hlen, hidx]; omega)
      rw [h1] at hq
      simp only [CyclesLedger.sent, List.mem_append, List.mem_singleton] at hq
      rcases hq with hq | rfl
      · obtain ⟨b, hb, _⟩ := (h0.inv.pending q hq).block
        rw [hidx] at hb
        simp at hb
      · refine ⟨rfl, rfl, rfl, rfl, ?_⟩
        intro sp hb
        unfold ExpiryFrom at hold
        rw [onBehalf_iff.mp hb] at hold
        obtain ⟨a, e, hg, _, ho⟩ := hold
        refine ⟨a, e, hg, ?_⟩
        rw [ho]
        unfold oldExpiry
        by_cases h0 : e = 0
        · simp [h0]
        · simp [h0, show 0 < e by omega]
    · rcases h1 with ⟨h1, _⟩ | ⟨_, _, _, _, _, _, _, _, h1, _⟩
      · rw [h1] at hsent; cases hsent
      · exact absurd hsent h1
  · exact absurd hsent he.2.2.2.2.1

theorem run_append [Crypto] (y : Sys) (es fs : List Event) : y.run (es ++ fs) = (y.run es).run fs := by
  induction es generalizing y with
  | nil => rfl
  | cons e es ih => exact ih _

open Toy in
/-- A call in the middle of a history. -/
theorem Toy.awaiting (pre : List Event) (e : Event) (post : List Event) (i : Nat)
    (hs : ((start.run pre).step e).2 = .suspended)
    (hi : (start.run (pre ++ e :: post)).pending[i]?.map (fun q => q.data.blockIndex) =
      some (start.run pre).ledger.blocks.length) :
    ∃ q, Spec.Awaiting ((start.run pre).tick e.dt) e.msg (start.run (pre ++ e :: post)) i q := by
  obtain ⟨q, hq, hidx⟩ := Option.map_eq_some_iff.mp hi
  exact ⟨q, (run_reachable _).tick _, hs, ⟨post, run_append _ _ _⟩, hq, hidx⟩

open Toy in
/-- The two outstanding calls of the example, the first after one more message. -/
theorem Toy.demo_awaiting :
    (∃ q, Spec.Awaiting ((start.run (events.take 4)).tick 1) (wdrFrom bob alice 300000000).msg demo 0 q) ∧
    (∃ q, Spec.Awaiting ((start.run (events.take 5)).tick 1) (create alice 500000000 (some 1000000001)).msg demo 1 q) :=
  ⟨Toy.awaiting (events.take 4) (wdrFrom bob alice 300000000) (events.drop 5) 0 (by decide +kernel)
      (by decide +kernel),
    Toy.awaiting (events.take 5) (create alice 500000000 (some 1000000001)) [] 1 (by decide +kernel)
      (by decide +kernel)⟩

/-! ## C25 -/

open Toy in
theorem trap_of_facts {y : Sys} (hr : Reachable y) (hf : trapFacts y = true) :
    ∃ (q : Pending) (ans : Answer), y.pending = [q] ∧
      Spec.Fits q ans ∧ Spec.returned q ans = some 300000000 ∧
      icrc1TotalSupply y.ledger + 300000000 < 2 ^ 128 ∧
      (y.exec (.callback 0 ans)).2 = .trapped ∧
      (y.exec (.callback 0 ans)).1.ledger = y.ledger ∧
      (y.exec (.callback 0 ans)).1.pending = [] := by
  unfold Toy.trapFacts at hf
  simp only [Bool.and_eq_true, decide_eq_true_eq] at hf
  obtain ⟨⟨⟨h1, h2⟩, h3⟩, h4⟩ := hf
  cases hp : y.pending with
  | nil => rw [hp] at h2; cases h2
  | cons q l =>
    rw [hp] at h2
    cases l with
    | cons _ _ => cases h2
    | nil =>
      simp only [decide_eq_true_eq] at h2
      have hq : y.pending[0]? = some q := by rw [hp]; rfl
      have hfit : Spec.Fits q (.depositCycles (some (.rejected (some .canisterReject)))) := Or.inr h2.1
      have hret : Spec.returned q (.depositCycles (some (.rejected (some .canisterReject)))) = some 300000000 := by
        rw [← h2.2]; rfl
      refine ⟨q, .depositCycles (some (.rejected (some .canisterReject))), rfl, hfit, hret, ?_, h1, ?_⟩
      · unfold icrc1TotalSupply; omega
      rcases exec_callback_failed hr.inv hq hfit hret with ⟨h, _⟩ | ⟨_, _, _, _, _, _, _, h, _⟩
      · rw [h]
        refine ⟨rfl, ?_⟩
        simp only [answered, hp]
        rfl
      · exact absurd h1 h

/-- **C25** as stated is false: in some reachable system, a `withdraw_from` of 300000000
cycles failed, and processing that traps; no cycles are credited and the call is gone, so
the refund is lost.  The supply is far from its limit. -/
theorem C25_refuted :
    ∃ (_ : Crypto) (y : Sys) (q : Pending) (ans : Answer), Reachable y ∧ y.pending = [q] ∧
      Spec.Fits q ans ∧ Spec.returned q ans = some 300000000 ∧
      icrc1TotalSupply y.ledger + 300000000 < 2 ^ 128 ∧
      (y.exec (.callback 0 ans)).2 = .trapped ∧
      (y.exec (.callback 0 ans)).1.ledger = y.ledger ∧
      (y.exec (.callback 0 ans)).1.pending = [] :=
  have ⟨q, ans, h⟩ := trap_of_facts Toy.trapSystem_reachable Toy.trapSystem_facts
  ⟨Toy.crypto, Toy.trapSystem, q, ans, Toy.trapSystem_reachable, h⟩

/-- **C25**, exactly what can make it trap, besides a supply beyond 128 bits: an allowance
has to be refunded, and either the stored allowance expires at this very nanosecond and two
hundred other expired approvals are in the way of pruning it, or the clock is at its last
value, or two transactions have the same hash. -/
theorem C25_trap_only_if_partial [Crypto] {y : Sys} (h : Reachable y) {i : Nat} {q : Pending}
    {ans : Answer} (hq : y.pending[i]? = some q) (hf : Spec.Fits q ans)
    (htrap : (y.exec (.callback i ans)).2 = .trapped) :
    ∃ back, Spec.returned q ans = some back ∧
      (2 ^ 128 ≤ icrc1TotalSupply y.ledger + (back - 100000000) ∨
       ∃ sp, Spec.RefundsAllowance y.now q.data back sp ∧
        ((∃ a, Spec.stored y.ledger q.data.frm sp = some (a, y.now) ∧ 0 < y.now ∧
            Spec.Backlog y.ledger y.now q.data.frm sp) ∨
         (y.now = 18446744073709551615 ∧ q.data.oldExpiresAt = none) ∨
         Spec.Collision (Spec.allowanceRefund y.ledger y.now q.data sp back ::
           Spec.refundTransaction q.kind q.data back :: y.ledger.blocks.map Block.transaction))) := by
  cases hr : Spec.returned q ans with
  | none =>
    have := (exec_callback_ok hq hf hr).2.1
    rw [htrap] at this; cases this
  | some back =>
    rcases exec_callback_failed h.inv hq hf hr with ⟨_, h1⟩ | ⟨_, _, _, _, _, _, _, h1, _⟩
    · exact ⟨back, rfl, h1⟩
    · exact absurd htrap h1

/-- **C25**, exactly when it traps: leaving hash collisions aside, precisely in the cases of
`C25_trap_only_if_partial`. -/
theorem C25_trap_iff_partial [Crypto] {y : Sys} (h : Reachable y) {i : Nat} {q : Pending}
    {ans : Answer} (hq : y.pending[i]? = some q) (hf : Spec.Fits q ans)
    (hc : ∀ back sp, Spec.returned q ans = some back → Spec.RefundsAllowance y.now q.data back sp →
      ¬Spec.Collision (Spec.allowanceRefund y.ledger y.now q.data sp back ::
        Spec.refundTransaction q.kind q.data back :: y.ledger.blocks.map Block.transaction)) :
    (y.exec (.callback i ans)).2 = .trapped ↔
    ∃ back, Spec.returned q ans = some back ∧
      (2 ^ 128 ≤ icrc1TotalSupply y.ledger + (back - 100000000) ∨
       ∃ sp, Spec.RefundsAllowance y.now q.data back sp ∧
        ((∃ a, Spec.stored y.ledger q.data.frm sp = some (a, y.now) ∧ 0 < y.now ∧
            Spec.Backlog y.ledger y.now q.data.frm sp) ∨
         (y.now = 18446744073709551615 ∧ q.data.oldExpiresAt = none))) := by
  constructor
  · intro ht
    obtain ⟨back, hr, h1 | ⟨sp, hra, h1 | h1 | h1⟩⟩ := C25_trap_only_if_partial h hq hf ht
    · exact ⟨back, hr, Or.inl h1⟩
    · exact ⟨back, hr, Or.inr ⟨sp, hra, Or.inl h1⟩⟩
    · exact ⟨back, hr, Or.inr ⟨sp, hra, Or.inr h1⟩⟩
    · exact absurd h1 (hc back sp hr hra)
  · rintro ⟨back, hr, ht⟩
    exact exec_callback_traps h.inv hq hf hr ht

/-- **C25** holds for `withdraw` and `create_canister`: the callback of a call made for
the account's owner never traps. -/
theorem C25_own_account [Crypto] {y : Sys} (h : Reachable y) {i : Nat} {q : Pending}
    {ans : Answer} (hq : y.pending[i]? = some q) (hk : q.kind = .withdraw ∨ q.kind = .createCanister)
    (hfits : ∀ back, Spec.returned q ans = some back →
      icrc1TotalSupply y.ledger + (back - 100000000) < 2 ^ 128) :
    (y.exec (.callback i ans)).2 ≠ .trapped := by
  intro htrap
  by_cases hf : Spec.Fits q ans
  · obtain ⟨back, hr, h1 | ⟨sp, hra, _⟩⟩ := C25_trap_only_if_partial h hq hf htrap
    · have := hfits back hr; omega
    · have := (h.callOk q (List.mem_of_getElem? hq)).own hk
      have h2 := hra.1.1
      rw [this] at h2; cases h2
  · have := exec_callback_none (y := y) (i := i) (ans := ans)
      (fun p hp => by rw [hq] at hp; cases hp; exact hf)
    rw [this] at htrap; cases htrap

open Toy in
/-- The hypotheses of `C25_own_account` hold for the outstanding `create_canister` of the
example; those of `C25_trap_only_if_partial` in the system of `C25_refuted`. -/
example : Reachable demo ∧ ∃ q, demo.pending[1]? = some q ∧ q.kind = .createCanister ∧
    ∀ back, Spec.returned q (.cmc (.callError (.rejected (some .canisterReject))) 500000000) = some back →
      icrc1TotalSupply demo.ledger + (back - 100000000) < 2 ^ 128 := by
  refine ⟨demo_reachable, ?_⟩
  obtain ⟨_, q, hq⟩ := demo_awaiting
  obtain ⟨_, h1, _, _, h2, _⟩ := hq.data rfl
  refine ⟨q, hq.here, h1, ?_⟩
  intro back hb
  cases hb
  rw [h2]
  decide +kernel

namespace Toy

/-- A `withdraw_from` awaiting its answer at the last moment of the clock. -/
def lastMoment : Sys := (start.run [dep alice 1000000000000, appr alice bob 900000000,
  wdrFrom bob alice 300000000]).tick 18446744073709551615

/-- That call. -/
def lastCall : Pending :=
  ⟨.withdrawFrom, ⟨acc alice, some (acc bob), 300000000, 2, none,
    ⟨.burn (acc alice) (some (acc bob)) 300000000, none, some (encodeWithdrawMemo target)⟩⟩,
    depositCyclesCall target 300000000⟩

end Toy

open Toy in
/-- A case of `C25_trap_iff_partial`, with both sides true. -/
example : Reachable lastMoment ∧ lastMoment.pending[0]? = some lastCall ∧
    Spec.Fits lastCall (.depositCycles (some (.rejected none))) ∧
    (∀ back sp, Spec.returned lastCall (.depositCycles (some (.rejected none))) = some back →
      Spec.RefundsAllowance lastMoment.now lastCall.data back sp →
      ¬Spec.Collision (Spec.allowanceRefund lastMoment.ledger lastMoment.now lastCall.data sp back ::
        Spec.refundTransaction lastCall.kind lastCall.data back ::
          lastMoment.ledger.blocks.map Block.transaction)) ∧
    (lastMoment.exec (.callback 0 (.depositCycles (some (.rejected none))))).2 = .trapped ∧
    lastMoment.now = 18446744073709551615 ∧ lastCall.data.oldExpiresAt = none := by
  refine ⟨(run_reachable _).tick _, by decide +kernel, Or.inr rfl, ?_, by decide +kernel,
    by decide +kernel, rfl⟩
  intro back sp hb hr
  cases hb
  obtain rfl : sp = acc bob := by
    have := hr.1.1
    exact (Option.some.inj this).symm
  rintro ⟨a, ha, b, hb, hne, heq⟩
  have key : ∀ a ∈ Spec.allowanceRefund lastMoment.ledger lastMoment.now lastCall.data (acc bob)
        300000000 :: Spec.refundTransaction lastCall.kind lastCall.data 300000000 ::
          lastMoment.ledger.blocks.map Block.transaction,
      ∀ b ∈ Spec.allowanceRefund lastMoment.ledger lastMoment.now lastCall.data (acc bob)
        300000000 :: Spec.refundTransaction lastCall.kind lastCall.data 300000000 ::
          lastMoment.ledger.blocks.map Block.transaction, a.hash = b.hash → a = b := by
    decide +kernel
  exact hne (key a ha b hb heq)

/-! ## C23, C28 -/

/-- A call that fails, in all its effects but those on allowances. -/
theorem refund_effect [Crypto] {y0 y y' : Sys} {m : Msg} {i : Nat} {q : Pending} {r : Spec.BurnReq}
    {to : Option Principal} {ans : Answer} {reply : Reply} {back : Nat}
    (h : Spec.Awaiting y0 m y i q) (hm : Spec.burnRequest m = some (r, to)) (hf : Spec.Fits q ans)
    (hr : Spec.returned q ans = some back) (hx : y.exec (.callback i ans) = (y', reply))
    (hnt : reply ≠ .trapped) :
    ∃ fb ab, Refunded y.ledger y'.ledger y.now (Spec.kindOf m) q.data back fb ab ∧
      Spec.failedBlocks reply = some (reported (Spec.kindOf m) y0.ledger.blocks.length fb ab) ∧
      y'.pending = y.pending.eraseIdx i := by
  obtain ⟨hry, hk, _⟩ := h.data hm
  rcases exec_callback_failed hry.inv h.here hf hr with ⟨h1, _⟩ | ⟨fb, ab, s', h1, h2, _, _, _, _, h3⟩
  · rw [hx] at h1; cases h1; exact absurd rfl hnt
  · rw [hx] at h1 h3
    simp only at h1 h3
    subst h1
    rw [hk] at h2 h3
    rw [h.index] at h3
    exact ⟨fb, ab, h2, h3, rfl⟩

/-- A call that fails, made for the owner of the account: the refund. -/
theorem refund_own [Crypto] {y0 y y' : Sys} {m : Msg} {i : Nat} {q : Pending} {r : Spec.BurnReq}
    {to : Option Principal} {ans : Answer} {reply : Reply} {back : Nat}
    (h : Spec.Awaiting y0 m y i q) (hm : Spec.burnRequest m = some (r, to)) (hs : r.spender = none)
    (hf : Spec.Fits q ans) (hr : Spec.returned q ans = some back)
    (hx : y.exec (.callback i ans) = (y', reply)) (hnt : reply ≠ .trapped) :
    (∀ a : Account, icrc1BalanceOf y'.ledger a = icrc1BalanceOf y.ledger a +
      (if Spec.SameAccount a r.frm then back - 100000000 else 0)) ∧
    (∀ a sp t, y.now ≤ t → Spec.spendable y'.ledger a sp t = Spec.spendable y.ledger a sp t) ∧
    (back ≤ 100000000 → y'.ledger = y.ledger ∧
      Spec.failedBlocks reply = some (reported (Spec.kindOf m) y0.ledger.blocks.length none none)) ∧
    (100000000 < back → Spec.failedBlocks reply =
        some (reported (Spec.kindOf m) y0.ledger.blocks.length (some y.ledger.blocks.length) none) ∧
      ∃ b, y'.ledger.blocks = y.ledger.blocks ++ [b] ∧ b.timestamp = y.now ∧
        b.transaction = ⟨.mint r.frm (back - 100000000) 0, none,
          some (Spec.refundMemo (Spec.kindOf m))⟩) := by
  obtain ⟨fb, ab, h1, h2, _⟩ := refund_effect h hm hf hr hx hnt
  obtain ⟨_, _, hfrm, hsp, _⟩ := h.data hm
  rcases h1 with ⟨hle, rfl, rfl, h1⟩ | ⟨hgt, rfl, rfl, he, _⟩ | ⟨_, _, _, sp, _, hra, _⟩
  · rw [h1]
    refine ⟨?_, fun _ _ _ _ => rfl, fun _ => ⟨rfl, h2⟩, fun h => by omega⟩
    intro a; split <;> omega
  · rw [← hfrm]
    refine ⟨he.mint.1, fun a sp t ht => he.mint.2.2 _ t ht, fun h => by omega, fun _ => ⟨h2, _, he.blocks, rfl, rfl⟩⟩
  · have := hra.1.1
    rw [hsp, hs] at this; cases this

/-- **C23**: when the `deposit_cycles` call of a `withdraw` fails, however much later, the
account gets `amount` less the fee, if that is positive, by one mint block of that time;
no allowance changes; the answer names the block. -/
theorem C23_failed_withdraw [Crypto] {y0 y y' : Sys} {caller : Principal} {args : WithdrawArgs}
    {sync : Option CallError} {i : Nat} {q : Pending} {code : CallError} {reply : Reply}
    (h : Spec.Awaiting y0 (.withdraw caller args sync) y i q)
    (hsupply : icrc1TotalSupply y.ledger + args.amount < 2 ^ 128)
    (hx : y.exec (.callback i (.depositCycles (some code))) = (y', reply)) :
    (∀ a : Account, icrc1BalanceOf y'.ledger a = icrc1BalanceOf y.ledger a +
      (if Spec.SameAccount a ⟨caller, args.fromSubaccount⟩ then args.amount - 100000000 else 0)) ∧
    (∀ a sp t, y.now ≤ t → Spec.spendable y'.ledger a sp t = Spec.spendable y.ledger a sp t) ∧
    (args.amount ≤ 100000000 → y'.ledger = y.ledger ∧
      Spec.failedBlocks reply = some (none, none, none)) ∧
    (100000000 < args.amount →
      Spec.failedBlocks reply = some (none, some y.ledger.blocks.length, none) ∧
      ∃ b, y'.ledger.blocks = y.ledger.blocks ++ [b] ∧ b.timestamp = y.now ∧
        b.transaction = ⟨.mint ⟨caller, args.fromSubaccount⟩ (args.amount - 100000000) 0, none,
          some (List.replicate 32 255)⟩) ∧
    y'.pending = y.pending.eraseIdx i := by
  obtain ⟨hry, hk, _, _, ha, _⟩ := h.data rfl
  simp only at ha
  have hk : q.kind = .withdraw := hk
  have hf : Spec.Fits q (.depositCycles (some code)) := Or.inl hk
  have hr : Spec.returned q (.depositCycles (some code)) = some args.amount := by rw [← ha]; rfl
  have hnt : reply ≠ .trapped := by
    have := C25_own_account hry (ans := .depositCycles (some code)) h.here (Or.inl hk) (by
      intro back hb
      rw [hr] at hb; cases hb; omega)
    rw [hx] at this; exact this
  obtain ⟨_, _, _, _, hp⟩ := refund_effect h rfl hf hr hx hnt
  obtain ⟨h1, h2, h3, h4⟩ := refund_own h rfl rfl hf hr hx hnt
  exact ⟨h1, h2, h3, h4, hp⟩

/-- **C23**, success: nothing is credited; the ledger does not change. -/
theorem C23_successful_withdraw [Crypto] {y0 y y' : Sys} {m : Msg} {i : Nat} {q : Pending}
    {reply : Reply} (h : Spec.Awaiting y0 m y i q)
    (hm : (∃ c a s, m = .withdraw c a s) ∨ ∃ c a s, m = .withdrawFrom c a s)
    (hx : y.exec (.callback i (.depositCycles none)) = (y', reply)) :
    y'.ledger = y.ledger ∧ Spec.okIndex reply = some y0.ledger.blocks.length := by
  have hk : q.kind = .withdraw ∨ q.kind = .withdrawFrom := by
    rcases hm with ⟨c, a, s, rfl⟩ | ⟨c, a, s, rfl⟩
    · exact Or.inl (h.data rfl).2.1
    · exact Or.inr (h.data rfl).2.1
  have hok := exec_callback_ok (ans := .depositCycles none) h.here hk rfl
  rw [hx, h.index] at hok
  refine ⟨?_, hok.2.1⟩
  have := hok.1
  simp only at this
  rw [this]; rfl

open Toy in
/-- An outstanding `withdraw` of bob's, after more has happened, with room in the supply. -/
example : ∃ y0 y q, Spec.Awaiting y0 (.withdraw alice ⟨none, target, none, 250000000⟩ none) y 2 q ∧
    icrc1TotalSupply y.ledger + 250000000 < 2 ^ 128 ∧
    (icrc1BalanceOf y.ledger (acc alice) : Int) = 998149993993 ∧
    icrc1BalanceOf (y.exec (.callback 2 (.depositCycles (some (.rejected (some .canisterReject)))))).1.ledger
      (acc alice) = 998299993993 := by
  obtain ⟨q, hq⟩ := Toy.awaiting events (wdr alice 250000000) [xfer alice bob 7] 2 (by decide +kernel)
    (by decide +kernel)
  exact ⟨_, _, q, hq, by decide +kernel, by decide +kernel, by decide +kernel⟩

/-- What the CMC returned of the cycles of a `create_canister` call: what it says it
refunded; nothing if it could not refund; everything if the call itself failed. -/
def Spec.cmcReturned (amount : Nat) : CmcResult → Option Nat
  | .created _ => none
  | .refunded x => some x
  | .refundFailed => some 0
  | .callError _ => some amount

/-- **C28** for `create_canister`: the account gets what the CMC returned less the fee,
if that is positive, by one mint block. -/
theorem C28_failed_create [Crypto] {y0 y y' : Sys} {caller : Principal} {args : CreateCanisterArgs}
    {sync : Option CallError} {i : Nat} {q : Pending} {result : CmcResult} {refund back : Nat}
    {reply : Reply} (h : Spec.Awaiting y0 (.createCanister caller args sync) y i q)
    (hback : Spec.cmcReturned args.amount result = some back)
    (hsupply : icrc1TotalSupply y.ledger + back < 2 ^ 128)
    (hx : y.exec (.callback i (.cmc result refund)) = (y', reply)) :
    (∀ a : Account, icrc1BalanceOf y'.ledger a = icrc1BalanceOf y.ledger a +
      (if Spec.SameAccount a ⟨caller, args.fromSubaccount⟩ then back - 100000000 else 0)) ∧
    (∀ a sp t, y.now ≤ t → Spec.spendable y'.ledger a sp t = Spec.spendable y.ledger a sp t) ∧
    (back ≤ 100000000 → y'.ledger = y.ledger ∧
      Spec.failedBlocks reply = some (some y0.ledger.blocks.length, none, none)) ∧
    (100000000 < back → Spec.failedBlocks reply =
        some (some y0.ledger.blocks.length, some y.ledger.blocks.length, none) ∧
      ∃ b, y'.ledger.blocks = y.ledger.blocks ++ [b] ∧ b.timestamp = y.now ∧
        b.transaction = ⟨.mint ⟨caller, args.fromSubaccount⟩ (back - 100000000) 0, none,
          some (List.replicate 32 253)⟩) ∧
    y'.pending = y.pending.eraseIdx i := by
  obtain ⟨hry, hk, _, _, ha, _⟩ := h.data rfl
  simp only at ha
  have hk : q.kind = .createCanister := hk
  have hf : Spec.Fits q (.cmc result refund) := Or.inl hk
  have hr : Spec.returned q (.cmc result refund) = some back := by
    cases result <;> cases hback <;> simp only [Spec.returned] <;> rw [ha]
  have hnt : reply ≠ .trapped := by
    have := C25_own_account hry (ans := .cmc result refund) h.here (Or.inr hk) (by
      intro back' hb
      rw [hr] at hb; cases hb; omega)
    rw [hx] at this; exact this
  obtain ⟨_, _, _, _, hp⟩ := refund_effect h rfl hf hr hx hnt
  obtain ⟨h1, h2, h3, h4⟩ := refund_own h rfl rfl hf hr hx hnt
  exact ⟨h1, h2, h3, h4, hp⟩

/-- **C28** for `create_canister_from`: the same mint block; then possibly the block that
refunds the allowance (see C24), for one more fee. -/
theorem C28_failed_create_from [Crypto] {y0 y y' : Sys} {caller : Principal}
    {args : CreateCanisterFromArgs} {sync : Option CallError} {i : Nat} {q : Pending}
    {result : CmcResult} {refund back : Nat} {reply : Reply}
    (h : Spec.Awaiting y0 (.createCanisterFrom caller args sync) y i q)
    (hback : Spec.cmcReturned args.amount result = some back)
    (hx : y.exec (.callback i (.cmc result refund)) = (y', reply)) (hnt : reply ≠ .trapped) :
    (back ≤ 100000000 → y'.ledger = y.ledger) ∧
    (100000000 < back → ∃ b rest, y'.ledger.blocks = y.ledger.blocks ++ b :: rest ∧
      b.timestamp = y.now ∧ b.transaction = ⟨.mint args.frm (back - 100000000) 0, none,
          some (List.replicate 32 253)⟩ ∧
      (∀ b' ∈ rest, ∃ sp x e, b'.transaction.operation = .approve args.frm sp x none e none) ∧
      rest.length ≤ 1 ∧
      ∀ a : Account, icrc1BalanceOf y'.ledger a +
          (if Spec.SameAccount a args.frm then 100000000 * rest.length else 0) =
        icrc1BalanceOf y.ledger a +
          (if Spec.SameAccount a args.frm then back - 100000000 else 0)) := by
  obtain ⟨hry, hk, hfrm, _, ha, _⟩ := h.data rfl
  simp only at ha hfrm
  have hk : q.kind = .createCanisterFrom := hk
  have hf : Spec.Fits q (.cmc result refund) := Or.inr hk
  have hr : Spec.returned q (.cmc result refund) = some back := by
    cases result <;> cases hback <;> simp only [Spec.returned] <;> rw [ha]
  obtain ⟨fb, ab, h1, h2, _⟩ := refund_effect h rfl hf hr hx hnt
  obtain ⟨x, _, _, _, hbal, _⟩ := h1.effect
  rcases h1 with ⟨hle, rfl, rfl, h1⟩ | ⟨hgt, rfl, rfl, he, _⟩ | ⟨hgt, _, _, sp, s2, hra, he, he2⟩
  · exact ⟨fun _ => h1, fun h => by omega⟩
  · refine ⟨fun h => by omega, fun _ => ⟨_, [], he.blocks, rfl, ?_, (fun b' hb => nomatch hb), by simp, ?_⟩⟩
    · simp only [mkBlock, Spec.refundTransaction]; rw [hfrm]; rfl
    · intro a
      have := he.mint.1 a
      rw [hfrm] at this
      simp only [icrc1BalanceOf, List.length_nil, Nat.mul_zero, ite_self]
      exact this
  · refine ⟨fun h => by omega, fun _ => ⟨mkBlock y.ledger (Spec.refundTransaction .createCanisterFrom q.data back) y.now,
      [mkBlock s2 (Spec.allowanceRefund y.ledger y.now q.data sp back) y.now], ?_, rfl, ?_, ?_, by simp, ?_⟩⟩
    · rw [he2.blocks, he.blocks]; simp; rfl
    · simp only [mkBlock, Spec.refundTransaction]; rw [hfrm]; rfl
    · intro b' hb'
      rw [List.mem_singleton] at hb'
      subst hb'
      have hop : (mkBlock s2 (Spec.allowanceRefund y.ledger y.now q.data sp back)
        y.now).transaction.operation = Operation.approve q.data.frm sp _ none _ none := rfl
      rw [hfrm] at hop
      exact ⟨sp, _, _, hop⟩
    · intro a
      have g1 := he.mint.1 a
      have g2 := he2.approve.1 a
      rw [hfrm] at g1 g2
      have := hra.2.1
      simp only [icrc1BalanceOf, List.length_singleton, Nat.mul_one]
      split at g1 <;> split at g2 <;> first | contradiction | skip
      all_goals simp only [*, if_true, if_false]; omega

/-- **C28**, success: nothing is credited, no block is added, no allowance changes; the
answer names the new canister. -/
theorem C28_successful_create [Crypto] {y0 y y' : Sys} {m : Msg} {i : Nat} {q : Pending}
    {c : Principal} {refund : Nat} {reply : Reply} (h : Spec.Awaiting y0 m y i q)
    (hm : (∃ c a s, m = .createCanister c a s) ∨ ∃ c a s, m = .createCanisterFrom c a s)
    (hx : y.exec (.callback i (.cmc (.created c) refund)) = (y', reply)) :
    (∀ a, icrc1BalanceOf y'.ledger a = icrc1BalanceOf y.ledger a) ∧
    (∀ a sp t, Spec.spendable y'.ledger a sp t = Spec.spendable y.ledger a sp t) ∧
    y'.ledger.blocks = y.ledger.blocks ∧
    (reply = .createCanister (.ok (y0.ledger.blocks.length, c)) ∨
      reply = .createCanisterFrom (.ok (y0.ledger.blocks.length, c))) := by
  have hk : q.kind = .createCanister ∨ q.kind = .createCanisterFrom := by
    rcases hm with ⟨c, a, s, rfl⟩ | ⟨c, a, s, rfl⟩
    · exact Or.inl (h.data rfl).2.1
    · exact Or.inr (h.data rfl).2.1
  have hok := exec_callback_ok (ans := .cmc (.created c) refund) h.here hk rfl
  rw [hx, h.index] at hok
  obtain ⟨h1, _, h3⟩ := hok
  have h3 := h3 c refund rfl
  simp only at h1
  rw [h1]
  have hn : ∀ s p, (noteCanister s p (.cmc (.created c) refund)).balances = s.balances ∧
      (noteCanister s p (.cmc (.created c) refund)).approvals = s.approvals ∧
      (noteCanister s p (.cmc (.created c) refund)).blocks = s.blocks := by
    intro s p
    simp only [noteCanister]
    split <;> exact ⟨rfl, rfl, rfl⟩
  obtain ⟨e1, e2, e3⟩ := hn y.ledger q.data
  refine ⟨?_, ?_, e3, h3⟩
  · intro a; simp only [icrc1BalanceOf, balanceOf, e1]
  · intro a sp t; simp only [Spec.spendable, Spec.stored, e2]

open Toy in
/-- The outstanding creation of the example: an error returning 400000000 cycles. -/
example : ∃ y0 m q, Spec.Awaiting y0 m demo 1 q ∧ (∃ c a s, m = .createCanister c a s) ∧
    icrc1BalanceOf demo.ledger (acc alice) = 998599994000 ∧
    icrc1BalanceOf (demo.exec (.callback 1 (.cmc (.refunded 400000000) 400000000))).1.ledger
      (acc alice) = 998899994000 := by
  obtain ⟨_, q, hq⟩ := demo_awaiting
  exact ⟨_, _, q, hq, ⟨_, _, _, rfl⟩, by decide +kernel, by decide +kernel⟩

/-! ## C24 -/

/-- The allowance is refunded as well: more than two fees came back, and the allowance
that was used, as it was when the request was made in `y0`, has not expired by `now`. -/
def Spec.AllowanceBack (y0 : Sys) (now : Nat) (frm sp : Account) (back : Nat) : Prop :=
  200000000 < back ∧ ∃ a e, Spec.stored y0.ledger frm sp = some (a, e) ∧ (e = 0 ∨ now < e)

theorem Spec.Awaiting.refunds_iff [Crypto] {y0 y : Sys} {m : Msg} {i : Nat} {q : Pending}
    {r : Spec.BurnReq} {to : Option Principal} (h : Spec.Awaiting y0 m y i q)
    (hm : Spec.burnRequest m = some (r, to)) {sp : Account} (hb : Spec.OnBehalf r.frm r.spender sp)
    {now back : Nat} :
    Spec.RefundsAllowance now q.data back sp ↔ Spec.AllowanceBack y0 now r.frm sp back := by
  obtain ⟨_, _, h1, h2, _, h3⟩ := h.data hm
  obtain ⟨a, e, hs, ho⟩ := h3 sp hb
  unfold Spec.RefundsAllowance Spec.AllowanceBack
  rw [h1, h2, ho, hs]
  constructor
  · rintro ⟨_, hgt, hex⟩
    refine ⟨hgt, a, e, rfl, ?_⟩
    by_cases h0 : e = 0
    · exact Or.inl h0
    · exact Or.inr (hex e (by simp [h0]))
  · rintro ⟨hgt, a', e', heq, hex⟩
    cases heq
    refine ⟨hb, hgt, ?_⟩
    intro e'' he''
    split at he''
    · cases he''
    · cases he''; omega

/-- **C24**: a failed call made on an allowance.  If more than two fees came back and the
allowance used has not expired since, the spender's allowance becomes what it could
spend, plus what came back less two fees (at most 2^128 - 1), with the expiry of the
current allowance if that is running and of the original one otherwise; this is recorded by one
approve block, for one fee.  No other allowance changes. -/
theorem C24_allowance_refunded [Crypto] {y0 y y' : Sys} {m : Msg} {i : Nat} {q : Pending}
    {r : Spec.BurnReq} {to : Option Principal} {sp : Account} {ans : Answer} {reply : Reply}
    {back : Nat} (h : Spec.Awaiting y0 m y i q) (hm : Spec.burnRequest m = some (r, to))
    (hb : Spec.OnBehalf r.frm r.spender sp) (hf : Spec.Fits q ans)
    (hr : Spec.returned q ans = some back) (hx : y.exec (.callback i ans) = (y', reply))
    (hnt : reply ≠ .trapped) (hback : Spec.AllowanceBack y0 y.now r.frm sp back) :
    Spec.spendable y'.ledger r.frm sp y.now =
      min (Spec.spendable y.ledger r.frm sp y.now + (back - 200000000)) (2 ^ 128 - 1) ∧
    (∃ e', Spec.stored y'.ledger r.frm sp = some (Spec.spendable y'.ledger r.frm sp y.now, e') ∧
      ((∃ x, Spec.stored y.ledger r.frm sp = some (x, e') ∧ y.now < e') ∨
       ((∀ x e, Spec.stored y.ledger r.frm sp = some (x, e) → e ≤ y.now) ∧
        ∃ x, Spec.stored y0.ledger r.frm sp = some (x, e')))) ∧
    (∀ a b t, y.now ≤ t → ¬(Spec.SameAccount a r.frm ∧ Spec.SameAccount b sp) →
      Spec.spendable y'.ledger a b t = Spec.spendable y.ledger a b t) ∧
    (∃ b1 b2, y'.ledger.blocks = y.ledger.blocks ++ [b1, b2] ∧
      b1.transaction.operation = .mint r.frm (back - 100000000) 0 ∧
      (∃ e, b2.transaction.operation =
        .approve r.frm sp (Spec.spendable y'.ledger r.frm sp y.now) none e none) ∧
      b1.timestamp = y.now ∧ b2.timestamp = y.now) ∧
    (∀ a : Account, icrc1BalanceOf y'.ledger a = icrc1BalanceOf y.ledger a +
      (if Spec.SameAccount a r.frm then back - 200000000 else 0)) := by
  obtain ⟨fb, ab, h1, _, _⟩ := refund_effect h hm hf hr hx hnt
  obtain ⟨_, _, hfrm, hsp, _, hold⟩ := h.data hm
  have hra0 := (h.refunds_iff hm hb).mpr hback
  rcases h1 with ⟨hle, _⟩ | ⟨_, _, _, _, hno⟩ | ⟨hgt, _, _, sp', s2, hra, he, he2⟩
  · have := hback.1; omega
  · exact absurd hra0 (hno sp)
  have hsp' : sp' = sp := by
    have g1 := hra.1.1
    have g2 := hra0.1.1
    rw [g1] at g2; cases g2; rfl
  subst hsp'
  obtain ⟨ha1, ha2⟩ := he2.approving
  have hb2 := hra.2.1
  rw [hfrm] at ha1 ha2
  obtain ⟨a0, e0, hs0, ho0⟩ := hold sp' hb
  generalize hX : min (back - 200000000 + Spec.spendable y.ledger r.frm sp' y.now) (2 ^ 128 - 1) = X at ha1
  have hXpos : X ≠ 0 := by omega
  rw [if_neg hXpos] at ha1
  -- the expiry
  have hexp : ∃ e', Spec.stored y'.ledger r.frm sp' = some (X, e') ∧ (e' = 0 ∨ y.now < e') ∧
      ((∃ x, Spec.stored y.ledger r.frm sp' = some (x, e') ∧ y.now < e') ∨
       ((∀ x e, Spec.stored y.ledger r.frm sp' = some (x, e) → e ≤ y.now) ∧
        ∃ x, Spec.stored y0.ledger r.frm sp' = some (x, e'))) := by
    refine ⟨_, ha1, ?_⟩
    have horig : (q.data.oldExpiresAt.getD 0) = e0 ∧ (e0 = 0 ∨ y.now < e0) := by
      obtain ⟨a1, e1, hs1, hl1⟩ := hback.2
      rw [hs0] at hs1; cases hs1
      rw [ho0]
      by_cases h0 : e0 = 0 <;> simp [h0]
      simpa [h0] using hl1
    cases hcur : Spec.stored y.ledger r.frm sp' with
    | none =>
      simp only
      refine ⟨by rw [horig.1]; exact horig.2, Or.inr ⟨(fun x e h => nomatch h), a0, ?_⟩⟩
      rw [horig.1, hs0]
    | some v =>
      obtain ⟨x, e⟩ := v
      simp only
      by_cases hlt : y.now < e
      · rw [if_pos hlt]
        exact ⟨Or.inr hlt, Or.inl ⟨x, rfl, hlt⟩⟩
      · rw [if_neg hlt]
        refine ⟨by rw [horig.1]; exact horig.2, Or.inr ⟨?_, a0, ?_⟩⟩
        · intro x' e' heq; cases heq; omega
        · rw [horig.1, hs0]
  obtain ⟨e', hst, hlive, hwhich⟩ := hexp
  have hspend : Spec.spendable y'.ledger r.frm sp' y.now = X := by
    unfold Spec.spendable
    rw [hst]
    simp only [Spec.live]
    rw [if_pos hlive]
  refine ⟨?_, ⟨e', by rw [hspend]; exact hst, hwhich⟩, ?_, ?_, ?_⟩
  · rw [hspend, ← hX, Nat.add_comm]
  · intro a b t ht hne
    rw [ha2 a b t ht hne]
    exact he.mint.2.2 _ t ht
  · have hop : (mkBlock s2 (Spec.allowanceRefund y.ledger y.now q.data sp' back)
      y.now).transaction.operation = Operation.approve q.data.frm sp' (min (back - 200000000 +
        Spec.spendable y.ledger q.data.frm sp' y.now) (2 ^ 128 - 1)) none _ none := rfl
    rw [hfrm, hX, ← hspend] at hop
    refine ⟨_, _, by rw [he2.blocks, he.blocks, List.append_assoc]; rfl, ?_, ⟨_, hop⟩, rfl, rfl⟩
    simp only [mkBlock, Spec.refundTransaction]; rw [hfrm]
  · intro a
    have g1 := he.mint.1 a
    have g2 := he2.approve.1 a
    rw [hfrm] at g1 g2
    simp only [icrc1BalanceOf]
    split at g1 <;> split at g2 <;> first | contradiction | skip
    all_goals simp only [*, if_true, if_false]; omega

/-- **C24**, otherwise: no allowance changes, and no fee is charged. -/
theorem C24_allowance_untouched [Crypto] {y0 y y' : Sys} {m : Msg} {i : Nat} {q : Pending}
    {r : Spec.BurnReq} {to : Option Principal} {ans : Answer} {reply : Reply}
    {back : Nat} (h : Spec.Awaiting y0 m y i q) (hm : Spec.burnRequest m = some (r, to))
    (hf : Spec.Fits q ans) (hr : Spec.returned q ans = some back)
    (hx : y.exec (.callback i ans) = (y', reply)) (hnt : reply ≠ .trapped)
    (hback : ∀ sp, Spec.OnBehalf r.frm r.spender sp → ¬Spec.AllowanceBack y0 y.now r.frm sp back) :
    (∀ a b t, y.now ≤ t → Spec.spendable y'.ledger a b t = Spec.spendable y.ledger a b t) ∧
    (∀ a : Account, icrc1BalanceOf y'.ledger a = icrc1BalanceOf y.ledger a +
      (if Spec.SameAccount a r.frm then back - 100000000 else 0)) := by
  obtain ⟨fb, ab, h1, _, _⟩ := refund_effect h hm hf hr hx hnt
  obtain ⟨_, _, hfrm, hsp, _, _⟩ := h.data hm
  rcases h1 with ⟨hle, _, _, h1⟩ | ⟨_, _, _, he, _⟩ | ⟨hgt, _, _, sp, s2, hra, he, he2⟩
  · rw [h1]
    refine ⟨fun _ _ _ _ => rfl, ?_⟩
    intro a; split <;> omega
  · refine ⟨fun a b t ht => he.mint.2.2 _ t ht, ?_⟩
    rw [← hfrm]
    exact he.mint.1
  · have hb : Spec.OnBehalf r.frm r.spender sp := by
      have := hra.1; rw [hfrm, hsp] at this; exact this
    exact absurd ((h.refunds_iff hm hb).mp hra) (hback sp hb)

open Toy in
/-- The outstanding `withdraw_from` of the example fails: bob's allowance of 399995000
goes up by 100000000. -/
example : ∃ y0 q, Spec.Awaiting y0 (wdrFrom bob alice 300000000).msg demo 0 q ∧
    Spec.OnBehalf (acc alice) (some (acc bob)) (acc bob) ∧
    Spec.AllowanceBack y0 demo.now (acc alice) (acc bob) 300000000 ∧
    (demo.exec (.callback 0 (.depositCycles (some (.rejected (some .canisterReject)))))).2 ≠ .trapped ∧
    Spec.spendable demo.ledger (acc alice) (acc bob) demo.now = 399995000 ∧
    Spec.spendable (demo.exec (.callback 0 (.depositCycles (some (.rejected (some .canisterReject)))))).1.ledger
      (acc alice) (acc bob) demo.now = 499995000 := by
  obtain ⟨⟨q, hq⟩, _⟩ := demo_awaiting
  exact ⟨_, q, hq, ⟨rfl, by decide⟩, ⟨by decide, 799995000, 0, by decide +kernel, Or.inl rfl⟩,
    by decide +kernel, by decide +kernel, by decide +kernel⟩

open Toy in
/-- A `withdraw_from` of 150000000 fails: 50000000 cycles are refunded, the allowance is not. -/
example : ∃ y0 y q, Spec.Awaiting y0 (wdrFrom bob alice 150000000).msg y 2 q ∧
    (∀ sp, Spec.OnBehalf (acc alice) (some (acc bob)) sp →
      ¬Spec.AllowanceBack y0 y.now (acc alice) sp 150000000) ∧
    (y.exec (.callback 2 (.depositCycles (some (.rejected (some .canisterReject)))))).2 ≠ .trapped := by
  obtain ⟨q, hq⟩ := Toy.awaiting events (wdrFrom bob alice 150000000) [] 2 (by decide +kernel)
    (by decide +kernel)
  refine ⟨_, _, q, hq, ?_, by decide +kernel⟩
  rintro sp _ ⟨h, _⟩
  omega

open Toy in
/-- A `create_canister_from` of 299995000, of which the CMC returns everything: two blocks. -/
example : ∃ y0 y q a, Spec.Awaiting y0 (.createCanisterFrom bob a none) y 2 q ∧
    (y.exec (.callback 2 (.cmc (.refunded 299995000) 299995000))).2 ≠ .trapped ∧
    (y.exec (.callback 2 (.cmc (.refunded 299995000) 299995000))).1.ledger.blocks.length =
      y.ledger.blocks.length + 2 := by
  obtain ⟨q, hq⟩ := Toy.awaiting events
    ⟨1, .createCanisterFrom bob ⟨acc alice, none, none, 299995000, none⟩ none⟩ [] 2
    (by decide +kernel) (by decide +kernel)
  exact ⟨_, _, q, _, hq, by decide +kernel, by decide +kernel⟩

/-! ## C53 -/

/-- What answering a call does depends on the call, the answer and the time only. -/
theorem callback_delta [Crypto] (now : Nat) (q : Pending) (ans : Answer) (hf : Spec.Fits q ans) :
    ∃ (d : Int) (g : Account → Account → Nat), ∀ (y y' : Sys) (i : Nat) (reply : Reply), Reachable y →
      y.now = now → y.pending[i]? = some q → y.exec (.callback i ans) = (y', reply) →
      reply ≠ .trapped →
      (∀ a : Account, (icrc1BalanceOf y'.ledger a : Int) = icrc1BalanceOf y.ledger a +
        (if Spec.SameAccount a q.data.frm then d else 0)) ∧
      (icrc1TotalSupply y'.ledger : Int) = icrc1TotalSupply y.ledger + d ∧
      (∀ a b, Spec.spendable y'.ledger a b now =
        min (Spec.spendable y.ledger a b now + g a b) (2 ^ 128 - 1)) ∧
      y'.pending = y.pending.eraseIdx i := by
  have hcap : ∀ {y : Sys}, Reachable y → ∀ a b t, Spec.spendable y.ledger a b t =
      min (Spec.spendable y.ledger a b t + 0) (2 ^ 128 - 1) := by
    intro y h a b t
    have : Spec.spendable y.ledger a b t ≤ 2 ^ 128 - 1 := by
      unfold Spec.spendable Spec.stored
      cases hg : y.ledger.approvals.get (a.key, b.key) with
      | none => simp [Spec.live]
      | some v =>
        obtain ⟨x, e⟩ := v
        have := (h.inv.ledger.approvals _ _ _ hg).2.1
        rw [U128MAX_eq] at this
        simp only [Spec.live]
        split <;> omega
    omega
  cases hr : Spec.returned q ans with
  | none =>
    refine ⟨0, fun _ _ => 0, ?_⟩
    intro y y' i reply h hn hq hx hnt
    have hok := (exec_callback_ok hq hf hr).1
    rw [hx] at hok
    simp only at hok
    have hn : ∀ s p, (noteCanister s p ans).balances = s.balances ∧
        (noteCanister s p ans).approvals = s.approvals ∧ (noteCanister s p ans).cache = s.cache := by
      intro s p
      unfold noteCanister
      split
      · split <;> exact ⟨rfl, rfl, rfl⟩
      · exact ⟨rfl, rfl, rfl⟩
    obtain ⟨e1, e2, e3⟩ := hn y.ledger q.data
    rw [hok]
    refine ⟨?_, ?_, ?_, rfl⟩
    · intro a; simp [icrc1BalanceOf, balanceOf, e1]
    · simp [icrc1TotalSupply, e3]
    · intro a b
      have := hcap h a b now
      simp only [Spec.spendable, Spec.stored, e2] at this ⊢
      exact this
  | some back =>
    have hfail : ∀ (y y' : Sys) (i : Nat) (reply : Reply), Reachable y →
        y.now = now → y.pending[i]? = some q → y.exec (.callback i ans) = (y', reply) →
        reply ≠ .trapped → ∃ fb ab, Refunded y.ledger y'.ledger now q.kind q.data back fb ab ∧
          y'.pending = y.pending.eraseIdx i := by
      intro y y' i reply h hn hq hx hnt
      rcases exec_callback_failed h.inv hq hf hr with ⟨h1, _⟩ | ⟨fb, ab, s', h1, h2, _⟩
      · rw [hx] at h1; cases h1; exact absurd rfl hnt
      · rw [hx] at h1
        simp only at h1
        subst h1 hn
        exact ⟨fb, ab, h2, rfl⟩
    by_cases hra : ∃ sp, Spec.RefundsAllowance now q.data back sp
    · obtain ⟨sp, hra⟩ := hra
      refine ⟨(back : Int) - 200000000, fun a b => if Spec.SameAccount a q.data.frm ∧
        Spec.SameAccount b sp then back - 200000000 else 0, ?_⟩
      intro y y' i reply h hn hq hx hnt
      obtain ⟨fb, ab, href, hp⟩ := hfail y y' i reply h hn hq hx hnt
      rcases href with ⟨hle, _⟩ | ⟨_, _, _, _, hno⟩ | ⟨hgt, _, _, sp', s2, hra', he, he2⟩
      · have := hra.2.1; omega
      · exact absurd hra (hno sp)
      have hsp' : sp' = sp := by
        have g1 := hra.1.1
        have g2 := hra'.1.1
        rw [g1] at g2; cases g2; rfl
      subst hsp'
      have hb2 := hra.2.1
      refine ⟨?_, ?_, ?_, hp⟩
      · intro a
        have g1 := he.mint.1 a
        have g2 := he2.approve.1 a
        simp only [icrc1BalanceOf]
        split at g1 <;> split at g2 <;> first | contradiction | skip
        all_goals simp only [*, if_true, if_false]; omega
      · have g1 := he.mint.2.1
        have g2 := he2.approve.2
        simp only [icrc1TotalSupply]
        omega
      · intro a b
        obtain ⟨ha1, ha2⟩ := he2.approving
        by_cases hab : Spec.SameAccount a q.data.frm ∧ Spec.SameAccount b sp'
        · simp only [if_pos hab]
          have hk : ∀ s, Spec.stored s a b = Spec.stored s q.data.frm sp' := by
            intro s
            unfold Spec.stored
            rw [(sameAccount_iff _ _).mp hab.1, (sameAccount_iff _ _).mp hab.2]
          unfold Spec.spendable
          rw [hk, hk, ha1, if_neg (by omega)]
          simp only [Spec.live]
          rw [if_pos]
          · rw [Nat.add_comm]; rfl
          · cases hcur : Spec.stored y.ledger q.data.frm sp' with
            | none =>
              simp only
              cases ho : q.data.oldExpiresAt with
              | none => exact Or.inl rfl
              | some e => exact Or.inr (hra.2.2 e ho)
            | some v =>
              obtain ⟨x, e⟩ := v
              simp only
              by_cases hlt : now < e
              · rw [if_pos hlt]; exact Or.inr hlt
              · rw [if_neg hlt]
                cases ho : q.data.oldExpiresAt with
                | none => exact Or.inl rfl
                | some e => exact Or.inr (hra.2.2 e ho)
        · simp only [if_neg hab]
          rw [ha2 a b now (Nat.le_refl _) hab, ← hcap h]
          exact he.mint.2.2 _ now (Nat.le_refl _)
    · refine ⟨((back - 100000000 : Nat) : Int), fun _ _ => 0, ?_⟩
      intro y y' i reply h hn hq hx hnt
      obtain ⟨fb, ab, href, hp⟩ := hfail y y' i reply h hn hq hx hnt
      rcases href with ⟨hle, _, _, h1⟩ | ⟨_, _, _, he, _⟩ | ⟨_, _, _, sp', _, hra', _⟩
      · rw [h1]
        refine ⟨?_, by omega, fun a b => hcap h a b now, hp⟩
        intro a
        rw [show back - 100000000 = 0 by omega]
        simp
      · refine ⟨?_, ?_, ?_, hp⟩
        · intro a
          have g1 := he.mint.1 a
          simp only [icrc1BalanceOf]
          rw [g1]
          split <;> simp
        · have := he.mint.2.1
          simp only [icrc1TotalSupply]; omega
        · intro a b
          rw [← hcap h]
          exact he.mint.2.2 _ now (Nat.le_refl _)
      · exact absurd ⟨sp', hra'⟩ hra

/-- **C53**: two outstanding calls, answered at the same time in either order: each is
still outstanding after the other was answered, adds the same to every balance, and in the end
balances, supply and what can be spent are the same. -/
theorem C53_order_irrelevant [Crypto] {y yp yq ypq yqp : Sys} (h : Reachable y) {i j : Nat} (hij : i < j)
    {p q : Pending} {ap aq : Answer} (hp : y.pending[i]? = some p) (hq : y.pending[j]? = some q)
    (hfp : Spec.Fits p ap) (hfq : Spec.Fits q aq) {rp rq rpq rqp : Reply}
    (hx1 : y.exec (.callback i ap) = (yp, rp)) (hx2 : yp.exec (.callback (j - 1) aq) = (ypq, rpq))
    (hx3 : y.exec (.callback j aq) = (yq, rq)) (hx4 : yq.exec (.callback i ap) = (yqp, rqp))
    (hn1 : rp ≠ .trapped) (hn2 : rpq ≠ .trapped) (hn3 : rq ≠ .trapped) (hn4 : rqp ≠ .trapped) :
    yp.pending[j - 1]? = some q ∧ yq.pending[i]? = some p ∧ ypq.pending = yqp.pending ∧
    (∀ a, (icrc1BalanceOf ypq.ledger a : Int) - icrc1BalanceOf yp.ledger a =
      (icrc1BalanceOf yq.ledger a : Int) - icrc1BalanceOf y.ledger a) ∧
    (∀ a, icrc1BalanceOf ypq.ledger a = icrc1BalanceOf yqp.ledger a) ∧
    icrc1TotalSupply ypq.ledger = icrc1TotalSupply yqp.ledger ∧
    (∀ a b, Spec.spendable ypq.ledger a b y.now = Spec.spendable yqp.ledger a b y.now) := by
  obtain ⟨dp, gp, Hp⟩ := callback_delta y.now p ap hfp
  obtain ⟨dq, gq, Hq⟩ := callback_delta y.now q aq hfq
  have hry1 : Reachable yp := by have := h.exec (.callback i ap); rw [hx1] at this; exact this
  have hry3 : Reachable yq := by have := h.exec (.callback j aq); rw [hx3] at this; exact this
  have hn1' : yp.now = y.now := by
    have := (exec_moved h.inv (.callback i ap)).now; rw [hx1] at this; exact this
  have hn3' : yq.now = y.now := by
    have := (exec_moved h.inv (.callback j aq)).now; rw [hx3] at this; exact this
  obtain ⟨b1, s1, l1, p1⟩ := Hp y yp i rp h rfl hp hx1 hn1
  obtain ⟨b3, s3, l3, p3⟩ := Hq y yq j rq h rfl hq hx3 hn3
  have hq' : yp.pending[j - 1]? = some q := by
    rw [p1, List.getElem?_eraseIdx, if_neg (by omega), show j - 1 + 1 = j by omega, hq]
  have hp' : yq.pending[i]? = some p := by
    rw [p3, List.getElem?_eraseIdx, if_pos hij, hp]
  obtain ⟨b2, s2, l2, p2⟩ := Hq yp ypq (j - 1) rpq hry1 hn1' hq' hx2 hn2
  obtain ⟨b4, s4, l4, p4⟩ := Hp yq yqp i rqp hry3 hn3' hp' hx4 hn4
  refine ⟨hq', hp', ?_, ?_, ?_, ?_, ?_⟩
  · rw [p2, p4, p1, p3]
    refine List.ext_getElem? fun k => ?_
    simp only [List.getElem?_eraseIdx]
    repeat' split
    all_goals first | rfl | omega | (congr 1; omega)
  · intro a
    rw [b2, b3]; omega
  · intro a
    have g1 := b1 a; have g2 := b2 a; have g3 := b3 a; have g4 := b4 a
    omega
  · omega
  · intro a b
    rw [l2, l4, l1, l3]
    omega

open Toy in
/-- The two outstanding calls of the example, both failing; no trap in either order. -/
example : Reachable demo ∧ demo.pending.length = 2 ∧
    (let ap : Answer := .depositCycles (some (.rejected (some .canisterReject)))
     let aq : Answer := .cmc (.refunded 400000000) 400000000
     (demo.exec (.callback 0 ap)).2 ≠ .trapped ∧ (demo.exec (.callback 1 aq)).2 ≠ .trapped ∧
     ((demo.exec (.callback 0 ap)).1.exec (.callback 0 aq)).2 ≠ .trapped ∧
     ((demo.exec (.callback 1 aq)).1.exec (.callback 0 ap)).2 ≠ .trapped) :=
  ⟨demo_reachable, by decide +kernel, by decide +kernel⟩

end CyclesLedger
