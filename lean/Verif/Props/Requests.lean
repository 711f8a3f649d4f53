import Verif.Proof.Cases
import Verif.Proof.Toy
/-!
# Properties of single requests: what they do, when they succeed, what errors mean

C04, C05, C06, C08.

`y.exec m` is message `m` executed in system `y` at its current time; `Reachable.tick`
says that letting time pass first is included.
-/
namespace CyclesLedger

/-- Time can pass in any reachable system. -/
theorem Reachable.tick [Crypto] {y : Sys} (h : Reachable y) (dt : Nat) : Reachable (y.tick dt) := by
  have := h.step ⟨dt, .lostCallback y.pending.length⟩
  have he : (y.step ⟨dt, .lostCallback y.pending.length⟩).1 = y.tick dt := by
    simp only [Sys.step, Sys.exec]
    rw [List.eraseIdx_of_length_le (by simp [Sys.tick])]
  rw [he] at this
  exact this

theorem Reachable.exec [Crypto] {y : Sys} (h : Reachable y) (m : Msg) : Reachable (y.exec m).1 := by
  have := h.step ⟨0, m⟩
  have he : y.tick 0 = y := by
    have := h.inv.ledger.clock
    unfold Sys.tick
    rw [Nat.add_zero, Nat.min_eq_left this]
  simp only [Sys.step] at this
  rw [he] at this
  exact this

/-! ## C04 -/

/-- **C04**: an accepted transfer moves exactly `amount`, costs the sender exactly one fee,
which leaves the supply, and adds exactly one block, at the index reported. -/
theorem C04_transfer_effect [Crypto] {y y' : Sys} (h : Reachable y) {m : Msg} {r : Spec.TransferReq}
    {reply : Reply} {i : Nat} (hm : Spec.transferRequest m = some r) (hx : y.exec m = (y', reply))
    (hok : Spec.okIndex reply = some i) :
    (∀ a : Account, (icrc1BalanceOf y'.ledger a : Int) = icrc1BalanceOf y.ledger a
      + (if Spec.SameAccount a r.to then (r.amount : Int) else 0)
      - (if Spec.SameAccount a r.frm then (r.amount : Int) + 100000000 else 0)) ∧
    icrc1TotalSupply y.ledger = icrc1TotalSupply y'.ledger + 100000000 ∧
    (∃ b, y'.ledger.blocks = y.ledger.blocks ++ [b] ∧ y'.ledger.blocks[i]? = some b ∧
      b.transaction = r.transaction ∧ b.timestamp = y.now) ∧
    y'.pending = y.pending ∧ y'.cycles = y.cycles := by
  rcases exec_transfer h.inv hm with ⟨s', h1, h2, _, _, he, hv, _⟩ | ⟨e, _, h2, _⟩ | ⟨h1, _⟩
  · rw [hx] at h1 h2
    simp only at h1 h2
    rw [h2, Option.some.injEq] at hok
    subst hok h1
    exact ⟨he.transfer.1, he.transfer.2, ⟨_, he.blocks, by simp only; rw [he.blocks]; simp, rfl, rfl⟩,
      rfl, rfl⟩
  · rw [hx] at h2; rw [h2] at hok; cases hok
  · rw [hx] at h1; cases h1; cases hok

open Toy in
/-- Both endpoints have accepted requests; the second is to oneself, with the
subaccount written differently. -/
example : Reachable demo ∧ Spec.okIndex (demo.exec (xfer alice carol 7).msg).2 = some 6 ∧
    Spec.okIndex (demo.exec (.transferFrom bob ⟨none, acc alice, ⟨alice, some zeroSub⟩, 9, none, none,
      none⟩)).2 = some 6 :=
  ⟨demo_reachable, by decide +kernel, by decide +kernel⟩

/-! ## C05 -/

/-- **C05**: a request that is answered with an error, or traps, changes nothing at all:
balances, allowances, log, deduplication data, certificate, outstanding calls, cycles.
(An error `FailedTo...`, with `failedBlocks`, is the answer of a burn that was started.) -/
theorem C05_refused_no_effect [Crypto] {y y' : Sys} (h : Reachable y) {m : Msg} {reply : Reply}
    (hreq : Spec.IsRequest m) (hx : y.exec m = (y', reply)) (hno : ¬Spec.Accepted reply)
    (hnf : Spec.failedBlocks reply = none) : y' = y := by
  have hi := h.inv
  unfold Spec.Accepted at hno
  cases hb : Spec.burnRequest m with
  | some rt =>
    obtain ⟨r, to⟩ := rt
    rcases exec_burn hi hb with ⟨s1, p, hs⟩ | ⟨e, he⟩
    · obtain ⟨_, _, _, _, _, _, ⟨_, h1⟩ | ⟨_, h1 | ⟨fb, ab, s', h1⟩⟩⟩ := hs
      · rw [hx] at h1; cases h1; simp at hno
      · have := h1.1; rw [hx] at this; cases this; rfl
      · have := h1.2.2.2.2.2.2; rw [hx] at this; rw [this] at hnf; cases hnf
    · have := he.1; rw [hx] at this; exact this
  | none =>
    cases ht : Spec.transferRequest m with
    | some r =>
      rcases exec_transfer hi ht with ⟨s', h1, h2, _⟩ | ⟨e, h1, _⟩ | ⟨h1, _⟩
      · rw [hx] at h2; exact absurd (Or.inr ⟨_, h2⟩) hno
      · rw [hx] at h1; exact h1
      · rw [hx] at h1; cases h1; rfl
    | none =>
      cases ha : Spec.approveRequest m with
      | some r =>
        rcases exec_approve hi ha with ⟨s', h1, h2, _⟩ | ⟨e, h1, _⟩ | ⟨h1, _⟩
        · rw [hx] at h2; exact absurd (Or.inr ⟨_, h2⟩) hno
        · rw [hx] at h1; exact h1
        · rw [hx] at h1; cases h1; rfl
      | none =>
        cases m with
        | deposit c cy a =>
          rcases exec_deposit hi c cy a with ⟨s', h1, _⟩ | ⟨h1, _⟩
          · rw [hx] at h1; cases h1; exact absurd (Or.inr ⟨_, rfl⟩) hno
          · rw [hx] at h1; cases h1; rfl
        | transfer => cases ht
        | transferFrom => cases ht
        | approve => cases ha
        | withdraw => cases hb
        | withdrawFrom => cases hb
        | createCanister => cases hb
        | createCanisterFrom => cases hb
        | callback => exact absurd rfl hreq
        | lostCallback => exact absurd rfl hreq
        | upgrade => exact absurd rfl hreq

open Toy in
/-- A transfer beyond the balance, and a deposit of too few cycles. -/
example : Reachable demo ∧ (demo.exec (xfer bob alice 7).msg).2 =
      .transfer (.error (.insufficientFunds 1000)) ∧
    (demo.exec (dep alice 7).msg).2 = .trapped :=
  ⟨demo_reachable, by decide +kernel, by decide +kernel⟩

/-! ## C06 -/

/-- **C06**: a deposit is answered with the new block and the new balance after crediting
exactly the attached cycles less the fee; it is rejected, keeping no cycles, when they do
not exceed the fee. -/
theorem C06_deposit [Crypto] {y y' : Sys} (h : Reachable y) {c : Principal}
    {cycles : Fin (U128MAX + 1)} {arg : DepositArg} {reply : Reply}
    (hx : y.exec (.deposit c cycles arg) = (y', reply)) :
    (cycles.val ≤ 100000000 → reply = .trapped ∧ y' = y) ∧
    (∀ i bal, reply = .deposit i bal →
      100000000 < cycles.val ∧
      bal = icrc1BalanceOf y'.ledger arg.to ∧
      (∀ a : Account, icrc1BalanceOf y'.ledger a = icrc1BalanceOf y.ledger a +
        (if Spec.SameAccount a arg.to then cycles.val - 100000000 else 0)) ∧
      icrc1TotalSupply y'.ledger = icrc1TotalSupply y.ledger + (cycles.val - 100000000) ∧
      (∃ b, y'.ledger.blocks = y.ledger.blocks ++ [b] ∧ y'.ledger.blocks[i]? = some b ∧
        b.transaction = ⟨.mint arg.to (cycles.val - 100000000) 100000000, none, arg.memo⟩ ∧
        b.timestamp = y.now) ∧
      (∀ a sp t, y.now ≤ t → Spec.spendable y'.ledger a sp t = Spec.spendable y.ledger a sp t) ∧
      y'.pending = y.pending ∧ y'.cycles = y.cycles + cycles.val) ∧
    (reply = .trapped → y' = y) := by
  rcases exec_deposit h.inv c cycles arg with ⟨s', h1, he, hgt, _, _⟩ | ⟨h1, hwhy⟩
  · rw [hx, Prod.mk.injEq] at h1
    obtain ⟨rfl, rfl⟩ := h1
    refine ⟨fun h => by omega, ?_, fun h => by cases h⟩
    intro i bal hr
    cases hr
    exact ⟨hgt, rfl, he.mint.1, he.mint.2.1, ⟨_, he.blocks, by simp only; rw [he.blocks]; simp, rfl,
      rfl⟩, fun a sp t ht => he.mint.2.2 _ t ht, rfl, rfl⟩
  · rw [hx] at h1
    cases h1
    exact ⟨fun _ => ⟨rfl, rfl⟩, (fun i bal h => nomatch h), fun _ => rfl⟩

open Toy in
example : Reachable demo ∧
    (demo.exec (dep bob 100000007).msg).2 = .deposit 6 1007 ∧
    (demo.exec (dep bob 100000000).msg).2 = .trapped :=
  ⟨demo_reachable, by decide +kernel, by decide +kernel⟩

/-! ## C08 -/

/-- **C08**, requests that are carried out, or started. -/
theorem C08_supply_of_request [Crypto] {y y' : Sys} (h : Reachable y) {m : Msg} {reply : Reply}
    (hreq : Spec.IsRequest m) (hx : y.exec m = (y', reply)) (hacc : Spec.Accepted reply) :
    (icrc1TotalSupply y'.ledger : Int) = icrc1TotalSupply y.ledger +
      (match m with
        | .deposit _ cycles _ => (cycles.val : Int) - 100000000
        | .transfer _ _ | .transferFrom _ _ | .approve _ _ => - 100000000
        | .withdraw _ a _ => - ((a.amount : Int) + 100000000)
        | .withdrawFrom _ a _ => - ((a.amount : Int) + 100000000)
        | .createCanister _ a _ => - ((a.amount : Int) + 100000000)
        | .createCanisterFrom _ a _ => - ((a.amount : Int) + 100000000)
        | _ => 0) := by
  have hi := h.inv
  have htr : ∀ r, Spec.transferRequest m = some r →
      (icrc1TotalSupply y'.ledger : Int) = icrc1TotalSupply y.ledger + -100000000 := by
    intro r ht
    rcases exec_transfer hi ht with ⟨s', h1, _, _, _, he, _⟩ | ⟨e, _, h2, h3, _⟩ | ⟨h1, _⟩
    · rw [hx] at h1; cases h1
      have := he.transfer.2
      simp only [icrc1TotalSupply]; omega
    · rw [hx] at h2 h3
      rcases hacc with h4 | ⟨i, h4⟩
      · rw [h4] at h3; cases h3
      · rw [h4] at h2; cases h2
    · rw [hx] at h1; cases h1; rcases hacc with h4 | ⟨i, h4⟩ <;> cases h4
  have hbu : ∀ r to, Spec.burnRequest m = some (r, to) → (icrc1TotalSupply y'.ledger : Int) =
      icrc1TotalSupply y.ledger + -((r.amount : Int) + 100000000) := by
    intro r to hb
    rcases exec_burn hi hb with ⟨s1, p, he, _, _, _, _, _, ⟨_, h1⟩ | ⟨_, h1 | ⟨_, _, _, _, _, h1, _, _, h2, _⟩⟩⟩ | ⟨e, he⟩
    · rw [hx] at h1; cases h1
      have := he.burn.2
      simp only [icrc1TotalSupply, sent]; omega
    · have := h1.1; rw [hx] at this; cases this
      rcases hacc with h4 | ⟨i, h4⟩ <;> cases h4
    · rw [hx] at h1 h2
      rcases hacc with h4 | ⟨i, h4⟩
      · exact absurd h4 h2
      · rw [h4] at h1; cases h1
    · obtain ⟨_, h1, _, _, h2, _⟩ := he
      rw [hx] at h1 h2
      rcases hacc with h4 | ⟨i, h4⟩
      · exact absurd h4 h2
      · rw [h4] at h1; cases h1
  cases m with
  | deposit c cycles arg =>
    rcases exec_deposit hi c cycles arg with ⟨s', h1, he, hgt, _⟩ | ⟨h1, _⟩
    · rw [hx] at h1; cases h1
      have := he.mint.2.1
      simp only [icrc1TotalSupply]; omega
    · rw [hx] at h1; cases h1; rcases hacc with h4 | ⟨i, h4⟩ <;> cases h4
  | transfer => exact htr _ rfl
  | transferFrom => exact htr _ rfl
  | approve caller args =>
    rcases exec_approve hi (m := .approve caller args) rfl with
      ⟨s', h1, _, _, _, he, _⟩ | ⟨e, _, h2, h3, _⟩ | ⟨h1, _⟩
    · rw [hx] at h1; cases h1
      have := he.approve.2
      simp only [icrc1TotalSupply]; omega
    · rw [hx] at h2 h3
      rcases hacc with h4 | ⟨i, h4⟩
      · rw [h4] at h3; cases h3
      · rw [h4] at h2; cases h2
    · rw [hx] at h1; cases h1; rcases hacc with h4 | ⟨i, h4⟩ <;> cases h4
  | withdraw => exact hbu _ _ rfl
  | withdrawFrom => exact hbu _ _ rfl
  | createCanister => exact hbu _ _ rfl
  | createCanisterFrom => exact hbu _ _ rfl
  | callback => exact absurd rfl hreq
  | lostCallback => exact absurd rfl hreq
  | upgrade => exact absurd rfl hreq

/-- **C08**, a burn whose outgoing call fails at once: the burn, then the refund, then,
if an allowance was used and more than two fees come back, the fee of refunding it. -/
theorem C08_supply_of_failed_start [Crypto] {y y' : Sys} (h : Reachable y) {m : Msg} {reply : Reply}
    {r : Spec.BurnReq} {to : Option Principal} (hm : Spec.burnRequest m = some (r, to))
    (hx : y.exec m = (y', reply)) (hf : Spec.failedBlocks reply ≠ none) :
    ∃ x, (x = 0 ∨ x = 100000000) ∧
      (x = 100000000 ↔ 200000000 < r.amount ∧ ∃ sp, Spec.OnBehalf r.frm r.spender sp) ∧
      icrc1TotalSupply y'.ledger + x + (r.amount + 100000000) =
        icrc1TotalSupply y.ledger + (r.amount - 100000000) := by
  rcases exec_burn h.inv hm with ⟨s1, p, he, _, _, _, ⟨old, hp, hold⟩, _, ⟨_, h1⟩ | ⟨_, h1 | ⟨fb, ab, s', h1, hr, _⟩⟩⟩ |
    ⟨e, hb⟩
  · rw [hx] at h1; cases h1; exact absurd rfl hf
  · have := h1.1; rw [hx] at this; cases this; exact absurd rfl hf
  · obtain ⟨x, hx1, hx2, _, _, hx3⟩ := hr.effect
    rw [hx] at h1; cases h1
    have := he.burn.2
    refine ⟨x, hx1, hx2.trans ⟨?_, ?_⟩, ?_⟩
    · rintro ⟨sp, ⟨h1, h2⟩, h3, _⟩
      rw [hp] at h1 h2
      exact ⟨h3, sp, h1, h2⟩
    · rintro ⟨h3, sp, hb⟩
      rw [hp]
      refine ⟨sp, hb, h3, ?_⟩
      intro e heq
      simp only at heq
      unfold ExpiryFrom at hold
      rw [onBehalf_iff.mp hb] at hold
      obtain ⟨a, e', _, hl, ho⟩ := hold
      rw [heq] at ho
      unfold oldExpiry at ho
      split at ho
      · cases ho; omega
      · cases ho
    · simp only [icrc1TotalSupply]; omega
  · have := hb.2.2.2.2.2.1; rw [hx] at this; exact absurd this hf

/-- **C08**, the answer to an outgoing call: nothing on success; the refund, and the fee
of refunding the allowance, on failure. -/
theorem C08_supply_of_callback [Crypto] {y y' : Sys} (h : Reachable y) {i : Nat} {ans : Answer}
    {p : Pending} {reply : Reply} (hp : y.pending[i]? = some p) (hf : Spec.Fits p ans)
    (hx : y.exec (.callback i ans) = (y', reply)) (hnt : reply ≠ .trapped) :
    match Spec.returned p ans with
    | none => icrc1TotalSupply y'.ledger = icrc1TotalSupply y.ledger
    | some back =>
      ∃ x, (x = 0 ∨ x = 100000000) ∧
        (x = 100000000 ↔ ∃ sp, Spec.RefundsAllowance y.now p.data back sp) ∧
        icrc1TotalSupply y'.ledger + x = icrc1TotalSupply y.ledger + (back - 100000000) := by
  cases hr : Spec.returned p ans with
  | none =>
    have := (exec_callback_ok hp hf hr).1
    rw [hx] at this
    simp only at this ⊢
    rw [this]
    unfold icrc1TotalSupply noteCanister
    cases ans with
    | depositCycles => rfl
    | cmc r _ => cases r <;> simp only <;> (try split) <;> rfl
  | some back =>
    rcases exec_callback_failed h.inv hp hf hr with ⟨h1, _⟩ | ⟨fb, ab, s', h1, hrf, _⟩
    · rw [hx] at h1; cases h1; exact absurd rfl hnt
    · rw [hx] at h1; cases h1
      obtain ⟨x, hx1, hx2, _, _, hx3⟩ := hrf.effect
      exact ⟨x, hx1, hx2, hx3⟩

/-- **C08**, everything else: no change. -/
theorem C08_supply_otherwise [Crypto] {y y' : Sys} (h : Reachable y) {m : Msg} {reply : Reply}
    (hx : y.exec m = (y', reply))
    (hcase : (Spec.IsRequest m ∧ ¬Spec.Accepted reply ∧ Spec.failedBlocks reply = none) ∨
      reply = .trapped ∨ reply = .silent ∨ (∃ i, m = .lostCallback i) ∨ ∃ a, m = .upgrade a) :
    icrc1TotalSupply y'.ledger = icrc1TotalSupply y.ledger := by
  have hreq : Spec.IsRequest m → ¬Spec.Accepted reply → Spec.failedBlocks reply = none →
      icrc1TotalSupply y'.ledger = icrc1TotalSupply y.ledger := by
    intro h1 h2 h3
    rw [C05_refused_no_effect h h1 hx h2 h3]
  have hlost : ∀ i, m = .lostCallback i → icrc1TotalSupply y'.ledger = icrc1TotalSupply y.ledger := by
    rintro i rfl; cases hx; rfl
  have hup : ∀ a, m = .upgrade a → icrc1TotalSupply y'.ledger = icrc1TotalSupply y.ledger := by
    rintro a rfl
    simp only [Sys.exec] at hx
    split at hx
    · cases hx; rfl
    · rename_i s hs
      cases hx
      rw [(h.inv.ledger.postUpgrade hs).1]
      rfl
  have hsil : reply = .trapped ∨ reply = .silent →
      icrc1TotalSupply y'.ledger = icrc1TotalSupply y.ledger := by
    intro hts
    by_cases hrq : Spec.IsRequest m
    · refine hreq hrq ?_ ?_
      · rcases hts with rfl | rfl <;> (rintro (h | ⟨_, h⟩) <;> cases h)
      · rcases hts with rfl | rfl <;> rfl
    · cases m with
      | callback i ans =>
        cases hp : y.pending[i]? with
        | none => simp only [Sys.exec, hp] at hx; cases hx; rfl
        | some p =>
          by_cases hf : Spec.Fits p ans
          · cases hr : Spec.returned p ans with
            | none =>
              have := (exec_callback_ok hp hf hr).2.1
              rw [hx] at this
              rcases hts with rfl | rfl <;> cases this
            | some back =>
              rcases exec_callback_failed h.inv hp hf hr with ⟨h1, _⟩ | ⟨fb, ab, s', _, _, _, _, _, _, h2⟩
              · rw [hx] at h1; cases h1; rfl
              · rw [hx] at h2
                rcases hts with rfl | rfl <;> cases h2
          · have := exec_callback_none (y := y) (i := i) (ans := ans)
              (fun q hq => by rw [hp] at hq; cases hq; exact hf)
            rw [hx] at this; cases this; rfl
      | lostCallback i => exact hlost i rfl
      | upgrade a => exact hup a rfl
      | _ => exact absurd (by simp [Spec.IsRequest, Spec.sender]) hrq
  rcases hcase with ⟨h1, h2, h3⟩ | h1 | h1 | ⟨i, h1⟩ | ⟨a, h1⟩
  · exact hreq h1 h2 h3
  · exact hsil (Or.inl h1)
  · exact hsil (Or.inr h1)
  · exact hlost i h1
  · exact hup a h1

open Toy in
/-- The two outstanding calls of the example fail: a `withdraw_from` of 300000000,
which also refunds the allowance, and a creation of which the CMC returns 400000000. -/
example : Reachable demo ∧ icrc1TotalSupply demo.ledger = 998600000000 ∧
    icrc1TotalSupply (demo.exec (.callback 0 (.depositCycles (some (.rejected (some .canisterReject)))))).1.ledger =
      998700000000 ∧
    icrc1TotalSupply (demo.exec (.callback 1 (.cmc (.refunded 400000000) 400000000))).1.ledger =
      998900000000 :=
  ⟨demo_reachable, by decide +kernel, by decide +kernel, by decide +kernel⟩

end CyclesLedger
