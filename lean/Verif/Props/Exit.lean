import Verif.Props.Acceptance
import Verif.Props.Burns
import Verif.Props.Reach
/-!
# The owner can always leave

C84: whatever happened before, the owner of an account can move or withdraw everything in it
but one fee, and can revoke any allowance.
-/
namespace CyclesLedger

/-- **C84**: the owner can withdraw any positive amount the balance covers together with the fee. -/
theorem C84_withdraw [Crypto] {y : Sys} (h : Reachable y) (p : Principal) (sub : Option Subaccount)
    (to : Principal) (x : Nat) (hx : 0 < x) (hto : ¬Spec.IsUserPrincipal to)
    (hb : x + 100000000 ≤ icrc1BalanceOf y.ledger ⟨p, sub⟩)
    (hn : Spec.NoClash y.ledger ⟨.burn ⟨p, sub⟩ none x, none, some (Spec.burnMemo (some to))⟩) :
    ∃ y' q, y.exec (.withdraw p ⟨sub, to, none, x⟩ none) = (y', .suspended) ∧
      y'.pending = y.pending ++ [q] ∧ q.call.body = .depositCycles to ∧ q.call.cycles = x ∧
      icrc1BalanceOf y'.ledger ⟨p, sub⟩ = icrc1BalanceOf y.ledger ⟨p, sub⟩ - (x + 100000000) := by
  have hreq : Spec.burnRequest (.withdraw p ⟨sub, to, none, x⟩ none) =
      some (⟨⟨p, sub⟩, none, x, none⟩, some to) := rfl
  have h1 := (C61_burn_iff h hreq hn)
  have h2 : (y.exec (.withdraw p ⟨sub, to, none, x⟩ none)).2 = .suspended := by
    refine (h1.2.1 rfl).mpr (h1.1.mpr ⟨⟨?_, hb, ?_⟩, ⟨hto, hx⟩, ?_⟩)
    · intro c hc; cases hc
    · intro sp hsp; cases hsp.1
    · rintro ⟨hc, _⟩; cases hc
  generalize he : y.exec (.withdraw p ⟨sub, to, none, x⟩ none) = out at h2
  obtain ⟨y', r⟩ := out
  simp only at h2
  subst h2
  obtain ⟨hbal, _, ⟨q, hq1, hq2, hq3, _⟩, _⟩ := C26_call_made h hreq he
  refine ⟨y', q, rfl, hq1, hq3.2, hq2, ?_⟩
  have h3 := hbal ⟨p, sub⟩
  simp only [Spec.SameAccount, and_self, if_true] at h3
  omega

/-- **C84**: in particular the account can be emptied but for the fee. -/
theorem C84_everything [Crypto] {y : Sys} (h : Reachable y) (p : Principal)
    (sub : Option Subaccount) (to : Principal) (hto : ¬Spec.IsUserPrincipal to)
    (hb : 100000000 < icrc1BalanceOf y.ledger ⟨p, sub⟩)
    (hn : Spec.NoClash y.ledger ⟨.burn ⟨p, sub⟩ none
      (icrc1BalanceOf y.ledger ⟨p, sub⟩ - 100000000), none, some (Spec.burnMemo (some to))⟩) :
    ∃ y' q, y.exec (.withdraw p ⟨sub, to, none, icrc1BalanceOf y.ledger ⟨p, sub⟩ - 100000000⟩ none) =
        (y', .suspended) ∧ y'.pending = y.pending ++ [q] ∧ q.call.body = .depositCycles to ∧
      q.call.cycles = icrc1BalanceOf y.ledger ⟨p, sub⟩ - 100000000 ∧
      icrc1BalanceOf y'.ledger ⟨p, sub⟩ = 0 := by
  obtain ⟨y', q, h1, h2, h3, h4, h5⟩ := C84_withdraw h p sub to _ (by omega) hto (by omega) hn
  exact ⟨y', q, h1, h2, h3, h4, by omega⟩

/-- **C84**: and be moved to any other account. -/
theorem C84_transfer [Crypto] {y : Sys} (h : Reachable y) (p : Principal) (sub : Option Subaccount)
    (to : Account) (x : Nat) (hp : p ≠ managementCanister) (hto : to.owner ≠ managementCanister)
    (hne : ¬Spec.SameAccount to ⟨p, sub⟩)
    (hb : x + 100000000 ≤ icrc1BalanceOf y.ledger ⟨p, sub⟩)
    (hn : Spec.NoClash y.ledger ⟨.transfer ⟨p, sub⟩ to none x none, none, none⟩) :
    ∃ y' i, y.exec (.transfer p ⟨sub, to, x, none, none, none⟩) = (y', .transfer (.ok i)) ∧
      icrc1BalanceOf y'.ledger ⟨p, sub⟩ = icrc1BalanceOf y.ledger ⟨p, sub⟩ - (x + 100000000) ∧
      icrc1BalanceOf y'.ledger to = icrc1BalanceOf y.ledger to + x := by
  have hreq : Spec.transferRequest (.transfer p ⟨sub, to, x, none, none, none⟩) =
      some ⟨⟨p, sub⟩, to, none, x, none, none, none⟩ := rfl
  have hok := (C63_transfer_iff h hreq hn).mpr ⟨⟨⟨hp, hto, fun sp hsp => nomatch hsp⟩, Or.inl rfl,
    (fun m hm => nomatch hm), (fun c hc => nomatch hc), hb, (fun sp hsp => nomatch hsp.1)⟩,
    (fun ⟨hc, _⟩ => nomatch hc), fun hs => hne hs.1⟩
  obtain ⟨i, hi⟩ := hok
  rcases exec_transfer h.inv hreq with ⟨s', h1, _, _, _, he, _⟩ | ⟨_, _, h1, _⟩ | ⟨h1, _⟩
  · have hr : (y.exec (.transfer p ⟨sub, to, x, none, none, none⟩)).2 = .transfer (.ok i) := by
      revert hi
      simp only [Sys.exec]
      unfold Sys.commit
      split <;> intro hi <;> cases hi
      rfl
    obtain ⟨hbal, _⟩ := he.transfer
    have b1 := hbal ⟨p, sub⟩
    have b2 := hbal to
    simp only [show ¬Spec.SameAccount (⟨p, sub⟩ : Account) to from fun hs => hne ⟨hs.1.symm, hs.2.symm⟩,
      hne, show Spec.SameAccount (⟨p, sub⟩ : Account) ⟨p, sub⟩ from ⟨rfl, rfl⟩,
      show Spec.SameAccount to to from ⟨rfl, rfl⟩, if_true, if_false] at b1 b2
    refine ⟨{ y with ledger := s' }, i, Prod.ext h1 hr, ?_, ?_⟩
    · show balanceOf s' _ = balanceOf y.ledger _ - _; omega
    · show balanceOf s' _ = balanceOf y.ledger _ + _; omega
  · rw [h1] at hi; cases hi
  · rw [h1] at hi; cases hi

/-- **C84**: any allowance can be revoked for one fee. -/
theorem C84_revoke [Crypto] {y : Sys} (h : Reachable y) (p : Principal) (sub : Option Subaccount)
    (sp : Account) (hne : p ≠ sp.owner) (hp : p ≠ managementCanister)
    (hsp : sp.owner ≠ managementCanister) (hnow : y.now < 18446744073709551615)
    (hb : 100000000 ≤ icrc1BalanceOf y.ledger ⟨p, sub⟩)
    (hn : Spec.NoClash y.ledger ⟨.approve ⟨p, sub⟩ sp 0 none none none, none, none⟩) :
    ∃ y' i, y.exec (.approve p ⟨sub, sp, 0, none, none, none, none, none⟩) = (y', .approve (.ok i)) ∧
      ∀ t, Spec.spendable y'.ledger ⟨p, sub⟩ sp t = 0 := by
  have hreq : Spec.approveRequest (.approve p ⟨sub, sp, 0, none, none, none, none, none⟩) =
      some ⟨⟨p, sub⟩, sp, 0, none, none, none, none, none⟩ := rfl
  have hok := (C60_approve_iff h hreq (by
    unfold Spec.ApproveReq.transaction
    rw [Nat.zero_min]; exact hn)).mpr ⟨⟨hne, ⟨hp, hsp⟩, (fun c hc => nomatch hc), Or.inl rfl,
    (fun m hm => nomatch hm), (fun c hc => nomatch hc), hb, hnow⟩, fun ⟨hc, _⟩ => nomatch hc⟩
  obtain ⟨i, hi⟩ := hok
  have hr : (y.exec (.approve p ⟨sub, sp, 0, none, none, none, none, none⟩)).2 =
      .approve (.ok i) := by
    revert hi
    simp only [Sys.exec]
    unfold Sys.commit
    split <;> intro hi <;> cases hi
    rfl
  exact ⟨_, i, Prod.ext rfl hr, fun t => C83_revoked h hreq rfl hi t⟩

open Toy in
/-- In the example history the hypotheses hold for alice, who has outstanding calls and granted
an allowance. -/
example : Reachable demo ∧ ¬Spec.IsUserPrincipal target ∧
    100000000 < icrc1BalanceOf demo.ledger (acc alice) ∧
    Spec.NoClash demo.ledger ⟨.burn (acc alice) none
      (icrc1BalanceOf demo.ledger (acc alice) - 100000000), none, some (Spec.burnMemo (some target))⟩ ∧
    Spec.NoClash demo.ledger ⟨.transfer (acc alice) (acc bob) none 5 none, none, none⟩ ∧
    Spec.NoClash demo.ledger ⟨.approve (acc alice) (acc bob) 0 none none none, none, none⟩ ∧
    demo.now < 18446744073709551615 ∧
    Spec.spendable demo.ledger (acc alice) (acc bob) demo.now = 399995000 := by
  refine ⟨demo_reachable, by unfold Spec.IsUserPrincipal; decide, ?_⟩
  decide +kernel

end CyclesLedger
