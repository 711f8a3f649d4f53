import Verif.Proof.Cases
import Verif.Proof.Toy
import Verif.Props.Spending
/-!
# Installation

C69.
-/
namespace CyclesLedger

/-- What a list of initial balances gives to an account. -/
def Spec.given (l : List (Account × Nat)) (a : Account) : Nat :=
  ((l.filter (fun e => decide (Spec.SameAccount a e.1))).map Prod.snd).sum

theorem mintInitial_iff [Crypto] {now : Nat} {s : State} (hi : LInv now s)
    (l : List (Account × Nat)) :
    (∃ s', mintInitial s now l = some s') ↔
      s.cache.totalSupply + (l.map Prod.snd).sum < 2 ^ 128 := by
  induction l generalizing s with
  | nil =>
    have := hi.bound
    rw [U128MAX_eq] at this
    simp [mintInitial]
    omega
  | cons x xs ih =>
    obtain ⟨a, amount⟩ := x
    have hc := mint_class hi a amount none
    simp only [mintInitial, List.map_cons, List.sum_cons]
    cases hm : mint s a amount none now with
    | ok i s1 =>
      obtain ⟨_, ha⟩ := mint_ok hm
      have he := ha.effect hi
      have := (Effect.mint he).2.1
      simp only
      rw [ih he.inv, this]
      omega
    | err e s1 =>
      rw [hm] at hc
      simp only at hc
      rw [U128MAX_eq] at hc
      simp
      omega
    | trap =>
      rw [hm] at hc
      simp [Spec.MemoFits] at hc

theorem mintInitial_spec [Crypto] {now : Nat} {s s' : State} (hi : LInv now s)
    {l : List (Account × Nat)} (h : mintInitial s now l = some s') :
    (∃ new, s'.blocks = s.blocks ++ new ∧
      new.map (fun b => (b.transaction, b.timestamp)) =
        l.map (fun e => ((⟨.mint e.1 e.2 100000000, none, none⟩ : Transaction), now))) ∧
    (∀ a, balanceOf s' a = balanceOf s a + Spec.given l a) ∧
    s'.cache.totalSupply = s.cache.totalSupply + (l.map Prod.snd).sum ∧
    (∀ k, s'.approvals.get k = s.approvals.get k) := by
  induction l generalizing s with
  | nil =>
    simp only [mintInitial, Option.some.injEq] at h
    subst h
    exact ⟨⟨[], by simp, rfl⟩, fun a => by simp [Spec.given], by simp, fun _ => rfl⟩
  | cons x xs ih =>
    obtain ⟨a, amount⟩ := x
    simp only [mintInitial] at h
    split at h
    · rename_i i s1 hm
      obtain ⟨_, ha⟩ := mint_ok hm
      have he := ha.effect hi
      obtain ⟨m1, m2, _⟩ := Effect.mint he
      obtain ⟨⟨new, h1, h2⟩, h3, h4, h5⟩ := ih he.inv h
      refine ⟨⟨mkBlock s ⟨.mint a amount FEE, none, none⟩ now :: new, ?_, ?_⟩, ?_, ?_, ?_⟩
      · rw [h1, he.blocks, List.append_assoc]; rfl
      · rw [List.map_cons, h2, List.map_cons, ← FEE_eq]; rfl
      · intro b
        rw [h3, m1]
        by_cases hs : Spec.SameAccount b a <;> simp [Spec.given, hs] <;> omega
      · rw [h4, m2, List.map_cons, List.sum_cons]; omega
      · intro k
        rw [h5, ha.allow k]
        rfl
    · cases h

/-- **C69**: the canister can be installed exactly if the initial balances add up to less than
2^128. -/
theorem C69_installs [Crypto] (config : Config) (now cycles : Nat) :
    (∃ y, Sys.init config now cycles = some y) ↔
      ((config.initialBalances.getD []).map Prod.snd).sum < 2 ^ 128 := by
  have hi := LInv.empty (now := min now U64MAX) (Nat.min_le_right _ _)
  have h1 := mintInitial_iff hi (config.initialBalances.getD [])
  have h0 : (State.empty).cache.totalSupply = 0 := rfl
  rw [h0, Nat.zero_add] at h1
  rw [← h1]
  unfold Sys.init initLedger
  cases mintInitial State.empty (min now U64MAX) (config.initialBalances.getD []) <;> simp

/-- **C69**: after installation the log holds one mint per initial balance, in the order given
and stamped with the time of installation; every account has what the list gives to it, however
it is written and however often it is listed, without any fee; there are no allowances and no
outstanding calls, and the configuration is the one given. -/
theorem C69_installed [Crypto] {config : Config} {now cycles : Nat} {y : Sys}
    (h : Sys.init config now cycles = some y) :
    y.ledger.blocks.map (fun b => (b.transaction, b.timestamp)) =
      (config.initialBalances.getD []).map (fun e =>
        ((⟨.mint e.1 e.2 100000000, none, none⟩ : Transaction), y.now)) ∧
    (∀ a, icrc1BalanceOf y.ledger a = Spec.given (config.initialBalances.getD []) a) ∧
    icrc1TotalSupply y.ledger = ((config.initialBalances.getD []).map Prod.snd).sum ∧
    (∀ a sp t, Spec.spendable y.ledger a sp t = 0) ∧
    y.ledger.config = config ∧ y.pending = [] ∧ y.cycles = cycles := by
  have hi := LInv.empty (now := min now U64MAX) (Nat.min_le_right _ _)
  unfold Sys.init initLedger at h
  rw [Option.map_eq_some_iff] at h
  obtain ⟨s, h1, rfl⟩ := h
  split at h1
  · cases h1
  · rename_i s0 hm
    simp only [Option.some.injEq] at h1
    subst h1
    obtain ⟨⟨new, e1, e2⟩, e3, e4, e5⟩ := mintInitial_spec hi hm
    have hb : s0.blocks = new := by simpa [State.empty] using e1
    refine ⟨by simp only; rw [hb, e2], ?_, ?_, ?_, rfl, rfl, rfl⟩
    · intro a
      have := e3 a
      simpa [icrc1BalanceOf, balanceOf, State.empty, SMap.get_empty] using this
    · simpa [icrc1TotalSupply, State.empty] using e4
    · intro a sp t
      have : s0.approvals.get (a.key, sp.key) = none := by
        rw [e5]; exact SMap.get_empty _
      simp [Spec.spendable, Spec.stored, this, Spec.live]

open Toy in
/-- Three initial balances, two of them of one account written in two ways; and two that are too
much together. -/
example :
    ((Sys.init ⟨100, none, some [(acc alice, 5), (acc bob, 7), (⟨alice, some zeroSub⟩, 3)]⟩ T 0).map
      (fun y => (icrc1BalanceOf y.ledger (acc alice), icrc1TotalSupply y.ledger,
        y.ledger.blocks.length))) = some (8, 15, 3) ∧
    (Sys.init ⟨100, none, some [(acc alice, 2 ^ 128 - 1), (acc bob, 1)]⟩ T 0).isNone = true := by
  decide +kernel

end CyclesLedger
