import Verif.Props.Accounting
/-!
# What is stored

C48 and C59: which accounts have an entry in the table of balances.
-/
namespace CyclesLedger

/-- **C59**: an account has an entry exactly if its balance is positive, or if it was credited with
nothing when it was empty and has not been touched since. -/
theorem C59_stored_balances [Crypto] {y : Sys} (h : Reachable y) (k : AccountKey) :
    y.ledger.balances.get k ≠ none ↔
      0 < Spec.balance y.ledger.blocks k ∨ Spec.EmptyCredit y.ledger.blocks k := by
  have hi := h.inv.ledger
  have hb := hi.bal k
  rw [← hi.zeros k]
  unfold balAt at hb
  cases hg : y.ledger.balances.get k with
  | none =>
    rw [hg] at hb
    simp only [Option.getD_none] at hb
    constructor
    · intro h; exact absurd rfl h
    · rintro (h | h)
      · omega
      · cases h
  | some v =>
    rw [hg] at hb
    simp only [Option.getD_some] at hb
    refine ⟨fun _ => ?_, fun _ => by simp⟩
    by_cases hv : v = 0
    · right; rw [hv]
    · left; omega

/-- **C48**: as long as nothing was ever credited with zero cycles, the accounts stored are the
accounts with a positive balance. -/
theorem C48_no_empty_balances_partial [Crypto] {y : Sys} (h : Reachable y)
    (hz : ∀ b ∈ y.ledger.blocks, ∀ k, Spec.credits b k ≠ some 0) :
    (∀ k, y.ledger.balances.get k ≠ none ↔ 0 < Spec.balance y.ledger.blocks k) ∧
    ∃ ks : List AccountKey, ks.Nodup ∧ (∀ k, k ∈ ks ↔ 0 < Spec.balance y.ledger.blocks k) ∧
      y.ledger.balances.len = ks.length := by
  have key : ∀ k, y.ledger.balances.get k ≠ none ↔ 0 < Spec.balance y.ledger.blocks k := by
    intro k
    rw [C59_stored_balances h k]
    refine ⟨?_, Or.inl⟩
    rintro (h | ⟨pre, b, suf, he, hc, _⟩)
    · exact h
    · exact absurd hc (hz b (by rw [he]; simp) k)
  refine ⟨key, y.ledger.balances.entries.map Prod.fst, keys_nodup _, ?_, ?_⟩
  · intro k
    rw [← key k]
    constructor
    · intro hk
      rw [List.mem_map] at hk
      obtain ⟨⟨k', v⟩, hm, rfl⟩ := hk
      rw [(SMap.get_eq_some_iff _ _ _).mpr hm]
      simp
    · intro hk
      obtain ⟨v, hv⟩ := Option.ne_none_iff_exists'.mp hk
      exact List.mem_map_of_mem (f := Prod.fst) ((SMap.get_eq_some_iff _ _ _).mp hv)
  · simp [SMap.len]

open Toy in
/-- A history that credits nothing with zero, in which an account was emptied. -/
example : ∃ y, Reachable y ∧ (∀ b ∈ y.ledger.blocks, ∀ k, Spec.credits b k ≠ some 0) ∧
    y.ledger.balances.len = 1 ∧ y.ledger.blocks.length = 2 :=
  ⟨start.run [dep alice 1000000000, xfer alice bob 800000000], run_reachable _, by
    have h : ∀ b ∈ (start.run [dep alice 1000000000, xfer alice bob 800000000]).ledger.blocks,
        (match b.transaction.operation with
          | .mint _ x _ => x | .transfer _ _ _ x _ => x | _ => 1) ≠ 0 := by decide +kernel
    intro b hb k
    have := h b hb
    unfold Spec.credits
    split at this
    · rename_i to x f hop
      rw [hop]
      show ¬(if Spec.idOf to = k then some x else none) = some 0
      split
      · intro h; cases h; exact this rfl
      · simp
    · rename_i to _ x f hop
      rw [hop]
      show ¬(if Spec.idOf to = k then some x else none) = some 0
      split
      · intro h; cases h; exact this rfl
      · simp
    · simp_all, by decide +kernel, by decide +kernel⟩

open Toy in
/-- **C48** fails: a transfer of nothing to an account that does not exist leaves an entry with
balance zero. -/
theorem C48_refuted : ∃ (y : Sys) (k : AccountKey), Reachable y ∧
    y.ledger.balances.get k = some 0 ∧ Spec.balance y.ledger.blocks k = 0 ∧
    y.ledger.balances.len = 2 :=
  ⟨start.run [dep alice 1000000000, xfer alice bob 0], (acc bob).key, run_reachable _,
    by decide +kernel, by decide +kernel, by decide +kernel⟩

open Toy in
/-- Both cases of **C59**, and that of an account whose empty entry went away again. -/
example :
    Spec.EmptyCredit (start.run [dep alice 1000000000, xfer alice bob 0]).ledger.blocks
      (acc bob).key ∧
    (start.run [dep alice 1000000000, xfer alice bob 0, xfer alice bob 200000000,
      appr bob alice 1, appr bob alice 2]).ledger.balances.get (acc bob).key = none := by
  refine ⟨?_, by decide +kernel⟩
  rw [← (run_reachable [dep alice 1000000000, xfer alice bob 0]).inv.ledger.zeros]
  decide +kernel

end CyclesLedger
