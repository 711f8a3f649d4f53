import Verif.Props.Integrity
import Verif.Proof.Machine
/-!
# C91: `penalize`

No endpoint calls `penalize`.  It is safe to call in any state the ledger can be in.
-/
namespace CyclesLedger

/-- **C91**: an account that holds less than the fee is not penalized, and nothing changes. -/
theorem C91_poor [Crypto] {y : Sys} {a : Account} (h : icrc1BalanceOf y.ledger a < 100000000)
    (now : Nat) : penalize y.ledger a now = some (none, y.ledger) := by
  have h' : balanceOf y.ledger a < 100000000 := h
  unfold penalize
  rw [FEE_eq, if_pos h']

/-- **C91**: otherwise exactly the fee is burnt: one block with the index and the hash returned
records it, chained to the last one and certified; balances, supply and allowances are again those
of the log, and nobody else is affected.  It never traps. -/
theorem C91_penalized [Crypto] {y : Sys} (hr : Reachable y) {a : Account}
    (h : 100000000 ≤ icrc1BalanceOf y.ledger a) :
    ∃ s' b, penalize y.ledger a y.now = some (some (y.ledger.blocks.length, b.hash), s') ∧
      s'.blocks = y.ledger.blocks ++ [b] ∧
      b.transaction = ⟨.burn a none 100000000, none, some (List.replicate 32 255)⟩ ∧
      b.timestamp = y.now ∧ b.phash = y.ledger.blocks.getLast?.map Block.hash ∧ Spec.fee b = 0 ∧
      (∀ c, icrc1BalanceOf s' c =
        icrc1BalanceOf y.ledger c - if Spec.SameAccount c a then 100000000 else 0) ∧
      icrc1TotalSupply s' + 100000000 = icrc1TotalSupply y.ledger ∧
      (∀ c, (icrc1BalanceOf s' c : Int) = Spec.balance s'.blocks (Spec.idOf c)) ∧
      (icrc1TotalSupply s' : Int) = Spec.supply s'.blocks ∧
      (∀ c sp, Spec.stored s' c sp = Spec.stored y.ledger c sp) ∧
      Spec.allowances s'.blocks = Spec.allowances y.ledger.blocks ∧
      s'.certifiedData = some (tipHashTree s').digest ∧
      (∃ v, (tipHashTree s').lookup kLastBlockIndex = some v ∧
        Spec.readUnsigned v = some (y.ledger.blocks.length, [])) ∧
      (tipHashTree s').lookup kLastBlockHash = some b.hash.val := by
  have hi := hr.inv.ledger
  have hb : FEE ≤ balAt y.ledger a.key := by rw [FEE_eq]; exact h
  obtain ⟨s1, hs1⟩ := debit_isSome hb (Nat.le_trans hb (by rw [hi.sum]; exact SMap.le_sum _ _))
  obtain ⟨hsame, hbal, hsup, hsum, hle, _⟩ := debit_eq_some hs1
  let b : Block := ⟨⟨.burn a none FEE, none, some PENALIZE_MEMO⟩, y.now, s1.cache.phash, some 0⟩
  have hp : penalize y.ledger a y.now = some (some (y.ledger.blocks.length, b.hash), pushBlock s1 b) := by
    unfold penalize
    have h' : ¬balanceOf y.ledger a < FEE := by rw [FEE_eq]; exact Nat.not_lt.mpr h
    rw [if_neg h', hs1]
    simp only []
    rw [emitBlock_eq]
    simp only [pushBlock_blocks, List.length_append, List.length_singleton, Nat.add_sub_cancel,
      hsame.blocks]
    rfl
  have hph : b.phash = y.ledger.blocks.getLast?.map Block.hash := by
    show s1.cache.phash = _
    rw [hsame.phash, hi.phash, computeTip_fst]
  have htree : (pushBlock s1 b).cache.hashTree = (computeTip (y.ledger.blocks ++ [b])).2 := by
    rw [pushBlock_tree, hsame.tree, hsame.blocks, hi.tree, populateTree_tip]
  have htip : tipHashTree (pushBlock s1 b) = .fork (.labeled kLastBlockHash (.leaf b.hash.val))
      (.labeled kLastBlockIndex (.leaf (leb128 y.ledger.blocks.length))) := by
    unfold tipHashTree
    rw [htree, computeTip_snoc]
    rfl
  have hbal' : ∀ c, icrc1BalanceOf (pushBlock s1 b) c =
      icrc1BalanceOf y.ledger c - if Spec.SameAccount c a then 100000000 else 0 := by
    intro c
    have := hbal c.key
    show balAt (pushBlock s1 b) c.key = balAt y.ledger c.key - _
    rw [balAt_pushBlock, this, FEE_eq]
    congr 1
    by_cases hk : a.key = c.key
    · rw [if_pos hk, if_pos ((spec_key_iff c a).mp hk)]
    · rw [if_neg hk, if_neg (fun hs => hk ((spec_key_iff c a).mpr hs))]
  refine ⟨pushBlock s1 b, b, hp, ?_, ?_, rfl, hph, rfl, hbal', ?_, ?_, ?_, ?_, ?_, ?_, ?_, ?_⟩
  · rw [pushBlock_blocks, hsame.blocks]
  · show (⟨.burn a none FEE, none, some PENALIZE_MEMO⟩ : Transaction) = _
    rw [FEE_eq]; rfl
  · show (pushBlock s1 b).cache.totalSupply + 100000000 = y.ledger.cache.totalSupply
    rw [pushBlock_supply, hsup]
    rw [FEE_eq] at hle ⊢
    omega
  · intro c
    have h1 := hi.bal c.key
    have h2 := hbal' c
    have h3 : balAt y.ledger c.key = icrc1BalanceOf y.ledger c := rfl
    rw [pushBlock_blocks, hsame.blocks, balance_snoc, Spec.idOf_eq, ← h1, h3, h2]
    have h4 : Spec.delta b c.key = -(if Spec.SameAccount c a then (100000000 : Int) else 0) := by
      show -(if Spec.idOf a = c.key then (FEE : Int) + 0 else 0) = _
      rw [Spec.idOf_eq, FEE_eq]
      by_cases hk : a.key = c.key
      · rw [if_pos hk, if_pos ((spec_key_iff c a).mp hk)]; rfl
      · rw [if_neg hk, if_neg (fun hs => hk ((spec_key_iff c a).mpr hs))]
    rw [h4]
    by_cases hk : Spec.SameAccount c a
    · have h5 : balAt y.ledger a.key = balAt y.ledger c.key := by rw [(spec_key_iff c a).mpr hk]
      rw [if_pos hk, if_pos hk]
      rw [FEE_eq] at hb
      omega
    · rw [if_neg hk, if_neg hk]
      omega
  · have h1 := hi.supply
    rw [pushBlock_blocks, hsame.blocks, supply_snoc, ← h1]
    show ((pushBlock s1 b).cache.totalSupply : Int) = _ + -((FEE : Int) + 0)
    rw [pushBlock_supply, hsup]
    omega
  · intro c sp
    unfold Spec.stored
    rw [pushBlock_approvals, hsame.approvals]
  · rw [pushBlock_blocks, hsame.blocks]
    unfold Spec.allowances
    rw [List.foldl_append]
    rfl
  · rw [pushBlock_cert, ← pushBlock_tree]
    rfl
  · rw [htip]
    have : kLastBlockHash ≠ kLastBlockIndex := by decide
    refine ⟨leb128 y.ledger.blocks.length, by simp [HashTree.lookup, this], ?_⟩
    have := readUnsigned_leb128 y.ledger.blocks.length []
    rwa [List.append_nil] at this
  · rw [htip]
    simp [HashTree.lookup]

open Toy in
/-- Alice can be penalized, target cannot. -/
example : Reachable demo ∧ 100000000 ≤ icrc1BalanceOf demo.ledger (acc alice) ∧
    icrc1BalanceOf demo.ledger (acc target) < 100000000 ∧
    (penalize demo.ledger (acc alice) demo.now).map (fun r => r.1.map (fun x => x.1)) =
      some (some 6) :=
  ⟨demo_reachable, by decide +kernel, by decide +kernel, by decide +kernel⟩

end CyclesLedger
