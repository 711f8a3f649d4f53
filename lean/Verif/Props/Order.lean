import Verif.Props.Accounting
import Verif.Proof.Dedup
/-!
# The order of the transactions

C74.
-/
namespace CyclesLedger

/-- Change of the balance of `k` by a transaction: every transaction but a mint costs its payer
100000000. -/
def Spec.txDelta (t : Transaction) (k : AccountKey) : Int :=
  match t.operation with
  | .mint to amount _ => if Spec.idOf to = k then amount else 0
  | .transfer frm to _ amount _ =>
    (if Spec.idOf to = k then (amount : Int) else 0) -
      (if Spec.idOf frm = k then (amount : Int) + 100000000 else 0)
  | .burn frm _ amount => - (if Spec.idOf frm = k then (amount : Int) + 100000000 else 0)
  | .approve frm _ _ _ _ _ => - (if Spec.idOf frm = k then (100000000 : Int) else 0)

/-- Change of the total supply by a transaction. -/
def Spec.txSupply (t : Transaction) : Int :=
  match t.operation with
  | .mint _ amount _ => amount
  | .transfer _ _ _ _ _ => - 100000000
  | .burn _ _ amount => - ((amount : Int) + 100000000)
  | .approve _ _ _ _ _ _ => - 100000000

theorem perm_sum {l l' : List Int} (h : l.Perm l') : l.sum = l'.sum := by
  induction h with
  | nil => rfl
  | cons x _ ih => simp only [List.sum_cons, ih]
  | swap x y l => simp only [List.sum_cons]; omega
  | trans _ _ ih1 ih2 => exact ih1.trans ih2

theorem block_fee [Crypto] {y : Sys} (h : Reachable y) {b : Block} (hb : b ∈ y.ledger.blocks)
    (hm : ∀ to x f, b.transaction.operation ≠ .mint to x f) : Spec.fee b = 100000000 := by
  have h1 := (C40_block_fee h b hb).1
  unfold statedFee at h1
  unfold Spec.fee
  cases ho : b.transaction.operation with
  | mint to x f => exact absurd ho (hm to x f)
  | _ =>
    rw [ho] at h1
    cases he : b.effectiveFee <;> simp_all

theorem delta_tx [Crypto] {y : Sys} (h : Reachable y) {b : Block} (hb : b ∈ y.ledger.blocks)
    (k : AccountKey) : Spec.delta b k = Spec.txDelta b.transaction k ∧
      Spec.supplyDelta b = Spec.txSupply b.transaction := by
  unfold Spec.delta Spec.txDelta Spec.supplyDelta Spec.txSupply
  cases ho : b.transaction.operation with
  | mint to x f => exact ⟨rfl, rfl⟩
  | _ =>
    have := block_fee h hb (by rw [ho]; intro _ _ _ h; cases h)
    simp only [this]
    exact ⟨rfl, rfl⟩

/-- **C74**: the balances and the supply are sums over the transactions in the log, in any
order. -/
theorem C74_sums [Crypto] {y : Sys} (h : Reachable y) {ts : List Transaction}
    (hp : ts.Perm (y.ledger.blocks.map Block.transaction)) :
    (∀ a : Account, (icrc1BalanceOf y.ledger a : Int) =
      (ts.map fun t => Spec.txDelta t (Spec.idOf a)).sum) ∧
    (icrc1TotalSupply y.ledger : Int) = (ts.map Spec.txSupply).sum := by
  refine ⟨fun a => ?_, ?_⟩
  · rw [perm_sum (hp.map _), C02_balances_replay h a, List.map_map]
    unfold Spec.balance
    congr 1
    apply List.map_congr_left
    intro b hb
    exact (delta_tx h hb _).1
  · rw [perm_sum (hp.map _), C02_supply_replay h, List.map_map]
    unfold Spec.supply
    congr 1
    apply List.map_congr_left
    intro b hb
    exact (delta_tx h hb (Spec.idOf ⟨managementCanister, none⟩)).2

/-- **C74**: so two ledgers that recorded the same transactions, in whatever order, agree on all
balances and on the supply. -/
theorem C74_order_irrelevant [Crypto] {y y' : Sys} (h : Reachable y) (h' : Reachable y')
    (hp : (y.ledger.blocks.map Block.transaction).Perm (y'.ledger.blocks.map Block.transaction)) :
    (∀ a : Account, icrc1BalanceOf y.ledger a = icrc1BalanceOf y'.ledger a) ∧
    icrc1TotalSupply y.ledger = icrc1TotalSupply y'.ledger := by
  have h1 := C74_sums h (List.Perm.refl _)
  have h2 := C74_sums h' hp
  refine ⟨fun a => ?_, ?_⟩
  · have := (h1.1 a).trans (h2.1 a).symm
    omega
  · have := h1.2.trans h2.2.symm
    omega

open Toy in
/-- Two transfers in two orders. -/
example : Reachable (demo.run [xfer alice carol 7, xfer alice bob 9]) ∧
    Reachable (demo.run [xfer alice bob 9, xfer alice carol 7]) ∧
    ((demo.run [xfer alice carol 7, xfer alice bob 9]).ledger.blocks.map Block.transaction).Perm
      ((demo.run [xfer alice bob 9, xfer alice carol 7]).ledger.blocks.map Block.transaction) ∧
    (demo.run [xfer alice carol 7, xfer alice bob 9]).ledger.blocks.map Block.transaction ≠
      (demo.run [xfer alice bob 9, xfer alice carol 7]).ledger.blocks.map Block.transaction :=
  ⟨demo_reachable.run _, demo_reachable.run _, by decide +kernel, by decide +kernel⟩

end CyclesLedger
