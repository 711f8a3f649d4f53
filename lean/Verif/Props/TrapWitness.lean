import Verif.Props.Requests
/-!
# A refund that traps

A concrete history in which the answer to a failed `withdraw_from` traps.  On its own
because checking it means running about two hundred messages.

The owner lets 200 approvals expire at the same instant `2000000000`, and re-approves
the spender until that instant as well.  At exactly that time the refund prunes twice a
hundred approvals, which leaves the spender's, reads it as still running
(`allowance` compares `expiry < now`), and tries to approve with an expiry that `approve`
refuses (`expires_at <= now`), which `reimburse_approval` unwraps.
-/
namespace CyclesLedger.Toy

/-- The spender. -/
def dave : Principal := ⟨[9, 9, 9], by decide⟩

/-- `n` approvals by alice that all expire at the same time. -/
def approvals (n : Nat) : List Event := (List.range n).map (fun i =>
  appr alice ⟨[0, UInt8.ofNat (n - i)], by show 2 ≤ 29; decide⟩ 1 (some 2000000000))

def trapHistory : List Event :=
  [dep alice 1000000000000, appr alice dave 900000000, wdrFrom dave alice 300000000] ++
    approvals 200 ++ [appr alice dave 500000000 (some 2000000000)]

/-- The system at time 2000000000, the `deposit_cycles` call outstanding. -/
def trapSystem : Sys := (start.run trapHistory).tick 999999796

theorem trapSystem_reachable : Reachable trapSystem := (run_reachable trapHistory).tick 999999796

/-- The facts about a system, to be computed at one go. -/
def trapFacts (y : Sys) : Bool :=
  decide ((y.exec (.callback 0 (.depositCycles (some (.rejected (some .canisterReject)))))).2 = .trapped) &&
  (match y.pending with
    | [p] => decide (p.kind = .withdrawFrom ∧ p.data.amount = 300000000)
    | _ => false) &&
  decide (y.now = 2000000000) && decide (y.ledger.cache.totalSupply < 1000000000000)

theorem trapSystem_facts : trapFacts trapSystem = true := by decide +kernel

end CyclesLedger.Toy
