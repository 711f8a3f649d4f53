import Verif.Proof.Cases
import Verif.Proof.Config
import Verif.Proof.Toy
import Verif.Spec.Writing
import Verif.Props.Requests
/-!
# Upgrades

C41, C71.
-/
namespace CyclesLedger

/-- What the configuration is after an upgrade: the given fields are changed. -/
def Spec.upgraded (c : Config) (arg : PostUpgradeArg) : Config :=
  match arg with
  | .upgrade (some u) =>
    { maxBlocksPerRequest := match u.maxBlocksPerRequest with
        | some n => n.toNat
        | none => c.maxBlocksPerRequest
      indexId := match u.changeIndexId with
        | some (.setTo p) => some p
        | some .unset => none
        | none => c.indexId
      initialBalances := c.initialBalances }
  | _ => c

/-- **C41**: an upgrade changes nothing but the requested fields of the configuration: not the
log, balances, supply, allowances, what is remembered for deduplication, the tip certificate, the
outstanding calls, the cycles or the time. -/
theorem C41_preserved [Crypto] {y : Sys} (h : Reachable y) (arg : PostUpgradeArg)
    (harg : ∀ c, arg ≠ .init c) :
    ∃ y', y.exec (.upgrade arg) = (y', .silent) ∧
      y'.ledger.blocks = y.ledger.blocks ∧
      (∀ a, icrc1BalanceOf y'.ledger a = icrc1BalanceOf y.ledger a) ∧
      icrc1TotalSupply y'.ledger = icrc1TotalSupply y.ledger ∧
      (∀ a sp t, icrc2Allowance y'.ledger a sp t = icrc2Allowance y.ledger a sp t) ∧
      (∀ a sp, Spec.stored y'.ledger a sp = Spec.stored y.ledger a sp) ∧
      (∀ t, checkDuplicate y'.ledger t = checkDuplicate y.ledger t) ∧
      tipHashTree y'.ledger = tipHashTree y.ledger ∧
      y'.ledger.certifiedData = y.ledger.certifiedData ∧
      y'.ledger.config = Spec.upgraded y.ledger.config arg ∧
      y' = { y with ledger := { y.ledger with config := y'.ledger.config } } := by
  have hi := h.inv.ledger
  have hr := hi.reload_eq
  have main : y.exec (.upgrade arg) =
      ({ y with ledger := { y.ledger with config := Spec.upgraded y.ledger.config arg } }, .silent) := by
    simp only [Sys.exec, postUpgrade, hr]
    cases arg with
    | none => rfl
    | init c => exact absurd rfl (harg c)
    | upgrade o =>
      cases o with
      | none => rfl
      | some u =>
        obtain ⟨n, c⟩ := u
        cases n <;> cases c <;> first | rfl | (rename_i c; cases c <;> rfl)
  exact ⟨_, main, rfl, fun _ => rfl, rfl, fun _ _ _ => rfl, fun _ _ => rfl, fun _ => rfl, rfl, rfl,
    rfl, rfl⟩

/-- **C41**: an upgrade with installation arguments fails and changes nothing. -/
theorem C41_init_refused [Crypto] (y : Sys) (c : Config) :
    y.exec (.upgrade (.init c)) = (y, .trapped) := rfl

open Toy in
/-- The example ledger, upgraded with a new limit and an index canister. -/
example :
    let y' := (demo.exec (.upgrade (.upgrade (some ⟨some 7, some (.setTo target)⟩)))).1
    y'.ledger.config.maxBlocksPerRequest = 7 ∧ y'.ledger.config.indexId = some target ∧
    demo.ledger.config.maxBlocksPerRequest = 100 ∧ demo.ledger.config.indexId = none ∧
    y'.ledger.blocks.length = 6 ∧ y'.ledger.cache.totalSupply = 998600000000 := by
  decide +kernel

/-! ## C71 -/

/-- A history without its upgrades: everything else is sent at the same time as before.  `dt` is
the time since the last event that was kept. -/
def Spec.withoutUpgrades (dt : Nat) : List Event → List Event
  | [] => []
  | ⟨d, .upgrade _⟩ :: es => Spec.withoutUpgrades (dt + d) es
  | ⟨d, m⟩ :: es => ⟨dt + d, m⟩ :: Spec.withoutUpgrades 0 es

/-- The answers to everything but the upgrades. -/
def Spec.otherReplies : List Event → List Reply → List Reply
  | ⟨_, .upgrade _⟩ :: es, _ :: rs => Spec.otherReplies es rs
  | _ :: es, r :: rs => r :: Spec.otherReplies es rs
  | _, _ => []

theorem Sys.tick_tick (y : Sys) (a b : Nat) : (y.tick a).tick b = y.tick (a + b) := by
  unfold Sys.tick
  simp only [Sys.mk.injEq, true_and, and_true]
  omega

theorem exec_upgrade_cfg [Crypto] {y : Sys} (h : Reachable y) (arg : PostUpgradeArg) :
    ∃ c, (y.exec (.upgrade arg)).1 = y.cfg c := by
  by_cases ha : ∃ c, arg = .init c
  · obtain ⟨c, rfl⟩ := ha
    exact ⟨y.ledger.config, by rw [C41_init_refused]; rfl⟩
  · obtain ⟨y', h1, h2⟩ := C41_preserved h arg (fun c hc => ha ⟨c, hc⟩)
    refine ⟨y'.ledger.config, ?_⟩
    rw [h1]
    exact h2.2.2.2.2.2.2.2.2.2

theorem Sys.tick_zero {y : Sys} (h : y.now ≤ U64MAX) : y.tick 0 = y := by
  unfold Sys.tick
  rw [show min (y.now + 0) U64MAX = y.now from by omega]

theorem without_upgrades [Crypto] : ∀ (es : List Event) (y z : Sys) (dt : Nat) (c : Config),
    Reachable z → z = (y.tick dt).cfg c →
    (∃ c' d, z.run es = ((y.run (Spec.withoutUpgrades dt es)).tick d).cfg c') ∧
    Spec.otherReplies es (Spec.replies z es) = Spec.replies y (Spec.withoutUpgrades dt es)
  | [], y, z, dt, c, _, h => ⟨⟨c, dt, h⟩, rfl⟩
  | ⟨d, m⟩ :: es, y, z, dt, c, hz, h => by
    have ht : z.tick d = (y.tick (dt + d)).cfg c := by
      rw [h, ← Sys.tick_tick]; rfl
    have hr : Reachable (z.step ⟨d, m⟩).1 := (hz.tick d).exec m
    by_cases hm : ∃ arg, m = .upgrade arg
    · obtain ⟨arg, rfl⟩ := hm
      obtain ⟨c', hc⟩ := exec_upgrade_cfg (hz.tick d) arg
      exact without_upgrades es y (z.step ⟨d, .upgrade arg⟩).1 (dt + d) c' hr (by
        show ((z.tick d).exec (.upgrade arg)).1 = _
        rw [hc, ht]; rfl)
    · have hx : z.step ⟨d, m⟩ = ((y.step ⟨dt + d, m⟩).1.cfg c, (y.step ⟨dt + d, m⟩).2) := by
        show (z.tick d).exec m = _
        rw [ht]
        exact exec_cfg _ _ _ (fun arg ha => hm ⟨arg, ha⟩)
      have hn : (y.step ⟨dt + d, m⟩).1.now ≤ U64MAX := by
        have := hr.inv.ledger.clock
        rw [hx] at this
        exact this
      have h1 := without_upgrades es (y.step ⟨dt + d, m⟩).1 (z.step ⟨d, m⟩).1 0 c hr (by
        rw [Sys.tick_zero hn, hx])
      have h2 : Spec.withoutUpgrades dt (⟨d, m⟩ :: es) = ⟨dt + d, m⟩ :: Spec.withoutUpgrades 0 es := by
        cases m <;> first | rfl | exact absurd ⟨_, rfl⟩ hm
      have h3 : Spec.otherReplies (⟨d, m⟩ :: es) (Spec.replies z (⟨d, m⟩ :: es)) =
          (z.step ⟨d, m⟩).2 :: Spec.otherReplies es (Spec.replies (z.step ⟨d, m⟩).1 es) := by
        cases m <;> first | rfl | exact absurd ⟨_, rfl⟩ hm
      rw [h2, h3, h1.2, hx]
      exact ⟨h1.1, rfl⟩

theorem run_config [Crypto] : ∀ (es : List Event) (y : Sys) (dt : Nat),
    (y.run (Spec.withoutUpgrades dt es)).ledger.config = y.ledger.config
  | [], _, _ => rfl
  | ⟨d, m⟩ :: es, y, dt => by
    by_cases hm : ∃ arg, m = .upgrade arg
    · obtain ⟨arg, rfl⟩ := hm
      exact run_config es y (dt + d)
    · have h2 : Spec.withoutUpgrades dt (⟨d, m⟩ :: es) = ⟨dt + d, m⟩ :: Spec.withoutUpgrades 0 es := by
        cases m <;> first | rfl | exact absurd ⟨_, rfl⟩ hm
      rw [h2]
      have h3 : ((y.tick (dt + d)).exec m).1.ledger.config = y.ledger.config := by
        have := exec_cfg (y.tick (dt + d)) y.ledger.config m (fun arg ha => hm ⟨arg, ha⟩)
        exact congrArg (fun x => x.1.ledger.config) this
      exact (run_config es _ 0).trans h3

/-- **C71**: upgrades are invisible.  A history and the same history without its upgrades lead to
the same ledger up to the configuration, to the same outstanding calls and cycles, and to the same
answers to everything that is not an upgrade. -/
theorem C71_upgrades_invisible [Crypto] {y : Sys} (h : Reachable y) (es : List Event) :
    (y.run es).ledger = { (y.run (Spec.withoutUpgrades 0 es)).ledger with
      config := (y.run es).ledger.config } ∧
    (y.run es).pending = (y.run (Spec.withoutUpgrades 0 es)).pending ∧
    (y.run es).cycles = (y.run (Spec.withoutUpgrades 0 es)).cycles ∧
    (y.run (Spec.withoutUpgrades 0 es)).ledger.config = y.ledger.config ∧
    Spec.otherReplies es (Spec.replies y es) = Spec.replies y (Spec.withoutUpgrades 0 es) := by
  obtain ⟨⟨c, d, hx⟩, hrep⟩ := without_upgrades es y y 0 y.ledger.config h (by
    rw [Sys.tick_zero h.inv.ledger.clock]; rfl)
  refine ⟨?_, ?_, ?_, run_config es y 0, hrep⟩ <;> (rw [hx]; rfl)

/-- **C71**: no request and no callback depends on the configuration. -/
theorem C71_config_irrelevant [Crypto] (y : Sys) (c : Config) {m : Msg}
    (hm : ∀ arg, m ≠ .upgrade arg) :
    ({ y with ledger := { y.ledger with config := c } } : Sys).exec m =
      ({ (y.exec m).1 with ledger := { (y.exec m).1.ledger with config := c } }, (y.exec m).2) :=
  exec_cfg y c m hm

/-- **C71**: nor does it change the configuration. -/
theorem C71_config_kept [Crypto] (y : Sys) {m : Msg} (hm : ∀ arg, m ≠ .upgrade arg) :
    (y.exec m).1.ledger.config = y.ledger.config :=
  congrArg (fun x => x.1.ledger.config) (exec_cfg y y.ledger.config m hm)

open Toy in
/-- Two upgrades around a transfer, a trapping one, and the callback of the withdrawal that is
outstanding. -/
example :
    let es : List Event := [⟨3, .upgrade (.upgrade (some ⟨some 7, some (.setTo target)⟩))⟩,
      ⟨4, (xfer alice carol 7).msg⟩, ⟨5, .upgrade .none⟩, ⟨6, .upgrade (.init ⟨1, none, none⟩)⟩,
      ⟨7, .callback 0 (.depositCycles (some (.rejected (some .canisterReject))))⟩]
    Reachable demo ∧
    Spec.withoutUpgrades 0 es = [⟨7, (xfer alice carol 7).msg⟩,
      ⟨18, .callback 0 (.depositCycles (some (.rejected (some .canisterReject))))⟩] ∧
    (demo.run es).ledger.config.maxBlocksPerRequest = 7 ∧
    (demo.run (Spec.withoutUpgrades 0 es)).ledger.config.maxBlocksPerRequest = 100 ∧
    (demo.run es).ledger.blocks.length = demo.ledger.blocks.length + 3 ∧
    (Spec.replies demo es).length = 5 ∧
    Spec.okIndex (demo.exec (xfer alice carol 7).msg).2 = some 6 :=
  ⟨demo_reachable, rfl, by decide +kernel, by decide +kernel, by decide +kernel, by decide +kernel,
    by decide +kernel⟩

end CyclesLedger
