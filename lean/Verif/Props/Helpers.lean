import Verif.Model.Helpers
import Verif.Props.Repay
import Verif.Props.Solvency
/-!
# The ledger together with the helper canisters of the tests

C76: the depositor.  C77: the fake CMC.
-/
namespace CyclesLedger

/-! ## C76 -/

/-- The cycles of a call of the depositor that the ledger has not taken. -/
def Spec.untaken : DepositorCall → Nat
  | .sent arg => arg.cycles.val
  | .replied _ _ _ => 0
  | .rejected arg => arg.cycles.val

/-- The cycles that belong to the depositor: at hand, or with a call the ledger has not accepted. -/
def Spec.depositorCycles (d : Duo) : Nat := d.cycles + (d.calls.map Spec.untaken).sum

/-- The block index the ledger has answered a call with. -/
def Spec.answeredWith : DepositorCall → Option Nat
  | .replied _ i _ => some i
  | _ => none

/-- The depositor and the ledger can get there: any reachable ledger, a depositor without calls, then
any events. -/
def DuoReachable [Crypto] (d : Duo) : Prop :=
  ∃ d0 es, Reachable d0.sys ∧ d0.calls = [] ∧ d = Duo.run d0 es

theorem sum_set {α : Type} (f : α → Nat) {x y : α} : ∀ {l : List α} {i : Nat}, l[i]? = some x →
    ((l.set i y).map f).sum + f x = (l.map f).sum + f y
  | [], _, h => by simp at h
  | a :: l, 0, h => by
    simp at h; subst h
    simp only [List.set_cons_zero, List.map_cons, List.sum_cons]
    omega
  | a :: l, i + 1, h => by
    simp only [List.getElem?_cons_succ] at h
    have := sum_set f (y := y) h
    simp only [List.set_cons_succ, List.map_cons, List.sum_cons]
    omega

theorem sum_eraseIdx {α : Type} (f : α → Nat) {x : α} : ∀ {l : List α} {i : Nat}, l[i]? = some x →
    ((l.eraseIdx i).map f).sum + f x = (l.map f).sum
  | [], _, h => by simp at h
  | a :: l, 0, h => by
    simp at h; subst h
    simp only [List.eraseIdx_cons_zero, List.map_cons, List.sum_cons]
    omega
  | a :: l, i + 1, h => by
    simp only [List.getElem?_cons_succ] at h
    have := sum_eraseIdx f h
    simp only [List.eraseIdx_cons_succ, List.map_cons, List.sum_cons]
    omega

theorem filterMap_set_some {α β : Type} (f : α → Option β) {x y : α} {b : β} (hx : f x = none)
    (hy : f y = some b) : ∀ {l : List α} {i : Nat}, l[i]? = some x →
    ((l.set i y).filterMap f).Perm (b :: l.filterMap f)
  | [], _, h => by simp at h
  | a :: l, 0, h => by
    simp at h; subst h
    simp [hx, hy]
  | a :: l, i + 1, h => by
    simp only [List.getElem?_cons_succ] at h
    have ih := filterMap_set_some f hx hy h
    simp only [List.set_cons_succ, List.filterMap_cons]
    cases f a with
    | none => exact ih
    | some c => exact (ih.cons c).trans (List.Perm.swap b c _)

theorem filterMap_set_none {α β : Type} (f : α → Option β) {x y : α} (hx : f x = none)
    (hy : f y = none) : ∀ {l : List α} {i : Nat}, l[i]? = some x →
    (l.set i y).filterMap f = l.filterMap f
  | [], _, h => by simp at h
  | a :: l, 0, h => by
    simp at h; subst h
    simp [hx, hy]
  | a :: l, i + 1, h => by
    simp only [List.getElem?_cons_succ] at h
    have ih := filterMap_set_none f hx hy h
    simp only [List.set_cons_succ, List.filterMap_cons, ih]

/-- What the arrival of a call of the depositor does. -/
theorem Duo.arrive_cases [Crypto] {d : Duo} (h : Reachable d.sys) {dt i : Nat} {arg : DepositorArg}
    (hc : d.calls[i]? = some (.sent arg)) :
    (∃ s' bal, (d.step (.arrive dt i)).1 =
        { d with
          sys := { d.sys.tick dt with ledger := s', cycles := d.sys.cycles + arg.cycles.val }
          calls := d.calls.set i (.replied arg d.sys.ledger.blocks.length bal) } ∧
      Effect (d.sys.tick dt).now d.sys.ledger s'
        ⟨.mint arg.to (arg.cycles.val - 100000000) 100000000, none, arg.memo⟩) ∨
    (d.step (.arrive dt i)).1 =
      { d with sys := d.sys.tick dt, calls := d.calls.set i (.rejected arg) } := by
  rcases exec_deposit (h.tick dt).inv d.self arg.cycles ⟨arg.to, arg.memo⟩ with
    ⟨s', h1, he, _⟩ | ⟨h1, _⟩
  · refine Or.inl ⟨s', balanceOf s' arg.to, ?_, he⟩
    simp only [Duo.step, hc, Sys.step, h1]
    rfl
  · refine Or.inr ?_
    simp only [Duo.step, hc, Sys.step, h1]

structure DuoInv [Crypto] (d : Duo) : Prop where
  sys : Reachable d.sys
  blocks : ∀ arg i bal, DepositorCall.replied arg i bal ∈ d.calls →
    ∃ b, d.sys.ledger.blocks[i]? = some b ∧ b.transaction =
      ⟨.mint arg.to (arg.cycles.val - 100000000) 100000000, none, arg.memo⟩
  distinct : (d.calls.filterMap Spec.answeredWith).Nodup

theorem getElem?_of_prefix {α : Type} {l l' : List α} (h : l <+: l') {i : Nat} {a : α}
    (hi : l[i]? = some a) : l'[i]? = some a := by
  obtain ⟨t, rfl⟩ := h
  rw [List.getElem?_append_left (List.getElem?_eq_some_iff.mp hi).1, hi]

theorem DuoInv.step [Crypto] {d : Duo} (h : DuoInv d) (e : DuoEvent) : DuoInv (d.step e).1 := by
  cases e with
  | ledger e =>
    refine ⟨h.sys.step e, ?_, h.distinct⟩
    intro arg i bal hm
    obtain ⟨b, hb, ht⟩ := h.blocks arg i bal hm
    exact ⟨b, getElem?_of_prefix (step_grows h.sys.inv e).2.2 hb, ht⟩
  | call arg =>
    simp only [Duo.step]
    split
    · refine ⟨h.sys, ?_, ?_⟩
      · intro arg' i bal hm
        simp only [List.mem_append, List.mem_singleton] at hm
        rcases hm with hm | hm
        · exact h.blocks arg' i bal hm
        · cases hm
      · have : List.filterMap Spec.answeredWith [DepositorCall.sent arg] = [] := rfl
        simp only [List.filterMap_append, this, List.append_nil]
        exact h.distinct
    · exact h
  | arrive dt i =>
    cases hc : d.calls[i]? with
    | none => simp only [Duo.step, hc]; exact h
    | some c =>
      cases c with
      | replied => simp only [Duo.step, hc]; exact h
      | rejected => simp only [Duo.step, hc]; exact h
      | sent arg =>
        have hsys : Reachable (d.step (.arrive dt i)).1.sys := by
          have h1 := h.sys.step ⟨dt, .deposit d.self arg.cycles ⟨arg.to, arg.memo⟩⟩
          simp only [Duo.step, hc]
          split <;> exact h1
        have hmem : ∀ x c', x ∈ d.calls.set i c' → x = c' ∨ x ∈ d.calls := by
          intro x c' hx
          rcases List.mem_or_eq_of_mem_set hx with h1 | h1
          · exact Or.inr h1
          · exact Or.inl h1
        rcases Duo.arrive_cases h.sys (dt := dt) hc with ⟨s', bal, h1, he⟩ | h1
        · rw [h1] at hsys ⊢
          have hb := he.blocks
          refine ⟨hsys, ?_, ?_⟩
          · intro arg' j bal' hm
            simp only
            rcases hmem _ _ hm with hx | hx
            · cases hx
              refine ⟨mkBlock d.sys.ledger ⟨.mint arg.to (arg.cycles.val - 100000000) 100000000, none,
                arg.memo⟩ (d.sys.tick dt).now, ?_, rfl⟩
              show s'.blocks[_]? = _
              rw [hb]; simp
            · obtain ⟨b, hb', ht⟩ := h.blocks arg' j bal' hx
              refine ⟨b, getElem?_of_prefix ?_ hb', ht⟩
              rw [hb]; exact List.prefix_append _ _
          · rw [(filterMap_set_some Spec.answeredWith (b := d.sys.ledger.blocks.length) rfl rfl
              hc).nodup_iff, List.nodup_cons]
            refine ⟨?_, h.distinct⟩
            intro hm
            obtain ⟨c, hcm, hci⟩ := List.mem_filterMap.1 hm
            cases c with
            | sent => cases hci
            | rejected => cases hci
            | replied a j bl =>
              cases hci
              obtain ⟨b, hb', _⟩ := h.blocks _ _ _ hcm
              have := (List.getElem?_eq_some_iff.mp hb').1
              omega
        · rw [h1] at hsys ⊢
          refine ⟨hsys, ?_, ?_⟩
          · intro arg' j bal' hm
            rcases hmem _ _ hm with hx | hx
            · cases hx
            · exact h.blocks arg' j bal' hx
          · simp only
            rw [filterMap_set_none Spec.answeredWith rfl rfl hc]
            exact h.distinct
  | answer i =>
    have key : ∀ (cy : Nat), DuoInv { d with cycles := cy, calls := d.calls.eraseIdx i } := by
      intro cy
      refine ⟨h.sys, ?_, ?_⟩
      · intro arg j bal hm
        exact h.blocks arg j bal (List.mem_of_mem_eraseIdx hm)
      · exact h.distinct.sublist ((List.eraseIdx_sublist _ _).filterMap _)
    simp only [Duo.step]
    cases hc : d.calls[i]? with
    | none => exact h
    | some c =>
      cases c with
      | sent => exact h
      | replied => exact key d.cycles
      | rejected => exact key _

theorem DuoReachable.inv [Crypto] {d : Duo} (h : DuoReachable d) : DuoInv d := by
  obtain ⟨d0, es, h0, h1, rfl⟩ := h
  have hi : DuoInv d0 := by
    refine ⟨h0, ?_, ?_⟩
    · rw [h1]; intro _ _ _ h; exact (nomatch h)
    · rw [h1]; exact List.Pairwise.nil
  clear h0 h1
  induction es generalizing d0 with
  | nil => exact hi
  | cons e es ih => exact ih _ (hi.step e)

/-- **C76**: no cycles appear or vanish between depositor and ledger: what happens on behalf of the
depositor leaves the sum unchanged, any other event changes the ledger's cycles only. -/
theorem C76_conserved [Crypto] {d : Duo} (h : DuoReachable d) (e : DuoEvent) :
    (Spec.depositorCycles (d.step e).1 : Int) + (d.step e).1.sys.cycles =
      Spec.depositorCycles d + (match e with
        | .ledger e => (d.sys.step e).1.cycles
        | _ => d.sys.cycles) := by
  have hi := h.inv
  cases e with
  | ledger e => rfl
  | call arg =>
    simp only [Duo.step, Spec.depositorCycles]
    split
    · simp only [List.map_append, List.sum_append, List.map_cons, List.map_nil, List.sum_cons,
        List.sum_nil, Spec.untaken]
      omega
    · rfl
  | arrive dt i =>
    cases hc : d.calls[i]? with
    | none => simp only [Duo.step, hc]
    | some c =>
      cases c with
      | replied => simp only [Duo.step, hc]
      | rejected => simp only [Duo.step, hc]
      | sent arg =>
        rcases Duo.arrive_cases hi.sys (dt := dt) hc with ⟨s', bal, h1, he⟩ | h1
        · rw [h1]
          have := sum_set Spec.untaken (y := .replied arg d.sys.ledger.blocks.length bal) hc
          simp only [Spec.depositorCycles, Spec.untaken] at this ⊢
          omega
        · rw [h1]
          have := sum_set Spec.untaken (y := .rejected arg) hc
          simp only [Spec.depositorCycles, Spec.untaken, Sys.tick] at this ⊢
          omega
  | answer i =>
    simp only [Duo.step]
    cases hc : d.calls[i]? with
    | none => rfl
    | some c =>
      have := sum_eraseIdx Spec.untaken hc
      cases c with
      | sent => rfl
      | replied => simp only [Spec.depositorCycles, Spec.untaken] at this ⊢; omega
      | rejected => simp only [Spec.depositorCycles, Spec.untaken] at this ⊢; omega

/-- **C76**: the depositor never spends cycles it does not have: a call it cannot pay is refused and
changes nothing, otherwise exactly the amount asked for is taken from it. -/
theorem C76_call [Crypto] (d : Duo) (arg : DepositorArg) :
    (d.cycles < arg.cycles.val → d.step (.call arg) = (d, .trapped)) ∧
    (arg.cycles.val ≤ d.cycles →
      (d.step (.call arg)).1.cycles + arg.cycles.val = d.cycles ∧
      (d.step (.call arg)).1.calls = d.calls ++ [.sent arg]) := by
  constructor
  · intro h
    simp only [Duo.step]
    rw [if_neg (by omega)]
  · intro h
    simp only [Duo.step]
    rw [if_pos h]
    exact ⟨by simp only; omega, rfl⟩

/-- **C76**: when the depositor answers with a block index, that block credits the requested account
with the cycles sent less the fee, carries the requested memo, and the cycles are gone; when it
traps, all cycles are back. -/
theorem C76_answer [Crypto] {d : Duo} (h : DuoReachable d) (k : Nat) :
    (∀ i bal, (d.step (.answer k)).2 = .ok i bal → ∃ arg b, d.calls[k]? = some (.replied arg i bal) ∧
      d.sys.ledger.blocks[i]? = some b ∧
      b.transaction = ⟨.mint arg.to (arg.cycles.val - 100000000) 100000000, none, arg.memo⟩ ∧
      (d.step (.answer k)).1.cycles = d.cycles) ∧
    ((d.step (.answer k)).2 = .trapped → ∃ arg, d.calls[k]? = some (.rejected arg) ∧
      (d.step (.answer k)).1.cycles = d.cycles + arg.cycles.val) := by
  have hi := h.inv
  simp only [Duo.step]
  cases hc : d.calls[k]? with
  | none => exact ⟨fun i bal h => (nomatch h), fun h => (nomatch h)⟩
  | some c =>
    cases c with
    | sent arg => exact ⟨fun i bal h => (nomatch h), fun h => (nomatch h)⟩
    | rejected arg => exact ⟨fun i bal h => (nomatch h), fun _ => ⟨arg, rfl, rfl⟩⟩
    | replied arg j b =>
      refine ⟨?_, fun h => (nomatch h)⟩
      intro i bal hr
      cases hr
      obtain ⟨bl, hb, ht⟩ := hi.blocks arg j b (List.mem_of_getElem? hc)
      exact ⟨arg, bl, rfl, hb, ht, rfl⟩

/-- **C76**: a call is executed by the ledger once: it is then answered (with a new block, of its
own) or rejected, in which case the ledger is unchanged apart from the clock. -/
theorem C76_arrive [Crypto] {d : Duo} (h : DuoReachable d) {dt k : Nat} {arg : DepositorArg}
    (hk : d.calls[k]? = some (.sent arg)) :
    (∃ bal, (d.step (.arrive dt k)).1.calls[k]? =
        some (.replied arg d.sys.ledger.blocks.length bal) ∧
      bal = icrc1BalanceOf (d.step (.arrive dt k)).1.sys.ledger arg.to ∧
      100000000 < arg.cycles.val ∧
      (d.step (.arrive dt k)).1.sys.ledger.blocks.length = d.sys.ledger.blocks.length + 1) ∨
    ((d.step (.arrive dt k)).1.calls[k]? = some (.rejected arg) ∧
      (d.step (.arrive dt k)).1.sys = d.sys.tick dt) := by
  have hlt : k < d.calls.length := (List.getElem?_eq_some_iff.mp hk).1
  rcases exec_deposit (h.inv.sys.tick dt).inv d.self arg.cycles ⟨arg.to, arg.memo⟩ with
    ⟨s', h1, he, hgt, _⟩ | ⟨h1, _⟩
  · refine Or.inl ⟨balanceOf s' arg.to, ?_, ?_, hgt, ?_⟩
    · simp only [Duo.step, hk, Sys.step, h1]
      rw [List.getElem?_set_self hlt]
      rfl
    · simp only [Duo.step, hk, Sys.step, h1]
      rfl
    · simp only [Duo.step, hk, Sys.step, h1]
      rw [he.blocks]
      simp [Sys.tick]
  · refine Or.inr ⟨?_, ?_⟩
    · simp only [Duo.step, hk, Sys.step, h1]
      rw [List.getElem?_set_self hlt]
    · simp only [Duo.step, hk, Sys.step, h1]

/-- **C76**: answers to different calls name different blocks, and every answer names a block of the
ledger, so that the properties of the ledger apply. -/
theorem C76_distinct [Crypto] {d : Duo} (h : DuoReachable d) :
    Reachable d.sys ∧ (d.calls.filterMap Spec.answeredWith).Nodup :=
  ⟨h.inv.sys, h.inv.distinct⟩

open Toy in
/-- A depositor with 10^12 cycles: one call succeeds, one is rejected as it does not exceed the
fee, a third one cannot be paid. -/
def Toy.duo : Duo := Duo.run ⟨demo, carol, 1000000000000, []⟩
  [.call ⟨900000000000, acc bob, some [1, 2]⟩, .call ⟨100000000, acc bob, none⟩,
   .arrive 5 1, .ledger ⟨1, .upgrade .none⟩, .arrive 5 0]

open Toy in
example : DuoReachable duo ∧
    duo.calls = [.replied ⟨900000000000, acc bob, some [1, 2]⟩ demo.ledger.blocks.length
      (icrc1BalanceOf duo.sys.ledger (acc bob)), .rejected ⟨100000000, acc bob, none⟩] ∧
    duo.cycles = 99900000000 ∧ Spec.depositorCycles duo = 100000000000 ∧
    (duo.step (.call ⟨99900000001, acc bob, none⟩)).2 = .trapped ∧
    (duo.step (.answer 1)).2 = .trapped ∧ (duo.step (.answer 1)).1.cycles = 100000000000 :=
  ⟨⟨_, _, demo_reachable, rfl, rfl⟩, by decide +kernel, by decide +kernel, by decide +kernel,
    by decide +kernel, by decide +kernel, by decide +kernel⟩

/-! ## C77 -/

/-- The fake CMC answers the outstanding call `p` with `r` and `refund` cycles. -/
def Spec.FakeAnswer (c : FakeCmc) (mgmt : List MgmtAnswer) (p : Pending) (r : CmcResult)
    (refund : Nat) : Prop :=
  ∃ args c', p.call.body = .createCanister args ∧
    c.answer args p.call.cycles mgmt = some (c', r, refund)

/-- It has been told to claim a larger refund than it was sent cycles. -/
def Spec.ToldToLie (c : FakeCmc) (cycles : Nat) : Prop :=
  ∃ a, c.failNext = some (.refunded a) ∧ cycles < a.val

theorem FakeCmc.create_cases (mgmt : List MgmtAnswer) {r : CmcResult}
    (h : FakeCmc.create mgmt = some r) : (∃ p, r = .created p) ∨
      (r = .callError (.rejected (some .canisterError)) ∧ MgmtAnswer.rejected ∈ mgmt) := by
  induction mgmt with
  | nil => cases h
  | cons a t ih =>
    cases a with
    | created p => cases h; exact Or.inl ⟨p, rfl⟩
    | rejected => cases h; exact Or.inr ⟨rfl, by simp⟩
    | taken =>
      rcases ih h with h1 | ⟨h1, h2⟩
      · exact Or.inl h1
      · exact Or.inr ⟨h1, List.mem_cons_of_mem _ h2⟩

/-- The possible answers. -/
theorem FakeCmc.answer_cases {c c' : FakeCmc} {args : CmcArgs} {cycles : Nat}
    {mgmt : List MgmtAnswer} {r : CmcResult} {refund : Nat}
    (h : c.answer args cycles mgmt = some (c', r, refund)) :
    (cycles < 100000000000 ∧ r = .refunded cycles ∧ refund = cycles) ∨
    (100000000000 ≤ cycles ∧
      ((∃ a, c.failNext = some (.refunded a) ∧ r = .refunded a.val ∧
          refund = if a.val ≤ cycles then a.val else 0) ∨
       (c.failNext = some .refundFailed ∧ r = .refundFailed ∧ refund = 0) ∨
       (c.failNext = none ∧ refund = 0 ∧ ((∃ p, r = .created p) ∨
          (r = .callError (.rejected (some .canisterError)) ∧ MgmtAnswer.rejected ∈ mgmt))))) := by
  unfold FakeCmc.answer FakeCmc.start at h
  by_cases hlt : cycles < 100000000000
  · rw [if_pos hlt] at h
    cases h
    exact Or.inl ⟨hlt, rfl, by omega⟩
  · rw [if_neg hlt] at h
    refine Or.inr ⟨by omega, ?_⟩
    cases hf : c.failNext with
    | none =>
      simp only [hf] at h
      cases hm : FakeCmc.create mgmt with
      | none => rw [hm] at h; cases h
      | some r' =>
        rw [hm] at h
        simp only [Option.map_some, Option.some.injEq, Prod.mk.injEq] at h
        obtain ⟨_, rfl, rfl⟩ := h
        exact Or.inr (Or.inr ⟨rfl, by omega, FakeCmc.create_cases mgmt hm⟩)
    | some f =>
      cases f with
      | refundFailed =>
        simp only [hf, Option.some.injEq, Prod.mk.injEq] at h
        obtain ⟨_, rfl, rfl⟩ := h
        exact Or.inr (Or.inl ⟨rfl, rfl, by omega⟩)
      | refunded a =>
        simp only [hf, Option.some.injEq, Prod.mk.injEq] at h
        obtain ⟨_, rfl, rfl⟩ := h
        refine Or.inl ⟨a, rfl, rfl, ?_⟩
        have ha := a.isLt
        unfold wrapSub128
        split
        · rw [Nat.min_eq_right (by omega)]; omega
        · rw [Nat.min_eq_left (by omega)]; omega

/-- **C77**: the fake CMC returns what the ledger takes as returned, exactly, unless it was told to
claim more than it was sent or its own attempt to create the canister was rejected (then it keeps
the cycles and rejects the ledger's call). -/
theorem C77_exact [Crypto] {y : Sys} (h : Reachable y) {k : Nat} {p : Pending}
    (hp : y.pending[k]? = some p) {c : FakeCmc} {mgmt : List MgmtAnswer} {r : CmcResult} {refund : Nat}
    (ha : Spec.FakeAnswer c mgmt p r refund) :
    (refund = (Spec.returned p (.cmc r refund)).getD 0 ↔
      (p.call.cycles < 100000000000 ∨
        (¬Spec.ToldToLie c p.call.cycles ∧ ∀ e, r ≠ .callError e))) ∧
    ((∃ e, r = .callError e) → MgmtAnswer.rejected ∈ mgmt) := by
  obtain ⟨args, c', _, ha⟩ := ha
  have hcy := (h.callOk p (List.mem_of_getElem? hp)).cycles
  rcases FakeCmc.answer_cases ha with ⟨h1, rfl, rfl⟩ | ⟨h1, ⟨a, hf, rfl, rfl⟩ | ⟨hf, rfl, rfl⟩ |
      ⟨hf, rfl, ⟨q, rfl⟩ | ⟨rfl, hr⟩⟩⟩
  · refine ⟨⟨fun _ => Or.inl h1, fun _ => rfl⟩, fun ⟨e, he⟩ => (nomatch he)⟩
  · refine ⟨?_, fun ⟨e, he⟩ => (nomatch he)⟩
    simp only [Spec.returned, Option.getD_some]
    constructor
    · intro hh
      refine Or.inr ⟨?_, fun e he => (nomatch he)⟩
      rintro ⟨a', hf', hlt⟩
      rw [hf] at hf'; cases hf'
      rw [if_neg (by omega)] at hh
      omega
    · rintro (hh | ⟨hh, _⟩)
      · omega
      · rw [if_pos]
        rcases Nat.lt_or_ge p.call.cycles a.val with h2 | h2
        · exact absurd ⟨a, hf, h2⟩ hh
        · exact h2
  · refine ⟨⟨fun _ => Or.inr ⟨?_, fun e he => (nomatch he)⟩, fun _ => rfl⟩, fun ⟨e, he⟩ => (nomatch he)⟩
    rintro ⟨a', hf', _⟩
    rw [hf] at hf'; cases hf'
  · refine ⟨⟨fun _ => Or.inr ⟨?_, fun e he => (nomatch he)⟩, fun _ => rfl⟩, fun ⟨e, he⟩ => (nomatch he)⟩
    rintro ⟨a', hf', _⟩
    rw [hf] at hf'; cases hf'
  · refine ⟨?_, fun _ => hr⟩
    simp only [Spec.returned, Option.getD_some]
    constructor
    · intro hh; omega
    · rintro (hh | ⟨_, hh⟩)
      · omega
      · exact absurd rfl (hh _)

/-- Every answer of the CMC in the history is one the fake CMC gives in a state in which it is not
told to lie, and its own canister creations succeed. -/
def Spec.FakeRun [Crypto] (y : Sys) : List Event → Prop
  | [] => True
  | e :: es => (∀ k r refund p, e.msg = .callback k (.cmc r refund) → y.pending[k]? = some p →
      ∃ c mgmt, Spec.FakeAnswer c mgmt p r refund ∧ ¬Spec.ToldToLie c p.call.cycles ∧
        MgmtAnswer.rejected ∉ mgmt) ∧ Spec.FakeRun (y.step e).1 es

/-- **C77**: with such a CMC the cycles held cover the total supply after every history. -/
theorem C77_solvent [Crypto] (config : Config) (now cycles : Nat) (y0 : Sys) (es : List Event)
    (h0 : Sys.init config now cycles = some y0) (hb : icrc1TotalSupply y0.ledger ≤ cycles)
    (hm : Spec.FakeRun y0 es) :
    (icrc1TotalSupply (y0.run es).ledger : Int) ≤ (y0.run es).cycles := by
  refine (C07_solvent config now cycles y0 es h0 hb ?_).1
  have hr : Reachable y0 := ⟨config, now, cycles, y0, [], h0, rfl⟩
  clear h0 hb
  induction es generalizing y0 with
  | nil => trivial
  | cons e es ih =>
    refine ⟨?_, ih _ hm.2 (hr.step e)⟩
    intro k r refund p back hk hp hback
    obtain ⟨c, mgmt, ha, hl, hj⟩ := hm.1 k r refund p hk hp
    obtain ⟨hx, hy⟩ := C77_exact hr hp ha
    have := hx.2 (Or.inr ⟨hl, fun e he => hj (hy ⟨e, he⟩)⟩)
    rw [hback] at this
    exact Nat.le_of_eq this.symm

open Toy in
/-- A creation that succeeds at the second attempt and one for which the fake CMC was told to return
half of the cycles. -/
example : Spec.FakeRun start [dep alice 1000000000000, create alice 200000000000,
      create alice 300000000000, ⟨1, .callback 1 (.cmc (.refunded 150000000000) 150000000000)⟩,
      ⟨1, .callback 0 (.cmc (.created target) 0)⟩] := by
  have no : ∀ (y : Sys) (m : Msg), (∀ i a, m ≠ .callback i a) →
      (∀ k r refund p, m = .callback k (.cmc r refund) → y.pending[k]? = some p →
      ∃ c mgmt, Spec.FakeAnswer c mgmt p r refund ∧ ¬Spec.ToldToLie c p.call.cycles ∧
        MgmtAnswer.rejected ∉ mgmt) := fun y m h k r rf p hm => absurd hm (h _ _)
  refine ⟨no _ _ ?_, no _ _ ?_, no _ _ ?_, ?_, ?_, trivial⟩
  · intro i a h; cases h
  · intro i a h; cases h
  · intro i a h; cases h
  · intro k r refund p hm hp
    cases hm
    have hc : ((start.run [dep alice 1000000000000, create alice 200000000000,
      create alice 300000000000]).pending[1]?).map (·.call) =
        some (createCanisterCall alice none 300000000000) := by decide +kernel
    have hc : p.call = createCanisterCall alice none 300000000000 := by
      have h1 := congrArg (Option.map Pending.call) hp
      exact Option.some.inj (h1.symm.trans hc)
    refine ⟨⟨none, some (.refunded 150000000000)⟩, [],
      ⟨cmcArgument none alice, ⟨some (cmcArgument none alice), none⟩, ?_, ?_⟩, ?_, by simp⟩
    · rw [hc]; rfl
    · rw [hc]; decide +kernel
    · rintro ⟨a, ha, hlt⟩
      cases ha
      rw [hc] at hlt
      revert hlt; decide +kernel
  · intro k r refund p hm hp
    cases hm
    have hc : ((start.run [dep alice 1000000000000, create alice 200000000000,
      create alice 300000000000,
      ⟨1, .callback 1 (.cmc (.refunded 150000000000) 150000000000)⟩]).pending[0]?).map (·.call) =
        some (createCanisterCall alice none 200000000000) := by decide +kernel
    have hc : p.call = createCanisterCall alice none 200000000000 := by
      have h1 := congrArg (Option.map Pending.call) hp
      exact Option.some.inj (h1.symm.trans hc)
    refine ⟨⟨none, none⟩, [.taken, .created target],
      ⟨cmcArgument none alice, ⟨some (cmcArgument none alice), none⟩, ?_, ?_⟩, ?_, by simp⟩
    · rw [hc]; rfl
    · rw [hc]; decide +kernel
    · rintro ⟨a, ha, _⟩
      cases ha

open Toy in
/-- **C77**, negative part: nobody has to lie for the ledger to become insolvent.  If the canister
creation inside the fake CMC is rejected, it has already accepted the cycles, the ledger's call is
rejected, and the ledger credits the cycles to the user although none have come back. -/
theorem C77_rejection_unsafe : ∃ (y : Sys) (p : Pending) (r : CmcResult) (refund : Nat), Reachable y ∧
    (icrc1TotalSupply y.ledger : Int) ≤ y.cycles ∧ y.pending[0]? = some p ∧
    Spec.FakeAnswer ⟨none, none⟩ [.taken, .rejected] p r refund ∧
    (y.exec (.callback 0 (.cmc r refund))).1.cycles <
      (icrc1TotalSupply (y.exec (.callback 0 (.cmc r refund))).1.ledger : Int) := by
  obtain ⟨p, hp⟩ := Option.isSome_iff_exists.1 (show
    ((start.run [dep alice 1000000000000, create alice 200000000000]).pending[0]?).isSome = true by
      decide +kernel)
  have hc : ((start.run [dep alice 1000000000000, create alice 200000000000]).pending[0]?).map
      (·.call) = some (createCanisterCall alice none 200000000000) := by decide +kernel
  rw [hp] at hc
  have hc : p.call = createCanisterCall alice none 200000000000 := Option.some.inj hc
  refine ⟨_, p, .callError (.rejected (some .canisterError)), 0, run_reachable _, ?_, hp,
    ⟨cmcArgument none alice, ⟨some (cmcArgument none alice), none⟩, ?_, ?_⟩, ?_⟩
  · decide +kernel
  · rw [hc]; rfl
  · rw [hc]; decide +kernel
  · decide +kernel

end CyclesLedger
