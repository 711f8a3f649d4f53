import Verif.Proof.Cases
import Verif.Proof.Pending
import Verif.Proof.Origin
import Verif.Proof.Toy
import Verif.Proof.Dedup
/-!
# The cycles behind the ledger

C07.
-/
namespace CyclesLedger

/-- The answer of the cycles minting canister is honest: it returns at least the cycles it says
it returned, and a failed call to it returns all of them.  (The IC guarantees the latter only if the
callee has not accepted cycles before it rejects; see `C77_rejection_unsafe`.) -/
def Spec.Honest (y : Sys) (m : Msg) : Prop :=
  ∀ i r refund p back, m = .callback i (.cmc r refund) → y.pending[i]? = some p →
    Spec.returned p (.cmc r refund) = some back → back ≤ refund

/-- Every answer in the history is honest. -/
def Spec.HonestRun [Crypto] (y : Sys) : List Event → Prop
  | [] => True
  | e :: es => Spec.Honest y e.msg ∧ Spec.HonestRun (y.step e).1 es

/-- The cycles held beyond the total supply. -/
def Spec.surplus (y : Sys) : Int := y.cycles - (icrc1TotalSupply y.ledger : Int)

theorem refunded_supply [Crypto] {s s' : State} {now : Nat} {kind : CallKind} {p : Suspended}
    {back : Nat} {fb ab : Option Nat} (h : Refunded s s' now kind p back fb ab) :
    s'.cache.totalSupply ≤ s.cache.totalSupply + (back - 100000000) := by
  rcases h with ⟨_, _, _, rfl⟩ | ⟨_, _, _, he, _⟩ | ⟨_, _, _, sp, s2, _, he, he2⟩
  · omega
  · rw [(Effect.mint he).2.1]; exact Nat.le_refl _
  · have h1 := (Effect.mint he).2.1
    have h2 := (Effect.approve he2).2
    omega

theorem surplus_exec [Crypto] {y : Sys} (hi : SInv y)
    (hc : ∀ q ∈ y.pending, CallOk q) (m : Msg) (hm : Spec.Honest y m) :
    Spec.surplus y ≤ Spec.surplus (y.exec m).1 := by
  unfold Spec.surplus icrc1TotalSupply
  rcases msg_cases m with ⟨r, to, hr⟩ | ⟨r, hr⟩ | ⟨r, hr⟩ | ⟨c, cy, a, rfl⟩ | ⟨i, ans, rfl⟩ |
    ⟨i, rfl⟩ | ⟨a, rfl⟩
  · rcases exec_burn hi hr with ⟨s1, p, hs⟩ | ⟨e, he⟩
    · have hco := callOk_started hr hs
      obtain ⟨he, _, _, _, ⟨old, hp, _⟩, _, h1⟩ := hs
      have hb := he.burn.2
      rcases h1 with ⟨_, h1⟩ | ⟨_, h1⟩
      · rw [h1]
        have hcy : (callOf m).cycles = r.amount := by rw [hco.cycles]; simp [hp]
        simp only [sent, hcy]
        omega
      · rcases h1 with ⟨h1, _⟩ | ⟨fb, ab, s', h1, h2, _⟩
        · rw [h1]; exact Int.le_refl _
        · have h3 := refunded_supply h2
          rw [h1]
          simp only
          omega
    · rw [he.1]; exact Int.le_refl _
  · rcases exec_transfer hi hr with ⟨s', h1, _, _, _, he, _⟩ | ⟨e, h1, _⟩ | ⟨h1, _⟩
    · have := he.transfer.2
      rw [h1]; simp only; omega
    · rw [h1]; exact Int.le_refl _
    · rw [h1]; exact Int.le_refl _
  · rcases exec_approve hi hr with ⟨s', h1, _, _, _, he, _⟩ | ⟨e, h1, _⟩ | ⟨h1, _⟩
    · have := (Effect.approve he).2
      rw [h1]; simp only; omega
    · rw [h1]; exact Int.le_refl _
    · rw [h1]; exact Int.le_refl _
  · rcases exec_deposit hi c cy a with ⟨s', h1, he, _⟩ | ⟨h1, _⟩
    · have := (Effect.mint he).2.1
      rw [h1]; simp only; omega
    · rw [h1]; exact Int.le_refl _
  · rcases exec_callback_cases hi i ans with ⟨h1, _⟩ | ⟨p, hp, hf, ⟨_, h1, _⟩ | ⟨back, hr, h1⟩⟩
    · rw [h1]; exact Int.le_refl _
    · have hsup : (noteCanister y.ledger p.data ans).cache = y.ledger.cache := by
        unfold noteCanister
        split
        · split <;> rfl
        · rfl
      rw [h1]
      simp only [hsup, answered]
      cases ans with
      | depositCycles r => simp only; split <;> omega
      | cmc r refund => simp only; omega
    · have hcall := (hc p (List.mem_of_getElem? hp)).cycles
      have hback : (back : Int) ≤ (answered y i p ans).cycles - y.cycles := by
        unfold answered
        cases ans with
        | depositCycles r =>
          cases r with
          | none => simp [Spec.returned] at hr
          | some code =>
            simp only [Spec.returned, Option.isSome_some, if_true, Option.some.injEq] at hr
            simp only [Option.isSome_some, if_true]
            omega
        | cmc r refund =>
          have := hm i r refund p back rfl hp hr
          simp only
          omega
      rcases h1 with ⟨h1, _⟩ | ⟨fb, ab, s', h1, h2, _⟩
      · rw [h1]
        show _ ≤ (answered y i p ans).cycles - (y.ledger.cache.totalSupply : Int)
        omega
      · have h3 := refunded_supply h2
        rw [h1]
        simp only
        omega
  · simp only [Sys.exec]; exact Int.le_refl _
  · simp only [Sys.exec]
    split
    · exact Int.le_refl _
    · rename_i s' hs
      have := (hi.ledger.postUpgrade hs).1
      rw [this]
      exact Int.le_refl _

/-- **C07**: no message lowers the surplus, provided the answers of the cycles minting canister
are honest. -/
theorem C07_surplus_kept [Crypto] {y : Sys} (h : Reachable y) (e : Event)
    (hm : Spec.Honest y e.msg) : Spec.surplus y ≤ Spec.surplus (y.step e).1 := by
  have hi := h.inv.tick e.dt
  have := surplus_exec (y := y.tick e.dt) hi h.callOk e.msg hm
  exact this

/-- **C07**: after any history of honest answers the cycles held cover the total supply, if they
covered the initial balances. -/
theorem C07_solvent [Crypto] (config : Config) (now cycles : Nat) (y0 : Sys) (es : List Event)
    (h0 : Sys.init config now cycles = some y0) (hb : icrc1TotalSupply y0.ledger ≤ cycles)
    (hm : Spec.HonestRun y0 es) :
    (icrc1TotalSupply (y0.run es).ledger : Int) ≤ (y0.run es).cycles ∧
    Spec.surplus y0 ≤ Spec.surplus (y0.run es) := by
  have hr0 : Reachable y0 := ⟨config, now, cycles, y0, [], h0, rfl⟩
  have key : ∀ (es : List Event) (y : Sys), Reachable y → Spec.HonestRun y es →
      Spec.surplus y ≤ Spec.surplus (y.run es) := by
    intro es
    induction es with
    | nil => intro y _ _; exact Int.le_refl _
    | cons e es ih =>
      intro y h hm
      exact Int.le_trans (C07_surplus_kept h e hm.1) (ih _ (h.step e) hm.2)
  have h1 := key es y0 hr0 hm
  have hc : y0.cycles = cycles := by
    unfold Sys.init at h0
    cases hl : initLedger config (min now U64MAX) with
    | none => rw [hl] at h0; cases h0
    | some s => rw [hl] at h0; cases h0; rfl
  refine ⟨?_, h1⟩
  unfold Spec.surplus at h1
  omega

open Toy in
/-- A history with a deposit, transfers, an approval, a withdrawal and a canister creation whose
answers are honest; the surplus is the fees. -/
example : Spec.HonestRun start (events ++ [⟨1, .callback 1 (.cmc (.refunded 400000000) 400000000)⟩,
      ⟨1, .callback 0 (.depositCycles none)⟩]) ∧
    Spec.surplus (start.run (events ++ [⟨1, .callback 1 (.cmc (.refunded 400000000) 400000000)⟩,
      ⟨1, .callback 0 (.depositCycles none)⟩])) = 700000000 := by
  constructor
  · have no : ∀ (y : Sys) (m : Msg), (∀ i a, m ≠ .callback i a) → Spec.Honest y m :=
      fun y m h i r rf p b hm _ _ => absurd hm (h _ _)
    refine ⟨no _ _ ?_, no _ _ ?_, no _ _ ?_, no _ _ ?_, no _ _ ?_, no _ _ ?_, ?_, ?_, trivial⟩
    all_goals first | (intro i a h; cases h; done) | skip
    · intro i r rf p b hm _ hr
      cases hm; cases hr; exact Nat.le_refl _
    · intro i r rf p b hm _ hr
      cases hm
  · decide +kernel

open Toy in
/-- Honesty is needed: if the cycles minting canister returns nothing but reports a refund of
500000000 cycles, these are minted and not covered. -/
theorem C07_honesty_needed :
    ∃ y : Sys, Reachable y ∧ (y.cycles : Int) < icrc1TotalSupply y.ledger :=
  ⟨start.run [dep alice 3000000000, create alice 2000000000,
      ⟨1, .callback 0 (.cmc (.refunded 2000000000) 0)⟩], run_reachable _, by decide +kernel⟩

end CyclesLedger
