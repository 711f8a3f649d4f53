import Verif.Props.Accounting
import Verif.Props.Generator
import Verif.Props.Dedup
/-!
# Whom a message concerns

C109.
-/
namespace CyclesLedger

/-- The accounts whose balance a message is about: those charged or credited by a request, and for an
answer the account that the cycles came from. -/
def Spec.TakesPart (y : Sys) (m : Msg) (a : Account) : Prop :=
  match m with
  | .deposit _ _ arg => Spec.SameAccount a arg.to
  | .transfer caller args => Spec.SameAccount a ⟨caller, args.fromSubaccount⟩ ∨ Spec.SameAccount a args.to
  | .transferFrom _ args => Spec.SameAccount a args.frm ∨ Spec.SameAccount a args.to
  | .approve caller args => Spec.SameAccount a ⟨caller, args.fromSubaccount⟩
  | .withdraw caller args _ => Spec.SameAccount a ⟨caller, args.fromSubaccount⟩
  | .withdrawFrom _ args _ => Spec.SameAccount a args.frm
  | .createCanister caller args _ => Spec.SameAccount a ⟨caller, args.fromSubaccount⟩
  | .createCanisterFrom _ args _ => Spec.SameAccount a args.frm
  | .callback i _ => ∃ q, y.pending[i]? = some q ∧ Spec.SameAccount a q.data.frm
  | .lostCallback _ => False
  | .upgrade _ => False

/-- The allowance, of `sp` on `a`, that a message is about. -/
def Spec.Concerns (y : Sys) (m : Msg) (a sp : Account) : Prop :=
  match m with
  | .transferFrom caller args => Spec.SameAccount a args.frm ∧
      Spec.SameAccount sp ⟨caller, args.spenderSubaccount⟩
  | .approve caller args => Spec.SameAccount a ⟨caller, args.fromSubaccount⟩ ∧
      Spec.SameAccount sp args.spender
  | .withdrawFrom caller args _ => Spec.SameAccount a args.frm ∧
      Spec.SameAccount sp ⟨caller, args.spenderSubaccount⟩
  | .createCanisterFrom caller args _ => Spec.SameAccount a args.frm ∧
      Spec.SameAccount sp ⟨caller, args.spenderSubaccount⟩
  | .callback i _ => ∃ q s, y.pending[i]? = some q ∧ q.data.spender = some s ∧
      Spec.SameAccount a q.data.frm ∧ Spec.SameAccount sp s
  | _ => False

theorem idOf_same {a b : Account} (h : Spec.idOf b = Spec.idOf a) : Spec.SameAccount a b := by
  simp only [Spec.idOf, Prod.mk.injEq] at h
  exact ⟨h.1.symm, h.2.symm⟩

/-- The account of a failing burn takes part. -/
theorem failing_takesPart {y : Sys} {m : Msg} {kind : CallKind} {p : Suspended} {back : Nat}
    (h : Spec.FailingBurn y m kind p back) {a : Account} (ha : Spec.SameAccount a p.frm) :
    Spec.TakesPart y m a := by
  rcases h with ⟨i, ans, q, rfl, hq, _, rfl, _⟩ | ⟨r, to, old, hr, _, _, rfl, _⟩
  · exact ⟨q, hq, ha⟩
  · cases m <;> simp only [Spec.burnRequest, Option.some.injEq, Prod.mk.injEq, reduceCtorEq] at hr <;>
      obtain ⟨rfl, _⟩ := hr <;> exact ha

theorem failing_concerns {y : Sys} {m : Msg} {kind : CallKind} {p : Suspended} {back : Nat}
    (h : Spec.FailingBurn y m kind p back) {a sp s : Account} (ha : Spec.SameAccount a p.frm)
    (hs : p.spender = some s) (hsp : Spec.SameAccount sp s) : Spec.Concerns y m a sp := by
  rcases h with ⟨i, ans, q, rfl, hq, _, rfl, _⟩ | ⟨r, to, old, hr, _, _, rfl, _⟩
  · exact ⟨q, s, hq, hs, ha, hsp⟩
  · cases m <;> simp only [Spec.burnRequest, Option.some.injEq, Prod.mk.injEq, reduceCtorEq] at hr <;>
      obtain ⟨rfl, _⟩ := hr <;> simp only [Option.some.injEq, reduceCtorEq] at hs <;> subst hs <;>
      exact ⟨ha, hsp⟩

/-- A block of a message changes only balances that the message is about. -/
theorem Spec.Records.delta {y : Sys} {m : Msg} {b : Block} (h : Spec.Records y m b) {a : Account}
    (ha : ¬Spec.TakesPart y m a) : Spec.delta b (Spec.idOf a) = 0 := by
  cases h with
  | request h1 _ =>
    cases m <;> simp only [Spec.requestTransaction, Spec.transferRequest, Spec.approveRequest,
        Spec.burnRequest, Spec.TransferReq.transaction, Spec.ApproveReq.transaction,
        Spec.BurnReq.transaction, Option.some.injEq, reduceCtorEq] at h1 <;>
      simp only [Spec.TakesPart, not_or] at ha <;> unfold Spec.delta <;> rw [← h1] <;> simp only
    · rw [if_neg (fun e => ha (idOf_same e))]
    · rw [if_neg (fun e => ha.2 (idOf_same e)), if_neg (fun e => ha.1 (idOf_same e))]; rfl
    · rw [if_neg (fun e => ha.2 (idOf_same e)), if_neg (fun e => ha.1 (idOf_same e))]; rfl
    all_goals rw [if_neg (fun e => ha (idOf_same e))]; rfl
  | refund kind p back h1 h2 h3 =>
    unfold Spec.delta
    rw [h3]
    simp only [Spec.refundTransaction]
    rw [if_neg (fun e => ha (failing_takesPart h1 (idOf_same e)))]
  | allowance kind p back sp s h1 h2 h3 =>
    unfold Spec.delta
    rw [h3]
    simp only [Spec.allowanceRefund]
    rw [if_neg (fun e => ha (failing_takesPart h1 (idOf_same e)))]; rfl

/-- A block of a message changes only the allowance that the message is about. -/
theorem request_allowStep {y : Sys} {m : Msg} {b : Block}
    (h1 : Spec.requestTransaction m = some b.transaction)
    {a sp : Account} (ha : ¬Spec.Concerns y m a sp) (f : Spec.AllowFn) :
    Spec.allowStep f b (Spec.idOf a, Spec.idOf sp) = f (Spec.idOf a, Spec.idOf sp) := by
  have spend : ∀ frm s x, ¬(Spec.SameAccount a frm ∧ Spec.SameAccount sp s) →
      Spec.spend f (Spec.idOf frm, Spec.idOf s) x (Spec.idOf a, Spec.idOf sp) =
        f (Spec.idOf a, Spec.idOf sp) := by
    intro frm s x hn
    unfold Spec.spend
    rw [if_neg]
    intro e
    simp only [Prod.mk.injEq] at e
    exact hn ⟨idOf_same e.1.symm, idOf_same e.2.symm⟩
  have approve : ∀ frm s, ¬(Spec.SameAccount a frm ∧ Spec.SameAccount sp s) →
      ¬(Spec.idOf a, Spec.idOf sp) = (Spec.idOf frm, Spec.idOf s) := by
    intro frm s hn e
    simp only [Prod.mk.injEq] at e
    exact hn ⟨idOf_same e.1.symm, idOf_same e.2.symm⟩
  cases m <;> simp only [Spec.requestTransaction, Spec.transferRequest, Spec.approveRequest,
      Spec.burnRequest, Spec.TransferReq.transaction, Spec.ApproveReq.transaction,
      Spec.BurnReq.transaction, Option.some.injEq, reduceCtorEq] at h1 <;>
    simp only [Spec.Concerns, not_false_eq_true] at ha <;> unfold Spec.allowStep <;>
    simp only [Spec.spends, ← h1]
  · split
    · rfl
    · exact spend _ _ _ ha
  · rw [if_neg (approve _ _ ha)]
  · split
    · rfl
    · exact spend _ _ _ ha
  · split
    · rfl
    · exact spend _ _ _ ha

theorem Spec.Records.allowStep {y : Sys} {m : Msg} {b : Block} (h : Spec.Records y m b)
    {a sp : Account} (ha : ¬Spec.Concerns y m a sp) (f : Spec.AllowFn) :
    Spec.allowStep f b (Spec.idOf a, Spec.idOf sp) = f (Spec.idOf a, Spec.idOf sp) := by
  have approve : ∀ frm s, ¬(Spec.SameAccount a frm ∧ Spec.SameAccount sp s) →
      ¬(Spec.idOf a, Spec.idOf sp) = (Spec.idOf frm, Spec.idOf s) := by
    intro frm s hn e
    simp only [Prod.mk.injEq] at e
    exact hn ⟨idOf_same e.1.symm, idOf_same e.2.symm⟩
  cases h with
  | request h1 _ => exact request_allowStep h1 ha f
  | refund kind p back h1 h2 h3 =>
    unfold Spec.allowStep
    simp only [Spec.spends, h3, Spec.refundTransaction]
  | allowance kind p back s st h1 h2 h3 =>
    unfold Spec.allowStep
    simp only [h3, Spec.allowanceRefund]
    rw [if_neg (approve _ _ (fun e => ha (failing_concerns h1 e.1 h2.1.1 e.2)))]

/-- **C109**: a message changes no balance but those of the accounts it is about, whatever it is and
however it ends. -/
theorem C109_balances [Crypto] {y : Sys} (h : Reachable y) (m : Msg) (a : Account)
    (ha : ¬Spec.TakesPart y m a) :
    icrc1BalanceOf (y.exec m).1.ledger a = icrc1BalanceOf y.ledger a := by
  obtain ⟨new, h1, h2⟩ := exec_blocks h.inv m
  have e1 := C02_balances_replay h a
  have e2 := C02_balances_replay (h.exec m) a
  rw [h1, Spec.balance, List.map_append, List.sum_append] at e2
  have h0 : (new.map (fun b => Spec.delta b (Spec.idOf a))).sum = 0 := by
    have : ∀ l : List Block, (∀ b ∈ l, Spec.delta b (Spec.idOf a) = 0) →
        (l.map (fun b => Spec.delta b (Spec.idOf a))).sum = 0 := by
      intro l hl
      induction l with
      | nil => rfl
      | cons b l ih =>
        rw [List.map_cons, List.sum_cons, hl b (.head _), ih (fun c hc => hl c (.tail _ hc))]; rfl
    exact this new (fun b hb => (h2 b hb).2.delta ha)
  rw [h0] at e2
  unfold Spec.balance at e1
  omega

/-- **C109**: a message changes no allowance but the one it is about. -/
theorem C109_allowances [Crypto] {y : Sys} (h : Reachable y) (m : Msg) (a sp : Account)
    (ha : ¬Spec.Concerns y m a sp) (t : Nat) (ht : y.now ≤ t) :
    Spec.spendable (y.exec m).1.ledger a sp t = Spec.spendable y.ledger a sp t := by
  obtain ⟨new, h1, h2⟩ := exec_blocks h.inv m
  have hn : (y.exec m).1.now = y.now := (exec_moved h.inv m).now
  rw [C16_allowances_replay h a sp t ht, C16_allowances_replay (h.exec m) a sp t (by rw [hn]; exact ht),
    h1]
  congr 1
  simp only [Spec.allowances, List.foldl_append]
  generalize y.ledger.blocks.foldl Spec.allowStep (fun _ => none) = f
  clear h1
  induction new generalizing f with
  | nil => rfl
  | cons b new ih =>
    rw [List.foldl_cons, ih (fun c hc => h2 c (.tail _ hc))]
    exact (h2 b (.head _)).2.allowStep ha f

/-- **C109**, over histories: as long as no message is about them, a balance stays what it is, and so
does an allowance until it expires. -/
theorem C109_history [Crypto] {y : Sys} (h : Reachable y) (es : List Event) (a : Account) :
    ((∀ pre e post, es = pre ++ e :: post → ¬Spec.TakesPart ((y.run pre).tick e.dt) e.msg a) →
      icrc1BalanceOf (y.run es).ledger a = icrc1BalanceOf y.ledger a) ∧
    (∀ sp, (∀ pre e post, es = pre ++ e :: post → ¬Spec.Concerns ((y.run pre).tick e.dt) e.msg a sp) →
      ∀ t, (y.run es).now ≤ t →
        Spec.spendable (y.run es).ledger a sp t = Spec.spendable y.ledger a sp t) := by
  induction es generalizing y with
  | nil => exact ⟨fun _ => rfl, fun _ _ _ _ => rfl⟩
  | cons e es ih =>
    obtain ⟨i1, i2⟩ := ih (h.step e)
    constructor
    · intro ha
      refine (i1 (fun pre e' post he => ha (e :: pre) e' post (by rw [he]; rfl))).trans ?_
      exact C109_balances (h.tick e.dt) e.msg a (ha [] e es rfl)
    · intro sp ha t ht
      refine (i2 sp (fun pre e' post he => ha (e :: pre) e' post (by rw [he]; rfl)) t ht).trans ?_
      refine C109_allowances (h.tick e.dt) e.msg a sp (ha [] e es rfl) t ?_
      have h1 : (y.step e).1.now = (y.tick e.dt).now := step_now h e
      rw [← h1]
      exact Nat.le_trans (run_now_mono es (h.step e)) ht

-- Bob sends 150M of Alice's cycles to themself: Alice and Bob are concerned and Carol is not. What Alice
-- and Bob have changes, and so does what Bob may still send; what Carol has or may send does not.
open Toy in
def Toy.sending : Sys × Msg :=
  (start.run [dep alice 900000000, dep carol 300000000, appr alice bob 400000000, appr alice carol 70],
    (xferFrom bob alice bob 150000000).msg)
open Toy in
example : ¬Spec.TakesPart sending.1 sending.2 (acc carol) ∧
    Spec.TakesPart sending.1 sending.2 (acc alice) ∧ Spec.TakesPart sending.1 sending.2 (acc bob) ∧
    ¬Spec.Concerns sending.1 sending.2 (acc alice) (acc carol) ∧
    Spec.Concerns sending.1 sending.2 (acc alice) (acc bob) := by
  refine ⟨?_, .inl ⟨rfl, rfl⟩, .inr ⟨rfl, rfl⟩, ?_, ⟨rfl, rfl⟩, rfl, rfl⟩
  · rintro (h | h) <;> exact absurd h.1 (by decide)
  · rintro ⟨_, h⟩
    exact absurd h.1 (by decide)
open Toy in
example : icrc1BalanceOf sending.1.ledger (acc alice) = 600000000 ∧
    icrc1BalanceOf (sending.1.exec sending.2).1.ledger (acc alice) = 350000000 ∧
    icrc1BalanceOf (sending.1.exec sending.2).1.ledger (acc bob) = 150000000 ∧
    icrc1BalanceOf (sending.1.exec sending.2).1.ledger (acc carol) = 200000000 := by decide +kernel

end CyclesLedger
