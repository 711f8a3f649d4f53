import Verif.Props.Recover
import Verif.Props.Bystanders
/-!
# Requests that have nothing to do with each other

C110.
-/
namespace CyclesLedger

/-- The account that a request charges, and the spender whose allowance on it is used or set. -/
def Spec.charges (m : Msg) : Option (Account × Option Account) :=
  match Spec.transferRequest m, Spec.approveRequest m, Spec.burnRequest m with
  | some r, _, _ => some (r.frm, r.spender)
  | _, some r, _ => some (r.frm, some r.spender)
  | _, _, some (r, _) => some (r.frm, r.spender)
  | _, _, _ => none

/-- Nothing in a history is about the account `a`, or about the allowance of `sp` on it. -/
structure Spec.LeaveAlone [Crypto] (y : Sys) (es : List Event) (a : Account) (sp : Option Account) :
    Prop where
  payer : ∀ pre e post, es = pre ++ e :: post → ¬Spec.TakesPart ((y.run pre).tick e.dt) e.msg a
  allowance : ∀ s, sp = some s → ∀ pre e post, es = pre ++ e :: post →
    ¬Spec.Concerns ((y.run pre).tick e.dt) e.msg a s

/-- How long a history takes. -/
def Spec.waited (es : List Event) : Nat := (es.map Event.dt).sum

/-- Whom a transaction charges. -/
def opFrom : Operation → Option Account
  | .mint _ _ _ => none
  | .transfer frm _ _ _ _ => some frm
  | .burn frm _ _ => some frm
  | .approve frm _ _ _ _ _ => some frm

theorem opFrom_takesPart {y : Sys} {m : Msg} {t : Transaction} {a : Account}
    (h : Spec.requestTransaction m = some t) (ha : opFrom t.operation = some a) :
    Spec.TakesPart y m a := by
  cases m <;> simp only [Spec.requestTransaction, Spec.transferRequest, Spec.approveRequest,
      Spec.burnRequest, Spec.TransferReq.transaction, Spec.ApproveReq.transaction,
      Spec.BurnReq.transaction, Option.some.injEq, reduceCtorEq] at h <;> subst h <;>
    simp only [opFrom, Option.some.injEq, reduceCtorEq] at ha <;> subst ha <;>
    first
      | exact .inl ⟨rfl, rfl⟩
      | exact ⟨rfl, rfl⟩

theorem charges_opFrom {m : Msg} {a : Account} {sp : Option Account}
    (h : Spec.charges m = some (a, sp)) :
    ∃ t, Spec.requestTransaction m = some t ∧ opFrom t.operation = some a := by
  cases m <;> simp only [Spec.charges, Spec.transferRequest, Spec.approveRequest,
      Spec.burnRequest, Option.some.injEq, Prod.mk.injEq, reduceCtorEq] at h <;>
    obtain ⟨rfl, _⟩ := h <;> exact ⟨_, rfl, rfl⟩

theorem run_records [Crypto] {y : Sys} (h : Reachable y) (es : List Event) :
    ∃ new, (y.run es).ledger.blocks = y.ledger.blocks ++ new ∧ ∀ b ∈ new, ∃ pre e post,
      es = pre ++ e :: post ∧ Spec.Records ((y.run pre).tick e.dt) e.msg b := by
  induction es generalizing y with
  | nil => exact ⟨[], by simp [Sys.run], (fun b hb => by cases hb)⟩
  | cons e es ih =>
    obtain ⟨n1, h1, h2⟩ := exec_blocks (h.tick e.dt).inv e.msg
    obtain ⟨n2, h3, h4⟩ := ih (h.step e)
    refine ⟨n1 ++ n2, ?_, ?_⟩
    · have : (y.run (e :: es)).ledger.blocks = ((y.step e).1.run es).ledger.blocks := rfl
      rw [this, h3]
      have : (y.step e).1.ledger.blocks = y.ledger.blocks ++ n1 := h1
      rw [this, List.append_assoc]
    · intro b hb
      rcases List.mem_append.mp hb with hb | hb
      · exact ⟨[], e, es, rfl, (h2 b hb).2⟩
      · obtain ⟨pre, e', post, rfl, hr⟩ := h4 b hb
        exact ⟨e :: pre, e', post, rfl, hr⟩

theorem now_waited [Crypto] {y : Sys} (h : Reachable y) (es : List Event) :
    (y.run es).now = (y.tick (Spec.waited es)).now := by
  induction es generalizing y with
  | nil =>
    have := h.inv.ledger.clock
    simp only [Sys.run, Sys.tick, Spec.waited, List.map_nil, List.sum_nil]
    omega
  | cons e es ih =>
    have h1 := ih (h.step e)
    have h2 : (y.run (e :: es)).now = ((y.step e).1.run es).now := rfl
    rw [h2, h1]
    have h3 := step_now h e
    simp only [Sys.tick] at h3
    simp only [Sys.tick, Spec.waited, List.map_cons, List.sum_cons] at h3 ⊢
    rw [h3]
    omega

theorem left_duplicate [Crypto] {y : Sys} (h : Reachable y) {es : List Event} {a : Account}
    {sp : Option Account} (hl : Spec.LeaveAlone y es a sp) {t : Transaction}
    (ht : opFrom t.operation = some a) :
    Spec.IsDuplicate (y.run es).ledger t ↔ Spec.IsDuplicate y.ledger t := by
  obtain ⟨new, h1, h2⟩ := run_records h es
  unfold Spec.IsDuplicate
  rw [h1]
  constructor
  · rintro ⟨hs, b, hb, rfl⟩
    refine ⟨hs, b, ?_, rfl⟩
    rcases List.mem_append.mp hb with hb | hb
    · exact hb
    · exfalso
      obtain ⟨pre, e, post, he, hr⟩ := h2 b hb
      cases hr with
      | request r1 _ => exact hl.payer pre e post he (opFrom_takesPart r1 ht)
      | refund kind p back r1 r2 r3 =>
        rw [r3] at ht
        simp [Spec.refundTransaction, opFrom] at ht
      | allowance kind p back s st r1 r2 r3 =>
        rw [r3] at hs
        simp [Spec.allowanceRefund] at hs
  · rintro ⟨hs, b, hb, e⟩
    exact ⟨hs, b, List.mem_append_left _ hb, e⟩

theorem left_allowances [Crypto] {y : Sys} (h : Reachable y) {es : List Event} {a s : Account}
    {sp : Option Account} (hl : Spec.LeaveAlone y es a sp) (hs : sp = some s) :
    Spec.allowances (y.run es).ledger.blocks (Spec.idOf a, Spec.idOf s) =
      Spec.allowances y.ledger.blocks (Spec.idOf a, Spec.idOf s) := by
  obtain ⟨new, h1, h2⟩ := run_records h es
  rw [h1]
  simp only [Spec.allowances, List.foldl_append]
  generalize y.ledger.blocks.foldl Spec.allowStep (fun _ => none) = f
  clear h1
  induction new generalizing f with
  | nil => rfl
  | cons b new ih =>
    rw [List.foldl_cons, ih (fun c hc => h2 c (.tail _ hc))]
    obtain ⟨pre, e, post, he, hr⟩ := h2 b (.head _)
    exact hr.allowStep (hl.allowance s hs pre e post he) f

/-- What a request is refused for. -/
structure Alike2 [Crypto] (now : Nat) (s s' : State) (a : Account) (sp : Option Account)
    (t : Transaction) : Prop where
  bal : balanceOf s a = balanceOf s' a
  spend : ∀ x, sp = some x → Spec.spendable s a x now = Spec.spendable s' a x now
  dup : Spec.IsDuplicate s t ↔ Spec.IsDuplicate s' t
  clash : Spec.NoClash s t
  clash' : Spec.NoClash s' t

theorem accepted_simple [Crypto] {y : Sys} {m : Msg} {t : Transaction} (h : Simple y m t) :
    Spec.Accepted (y.exec m).2 ↔ ∃ i, Spec.okIndex (y.exec m).2 = some i :=
  ⟨fun ha => ha.resolve_left h.1, .inr⟩

theorem noClash_run [Crypto] {y : Sys} (h : Reachable y) {es : List Event} {t : Transaction}
    (hn : Spec.NoClash (y.run es).ledger t) : Spec.NoClash y.ledger t := by
  obtain ⟨new, h1, _⟩ := run_records h es
  rintro ⟨x, hx, z, hz, hxz⟩
  have hsub : ∀ w, w ∈ t :: y.ledger.blocks.map Block.transaction →
      w ∈ t :: (y.run es).ledger.blocks.map Block.transaction := by
    intro w hw
    rw [h1, List.map_append]
    rcases List.mem_cons.mp hw with hw | hw
    · exact hw ▸ .head _
    · exact .tail _ (List.mem_append_left _ hw)
  exact hn ⟨x, hsub x hx, z, hsub z hz, hxz⟩

/-- The same request, of which everything that matters is the same, is judged alike. -/
theorem judged_alike [Crypto] {y z : Sys} (hy : Reachable y) (hz : Reachable z) (hnow : y.now = z.now)
    {m : Msg} {a : Account} {sp : Option Account} {t : Transaction}
    (hc : Spec.charges m = some (a, sp)) (ht : Spec.requestTransaction m = some t)
    (hsync : Spec.syncOf m = none) (hA : Alike2 y.now y.ledger z.ledger a sp t)
    (hx : ∀ r, Spec.approveRequest m = some r → r.expectedAllowance ≠ none →
      (icrc2Allowance y.ledger r.frm r.spender y.now).1 =
        (icrc2Allowance z.ledger r.frm r.spender y.now).1) :
    Spec.Accepted (y.exec m).2 ↔ Spec.Accepted (z.exec m).2 := by
  rcases msg_cases m with ⟨r, to, hm⟩ | ⟨r, hm⟩ | ⟨r, hm⟩ | ⟨c, cyc, a, rfl⟩ | ⟨i, a, rfl⟩ | ⟨i, rfl⟩ |
    ⟨a, rfl⟩
  · have e1 : r.frm = a ∧ r.spender = sp ∧ r.transaction to = t := by
      cases m <;> simp only [Spec.burnRequest, Option.some.injEq, Prod.mk.injEq, reduceCtorEq] at hm <;>
        obtain ⟨rfl, rfl⟩ := hm <;> cases hc <;> cases ht <;> exact ⟨rfl, rfl, rfl⟩
    obtain ⟨rfl, rfl, rfl⟩ := e1
    have c1 := C61_burn_iff hy hm hA.clash
    have c2 := C61_burn_iff hz hm hA.clash'
    have acc : ∀ {y : Sys}, SInv y → ((y.exec m).2 = .suspended ↔ Spec.burnError (y.exec m).2 = none) →
        (Spec.Accepted (y.exec m).2 ↔ Spec.burnError (y.exec m).2 = none) := by
      intro y hi hs
      refine ⟨fun ha => ?_, fun hb => .inl (hs.2 hb)⟩
      rcases ha with ha | ⟨i, ha⟩
      · exact hs.1 ha
      · rcases exec_burn hi hm with ⟨s1, p, hA⟩ | ⟨e, hA⟩
        · obtain ⟨_, _, _, _, _, _, k1⟩ := hA
          rcases k1 with ⟨_, k1⟩ | ⟨k1, _⟩
          · rw [k1] at ha; cases ha
          · exact absurd hsync k1
        · rw [hA.2.1] at ha; cases ha
    rw [acc hy.inv (c1.2.1 hsync), acc hz.inv (c2.2.1 hsync), c1.1, c2.1, ← hnow, hA.dup]
    have hv : Spec.BurnValid y.ledger y.now r ↔ Spec.BurnValid z.ledger y.now r := by
      constructor <;> intro v
      · exact ⟨v.window, hA.bal ▸ v.funds, fun s hs => hA.spend s hs.1 ▸ v.allowance s hs⟩
      · exact ⟨v.window, hA.bal ▸ v.funds, fun s hs => hA.spend s hs.1 ▸ v.allowance s hs⟩
    rw [hv]
  · have e1 : r.frm = a ∧ r.spender = sp ∧ r.transaction = t := by
      cases m <;> simp only [Spec.transferRequest, Option.some.injEq, reduceCtorEq] at hm <;>
        subst hm <;> cases hc <;> cases ht <;> exact ⟨rfl, rfl, rfl⟩
    obtain ⟨rfl, rfl, rfl⟩ := e1
    rw [accepted_simple (simple_transfer hy hm), accepted_simple (simple_transfer hz hm),
      C63_transfer_iff hy hm hA.clash, C63_transfer_iff hz hm hA.clash', ← hnow, hA.dup]
    unfold Spec.SelfOverflow
    rw [hA.bal]
    have hv : Spec.TransferValid y.ledger y.now r ↔ Spec.TransferValid z.ledger y.now r := by
      constructor <;> intro v
      · exact ⟨v.notManagement, v.fee, v.memo, v.window, hA.bal ▸ v.funds,
          fun s hs => hA.spend s hs.1 ▸ v.allowance s hs⟩
      · exact ⟨v.notManagement, v.fee, v.memo, v.window, hA.bal ▸ v.funds,
          fun s hs => hA.spend s hs.1 ▸ v.allowance s hs⟩
    rw [hv]
  · have e1 : r.frm = a ∧ some r.spender = sp ∧ r.transaction = t := by
      cases m <;> simp only [Spec.approveRequest, Option.some.injEq, reduceCtorEq] at hm <;>
        subst hm <;> cases hc <;> cases ht <;> exact ⟨rfl, rfl, rfl⟩
    obtain ⟨rfl, rfl, rfl⟩ := e1
    rw [accepted_simple (simple_approve hy hm), accepted_simple (simple_approve hz hm),
      C60_approve_iff hy hm hA.clash, C60_approve_iff hz hm hA.clash', ← hnow, hA.dup]
    have hv : Spec.ApproveValid y.ledger y.now r ↔ Spec.ApproveValid z.ledger y.now r := by
      constructor <;> intro v
      · exact ⟨v.notSelf, v.notManagement, fun x e => (v.expected x e).trans
          (hx r hm (by rw [e]; exact Option.some_ne_none x)), v.fee, v.memo, v.window,
          hA.bal ▸ v.funds, v.notExpired⟩
      · exact ⟨v.notSelf, v.notManagement, fun x e => (v.expected x e).trans
          (hx r hm (by rw [e]; exact Option.some_ne_none x)).symm, v.fee, v.memo, v.window,
          hA.bal ▸ v.funds, v.notExpired⟩
    rw [hv]
  all_goals cases hc

/-- **C110**: whether a request is accepted depends on nothing that others do: after any history that
is neither about the account it charges nor about the allowance it uses, it is accepted exactly if it
would have been accepted, at that time, without this history. -/
theorem C110_unaffected [Crypto] {y : Sys} (h : Reachable y) (es : List Event) {m : Msg} {a : Account}
    {sp : Option Account} {t : Transaction} (hc : Spec.charges m = some (a, sp))
    (ht : Spec.requestTransaction m = some t) (hl : Spec.LeaveAlone y es a sp)
    (hsync : Spec.syncOf m = none) (hn : Spec.NoClash (y.run es).ledger t)
    (hx : ∀ r, Spec.approveRequest m = some r → r.expectedAllowance ≠ none → ∀ x,
      Spec.allowances y.ledger.blocks (Spec.idOf r.frm, Spec.idOf r.spender) =
        some (x, (y.run es).now) → (y.run es).now = 0) :
    Spec.Accepted ((y.run es).exec m).2 ↔
      Spec.Accepted ((y.tick (Spec.waited es)).exec m).2 := by
  obtain ⟨t', ht', hf⟩ := charges_opFrom hc
  rw [ht] at ht'
  cases ht'
  have hz := h.tick (Spec.waited es)
  have hnow := now_waited h es
  have hist := C109_history h es a
  have hspend : ∀ x, sp = some x → Spec.spendable (y.run es).ledger a x (y.run es).now =
      Spec.spendable (y.tick (Spec.waited es)).ledger a x (y.run es).now :=
    fun x hs => hist.2 x (hl.allowance x hs) _ (Nat.le_refl _)
  refine judged_alike (h.run es) hz hnow hc ht hsync
    ⟨hist.1 hl.payer, hspend, left_duplicate h hl hf, hn, noClash_run h hn⟩ ?_
  intro r hm he
  have e1 : r.frm = a ∧ some r.spender = sp := by
    cases m <;> simp only [Spec.approveRequest, Option.some.injEq, reduceCtorEq] at hm <;>
      subst hm <;> cases hc <;> exact ⟨rfl, rfl⟩
  obtain ⟨rfl, rfl⟩ := e1
  rw [(C56_replay (h.run es) r.frm r.spender _ (Nat.le_refl _)).2
      (by rw [left_allowances h hl rfl]; exact hx r hm he), hspend _ rfl]
  rw [(C56_replay hz r.frm r.spender _ (by rw [hnow]; exact Nat.le_refl _)).2 (hx r hm he)]

-- What Bob and Carol do between themselves is not about Alice, who can then send what they could send
-- before.
open Toy in
def Toy.elsewhere : Sys × List Event :=
  (start.run [dep alice 900000000, dep bob 500000000, appr alice bob 100000000],
    [xfer bob carol 300000000, appr carol bob 150000000, xferFrom bob carol bob 10000000])
open Toy in
example : Spec.LeaveAlone elsewhere.1 elsewhere.2 (acc alice) none := by
  refine ⟨?_, (fun _ h => by cases h)⟩
  intro pre e post he
  have hm : e ∈ elsewhere.2 := by rw [he]; exact List.mem_append_right _ (.head _)
  rcases List.mem_cons.1 hm with rfl | hm
  · rintro (h | h) <;> exact absurd h.1 (by decide)
  rcases List.mem_cons.1 hm with rfl | hm
  · intro h; exact absurd h.1 (by decide)
  rcases List.mem_cons.1 hm with rfl | hm
  · rintro (h | h) <;> exact absurd h.1 (by decide)
  · cases hm
open Toy in
example : (∃ i, ((elsewhere.1.run elsewhere.2).exec (xfer alice carol 350000000).msg).2 =
      .transfer (.ok i)) ∧
    (∃ i, ((elsewhere.1.tick (Spec.waited elsewhere.2)).exec (xfer alice carol 350000000).msg).2 =
      .transfer (.ok i)) := by
  exact ⟨⟨6, by decide +kernel⟩, ⟨3, by decide +kernel⟩⟩

/-! ## Order -/

theorem tick_zero [Crypto] {y : Sys} (h : Reachable y) : y.tick 0 = y := by
  have := h.inv.ledger.clock
  simp only [Sys.tick, Nat.add_zero]
  rw [Nat.min_eq_left this]

theorem request_once [Crypto] {y : Sys} (h : Reachable y) {m : Msg} {a : Account}
    {sp : Option Account} {t : Transaction} (hc : Spec.charges m = some (a, sp))
    (ht : Spec.requestTransaction m = some t) (hsync : Spec.syncOf m = none) :
    (Spec.Accepted (y.exec m).2 ∧ Effect y.now y.ledger (y.exec m).1.ledger t) ∨
    (¬Spec.Accepted (y.exec m).2 ∧ (y.exec m).1 = y) := by
  have simple : Simple y m t →
      (Spec.Accepted (y.exec m).2 ∧ Effect y.now y.ledger (y.exec m).1.ledger t) ∨
      (¬Spec.Accepted (y.exec m).2 ∧ (y.exec m).1 = y) := fun hS => by
    rcases hS.2.2.2 with ⟨o, e⟩ | ⟨o, e⟩
    · exact Or.inl ⟨(accepted_simple hS).2 ⟨_, o⟩, e⟩
    · refine Or.inr ⟨fun ha => ?_, e⟩
      obtain ⟨i, hi⟩ := (accepted_simple hS).1 ha
      rw [o] at hi
      cases hi
  rcases msg_cases m with ⟨r, to, hm⟩ | ⟨r, hm⟩ | ⟨r, hm⟩ | ⟨c, cyc, a, rfl⟩ | ⟨i, a, rfl⟩ | ⟨i, rfl⟩ |
    ⟨a, rfl⟩
  · have e1 : r.transaction to = t := by
      cases m <;> simp only [Spec.burnRequest, Option.some.injEq, Prod.mk.injEq, reduceCtorEq] at hm <;>
        obtain ⟨rfl, rfl⟩ := hm <;> cases ht <;> rfl
    subst e1
    rcases exec_burn h.inv hm with ⟨s1, p, hA⟩ | ⟨e, hA⟩
    · obtain ⟨f1, _, _, _, _, _, k1⟩ := hA
      rcases k1 with ⟨_, k1⟩ | ⟨k1, _⟩
      · rw [k1]; exact Or.inl ⟨.inl rfl, f1⟩
      · exact absurd hsync k1
    · refine Or.inr ⟨?_, hA.1⟩
      rintro (ha | ⟨i, ha⟩)
      · exact hA.2.2.2.2.1 ha
      · rw [hA.2.1] at ha; cases ha
  · have e1 : r.transaction = t := by
      cases m <;> simp only [Spec.transferRequest, Option.some.injEq, reduceCtorEq] at hm <;>
        subst hm <;> cases ht <;> rfl
    exact simple (e1 ▸ simple_transfer h hm)
  · have e1 : r.transaction = t := by
      cases m <;> simp only [Spec.approveRequest, Option.some.injEq, reduceCtorEq] at hm <;>
        subst hm <;> cases ht <;> rfl
    exact simple (e1 ▸ simple_approve h hm)
  all_goals cases hc

/-- A message that is not about the account or the allowance that a request uses. -/
structure Spec.Apart (y : Sys) (m : Msg) (a : Account) (sp : Option Account) : Prop where
  payer : ¬Spec.TakesPart y m a
  allowance : ∀ s, sp = some s → ¬Spec.Concerns y m a s

theorem Spec.Apart.leaves [Crypto] {y : Sys} (h : Reachable y) {m : Msg} {a : Account}
    {sp : Option Account} (hp : Spec.Apart y m a sp) : Spec.LeaveAlone y [⟨0, m⟩] a sp := by
  have key : ∀ pre e post, [(⟨0, m⟩ : Event)] = pre ++ e :: post → pre = [] ∧ e = ⟨0, m⟩ := by
    intro pre e post he
    cases pre with
    | nil => cases he; exact ⟨rfl, rfl⟩
    | cons x pre =>
      have := congrArg List.length he
      simp only [List.cons_append, List.length_cons, List.length_append, List.length_nil] at this
      omega
  constructor
  · intro pre e post he
    obtain ⟨rfl, rfl⟩ := key pre e post he
    have : (y.run []).tick 0 = y := tick_zero h
    rw [this]
    exact hp.payer
  · intro s hs pre e post he
    obtain ⟨rfl, rfl⟩ := key pre e post he
    have : (y.run []).tick 0 = y := tick_zero h
    rw [this]
    exact hp.allowance s hs

/-- Of requests, `Concerns` and `TakesPart` do not depend on the state. -/
theorem concerns_state {m : Msg} {a : Account} {sp : Option Account}
    (hc : Spec.charges m = some (a, sp)) (y z : Sys) (b s : Account) :
    Spec.Concerns y m b s ↔ Spec.Concerns z m b s := by
  cases m <;> first | exact Iff.rfl | cases hc

theorem concerns_payer {m : Msg} {a : Account} {sp : Option Account}
    (hc : Spec.charges m = some (a, sp)) {y : Sys} {b s : Account} (h : Spec.Concerns y m b s) :
    Spec.SameAccount b a := by
  cases m <;> cases hc <;> first | exact h.1 | exact h.elim

theorem takesPart_congr {m : Msg} {y : Sys} {a b : Account} (h : Spec.SameAccount a b)
    (hb : Spec.TakesPart y m b) : Spec.TakesPart y m a := by
  have tr : ∀ c, Spec.SameAccount b c → Spec.SameAccount a c :=
    fun c hc => ⟨h.1.trans hc.1, h.2.trans hc.2⟩
  cases m <;> simp only [Spec.TakesPart] at hb ⊢ <;> first
    | exact tr _ hb
    | exact hb.imp (tr _) (tr _)
    | exact hb
    | (obtain ⟨q, hq, hs⟩ := hb; exact ⟨q, hq, tr _ hs⟩)

theorem charges_takesPart {m : Msg} {y : Sys} {a : Account} {sp : Option Account}
    (hc : Spec.charges m = some (a, sp)) : Spec.TakesPart y m a := by
  obtain ⟨t, ht, hf⟩ := charges_opFrom hc
  exact opFrom_takesPart ht hf

theorem delta_mkBlock [Crypto] (s s' : State) (t : Transaction) (now : Nat) (k : AccountKey) :
    Spec.delta (mkBlock s t now) k = Spec.delta (mkBlock s' t now) k := rfl

theorem supplyDelta_mkBlock [Crypto] (s s' : State) (t : Transaction) (now : Nat) :
    Spec.supplyDelta (mkBlock s t now) = Spec.supplyDelta (mkBlock s' t now) := rfl

theorem allowStep_mkBlock [Crypto] (s s' : State) (t : Transaction) (now : Nat) (f g : Spec.AllowFn)
    (k : ApprovalKey) (h : f k = g k) :
    Spec.allowStep f (mkBlock s t now) k = Spec.allowStep g (mkBlock s' t now) k := by
  have e : ∀ f, Spec.allowStep f (mkBlock s t now) = Spec.allowStep f (mkBlock s' t now) :=
    fun f => rfl
  rw [e]
  generalize mkBlock s' t now = b
  unfold Spec.allowStep
  cases Spec.spends b with
  | some q => cases b.transaction.operation <;> simp only [Spec.spend, h]
  | none => cases b.transaction.operation <;> simp only [h]

/-- **C110**: two requests that charge different accounts and use different allowances can come in
either order: each is accepted or refused all the same, and afterwards the log holds the same
transactions, and every balance, every allowance and the supply is the same. -/
theorem C110_commute [Crypto] {y : Sys} (h : Reachable y) {m1 m2 : Msg} {a1 a2 : Account}
    {sp1 sp2 : Option Account} {t1 t2 : Transaction}
    (c1 : Spec.charges m1 = some (a1, sp1)) (c2 : Spec.charges m2 = some (a2, sp2))
    (e1 : Spec.requestTransaction m1 = some t1) (e2 : Spec.requestTransaction m2 = some t2)
    (s1 : Spec.syncOf m1 = none) (s2 : Spec.syncOf m2 = none)
    (p1 : Spec.Apart y m2 a1 sp1) (p2 : Spec.Apart y m1 a2 sp2)
    (n1 : Spec.NoClash (y.exec m2).1.ledger t1) (n2 : Spec.NoClash (y.exec m1).1.ledger t2)
    (x1 : ∀ r, Spec.approveRequest m1 = some r → r.expectedAllowance ≠ none → ∀ x,
      Spec.allowances y.ledger.blocks (Spec.idOf r.frm, Spec.idOf r.spender) = some (x, y.now) →
        y.now = 0)
    (x2 : ∀ r, Spec.approveRequest m2 = some r → r.expectedAllowance ≠ none → ∀ x,
      Spec.allowances y.ledger.blocks (Spec.idOf r.frm, Spec.idOf r.spender) = some (x, y.now) →
        y.now = 0) :
    (Spec.Accepted ((y.exec m1).1.exec m2).2 ↔ Spec.Accepted (y.exec m2).2) ∧
    (Spec.Accepted ((y.exec m2).1.exec m1).2 ↔ Spec.Accepted (y.exec m1).2) ∧
    (((y.exec m1).1.exec m2).1.ledger.blocks.map Block.transaction).Perm
      (((y.exec m2).1.exec m1).1.ledger.blocks.map Block.transaction) ∧
    (∀ a, icrc1BalanceOf ((y.exec m1).1.exec m2).1.ledger a =
      icrc1BalanceOf ((y.exec m2).1.exec m1).1.ledger a) ∧
    icrc1TotalSupply ((y.exec m1).1.exec m2).1.ledger =
      icrc1TotalSupply ((y.exec m2).1.exec m1).1.ledger ∧
    (∀ a sp t, y.now ≤ t → Spec.spendable ((y.exec m1).1.exec m2).1.ledger a sp t =
      Spec.spendable ((y.exec m2).1.exec m1).1.ledger a sp t) := by
  have h0 := tick_zero h
  have run1 : ∀ m, y.run [⟨0, m⟩] = (y.exec m).1 := by
    intro m
    have : y.run [⟨0, m⟩] = ((y.tick 0).exec m).1 := rfl
    rw [this, h0]
  have wait : ∀ m, y.tick (Spec.waited [⟨0, m⟩]) = y := fun m => h0
  have now1 : ∀ m, (y.exec m).1.now = y.now := fun m => (exec_moved h.inv m).now
  have a2' : Spec.Accepted ((y.exec m1).1.exec m2).2 ↔ Spec.Accepted (y.exec m2).2 := by
    have := C110_unaffected h [⟨0, m1⟩] c2 e2 (p2.leaves h) s2 (by rw [run1]; exact n2)
      (by rw [run1, now1]; exact x2)
    rwa [run1, wait] at this
  have a1' : Spec.Accepted ((y.exec m2).1.exec m1).2 ↔ Spec.Accepted (y.exec m1).2 := by
    have := C110_unaffected h [⟨0, m2⟩] c1 e1 (p1.leaves h) s1 (by rw [run1]; exact n1)
      (by rw [run1, now1]; exact x1)
    rwa [run1, wait] at this
  refine ⟨a2', a1', ?_⟩
  have hr1 := h.exec m1
  have hr2 := h.exec m2
  have r12 := hr1.exec m2
  have r21 := hr2.exec m1
  have o1 := request_once h c1 e1 s1
  have o2 := request_once h c2 e2 s2
  have o12 := request_once hr1 c2 e2 s2
  have o21 := request_once hr2 c1 e1 s1
  rw [now1] at o12 o21
  -- the blocks of either order
  obtain ⟨l1, l2, l1', l2', hb, hb', k1, k2, k1', k2'⟩ : ∃ l1 l2 l1' l2' : List Block,
      ((y.exec m1).1.exec m2).1.ledger.blocks = y.ledger.blocks ++ (l1 ++ l2) ∧
      ((y.exec m2).1.exec m1).1.ledger.blocks = y.ledger.blocks ++ (l2' ++ l1') ∧
      ((Spec.Accepted (y.exec m1).2 ∧ ∃ s, l1 = [mkBlock s t1 y.now]) ∨
        (¬Spec.Accepted (y.exec m1).2 ∧ l1 = [])) ∧
      ((Spec.Accepted (y.exec m2).2 ∧ ∃ s, l2 = [mkBlock s t2 y.now]) ∨
        (¬Spec.Accepted (y.exec m2).2 ∧ l2 = [])) ∧
      ((Spec.Accepted (y.exec m1).2 ∧ ∃ s, l1' = [mkBlock s t1 y.now]) ∨
        (¬Spec.Accepted (y.exec m1).2 ∧ l1' = [])) ∧
      ((Spec.Accepted (y.exec m2).2 ∧ ∃ s, l2' = [mkBlock s t2 y.now]) ∨
        (¬Spec.Accepted (y.exec m2).2 ∧ l2' = [])) := by
    have grow : ∀ {z : Sys} {m t}, ((Spec.Accepted (z.exec m).2 ∧
        Effect y.now z.ledger (z.exec m).1.ledger t) ∨ (¬Spec.Accepted (z.exec m).2 ∧ (z.exec m).1 = z)) →
        ∃ l, (z.exec m).1.ledger.blocks = z.ledger.blocks ++ l ∧
          ((Spec.Accepted (z.exec m).2 ∧ ∃ s, l = [mkBlock s t y.now]) ∨
            (¬Spec.Accepted (z.exec m).2 ∧ l = [])) := by
      intro z m t ho
      rcases ho with ⟨ha, he⟩ | ⟨ha, he⟩
      · exact ⟨_, he.blocks, .inl ⟨ha, _, rfl⟩⟩
      · exact ⟨[], by rw [he, List.append_nil], .inr ⟨ha, rfl⟩⟩
    obtain ⟨l1, b1, k1⟩ := grow o1
    obtain ⟨l2', b2, k2'⟩ := grow o2
    obtain ⟨l2, b12, k2⟩ := grow o12
    obtain ⟨l1', b21, k1'⟩ := grow o21
    rw [a2'] at k2
    rw [a1'] at k1'
    exact ⟨l1, l2, l1', l2', by rw [b12, b1, List.append_assoc], by rw [b21, b2, List.append_assoc],
      k1, k2, k1', k2'⟩
  have same : ∀ {t : Transaction} {p : Prop} {l l' : List Block},
      ((p ∧ ∃ s, l = [mkBlock s t y.now]) ∨ (¬p ∧ l = [])) →
      ((p ∧ ∃ s, l' = [mkBlock s t y.now]) ∨ (¬p ∧ l' = [])) →
      (∃ s s', l = [mkBlock s t y.now] ∧ l' = [mkBlock s' t y.now]) ∨ (l = [] ∧ l' = []) := by
    intro t p l l' h1 h2
    rcases h1 with ⟨hp, s, e⟩ | ⟨hp, e⟩ <;> rcases h2 with ⟨hp', s', e'⟩ | ⟨hp', e'⟩
    · exact .inl ⟨s, s', e, e'⟩
    · exact absurd hp hp'
    · exact absurd hp' hp
    · exact .inr ⟨e, e'⟩
  have q1 := same k1 k1'
  have q2 := same k2 k2'
  refine ⟨?_, ?_, ?_, ?_⟩
  · rw [hb, hb', List.map_append, List.map_append, List.map_append, List.map_append]
    refine List.Perm.append_left _ ?_
    have m1 : l1.map Block.transaction = l1'.map Block.transaction := by
      rcases q1 with ⟨s, s', rfl, rfl⟩ | ⟨rfl, rfl⟩ <;> rfl
    have m2 : l2.map Block.transaction = l2'.map Block.transaction := by
      rcases q2 with ⟨s, s', rfl, rfl⟩ | ⟨rfl, rfl⟩ <;> rfl
    rw [m1, m2]
    exact List.perm_append_comm
  · intro a
    have b1 := C02_balances_replay r12 a
    have b2 := C02_balances_replay r21 a
    rw [hb] at b1
    rw [hb'] at b2
    have : Spec.balance (y.ledger.blocks ++ (l1 ++ l2)) (Spec.idOf a) =
        Spec.balance (y.ledger.blocks ++ (l2' ++ l1')) (Spec.idOf a) := by
      simp only [Spec.balance, List.map_append, List.sum_append]
      have m1 : (l1.map (fun b => Spec.delta b (Spec.idOf a))).sum =
          (l1'.map (fun b => Spec.delta b (Spec.idOf a))).sum := by
        rcases q1 with ⟨s, s', rfl, rfl⟩ | ⟨rfl, rfl⟩ <;> rfl
      have m2 : (l2.map (fun b => Spec.delta b (Spec.idOf a))).sum =
          (l2'.map (fun b => Spec.delta b (Spec.idOf a))).sum := by
        rcases q2 with ⟨s, s', rfl, rfl⟩ | ⟨rfl, rfl⟩ <;> rfl
      omega
    omega
  · have b1 := r12.inv.ledger.supply
    have b2 := r21.inv.ledger.supply
    rw [hb] at b1
    rw [hb'] at b2
    have : Spec.supply (y.ledger.blocks ++ (l1 ++ l2)) =
        Spec.supply (y.ledger.blocks ++ (l2' ++ l1')) := by
      simp only [Spec.supply, List.map_append, List.sum_append]
      have m1 : (l1.map Spec.supplyDelta).sum = (l1'.map Spec.supplyDelta).sum := by
        rcases q1 with ⟨s, s', rfl, rfl⟩ | ⟨rfl, rfl⟩ <;> rfl
      have m2 : (l2.map Spec.supplyDelta).sum = (l2'.map Spec.supplyDelta).sum := by
        rcases q2 with ⟨s, s', rfl, rfl⟩ | ⟨rfl, rfl⟩ <;> rfl
      omega
    simp only [icrc1TotalSupply]
    omega
  · intro a sp t hle
    have w1 : ((y.exec m1).1.exec m2).1.now = y.now :=
      ((exec_moved hr1.inv m2).now).trans (now1 m1)
    have w2 : ((y.exec m2).1.exec m1).1.now = y.now :=
      ((exec_moved hr2.inv m1).now).trans (now1 m2)
    rw [C16_allowances_replay r12 a sp t (by rw [w1]; exact hle),
      C16_allowances_replay r21 a sp t (by rw [w2]; exact hle), hb, hb']
    congr 1
    simp only [Spec.allowances, List.foldl_append]
    generalize y.ledger.blocks.foldl Spec.allowStep (fun _ => none) = f
    -- a block of a request that is not about this allowance
    have skip : ∀ {m b sp'} {t' : Transaction} {s : State} (g : Spec.AllowFn),
        Spec.charges m = some (b, sp') → Spec.requestTransaction m = some t' →
        ¬Spec.Concerns y m a sp →
        Spec.allowStep g (mkBlock s t' y.now) (Spec.idOf a, Spec.idOf sp) =
          g (Spec.idOf a, Spec.idOf sp) := by
      intro m b sp' t' s g hc ht hn
      exact request_allowStep (b := mkBlock s t' y.now) ht hn g
    by_cases hcon : Spec.Concerns y m1 a sp
    · have hno : ¬Spec.Concerns y m2 a sp := by
        intro hcon2
        have u1 := concerns_payer c1 hcon
        have u2 := concerns_payer c2 hcon2
        refine p1.payer (takesPart_congr ?_ (charges_takesPart (y := y) c2))
        exact ⟨u1.1.symm.trans u2.1, u1.2.symm.trans u2.2⟩
      have z2 : ∀ (g : Spec.AllowFn), (l2.foldl Spec.allowStep g) (Spec.idOf a, Spec.idOf sp) =
          g (Spec.idOf a, Spec.idOf sp) := by
        intro g
        rcases q2 with ⟨s, s', rfl, rfl⟩ | ⟨rfl, rfl⟩
        · exact skip g c2 e2 hno
        · rfl
      have z2' : ∀ (g : Spec.AllowFn), (l2'.foldl Spec.allowStep g) (Spec.idOf a, Spec.idOf sp) =
          g (Spec.idOf a, Spec.idOf sp) := by
        intro g
        rcases q2 with ⟨s, s', rfl, rfl⟩ | ⟨rfl, rfl⟩
        · exact skip g c2 e2 hno
        · rfl
      rw [z2]
      rcases q1 with ⟨s, s', rfl, rfl⟩ | ⟨rfl, rfl⟩
      · exact allowStep_mkBlock s s' t1 y.now _ _ _ (z2' f).symm
      · exact (z2' f).symm
    · have z1 : ∀ (g : Spec.AllowFn), (l1.foldl Spec.allowStep g) (Spec.idOf a, Spec.idOf sp) =
          g (Spec.idOf a, Spec.idOf sp) := by
        intro g
        rcases q1 with ⟨s, s', rfl, rfl⟩ | ⟨rfl, rfl⟩
        · exact skip g c1 e1 hcon
        · rfl
      have z1' : ∀ (g : Spec.AllowFn), (l1'.foldl Spec.allowStep g) (Spec.idOf a, Spec.idOf sp) =
          g (Spec.idOf a, Spec.idOf sp) := by
        intro g
        rcases q1 with ⟨s, s', rfl, rfl⟩ | ⟨rfl, rfl⟩
        · exact skip g c1 e1 hcon
        · rfl
      rw [z1']
      rcases q2 with ⟨s, s', rfl, rfl⟩ | ⟨rfl, rfl⟩
      · exact allowStep_mkBlock s s' t2 y.now _ _ _ (z1 f)
      · exact z1 f

-- Alice and Bob send cycles to Carol; the order of their blocks is all that differs.
open Toy in
def Toy.twoSenders : Sys := start.run [dep alice 900000000, dep bob 300000000]
open Toy in
example : Spec.Apart twoSenders (xfer bob carol 50000000).msg (acc alice) none ∧
    Spec.Apart twoSenders (xfer alice carol 70000000).msg (acc bob) none := by
  refine ⟨⟨?_, (fun _ h => by cases h)⟩, ⟨?_, (fun _ h => by cases h)⟩⟩ <;>
    rintro (h | h) <;> exact absurd h.1 (by decide)
open Toy in
example : let y := twoSenders
    let m1 := (xfer alice carol 70000000).msg
    let m2 := (xfer bob carol 50000000).msg
    icrc1BalanceOf ((y.exec m1).1.exec m2).1.ledger (acc carol) = 120000000 ∧
    icrc1BalanceOf ((y.exec m2).1.exec m1).1.ledger (acc carol) = 120000000 ∧
    ((y.exec m1).1.exec m2).1.ledger.blocks ≠ ((y.exec m2).1.exec m1).1.ledger.blocks := by
  decide +kernel
-- Without the hypothesis this fails: Bob can only send what Alice sent before.
open Toy in
example : let y := start.run [dep alice 900000000]
    let m1 := (xfer alice bob 500000000).msg
    let m2 := (xfer bob carol 50000000).msg
    icrc1BalanceOf ((y.exec m1).1.exec m2).1.ledger (acc carol) = 50000000 ∧
    icrc1BalanceOf ((y.exec m2).1.exec m1).1.ledger (acc carol) = 0 := by
  decide +kernel

end CyclesLedger
