import Verif.Props.CandidCoerce
import Verif.Props.Helpers
import Verif.Proof.CandidHelpers
/-!
# The depositor in bytes

C114.
-/
namespace CyclesLedger

open Candid Spec.Candid

theorem depositorArg_iff (bs : Bytes) (a : DepositorArg) :
    depositorArg bs = some a ↔ ReadsAs Did.depositorArg bs (Mean.depositorArg a) := by
  have hm := U128MAX_eq
  have hc := fun x => decode_coercing (bs := bs) (a := x) coercing_depositor
  have hlt := a.cycles.isLt
  have e : Mean.depositorArg a = meanRaw (a.cycles.val, a.to, a.memo) := by
    simp only [Mean.depositorArg, meanRaw]
    rw [if_pos (by omega)]
  rw [e, ← hc]
  unfold depositorArg
  constructor
  · intro h
    split at h
    · cases h
    · rename_i n to memo hd
      split at h
      · cases h; exact hd
      · cases h
  · intro h
    rw [h]
    simp only [hlt, dif_pos]

/-- **C114**: what the depositor reads, of its arguments and of the answers of the ledger, is what
their bytes say at the types of `depositor.did`. -/
theorem C114_reads (bs : Bytes) :
    (∀ a, depositorArg bs = some a ↔ ReadsAs Did.depositorArg bs (Mean.depositorArg a)) ∧
    (∀ r, decode desDepositResult bs = some r ↔ ReadsAs Did.depositResult bs (Mean.depositResult r)) ∧
    (∀ p, decode desDepositorInit bs = some p ↔ ReadsAs Did.depositorInit bs (Mean.depositorInit p)) :=
  ⟨depositorArg_iff bs, fun _ => decode_coercing coercing_depositResult,
    fun _ => decode_coercing coercing_depositorInit⟩

/-- **C114**: the ledger reads any bytes of the argument that the depositor passes on as account and
memo that were asked for, and the depositor any bytes of the ledger's answer as that answer. -/
theorem C114_understood (a : DepositArg) (i bal : Nat) :
    (∃ bs, IsMessage bs [(tyDepositArg, putDepositArg a)]) ∧
    (∀ bs, IsMessage bs [(tyDepositArg, putDepositArg a)] →
      ReadsAs Did.depositArgs bs (Mean.depositArgs a) ∧ decode desDeposit bs = some a) ∧
    ∀ t v, reply [] (.deposit i bal) = some (t, v) → (∃ bs, IsMessage bs [(t, v)]) ∧
      ∀ bs, IsMessage bs [(t, v)] → decode desDepositResult bs = some (i, bal) := by
  refine ⟨message_of_wf good_depositArg.wf (good_depositArg.typed a), ?_, ?_⟩
  · intro bs hb
    have hd := decode_reads reads_deposit hb (good_depositArg.ok a trivial)
    exact ⟨(decode_coercing coercing_deposit).mp hd, hd⟩
  · intro t v hr
    cases hr
    exact ⟨message_of_wf good_deposit.wf (good_deposit.typed (i, bal)),
      fun bs hb => decode_reads reads_depositResult hb (good_deposit.ok (i, bal) trivial)⟩

/-! ## Histories -/

/-- The call in bytes is the typed one. -/
def Spec.SameWire : WireCall → DepositorCall → Prop
  | .sent n bs, .sent a => n = a.cycles ∧ decode desDeposit bs = some ⟨a.to, a.memo⟩
  | .replied bs, .replied _ i bal => decode desDepositResult bs = some (i, bal)
  | .rejected n, .rejected a => n = a.cycles
  | _, _ => False

/-- What the call was asked to do. -/
def Spec.askedFor : DepositorCall → DepositorArg
  | .sent a => a
  | .replied a _ _ => a
  | .rejected a => a

/-- The bytes of an event of the history ask for `a`. -/
def Spec.AskedIn (es : List WireEvent) (a : DepositorArg) : Prop :=
  ∃ bs, WireEvent.call bs ∈ es ∧ Spec.Candid.ReadsAs Did.depositorArg bs (Mean.depositorArg a)

/-- Both are in the same state, after the events `es`. -/
structure Spec.SameDuo (es : List WireEvent) (w : WireDuo) (d : Duo) : Prop where
  sys : w.sys = d.sys
  self : w.self = d.self
  cycles : w.cycles = d.cycles
  length : w.calls.length = d.calls.length
  calls : ∀ (i : Nat) c c', w.calls[i]? = some c → d.calls[i]? = some c' →
    Spec.SameWire c c' ∧ Spec.AskedIn es (Spec.askedFor c')

theorem Spec.AskedIn.mono {es es' : List WireEvent} {a : DepositorArg} (h : Spec.AskedIn es a) :
    Spec.AskedIn (es ++ es') a := by
  obtain ⟨bs, h1, h2⟩ := h
  exact ⟨bs, List.mem_append_left _ h1, h2⟩

theorem Spec.SameDuo.get {es : List WireEvent} {w : WireDuo} {d : Duo} (h : Spec.SameDuo es w d)
    {i : Nat} {c : WireCall} (hc : w.calls[i]? = some c) :
    ∃ c', d.calls[i]? = some c' ∧ Spec.SameWire c c' ∧ Spec.AskedIn es (Spec.askedFor c') := by
  have hi := (List.getElem?_eq_some_iff.mp hc).1
  rw [h.length] at hi
  exact ⟨d.calls[i], List.getElem?_eq_getElem hi, h.calls i c _ hc (List.getElem?_eq_getElem hi)⟩

theorem Spec.SameDuo.set {es es' : List WireEvent} {w : WireDuo} {d : Duo} (h : Spec.SameDuo es w d)
    {k : Nat} {c : WireCall} {c' : DepositorCall} (hc : Spec.SameWire c c')
    (ha : Spec.AskedIn es (Spec.askedFor c')) (i : Nat) (x : WireCall) (x' : DepositorCall)
    (hx : (w.calls.set k c)[i]? = some x) (hx' : (d.calls.set k c')[i]? = some x') :
    Spec.SameWire x x' ∧ Spec.AskedIn (es ++ es') (Spec.askedFor x') := by
  rw [List.getElem?_set] at hx hx'
  by_cases hk : k = i
  · subst hk
    simp only [if_true] at hx hx'
    split at hx
    · cases hx
      split at hx'
      · cases hx'; exact ⟨hc, ha.mono⟩
      · cases hx'
    · cases hx
  · rw [if_neg hk] at hx hx'
    obtain ⟨h1, h2⟩ := h.calls i x x' hx hx'
    exact ⟨h1, h2.mono⟩

theorem Spec.SameDuo.erase {es es' : List WireEvent} {w : WireDuo} {d : Duo}
    (h : Spec.SameDuo es w d) (k i : Nat) (x : WireCall) (x' : DepositorCall)
    (hx : (w.calls.eraseIdx k)[i]? = some x) (hx' : (d.calls.eraseIdx k)[i]? = some x') :
    Spec.SameWire x x' ∧ Spec.AskedIn (es ++ es') (Spec.askedFor x') := by
  rw [List.getElem?_eraseIdx] at hx hx'
  split at hx
  · rename_i hk; rw [if_pos hk] at hx'
    obtain ⟨h1, h2⟩ := h.calls _ x x' hx hx'
    exact ⟨h1, h2.mono⟩
  · rename_i hk; rw [if_neg hk] at hx'
    obtain ⟨h1, h2⟩ := h.calls _ x x' hx hx'
    exact ⟨h1, h2.mono⟩

theorem Spec.SameDuo.mono {es es' : List WireEvent} {w : WireDuo} {d : Duo} (h : Spec.SameDuo es w d) :
    Spec.SameDuo (es ++ es') w d :=
  ⟨h.sys, h.self, h.cycles, h.length, fun i c c' hc hc' =>
    ⟨(h.calls i c c' hc hc').1, (h.calls i c c' hc hc').2.mono⟩⟩

/-- The typed event for an event in bytes; none if the argument cannot be read. -/
def typedEvent : WireEvent → Option DuoEvent
  | .ledger e => some (.ledger e)
  | .call bs => (depositorArg bs).map .call
  | .arrive dt i => some (.arrive dt i)
  | .answer i => some (.answer i)

/-- What the depositor answers in bytes and typed. -/
def Spec.SameWireReply : WireReply → DepositorReply → Prop
  | .replied t v, .ok i bal => Told (some (t, v)) wDepositResult (i, bal)
  | .trapped, .trapped => True
  | .nothing, .nothing => True
  | _, _ => False

theorem told_deposit (i bal : Nat) :
    Told (some (tyDeposit, putDeposit i bal)) wDepositResult (i, bal) :=
  told_good good_deposit det_deposit (a := (i, bal)) trivial rfl

theorem same_step [Crypto] {put put' : Candid.Ty × Val → Bytes} (hp : Encoder put) (hp' : Encoder put')
    {es : List WireEvent} {w : WireDuo} {d : Duo} (h : Spec.SameDuo es w d) (hd : DuoReachable d)
    (e : WireEvent) :
    (typedEvent e = none ∧ w.step put put' e = (w, .trapped)) ∨
    ∃ t, typedEvent e = some t ∧
      Spec.SameDuo (es ++ [e]) (w.step put put' e).1 (d.step t).1 ∧
      Spec.SameWireReply (w.step put put' e).2 (d.step t).2 := by
  cases e with
  | ledger e =>
    refine .inr ⟨_, rfl, ⟨?_, h.self, h.cycles, h.length, h.mono.calls⟩, trivial⟩
    simp only [WireDuo.step, Duo.step, h.sys]
  | call bs =>
    cases ha : depositorArg bs with
    | none => exact .inl ⟨by simp [typedEvent, ha], by simp [WireDuo.step, ha]⟩
    | some arg =>
      refine .inr ⟨.call arg, by simp [typedEvent, ha], ?_⟩
      simp only [WireDuo.step, ha, Duo.step, h.cycles]
      by_cases hc : arg.cycles.val ≤ d.cycles
      · rw [if_pos hc, if_pos hc]
        refine ⟨⟨h.sys, h.self, rfl, by simp [h.length], ?_⟩, trivial⟩
        intro i c c' hx hx'
        simp only at hx hx'
        by_cases hi : i < w.calls.length
        · rw [List.getElem?_append_left hi] at hx
          rw [List.getElem?_append_left (h.length ▸ hi)] at hx'
          exact h.mono.calls i c c' hx hx'
        · rw [List.getElem?_append_right (by omega)] at hx
          rw [List.getElem?_append_right (by have := h.length; omega)] at hx'
          have e1 := List.mem_singleton.mp (List.mem_of_getElem? hx)
          have e2 := List.mem_singleton.mp (List.mem_of_getElem? hx')
          subst e1 e2
          obtain ⟨u1, u2, _⟩ := C114_understood ⟨arg.to, arg.memo⟩ 0 0
          exact ⟨⟨rfl, (u2 _ (hp _ _ u1)).2⟩, bs, by simp, (depositorArg_iff _ _).mp ha⟩
      · rw [if_neg hc, if_neg hc]
        exact ⟨h.mono, trivial⟩
  | arrive dt k =>
    refine .inr ⟨_, rfl, ?_⟩
    cases hk : w.calls[k]? with
    | none =>
      have hk' : d.calls[k]? = none := by
        rw [List.getElem?_eq_none_iff] at hk ⊢; have := h.length; omega
      simp only [WireDuo.step, Duo.step, hk, hk']
      exact ⟨h.mono, trivial⟩
    | some c =>
      obtain ⟨c', hk', hs, ha⟩ := h.get hk
      cases c with
      | replied =>
        cases c' <;> simp only [Spec.SameWire] at hs
        simp only [WireDuo.step, Duo.step, hk, hk']
        exact ⟨h.mono, trivial⟩
      | rejected =>
        cases c' <;> simp only [Spec.SameWire] at hs
        simp only [WireDuo.step, Duo.step, hk, hk']
        exact ⟨h.mono, trivial⟩
      | sent n bs =>
        cases c' <;> simp only [Spec.SameWire] at hs
        rename_i arg
        obtain ⟨rfl, hdec⟩ := hs
        have hm : (⟨"deposit", w.self, arg.cycles, bs, none⟩ : Call).msg =
            some (.deposit d.self arg.cycles ⟨arg.to, arg.memo⟩) := by
          simp [Call.msg, hdec, h.self]
        have hr : w.sys.receive dt ⟨"deposit", w.self, arg.cycles, bs, none⟩ =
            d.sys.step ⟨dt, .deposit d.self arg.cycles ⟨arg.to, arg.memo⟩⟩ := by
          unfold Sys.receive
          rw [hm, h.sys]
        simp only [WireDuo.step, Duo.step, hk, hk', hr]
        rcases exec_deposit (hd.inv.sys.tick dt).inv d.self arg.cycles ⟨arg.to, arg.memo⟩ with
          ⟨s', h1, _⟩ | ⟨h1, _⟩
        · simp only [Sys.step, h1, reply]
          refine ⟨⟨rfl, h.self, h.cycles, by simp [h.length], ?_⟩, trivial⟩
          obtain ⟨_, _, u⟩ := C114_understood ⟨arg.to, arg.memo⟩
            (d.sys.tick dt).ledger.blocks.length (balanceOf s' arg.to)
          obtain ⟨u1, u2⟩ := u _ _ rfl
          exact fun i x x' hx hx' => h.set
            (c := .replied (put' (tyDeposit, putDeposit (d.sys.tick dt).ledger.blocks.length
              (balanceOf s' arg.to))))
            (c' := .replied arg (d.sys.tick dt).ledger.blocks.length (balanceOf s' arg.to)) (u2 _ (hp' _ _ u1)) ha i x x' hx hx'
        · simp only [Sys.step, h1, reply]
          refine ⟨⟨rfl, h.self, h.cycles, by simp [h.length], ?_⟩, trivial⟩
          exact fun i x x' hx hx' => h.set (c := .rejected arg.cycles) (c' := .rejected arg) rfl ha i x x' hx hx'
  | answer k =>
    refine .inr ⟨_, rfl, ?_⟩
    cases hk : w.calls[k]? with
    | none =>
      have hk' : d.calls[k]? = none := by
        rw [List.getElem?_eq_none_iff] at hk ⊢; have := h.length; omega
      simp only [WireDuo.step, Duo.step, hk, hk']
      exact ⟨h.mono, trivial⟩
    | some c =>
      obtain ⟨c', hk', hs, ha⟩ := h.get hk
      have hlen : (w.calls.eraseIdx k).length = (d.calls.eraseIdx k).length := by
        simp only [List.length_eraseIdx, h.length]
      cases c with
      | sent =>
        cases c' <;> simp only [Spec.SameWire] at hs
        simp only [WireDuo.step, Duo.step, hk, hk']
        exact ⟨h.mono, trivial⟩
      | replied bs =>
        cases c' <;> simp only [Spec.SameWire] at hs
        simp only [WireDuo.step, Duo.step, hk, hk', hs]
        exact ⟨⟨h.sys, h.self, h.cycles, hlen, h.erase k⟩, told_deposit _ _⟩
      | rejected n =>
        cases c' <;> simp only [Spec.SameWire] at hs
        subst hs
        simp only [WireDuo.step, Duo.step, hk, hk']
        exact ⟨⟨h.sys, h.self, by simp only [h.cycles], hlen, h.erase k⟩, trivial⟩

theorem DuoReachable.step [Crypto] {d : Duo} (h : DuoReachable d) (e : DuoEvent) :
    DuoReachable (d.step e).1 := by
  obtain ⟨d0, es, h0, h1, rfl⟩ := h
  refine ⟨d0, es ++ [e], h0, h1, ?_⟩
  clear h0 h1
  induction es generalizing d0 with
  | nil => rfl
  | cons a es ih => exact ih _

theorem same_run [Crypto] {put put' : Candid.Ty × Val → Bytes} (hp : Encoder put) (hp' : Encoder put')
    {es0 : List WireEvent} {w : WireDuo} {d : Duo} (h : Spec.SameDuo es0 w d) (hd : DuoReachable d)
    (es : List WireEvent) :
    ∃ d', DuoReachable d' ∧ Spec.SameDuo (es0 ++ es) (w.run put put' es) d' ∧
      d' = d.run (es.filterMap typedEvent) := by
  induction es generalizing es0 w d with
  | nil => exact ⟨d, hd, by rw [List.append_nil]; exact h, rfl⟩
  | cons e es ih =>
    rw [List.append_cons]
    rcases same_step hp hp' h hd e with ⟨h1, h2⟩ | ⟨t, h1, h2, _⟩
    · obtain ⟨d', g1, g2, g3⟩ := ih (h.mono (es' := [e])) hd
      refine ⟨d', g1, ?_, ?_⟩
      · rw [WireDuo.run, h2]; exact g2
      · rw [g3, List.filterMap_cons_none h1]
    · obtain ⟨d', g1, g2, g3⟩ := ih h2 (hd.step t)
      refine ⟨d', g1, g2, ?_⟩
      rw [g3, List.filterMap_cons_some h1]
      rfl

/-- A ledger and a depositor without calls, then any events. -/
def WireReachable [Crypto] (put put' : Candid.Ty × Val → Bytes) (es : List WireEvent) (w : WireDuo) :
    Prop :=
  ∃ w0 : WireDuo, Reachable w0.sys ∧ w0.calls = [] ∧ w = w0.run put put' es

theorem WireReachable.same [Crypto] {put put' : Candid.Ty × Val → Bytes} (hp : Encoder put)
    (hp' : Encoder put') {es : List WireEvent} {w : WireDuo} (h : WireReachable put put' es w) :
    ∃ d, DuoReachable d ∧ Spec.SameDuo es w d := by
  obtain ⟨w0, h0, hc, rfl⟩ := h
  obtain ⟨d, g1, g2, _⟩ := same_run hp hp' (es0 := []) (w := w0) (d := ⟨w0.sys, w0.self, w0.cycles, []⟩)
    ⟨rfl, rfl, rfl, by simp [hc], fun i c c' hx => by simp [hc] at hx⟩
    ⟨_, [], h0, rfl, rfl⟩ es
  exact ⟨d, g1, g2⟩

/-- The cycles of a call that the ledger has not taken. -/
def Spec.unspentOf : WireCall → Nat
  | .sent n _ => n.val
  | .replied _ => 0
  | .rejected n => n.val

/-- The cycles that belong to the depositor: at hand, or with a call the ledger has not accepted. -/
def Spec.wireCycles (w : WireDuo) : Nat := w.cycles + (w.calls.map Spec.unspentOf).sum

theorem same_cycles {es : List WireEvent} {w : WireDuo} {d : Duo} (h : Spec.SameDuo es w d) :
    Spec.wireCycles w = Spec.depositorCycles d := by
  unfold Spec.wireCycles Spec.depositorCycles
  rw [h.cycles]
  congr 2
  apply List.ext_getElem?
  intro i
  simp only [List.getElem?_map]
  cases hc : w.calls[i]? with
  | none =>
    have : d.calls[i]? = none := by
      rw [List.getElem?_eq_none_iff] at hc ⊢; have := h.length; omega
    rw [this]; rfl
  | some c =>
    obtain ⟨c', hc', hs, _⟩ := h.get hc
    rw [hc']
    cases c <;> cases c' <;> simp only [Spec.SameWire] at hs <;>
      simp [Spec.unspentOf, Spec.untaken, hs]

/-- **C114**: whatever bytes the depositor is called with, and however arguments and answers are
encoded: no cycles appear or vanish between depositor and ledger. -/
theorem C114_conserved [Crypto] {put put' : Candid.Ty × Val → Bytes} (hp : Encoder put)
    (hp' : Encoder put') {es : List WireEvent} {w : WireDuo} (h : WireReachable put put' es w)
    (e : WireEvent) :
    (Spec.wireCycles (w.step put put' e).1 : Int) + (w.step put put' e).1.sys.cycles =
      Spec.wireCycles w + (match e with
        | .ledger e => (w.sys.step e).1.cycles
        | _ => w.sys.cycles) := by
  obtain ⟨d, hd, hs⟩ := h.same hp hp'
  rcases same_step hp hp' hs hd e with ⟨h1, h2⟩ | ⟨t, h1, h2, _⟩
  · rw [h2]
    cases e <;> first | rfl | cases h1
  · have := C76_conserved hd t
    rw [← same_cycles h2, ← same_cycles hs, ← h2.sys, ← hs.sys] at this
    rw [this]
    cases e with
    | call bs =>
      cases ha : depositorArg bs <;> simp only [typedEvent, ha, Option.map_none, Option.map_some,
        Option.some.injEq, reduceCtorEq] at h1
      subst h1; rfl
    | _ => cases h1; rfl

/-- **C114**: if the depositor answers, its caller takes the answer for a block of the ledger and a
balance, in one way only; the block credits the account of a call made to the depositor, with the
cycles of this call less the fee, and with its memo.  If it traps on the ledger's response, the
cycles of the call are back. -/
theorem C114_answer [Crypto] {put put' : Candid.Ty × Val → Bytes} (hp : Encoder put)
    (hp' : Encoder put') {es : List WireEvent} {w : WireDuo} (h : WireReachable put put' es w) (k : Nat) :
    (∀ t v, (w.step put put' (.answer k)).2 = .replied t v → ∃ i bal arg b,
      Told (some (t, v)) wDepositResult (i, bal) ∧ Spec.AskedIn es arg ∧
      w.sys.ledger.blocks[i]? = some b ∧
      b.transaction = ⟨.mint arg.to (arg.cycles.val - 100000000) 100000000, none, arg.memo⟩ ∧
      (w.step put put' (.answer k)).1.cycles = w.cycles) ∧
    ((w.step put put' (.answer k)).2 = .trapped → ∃ arg, Spec.AskedIn es arg ∧
      w.calls[k]? = some (.rejected arg.cycles) ∧
      (w.step put put' (.answer k)).1.cycles = w.cycles + arg.cycles.val) := by
  obtain ⟨d, hd, hs⟩ := h.same hp hp'
  rcases same_step hp hp' hs hd (.answer k) with ⟨h1, h2⟩ | ⟨t, h1, h2, h3⟩
  · cases h1
  · cases h1
    obtain ⟨a1, a2⟩ := C76_answer hd k
    constructor
    · intro t v hr
      rw [hr] at h3
      cases ho : (d.step (.answer k)).2 with
      | ok i bal =>
        rw [ho] at h3
        obtain ⟨arg, b, g1, g2, g3, g4⟩ := a1 i bal ho
        have hk := (List.getElem?_eq_some_iff.mp g1).1
        rw [← hs.length] at hk
        have := (hs.calls k _ _ (List.getElem?_eq_getElem hk) g1).2
        exact ⟨i, bal, arg, b, h3, this, by rw [hs.sys]; exact g2, g3, by rw [h2.cycles, g4, hs.cycles]⟩
      | trapped => rw [ho] at h3; exact h3.elim
      | nothing => rw [ho] at h3; exact h3.elim
    · intro hr
      rw [hr] at h3
      cases ho : (d.step (.answer k)).2 with
      | ok i bal => rw [ho] at h3; exact h3.elim
      | nothing => rw [ho] at h3; exact h3.elim
      | trapped =>
        obtain ⟨arg, g1, g2⟩ := a2 ho
        have hk := (List.getElem?_eq_some_iff.mp g1).1
        rw [← hs.length] at hk
        obtain ⟨q1, q2⟩ := hs.calls k _ _ (List.getElem?_eq_getElem hk) g1
        refine ⟨arg, q2, ?_, by rw [h2.cycles, g2, hs.cycles]⟩
        rw [List.getElem?_eq_getElem hk]
        cases hc : w.calls[k] <;> rw [hc] at q1 <;> simp only [Spec.SameWire] at q1
        rw [q1]

/-- **C114**: a history in bytes leads where the typed one leads, with the calls whose bytes cannot be
read left out; so everything proved about depositor and ledger holds (C76). -/
theorem C114_life [Crypto] {put put' : Candid.Ty × Val → Bytes} (hp : Encoder put)
    (hp' : Encoder put') {w0 : WireDuo} (h : Reachable w0.sys) (hc : w0.calls = [])
    (es : List WireEvent) : ∃ ts : List DuoEvent,
      (∀ arg, .call arg ∈ ts → Spec.AskedIn es arg) ∧
      (w0.run put put' es).sys = (Duo.run ⟨w0.sys, w0.self, w0.cycles, []⟩ ts).sys ∧
      (w0.run put put' es).cycles = (Duo.run ⟨w0.sys, w0.self, w0.cycles, []⟩ ts).cycles ∧
      (w0.run put put' es).calls.length = (Duo.run ⟨w0.sys, w0.self, w0.cycles, []⟩ ts).calls.length := by
  obtain ⟨d, g1, g2, rfl⟩ := same_run hp hp' (es0 := []) (w := w0)
    (d := ⟨w0.sys, w0.self, w0.cycles, []⟩)
    ⟨rfl, rfl, rfl, by simp [hc], fun i c c' hx => by simp [hc] at hx⟩
    ⟨_, [], h, rfl, rfl⟩ es
  refine ⟨_, ?_, g2.sys, g2.cycles, g2.length⟩
  intro arg ha
  obtain ⟨e, he, ht⟩ := List.mem_filterMap.mp ha
  cases e with
  | call bs =>
    obtain ⟨a, h1, h2⟩ := Option.map_eq_some_iff.mp ht
    cases h2
    exact ⟨bs, he, (depositorArg_iff _ _).mp h1⟩
  | _ => cases ht

/-- There are encoders. -/
example : ∃ put, Encoder put := by
  classical
  exact ⟨fun x => if h : ∃ bs, IsMessage bs [(x.1, x.2)] then h.choose else [],
    fun t v h => by simp only [h, dif_pos]; exact h.choose_spec⟩

/-- `(record { to = record { owner = principal … }; memo = blob "\01\02"; cycles = 900_000_000_000 })`. -/
def Toy.aDeposit : Bytes :=
  [68, 73, 68, 76, 3, 108, 1, 179, 176, 218, 195, 3, 104, 108, 3, 251, 202, 1, 0, 186, 137, 229, 194, 4, 2, 141, 170, 205, 148, 8, 125, 109, 123, 1, 1, 1, 1, 2, 2, 1, 2, 128, 208, 184, 225, 152, 26]

theorem Toy.aDeposit_read :
    depositorArg Toy.aDeposit = some ⟨900000000000, Toy.acc Toy.bob, some [1, 2]⟩ := by
  decide +kernel

open Toy in
/-- With any encoders, this call is answered once it has arrived; one that is cut off traps, and so
does a second one, for want of cycles. -/
example {put put' : Candid.Ty × Val → Bytes} (hp : Encoder put) (hp' : Encoder put') :
    let w0 : WireDuo := ⟨demo, carol, 1000000000000, []⟩
    let es : List WireEvent := [.call aDeposit, .arrive 5 0]
    WireReachable put put' es (w0.run put put' es) ∧
    (∃ t v, ((w0.run put put' es).step put put' (.answer 0)).2 = .replied t v) ∧
    ((w0.run put put' es).step put put' (.call (aDeposit.take 20))).2 = .trapped ∧
    ((w0.run put put' es).step put put' (.call aDeposit)).2 = .trapped := by
  intro w0 es
  have hr : Reachable w0.sys := demo_reachable
  obtain ⟨d, g1, g2, g3⟩ := same_run hp hp' (es0 := []) (w := w0) (d := ⟨w0.sys, w0.self, w0.cycles, []⟩)
    ⟨rfl, rfl, rfl, rfl, fun i c c' hx => by simp [w0] at hx⟩ ⟨_, [], hr, rfl, rfl⟩ es
  have ht : es.filterMap typedEvent =
      [.call ⟨900000000000, acc bob, some [1, 2]⟩, .arrive 5 0] := by
    simp [es, typedEvent, aDeposit_read]
  rw [ht] at g3
  refine ⟨⟨w0, hr, rfl, rfl⟩, ?_, ?_, ?_⟩
  · rcases same_step hp hp' g2 g1 (.answer 0) with ⟨h1, _⟩ | ⟨t, h1, _, h3⟩
    · cases h1
    · cases h1
      have : (d.step (.answer 0)).2 = .ok 6 899900001000 := by subst g3; decide +kernel
      rw [this] at h3
      cases hw : ((w0.run put put' es).step put put' (.answer 0)).2 with
      | replied t v => exact ⟨t, v, rfl⟩
      | trapped => rw [hw] at h3; exact h3.elim
      | nothing => rw [hw] at h3; exact h3.elim
  · have : depositorArg (aDeposit.take 20) = none := by decide +kernel
    simp [WireDuo.step, this]
  · rcases same_step hp hp' g2 g1 (.call aDeposit) with ⟨h1, _⟩ | ⟨t, h1, _, h3⟩
    · simp [typedEvent, aDeposit_read] at h1
    · simp only [typedEvent, aDeposit_read, Option.map_some, Option.some.injEq] at h1
      subst h1
      have : (d.step (.call ⟨900000000000, acc bob, some [1, 2]⟩)).2 = .trapped := by
        subst g3; decide +kernel
      rw [this] at h3
      cases hw : ((w0.run put put' es).step put put' (.call aDeposit)).2 with
      | replied t v => rw [hw] at h3; exact h3.elim
      | trapped => rfl
      | nothing => rw [hw] at h3; exact h3.elim

end CyclesLedger
