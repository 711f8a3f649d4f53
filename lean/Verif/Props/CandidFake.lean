import Verif.Props.CandidCoerce
import Verif.Props.CandidCalls
import Verif.Props.CandidMeta
import Verif.Props.CandidTest
import Verif.Props.Helpers
import Verif.Proof.CandidFake
/-!
# The fake CMC in bytes

C115.
-/
namespace CyclesLedger

open Candid Spec.Candid

/-- The fake CMC will fail with `e`: it was told so, and since then it was neither told anything else
nor asked for a canister with enough cycles. -/
def Spec.Candid.Due (es : List CmcEvent) (e : CmcErrorWith) : Prop :=
  ∃ before x after, es = before ++ x :: after ∧ Orders e x ∧
    ∀ z ∈ after, (∀ e', ¬Orders e' z) ∧ ∀ a, ¬Requests a z

/-- The last canister that was asked for with enough cycles. -/
def Spec.Candid.LastAsked (es : List CmcEvent) (a : CmcArgs) : Prop :=
  ∃ before x after, es = before ++ x :: after ∧ Requests a x ∧ ∀ z ∈ after, ∀ a', ¬Requests a' z

theorem failure_iff (bs : Bytes) (e : CmcErrorWith) :
    decode desCmcErrorWith bs = some e ↔ Spec.Candid.ReadsAs Did.cmcError bs (Mean.failure e) := by
  rw [decode_coercing coercing_cmcError]
  cases e <;> rfl

theorem request_iff (bs : Bytes) (a : CmcArgs) :
    decode desCmcArgs bs = some a ↔ Spec.Candid.ReadsAs Did.cmcArgs bs (Mean.cmcArgs a) :=
  decode_coercing coercing_cmcArgs

theorem begin_some {c : WireCmc} {bs : Bytes} {n : Nat} {args : CmcArgs}
    (hd : decode desCmcArgs bs = some args) :
    c.begin bs n = if n < 100000000000 then
        (c, 0, .failed (.refunded (n, utf8 "Insufficient cycles attached.")))
      else match c.failNext with
      | some (.refunded r) =>
        (⟨some args, none⟩, min n (wrapSub128 n r.1), .failed (.refunded r))
      | some (.refundFailed r) => (⟨some args, none⟩, n, .failed (.refundFailed r))
      | none => (⟨some args, none⟩, n, .creating args) := by
  simp only [WireCmc.begin, hd]
  rfl

theorem begin_state {c : WireCmc} {bs : Bytes} {n : Nat} {args : CmcArgs}
    (hd : decode desCmcArgs bs = some args) :
    (c.begin bs n).1 = if n < 100000000000 then c else ⟨some args, none⟩ := by
  rw [begin_some hd]
  split
  · rfl
  · split <;> rfl

theorem step_failNext (c : WireCmc) (x : CmcEvent) (e : CmcErrorWith) :
    (c.step x).failNext = some e ↔ Orders e x ∨
      (((∀ e', ¬Orders e' x) ∧ ∀ a, ¬Requests a x) ∧ c.failNext = some e) := by
  cases x with
  | create bs n =>
    simp only [WireCmc.step, Orders, Requests, false_or, not_false_eq_true, implies_true, true_and,
      ← request_iff]
    cases hd : decode desCmcArgs bs with
    | none => simp [WireCmc.begin, hd]
    | some args =>
      rw [begin_state hd]
      split
      · rename_i h
        simp [Nat.not_le.mpr h]
      · rename_i h
        simp [Nat.not_lt.mp h]
  | failNext bs =>
    simp only [WireCmc.step, Orders, Requests, not_false_eq_true, implies_true, and_true,
      ← failure_iff]
    cases hd : decode desCmcErrorWith bs with
    | none => simp
    | some e' => simp

theorem step_lastArgs (c : WireCmc) (x : CmcEvent) (a : CmcArgs) :
    (c.step x).lastArgs = some a ↔ Requests a x ∨
      ((∀ a', ¬Requests a' x) ∧ c.lastArgs = some a) := by
  cases x with
  | create bs n =>
    simp only [WireCmc.step, Requests, ← request_iff]
    cases hd : decode desCmcArgs bs with
    | none => simp [WireCmc.begin, hd]
    | some args =>
      rw [begin_state hd]
      split
      · rename_i h
        simp [Nat.not_le.mpr h]
      · rename_i h
        simp [Nat.not_lt.mp h]
  | failNext bs =>
    simp only [WireCmc.step, Requests, not_false_eq_true, implies_true, true_and, false_or]
    cases hd : decode desCmcErrorWith bs with
    | none => simp
    | some e' => simp

theorem run_last {A : Type} {get : WireCmc → Option A} {Sets : A → CmcEvent → Prop}
    {Quiet : CmcEvent → Prop}
    (hs : ∀ c x a, get (c.step x) = some a ↔ Sets a x ∨ (Quiet x ∧ get c = some a)) (a : A)
    (es : List CmcEvent) (c : WireCmc) : get (c.run es) = some a ↔
      (∃ before x after, es = before ++ x :: after ∧ Sets a x ∧ ∀ z ∈ after, Quiet z) ∨
        ((∀ z ∈ es, Quiet z) ∧ get c = some a) := by
  induction es generalizing c with
  | nil => simp [WireCmc.run]
  | cons x es ih =>
    have := ih (c.step x)
    rw [show c.run (x :: es) = (c.step x).run es from rfl, this, hs]
    constructor
    · rintro (⟨b, z, t, rfl, h1, h2⟩ | ⟨h1, h2 | ⟨h2, h3⟩⟩)
      · exact .inl ⟨x :: b, z, t, rfl, h1, h2⟩
      · exact .inl ⟨[], x, es, rfl, h2, h1⟩
      · refine .inr ⟨fun z hz => ?_, h3⟩
        rcases List.mem_cons.mp hz with rfl | hz
        · exact h2
        · exact h1 z hz
    · rintro (⟨b, z, t, he, h1, h2⟩ | ⟨h1, h2⟩)
      · cases b with
        | nil =>
          rw [List.nil_append] at he
          cases he
          exact .inr ⟨h2, .inl h1⟩
        | cons w b =>
          rw [List.cons_append] at he
          cases he
          exact .inl ⟨b, z, t, rfl, h1, h2⟩
      · exact .inr ⟨fun z hz => h1 z (List.mem_cons_of_mem _ hz), .inr ⟨h1 x (List.mem_cons_self ..), h2⟩⟩

theorem run_failNext (es : List CmcEvent) (e : CmcErrorWith) :
    (WireCmc.init.run es).failNext = some e ↔ Due es e := by
  rw [run_last step_failNext e es WireCmc.init]
  simp only [WireCmc.init, reduceCtorEq, and_false, or_false]
  exact Iff.rfl

theorem run_lastArgs (es : List CmcEvent) (a : CmcArgs) :
    (WireCmc.init.run es).lastArgs = some a ↔ LastAsked es a := by
  rw [run_last step_lastArgs a es WireCmc.init]
  simp only [WireCmc.init, reduceCtorEq, and_false, or_false]
  exact Iff.rfl

theorem due_bound {es : List CmcEvent} {r : Nat × Bytes} (h : Due es (.refunded r)) :
    r.1 < 2 ^ 128 := by
  obtain ⟨_, x, _, _, h, _⟩ := h
  cases x with
  | create => exact h.elim
  | failNext bs =>
    have hd := (failure_iff _ _).mpr h
    unfold decode at hd
    split at hd
    · cases hd
    · cases hd
    · split at hd
      · simp only [desCmcErrorWith] at hd
        split at hd
        · cases hd
        · split at hd
          · obtain ⟨q, hq, he⟩ := Option.map_eq_some_iff.mp hd
            cases he
            simp only [desRefundedWith, Option.bind_eq_bind, Option.bind_eq_some_iff,
              Option.pure_def, Option.some.injEq] at hq
            obtain ⟨n, hn, _, _, rfl⟩ := hq
            exact u128_bound hn
          · split at hd
            · obtain ⟨_, _, he⟩ := Option.map_eq_some_iff.mp hd; cases he
            · cases hd
      · cases hd

/-- **C115**: after every history of calls, in bytes, `last_create_canister_args` tells what the last
call with enough cycles asked for, and traps if there was none. -/
theorem C115_last (es : List CmcEvent) (now : Nat) {bs : Bytes} {args : List (Candid.Ty × Val)}
    (hb : IsMessage bs args) :
    (∀ a, Told ((WireCmc.init.run es).show now "last_create_canister_args" bs) wCmcArgs a ↔
      LastAsked es a) ∧
    ((WireCmc.init.run es).show now "last_create_canister_args" bs = none ↔ ∀ a, ¬LastAsked es a) := by
  have hr := (readMessage_iff _ _).mpr hb
  have e : (WireCmc.init.run es).show now "last_create_canister_args" bs =
      (WireCmc.init.run es).lastArgs.map (fun a => (tyCmcArgs, putCmcArgs a)) := by
    simp only [WireCmc.show, hr, Option.bind_some]
    rw [if_neg (by decide), if_pos trivial]
  have ht : ∀ a, (WireCmc.init.run es).lastArgs = some a →
      Told ((WireCmc.init.run es).show now "last_create_canister_args" bs) wCmcArgs a := by
    intro a ha
    refine told_good good_cmcArgs (det_of_reads reads_cmcArgs) trivial ?_
    rw [e, ha]; rfl
  simp only [← run_lastArgs]
  refine ⟨fun a => ⟨fun h => ?_, ht a⟩, ?_⟩
  · cases hl : (WireCmc.init.run es).lastArgs with
    | none =>
      obtain ⟨_, _, ho, _⟩ := h
      rw [e, hl] at ho; cases ho
    | some a' =>
      obtain ⟨t, v, ho, ⟨bs', hb'⟩, hu⟩ := h
      obtain ⟨t', v', ho', _, hu'⟩ := ht a' hl
      rw [ho] at ho'
      cases ho'
      rw [(hu' bs' hb' a).mp ((hu bs' hb' a).mpr rfl)]
  · rw [e, Option.map_eq_none_iff]
    constructor
    · intro h a ha; rw [h] at ha; cases ha
    · intro h
      cases hl : (WireCmc.init.run es).lastArgs with
      | none => rfl
      | some a => exact absurd hl (h a)

theorem told_fake {e : Except CmcErrorWith Principal}
    (h : ∀ r, e = .error (.refunded r) → r.1 < 2 ^ 128) :
    Told (some (tyFakeReply, putFakeReply e)) wFakeReply e :=
  told_good good_fakeReply det_fakeReply (by rintro _ rfl q rfl; exact h q rfl) rfl

/-- The loop: the first canister that is created is the answer, after any number of ids that are
taken; any other rejection is passed on. -/
theorem createLoop_some {mgmt : List MgmtAnswer} {o : Option (Candid.Ty × Val)}
    (h : createLoop mgmt = some o) : ∃ k rest,
      (∃ p, mgmt = List.replicate k .taken ++ .created p :: rest ∧
        o = some (tyFakeReply, putFakeReply (.ok p))) ∨
      (mgmt = List.replicate k .taken ++ .rejected :: rest ∧ o = none) := by
  induction mgmt with
  | nil => cases h
  | cons a t ih =>
    cases a with
    | created p => cases h; exact ⟨0, t, .inl ⟨p, rfl, rfl⟩⟩
    | rejected => cases h; exact ⟨0, t, .inr ⟨rfl, rfl⟩⟩
    | taken =>
      obtain ⟨k, rest, ⟨p, rfl, rfl⟩ | ⟨rfl, rfl⟩⟩ := ih h
      · exact ⟨k + 1, rest, .inl ⟨p, rfl, rfl⟩⟩
      · exact ⟨k + 1, rest, .inr ⟨rfl, rfl⟩⟩

/-- **C115**: what `create_canister` answers, after every history, and how many of the cycles come
back: too few are all returned; else a failure that is due is the answer, with its texts, and is then
no longer due; else the answer is the first canister that the management canister creates, and the
cycles are kept. -/
theorem C115_answered (es : List CmcEvent) {bs : Bytes} {args : CmcArgs} {n : Nat}
    (hb : Spec.Candid.ReadsAs Did.cmcArgs bs (Mean.cmcArgs args)) (mgmt : List MgmtAnswer)
    {c' : WireCmc} {accepted : Nat} {b : Begun} (hc : (WireCmc.init.run es).begin bs n = (c', accepted, b))
    {o : Option (Candid.Ty × Val)} (ho : b.answer mgmt = some o) :
    (n < 100000000000 →
      Told o wFakeReply (.error (.refunded (n, "Insufficient cycles attached.".toByteArray.data.toList))) ∧
      accepted = 0) ∧
    (100000000000 ≤ n → (∀ e, Due es e → Told o wFakeReply (.error e) ∧
        accepted ≤ n ∧ n - accepted = match e with
          | .refunded r => if r.1 ≤ n then r.1 else 0
          | .refundFailed _ => 0) ∧
      (∀ e, ¬Due (es ++ [.create bs n]) e) ∧
      ((∀ e, ¬Due es e) → accepted = n ∧ b = .creating args ∧ ∃ k rest,
        (∃ p, mgmt = List.replicate k .taken ++ .created p :: rest ∧ Told o wFakeReply (.ok p)) ∨
        (mgmt = List.replicate k .taken ++ .rejected :: rest ∧ o = none))) := by
  have hd := (request_iff _ _).mpr hb
  have hm := U128MAX_eq
  rw [begin_some hd] at hc
  constructor
  · intro hn
    rw [if_pos hn] at hc
    cases hc
    cases ho
    exact ⟨told_fake (by rintro r h; cases h; show n < _; omega), rfl⟩
  · intro hn
    rw [if_neg (by omega)] at hc
    refine ⟨?_, ?_, ?_⟩
    · intro e he
      rw [(run_failNext es e).mpr he] at hc
      cases e with
      | refunded r =>
        have hr := due_bound he
        cases hc
        cases ho
        refine ⟨told_fake (by rintro q h; cases h; exact hr), Nat.min_le_left _ _, ?_⟩
        show _ = if r.1 ≤ n then r.1 else 0
        unfold wrapSub128
        split
        · rw [Nat.min_eq_right (by omega)]; omega
        · rw [Nat.min_eq_left (by omega)]; omega
      | refundFailed r =>
        cases hc
        cases ho
        exact ⟨told_fake (fun q h => by cases h), Nat.le_refl _, by simp⟩
    · intro e he
      rw [← run_failNext] at he
      have : WireCmc.init.run (es ++ [.create bs n]) = ((WireCmc.init.run es).begin bs n).1 := by
        simp only [WireCmc.run, List.foldl_append, List.foldl_cons, List.foldl_nil, WireCmc.step]
      rw [this, begin_state hd, if_neg (by omega)] at he
      cases he
    · intro he
      have hf : (WireCmc.init.run es).failNext = none := by
        cases hf : (WireCmc.init.run es).failNext with
        | none => rfl
        | some e => exact absurd ((run_failNext es e).mp hf) (he e)
      rw [hf] at hc
      cases hc
      refine ⟨rfl, rfl, ?_⟩
      obtain ⟨k, rest, ⟨p, h1, rfl⟩ | h1⟩ := createLoop_some ho
      · exact ⟨k, rest, .inl ⟨p, h1, told_fake (fun q h => by cases h)⟩⟩
      · exact ⟨k, rest, .inr h1⟩

/-- **C115**: a request that cannot be read changes nothing, keeps no cycles and is rejected. -/
theorem C115_unreadable (c : WireCmc) {bs : Bytes} (n : Nat) (mgmt : List MgmtAnswer)
    (hb : ∀ args, ¬Spec.Candid.ReadsAs Did.cmcArgs bs (Mean.cmcArgs args)) :
    (c.begin bs n).1 = c ∧ (c.begin bs n).2.1 = 0 ∧ (c.begin bs n).2.2.answer mgmt = some none := by
  cases hd : decode desCmcArgs bs with
  | none => simp only [WireCmc.begin, hd]; exact ⟨trivial, trivial, rfl⟩
  | some args => exact absurd ((request_iff _ _).mp hd) (hb args)

/-- The empty message cannot be read. -/
example (args : CmcArgs) : ¬Spec.Candid.ReadsAs Did.cmcArgs [] (Mean.cmcArgs args) := fun h => by
  have := (request_iff _ _).mpr h
  rw [show decode desCmcArgs [] = none by decide +kernel] at this
  cases this

/-- **C115**: the management canister is asked for what the fake CMC was asked for; and the rate that
the fake CMC tells is always 5 XDR, at the current second, without certificate. -/
theorem C115_told (args : CmcArgs) {version : Nat} (hv : version < 2 ^ 64) (c : WireCmc) {now : Nat}
    (hn : now < 2 ^ 64) {bs : Bytes} {l : List (Candid.Ty × Val)} (hb : IsMessage bs l) :
    Told (some (tyComplete, putComplete args version)) wComplete (args.settings, some version) ∧
    Told (c.show now "get_icp_xdr_conversion_rate" bs) wRateResponse
      ([], (50000, now / 1000000000), []) := by
  have hr := (readMessage_iff _ _).mpr hb
  refine ⟨told_good good_complete det_complete (by rintro n h; cases h; exact hv) rfl, ?_⟩
  refine told_good good_rateResponse det_rateResponse
    ⟨show 50000 < 256 ^ 8 by decide, ?_⟩ ?_
  · rw [show (256 : Nat) ^ 8 = 2 ^ 64 from by decide]
    exact Nat.lt_of_le_of_lt (Nat.div_le_self _ _) hn
  · simp only [WireCmc.show, hr, if_true, Option.map_some]
    rfl

/-! ## Together with the ledger -/

/-- What an answer of the CMC says to the ledger. -/
def Spec.Candid.outcomeOf : Except CmcErrorWith Principal → CmcResult
  | .ok p => .created p
  | .error (.refunded r) => .refunded r.1
  | .error (.refundFailed _) => .refundFailed

/-- The same without texts. -/
def plainFailure : CmcErrorWith → Option CmcFailure
  | .refunded r => if h : r.1 < U128MAX + 1 then some (.refunded ⟨r.1, h⟩) else none
  | .refundFailed _ => some .refundFailed

def Candid.WireCmc.plain (c : WireCmc) : FakeCmc := ⟨c.lastArgs, c.failNext.bind plainFailure⟩

theorem createLoop_create {mgmt : List MgmtAnswer} {o : Option (Candid.Ty × Val)}
    (h : createLoop mgmt = some o) {resp : Response} (hr : Responds o resp) :
    FakeCmc.create mgmt = some (cmcOutcome resp) := by
  induction mgmt with
  | nil => cases h
  | cons a t ih =>
    cases a with
    | taken => exact ih h
    | created p =>
      cases h
      cases resp with
      | reject => exact hr.elim
      | reply bs =>
        have hw := good_fakeReply.ok (.ok p) (fun e h => by cases h)
        rw [(C104_answer (.ok p)).1 bs _ _ [] hr (reply_plain hw)]
        rfl
    | rejected =>
      cases h
      cases resp with
      | reply => exact hr.elim
      | reject code =>
        cases (show code = _ from hr)
        rfl

theorem outcome_fake {z : Except CmcErrorWith Principal}
    (h : ∀ r, z = .error (.refunded r) → r.1 < 2 ^ 128) {resp : Response}
    (hr : Responds (some (tyFakeReply, putFakeReply z)) resp) : cmcOutcome resp = outcomeOf z := by
  cases resp with
  | reject => exact hr.elim
  | reply bs =>
    have hw := good_fakeReply.ok z (by rintro _ rfl q rfl; exact h q rfl)
    rw [(C104_answer _).1 bs _ _ [] hr (reply_plain hw)]
    rcases z with (r | r) | q <;> rfl

theorem fake_shape {es : List CmcEvent} {bs : Bytes} {args : CmcArgs} {n : Nat}
    (hd : decode desCmcArgs bs = some args) {mgmt : List MgmtAnswer} {c' : WireCmc} {accepted : Nat}
    {b : Begun} (hc : (WireCmc.init.run es).begin bs n = (c', accepted, b))
    {o : Option (Candid.Ty × Val)} (ho : b.answer mgmt = some o) {resp : Response}
    (hr : Responds o resp) :
    o = none ∨ ∃ z, o = some (tyFakeReply, putFakeReply z) ∧ Told o wFakeReply z ∧
      cmcOutcome resp = outcomeOf z := by
  have key : ∀ z, (∀ r, z = .error (.refunded r) → r.1 < 2 ^ 128) →
      o = some (tyFakeReply, putFakeReply z) → o = none ∨ ∃ z,
        o = some (tyFakeReply, putFakeReply z) ∧ Told o wFakeReply z ∧ cmcOutcome resp = outcomeOf z := by
    rintro z hz rfl
    exact .inr ⟨z, rfl, told_fake hz, outcome_fake hz hr⟩
  rw [begin_some hd] at hc
  split at hc
  · cases hc
    cases ho
    exact key _ (by rintro r h; cases h; show n < _; omega) rfl
  · split at hc
    · rename_i r hf
      cases hc
      cases ho
      exact key _ (by rintro q h; cases h; exact due_bound ((run_failNext es _).mp hf)) rfl
    · cases hc
      cases ho
      exact key _ (fun q h => by cases h) rfl
    · cases hc
      obtain ⟨_, _, ⟨p, _, rfl⟩ | ⟨_, rfl⟩⟩ := createLoop_some ho
      · exact key _ (fun q h => by cases h) rfl
      · exact .inl rfl

/-- In bytes and with values the fake CMC answers the same. -/
theorem fake_same {es : List CmcEvent} {bs : Bytes} {args : CmcArgs} {n : Nat}
    (hd : decode desCmcArgs bs = some args) {mgmt : List MgmtAnswer} {c' : WireCmc} {accepted : Nat}
    {b : Begun} (hc : (WireCmc.init.run es).begin bs n = (c', accepted, b))
    {o : Option (Candid.Ty × Val)} (ho : b.answer mgmt = some o) {resp : Response}
    (hr : Responds o resp) :
    (WireCmc.init.run es).plain.answer args n mgmt = some (c'.plain, cmcOutcome resp, n - accepted) := by
  have hm := U128MAX_eq
  have key : ∀ e, (∀ r, e = .refunded r → r.1 < 2 ^ 128) →
      Responds (some (tyFakeReply, putFakeReply (.error e))) resp →
      cmcOutcome resp = outcome (.error (plainError e)) := by
    intro e he hr
    cases resp with
    | reject => exact hr.elim
    | reply bs =>
      have hw := good_fakeReply.ok (.error e) (by rintro _ h q rfl; cases h; exact he q rfl)
      exact (C104_answer (.error (plainError e))).1 bs _ _ [] hr (reply_plain hw)
  rw [begin_some hd] at hc
  unfold FakeCmc.answer FakeCmc.start
  by_cases hn : n < 100000000000
  · rw [if_pos hn] at hc ⊢
    cases hc
    cases ho
    rw [key _ (by rintro r h; cases h; show n < _; omega) hr]
    rfl
  · rw [if_neg hn] at hc ⊢
    cases hf : (WireCmc.init.run es).failNext with
    | none =>
      rw [hf] at hc
      cases hc
      simp only [WireCmc.plain, hf, Option.bind_none]
      rw [createLoop_create ho hr]
      rfl
    | some e =>
      rw [hf] at hc
      have hdue := (run_failNext es e).mp hf
      cases e with
      | refunded r =>
        have hb := due_bound hdue
        cases hc
        cases ho
        rw [key _ (by rintro q h; cases h; exact hb) hr]
        simp only [WireCmc.plain, hf, Option.bind_some, plainFailure, dif_pos (show r.1 < U128MAX + 1 by omega)]
        rfl
      | refundFailed r =>
        cases hc
        cases ho
        rw [key _ (fun q h => by cases h) hr]
        simp only [WireCmc.plain, hf, Option.bind_some, plainFailure]
        rfl

/-- **C115**, ledger and fake CMC in bytes: any bytes of an outstanding creation of the ledger are read
by the fake CMC as what the ledger asks for; any bytes of its answer are taken by the ledger as what
the fake CMC says, and the cycles that the ledger takes as returned are those that are returned,
unless the fake CMC was told to claim more than it was sent, or rejects the call since the management
canister rejected its own. -/
theorem C115_ledger [Crypto] {y : Sys} (h : Reachable y) {k : Nat} {p : Pending}
    (hp : y.pending[k]? = some p) {args : CmcArgs} (ha : p.call.body = .createCanister args)
    {method : String} {t : Candid.Ty} {v : Val} (hs : sentCall p.call.body = (method, t, v))
    {bs : Bytes} (hb : IsMessage bs [(t, v)]) (es : List CmcEvent) (mgmt : List MgmtAnswer)
    {c' : WireCmc} {accepted : Nat} {b : Begun}
    (hc : (WireCmc.init.run es).begin bs p.call.cycles = (c', accepted, b))
    {o : Option (Candid.Ty × Val)} (ho : b.answer mgmt = some o) {resp : Response}
    (hr : Responds o resp) (dt : Nat) :
    method = "create_canister" ∧ Spec.Candid.ReadsAs Did.cmcArgs bs (Mean.cmcArgs args) ∧
    (100000000000 ≤ p.call.cycles → LastAsked (es ++ [.create bs p.call.cycles]) args) ∧
    ∃ r, y.respond dt k resp (p.call.cycles - accepted) =
        y.step ⟨dt, .callback k (.cmc r (p.call.cycles - accepted))⟩ ∧
      (∀ x, Told o wFakeReply x → r = outcomeOf x) ∧ (o ≠ none → ∃ x, Told o wFakeReply x) ∧
      (o = none → r = .callError (.rejected (some .canisterError))) ∧
      (p.call.cycles - accepted = (Spec.returned p (.cmc r (p.call.cycles - accepted))).getD 0 ↔
        (p.call.cycles < 100000000000 ∨
          ((∀ q, Due es (.refunded q) → q.1 ≤ p.call.cycles) ∧ o ≠ none))) ∧
      (o = none → MgmtAnswer.rejected ∈ mgmt) := by
  have hm := U128MAX_eq
  rw [ha] at hs
  cases hs
  have hd : decode desCmcArgs bs = some args :=
    decode_reads reads_cmcArgs hb (good_cmcArgs.ok args trivial)
  have hra := (request_iff _ _).mp hd
  have hf := fake_same hd hc ho hr
  have hfa : Spec.FakeAnswer (WireCmc.init.run es).plain mgmt p (cmcOutcome resp)
      (p.call.cycles - accepted) := ⟨args, _, ha, hf⟩
  obtain ⟨h1, h2⟩ := C77_exact h hp hfa
  have hshape := fake_shape hd hc ho hr
  refine ⟨rfl, hra, fun hn => ⟨es, _, [], rfl, ⟨hn, hra⟩, (fun _ h => by cases h)⟩,
    cmcOutcome resp, ?_, ?_, ?_, ?_, ?_, ?_⟩
  · have hk : p.kind = .createCanister ∨ p.kind = .createCanisterFrom := by
      rcases (h.callOk p (List.mem_of_getElem? hp)).body with ⟨_, _, to, hto, _⟩ | ⟨hk, _⟩
      · rw [ha] at hto; cases hto
      · exact hk
    simp only [Sys.respond, hp]
    rcases hk with hk | hk <;> rw [hk]
  · intro x hx
    rcases hshape with rfl | ⟨z, rfl, hz, he⟩
    · obtain ⟨_, _, h, _⟩ := hx; cases h
    · rw [told_unique hx hz, he]
  · intro hn
    rcases hshape with rfl | ⟨z, rfl, hz, he⟩
    · exact absurd rfl hn
    · exact ⟨z, hz⟩
  · rintro rfl
    cases resp with
    | reply => exact hr.elim
    | reject code => cases (show code = _ from hr); rfl
  · rw [h1]
    have e1 : ¬Spec.ToldToLie (WireCmc.init.run es).plain p.call.cycles ↔
        ∀ q, Due es (.refunded q) → q.1 ≤ p.call.cycles := by
      constructor
      · intro hl q hq
        rcases Nat.lt_or_ge p.call.cycles q.1 with hlt | hge
        · refine absurd ⟨⟨q.1, by have := due_bound hq; omega⟩, ?_, hlt⟩ hl
          simp only [WireCmc.plain, (run_failNext es _).mpr hq, Option.bind_some, plainFailure]
          rw [dif_pos]
        · exact hge
      · rintro hq ⟨a, hf', hlt⟩
        simp only [WireCmc.plain] at hf'
        obtain ⟨e, he, hf'⟩ := Option.bind_eq_some_iff.mp hf'
        cases e with
        | refunded r =>
          have := hq r ((run_failNext es _).mp he)
          simp only [plainFailure] at hf'
          split at hf'
          · cases hf'; exact absurd this (Nat.not_le.mpr hlt)
          · cases hf'
        | refundFailed r => cases hf'
    have e2 : (∀ e, cmcOutcome resp ≠ .callError e) ↔ o ≠ none := by
      rcases hshape with rfl | ⟨z, rfl, hz, he⟩
      · cases resp with
        | reply => exact hr.elim
        | reject code => exact ⟨fun h => absurd rfl (h _), fun h => absurd rfl h⟩
      · rw [he]
        refine ⟨(fun _ h => by cases h), fun _ e => ?_⟩
        rcases z with (r | r) | q <;> exact (fun h => by cases h)
    rw [e1, e2]
  · rintro rfl
    cases resp with
    | reply => exact hr.elim
    | reject code => exact h2 ⟨_, rfl⟩

/-! ## Examples -/

/-- `(variant { Refunded = record { refund_amount = 150_000_000_000; create_error = "no" } })`. -/
def refundOrder : Bytes := [68, 73, 68, 76, 2, 107, 1, 247, 141, 171, 203, 2, 1, 108, 2, 133, 190, 199, 230, 5, 113, 255, 251, 189, 206, 7, 125, 1, 0, 0, 2, 110, 111, 128, 184, 201, 229, 174, 4]

/-- `(record {})`: no settings, no subnet. -/
def bareRequest : Bytes := [68, 73, 68, 76, 1, 108, 0, 1, 0]

theorem refundOrder_reads : Spec.Candid.ReadsAs Did.cmcError refundOrder
    (Mean.failure (.refunded (150000000000, [110, 111]))) :=
  (failure_iff _ _).mp (by decide +kernel)

theorem bareRequest_reads : Spec.Candid.ReadsAs Did.cmcArgs bareRequest (Mean.cmcArgs ⟨none, none⟩) :=
  (request_iff _ _).mp (by decide +kernel)

/-- Told to return 150 of 200 billion cycles it does so, keeping 50; a request with too few cycles
before changes nothing. -/
example : Due [.failNext refundOrder, .create bareRequest 7]
      (.refunded (150000000000, [110, 111])) ∧
    ∃ c' b, (WireCmc.init.run [.failNext refundOrder, .create bareRequest 7]).begin bareRequest
        200000000000 = (c', 50000000000, b) ∧ ∃ o, b.answer [] = some o ∧
      Told o wFakeReply (.error (.refunded (150000000000, [110, 111]))) := by
  have hdue : Due [.failNext refundOrder, .create bareRequest 7]
      (.refunded (150000000000, [110, 111])) := by
    refine ⟨[], _, _, rfl, refundOrder_reads, ?_⟩
    intro z hz
    rw [List.mem_singleton] at hz
    subst hz
    exact ⟨fun _ h => h, fun _ h => absurd h.1 (by decide)⟩
  have hc : (WireCmc.init.run [.failNext refundOrder, .create bareRequest 7]).begin bareRequest
      200000000000 = (⟨some ⟨none, none⟩, none⟩, 50000000000,
        .failed (.refunded (150000000000, [110, 111]))) := by decide +kernel
  exact ⟨hdue, _, _, hc, _, rfl,
    (((C115_answered _ bareRequest_reads [] hc rfl).2 (by decide)).1 _ hdue).1⟩

/-- Without an order, the second id is free. -/
example : ∃ c' b, WireCmc.init.begin bareRequest 200000000000 = (c', 200000000000, b) ∧
    ∃ o, b.answer [.taken, .created ⟨[7], by decide⟩] = some o ∧
      Told o wFakeReply (.ok ⟨[7], by decide⟩) :=
  ⟨⟨some ⟨none, none⟩, none⟩, .creating ⟨none, none⟩, by decide +kernel, _, rfl,
    told_fake (fun q h => by cases h)⟩

open Toy in
/-- The outstanding creation of `demo` in bytes, read by the fake CMC. -/
example : ∃ p args, demo.pending[1]? = some p ∧ p.call.body = .createCanister args ∧
    ∃ bs, IsMessage bs [((sentCall p.call.body).2.1, (sentCall p.call.body).2.2)] := by
  have hk : (demo.pending[1]?).isSome = true := by decide +kernel
  obtain ⟨p, hp⟩ := Option.isSome_iff_exists.mp hk
  have hb : ((demo.pending[1]?).map fun p => p.call.body matches .createCanister _) = some true := by
    decide +kernel
  rw [hp] at hb
  obtain ⟨_, _, _, he, _, hm, _⟩ := C104_sent p.call.body
  cases hc : p.call.body with
  | depositCycles q => rw [Option.map_some, hc] at hb; cases hb
  | createCanister args => exact ⟨p, args, hp, hc, by rw [he]; exact hm⟩


end CyclesLedger
