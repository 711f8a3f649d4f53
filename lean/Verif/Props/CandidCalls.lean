import Verif.Proof.CandidCalls
import Verif.Props.CandidReply
import Verif.Props.Burns
import Verif.Props.Refunds
/-!
# The calls of the ledger to other canisters as bytes

C104.
-/
namespace CyclesLedger

open Candid Spec.Candid

/-- **C104**: every call of the ledger can be sent; its method and argument are those of the
interface of the callee, and say this call and no other.  The CMC reads any bytes of it as the
argument meant. -/
theorem C104_sent (b : CallBody) : ∃ method t v, sentCall b = (method, t, v) ∧ wCall b method t v ∧
    (∃ bs, IsMessage bs [(t, v)]) ∧ (∀ b', wCall b' method t v → b' = b) ∧
    ∀ bs args, b = .createCanister args → IsMessage bs [(t, v)] → decode desCmcArgs bs = some args := by
  cases b with
  | depositCycles p =>
    have hw := good_depositCycles.ok p trivial
    refine ⟨_, _, _, rfl, ⟨rfl, hw⟩, message_of_wf good_depositCycles.wf (good_depositCycles.typed p),
      ?_, (fun bs args h => by cases h)⟩
    intro b' hb'
    cases b' with
    | depositCycles q => rw [det_one det_principal _ _ _ _ _ hb'.2 hw]
    | createCanister a => exact absurd hb'.1 (by simp)
  | createCanister a =>
    have hw := good_cmcArgs.ok a trivial
    refine ⟨_, _, _, rfl, ⟨rfl, hw⟩, message_of_wf good_cmcArgs.wf (good_cmcArgs.typed a), ?_, ?_⟩
    · intro b' hb'
      cases b' with
      | depositCycles q => exact absurd hb'.1 (by simp)
      | createCanister a' => rw [det_of_reads reads_cmcArgs _ _ _ _ hb'.2 hw]
    · rintro bs args h hm
      cases h
      exact decode_reads reads_cmcArgs hm hw

/-- `deposit_cycles (record { canister_id = principal … })` as bytes. -/
example : IsMessage [68, 73, 68, 76, 1, 108, 1, 179, 196, 177, 242, 4, 104, 1, 0, 1, 1, 4]
    [((sentCall (.depositCycles ⟨[4], by decide⟩)).2.1,
      (sentCall (.depositCycles ⟨[4], by decide⟩)).2.2)] := by
  have e : label "canister_id" = 1313628723 := by decide +kernel
  refine isMessage_one (table := [.record [(1313628723, -24)]]) (r := 0) (by decide +kernel) ?_ ?_
    (by decide +kernel)
  · simp only [sentCall, tyDepositCycles, recTy, List.map_cons, List.map_nil, sortFields, insertField,
      Fields.ofList, Denotes, DenotesAll, e]
    exact ⟨_, ⟨by decide, rfl⟩, _, _, rfl, rfl, rfl⟩
  · exact good_depositCycles.typed _

/-- What a caller asks to be created: the arguments given, and the caller. -/
def Spec.Candid.creation : Msg → Option (Option CmcArgs × Principal)
  | .createCanister caller a _ => some (a.creationArgs, caller)
  | .createCanisterFrom caller a _ => some (a.creationArgs, caller)
  | _ => none

/-- **C104**, from bytes to bytes: a caller who asks in bytes for a withdrawal or a canister and is
not answered at once has made the ledger send exactly one call, with exactly the amount asked for: to
`deposit_cycles` of the management canister with an argument that says the canister named by the
caller, or to `create_canister` of the CMC with an argument that says what the caller asked for (C29). -/
theorem C104_passed_on [Crypto] {y : Sys} (h : Reachable y) {c : Call} {t : Ty} {v : Val}
    {more : List (Ty × Val)} (hb : IsMessage c.bytes ((t, v) :: more)) {m : Msg}
    (ha : Asks c.method c.caller c.cycles c.sync t v m) {r : Spec.BurnReq} {to : Option Principal}
    (hm : Spec.burnRequest m = some (r, to)) (dt : Nat) (hs : (y.receive dt c).2 = .suspended) :
    ∃ (q : Pending) (method : String) (u : Ty) (x : Val),
      (y.receive dt c).1.pending = y.pending ++ [q] ∧ q.call.cycles = r.amount ∧
      sentCall q.call.body = (method, u, x) ∧
      (∀ p, to = some p → q.call.callee.bytes = [] ∧ method = "deposit_cycles" ∧
        wOne "canister_id" wPrincipal p u x) ∧
      (to = none → q.call.callee.bytes = [0, 0, 0, 0, 0, 0, 0, 4, 1, 1] ∧
        method = "create_canister" ∧ ∃ given args, creation m = some (given, c.caller) ∧
          Spec.CreationArg given c.caller args ∧ wCmcArgs args u x) := by
  have he := (C103_end_to_end h hb ha dt).1
  rw [he] at hs ⊢
  have hx : (y.tick dt).exec m = ((y.step ⟨dt, m⟩).1, .suspended) := by
    rw [← hs]; rfl
  obtain ⟨_, _, ⟨q, hq, hc, hto, _⟩, _⟩ := C26_call_made (h.tick dt) hm hx
  cases to with
  | some p =>
    obtain ⟨h1, h2⟩ := hto
    refine ⟨q, _, _, _, hq, hc, (by rw [h2]), ?_, (fun h => by cases h)⟩
    rintro p' hp
    cases hp
    exact ⟨h1, rfl, good_depositCycles.ok p trivial⟩
  | none =>
    obtain ⟨h1, args, h2⟩ := hto
    refine ⟨q, _, _, _, hq, hc, (by rw [h2]; rfl), (fun p h => by cases h), fun _ => ⟨h1, rfl, ?_⟩⟩
    have key : ∀ given, ((∃ a sync, m = .createCanister c.caller a sync ∧ a.creationArgs = given) ∨
        (∃ a sync, m = .createCanisterFrom c.caller a sync ∧ a.creationArgs = given)) →
        Spec.CreationArg given c.caller args := by
      intro given hg
      obtain ⟨q', args', h3, h4, h5⟩ := C29_creation_argument (h.tick dt) hg hx
      rw [hq] at h3
      have := List.append_cancel_left h3
      cases this
      rw [h2] at h4
      cases h4
      exact h5
    cases m with
    | createCanister p a o =>
      obtain ⟨_, rfl, _⟩ := ha
      exact ⟨_, args, rfl, key _ (.inl ⟨a, o, rfl, rfl⟩), good_cmcArgs.ok args trivial⟩
    | createCanisterFrom p a o =>
      obtain ⟨_, rfl, _⟩ := ha
      exact ⟨_, args, rfl, key _ (.inr ⟨a, o, rfl, rfl⟩), good_cmcArgs.ok args trivial⟩
    | withdraw => cases hm
    | withdrawFrom => cases hm
    | _ => cases hm

open Toy in
/-- `(record { amount = 5 })` for `create_canister`, and `(record { to = principal …; amount = 5 })`
for `withdraw`, are read and lead to a call. -/
example : (demo.receive 5 ⟨"create_canister", alice, 0,
      [68, 73, 68, 76, 1, 108, 1, 216, 163, 140, 168, 13, 125, 1, 0, 5], none⟩).2 = .suspended ∧
    (demo.receive 5 ⟨"withdraw", alice, 0,
      [68, 73, 68, 76, 1, 108, 2, 251, 202, 1, 104, 216, 163, 140, 168, 13, 125, 1, 0, 1, 1, 4, 5],
      none⟩).2 = .suspended :=
  ⟨by decide +kernel, by decide +kernel⟩

/-! ## Answers -/

/-- **C104**: an answer that the CMC writes as its interface says is read as meant, however it is
written; and every answer whose refund fits in 128 bits can be written. -/
theorem C104_answer (r : Except (Option Nat) Principal) :
    (∀ bs t v more, IsMessage bs ((t, v) :: more) → wCmcReply r t v →
      cmcOutcome (.reply bs) = outcome r) ∧
    ((∀ n, r = .error (some n) → n < 2 ^ 128) → ∃ bs t v, IsMessage bs [(t, v)] ∧ wCmcReply r t v) := by
  constructor
  · intro bs t v more hb hw
    obtain ⟨h1, h2⟩ := reads_cmcReply hw
    have : decode desCmcReply bs = some (cmcRes r) := by
      simp only [decode, readMessage_isMessage hb]
      rw [if_pos h1, h2]
    simp only [cmcOutcome, this]
    cases r with
    | ok p => rfl
    | error o => cases o <;> rfl
  · intro hn
    obtain ⟨bs, hb⟩ := message_of_wf good_cmcReply.wf (good_cmcReply.typed r)
    exact ⟨bs, _, _, hb, good_cmcReply.ok r (by rintro e rfl n rfl; exact hn n rfl)⟩

/-- **C104**: what the ledger takes from an answer is said by the answer: a canister is taken to be
created, cycles to be returned, or to be lost, only if the answer says so. -/
theorem C104_answer_sound {bs : Bytes} {args : List (Ty × Val)} (hb : IsMessage bs args) :
    (∀ p, cmcOutcome (.reply bs) = .created p → ∃ t v more u x, args = (t, v) :: more ∧
      IsCase "Ok" u x t v ∧ wPrincipal p u x) ∧
    (∀ n, cmcOutcome (.reply bs) = .refunded n → ∃ t v more u x u' x', args = (t, v) :: more ∧
      IsCase "Err" u x t v ∧ IsCase "Refunded" u' x' u x ∧ wRefunded n u' x') ∧
    (cmcOutcome (.reply bs) = .refundFailed → ∃ t v more u x u' x', args = (t, v) :: more ∧
      IsCase "Err" u x t v ∧ IsCase "RefundFailed" u' x' u x ∧ wRefundFailed () u' x') := by
  cases args with
  | nil =>
    have : decode desCmcReply bs = none := by
      simp only [decode, readMessage_isMessage hb]; rfl
    simp only [cmcOutcome, this]
    exact ⟨(fun p h => by cases h), (fun n h => by cases h), (fun h => by cases h)⟩
  | cons a more =>
    obtain ⟨t, v⟩ := a
    have hd : decode desCmcReply bs = if accepts desCmcReply.ty t then desCmcReply.get t v else none := by
      simp only [decode, readMessage_isMessage hb]
    simp only [cmcOutcome, hd]
    by_cases ha : accepts desCmcReply.ty t = true
    · rw [if_pos ha]
      cases hg : desCmcReply.get t v with
      | none => exact ⟨(fun p h => by cases h), (fun n h => by cases h), (fun h => by cases h)⟩
      | some r =>
        rcases sound_cmcReply (sorted_first hb) (typed_first hb) ha hg with
          ⟨p, u, x, rfl, h1, h2⟩ | ⟨e, u, x, rfl, h1, ⟨n, u', x', rfl, h2, h3⟩ | ⟨u', x', rfl, h2, h3⟩⟩
        · refine ⟨fun q h => ?_, (fun n h => by cases h), (fun h => by cases h)⟩
          cases h
          exact ⟨t, v, more, u, x, rfl, h1, h2⟩
        · refine ⟨(fun q h => by cases h), fun m h => ?_, (fun h => by cases h)⟩
          cases h
          exact ⟨t, v, more, u, x, u', x', rfl, h1, h2, h3⟩
        · exact ⟨(fun q h => by cases h), fun m h => (by cases h),
            fun _ => ⟨t, v, more, u, x, u', x', rfl, h1, h2, h3⟩⟩
    · rw [if_neg ha]
      exact ⟨(fun p h => by cases h), (fun n h => by cases h), (fun h => by cases h)⟩

/-- **C104**: an answer of a case that the ledger does not know, no answer at all, bytes that are no
message, and a rejection are all taken for failed calls: the ledger takes the whole amount to be
returned. -/
theorem C104_unknown :
    (∀ bs t v more, IsMessage bs ((t, v) :: more) → Unknown t v →
      cmcOutcome (.reply bs) = .callError .candidDecodeFailed) ∧
    (∀ bs, IsMessage bs [] → cmcOutcome (.reply bs) = .callError .candidDecodeFailed) ∧
    (∀ bs, (¬∃ args, IsMessage bs args) →
      cmcOutcome (.reply bs) = .callError .candidDecodeFailed) ∧
    (∀ code, cmcOutcome (.reject code) = .callError (.rejected code)) := by
  refine ⟨?_, ?_, fun bs hb => ?_, fun _ => rfl⟩
  · intro bs t v more hb hu
    have : decode desCmcReply bs = none := by
      simp only [decode, readMessage_isMessage hb, unknown_cmcReply hu, ite_self]
    simp only [cmcOutcome, this]
  · intro bs hb
    have : decode desCmcReply bs = none := by
      simp only [decode, readMessage_isMessage hb]; rfl
    simp only [cmcOutcome, this]
  · simp only [cmcOutcome, (C102_only_messages (bs := bs)).2 hb desCmcReply]

/-- **C104**: responses made of bytes, whatever the bytes, lead nowhere that typed answers do not
lead: what is proved about reachable states holds for them. -/
theorem C104_any_response [Crypto] {y : Sys} (h : Reachable y) (dt i : Nat) (r : Response)
    (refund : Nat) : Reachable (y.respond dt i r refund).1 := by
  unfold Sys.respond
  split
  · exact h.tick dt
  · split <;> exact h.step _

/-- **C104**, from bytes to bytes: if the CMC answers in bytes that it created a canister, whoever
asked for it is answered with the block of the burn and that canister, and nothing is paid back. -/
theorem C104_created [Crypto] {y0 y : Sys} {m : Msg} {i : Nat} {q : Pending} {p : Principal}
    (h : Spec.Awaiting y0 m y i q) (hm : creation m ≠ none) {bs : Bytes} {t : Ty} {v : Val}
    {more : List (Ty × Val)} (hb : IsMessage bs ((t, v) :: more)) (hw : wCmcReply (.ok p) t v)
    (refund : Nat) {y' : Sys} {reply : Reply}
    (hx : y.respond 0 i (.reply bs) refund = (y', reply)) :
    (∀ a, icrc1BalanceOf y'.ledger a = icrc1BalanceOf y.ledger a) ∧
    y'.ledger.blocks = y.ledger.blocks ∧
    (reply = .createCanister (.ok (y0.ledger.blocks.length, p)) ∨
      reply = .createCanisterFrom (.ok (y0.ledger.blocks.length, p))) := by
  have hm' : (∃ c a s, m = .createCanister c a s) ∨ ∃ c a s, m = .createCanisterFrom c a s := by
    cases m with
    | createCanister c a s => exact .inl ⟨c, a, s, rfl⟩
    | createCanisterFrom c a s => exact .inr ⟨c, a, s, rfl⟩
    | _ => exact absurd rfl hm
  have hr : Reachable y ∧ (q.kind = .createCanister ∨ q.kind = .createCanisterFrom) := by
    rcases hm' with ⟨c, a, s, rfl⟩ | ⟨c, a, s, rfl⟩
    · exact ⟨(h.data rfl).1, .inl (h.data rfl).2.1⟩
    · exact ⟨(h.data rfl).1, .inr (h.data rfl).2.1⟩
  have h0 : y.tick 0 = y := by
    have := hr.1.inv.ledger.clock
    unfold Sys.tick
    rw [Nat.add_zero, Nat.min_eq_left this]
  have ho := (C104_answer (.ok p)).1 bs t v more hb hw
  have he : y.exec (.callback i (.cmc (.created p) refund)) = (y', reply) := by
    rw [← hx]
    unfold Sys.respond
    rw [h.here]
    simp only [ho, outcome, Sys.step, h0]
    rcases hr.2 with hk | hk <;> simp only [hk]
  obtain ⟨a1, _, a3, a4⟩ := C28_successful_create h hm' he
  exact ⟨a1, a3, a4⟩

/-- An answer `variant { Ok = principal … }`. -/
def Spec.Candid.okAnswer : Bytes :=
  [68, 73, 68, 76, 1, 107, 1, 188, 138, 1, 104, 1, 0, 0, 1, 2, 7, 7]

open Toy in
/-- The second of the calls under way in the example is answered: a canister was created. -/
example : (∃ q, Spec.Awaiting ((start.run (events.take 5)).tick 1)
      (create alice 500000000 (some 1000000001)).msg demo 1 q) ∧
    creation (create alice 500000000 (some 1000000001)).msg = some (none, alice) ∧
    cmcOutcome (.reply okAnswer) = .created ⟨[7, 7], by decide⟩ ∧
    ((demo.respond 0 1 (.reply okAnswer) 0).2 matches .createCanister (.ok (5, ⟨[7, 7], _⟩))) = true :=
  ⟨demo_awaiting.2, rfl, by decide +kernel, by decide +kernel⟩

/-- An answer `variant { Err = variant { TooBusy } }`, of an error that the ledger does not know. -/
def Spec.Candid.busyTy : Ty :=
  .variant (.cons 3456837 (.variant (.cons 471574989 .null .nil)) .nil)

def Spec.Candid.busy : Bytes :=
  [68, 73, 68, 76, 2, 107, 1, 197, 254, 210, 1, 1, 107, 1, 205, 211, 238, 224, 1, 127, 1, 0, 0, 0]

theorem Spec.Candid.busy_unknown : IsMessage busy [(busyTy, .variant 0 (.variant 0 .null))] ∧
    Unknown busyTy (.variant 0 (.variant 0 .null)) := by
  constructor
  · refine isMessage_one (table := [.variant [(3456837, 1)], .variant [(471574989, -1)]]) (r := 0)
      (by decide +kernel) ?_ ?_ (by decide +kernel)
    · simp only [busyTy, Denotes, DenotesAll]
      exact ⟨_, ⟨by decide, rfl⟩, _, _, rfl, ⟨_, ⟨by decide, rfl⟩, _, _, rfl, rfl, rfl⟩, rfl⟩
    · simp only [busyTy, HasTy, HasCase]
      exact ⟨_, _, rfl, .inl ⟨rfl, _, _, rfl, .inl ⟨rfl, rfl⟩⟩⟩
  · refine .inr ⟨_, _, ⟨[(3456837, .variant (.cons 471574989 .null .nil))], 0, rfl, ?_, rfl⟩,
      471574989, .null, .null, ⟨[(471574989, .null)], 0, rfl, rfl, rfl⟩, by decide +kernel,
      by decide +kernel⟩
    rw [show nameHash "Err" = 3456837 by decide +kernel]
    rfl

open Toy in
/-- **C104**: the assumption that the CMC returns everything when it does not succeed is needed: if it
answers with an error that the ledger does not know and keeps the cycles, the ledger credits them all
the same, and is insolvent. -/
theorem C104_unknown_unsafe : ∃ (y : Sys) (bs : Bytes) (t : Ty) (v : Val), Reachable y ∧
    (icrc1TotalSupply y.ledger : Int) ≤ y.cycles ∧ IsMessage bs [(t, v)] ∧ Unknown t v ∧
    (y.respond 1 0 (.reply bs) 0).1.cycles <
      (icrc1TotalSupply (y.respond 1 0 (.reply bs) 0).1.ledger : Int) :=
  ⟨start.run [dep alice 3000000000, create alice 2000000000], busy, busyTy, _, run_reachable _,
    by decide +kernel, busy_unknown.1, busy_unknown.2, by decide +kernel⟩

end CyclesLedger
