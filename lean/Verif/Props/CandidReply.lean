import Verif.Props.Candid
import Verif.Props.Queries
import Verif.Proof.CandidTimes
import Verif.Proof.CandidResults
/-!
# Calls and replies as bytes

C103.
-/
namespace CyclesLedger

open Candid Spec.Candid

theorem message_of_wf {t : Ty} {v : Val} (hw : Wf t) (ht : HasTy t v) :
    ∃ bs, IsMessage bs [(t, v)] := by
  obtain ⟨ext, r, h3, h4⟩ := exists_table t [] hw
  exact ⟨message ext [r] [(t, v)], isMessage_one h3 h4 ht rfl⟩

theorem reply_good {r : Reply} (h : ∀ t ∈ timesReply r, t < 2 ^ 64) {text : Bytes} {t : Ty} {v : Val}
    (hr : reply text r = some (t, v)) : Wf t ∧ HasTy t v ∧ wReply r t v := by
  have key : ∀ {A : Type} {w : Way A} {ty : Ty} {put : A → Val} {P : A → Prop},
      Good w ty put P → ∀ a, P a → some (ty, put a) = some (t, v) → Wf t ∧ HasTy t v ∧ w a t v := by
    intro A w ty put P g a ha he
    have := Option.some.inj he
    rw [Prod.mk.injEq] at this
    obtain ⟨rfl, rfl⟩ := this
    exact ⟨g.wf, g.typed a, g.ok a ha⟩
  cases r with
  | trapped => cases hr
  | suspended => cases hr
  | silent => cases hr
  | deposit i b => exact key good_deposit (i, b) trivial hr
  | transfer r =>
    exact key (good_result good_nat (good_TransferError text) 0 .tooOld (fun _ h => by cases h)) r
      (by rintro e rfl; exact h) hr
  | transferFrom r =>
    exact key (good_result good_nat (good_TransferFromError text) 0 .tooOld (fun _ h => by cases h)) r
      (by rintro e rfl; exact h) hr
  | approve r =>
    exact key (good_result good_nat (good_ApproveError text) 0 .tooOld (fun _ h => by cases h)) r
      (by rintro e rfl; exact h) hr
  | withdraw r =>
    exact key (good_result good_nat (good_WithdrawError text) 0 .tooOld (fun _ h => by cases h)) r
      (by rintro e rfl; exact h) hr
  | withdrawFrom r =>
    exact key (good_result good_nat (good_WithdrawFromError text) 0 .tooOld (fun _ h => by cases h)) r
      (by rintro e rfl; exact h) hr
  | createCanister r =>
    exact key (good_result good_created (good_CreateCanisterError text) (0, somePrincipal) .tooOld
      (fun _ h => by cases h)) r (by rintro e rfl; exact h) hr
  | createCanisterFrom r =>
    exact key (good_result good_created (good_CreateCanisterFromError text) (0, somePrincipal) .tooOld
      (fun _ h => by cases h)) r (by rintro e rfl; exact h) hr

/-- Every reply of the ledger can be sent, and is written in the type that `cycles-ledger.did` gives
the method, so that it says the result. -/
theorem C103_replies [Crypto] {y : Sys} (h : Reachable y) (e : Event) {text : Bytes} {t : Ty} {v : Val}
    (hr : reply text (y.step e).2 = some (t, v)) :
    wReply (y.step e).2 t v ∧ ∃ bs, IsMessage bs [(t, v)] := by
  have hi : SInv (y.tick e.dt) := h.inv.tick e.dt
  have ht : ∀ t ∈ timesReply (y.step e).2, t < 2 ^ 64 := by
    intro t ht
    rw [times_exec hi e.msg t ht]
    have := hi.ledger.clock
    rw [U64MAX_eq] at this
    omega
  obtain ⟨h1, h2, h3⟩ := reply_good ht hr
  exact ⟨h3, message_of_wf h1 h2⟩

/-- Nothing is replied just if the message trapped, or waits for a call, or is not one of a caller. -/
theorem C103_replied (text : Bytes) (r : Reply) :
    reply text r = none ↔ r = .trapped ∨ r = .suspended ∨ r = .silent := by
  cases r <;> simp [reply]

/-- A reply stands for one result only. -/
theorem C103_unambiguous {r r' : Reply} {t : Ty} {v : Val} (hm : methodOf r = methodOf r')
    (h : wReply r t v) (h' : wReply r' t v) : r = r' := by
  have d : ∀ {A : Type} {w : Way A}, Det w → ∀ {a b}, w a t v → w b t v → a = b :=
    fun hd => hd _ _ _ _
  cases r with
  | trapped => exact absurd h id
  | suspended => exact absurd h id
  | silent => exact absurd h id
  | deposit i b =>
    cases r' with
    | deposit i' b' =>
      have := d det_deposit h h'
      rw [Prod.mk.injEq] at this
      rw [this.1, this.2]
    | _ => exact absurd hm (by simp [methodOf])
  | transfer r =>
    cases r' with
    | transfer r' => rw [d (det_result det_nat det_TransferError) h h']
    | _ => exact absurd hm (by simp [methodOf])
  | transferFrom r =>
    cases r' with
    | transferFrom r' => rw [d (det_result det_nat det_TransferFromError) h h']
    | _ => exact absurd hm (by simp [methodOf])
  | approve r =>
    cases r' with
    | approve r' => rw [d (det_result det_nat det_ApproveError) h h']
    | _ => exact absurd hm (by simp [methodOf])
  | withdraw r =>
    cases r' with
    | withdraw r' => rw [d (det_result det_nat det_WithdrawError) h h']
    | _ => exact absurd hm (by simp [methodOf])
  | withdrawFrom r =>
    cases r' with
    | withdrawFrom r' => rw [d (det_result det_nat det_WithdrawFromError) h h']
    | _ => exact absurd hm (by simp [methodOf])
  | createCanister r =>
    cases r' with
    | createCanister r' => rw [d (det_result det_created det_CreateCanisterError) h h']
    | _ => exact absurd hm (by simp [methodOf])
  | createCanisterFrom r =>
    cases r' with
    | createCanisterFrom r' => rw [d (det_result det_created det_CreateCanisterFromError) h h']
    | _ => exact absurd hm (by simp [methodOf])

/-- The method a pending call was made for. -/
def Spec.Candid.methodOfKind : CallKind → String
  | .withdraw => "withdraw"
  | .withdrawFrom => "withdraw_from"
  | .createCanister => "create_canister"
  | .createCanisterFrom => "create_canister_from"

theorem method_commit {ε α : Type} {y : Sys} {res : Res State ε α} {f : Except ε α → Reply}
    {n : String} (hf : ∀ r, methodOf (f r) = some n) (ht : (y.commit res f).2 ≠ .trapped) :
    methodOf (y.commit res f).2 = some n := by
  cases res with
  | trap => exact absurd rfl ht
  | ok a s => exact hf _
  | err e s => exact hf _

theorem method_finishWithdraw [Crypto] (y : Sys) (s : State) (k : CallKind) (p : Suspended)
    (r : Option CallError) (hk : k = .withdraw ∨ k = .withdrawFrom)
    (ht : (finishWithdraw y s k p r).2 ≠ .trapped) :
    methodOf (finishWithdraw y s k p r).2 = some (methodOfKind k) := by
  rcases hk with rfl | rfl <;> exact method_commit (fun _ => rfl) ht

theorem method_finishCreate [Crypto] (y : Sys) (s : State) (k : CallKind) (p : Suspended)
    (r : CmcResult) (hk : k = .createCanister ∨ k = .createCanisterFrom)
    (ht : (finishCreate y s k p r).2 ≠ .trapped) :
    methodOf (finishCreate y s k p r).2 = some (methodOfKind k) := by
  rcases hk with rfl | rfl <;> exact method_commit (fun _ => rfl) ht

theorem method_sendWithdraw [Crypto] (y : Sys) (res : Res State WithdrawFromError Suspended)
    (k : CallKind) (to : Principal) (sync : Option CallError)
    (hk : k = .withdraw ∨ k = .withdrawFrom)
    (ht : (sendWithdraw y res k to sync).2 ≠ .trapped)
    (hs : (sendWithdraw y res k to sync).2 ≠ .suspended) :
    methodOf (sendWithdraw y res k to sync).2 = some (methodOfKind k) := by
  unfold sendWithdraw at ht hs ⊢
  cases res with
  | trap => exact absurd rfl ht
  | err e s => rcases hk with rfl | rfl <;> exact method_commit (fun _ => rfl) ht
  | ok p s =>
    cases sync with
    | none => exact absurd rfl hs
    | some c => exact method_finishWithdraw y s k p _ hk ht

theorem method_sendCreate [Crypto] (y : Sys) (res : Res State CreateCanisterFromError Suspended)
    (k : CallKind) (caller : Principal) (args : Option CmcArgs) (sync : Option CallError)
    (hk : k = .createCanister ∨ k = .createCanisterFrom)
    (ht : (sendCreate y res k caller args sync).2 ≠ .trapped)
    (hs : (sendCreate y res k caller args sync).2 ≠ .suspended) :
    methodOf (sendCreate y res k caller args sync).2 = some (methodOfKind k) := by
  unfold sendCreate at ht hs ⊢
  cases res with
  | trap => exact absurd rfl ht
  | err e s => rcases hk with rfl | rfl <;> exact method_commit (fun _ => rfl) ht
  | ok p s =>
    cases sync with
    | none => exact absurd rfl hs
    | some c => exact method_finishCreate y s k p _ hk ht

/-- What is replied to a call is a reply of the method called; what is replied when a call of the
ledger comes back is a reply of the method that made the call. -/
theorem C103_right_method [Crypto] (y : Sys) :
    (∀ method caller cycles sync t v m, Asks method caller cycles sync t v m →
      (y.exec m).2 = .trapped ∨ (y.exec m).2 = .suspended ∨ methodOf (y.exec m).2 = some method) ∧
    (∀ i answer p, y.pending[i]? = some p →
      (y.exec (.callback i answer)).2 = .trapped ∨ (y.exec (.callback i answer)).2 = .silent ∨
      methodOf (y.exec (.callback i answer)).2 = some (methodOfKind p.kind)) := by
  have three : ∀ {a b c : Prop}, (¬a → ¬b → c) → a ∨ b ∨ c := by
    intro a b c h
    by_cases ha : a
    · exact .inl ha
    · by_cases hb : b
      · exact .inr (.inl hb)
      · exact .inr (.inr (h ha hb))
  constructor
  · intro method caller cycles sync t v m hm
    refine three (fun ht hs => ?_)
    cases m with
    | deposit p n a =>
      obtain ⟨rfl, _⟩ := hm
      simp only [Sys.exec] at ht ⊢
      split
      · rfl
      · rename_i e _ _; exact nomatch e
      · rename_i he; rw [he] at ht; exact absurd rfl ht
    | transfer p a =>
      obtain ⟨rfl, _⟩ := hm
      simp only [Sys.exec] at ht ⊢
      generalize icrc1Transfer y.ledger p a y.now = res at ht ⊢
      cases res <;> first | rfl | exact absurd rfl ht
    | transferFrom p a =>
      obtain ⟨rfl, _⟩ := hm
      simp only [Sys.exec] at ht ⊢
      generalize icrc2TransferFrom y.ledger p a y.now = res at ht ⊢
      cases res <;> first | rfl | exact absurd rfl ht
    | approve p a =>
      obtain ⟨rfl, _⟩ := hm
      simp only [Sys.exec] at ht ⊢
      generalize icrc2Approve y.ledger p a y.now = res at ht ⊢
      cases res <;> first | rfl | exact absurd rfl ht
    | withdraw p a o =>
      obtain ⟨rfl, _⟩ := hm
      exact method_sendWithdraw y _ _ _ _ (.inl rfl) ht hs
    | withdrawFrom p a o =>
      obtain ⟨rfl, _⟩ := hm
      exact method_sendWithdraw y _ _ _ _ (.inr rfl) ht hs
    | createCanister p a o =>
      obtain ⟨rfl, _⟩ := hm
      exact method_sendCreate y _ _ _ _ _ (.inl rfl) ht hs
    | createCanisterFrom p a o =>
      obtain ⟨rfl, _⟩ := hm
      exact method_sendCreate y _ _ _ _ _ (.inr rfl) ht hs
    | callback i a => exact absurd hm id
    | lostCallback i => exact absurd hm id
    | upgrade a => exact absurd hm id
  · intro i answer p hp
    refine three (fun ht hs => ?_)
    simp only [Sys.exec, hp] at ht hs ⊢
    obtain ⟨k, data, call⟩ := p
    cases k <;> cases answer <;> simp only at ht hs ⊢ <;> first
      | exact absurd rfl hs
      | exact absurd trivial hs
      | exact method_finishWithdraw _ _ _ _ _ (.inl rfl) ht
      | exact method_finishWithdraw _ _ _ _ _ (.inr rfl) ht
      | exact method_finishCreate _ _ _ _ _ (.inl rfl) ht
      | exact method_finishCreate _ _ _ _ _ (.inr rfl) ht

theorem msg_of_asks {c : Call} {t : Ty} {v : Val} {more : List (Ty × Val)}
    (hb : IsMessage c.bytes ((t, v) :: more)) {m : Msg}
    (ha : Asks c.method c.caller c.cycles c.sync t v m) : c.msg = some m := by
  obtain ⟨u1, u2, u3, u4, u5, u6, u7, u8⟩ := C102_updates hb
  obtain ⟨method, caller, cycles, bytes, sync⟩ := c
  unfold Call.msg
  cases m with
  | deposit p n a => obtain ⟨rfl, rfl, rfl, h⟩ := ha; simp only [u4 a h]; rfl
  | transfer p a => obtain ⟨rfl, rfl, h⟩ := ha; simp [u1 a h]
  | transferFrom p a => obtain ⟨rfl, rfl, h⟩ := ha; simp [u2 a h]
  | approve p a => obtain ⟨rfl, rfl, h⟩ := ha; simp [u3 a h]
  | withdraw p a o => obtain ⟨rfl, rfl, rfl, h⟩ := ha; simp [u5 a h]
  | withdrawFrom p a o => obtain ⟨rfl, rfl, rfl, h⟩ := ha; simp [u6 a h]
  | createCanister p a o => obtain ⟨rfl, rfl, rfl, h⟩ := ha; simp [u7 a h]
  | createCanisterFrom p a o => obtain ⟨rfl, rfl, rfl, h⟩ := ha; simp [u8 a h]
  | callback i a => exact absurd ha id
  | lostCallback i => exact absurd ha id
  | upgrade a => exact absurd ha id

/-- From bytes to bytes: a caller who writes a request as `cycles-ledger.did` says has just that
request executed, and whatever bytes are replied, the caller can understand them in one way only: as
the result of the request. -/
theorem C103_end_to_end [Crypto] {y : Sys} (h : Reachable y) {c : Call} {t : Ty} {v : Val}
    {more : List (Ty × Val)} (hb : IsMessage c.bytes ((t, v) :: more)) {m : Msg}
    (ha : Asks c.method c.caller c.cycles c.sync t v m) (dt : Nat) :
    y.receive dt c = y.step ⟨dt, m⟩ ∧
    ∀ text u x, reply text (y.receive dt c).2 = some (u, x) →
      (∃ bs, IsMessage bs [(u, x)]) ∧
      ∀ bs, IsMessage bs [(u, x)] → ∀ r, Understood c.method bs r ↔ r = (y.receive dt c).2 := by
  have he : y.receive dt c = y.step ⟨dt, m⟩ := by
    unfold Sys.receive; rw [msg_of_asks hb ha]
  refine ⟨he, ?_⟩
  rw [he]
  intro text u x hr
  obtain ⟨h1, h2⟩ := C103_replies h ⟨dt, m⟩ hr
  refine ⟨h2, ?_⟩
  have hm : methodOf (y.step ⟨dt, m⟩).2 = some c.method := by
    rcases (C103_right_method (y.tick dt)).1 _ _ _ _ _ _ _ ha with h | h | h
    · rw [show (y.step ⟨dt, m⟩).2 = .trapped from h] at hr; cases hr
    · rw [show (y.step ⟨dt, m⟩).2 = .suspended from h] at hr; cases hr
    · exact h
  intro bs hbs r
  constructor
  · rintro ⟨u', x', more', hbs', hm', hw⟩
    have := C102_unambiguous hbs hbs'
    cases this
    exact C103_unambiguous (hm'.trans hm.symm) hw h1
  · rintro rfl
    exact ⟨u, x, [], hbs, hm, h1⟩

theorem Spec.Candid.aTransfer_written :
    wTransfer ⟨none, ⟨⟨[4], by decide⟩, none⟩, 5, none, none, some 9⟩ aTransferTy aTransferVal := by
  have e1 : nameHash "to" = 25979 := by decide +kernel
  have e2 : nameHash "owner" = 947296307 := by decide +kernel
  have e3 : nameHash "amount" = 3573748184 := by decide +kernel
  have e4 : nameHash "created_at_time" = 3258775938 := by decide +kernel
  refine ⟨[(25979, .record (.cons 947296307 .principal .nil),
      .record (.cons (.principal [4]) .nil)),
    (3258775938, .opt (.fixed .nat64), .some (.fixed [9, 0, 0, 0, 0, 0, 0, 0])),
    (3573748184, .nat, .nat 5)], ⟨by simp, rfl, rfl⟩, ?_, ?_, ?_, ?_, ?_, ?_⟩
  · exact .inr ⟨rfl, by unfold Lacks; decide +kernel⟩
  · rw [Has, e1]
    refine ⟨_, _, .head _, [(947296307, .principal, .principal [4])],
      ⟨by simp, rfl, rfl⟩, ?_, .inr ⟨rfl, by unfold Lacks; decide +kernel⟩⟩
    rw [Has, e2]
    exact ⟨_, _, .head _, rfl, rfl⟩
  · rw [Has, e3]
    exact ⟨_, _, .tail _ (.tail _ (.head _)), rfl, rfl⟩
  · exact .inr ⟨rfl, by unfold Lacks; decide +kernel⟩
  · exact .inr ⟨rfl, by unfold Lacks; decide +kernel⟩
  · refine .inl ?_
    rw [Has, e4]
    exact ⟨_, _, .tail _ (.head _), .inr (.inl ⟨_, _, _, rfl, rfl, rfl, rfl,
      congrArg Val.fixed (by decide +kernel)⟩)⟩

open Toy in
example : Reachable demo ∧ IsMessage aTransfer [(aTransferTy, aTransferVal)] ∧
    Asks "icrc1_transfer" alice 0 none aTransferTy aTransferVal
      (.transfer alice ⟨none, ⟨⟨[4], by decide⟩, none⟩, 5, none, none, some 9⟩) :=
  ⟨demo_reachable, aTransfer_message, rfl, rfl, aTransfer_written⟩

open Toy in
/-- The transfer as bytes is executed and its reply is the index of a new block. -/
example : ((demo.receive 5 ⟨"icrc1_transfer", alice, 0, aTransfer, none⟩).2 matches .transfer (.ok 6)) =
    true := by decide +kernel

/-- The message that only lets time pass. -/
theorem tick_step [Crypto] (y : Sys) (dt : Nat) :
    (y.step ⟨dt, .lostCallback y.pending.length⟩).1 = y.tick dt := by
  simp only [Sys.step, Sys.exec, Sys.tick]
  rw [List.eraseIdx_of_length_le (Nat.le_refl _)]

/-- Calls made of bytes, whatever the bytes, lead nowhere that typed messages do not lead: what is
proved about reachable states holds for them.  A call with a method that does not exist, or with an
argument that cannot be read, changes nothing. -/
theorem C103_any_bytes [Crypto] {y : Sys} (h : Reachable y) (dt : Nat) (c : Call) :
    Reachable (y.receive dt c).1 ∧
    (c.msg = none → y.receive dt c = (y.tick dt, .trapped)) := by
  have hstep : ∀ e, Reachable (y.step e).1 := fun e => h.step e
  constructor
  · unfold Sys.receive
    cases c.msg with
    | none => rw [← tick_step]; exact hstep _
    | some m => exact hstep _
  · intro hn
    unfold Sys.receive; rw [hn]

/-- A call whose bytes are not a message traps: nothing but the time has changed.  A query with such
bytes is not answered. -/
theorem C103_no_message [Crypto] (y : Sys) (dt : Nat) (c : Call)
    (hb : ¬∃ args, IsMessage c.bytes args) :
    y.receive dt c = (y.tick dt, .trapped) ∧
    ∀ method caller, answer y method caller c.bytes = none := by
  obtain ⟨h1, h2⟩ := C102_only_messages (bs := c.bytes)
  have h2 := @h2 hb
  have hr : readMessage c.bytes = none := by
    cases e : readMessage c.bytes with
    | none => rfl
    | some args => exact absurd ⟨args, (h1 args).mp e⟩ hb
  constructor
  · unfold Sys.receive
    have : c.msg = none := by
      unfold Call.msg
      simp only [h2, Option.map_none]
      repeat' split
      all_goals rfl
    rw [this]
  · intro method caller
    unfold answer
    simp only [h2, hr, Option.map_none]
    repeat' split
    all_goals rfl

example : ¬∃ args, IsMessage [68, 73, 68, 76, 0, 1, 0x7d] args := by
  rintro ⟨args, h⟩
  have := (readMessage_iff _ _).mpr h
  cases this

/-- Every message of a caller can be sent as bytes. -/
theorem C103_every_message (caller : Principal) (cycles : Fin (U128MAX + 1))
    (sync : Option CallError) :
    (∀ a, ∃ bs, (Call.mk "deposit" caller cycles bs sync).msg = some (.deposit caller cycles a)) ∧
    (∀ a, ∃ bs, (Call.mk "icrc1_transfer" caller cycles bs sync).msg = some (.transfer caller a)) ∧
    (∀ a, ∃ bs, (Call.mk "icrc2_transfer_from" caller cycles bs sync).msg =
      some (.transferFrom caller a)) ∧
    (∀ a, ∃ bs, (Call.mk "icrc2_approve" caller cycles bs sync).msg = some (.approve caller a)) ∧
    (∀ a, ∃ bs, (Call.mk "withdraw" caller cycles bs sync).msg = some (.withdraw caller a sync)) ∧
    (∀ a, ∃ bs, (Call.mk "withdraw_from" caller cycles bs sync).msg =
      some (.withdrawFrom caller a sync)) ∧
    (∀ a, ∃ bs, (Call.mk "create_canister" caller cycles bs sync).msg =
      some (.createCanister caller a sync)) ∧
    (∀ a, ∃ bs, (Call.mk "create_canister_from" caller cycles bs sync).msg =
      some (.createCanisterFrom caller a sync)) := by
  obtain ⟨u1, u2, u3, u4, u5, u6, u7, u8⟩ := C102_writable
  refine ⟨fun a => ?_, fun a => ?_, fun a => ?_, fun a => ?_, fun a => ?_, fun a => ?_, fun a => ?_,
    fun a => ?_⟩
  · obtain ⟨bs, t, v, hb, hw, _⟩ := u4 a
    exact ⟨bs, msg_of_asks (c := ⟨_, caller, cycles, bs, sync⟩) hb ⟨rfl, rfl, rfl, hw⟩⟩
  · obtain ⟨bs, t, v, hb, hw, _⟩ := u1 a
    exact ⟨bs, msg_of_asks (c := ⟨_, caller, cycles, bs, sync⟩) hb ⟨rfl, rfl, hw⟩⟩
  · obtain ⟨bs, t, v, hb, hw, _⟩ := u2 a
    exact ⟨bs, msg_of_asks (c := ⟨_, caller, cycles, bs, sync⟩) hb ⟨rfl, rfl, hw⟩⟩
  · obtain ⟨bs, t, v, hb, hw, _⟩ := u3 a
    exact ⟨bs, msg_of_asks (c := ⟨_, caller, cycles, bs, sync⟩) hb ⟨rfl, rfl, hw⟩⟩
  · obtain ⟨bs, t, v, hb, hw, _⟩ := u5 a
    exact ⟨bs, msg_of_asks (c := ⟨_, caller, cycles, bs, sync⟩) hb ⟨rfl, rfl, rfl, hw⟩⟩
  · obtain ⟨bs, t, v, hb, hw, _⟩ := u6 a
    exact ⟨bs, msg_of_asks (c := ⟨_, caller, cycles, bs, sync⟩) hb ⟨rfl, rfl, rfl, hw⟩⟩
  · obtain ⟨bs, t, v, hb, hw, _⟩ := u7 a
    exact ⟨bs, msg_of_asks (c := ⟨_, caller, cycles, bs, sync⟩) hb ⟨rfl, rfl, rfl, hw⟩⟩
  · obtain ⟨bs, t, v, hb, hw, _⟩ := u8 a
    exact ⟨bs, msg_of_asks (c := ⟨_, caller, cycles, bs, sync⟩) hb ⟨rfl, rfl, rfl, hw⟩⟩

/-! ## Queries -/

/-- The answer is sent, and says this. -/
def Spec.Candid.Answers {A : Type} (o : Option (Ty × Val)) (w : Way A) (a : A) : Prop :=
  ∃ t v, o = some (t, v) ∧ w a t v ∧ ∃ bs, IsMessage bs [(t, v)]

theorem says_good {A : Type} {w : Way A} {ty : Ty} {put : A → Val} {P : A → Prop}
    (g : Good w ty put P) {a : A} (ha : P a) {o : Option (Ty × Val)} (ho : o = some (ty, put a)) :
    Answers o w a :=
  ⟨ty, put a, ho, g.ok a ha, message_of_wf g.wf (g.typed a)⟩

theorem expiry_fits [Crypto] {y : Sys} (h : Reachable y) {k : ApprovalKey} {a e : Nat}
    (hk : y.ledger.approvals.get k = some (a, e)) : e < 2 ^ 64 := by
  have := h.inv.ledger.approvals k a e hk
  have hu := U64MAX_eq
  omega

theorem allowance_fits [Crypto] {y : Sys} (h : Reachable y) (a sp : Account) :
    ∀ e, (icrc2Allowance y.ledger a sp y.now).2 = some e → e < 2 ^ 64 := by
  intro e he
  unfold icrc2Allowance allowance at he
  cases hg : y.ledger.approvals.get (a.key, sp.key) with
  | none => simp [hg] at he
  | some v =>
    obtain ⟨x, e'⟩ := v
    have := expiry_fits h hg
    simp only [hg] at he
    split at he
    · simp at he
    · simp only [Option.getD_some] at he
      split at he <;> simp at he <;> omega

theorem listing_fits [Crypto] {y : Sys} (h : Reachable y) (caller : Principal)
    (frm prev : Option Account) (take : Option Nat) :
    ∀ a ∈ icrc103GetAllowances y.ledger caller frm prev take y.now,
      ∀ e, a.expiresAt = some e → e < 2 ^ 64 := by
  intro a ha e he
  rw [C22_page] at ha
  have ha := List.mem_of_mem_take ha
  unfold Spec.listing at ha
  rw [List.mem_map] at ha
  obtain ⟨x, hx, rfl⟩ := ha
  rw [List.mem_filter] at hx
  obtain ⟨k, n, e'⟩ := x
  have := expiry_fits h ((SMap.get_eq_some_iff _ _ _).2 hx.1)
  simp only [Spec.entry] at he
  split at he <;> simp at he
  omega

/-- The answers to queries, from bytes to bytes: the argument is read as it was meant, and what is
replied says the balance and the supply that the block log gives, the fee, the allowance, the list of
allowances (C22) and the index canister. -/
theorem C103_queries [Crypto] {y : Sys} (h : Reachable y) (caller : Principal) {bs : Bytes}
    {args : List (Ty × Val)} (hb : IsMessage bs args) :
    (∀ t v more a, args = (t, v) :: more → wAccount a t v →
      ∃ n : Nat, Answers (answer y "icrc1_balance_of" caller bs) wNat n ∧
        (n : Int) = Spec.balance y.ledger.blocks (Spec.idOf a)) ∧
    (∃ n : Nat, Answers (answer y "icrc1_total_supply" caller bs) wNat n ∧
      (n : Int) = Spec.supply y.ledger.blocks) ∧
    Answers (answer y "icrc1_fee" caller bs) wNat 100000000 ∧
    (∀ t v more a, args = (t, v) :: more → wAllowance a t v →
      Answers (answer y "icrc2_allowance" caller bs) wAllowanceResult
        (icrc2Allowance y.ledger a.1 a.2 y.now)) ∧
    (∀ t v more a, args = (t, v) :: more → wGetAllowances a t v →
      Answers (answer y "icrc103_get_allowances" caller bs) wAllowancesResult
        (.ok (icrc103GetAllowances y.ledger caller a.1 a.2.1 a.2.2 y.now))) ∧
    Answers (answer y "icrc106_get_index_principal" caller bs) wIndexResult
      (match y.ledger.config.indexId with
        | some p => .ok p
        | none => .error none) := by
  have hrm := readMessage_isMessage hb
  refine ⟨?_, ?_, ?_, ?_, ?_, ?_⟩
  · rintro t v more a rfl hw
    refine ⟨icrc1BalanceOf y.ledger a, says_good good_nat trivial ?_, ?_⟩
    · simp [answer, (C102_queries hb).1 a hw]
    · exact h.inv.ledger.bal a.key
  · refine ⟨icrc1TotalSupply y.ledger, says_good good_nat trivial ?_, ?_⟩
    · simp [answer, hrm]
    · exact h.inv.ledger.supply
  · refine says_good good_nat trivial ?_
    rw [← FEE_eq]
    simp [answer, hrm]
  · rintro t v more a rfl hw
    refine says_good good_allowance (allowance_fits h a.1 a.2) ?_
    simp [answer, (C102_queries hb).2.1 a hw]
  · rintro t v more a rfl hw
    refine says_good good_allowances (listing_fits h caller a.1 a.2.1 a.2.2) ?_
    simp [answer, (C102_queries hb).2.2.2 a hw]
  · refine says_good good_index trivial (a := y.ledger.config.indexId) ?_
    simp [answer, hrm, icrc106GetIndexPrincipal]

open Toy in
/-- A query of a balance: `record { owner = principal "…" }` with the bytes of carol. -/
example : ((answer demo "icrc1_balance_of" bob
    [68, 73, 68, 76, 1, 108, 1, 179, 176, 218, 195, 3, 0x68, 1, 0, 1, 1, 3]) matches
      some (.nat, .nat 5000)) = true := by decide +kernel

/-- An answer to a query says one thing only. -/
theorem C103_answers_unambiguous {bs : Bytes} {t u : Ty} {v x : Val} {more more' : List (Ty × Val)}
    (h : IsMessage bs ((t, v) :: more)) (h' : IsMessage bs ((u, x) :: more')) :
    (∀ a b, wNat a t v → wNat b u x → a = b) ∧
    (∀ a b, wAllowanceResult a t v → wAllowanceResult b u x → a = b) ∧
    (∀ a b, wAllowancesResult a t v → wAllowancesResult b u x → a = b) ∧
    (∀ a b, wIndexResult a t v → wIndexResult b u x → a = b) := by
  cases C102_unambiguous h h'
  exact ⟨fun _ _ => det_nat _ _ _ _, fun _ _ => det_allowance _ _ _ _,
    fun _ _ => det_result (det_vec det_entry) det_allowancesError _ _ _ _,
    fun _ _ => det_result det_principal det_indexError _ _ _ _⟩

end CyclesLedger
