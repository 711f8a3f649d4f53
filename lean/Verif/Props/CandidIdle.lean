import Verif.Props.CandidReply
import Verif.Proof.CandidIdles
/-!
# Parts of a request that say nothing

C111.
-/
namespace CyclesLedger

open Candid Spec.Candid

/-- **C111**: a call has the same effect and the same reply without the fields that say nothing to its
method: those that the method does not know, and optional ones that are null or of another type. -/
theorem C111_calls [Crypto] (y : Sys) (dt : Nat) (c : Call) {bs : Bytes}
    (h : SaysNoMore c.method c.bytes bs) :
    y.receive dt c = y.receive dt { c with bytes := bs } := by
  obtain ⟨method, caller, cycles, bytes, sync⟩ := c
  have : (⟨method, caller, cycles, bytes, sync⟩ : Call).msg =
      (⟨method, caller, cycles, bs, sync⟩ : Call).msg := by
    simp only at h
    unfold Call.msg
    simp only
    by_cases h1 : method = "deposit"
    · subst h1; rw [idle_deposit h]; rfl
    by_cases h2 : method = "icrc1_transfer"
    · subst h2; rw [idle_transfer h]; rfl
    by_cases h3 : method = "icrc2_transfer_from"
    · subst h3; rw [idle_transferFrom h]; rfl
    by_cases h4 : method = "icrc2_approve"
    · subst h4; rw [idle_approve h]; rfl
    by_cases h5 : method = "withdraw"
    · subst h5; rw [idle_withdraw h]; rfl
    by_cases h6 : method = "withdraw_from"
    · subst h6; rw [idle_withdrawFrom h]; rfl
    by_cases h7 : method = "create_canister"
    · subst h7; rw [idle_create h]; rfl
    by_cases h8 : method = "create_canister_from"
    · subst h8; rw [idle_createFrom h]; rfl
    simp only [h1, h2, h3, h4, h5, h6, h7, h8, if_false]
  simp only [Sys.receive, this]

/-- **C111**: so does a query. -/
theorem C111_queries (y : Sys) (method : String) (caller : Principal) {bs bs' : Bytes}
    (h : SaysNoMore method bs bs') : answer y method caller bs = answer y method caller bs' := by
  have hr : ∃ a a', readMessage bs = some a ∧ readMessage bs' = some a' := by
    obtain ⟨s, t, v, more, s', t', v', more', h1, _, h2, _⟩ := h
    exact ⟨_, _, readMessage_isMessage h1, readMessage_isMessage h2⟩
  obtain ⟨a, a', ha, ha'⟩ := hr
  unfold answer
  by_cases h1 : method = "icrc1_balance_of"
  · subst h1; rw [idle_account h]; rfl
  by_cases h2 : method = "icrc2_allowance"
  · subst h2; rw [idle_allowance h]; rfl
  by_cases h3 : method = "icrc103_get_allowances"
  · subst h3; rw [idle_getAllowances h]; rfl
  simp only [h1, h2, h3, if_false, ha, ha', Option.map_some]

theorem field_lacks {s : List (Nat × Ty × Val)} {t : Ty} {v : Val} (hr : Record s t v) {name : String}
    (hl : Lacks s name) {A : Type} {d : Des A} (hd : d.missing = none) : Candid.field d name t v = none := by
  obtain ⟨_, rfl, rfl⟩ := hr
  simp only [Candid.field, fieldAt, label_eq, (find_lacks hl).2, hd]

theorem decode_lacks {A : Type} {d : Des A} {bs : Bytes} {t : Ty} {v : Val} {more : List (Ty × Val)}
    (h : IsMessage bs ((t, v) :: more)) (hg : d.get t v = none) : decode d bs = none := by
  simp only [decode, readMessage_isMessage h, hg, ite_self]

/-- **C111**: without one of the fields that are not optional, a call traps and a query is not
answered. -/
theorem C111_needed [Crypto] (y : Sys) (dt : Nat) (c : Call) {t : Ty} {v : Val}
    {more : List (Ty × Val)} {s : List (Nat × Ty × Val)} (h : IsMessage c.bytes ((t, v) :: more))
    (hr : Record s t v) {name : String} (hn : name ∈ mustHave c.method) (hl : Lacks s name) :
    y.receive dt c = (y.tick dt, .trapped) ∧ answer y c.method c.caller c.bytes = none := by
  obtain ⟨method, caller, cycles, bytes, sync⟩ := c
  simp only at h hn ⊢
  have f1 : Candid.field desAccount name t v = none := field_lacks hr hl rfl
  have f2 : Candid.field desNat name t v = none := field_lacks hr hl rfl
  have f3 : Candid.field desPrincipal name t v = none := field_lacks hr hl rfl
  have key : (⟨method, caller, cycles, bytes, sync⟩ : Call).msg = none ∧
      answer y method caller bytes = none := by
    unfold mustHave at hn
    split at hn
    all_goals simp only [List.mem_cons, List.not_mem_nil, or_false] at hn
    · subst hn
      have : decode desDeposit bytes = none := decode_lacks h (by simp [desDeposit, f1])
      exact ⟨by simp [Call.msg, this], rfl⟩
    · have : decode desTransfer bytes = none := by
        rcases hn with rfl | rfl <;> exact decode_lacks h (by simp [desTransfer, f1, f2])
      exact ⟨by simp [Call.msg, this], rfl⟩
    · have : decode desTransferFrom bytes = none := by
        rcases hn with rfl | rfl | rfl <;> exact decode_lacks h (by simp [desTransferFrom, f1, f2])
      exact ⟨by simp [Call.msg, this], rfl⟩
    · have : decode desApprove bytes = none := by
        rcases hn with rfl | rfl <;> exact decode_lacks h (by simp [desApprove, f1, f2])
      exact ⟨by simp [Call.msg, this], rfl⟩
    · have : decode desWithdraw bytes = none := by
        rcases hn with rfl | rfl <;> exact decode_lacks h (by simp [desWithdraw, f2, f3])
      exact ⟨by simp [Call.msg, this], rfl⟩
    · have : decode desWithdrawFrom bytes = none := by
        rcases hn with rfl | rfl | rfl <;>
          exact decode_lacks h (by simp [desWithdrawFrom, f1, f2, f3])
      exact ⟨by simp [Call.msg, this], rfl⟩
    · subst hn
      have : decode desCreate bytes = none := decode_lacks h (by simp [desCreate, f2])
      exact ⟨by simp [Call.msg, this], rfl⟩
    · have : decode desCreateFrom bytes = none := by
        rcases hn with rfl | rfl <;> exact decode_lacks h (by simp [desCreateFrom, f1, f2])
      exact ⟨by simp [Call.msg, this], rfl⟩
    · subst hn
      have : decode desAccount bytes = none := decode_lacks h (by simp [desAccount, f3])
      exact ⟨rfl, by simp [answer, this]⟩
    · have : decode desAllowance bytes = none := by
        rcases hn with rfl | rfl <;> exact decode_lacks h (by simp [desAllowance, f1])
      exact ⟨rfl, by simp [answer, this]⟩
  exact ⟨by simp only [Sys.receive, key.1], key.2⟩
/-- A transfer without an amount. -/
example : ∃ s t v more, IsMessage [68, 73, 68, 76, 2, 108, 1, 179, 176, 218, 195, 3, 104, 108, 1, 251, 202, 1,
      0, 1, 1, 1, 1, 4] ((t, v) :: more) ∧ Record s t v ∧ Lacks s "amount" :=
  ⟨[(25979, .record (.cons 947296307 .principal .nil), .record (.cons (.principal [4]) .nil))], _, _, [],
    (readMessage_iff _ _).mp rfl, ⟨by simp, rfl, rfl⟩, by unfold Lacks; decide +kernel⟩

/-- A transfer of 5 with a note, which nobody asked for, and with `created_at_time` as an `opt nat`. -/
def Spec.Candid.chatty : Bytes :=
  [68, 73, 68, 76, 3, 108, 1, 179, 176, 218, 195, 3, 104, 110, 125, 108, 4, 251, 202, 1, 0, 242, 175, 168, 200, 4, 113, 130, 243, 243, 145, 12, 1, 216, 163, 140, 168, 13, 125, 1, 2, 1, 1, 4, 2, 104, 105, 1, 9, 5]

/-- A transfer of 5. -/
def Spec.Candid.terse : Bytes :=
  [68, 73, 68, 76, 2, 108, 1, 179, 176, 218, 195, 3, 104, 108, 2, 251, 202, 1, 0, 216, 163, 140, 168, 13, 125, 1, 1, 1, 1, 4, 5]

def Spec.Candid.chattyFields : List (Nat × Ty × Val) :=
  [(25979, .record (.cons 947296307 .principal .nil), .record (.cons (.principal [4]) .nil)),
   (1225398258, .text, .text [104, 105]),
   (3258775938, .opt .nat, .some (.nat 9)),
   (3573748184, .nat, .nat 5)]

def Spec.Candid.terseFields : List (Nat × Ty × Val) :=
  [(25979, .record (.cons 947296307 .principal .nil), .record (.cons (.principal [4]) .nil)),
   (3573748184, .nat, .nat 5)]

example : SaysNoMore "icrc1_transfer" chatty terse ∧
    decode desTransfer chatty = some ⟨none, ⟨⟨[4], by decide⟩, none⟩, 5, none, none, none⟩ := by
  refine ⟨⟨chattyFields, _, _, [], terseFields, _, _, [], (readMessage_iff _ _).mp ?_,
    ⟨by simp [chattyFields], rfl, rfl⟩, (readMessage_iff _ _).mp ?_,
    ⟨by simp [terseFields], rfl, rfl⟩, ?_, ?_⟩, by decide +kernel⟩
  · rfl
  · rfl
  · simp [terseFields, chattyFields]
  · simp only [chattyFields, terseFields, List.forall_mem_cons]
    refine ⟨fun h => absurd List.mem_cons_self h, fun _ => .inl ⟨?_, ?_⟩,
      fun _ => .inr ⟨("created_at_time", .nat64), by simp [mayHave], ?_,
        .inr (.inr (.inl ⟨.nat, rfl, .inr (by simp [Unlike])⟩))⟩,
      fun h => absurd (by simp) h, (fun _ h => by cases h)⟩
    · decide +kernel
    · decide +kernel
    · decide +kernel

end CyclesLedger
