import Verif.Proof.CandidCoerces
import Verif.Model.CandidFake
/-!
# Reading the other requests, and the replies of the CMC
-/
namespace CyclesLedger.Candid

open Spec.Candid

theorem coercing_archives : Coercing desArchives Did.getArchivesArgs Mean.getArchivesArgs := by
  have key := coercing_record (d := desArchives) (E := [(nameHash "from", (.opt .principal))])
    (F := fun a => [Mean.opt (Mean.principal) a]) (L := _) rfl rfl ?_ ?_
  · exact key
  · intro fs hp hs
    have c0 := fit_iff (coercing_opt coercing_principal) hp hs (nameHash "from")
    simp only [List.map_cons, List.map_nil, List.forall_mem_cons, label_eq, c0]
    exact ⟨fun ⟨h0, h⟩ => ⟨h0, (fun _ h => by cases h)⟩, fun ⟨h0, h⟩ => ⟨h0, (fun _ h => by cases h)⟩⟩
  · intro s t v a hr hs ht hf
    have c0 := is_iff (coercing_opt coercing_principal) hr hs ht (l := nameHash "from") (hf (nameHash "from", (.opt .principal)) (.head _))
    simp only [desArchives, Candid.field, label_eq, allAre_cons, allAre_nil, c0, and_true]

theorem coercing_header : Coercing desHeader (.record (Fields.ofList [(0, .text), (1, .text)]))
    (fun h => Mean.record [.text h.1, .text h.2]) := by
  have key := coercing_record (d := desHeader) (E := [(0, .text), (1, .text)])
    (F := fun b => [.text b.1, .text b.2])
    (L := _) rfl rfl ?_ ?_
  · exact key
  · intro fs hp hs
    have c0 := fit_iff coercing_text hp hs 0
    have c1 := fit_iff coercing_text hp hs 1
    simp only [List.forall_mem_cons, c0, c1]
    exact ⟨fun ⟨h0, h1, h⟩ => ⟨h0, h1, (fun _ h => by cases h)⟩,
      fun ⟨h0, h1, h⟩ => ⟨h0, h1, (fun _ h => by cases h)⟩⟩
  · intro s t v a hr hs ht hf
    have c0 := is_iff coercing_text hr hs ht (l := 0) (hf (0, .text) (.head _))
    have c1 := is_iff coercing_text hr hs ht (l := 1) (hf (1, .text) (.tail _ (.head _)))
    simp only [desHeader, Option.bind_eq_bind, Option.bind_eq_some_iff, Option.pure_def,
      Option.some.injEq, allAre_cons, allAre_nil, c0, c1]
    constructor
    · rintro ⟨_, h0, _, h1, rfl⟩; exact ⟨h0, h1, trivial⟩
    · rintro ⟨h0, h1, _⟩; exact ⟨_, h0, _, h1, rfl⟩

theorem coercing_http : Coercing desHttp Did.httpRequest Mean.httpRequest := by
  have key := coercing_record (d := desHttp) (E := [(nameHash "url", .text), (nameHash "method", .text), (nameHash "body", Did.blob), (nameHash "headers", (.vec (.record (Fields.ofList [(0, .text), (1, .text)]))))])
    (F := fun a => [.text a.url, .text a.method, Mean.blob a.body, Mean.vec (fun h => Mean.record [.text h.1, .text h.2]) a.headers])
    (L := _) rfl rfl ?_ ?_
  · exact key
  · intro fs hp hs
    have c0 := fit_iff coercing_text hp hs (nameHash "url")
    have c1 := fit_iff coercing_text hp hs (nameHash "method")
    have c2 := fit_iff (coercing_vec coercing_header) hp hs (nameHash "headers")
    have c3 := fit_iff coercing_blob hp hs (nameHash "body")
    simp only [List.map_cons, List.map_nil, List.forall_mem_cons, label_eq, c0, c1, c2, c3]
    exact ⟨fun ⟨h0, h1, h2, h3, h⟩ => ⟨h0, h1, h3, h2, (fun _ h => by cases h)⟩, fun ⟨h0, h1, h3, h2, h⟩ => ⟨h0, h1, h2, h3, (fun _ h => by cases h)⟩⟩
  · intro s t v a hr hs ht hf
    have c0 := is_iff coercing_text hr hs ht (l := nameHash "url")
      (hf (nameHash "url", .text) (List.mem_of_getElem? (i := 0) rfl))
    have c1 := is_iff coercing_text hr hs ht (l := nameHash "method")
      (hf (nameHash "method", .text) (List.mem_of_getElem? (i := 1) rfl))
    have c2 := is_iff (coercing_vec coercing_header) hr hs ht (l := nameHash "headers")
      (hf (nameHash "headers", (.vec (.record (Fields.ofList [(0, .text), (1, .text)])))) (List.mem_of_getElem? (i := 3) rfl))
    have c3 := is_iff coercing_blob hr hs ht (l := nameHash "body")
      (hf (nameHash "body", Did.blob) (List.mem_of_getElem? (i := 2) rfl))
    simp only [desHttp, Candid.field, label_eq, Option.bind_eq_bind, Option.bind_eq_some_iff, Option.pure_def,
      Option.some.injEq, allAre_cons, allAre_nil, c0, c1, c2, c3]
    constructor
    · rintro ⟨_, h0, _, h1, _, h2, _, h3, rfl⟩; exact ⟨h0, h1, h3, h2, trivial⟩
    · rintro ⟨h0, h1, h3, h2, _⟩; exact ⟨_, h0, _, h1, _, h2, _, h3, rfl⟩

/-! The replies of the CMC, with their texts. -/

def CmcErrorWith.drop : CmcErrorWith → CmcError
  | .refunded r => .refunded r.1
  | .refundFailed _ => .refundFailed

inductive CmcReplyWith where
  | ok (p : Principal)
  | err (e : CmcErrorWith)

def CmcReplyWith.drop : CmcReplyWith → Except CmcError Principal
  | .ok p => .ok p
  | .err e => .error e.drop

def desCmcReplyWith : Des CmcReplyWith where
  ty := desCmcReply.ty
  get := fun w v =>
    match theCase w v with
    | none => none
    | some (l, t, x) =>
      if l = label "Ok" then (desPrincipal.get t x).map .ok
      else if l = label "Err" then (desCmcErrorWith.get t x).map .err
      else none

def meanRefunded (r : Nat × Bytes) : Val :=
  Mean.record [if r.1 < 2 ^ 128 then .nat r.1 else .null, .text r.2]
def meanRefundFailed (r : Bytes × Bytes) : Val := Mean.record [.text r.1, .text r.2]
def meanCmcError : CmcErrorWith → Val
  | .refunded r => .variant 0 (meanRefunded r)
  | .refundFailed r => .variant 1 (meanRefundFailed r)
def meanCmcReply : CmcReplyWith → Val
  | .ok p => .variant 0 (Mean.principal p)
  | .err e => .variant 1 (meanCmcError e)

theorem refunded_drop (t : Ty) (v : Val) :
    desRefunded.get t v = (desRefundedWith.get t v).map Prod.fst := by
  simp only [desRefunded, desRefundedWith, Option.bind_eq_bind]
  cases Candid.field desU128 "refund_amount" t v <;> simp only [Option.bind_none, Option.bind_some, Option.map_none]
  cases Candid.field desText "create_error" t v <;> rfl

theorem refundFailed_drop (t : Ty) (v : Val) :
    desRefundFailed.get t v = (desRefundFailedWith.get t v).map (fun _ => ()) := by
  simp only [desRefundFailed, desRefundFailedWith, Option.bind_eq_bind]
  cases Candid.field desText "create_error" t v <;> simp only [Option.bind_none, Option.bind_some, Option.map_none]
  cases Candid.field desText "refund_error" t v <;> rfl

theorem cmcError_drop (t : Ty) (v : Val) :
    desCmcError.get t v = (desCmcErrorWith.get t v).map CmcErrorWith.drop := by
  simp only [desCmcError, desCmcErrorWith]
  cases theCase t v with
  | none => rfl
  | some p =>
    obtain ⟨l, u, x⟩ := p
    simp only [refunded_drop, refundFailed_drop]
    split
    · cases desRefundedWith.get u x <;> rfl
    · split
      · cases desRefundFailedWith.get u x <;> rfl
      · rfl

theorem cmcReply_drop (t : Ty) (v : Val) :
    desCmcReply.get t v = (desCmcReplyWith.get t v).map CmcReplyWith.drop := by
  simp only [desCmcReply, desCmcReplyWith]
  cases theCase t v with
  | none => rfl
  | some p =>
    obtain ⟨l, u, x⟩ := p
    simp only [cmcError_drop]
    split
    · cases desPrincipal.get u x <;> rfl
    · split
      · cases desCmcErrorWith.get u x <;> rfl
      · rfl

theorem decode_drop (bs : Bytes) :
    decode desCmcReply bs = (decode desCmcReplyWith bs).map CmcReplyWith.drop := by
  simp only [decode, cmcReply_drop]
  split
  · rfl
  · rfl
  · rename_i w v _ _
    rw [show desCmcReplyWith.ty = desCmcReply.ty from rfl]
    by_cases h : accepts desCmcReply.ty w = true
    · simp only [if_pos h]
    · simp only [if_neg h, Option.map_none]

theorem coercing_refunded : Coercing desRefundedWith (Did.record [("refund_amount", .nat), ("create_error", .text)]) meanRefunded := by
  have key := coercing_record (d := desRefundedWith) (E := [(nameHash "refund_amount", .nat), (nameHash "create_error", .text)])
    (F := fun a => [(fun n => if n < 2 ^ 128 then .nat n else .null) a.1, .text a.2])
    (L := _) rfl rfl ?_ ?_
  · exact key
  · intro fs hp hs
    have c0 := fit_iff coercing_u128 hp hs (nameHash "refund_amount")
    have c1 := fit_iff coercing_text hp hs (nameHash "create_error")
    simp only [List.map_cons, List.map_nil, List.forall_mem_cons, label_eq, c0, c1]
    exact ⟨fun ⟨h0, h1, h⟩ => ⟨h0, h1, (fun _ h => by cases h)⟩, fun ⟨h0, h1, h⟩ => ⟨h0, h1, (fun _ h => by cases h)⟩⟩
  · intro s t v a hr hs ht hf
    have c0 := is_iff coercing_u128 hr hs ht (l := nameHash "refund_amount")
      (hf (nameHash "refund_amount", .nat) (List.mem_of_getElem? (i := 0) rfl))
    have c1 := is_iff coercing_text hr hs ht (l := nameHash "create_error")
      (hf (nameHash "create_error", .text) (List.mem_of_getElem? (i := 1) rfl))
    simp only [desRefundedWith, Candid.field, label_eq, Option.bind_eq_bind, Option.bind_eq_some_iff, Option.pure_def,
      Option.some.injEq, allAre_cons, allAre_nil, c0, c1]
    constructor
    · rintro ⟨_, h0, _, h1, rfl⟩; exact ⟨h0, h1, trivial⟩
    · rintro ⟨h0, h1, _⟩; exact ⟨_, h0, _, h1, rfl⟩

theorem coercing_refundFailed : Coercing desRefundFailedWith (Did.record [("create_error", .text), ("refund_error", .text)]) meanRefundFailed := by
  have key := coercing_record (d := desRefundFailedWith) (E := [(nameHash "create_error", .text), (nameHash "refund_error", .text)])
    (F := fun a => [.text a.1, .text a.2])
    (L := _) rfl rfl ?_ ?_
  · exact key
  · intro fs hp hs
    have c0 := fit_iff coercing_text hp hs (nameHash "create_error")
    have c1 := fit_iff coercing_text hp hs (nameHash "refund_error")
    simp only [List.map_cons, List.map_nil, List.forall_mem_cons, label_eq, c0, c1]
    exact ⟨fun ⟨h0, h1, h⟩ => ⟨h0, h1, (fun _ h => by cases h)⟩, fun ⟨h0, h1, h⟩ => ⟨h0, h1, (fun _ h => by cases h)⟩⟩
  · intro s t v a hr hs ht hf
    have c0 := is_iff coercing_text hr hs ht (l := nameHash "create_error")
      (hf (nameHash "create_error", .text) (List.mem_of_getElem? (i := 0) rfl))
    have c1 := is_iff coercing_text hr hs ht (l := nameHash "refund_error")
      (hf (nameHash "refund_error", .text) (List.mem_of_getElem? (i := 1) rfl))
    simp only [desRefundFailedWith, Candid.field, label_eq, Option.bind_eq_bind, Option.bind_eq_some_iff, Option.pure_def,
      Option.some.injEq, allAre_cons, allAre_nil, c0, c1]
    constructor
    · rintro ⟨_, h0, _, h1, rfl⟩; exact ⟨h0, h1, trivial⟩
    · rintro ⟨h0, h1, _⟩; exact ⟨_, h0, _, h1, rfl⟩

theorem coercing_cmcError : Coercing desCmcErrorWith Did.cmcError meanCmcError := by
  have n_Refunded_RefundFailed : nameHash "Refunded" ≠ nameHash "RefundFailed" := by decide +kernel
  have n_RefundFailed_Refunded : nameHash "RefundFailed" ≠ nameHash "Refunded" := by decide +kernel
  have key := coercing_variant (d := desCmcErrorWith) (F := meanCmcError) (E := [(nameHash "Refunded", (Did.record [("refund_amount", .nat), ("create_error", .text)])), (nameHash "RefundFailed", (Did.record [("create_error", .text), ("refund_error", .text)]))]) (L := _) rfl rfl ?_ ?_
  · exact key
  · intro l u hs
    have c0 : accepts desRefunded.ty u = true ↔ _ := coercing_refunded.sub u hs
    have c1 : accepts desRefundFailed.ty u = true ↔ _ := coercing_refundFailed.sub u hs
    simp only [List.map_cons, List.map_nil, List.forall_mem_cons, label_eq, c0, c1]
    simp only [List.mem_cons, List.not_mem_nil, Fields.ofList, BelowCase]
    grind
  · intro t v l u x a hc hs ht hb
    simp only [Fields.ofList, BelowCase, or_false] at hb
    simp only [desCmcErrorWith, hc, label_eq, Fields.ofList, CoercesCase]
    rcases hb with ⟨rfl, hb⟩ | ⟨rfl, hb⟩
    · simp only [n_Refunded_RefundFailed, if_false, if_true, false_and, false_or]
      have g := fun b => coercing_refunded.get u x b hs ht hb
      cases a <;> simp only [meanCmcError, exists_variant] <;> simp [g, Option.map_eq_some_iff]
    · simp only [n_RefundFailed_Refunded, if_false, if_true, false_and, false_or]
      have g := fun b => coercing_refundFailed.get u x b hs ht hb
      cases a <;> simp only [meanCmcError, exists_variant] <;> simp [g, Option.map_eq_some_iff]

theorem coercing_cmcReply : Coercing desCmcReplyWith Did.cmcReply meanCmcReply := by
  have n_Ok_Err : nameHash "Ok" ≠ nameHash "Err" := by decide +kernel
  have n_Err_Ok : nameHash "Err" ≠ nameHash "Ok" := by decide +kernel
  have key := coercing_variant (d := desCmcReplyWith) (F := meanCmcReply) (E := [(nameHash "Ok", .principal), (nameHash "Err", Did.cmcError)]) (L := _) rfl rfl ?_ ?_
  · exact key
  · intro l u hs
    have c0 := coercing_principal.sub u hs
    have c1 : accepts desCmcError.ty u = true ↔ _ := coercing_cmcError.sub u hs
    simp only [List.map_cons, List.map_nil, List.forall_mem_cons, label_eq, c0, c1]
    simp only [List.mem_cons, List.not_mem_nil, Fields.ofList, BelowCase]
    grind
  · intro t v l u x a hc hs ht hb
    simp only [Fields.ofList, BelowCase, or_false] at hb
    simp only [desCmcReplyWith, hc, label_eq, Fields.ofList, CoercesCase]
    rcases hb with ⟨rfl, hb⟩ | ⟨rfl, hb⟩
    · simp only [n_Ok_Err, if_false, if_true, false_and, false_or]
      have g := fun b => coercing_principal.get u x b hs ht hb
      cases a <;> simp only [meanCmcReply, exists_variant] <;> simp [g, Option.map_eq_some_iff]
    · simp only [n_Err_Ok, if_false, if_true, false_and, false_or]
      have g := fun b => coercing_cmcError.get u x b hs ht hb
      cases a <;> simp only [meanCmcReply, exists_variant] <;> simp [g, Option.map_eq_some_iff]

theorem u128_bound {l : Nat} {t : Ty} {v : Val} {n : Nat} (h : fieldAt desU128 l t v = some n) :
    n < 2 ^ 128 := by
  unfold fieldAt at h
  have hm := U128MAX_eq
  split at h
  · split at h
    · simp only [desU128] at h
      split at h
      · unfold toU128 at h
        split at h
        · cases h; omega
        · cases h
      · cases h
    · cases h
  · cases h

theorem refunded_bound {bs : Bytes} {r : Nat × Bytes}
    (h : decode desCmcReplyWith bs = some (.err (.refunded r))) : r.1 < 2 ^ 128 := by
  unfold decode at h
  split at h
  · cases h
  · cases h
  · split at h
    · simp only [desCmcReplyWith] at h
      split at h
      · cases h
      · split at h
        · obtain ⟨_, _, h⟩ := Option.map_eq_some_iff.mp h; cases h
        · split at h
          · obtain ⟨e, he, h⟩ := Option.map_eq_some_iff.mp h
            cases h
            simp only [desCmcErrorWith] at he
            split at he
            · cases he
            · split at he
              · obtain ⟨q, hq, he⟩ := Option.map_eq_some_iff.mp he
                cases he
                simp only [desRefundedWith, Option.bind_eq_bind, Option.bind_eq_some_iff,
                  Option.pure_def, Option.some.injEq] at hq
                obtain ⟨n, hn, _, _, rfl⟩ := hq
                exact u128_bound hn
              · split at he
                · obtain ⟨_, _, he⟩ := Option.map_eq_some_iff.mp he; cases he
                · cases he
          · cases h
    · cases h

end CyclesLedger.Candid
