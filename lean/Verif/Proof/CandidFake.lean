import Verif.Spec.CandidFake
import Verif.Proof.CandidMeta
import Verif.Proof.CandidCalls
import Verif.Proof.CandidCoerceRest
/-!
# What the fake CMC writes
-/
namespace CyclesLedger.Candid

open Spec.Candid

theorem good_refundedWith : Good wRefundedWith (recTy [("refund_amount", .nat), ("create_error", .text)])
    (fun r => recVal [("refund_amount", .nat, .nat r.1), ("create_error", .text, .text r.2)])
    (fun r => r.1 < 2 ^ 128) := by
  have g := good_two (A := Nat × Bytes) (n := "refund_amount") (n' := "create_error") Prod.fst Prod.snd
    (by decide +kernel) good_nat good_text
  exact ⟨g.wf, g.typed, fun a ha => ⟨g.ok a ⟨trivial, trivial⟩, ha⟩⟩

theorem good_refundFailedWith : Good wRefundFailedWith
    (recTy [("create_error", .text), ("refund_error", .text)])
    (fun r => recVal [("create_error", .text, .text r.1), ("refund_error", .text, .text r.2)])
    (fun _ => True) := by
  have g := good_two (A := Bytes × Bytes) (n := "create_error") (n' := "refund_error") Prod.fst Prod.snd
    (by decide +kernel) good_text good_text
  exact ⟨g.wf, g.typed, fun a _ => g.ok a ⟨trivial, trivial⟩⟩

theorem good_fakeError : Good wErrorWith (enumTy casesFakeError) putFakeError
    (fun e => ∀ r, e = .refunded r → r.1 < 2 ^ 128) := by
  refine good_enum (by decide +kernel) ?_ ?_
  · intro c hc
    simp only [casesFakeError, List.mem_cons, List.not_mem_nil, or_false] at hc
    rcases hc with rfl | rfl
    · exact ⟨good_refundedWith.wf, _, .head _, rfl, good_refundedWith.fits (0, []) (by decide)⟩
    · exact ⟨good_refundFailedWith.wf, _, .tail _ (.head _), rfl,
        good_refundFailedWith.fits ([], []) trivial⟩
  · intro a
    cases a with
    | refunded r => exact ⟨_, _, .head _, rfl, good_refundedWith.typed r, fun h => good_refundedWith.ok r (h r rfl)⟩
    | refundFailed r =>
      exact ⟨_, _, .tail _ (.head _), rfl, good_refundFailedWith.typed r,
        fun _ => good_refundFailedWith.ok r trivial⟩

theorem good_fakeReply : Good wFakeReply tyFakeReply putFakeReply
    (fun r => ∀ e, r = .error e → ∀ q, e = .refunded q → q.1 < 2 ^ 128) :=
  good_result good_principal good_fakeError somePrincipal (.refunded (0, []))
    (fun _ h => by cases h; decide)

theorem det_errorWith : Det wErrorWith := by
  refine det_variant ["Refunded", "RefundFailed"] (by decide +kernel) ?_ ?_
  · intro e
    cases e with
    | refunded _ => exact .head _
    | refundFailed _ => exact .tail _ (.head _)
  · intro a b u x hn h h'
    cases a with
    | refunded r =>
      cases b with
      | refunded r' =>
        have := det_two (n := "refund_amount") (n' := "create_error") Prod.fst Prod.snd
          (fun _ _ => Prod.ext) det_nat (det_of_reads reads_text) r r' u x h.1 h'.1
        rw [this]
      | refundFailed r' => exact absurd (show "Refunded" = "RefundFailed" from hn) (by decide)
    | refundFailed r =>
      cases b with
      | refunded r' => exact absurd (show "RefundFailed" = "Refunded" from hn) (by decide)
      | refundFailed r' =>
        have := det_two (n := "create_error") (n' := "refund_error") Prod.fst Prod.snd
          (fun _ _ => Prod.ext) (det_of_reads reads_text) (det_of_reads reads_text) r r' u x h h'
        rw [this]

theorem det_fakeReply : Det wFakeReply := det_result det_principal det_errorWith

/-! ## Without the texts -/

theorem case_mono {known known' : List (String × (Ty → Prop))} {name : String} {u t : Ty} {x v : Val}
    (hk : ∀ k ∈ known, ∃ k' ∈ known', k'.1 = k.1 ∧ ∀ t, k.2 t → k'.2 t)
    (h : Case known name u x t v) : Case known' name u x t v := by
  obtain ⟨cs, i, h1, h2, h3, h4, h5⟩ := h
  refine ⟨cs, i, h1, h2, fun c hc => ?_, h4, h5⟩
  obtain ⟨k, hm, e, hp⟩ := h3 c hc
  obtain ⟨k', hm', e', hp'⟩ := hk k hm
  exact ⟨k', hm', by rw [e', e], hp' _ hp⟩

/-- The error without its texts. -/
def plainError : CmcErrorWith → Option Nat
  | .refunded r => some r.1
  | .refundFailed _ => none

theorem refunded_plain {r : Nat × Bytes} {t : Ty} {v : Val} (h : wRefundedWith r t v) :
    wRefunded r.1 t v := by
  obtain ⟨⟨s, h1, h2, h3⟩, h4⟩ := h
  exact ⟨s, h1, h2, h4, _, h3⟩

theorem refundFailed_plain {r : Bytes × Bytes} {t : Ty} {v : Val} (h : wRefundFailedWith r t v) :
    wRefundFailed () t v := by
  obtain ⟨s, h1, h2, h3⟩ := h
  exact ⟨s, h1, ⟨_, h2⟩, _, h3⟩

theorem error_plain {e : CmcErrorWith} {t : Ty} {v : Val} (h : wErrorWith e t v) :
    wCmcError (plainError e) t v := by
  obtain ⟨u, x, hc, hw⟩ := h
  have hk : ∀ k ∈ [("Refunded", Fits wRefundedWith), ("RefundFailed", Fits wRefundFailedWith)],
      ∃ k' ∈ [("Refunded", Fits wRefunded), ("RefundFailed", Fits wRefundFailed)],
        k'.1 = k.1 ∧ ∀ t, k.2 t → k'.2 t := by
    intro k hk
    simp only [List.mem_cons, List.not_mem_nil, or_false] at hk
    rcases hk with rfl | rfl
    · exact ⟨_, .head _, rfl, fun t ⟨r, v, h⟩ => ⟨_, v, refunded_plain h⟩⟩
    · exact ⟨_, .tail _ (.head _), rfl, fun t ⟨r, v, h⟩ => ⟨_, v, refundFailed_plain h⟩⟩
  cases e with
  | refunded r => exact ⟨u, x, case_mono hk hc, refunded_plain hw⟩
  | refundFailed r => exact ⟨u, x, case_mono hk hc, refundFailed_plain hw⟩

theorem reply_plain {r : Except CmcErrorWith Principal} {t : Ty} {v : Val} (h : wFakeReply r t v) :
    wCmcReply (r.mapError plainError) t v := by
  obtain ⟨u, x, hc, hw⟩ := h
  have hk : ∀ k ∈ [("Ok", Fits wPrincipal), ("Err", Fits wErrorWith)],
      ∃ k' ∈ [("Ok", Fits wPrincipal), ("Err", Fits wCmcError)],
        k'.1 = k.1 ∧ ∀ t, k.2 t → k'.2 t := by
    intro k hk
    simp only [List.mem_cons, List.not_mem_nil, or_false] at hk
    rcases hk with rfl | rfl
    · exact ⟨_, .head _, rfl, fun t h => h⟩
    · exact ⟨_, .tail _ (.head _), rfl, fun t ⟨r, v, h⟩ => ⟨_, v, error_plain h⟩⟩
  cases r with
  | ok p => exact ⟨u, x, case_mono hk hc, hw⟩
  | error e => exact ⟨u, x, case_mono hk hc, error_plain hw⟩

/-! ## The other messages -/

theorem good_complete : Good wComplete tyComplete
    (fun a => recVal [("settings", .opt tySettings, putOpt putSettings a.1),
      ("sender_canister_version", .opt (.fixed .nat64), putOpt (fun n => .fixed (toLE 8 n)) a.2)])
    (fun a => ∀ n, a.2 = some n → n < 2 ^ 64) := by
  have g := good_two (A := Option CanisterSettings × Option Nat) (n := "settings")
    (n' := "sender_canister_version") Prod.fst Prod.snd (by decide +kernel) (good_opt good_settings)
    (good_opt (good_fixed .nat64 8 rfl))
  exact ⟨g.wf, g.typed, fun a ha => g.ok a ⟨fun _ _ => trivial, fun n hn => by
    rw [show (256 : Nat) ^ 8 = 2 ^ 64 from by decide]; exact ha n hn⟩⟩

theorem det_complete : Det wComplete := by
  refine det_two Prod.fst Prod.snd (fun _ _ => Prod.ext) (det_opt (det_of_reads reads_settings) ?_)
    (det_opt (det_fixed _ _) ?_)
  · rintro a t v ⟨s, hr, _⟩; exact record_plain hr
  · rintro a t v ⟨_, rfl, _⟩; rfl

theorem good_rate : Good wRate tyRate
    (fun a => recVal [("xdr_permyriad_per_icp", .fixed .nat64, .fixed (toLE 8 a.1)),
      ("timestamp_seconds", .fixed .nat64, .fixed (toLE 8 a.2))])
    (fun a => a.1 < 256 ^ 8 ∧ a.2 < 256 ^ 8) :=
  good_two (A := Nat × Nat) Prod.fst Prod.snd (by decide +kernel) (good_fixed .nat64 8 rfl)
    (good_fixed .nat64 8 rfl)

theorem det_rate : Det wRate :=
  det_two Prod.fst Prod.snd (fun _ _ => Prod.ext) (det_fixed _ _) (det_fixed _ _)

theorem good_rateResponse : Good wRateResponse tyRateResponse
    (fun a => recVal [("certificate", .vec (.fixed .nat8), putBlob a.1),
      ("data", tyRate, recVal [("xdr_permyriad_per_icp", .fixed .nat64, .fixed (toLE 8 a.2.1.1)),
        ("timestamp_seconds", .fixed .nat64, .fixed (toLE 8 a.2.1.2))]),
      ("hash_tree", .vec (.fixed .nat8), putBlob a.2.2)])
    (fun a => a.2.1.1 < 256 ^ 8 ∧ a.2.1.2 < 256 ^ 8) := by
  have g := good_three (A := Bytes × (Nat × Nat) × Bytes) (n := "certificate")
    (n' := "data") (n'' := "hash_tree") Prod.fst (fun a => a.2.1) (fun a => a.2.2) (by decide +kernel)
    good_blob good_rate good_blob
  exact ⟨g.wf, g.typed, fun a ha => g.ok a ⟨trivial, ha, trivial⟩⟩

theorem det_rateResponse : Det wRateResponse := by
  rintro ⟨a, b, c⟩ ⟨a', b', c'⟩ t v ⟨s, hr, h1, h2, h3⟩ ⟨s', hr', h1', h2', h3'⟩
  cases det_has det_blob hr hr' h1 h1'
  cases det_has det_rate hr hr' h2 h2'
  cases det_has det_blob hr hr' h3 h3'
  rfl

end CyclesLedger.Candid
