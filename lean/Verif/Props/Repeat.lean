import Verif.Props.Dedup
import Verif.Props.Install
import Verif.Props.Codec
/-!
# A duplicate is a repetition

C89: whoever is told `Duplicate` has made the very same call before.  The code violates it twice:
`create_canister` does not look at `creation_args`, and `icrc2_approve` cuts amounts off at
2^128 - 1.  These are the only exceptions.
-/
namespace CyclesLedger

/-- The same call: the same endpoint, the same caller, the same arguments. -/
def Spec.SameCall : Msg → Msg → Prop
  | .transfer c a, .transfer c' a' => c = c' ∧ a = a'
  | .transferFrom c a, .transferFrom c' a' => c = c' ∧ a = a'
  | .approve c a, .approve c' a' => c = c' ∧ a = a'
  | .withdraw c a _, .withdraw c' a' _ => c = c' ∧ a = a'
  | .withdrawFrom c a _, .withdrawFrom c' a' _ => c = c' ∧ a = a'
  | .createCanister c a _, .createCanister c' a' _ => c = c' ∧ a = a'
  | .createCanisterFrom c a _, .createCanisterFrom c' a' _ => c = c' ∧ a = a'
  | _, _ => False

/-- The same call, except for the settings of a canister to be created, and for the amount of an
approval beyond 128 bits. -/
def Spec.AlmostSameCall : Msg → Msg → Prop
  | .approve c a, .approve c' a' => c = c' ∧ a' = { a with amount := a'.amount } ∧
      (a.amount = a'.amount ∨ 2 ^ 128 - 1 ≤ a.amount ∧ 2 ^ 128 - 1 ≤ a'.amount)
  | .createCanister c a _, .createCanister c' a' _ =>
      c = c' ∧ a' = { a with creationArgs := a'.creationArgs }
  | .createCanisterFrom c a _, .createCanisterFrom c' a' _ =>
      c = c' ∧ a' = { a with creationArgs := a'.creationArgs }
  | m, m' => Spec.SameCall m m'

theorem optU64_inj {a b : Option UInt64} (h : a.map UInt64.toNat = b.map UInt64.toNat) : a = b := by
  cases a <;> cases b <;> simp_all [UInt64.toNat_inj]

theorem almostSame_of_transaction {m m' : Msg} {t : Transaction}
    (h : Spec.requestTransaction m = some t) (h' : Spec.requestTransaction m' = some t)
    (ht : t.createdAtTime.isSome) : Spec.AlmostSameCall m m' := by
  cases m <;> cases m' <;>
    simp only [Spec.requestTransaction, Spec.transferRequest, Spec.approveRequest,
        Spec.burnRequest, Spec.TransferReq.transaction, Spec.ApproveReq.transaction,
        Spec.BurnReq.transaction, Option.some.injEq, reduceCtorEq] at h h' <;>
    subst h <;> (try (cases ht; done)) <;>
    simp only [Transaction.mk.injEq, Operation.transfer.injEq, Operation.burn.injEq, Operation.approve.injEq,
      Account.mk.injEq, reduceCtorEq, Option.some.injEq, false_and, and_false] at h'
  · rename_i c a c' a'
    obtain ⟨⟨⟨h1, h2⟩, h3, _, h4, h5⟩, h6, h7⟩ := h'
    refine ⟨h1.symm, ?_⟩
    cases a; cases a'
    simp only at *
    rw [h2, h3, h4, h5, h7, optU64_inj h6]
  · rename_i c a c' a'
    obtain ⟨⟨h1, h2, ⟨h3, h4⟩, h5, h6⟩, h7, h8⟩ := h'
    refine ⟨h3.symm, ?_⟩
    cases a; cases a'
    simp only at *
    rw [h1, h2, h4, h5, h6, h8, optU64_inj h7]
  · rename_i c a c' a'
    obtain ⟨⟨⟨h1, h2⟩, h3, h4, h5, h6, h7⟩, h8, h9⟩ := h'
    refine ⟨h1.symm, ?_, ?_⟩
    · cases a; cases a'
      simp only at *
      rw [h2, h3, h5, optU64_inj h6, h7, h9, optU64_inj h8]
    · omega
  · rename_i c a _ c' a' _
    obtain ⟨⟨⟨h1, h2⟩, _, h3⟩, h4, h5⟩ := h'
    refine ⟨h1.symm, ?_⟩
    have h6 := Option.some.inj (burnMemo_inj h5)
    cases a; cases a'
    simp only at *
    rw [h2, h3, h6, optU64_inj h4]
  · rename_i c a _ c' a' _
    exact absurd (burnMemo_inj h'.2.2) (by simp)
  · rename_i c a _ c' a' _
    obtain ⟨⟨h1, ⟨h2, h3⟩, h4⟩, h5, h6⟩ := h'
    refine ⟨h2.symm, ?_⟩
    have h7 := Option.some.inj (burnMemo_inj h6)
    cases a; cases a'
    simp only at *
    rw [h1, h3, h4, h7, optU64_inj h5]
  · exact absurd (burnMemo_inj h'.2.2) (by simp)
  · exact absurd (burnMemo_inj h'.2.2) (by simp)
  · rename_i c a _ c' a' _
    obtain ⟨⟨⟨h1, h2⟩, _, h3⟩, h4, _⟩ := h'
    refine ⟨h1.symm, ?_⟩
    cases a; cases a'
    simp only at *
    rw [h2, h3, optU64_inj h4]
  · exact absurd (burnMemo_inj h'.2.2) (by simp)
  · rename_i c a _ c' a' _
    obtain ⟨⟨h1, ⟨h2, h3⟩, h4⟩, h5, _⟩ := h'
    refine ⟨h2.symm, ?_⟩
    cases a; cases a'
    simp only at *
    rw [h1, h3, h4, optU64_inj h5]

/-- Which message a block of the log comes from. -/
theorem block_origin [Crypto] {y0 : Sys} (h0 : Reachable y0) (es : List Event) {d : Nat} {b : Block}
    (hb : (y0.run es).ledger.blocks[d]? = some b) : y0.ledger.blocks[d]? = some b ∨
      ∃ pre e post, es = pre ++ e :: post ∧ (y0.run pre).ledger.blocks.length ≤ d ∧
        ((y0.run pre).step e).1.ledger.blocks[d]? = some b ∧
        Spec.Records ((y0.run pre).tick e.dt) e.msg b := by
  induction es generalizing y0 with
  | nil => exact Or.inl hb
  | cons e es ih =>
    rcases ih (h0.step e) hb with h1 | ⟨pre, e', post, rfl, h2, h3⟩
    · obtain ⟨new, h4, h5⟩ := exec_blocks (h0.tick e.dt).inv e.msg
      by_cases hd : d < y0.ledger.blocks.length
      · left
        rw [Sys.step, h4] at h1
        exact (List.getElem?_append_left hd).symm.trans h1
      · right
        refine ⟨[], e, es, rfl, Nat.le_of_not_lt hd, h1, (h5 b ?_).2⟩
        rw [Sys.step, h4] at h1
        exact List.mem_of_getElem? ((List.getElem?_append_right (Nat.le_of_not_lt hd)).symm.trans h1)
    · exact Or.inr ⟨e :: pre, e', post, rfl, h2, h3⟩

theorem not_duplicate_callback [Crypto] {y : Sys} (hi : SInv y) (i : Nat) (ans : Answer) (d : Nat) :
    ¬Spec.SaysDuplicate (y.exec (.callback i ans)).2 d := by
  intro hd
  rcases exec_callback_cases hi i ans with ⟨h1, _⟩ | ⟨p, _, _, ⟨_, _, h1⟩ | ⟨back, _, h1⟩⟩
  · rw [h1] at hd
    rcases hd with h | h | ⟨_, h⟩ <;> cases h
  · exact Spec.not_duplicate_of_ok h1 hd
  · rcases h1 with ⟨h1, _⟩ | ⟨fb, ab, s', _, _, _, h2, _, _, h3⟩
    · rw [h1] at hd
      rcases hd with h | h | ⟨_, h⟩ <;> cases h
    · rcases hd with h | h | ⟨_, h⟩
      · cases hx : (y.exec (.callback i ans)).2 <;> rw [hx] at h h3 <;> first | cases h3; done | cases h; done
      · cases hx : (y.exec (.callback i ans)).2 <;> rw [hx] at h h3 <;> first | cases h3; done | cases h; done
      · rw [h2] at h; cases h

/-- **C89**, up to the two exceptions: whoever is told `Duplicate` of block `d` has made the same
call before, and the block was recorded for it. -/
theorem C89_repetition_partial [Crypto] {config : Config} {now cycles : Nat} {y0 : Sys}
    (h0 : Sys.init config now cycles = some y0) (es : List Event) (e : Event) {d : Nat}
    (hd : Spec.SaysDuplicate ((y0.run es).step e).2 d)
    (hn : ∀ t, Spec.requestTransaction e.msg = some t → Spec.NoClash (y0.run es).ledger t) :
    ∃ pre e' post, es = pre ++ e' :: post ∧ Spec.AlmostSameCall e'.msg e.msg ∧
      (y0.run pre).ledger.blocks.length ≤ d ∧ d < ((y0.run pre).step e').1.ledger.blocks.length := by
  have h00 : Reachable y0 := ⟨config, now, cycles, y0, [], h0, rfl⟩
  have hr := (h00.run es).tick e.dt
  have : ∃ t, Spec.requestTransaction e.msg = some t := by
    rcases msg_cases e.msg with ⟨r, to, hm⟩ | ⟨r, hm⟩ | ⟨r, hm⟩ | ⟨c, cy, a, hm⟩ | ⟨i, ans, hm⟩ |
      ⟨i, hm⟩ | ⟨a, hm⟩
    · cases hmm : e.msg <;> rw [hmm] at hm <;> cases hm <;> exact ⟨_, rfl⟩
    · cases hmm : e.msg <;> rw [hmm] at hm <;> cases hm <;> exact ⟨_, rfl⟩
    · cases hmm : e.msg <;> rw [hmm] at hm <;> cases hm <;> exact ⟨_, rfl⟩
    · exact ⟨_, by rw [hm]; rfl⟩
    · rw [Sys.step, hm] at hd
      exact absurd hd (not_duplicate_callback hr.inv i ans d)
    · rw [Sys.step, hm, Sys.exec] at hd
      rcases hd with h | h | ⟨_, h⟩ <;> cases h
    · rw [Sys.step, hm, Sys.exec] at hd
      split at hd <;> rcases hd with h | h | ⟨_, h⟩ <;> cases h
  obtain ⟨t, ht⟩ := this
  obtain ⟨⟨b, hb, hbt, hc⟩, _⟩ := C10_duplicate_truthful hr ht (hn t ht) hd
  rcases block_origin h00 es hb with h1 | ⟨pre, e', post, he, h2, h3, h4⟩
  · exfalso
    have h2 := (C69_installed h0).1
    have h3 := List.mem_map_of_mem (f := fun b : Block => (b.transaction, b.timestamp))
      (List.mem_of_getElem? h1)
    rw [h2] at h3
    obtain ⟨x, _, hx⟩ := List.mem_map.mp h3
    have := congrArg Prod.fst hx
    simp only at this
    rw [← hbt, ← this] at hc
    cases hc
  · refine ⟨pre, e', post, he, ?_, h2, (List.getElem?_eq_some_iff.mp h3).1⟩
    cases h4 with
    | request h5 _ => rw [hbt] at h5; exact almostSame_of_transaction h5 ht hc
    | refund kind p back _ _ h5 => rw [← hbt, h5] at hc; cases hc
    | allowance kind p back sp s _ _ h5 => rw [← hbt, h5] at hc; cases hc

open Toy in
/-- A canister with settings, asked for after one without. -/
def otherSettings (p : Principal) (x : Nat) (cat : Option UInt64) : Event :=
  ⟨1, .createCanister p ⟨none, cat, x, some ⟨none, some { computeAllocation := some 10 }⟩⟩ none⟩

open Toy in
/-- **C89** fails: a second canister, with other settings, is not created but reported as a
duplicate of the first. -/
theorem C89_refuted : Sys.init cfg T 0 = some start ∧
    Spec.SaysDuplicate ((start.run [dep alice 1000000000000, create alice 500000000 (some 1000000001)]).step
      (otherSettings alice 500000000 (some 1000000001))).2 1 ∧
    (∀ t, Spec.requestTransaction (otherSettings alice 500000000 (some 1000000001)).msg = some t →
      Spec.NoClash (start.run [dep alice 1000000000000, create alice 500000000 (some 1000000001)]).ledger t) ∧
    ∀ e ∈ [dep alice 1000000000000, create alice 500000000 (some 1000000001)],
      ¬Spec.SameCall e.msg (otherSettings alice 500000000 (some 1000000001)).msg := by
  refine ⟨start_eq, Or.inr (Or.inr ⟨some none, by decide +kernel⟩), ?_, ?_⟩
  · intro t ht; cases ht; decide +kernel
  · intro e he h
    rcases List.mem_cons.mp he with rfl | he
    · exact h
    · rw [List.mem_singleton.mp he] at h
      cases (congrArg CreateCanisterArgs.creationArgs h.2)

open Toy in
/-- An approval with a `created_at_time`. -/
def apprAt (p q : Principal) (x : Nat) (cat : UInt64) : Event :=
  ⟨1, .approve p ⟨none, acc q, x, none, none, none, none, some cat⟩⟩

open Toy in
/-- **C89** fails for approvals too: 2^128 and 2^128 - 1 are the same. -/
theorem C89_refuted_approve : Sys.init cfg T 0 = some start ∧
    Spec.SaysDuplicate ((start.run [dep alice 1000000000000,
      apprAt alice bob 340282366920938463463374607431768211455 1000000001]).step
      (apprAt alice bob 340282366920938463463374607431768211456 1000000001)).2 1 ∧
    ∀ e ∈ [dep alice 1000000000000, apprAt alice bob 340282366920938463463374607431768211455 1000000001],
      ¬Spec.SameCall e.msg (apprAt alice bob 340282366920938463463374607431768211456 1000000001).msg := by
  refine ⟨start_eq, Or.inr (Or.inl (by decide +kernel)), ?_⟩
  intro e he h
  rcases List.mem_cons.mp he with rfl | he
  · exact h
  · rw [List.mem_singleton.mp he] at h
    have := congrArg ApproveArgs.amount h.2
    revert this
    decide +kernel

open Toy in
/-- A repeated transfer, a repeated creation. -/
example : Sys.init cfg T 0 = some start ∧
    Spec.SaysDuplicate (demo.step (xfer alice bob 1000 (some 1000000000))).2 1 ∧
    Spec.SaysDuplicate (demo.step (create alice 500000000 (some 1000000001))).2 5 ∧
    (∀ t, Spec.requestTransaction (xfer alice bob 1000 (some 1000000000)).msg = some t →
      Spec.NoClash demo.ledger t) :=
  ⟨start_eq, Or.inl (by decide +kernel), Or.inr (Or.inr ⟨some none, by decide +kernel⟩),
    fun t ht => by cases ht; decide +kernel⟩

end CyclesLedger
