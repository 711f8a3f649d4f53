import Verif.Proof.AlikeSys
import Verif.Props.Dedup
/-!
# How accounts are written

C45: the default subaccount may be written out or left out.
-/
namespace CyclesLedger

/-- A message that is answered `Duplicate` changes nothing. -/
theorem exec_duplicate [Crypto] {y : Sys} (hi : SInv y) {m : Msg}
    (h : Spec.AnswersDuplicate (y.exec m).2) : (y.exec m).1 = y := by
  obtain ⟨d, hd⟩ := h
  rcases msg_cases m with ⟨r, to, hr⟩ | ⟨r, hr⟩ | ⟨r, hr⟩ | ⟨c, cy, a, rfl⟩ | ⟨i, a, rfl⟩ |
    ⟨i, rfl⟩ | ⟨a, rfl⟩
  · rcases exec_burn hi hr with ⟨s1, p, hs⟩ | ⟨e, he⟩
    · exfalso
      obtain ⟨_, _, _, _, _, _, ⟨_, h1⟩ | ⟨_, h1⟩⟩ := hs
      · rw [h1] at hd; exact Spec.not_duplicate_of_suspended hd
      · rcases h1 with ⟨h1, _⟩ | ⟨fb, ab, s', _, _, _, _, _, _, h1⟩
        · rw [h1] at hd; exact Spec.not_duplicate_of_trapped hd
        · exact Spec.not_duplicate_of_failed h1 hd
    · exact he.1
  · rcases exec_transfer hi hr with ⟨s', _, hok, _⟩ | ⟨e, h1, _⟩ | ⟨h1, _⟩
    · exact absurd hd (Spec.not_duplicate_of_ok hok)
    · exact h1
    · rw [h1]
  · rcases exec_approve hi hr with ⟨s', _, hok, _⟩ | ⟨e, h1, _⟩ | ⟨h1, _⟩
    · exact absurd hd (Spec.not_duplicate_of_ok hok)
    · exact h1
    · rw [h1]
  · rcases exec_deposit hi c cy a with ⟨s', h1, _⟩ | ⟨h1, _⟩
    · rw [h1] at hd; exact absurd hd (Spec.not_duplicate_of_ok rfl)
    · rw [h1]
  · rcases exec_callback_cases hi i a with ⟨h1, _⟩ | ⟨p, _, _, ⟨_, _, h1⟩ | ⟨back, _, h1⟩⟩
    · rw [h1]
    · exact absurd hd (Spec.not_duplicate_of_ok h1)
    · exfalso
      rcases h1 with ⟨h1, _⟩ | ⟨fb, ab, s', _, _, _, _, _, _, h1⟩
      · rw [h1] at hd; exact Spec.not_duplicate_of_trapped hd
      · exact Spec.not_duplicate_of_failed h1 hd
  · rcases hd with h1 | h1 | ⟨c, h1⟩ <;> cases h1
  · exfalso
    unfold Sys.exec at hd
    simp only at hd
    split at hd <;> rcases hd with h1 | h1 | ⟨c, h1⟩ <;> cases h1

theorem Alike.sameLedger [Crypto] {s s' : State} (h : Alike s s') : Spec.SameLedger s s' := by
  refine ⟨fun a a' ha => h.balanceOf (sameAccount_key ha), ?_, h.supply, h.length⟩
  intro a a' b b' now ha hb
  unfold icrc2Allowance
  rw [h.allowance (sameAccount_key ha) (sameAccount_key hb)]

theorem SysAlike.tick {y y' : Sys} (h : SysAlike y y') (dt : Nat) :
    SysAlike (y.tick dt) (y'.tick dt) :=
  ⟨h.ledger, by simp only [Sys.tick, h.now], h.pending, h.cycles⟩

theorem SysAlike.run [Crypto] {y y' : Sys} (h : SysAlike y y') (hr : Reachable y)
    (hr' : Reachable y') : ∀ {es es' : List Event}, Spec.SameHistory es es' →
    Spec.AgreeOnDuplicates y y' es es' →
    SysAlike (y.run es) (y'.run es') ∧ Spec.SameAnswers (Spec.replies y es) (Spec.replies y' es')
  | [], [], _, _ => ⟨h, trivial⟩
  | e :: es, e' :: es', hs, hd => by
    obtain ⟨⟨hdt, hm⟩, hs⟩ := hs
    obtain ⟨hd1, hd2, hd⟩ := hd
    have key : SysAlike (y.step e).1 (y'.step e').1 ∧ ((y.step e).2 = (y'.step e').2 ∨
        (Spec.AnswersDuplicate (y.step e).2 ∧ Spec.AnswersDuplicate (y'.step e').2)) := by
      have ht := h.tick e.dt
      rcases ht.exec hm (fun hf _ => by
          have := hd2 hf
          unfold Sys.step at this
          rwa [← hdt] at this) with h1 | ⟨h1, _⟩
      · unfold Sys.step
        rw [← hdt]
        exact ⟨h1.1, Or.inl h1.2⟩
      · have hboth : Spec.AnswersDuplicate (y.step e).2 ∧ Spec.AnswersDuplicate (y'.step e').2 := by
          rcases h1 with h1 | h1
          · exact ⟨h1, hd1.mp h1⟩
          · have h1 : Spec.AnswersDuplicate (y'.step e').2 := by
              unfold Sys.step; rw [← hdt]; exact h1
            exact ⟨hd1.mpr h1, h1⟩
        refine ⟨?_, Or.inr hboth⟩
        have hi := (hr.inv).tick e.dt
        have hi' := (hr'.inv).tick e'.dt
        unfold Sys.step at hboth ⊢
        rw [exec_duplicate hi hboth.1, exec_duplicate hi' hboth.2, ← hdt]
        exact ht
    obtain ⟨h1, h2⟩ := SysAlike.run key.1 (hr.step e) (hr'.step e') hs hd
    exact ⟨h1, key.2, h2⟩
  | [], _ :: _, hs, _ => hs.elim
  | _ :: _, [], hs, _ => hs.elim

/-! ## C45 -/

/-- **C45**, queries: how the accounts in a question are written makes no difference. -/
theorem C45_queries (s : State) : Spec.SameLedger s s := by
  refine ⟨?_, ?_, rfl, rfl⟩
  · intro a a' h
    exact (Alike.refl s).balanceOf (sameAccount_key h)
  · intro a a' b b' now ha hb
    unfold icrc2Allowance
    rw [(Alike.refl s).allowance (sameAccount_key ha) (sameAccount_key hb)]

/-- **C45**: two histories from the same state that differ only in how default subaccounts are
written lead to the same balances, allowances, supply and log length, and to the same
answers — as long as they agree on what is a duplicate. -/
theorem C45_history_partial [Crypto] {y : Sys} (h : Reachable y) {es es' : List Event}
    (hs : Spec.SameHistory es es') (hd : Spec.AgreeOnDuplicates y y es es') :
    Spec.SameLedger (y.run es).ledger (y.run es').ledger ∧
    (y.run es).cycles = (y.run es').cycles ∧
    Spec.SameAnswers (Spec.replies y es) (Spec.replies y es') := by
  obtain ⟨h1, h2⟩ := (SysAlike.refl y).run h h hs hd
  exact ⟨h1.ledger.sameLedger, h1.cycles, h2⟩

/-- No block of the log carries a `created_at_time`. -/
def Spec.NoStamps (bs : List Block) : Prop := ∀ b ∈ bs, b.transaction.createdAtTime = none

theorem blank_of_noStamps [Crypto] {y : Sys} (h : Reachable y)
    (hn : Spec.NoStamps y.ledger.blocks) : Blank y.ledger := by
  intro k
  cases hg : y.ledger.transactionHashes.get k with
  | none => rfl
  | some v =>
    obtain ⟨t, i, b, h1, _⟩ := h.keys.keys k v hg
    obtain ⟨b', h2, h3, _⟩ := h.keys.time t i h1
    have := hn b' (List.mem_of_getElem? h2)
    rw [this] at h3
    cases h3

theorem noStamps_exec [Crypto] {y : Sys} (h : Reachable y) {m : Msg}
    (hn : Spec.NoStamps y.ledger.blocks) (hm : Spec.Unstamped m) :
    Spec.NoStamps (y.exec m).1.ledger.blocks := by
  obtain ⟨new, h1, h2⟩ := exec_blocks h.inv m
  rw [h1]
  intro b hb
  rw [List.mem_append] at hb
  rcases hb with hb | hb
  · exact hn b hb
  · cases (h2 b hb).2 with
    | request h3 _ =>
      cases m <;> simp only [Spec.requestTransaction, Spec.transferRequest, Spec.approveRequest,
        Spec.burnRequest, Spec.TransferReq.transaction, Spec.ApproveReq.transaction,
        Spec.BurnReq.transaction, Option.some.injEq, reduceCtorEq] at h3 <;> rw [← h3] <;>
        simp only [Spec.Unstamped] at hm <;> first | rfl | (simp only [hm]; rfl)
    | refund kind p back _ _ h3 => rw [h3]; rfl
    | allowance kind p back sp s _ _ h3 => rw [h3]; rfl

theorem Spec.SameMsg.unstamped {m m' : Msg} (h : Spec.SameMsg m m') (hm : Spec.Unstamped m) :
    Spec.Unstamped m' := by
  cases h <;> exact hm

theorem SysAlike.run_unstamped [Crypto] {y y' : Sys} (h : SysAlike y y') (hr : Reachable y)
    (hr' : Reachable y') (hn : Spec.NoStamps y.ledger.blocks)
    (hn' : Spec.NoStamps y'.ledger.blocks) : ∀ {es es' : List Event}, Spec.SameHistory es es' →
    (∀ e ∈ es, Spec.Unstamped e.msg) →
    SysAlike (y.run es) (y'.run es') ∧ Spec.replies y es = Spec.replies y' es'
  | [], [], _, _ => ⟨h, rfl⟩
  | e :: es, e' :: es', hs, hu => by
    obtain ⟨⟨hdt, hm⟩, hs⟩ := hs
    have hue := hu e (List.mem_cons_self ..)
    have hb := blank_of_noStamps hr hn
    have hb' := blank_of_noStamps hr' hn'
    have key : OutSim (y.step e) (y'.step e') := by
      unfold Sys.step
      rw [← hdt]
      rcases (h.tick e.dt).exec hm (fun _ hx => absurd ⟨hb, hb', hue⟩ hx) with h1 | ⟨_, h1⟩
      · exact h1
      · exact absurd ⟨hb, hb'⟩ h1
    obtain ⟨h1, h2⟩ := SysAlike.run_unstamped key.1 (hr.step e) (hr'.step e')
      (noStamps_exec (hr.tick e.dt) hn hue)
      (noStamps_exec (hr'.tick e'.dt) hn' (hm.unstamped hue)) hs
      (fun x hx => hu x (List.mem_cons_of_mem _ hx))
    refine ⟨h1, ?_⟩
    show (y.step e).2 :: _ = (y'.step e').2 :: _
    rw [key.2, h2]
  | [], _ :: _, hs, _ => hs.elim
  | _ :: _, [], hs, _ => hs.elim

/-- **C45**: without `created_at_time`s there is nothing to be a duplicate of, and how default
subaccounts are written makes no difference at all. -/
theorem C45_unstamped [Crypto] {y : Sys} (h : Reachable y)
    (hn : Spec.NoStamps y.ledger.blocks) {es es' : List Event}
    (hs : Spec.SameHistory es es') (hu : ∀ e ∈ es, Spec.Unstamped e.msg) :
    Spec.SameLedger (y.run es).ledger (y.run es').ledger ∧
    (y.run es).cycles = (y.run es').cycles ∧ Spec.replies y es = Spec.replies y es' := by
  obtain ⟨h1, h2⟩ := (SysAlike.refl y).run_unstamped h h hn hn hs hu
  exact ⟨h1.ledger.sameLedger, h1.cycles, h2⟩

namespace Toy

/-- An account with its default subaccount written out. -/
def accFull (p : Principal) : Account := ⟨p, some zeroSub⟩

/-- A transfer with all default subaccounts written out. -/
def xferFull (p q : Principal) (x : Nat) (cat : Option UInt64 := none) : Event :=
  ⟨1, .transfer p ⟨some zeroSub, accFull q, x, none, none, cat⟩⟩

/-- A `withdraw_from` with all default subaccounts written out. -/
def wdrFromFull (sp p : Principal) (x : Nat) : Event :=
  ⟨1, .withdrawFrom sp ⟨some zeroSub, accFull p, target, none, x⟩ none⟩

/-- An `approve` with all default subaccounts written out. -/
def apprFull (p q : Principal) (x : Nat) : Event :=
  ⟨1, .approve p ⟨some zeroSub, accFull q, x, none, none, none, none, none⟩⟩

theorem same_acc (p : Principal) : Spec.SameAccount (acc p) (accFull p) := ⟨rfl, rfl⟩

end Toy

open Toy in
/-- A history with a transfer, an approval and a failing `withdraw_from`, written in two ways; its
blocks differ, so the logs are not the same. -/
example :
    let es := [dep alice 1000000000000, xfer alice bob 5, appr alice bob 900000000,
      wdrFrom bob alice 400000000, ⟨1, .callback 0 (.depositCycles (some (.rejected (some .canisterError))))⟩]
    let es' := [dep alice 1000000000000, xferFull alice bob 5, apprFull alice bob 900000000,
      wdrFromFull bob alice 400000000, ⟨1, .callback 0 (.depositCycles (some (.rejected (some .canisterError))))⟩]
    Reachable start ∧ Spec.NoStamps start.ledger.blocks ∧ Spec.SameHistory es es' ∧
    (∀ e ∈ es, Spec.Unstamped e.msg) ∧
    (start.run es).ledger.blocks.map Block.transaction ≠
      (start.run es').ledger.blocks.map Block.transaction ∧
    (start.run es).ledger.blocks.length = 6 := by
  refine ⟨run_reachable [], ?_, ?_, ?_, ?_, ?_⟩
  · intro b hb
    have h0 : start.ledger.blocks = [] := by decide +kernel
    rw [h0] at hb; cases hb
  · exact ⟨⟨rfl, .same _⟩, ⟨rfl, .transfer _ _ _ _ _ rfl (same_acc _)⟩,
      ⟨rfl, .approve _ _ _ _ _ _ _ rfl (same_acc _)⟩,
      ⟨rfl, .withdrawFrom _ _ _ _ _ rfl (same_acc _)⟩, ⟨rfl, .same _⟩, trivial⟩
  · intro e he
    simp only [List.mem_cons, List.not_mem_nil, or_false] at he
    rcases he with rfl | rfl | rfl | rfl | rfl <;> first | trivial | rfl
  · decide +kernel
  · decide +kernel

open Toy in
/-- With `created_at_time`s, but written in one way or the other throughout: the third event is a
duplicate in both histories. -/
example :
    let es := [dep alice 1000000000000, xfer alice bob 5 (some 1000000000),
      xfer alice bob 5 (some 1000000000)]
    let es' := [dep alice 1000000000000, xferFull alice bob 5 (some 1000000000),
      xferFull alice bob 5 (some 1000000000)]
    Reachable start ∧ Spec.SameHistory es es' ∧ Spec.AgreeOnDuplicates start start es es' ∧
    (Spec.replies start es)[2]? = some (.transfer (.error (.duplicate 1))) := by
  refine ⟨run_reachable [], ?_, ?_, by decide +kernel⟩
  · exact ⟨⟨rfl, .same _⟩, ⟨rfl, .transfer _ _ _ _ _ rfl (same_acc _)⟩,
      ⟨rfl, .transfer _ _ _ _ _ rfl (same_acc _)⟩, trivial⟩
  · have no : ∀ r r' : Reply, Spec.okIndex r ≠ none → Spec.okIndex r' ≠ none →
        (Spec.AnswersDuplicate r ↔ Spec.AnswersDuplicate r') := by
      intro r r' h h'
      obtain ⟨i, hi⟩ := Option.ne_none_iff_exists'.mp h
      obtain ⟨j, hj⟩ := Option.ne_none_iff_exists'.mp h'
      exact ⟨fun ⟨d, hd⟩ => absurd hd (Spec.not_duplicate_of_ok hi),
        fun ⟨d, hd⟩ => absurd hd (Spec.not_duplicate_of_ok hj)⟩
    exact ⟨no _ _ (by decide +kernel) (by decide +kernel), fun h => h.elim,
      no _ _ (by decide +kernel) (by decide +kernel), fun h => h.elim,
      ⟨fun _ => ⟨1, Or.inl (by decide +kernel)⟩, fun _ => ⟨1, Or.inl (by decide +kernel)⟩⟩,
      fun h => h.elim, trivial⟩

open Toy in
/-- **C45** fails for requests with a `created_at_time`: a transfer that is a `Duplicate` when it
is written as before is accepted, and moves cycles again, when its default subaccount is
written out. -/
theorem C45_refuted : ∃ (y : Sys) (m m' : Msg), Reachable y ∧ Spec.SameMsg m m' ∧
    Spec.AnswersDuplicate (y.exec m).2 ∧ ¬Spec.AnswersDuplicate (y.exec m').2 ∧
    icrc1BalanceOf (y.exec m).1.ledger (acc bob) ≠ icrc1BalanceOf (y.exec m').1.ledger (acc bob) := by
  refine ⟨demo, (xfer alice bob 1000 (some 1000000000)).msg,
    (xferFull alice bob 1000 (some 1000000000)).msg, demo_reachable,
    .transfer _ _ _ _ _ rfl (same_acc _), ⟨1, Or.inl (by decide +kernel)⟩, ?_, by decide +kernel⟩
  rintro ⟨d, hd⟩
  exact Spec.not_duplicate_of_ok (i := 6) (by decide +kernel) hd

end CyclesLedger
