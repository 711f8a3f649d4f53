import Verif.Proof.Rules
import Verif.Props.Acceptance
/-!
# C81: which answer a request gets

C55 says that every error answer is true, C60, C61 and C63 which requests are carried out.  Here:
which of several true answers is given.
-/
namespace CyclesLedger

theorem Spec.FirstOf.unique {α : Type} {rs : List (Spec.Rule α)} {o o' : Option α}
    (hf : ∀ r ∈ rs, ∀ a b, r a → r b → a = b) (h : Spec.FirstOf rs o) (h' : Spec.FirstOf rs o') :
    o = o' := by
  induction h with
  | done => cases h'; rfl
  | @hit r rs a ha =>
    cases h' with
    | hit hb => rw [hf r (List.mem_cons_self ..) _ _ ha hb]
    | miss hn _ => exact absurd ha (hn a)
  | @miss r rs o hn _ ih =>
    cases h' with
    | hit hb => exact absurd hb (hn _)
    | miss _ ht => exact ih (fun r' hr' => hf r' (List.mem_cons_of_mem _ hr')) ht

/-- The table of recent transactions remembers what the log records. -/
theorem tableDup_remembers [Crypto] {now : Nat} {s : State} (hi : LInv now s) {t : Transaction}
    (hn : Spec.NoClash s t) : Spec.Remembers s now t (tableDup s t) where
  recorded d hd := by
    unfold tableDup at hd
    rw [Option.map_eq_some_iff] at hd
    obtain ⟨⟨i, c⟩, hg, rfl⟩ := hd
    obtain ⟨b, hb, hbt, hs⟩ := table_hit hi hn hg
    exact ⟨Option.isSome_iff_ne_none.mp hs, b, hb, hbt⟩
  complete hd hw hc b hb hbt := by
    obtain ⟨j, hj⟩ := List.getElem?_of_mem hb
    cases hcat : t.createdAtTime with
    | none => exact hc hcat
    | some c =>
      have hw' : now ≤ c + 86400000000000 + 60000000000 := by
        have : ¬(c + 86400000000000 + 60000000000 < now) := fun h => hw ⟨c, hcat, h⟩
        omega
      obtain ⟨p, hp⟩ := table_has hi hn.log hj (by rw [hbt]; exact hcat) hw'
      rw [hbt] at hp
      unfold tableDup at hd
      rw [hp] at hd
      cases hd

theorem exec_transfer_rules [Crypto] {y : Sys} (h : SInv y) {m : Msg} {r : Spec.TransferReq}
    (hm : Spec.transferRequest m = some r) :
    Spec.FirstOf (Spec.transferRules y.ledger y.now (tableDup y.ledger r.transaction) r)
      (Spec.transferVerdict (y.exec m).2) := by
  cases m with
  | transfer caller args =>
    simp only [Spec.transferRequest, Option.some.injEq] at hm
    subst hm
    have hr := executeTransfer_rules h.ledger ⟨⟨caller, args.fromSubaccount⟩, args.to, none,
      args.amount, args.fee, args.memo, args.createdAtTime.map UInt64.toNat⟩ (opt64_le _)
    have hc := executeTransfer_class h.ledger ⟨⟨caller, args.fromSubaccount⟩, args.to, none,
      args.amount, args.fee, args.memo, args.createdAtTime.map UInt64.toNat⟩ (opt64_le _)
    simp only at hr hc
    simp only [Sys.exec, icrc1Transfer, opt64]
    generalize executeTransfer y.ledger ⟨caller, args.fromSubaccount⟩ args.to none
      args.amount args.fee args.memo (args.createdAtTime.map UInt64.toNat) y.now = res at hr hc ⊢
    cases res with
    | ok i s' => exact hr
    | trap => exact hr
    | err e s' =>
      cases e with
      | insufficientAllowance a =>
        obtain ⟨_, ⟨sp, hsp, _⟩, _⟩ := hc
        cases hsp.1
      | _ => exact hr
  | transferFrom caller args =>
    simp only [Spec.transferRequest, Option.some.injEq] at hm
    subst hm
    have hr := executeTransfer_rules h.ledger ⟨args.frm, args.to,
      some ⟨caller, args.spenderSubaccount⟩, args.amount, args.fee, args.memo,
      args.createdAtTime.map UInt64.toNat⟩ (opt64_le _)
    simp only at hr
    simp only [Sys.exec, icrc2TransferFrom, opt64]
    generalize executeTransfer y.ledger args.frm args.to
      (some ⟨caller, args.spenderSubaccount⟩)
      args.amount args.fee args.memo (args.createdAtTime.map UInt64.toNat) y.now = res at hr ⊢
    cases res with
    | ok i s' => exact hr
    | trap => exact hr
    | err e s' => exact hr
  | _ => simp [Spec.transferRequest] at hm

/-- **C81**, transfers. -/
theorem C81_transfer [Crypto] {y : Sys} (h : Reachable y) {m : Msg} {r : Spec.TransferReq}
    (hm : Spec.transferRequest m = some r) (hn : Spec.NoClash y.ledger r.transaction) :
    ∃ dup, Spec.Remembers y.ledger y.now r.transaction dup ∧
      Spec.FirstOf (Spec.transferRules y.ledger y.now dup r)
        (Spec.transferVerdict (y.exec m).2) :=
  ⟨_, tableDup_remembers h.inv.ledger hn, exec_transfer_rules h.inv hm⟩

theorem exec_approve_rules [Crypto] {y : Sys} (h : SInv y) {m : Msg} {r : Spec.ApproveReq}
    (hm : Spec.approveRequest m = some r) :
    Spec.FirstOf (Spec.approveRules y.ledger y.now (tableDup y.ledger r.transaction) r)
      (Spec.approveVerdict (y.exec m).2) := by
  cases m with
  | approve caller args =>
    simp only [Spec.approveRequest, Option.some.injEq] at hm
    have hr := icrc2Approve_rules h.ledger caller args
    have hreq : args.req caller = r := by rw [← hm]; rfl
    rw [hreq] at hr
    simp only [Sys.exec]
    generalize icrc2Approve y.ledger caller args y.now = res at hr ⊢
    cases res with
    | ok i s' => exact hr
    | trap => exact hr
    | err e s' => exact hr
  | _ => simp [Spec.approveRequest] at hm

/-- **C81**, approvals. -/
theorem C81_approve [Crypto] {y : Sys} (h : Reachable y) {m : Msg} {r : Spec.ApproveReq}
    (hm : Spec.approveRequest m = some r) (hn : Spec.NoClash y.ledger r.transaction) :
    ∃ dup, Spec.Remembers y.ledger y.now r.transaction dup ∧
      Spec.FirstOf (Spec.approveRules y.ledger y.now dup r)
        (Spec.approveVerdict (y.exec m).2) :=
  ⟨_, tableDup_remembers h.inv.ledger hn, exec_approve_rules h.inv hm⟩

theorem exec_burn_rules [Crypto] {y : Sys} (h : SInv y) {m : Msg} {r : Spec.BurnReq}
    {to : Option Principal} (hm : Spec.burnRequest m = some (r, to)) :
    Spec.FirstOf (Spec.burnRules y.ledger y.now (tableDup y.ledger (r.transaction to)) r to)
      (Spec.burnError (y.exec m).2) := by
  have hstart : Spec.BurnValid y.ledger y.now r → Spec.ReceiverValid r to →
      y.ledger.transactionHashes.get (r.transaction to).hash! = none →
      Spec.burnError (y.exec m).2 = none := by
    intro hv hrv hf
    rcases exec_burn h hm with ⟨s1, p, hs⟩ | ⟨e, he⟩
    · rcases hs.2.2.2.2.2.2 with ⟨_, hx⟩ | ⟨_, ⟨hx, _⟩ | ⟨_, _, _, _, _, _, hx, _⟩⟩
      · rw [hx]; rfl
      · rw [hx]; rfl
      · exact hx
    · exfalso
      obtain ⟨_, _, _, _, _, _, hr, hd⟩ := he
      cases e with
      | insufficientFunds b => have := hv.funds; have := hr.1; have := hr.2; omega
      | insufficientAllowance a =>
        obtain ⟨sp, hsp, h1, h2⟩ := hr
        have := hv.allowance sp hsp
        omega
      | tooOld =>
        obtain ⟨c, hc, h1⟩ := hr
        have := (hv.window c hc).1
        omega
      | createdInFuture t =>
        obtain ⟨_, c, hc, h1⟩ := hr
        have := (hv.window c hc).2
        omega
      | duplicate d c =>
        obtain ⟨_, h1, _⟩ := hd d c rfl
        rw [hf] at h1
        cases h1
      | zeroAmount =>
        cases to with
        | none => exact hr.2 rfl
        | some p => have := hr.1; have := hrv.2; omega
      | invalidReceiver p =>
        obtain ⟨rfl, h1⟩ := hr
        exact hrv.1 h1
  cases m with
  | withdraw caller args sync =>
    simp only [Spec.burnRequest, Option.some.injEq, Prod.mk.injEq] at hm
    obtain ⟨rfl, rfl⟩ := hm
    have hr := executeWithdraw_rules h.ledger ⟨⟨caller, args.fromSubaccount⟩, none, args.amount,
      args.createdAtTime.map UInt64.toNat⟩ args.to (opt64_le _)
    have hc := executeWithdraw_class h.ledger ⟨⟨caller, args.fromSubaccount⟩, none, args.amount,
      args.createdAtTime.map UInt64.toNat⟩ args.to (opt64_le _)
    rw [← burnMemo_some] at hc
    simp only [Sys.exec, opt64] at hr hc hstart ⊢
    generalize executeWithdraw y.ledger ⟨caller, args.fromSubaccount⟩ args.to none args.amount
      (args.createdAtTime.map UInt64.toNat) y.now = res at hr hc hstart ⊢
    cases res with
    | ok p s' => rw [hstart hc.1 ⟨hc.2.1, hc.2.2.1⟩ hc.2.2.2]; exact hr
    | trap => exact absurd hc id
    | err e s' =>
      cases e with
      | insufficientAllowance a =>
        obtain ⟨_, ⟨sp, hsp, _⟩, _⟩ := hc
        cases hsp.1
      | _ => exact hr
  | withdrawFrom caller args sync =>
    simp only [Spec.burnRequest, Option.some.injEq, Prod.mk.injEq] at hm
    obtain ⟨rfl, rfl⟩ := hm
    have hr := executeWithdraw_rules h.ledger ⟨args.frm, some ⟨caller, args.spenderSubaccount⟩,
      args.amount, args.createdAtTime.map UInt64.toNat⟩ args.to (opt64_le _)
    have hc := executeWithdraw_class h.ledger ⟨args.frm, some ⟨caller, args.spenderSubaccount⟩,
      args.amount, args.createdAtTime.map UInt64.toNat⟩ args.to (opt64_le _)
    rw [← burnMemo_some] at hc
    simp only [Sys.exec, opt64] at hr hc hstart ⊢
    generalize executeWithdraw y.ledger args.frm args.to (some ⟨caller, args.spenderSubaccount⟩)
      args.amount (args.createdAtTime.map UInt64.toNat) y.now = res at hr hc hstart ⊢
    cases res with
    | ok p s' => rw [hstart hc.1 ⟨hc.2.1, hc.2.2.1⟩ hc.2.2.2]; exact hr
    | trap => exact absurd hc id
    | err e s' => exact hr
  | createCanister caller args sync =>
    simp only [Spec.burnRequest, Option.some.injEq, Prod.mk.injEq] at hm
    obtain ⟨rfl, rfl⟩ := hm
    have hr := executeCreateCanister_rules h.ledger ⟨⟨caller, args.fromSubaccount⟩, none,
      args.amount, args.createdAtTime.map UInt64.toNat⟩ (opt64_le _)
    have hc := executeCreateCanister_class h.ledger ⟨⟨caller, args.fromSubaccount⟩, none,
      args.amount, args.createdAtTime.map UInt64.toNat⟩ (opt64_le _)
    simp only [Sys.exec, opt64] at hr hc hstart ⊢
    generalize executeCreateCanister y.ledger ⟨caller, args.fromSubaccount⟩ none args.amount
      (args.createdAtTime.map UInt64.toNat) y.now = res at hr hc hstart ⊢
    cases res with
    | ok p s' => rw [hstart hc.1 trivial hc.2]; exact hr
    | trap => exact absurd hc id
    | err e s' =>
      cases e with
      | insufficientAllowance a =>
        obtain ⟨_, ⟨sp, hsp, _⟩, _⟩ := hc
        cases hsp.1
      | _ => exact hr
  | createCanisterFrom caller args sync =>
    simp only [Spec.burnRequest, Option.some.injEq, Prod.mk.injEq] at hm
    obtain ⟨rfl, rfl⟩ := hm
    have hr := executeCreateCanister_rules h.ledger ⟨args.frm,
      some ⟨caller, args.spenderSubaccount⟩, args.amount, args.createdAtTime.map UInt64.toNat⟩
      (opt64_le _)
    have hc := executeCreateCanister_class h.ledger ⟨args.frm,
      some ⟨caller, args.spenderSubaccount⟩, args.amount, args.createdAtTime.map UInt64.toNat⟩
      (opt64_le _)
    simp only [Sys.exec, opt64] at hr hc hstart ⊢
    generalize executeCreateCanister y.ledger args.frm (some ⟨caller, args.spenderSubaccount⟩)
      args.amount (args.createdAtTime.map UInt64.toNat) y.now = res at hr hc hstart ⊢
    cases res with
    | ok p s' => rw [hstart hc.1 trivial hc.2]; exact hr
    | trap => exact absurd hc id
    | err e s' => exact hr
  | _ => simp [Spec.burnRequest] at hm

/-- **C81**, withdrawals and canister creations. -/
theorem C81_burn [Crypto] {y : Sys} (h : Reachable y) {m : Msg} {r : Spec.BurnReq}
    {to : Option Principal} (hm : Spec.burnRequest m = some (r, to))
    (hn : Spec.NoClash y.ledger (r.transaction to)) :
    ∃ dup, Spec.Remembers y.ledger y.now (r.transaction to) dup ∧
      Spec.FirstOf (Spec.burnRules y.ledger y.now dup r to) (Spec.burnError (y.exec m).2) :=
  ⟨_, tableDup_remembers h.inv.ledger hn, exec_burn_rules h.inv hm⟩

/-- **C81**, deposits: there are only two answers. -/
theorem C81_deposit [Crypto] {y : Sys} (h : Reachable y) (c : Principal)
    (cycles : Fin (U128MAX + 1)) (arg : DepositArg) :
    ((y.exec (.deposit c cycles arg)).2 = .trapped ↔
      (cycles.val ≤ 100000000 ∨ ¬Spec.MemoFits arg.memo ∨
        2 ^ 128 ≤ icrc1TotalSupply y.ledger + (cycles.val - 100000000))) ∧
    ((y.exec (.deposit c cycles arg)).2 ≠ .trapped →
      ∃ b, (y.exec (.deposit c cycles arg)).2 = .deposit y.ledger.blocks.length b) := by
  have hU : icrc1TotalSupply y.ledger = y.ledger.cache.totalSupply := rfl
  rw [hU]
  rcases exec_deposit h.inv c cycles arg with ⟨s', hx, _, h1, h2, h3⟩ | ⟨hx, h1⟩
  · rw [hx]
    refine ⟨⟨(fun h => nomatch h), ?_⟩, fun _ => ⟨_, rfl⟩⟩
    rintro (h | h | h)
    · omega
    · exact absurd h2 h
    · omega
  · rw [hx]
    exact ⟨⟨fun _ => h1, fun _ => rfl⟩, fun h => absurd rfl h⟩

/-- **C81**: the rules leave no choice. -/
theorem C81_one_answer (s : State) (now : Nat) (dup : Option Nat) :
    (∀ r v w, Spec.FirstOf (Spec.transferRules s now dup r) v →
      Spec.FirstOf (Spec.transferRules s now dup r) w → v = w) ∧
    (∀ r v w, Spec.FirstOf (Spec.approveRules s now dup r) v →
      Spec.FirstOf (Spec.approveRules s now dup r) w → v = w) ∧
    (∀ r to v w, Spec.FirstOf (Spec.burnRules s now dup r (some to)) v →
      Spec.FirstOf (Spec.burnRules s now dup r (some to)) w → v = w) := by
  have ho : ∀ {α : Type} {p : Prop} {c a b : α}, Spec.onlyIf p c a → Spec.onlyIf p c b → a = b :=
    fun h1 h2 => h1.2.trans h2.2.symm
  have hsp : ∀ {frm sp sp' : Account} {o : Option Account}, Spec.OnBehalf frm o sp →
      Spec.OnBehalf frm o sp' → sp = sp' := by
    intro frm sp sp' o h1 h2
    have := h1.1.symm.trans h2.1
    cases this
    rfl
  refine ⟨fun r v w h1 h2 => h1.unique ?_ h2, fun r v w h1 h2 => h1.unique ?_ h2,
    fun r to v w h1 h2 => h1.unique ?_ h2⟩
  · unfold Spec.transferRules
    simp only [List.forall_mem_cons]
    refine ⟨fun _ _ => ho, fun _ _ => ho, ?_, fun _ _ => ho, fun _ _ => ho, fun _ _ => ho,
      fun _ _ => ho, ?_, fun _ _ => ho, fun _ _ => ho, fun _ _ => ho, fun _ _ => ho, fun _ _ => ho,
      by simp⟩
    · rintro a b ⟨d, rfl, rfl⟩ ⟨d', hd, rfl⟩
      cases hd; rfl
    · rintro a b ⟨sp, h1, _, rfl⟩ ⟨sp', h2, _, rfl⟩
      rw [hsp h1 h2]
  · unfold Spec.approveRules
    simp only [List.forall_mem_cons]
    refine ⟨fun _ _ => ho, fun _ _ => ho, ?_, fun _ _ => ho, fun _ _ => ho, fun _ _ => ho,
      fun _ _ => ho, fun _ _ => ho, fun _ _ => ho, fun _ _ => ho, fun _ _ => ho, fun _ _ => ho,
      by simp⟩
    rintro a b ⟨d, rfl, rfl⟩ ⟨d', hd, rfl⟩
    cases hd; rfl
  · unfold Spec.burnRules
    simp only [List.forall_mem_cons]
    refine ⟨fun _ _ => ho, ?_, fun _ _ => ho, ?_, fun _ _ => ho, ?_, fun _ _ => ho, fun _ _ => ho,
      fun _ _ => ho, by simp⟩
    · rintro a b ⟨p, hp, _, rfl⟩ ⟨p', hp', _, rfl⟩
      cases hp; cases hp'; rfl
    · rintro a b ⟨d, c, rfl, rfl, h1⟩ ⟨d', c', hd, rfl, h2⟩
      cases hd
      rw [h1.mpr (by simp), h2.mpr (by simp)]
    · rintro a b ⟨sp, h1, _, rfl⟩ ⟨sp', h2, _, rfl⟩
      rw [hsp h1 h2]

open Toy in
/-- Requests with several faults get the answer of the first rule. -/
example : Reachable demo ∧
    (∀ r, Spec.transferRequest (.transfer alice ⟨none, ⟨managementCanister, none⟩,
        1000000000000000, some 5, some (List.replicate 33 1), some 0⟩) = some r →
      Spec.NoClash demo.ledger r.transaction) ∧
    (demo.exec (.transfer alice ⟨none, ⟨managementCanister, none⟩,
      1000000000000000, some 5, some (List.replicate 33 1), some 0⟩)).2 =
      .transfer (.error (.genericError 100001)) ∧
    (demo.exec (.transfer alice ⟨none, acc bob,
      1000000000000000, some 5, some (List.replicate 33 1), some 0⟩)).2 =
      .transfer (.error (.badFee 100000000)) ∧
    (demo.exec (.transfer alice ⟨none, acc bob, 10, none, some (List.replicate 33 1), some 0⟩)).2 =
      .trapped ∧
    (demo.exec (.approve alice ⟨none, acc bob, 5, some 1, some 0, some 7, none, none⟩)).2 =
      .approve (.error (.allowanceChanged 399995000)) ∧
    (demo.exec (wdrFrom bob alice 1000000000000000).msg).2 =
      .withdrawFrom (.error (.insufficientAllowance 399995000)) :=
  ⟨demo_reachable, fun r hr => by cases hr; decide +kernel, by decide +kernel, by decide +kernel,
    by decide +kernel, by decide +kernel, by decide +kernel⟩

end CyclesLedger
