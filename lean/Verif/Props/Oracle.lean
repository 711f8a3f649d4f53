import Verif.Model.Oracle
import Verif.Proof.Cases
import Verif.Proof.Pending
import Verif.Proof.Toy
import Verif.Props.Spending
import Verif.Props.Upgrade
import Verif.Props.Install
import Verif.Proof.Dedup
/-!
# C79: the reference ledger of the tests and the ledger agree
-/
namespace CyclesLedger

/-- Events the reference ledger has a meaning for.  Approvals do not expire before `T`; nobody
spends "on behalf" of their own account; outgoing calls succeed. -/
def Spec.InScope (T : Nat) : Msg → Prop
  | .deposit _ _ _ | .transfer _ _ => True
  | .transferFrom caller args => ¬Spec.SameAccount ⟨caller, args.spenderSubaccount⟩ args.frm
  | .approve _ args => args.amount < 2 ^ 128 ∧ ∀ e, args.expiresAt = some e → T < e.toNat
  | .withdraw _ _ sync => sync = none
  | .callback _ ans => ans = .depositCycles none
  | .upgrade _ | .lostCallback _ => True
  | _ => False

/-- A call, and not an upgrade or the end of a call. -/
def Spec.isCall : Msg → Bool
  | .callback _ _ | .lostCallback _ | .upgrade _ => false
  | _ => true

instance (r : Reply) : Decidable (Spec.Accepted r) :=
  decidable_of_iff (r = .suspended ∨ (Spec.okIndex r).isSome = true) (by
    unfold Spec.Accepted; rw [Option.isSome_iff_exists])

/-- The reference ledger executes exactly the calls that the ledger accepts. -/
def Spec.follow [Crypto] (y : Sys) (o : Oracle) : List Event → Option Oracle
  | [] => some o
  | e :: es =>
    if Spec.isCall e.msg ∧ Spec.Accepted (y.step e).2 then
      match o.execute e.msg with
      | some o => Spec.follow (y.step e).1 o es
      | none => none
    else Spec.follow (y.step e).1 o es

/-- What the tests compare (`check_ledger_state`, tests/tests.rs:6030-6052), for all accounts. -/
structure Spec.Agree [Crypto] (o : Oracle) (y : Sys) : Prop where
  supply : o.totalSupply = icrc1TotalSupply y.ledger
  balance : ∀ a : Account, (o.balances a.key).getD 0 = icrc1BalanceOf y.ledger a
  allowance : ∀ a sp : Account,
    (o.allowances (a.key, sp.key)).getD 0 = (icrc2Allowance y.ledger a sp y.now).1

/-- Invariant: as `Spec.Agree`, in terms of the stored tables; nothing expires until `T`. -/
structure Follows (T : Nat) (o : Oracle) (s : State) : Prop where
  supply : o.totalSupply = s.cache.totalSupply
  balance : ∀ a : Account, (o.balances a.key).getD 0 = balanceOf s a
  allowance : ∀ k, (o.allowances k).getD 0 = ((s.approvals.get k).map Prod.fst).getD 0
  expiry : ∀ k x e, s.approvals.get k = some (x, e) → e = 0 ∨ T < e

/-- A transaction that grants no allowance expiring before `T`. -/
def LastsUntil (T : Nat) (t : Transaction) : Prop :=
  ∀ frm sp x ea ex f, t.operation = .approve frm sp x ea ex f → ∀ e, ex = some e → T < e

theorem Effect.allow_exact [Crypto] {now T : Nat} {s s' : State} {t : Transaction}
    (h : Effect now s s' t) (hnow : now ≤ T) (ht : LastsUntil T t)
    (he : ∀ k x e, s.approvals.get k = some (x, e) → e = 0 ∨ T < e) :
    (∀ k, s'.approvals.get k = Spec.allowStep s.approvals.get (mkBlock s t now) k) ∧
    (∀ k x e, s'.approvals.get k = some (x, e) → e = 0 ∨ T < e) := by
  have hs : ∀ k x e, Spec.allowStep s.approvals.get (mkBlock s t now) k = some (x, e) →
      e = 0 ∨ T < e := by
    intro k x e hk
    have spend : ∀ key z, Spec.spend s.approvals.get key z k = some (x, e) → e = 0 ∨ T < e := by
      intro key z hk
      unfold Spec.spend at hk
      split at hk
      · cases hg : s.approvals.get k with
        | none => rw [hg] at hk; cases hk
        | some v =>
          obtain ⟨a, e'⟩ := v
          rw [hg] at hk
          simp only at hk
          split at hk
          · cases hk
          · cases hk; exact he k a e hg
      · exact he k x e hk
    obtain ⟨op, c, m⟩ := t
    cases op with
    | approve frm sp amount ea ex f =>
      simp only [Spec.allowStep, mkBlock] at hk
      split at hk
      · split at hk
        · cases hk
        · cases hk
          cases ex with
          | none => exact Or.inl rfl
          | some e => exact Or.inr (ht _ _ _ _ _ _ rfl e rfl)
      · exact he k x e hk
    | mint to amount f =>
      exact he k x e hk
    | transfer frm to sp amount f =>
      simp only [Spec.allowStep] at hk
      cases hsp : Spec.spends (mkBlock s ⟨.transfer frm to sp amount f, c, m⟩ now) with
      | none => rw [hsp] at hk; exact he k x e hk
      | some v => rw [hsp] at hk; exact spend _ _ hk
    | burn frm sp amount =>
      simp only [Spec.allowStep] at hk
      cases hsp : Spec.spends (mkBlock s ⟨.burn frm sp amount, c, m⟩ now) with
      | none => rw [hsp] at hk; exact he k x e hk
      | some v => rw [hsp] at hk; exact spend _ _ hk
  have hx : ∀ k, s'.approvals.get k = Spec.allowStep s.approvals.get (mkBlock s t now) k := by
    intro k
    rcases h.allow k with h1 | ⟨_, a, e, h2, h3, h4⟩
    · exact h1
    · rcases hs k a e h2 with h5 | h5 <;> omega
  exact ⟨hx, fun k x e hk => hs k x e (by rw [← hx]; exact hk)⟩

theorem getD_pos {o : Option Nat} {n : Nat} (h : o.getD 0 = n) (hn : 0 < n) : o = some n := by
  cases o with
  | none => simp at h; omega
  | some x => simp at h; rw [h]

/-- One accepted block of a transfer, seen by the reference ledger. -/
theorem follow_transfer [Crypto] {T now : Nat} {o : Oracle} {s s' : State} {r : Spec.TransferReq}
    (hi : LInv now s) (hf : Follows T o s) (h : Effect now s s' r.transaction)
    (hv : r.amount + 100000000 ≤ balanceOf s r.frm) :
    ∃ o', o.transfer r.frm r.to r.amount = some o' ∧ o'.totalSupply = s'.cache.totalSupply ∧
      (∀ a : Account, (o'.balances a.key).getD 0 = balanceOf s' a) ∧
      o'.allowances = o.allowances := by
  have hb := getD_pos (hf.balance r.frm) (by omega)
  have hle := hi.balance_le r.frm
  have hbd := hi.bound
  have hto := h.transfer.1 r.to
  have hto' := h.inv.balance_le r.to
  have hbd' := h.inv.bound
  have hsup := h.transfer.2
  have hself : Spec.SameAccount r.to r.to := ⟨rfl, rfl⟩
  rw [if_pos hself] at hto
  have h1 : Oracle.toU128 r.amount = some r.amount := by
    unfold Oracle.toU128; rw [if_pos (by omega)]
  have h2 : checkedSub (balanceOf s r.frm) r.amount = some (balanceOf s r.frm - r.amount) :=
    checkedSub_eq_some.mpr ⟨by omega, rfl⟩
  have h3 : checkedSub (balanceOf s r.frm - r.amount) FEE =
      some (balanceOf s r.frm - r.amount - FEE) :=
    checkedSub_eq_some.mpr ⟨by rw [FEE_eq]; omega, rfl⟩
  have h4 : ((o.setBalance r.frm (balanceOf s r.frm - r.amount - FEE)).balances r.to.key).getD 0 =
      balanceOf s r.to - (if Spec.SameAccount r.to r.frm then r.amount + 100000000 else 0) := by
    simp only [Oracle.setBalance]
    by_cases hk : r.to.key = r.frm.key
    · have hs : Spec.SameAccount r.to r.frm := (sameAccount_iff _ _).mpr hk
      have hbe : balanceOf s r.to = balanceOf s r.frm := by unfold balanceOf; rw [hk]
      rw [if_pos hk, if_pos hs, hbe, Option.getD_some, FEE_eq]
      omega
    · have hs : ¬Spec.SameAccount r.to r.frm := fun h => hk ((sameAccount_iff _ _).mp h)
      rw [if_neg hk, if_neg hs, hf.balance]
      omega
  have h5 : ∃ v, checkedAdd (balanceOf s r.to -
      (if Spec.SameAccount r.to r.frm then r.amount + 100000000 else 0)) r.amount = some v ∧
      v = balanceOf s' r.to := by
    by_cases hs : Spec.SameAccount r.to r.frm
    · have hbe : balanceOf s r.to = balanceOf s r.frm := by
        unfold balanceOf; rw [(sameAccount_iff _ _).mp hs]
      rw [if_pos hs] at hto ⊢
      exact ⟨_, checkedAdd_eq_some.mpr ⟨rfl, by omega⟩, by omega⟩
    · rw [if_neg hs] at hto ⊢
      exact ⟨_, checkedAdd_eq_some.mpr ⟨rfl, by omega⟩, by omega⟩
  obtain ⟨v, h5, hv5⟩ := h5
  have h6 : checkedSub o.totalSupply FEE = some s'.cache.totalSupply :=
    checkedSub_eq_some.mpr ⟨by rw [hf.supply, FEE_eq]; omega, by rw [hf.supply, FEE_eq]; omega⟩
  refine ⟨{ (o.setBalance r.frm (balanceOf s r.frm - r.amount - FEE)).setBalance r.to v with
    totalSupply := s'.cache.totalSupply }, ?_, ?_, ?_, ?_⟩
  · unfold Oracle.transfer
    simp only [hb, h1, h2, h3, h4, h5, Option.bind_eq_bind, Option.bind_some]
    rw [show ((o.setBalance r.frm (balanceOf s r.frm - r.amount - FEE)).setBalance r.to v).totalSupply
      = o.totalSupply from rfl, h6]
    rfl
  · rfl
  · intro a
    have ha := h.transfer.1 a
    simp only [Oracle.setBalance]
    by_cases hk : a.key = r.to.key
    · rw [if_pos hk, Option.getD_some, hv5]
      unfold balanceOf; rw [hk]
    · rw [if_neg hk]
      have hs : ¬Spec.SameAccount a r.to := fun h => hk ((sameAccount_iff _ _).mp h)
      rw [if_neg hs] at ha
      by_cases hk' : a.key = r.frm.key
      · have hs' : Spec.SameAccount a r.frm := (sameAccount_iff _ _).mpr hk'
        have hbe : balanceOf s a = balanceOf s r.frm := by unfold balanceOf; rw [hk']
        rw [if_pos hs'] at ha
        rw [if_pos hk', Option.getD_some, FEE_eq]
        omega
      · have hs' : ¬Spec.SameAccount a r.frm := fun h => hk' ((sameAccount_iff _ _).mp h)
        rw [if_neg hs'] at ha
        rw [if_neg hk', hf.balance]
        omega
  · rfl

theorem spend_fst {f : Spec.AllowFn} {key : ApprovalKey} {z a e : Nat} (hg : f key = some (a, e))
    (hz : z ≤ a) : ((Spec.spend f key z key).map Prod.fst).getD 0 = a - z := by
  unfold Spec.spend
  rw [if_pos rfl, hg]
  by_cases hle : a ≤ z
  · simp only [hle, if_true, Option.map_none, Option.getD_none]; omega
  · simp only [hle, if_false, Option.map_some, Option.getD_some]

theorem spend_other {f : Spec.AllowFn} {k key : ApprovalKey} {z : Nat} (h : k ≠ key) :
    Spec.spend f key z k = f k := by
  unfold Spec.spend; rw [if_neg h]

theorem follows_transferFrom [Crypto] {T : Nat} {o o1 : Oracle} {s s' : State} {now : Nat}
    {t : Transaction} {frm sp : Account} {x : Nat} (hnow : now ≤ T)
    (hf : Follows T o s) (h : Effect now s s' t) (hs : SpendsBy t frm (some sp) x)
    (hne : ¬Spec.SameAccount sp frm) (h1 : o1.totalSupply = s'.cache.totalSupply)
    (h2 : ∀ a : Account, (o1.balances a.key).getD 0 = balanceOf s' a)
    (h3 : o1.allowances = o.allowances) :
    ∃ old, o1.allowances (frm.key, sp.key) = some old ∧ x + 100000000 ≤ old ∧
      Follows T (o1.setAllowance frm sp (old - x - FEE)) s' := by
  have hon : Spec.OnBehalf frm (some sp) sp := ⟨rfl, hne⟩
  obtain ⟨ha, hb⟩ := (hs.spends (s := s) h.op s.approvals.get).1 sp hon
  obtain ⟨a, e, hg, hx, hl⟩ := h.spend _ _ ha
  have hlast : LastsUntil T t := by
    intro f' s1 x' ea ex f ho
    rcases hs with ⟨to, f, h⟩ | h <;> rw [h] at ho <;> cases ho
  obtain ⟨hall, hexp⟩ := h.allow_exact hnow hlast hf.expiry
  have hold : o1.allowances (frm.key, sp.key) = some a := by
    rw [h3]
    have := hf.allowance (frm.key, sp.key)
    rw [hg] at this
    exact getD_pos (by simpa using this) (by omega)
  refine ⟨a, hold, hx, h1, h2, fun k => ?_, hexp⟩
  rw [hall k, hb]
  by_cases hk : k = (frm.key, sp.key)
  · rw [hk, spend_fst hg hx, show (o1.setAllowance frm sp (a - x - FEE)).allowances
      (frm.key, sp.key) = some (a - x - FEE) from if_pos rfl, Option.getD_some, FEE_eq]
    omega
  · rw [spend_other hk, show (o1.setAllowance frm sp (a - x - FEE)).allowances k =
      o1.allowances k from if_neg hk, h3]
    exact hf.allowance k

theorem follows_same [Crypto] {T : Nat} {o o1 : Oracle} {s s' : State} {now : Nat}
    {t : Transaction} (hnow : now ≤ T)
    (hf : Follows T o s) (h : Effect now s s' t)
    (hs : Spec.allowStep s.approvals.get (mkBlock s t now) = s.approvals.get)
    (hlast : LastsUntil T t) (h1 : o1.totalSupply = s'.cache.totalSupply)
    (h2 : ∀ a : Account, (o1.balances a.key).getD 0 = balanceOf s' a)
    (h3 : o1.allowances = o.allowances) : Follows T o1 s' := by
  obtain ⟨hall, hexp⟩ := h.allow_exact hnow hlast hf.expiry
  refine ⟨h1, h2, fun k => ?_, hexp⟩
  rw [hall k, hs, h3]
  exact hf.allowance k

theorem follow_approve [Crypto] {T now : Nat} {o : Oracle} {s s' : State} {caller : Principal}
    {args : ApproveArgs} {c : Option Nat} (hnow : now ≤ T) (hf : Follows T o s)
    (h : Effect now s s' ⟨.approve ⟨caller, args.fromSubaccount⟩ args.spender args.amount
      args.expectedAllowance (args.expiresAt.map UInt64.toNat) args.fee, c, args.memo⟩)
    (hv : FEE ≤ balanceOf s ⟨caller, args.fromSubaccount⟩) (hm : Spec.InScope T (.approve caller args)) :
    ∃ o', o.execute (.approve caller args) = some o' ∧ Follows T o' s' := by
  have hsup := h.approve.2
  have hbal := h.approve.1
  rw [← FEE_eq] at hsup
  have hpos : 0 < FEE := by rw [FEE_eq]; omega
  have hb := getD_pos (hf.balance ⟨caller, args.fromSubaccount⟩) (by omega)
  obtain ⟨hall, hexp⟩ := h.allow_exact hnow (T := T) (by
    intro _ _ _ _ ex _ h e hex
    cases h
    cases hx : args.expiresAt with
    | none => rw [hx] at hex; cases hex
    | some v => rw [hx] at hex; cases hex; exact hm.2 v hx) hf.expiry
  refine ⟨{ (o.setBalance ⟨caller, args.fromSubaccount⟩
      (balanceOf s ⟨caller, args.fromSubaccount⟩ - FEE)).setAllowance
        ⟨caller, args.fromSubaccount⟩ args.spender args.amount with
      totalSupply := s'.cache.totalSupply }, ?_, rfl, ?_, ?_, hexp⟩
  · have h1 : checkedSub (balanceOf s ⟨caller, args.fromSubaccount⟩) FEE =
        some (balanceOf s ⟨caller, args.fromSubaccount⟩ - FEE) := checkedSub_eq_some.mpr ⟨hv, rfl⟩
    have h2 : Oracle.toU128 args.amount = some args.amount := by
      unfold Oracle.toU128
      rw [if_pos (by have := hm.1; rw [U128MAX_eq]; omega)]
    have h3 : checkedSub o.totalSupply FEE = some s'.cache.totalSupply :=
      checkedSub_eq_some.mpr ⟨by rw [hf.supply]; omega, by rw [hf.supply]; omega⟩
    simp only [Oracle.execute, hb, h1, h2, h3, Option.bind_eq_bind, Option.bind_some,
      Oracle.setAllowance, Oracle.setBalance]
  · intro a
    have ha := hbal a
    simp only [Oracle.setAllowance, Oracle.setBalance]
    by_cases hk : a.key = Account.key ⟨caller, args.fromSubaccount⟩
    · have hs := (sameAccount_iff a ⟨caller, args.fromSubaccount⟩).mpr hk
      have hbe : balanceOf s a = balanceOf s ⟨caller, args.fromSubaccount⟩ := by
        unfold balanceOf; rw [hk]
      rw [if_pos hs] at ha
      rw [if_pos hk, Option.getD_some]
      rw [FEE_eq] at hv ⊢
      omega
    · have hs : ¬Spec.SameAccount a ⟨caller, args.fromSubaccount⟩ :=
        fun h => hk ((sameAccount_iff _ _).mp h)
      rw [if_neg hs] at ha
      rw [if_neg hk, hf.balance]
      omega
  · intro k
    rw [hall k]
    by_cases hk : k = (Account.key ⟨caller, args.fromSubaccount⟩, args.spender.key)
    · have hk' : k = (Spec.idOf ⟨caller, args.fromSubaccount⟩, Spec.idOf args.spender) := by
        rw [Spec.idOf_eq, Spec.idOf_eq]; exact hk
      simp only [Oracle.setAllowance, Oracle.setBalance, Spec.allowStep, mkBlock]
      rw [if_pos hk, if_pos hk']
      by_cases h0 : args.amount = 0
      · rw [if_pos h0, h0]; rfl
      · rw [if_neg h0]; rfl
    · have hk' : ¬k = (Spec.idOf ⟨caller, args.fromSubaccount⟩, Spec.idOf args.spender) := by
        rw [Spec.idOf_eq, Spec.idOf_eq]; exact hk
      simp only [Oracle.setAllowance, Oracle.setBalance, Spec.allowStep, mkBlock]
      rw [if_neg hk, if_neg hk']
      exact hf.allowance k

theorem follow_deposit [Crypto] {T now : Nat} {o : Oracle} {s s' : State} {caller : Principal}
    {cycles : Fin (U128MAX + 1)} {arg : DepositArg} {x f : Nat} (hnow : now ≤ T)
    (hf : Follows T o s) (h : Effect now s s' ⟨.mint arg.to x f, none, arg.memo⟩)
    (h1 : checkedSub cycles.val FEE = some x) :
    ∃ o', o.execute (.deposit caller cycles arg) = some o' ∧ Follows T o' s' := by
  have hbal := h.mint.1
  have hsup := h.mint.2.1
  have hb' := h.inv.balance_le arg.to
  have hbd' := h.inv.bound
  have hto := hbal arg.to
  rw [if_pos (show Spec.SameAccount arg.to arg.to from ⟨rfl, rfl⟩)] at hto
  refine ⟨{ o.setBalance arg.to (balanceOf s' arg.to) with totalSupply := s'.cache.totalSupply },
    ?_, follows_same hnow hf h rfl (fun _ _ _ _ _ _ h => nomatch h) rfl ?_ rfl⟩
  · have h2 : checkedAdd (balanceOf s arg.to) x = some (balanceOf s' arg.to) :=
      checkedAdd_eq_some.mpr ⟨hto, by omega⟩
    have h3 : checkedAdd o.totalSupply x = some s'.cache.totalSupply :=
      checkedAdd_eq_some.mpr ⟨by rw [hf.supply]; exact hsup, by rw [hf.supply]; omega⟩
    simp only [Oracle.execute, h1, h2, h3, hf.balance, Option.bind_eq_bind, Option.bind_some,
      Oracle.setBalance]
  · intro a
    have ha := hbal a
    simp only [Oracle.setBalance]
    by_cases hk : a.key = arg.to.key
    · rw [if_pos hk]
      unfold balanceOf; rw [hk]; rfl
    · have hs : ¬Spec.SameAccount a arg.to := fun h => hk ((sameAccount_iff _ _).mp h)
      rw [if_neg hs] at ha
      rw [if_neg hk, hf.balance]
      omega

/-- What a burn of `x` in all does to the reference ledger. -/
theorem burned_balance [Crypto] {o : Oracle} {s s' : State} {frm : Account} {x : Nat}
    (hf : ∀ a : Account, (o.balances a.key).getD 0 = balanceOf s a)
    (hbal : ∀ a : Account, (balanceOf s' a : Int) = balanceOf s a
      - (if Spec.SameAccount a frm then (x : Int) else 0)) (hx : x ≤ balanceOf s frm)
    (a : Account) :
    ((if a.key = frm.key then some (balanceOf s frm - x) else o.balances a.key) :
      Option Nat).getD 0 = balanceOf s' a := by
  have ha := hbal a
  by_cases hk : a.key = frm.key
  · have hs := (sameAccount_iff a frm).mpr hk
    have hbe : balanceOf s a = balanceOf s frm := by unfold balanceOf; rw [hk]
    rw [if_pos hs] at ha
    rw [if_pos hk, Option.getD_some]
    omega
  · have hs : ¬Spec.SameAccount a frm := fun h => hk ((sameAccount_iff _ _).mp h)
    rw [if_neg hs] at ha
    rw [if_neg hk, hf]
    omega

theorem fee_cast {x y f : Nat} (h : f = y) : (x : Int) + (y : Int) = ((x + f : Nat) : Int) := by
  omega

theorem execute_withdraw {o : Oracle} {caller : Principal} {args : WithdrawArgs}
    {sync : Option CallError} {old amount total new supply : Nat}
    (h1 : o.balances (Account.key ⟨caller, args.fromSubaccount⟩) = some old)
    (h2 : Oracle.toU128 args.amount = some amount) (h3 : checkedAdd amount FEE = some total)
    (h4 : checkedSub old total = some new) (h5 : checkedSub o.totalSupply total = some supply) :
    o.execute (.withdraw caller args sync) =
      some { o.setBalance ⟨caller, args.fromSubaccount⟩ new with totalSupply := supply } := by
  have h6 : (o.setBalance ⟨caller, args.fromSubaccount⟩ new).totalSupply = o.totalSupply := rfl
  unfold Oracle.execute
  simp only [h1, h2, h3, h4, h5, h6, Option.bind_eq_bind, Option.bind_some]

theorem follow_withdraw [Crypto] {T now : Nat} {o : Oracle} {s s' : State} {caller : Principal}
    {args : WithdrawArgs} {sync : Option CallError} {r : Spec.BurnReq} {to : Option Principal}
    (hr : r.frm = ⟨caller, args.fromSubaccount⟩) (hsp : r.spender = none)
    (ha : r.amount = args.amount) (hi : LInv now s)
    (hnow : now ≤ T) (hf : Follows T o s)
    (h : Effect now s s' (r.transaction to))
    (hv : r.amount + FEE ≤ balanceOf s r.frm) :
    ∃ o', o.execute (.withdraw caller args sync) = some o' ∧ Follows T o' s' := by
  have hsup := h.burn.2
  rw [← FEE_eq] at hsup
  have hbal := burned_balance hf.balance (x := r.amount + FEE) (fun a => by
    rw [h.burn.1 a, ← fee_cast FEE_eq]; rfl) hv
  have hle := hi.balance_le r.frm
  have hbd := hi.bound
  have hpos : 0 < FEE := by rw [FEE_eq]; omega
  have hb := getD_pos (hf.balance r.frm) (by omega)
  have hs : SpendsBy (r.transaction to) r.frm none r.amount := Or.inr (by
    unfold Spec.BurnReq.transaction; rw [hsp])
  have hsame := ((hs.spends (s := s) h.op s.approvals.get).2 (fun sp h => nomatch h.1)).2
  rw [hr] at hbal hb hv
  rw [ha] at hbal hsup hv
  rw [hr] at hle
  refine ⟨{ o.setBalance ⟨caller, args.fromSubaccount⟩
      (balanceOf s ⟨caller, args.fromSubaccount⟩ - (args.amount + FEE)) with
      totalSupply := s'.cache.totalSupply }, ?_,
    follows_same hnow hf h hsame (fun _ _ _ _ _ _ h => ?_) rfl (fun a => ?_) rfl⟩
  rotate_left
  · unfold Spec.BurnReq.transaction at h; simp only at h; cases h
  · simp only [Oracle.setBalance]; exact hbal a
  generalize hT : args.amount + FEE = total at *
  have h1 : Oracle.toU128 args.amount = some args.amount := by
    unfold Oracle.toU128; rw [if_pos (by omega)]
  have h2 : checkedAdd args.amount FEE = some total :=
    checkedAdd_eq_some.mpr ⟨hT.symm, by omega⟩
  have h3 : checkedSub (balanceOf s ⟨caller, args.fromSubaccount⟩) total =
      some (balanceOf s ⟨caller, args.fromSubaccount⟩ - total) :=
    checkedSub_eq_some.mpr ⟨hv, rfl⟩
  have h4 : checkedSub o.totalSupply total = some s'.cache.totalSupply :=
    checkedSub_eq_some.mpr ⟨by rw [hf.supply]; omega, by rw [hf.supply]; omega⟩
  exact execute_withdraw hb h1 h2 h3 h4

theorem follow_transferFrom [Crypto] {T now : Nat} {o : Oracle} {s s' : State} {caller : Principal}
    {args : TransferFromArgs} {c : Option Nat} (hi : LInv now s) (hnow : now ≤ T)
    (hf : Follows T o s)
    (h : Effect now s s' (Spec.TransferReq.transaction ⟨args.frm, args.to,
      some ⟨caller, args.spenderSubaccount⟩, args.amount, args.fee, args.memo, c⟩))
    (hv : args.amount + 100000000 ≤ balanceOf s args.frm)
    (hm : Spec.InScope T (.transferFrom caller args)) :
    ∃ o', o.execute (.transferFrom caller args) = some o' ∧ Follows T o' s' := by
  obtain ⟨o1, h1, h2, h3, h4⟩ := follow_transfer hi hf h hv
  obtain ⟨old, h5, h6, h7⟩ := follows_transferFrom hnow hf h (Or.inl ⟨_, _, rfl⟩) hm h2 h3 h4
  rw [← FEE_eq] at h6 hv
  have hb := hi.balance_le args.frm
  have hbd := hi.bound
  simp only at h1 h5 h6 h7
  have h8 : Oracle.toU128 args.amount = some args.amount := by
    unfold Oracle.toU128; rw [if_pos (by omega)]
  have h9 : checkedSub old args.amount = some (old - args.amount) :=
    checkedSub_eq_some.mpr ⟨by omega, rfl⟩
  have h10 : checkedSub (old - args.amount) FEE = some (old - args.amount - FEE) :=
    checkedSub_eq_some.mpr ⟨by omega, rfl⟩
  refine ⟨_, ?_, h7⟩
  simp only [Oracle.execute, h1, h5, h8, h9, h10, Option.bind_eq_bind, Option.bind_some]

/-- The reference ledger takes the step the ledger took. -/
def TookStep [Crypto] (T : Nat) (o : Oracle) (y : Sys) (m : Msg) : Prop :=
  (Spec.isCall m = true ∧ Spec.Accepted (y.exec m).2 ∧
    ∃ o', o.execute m = some o' ∧ Follows T o' (y.exec m).1.ledger) ∨
  (¬(Spec.isCall m = true ∧ Spec.Accepted (y.exec m).2) ∧ Follows T o (y.exec m).1.ledger)

theorem follows_transfer_msg [Crypto] {T : Nat} {o : Oracle} {y : Sys} (hi : SInv y)
    (hf : Follows T o y.ledger) {m : Msg} {r : Spec.TransferReq}
    (hr : Spec.transferRequest m = some r) (hc : Spec.isCall m = true)
    (hstep : ∀ s', Effect y.now y.ledger s' r.transaction →
      r.amount + 100000000 ≤ balanceOf y.ledger r.frm →
      ∃ o', o.execute m = some o' ∧ Follows T o' s') : TookStep T o y m := by
  rcases exec_transfer hi hr with ⟨s', h1, h2, _, _, he, hv, _⟩ | ⟨e, h1, h2, h3, _⟩ | ⟨h1, _⟩
  · refine Or.inl ⟨hc, Or.inr ⟨_, h2⟩, ?_⟩
    rw [h1]
    exact hstep s' he hv.funds
  · refine Or.inr ⟨?_, by rw [h1]; exact hf⟩
    rintro ⟨_, h | ⟨i, h⟩⟩
    · rw [h] at h3; cases h3
    · rw [h2] at h; cases h
  · refine Or.inr ⟨?_, by rw [h1]; exact hf⟩
    rw [h1]
    rintro ⟨_, h | ⟨i, h⟩⟩ <;> cases h

theorem follows_approve_msg [Crypto] {T : Nat} {o : Oracle} {y : Sys} (hi : SInv y)
    (hT : y.now ≤ T) (hf : Follows T o y.ledger) {caller : Principal} {args : ApproveArgs}
    (hm : Spec.InScope T (.approve caller args)) : TookStep T o y (.approve caller args) := by
  rcases exec_approve hi (m := .approve caller args) rfl with
    ⟨s', h1, h2, _, _, he, hv, _⟩ | ⟨e, h1, h2, h3, _⟩ | ⟨h1, _⟩
  · refine Or.inl ⟨rfl, Or.inr ⟨_, h2⟩, ?_⟩
    rw [h1]
    have hfunds := hv.funds
    rw [← FEE_eq] at hfunds
    have hamt : min args.amount (2 ^ 128 - 1) = args.amount := by have := hm.1; omega
    unfold Spec.ApproveReq.transaction at he
    simp only [hamt] at he
    exact follow_approve hT hf he hfunds hm
  · refine Or.inr ⟨?_, by rw [h1]; exact hf⟩
    rintro ⟨_, h | ⟨i, h⟩⟩
    · rw [h] at h3; cases h3
    · rw [h2] at h; cases h
  · refine Or.inr ⟨?_, by rw [h1]; exact hf⟩
    rw [h1]
    rintro ⟨_, h | ⟨i, h⟩⟩ <;> cases h

theorem follows_deposit_msg [Crypto] {T : Nat} {o : Oracle} {y : Sys} (hi : SInv y)
    (hT : y.now ≤ T) (hf : Follows T o y.ledger) (caller : Principal)
    (cycles : Fin (U128MAX + 1)) (arg : DepositArg) :
    TookStep T o y (.deposit caller cycles arg) := by
  rcases exec_deposit hi caller cycles arg with ⟨s', h1, he, h2, _, _⟩ | ⟨h1, _⟩
  · refine Or.inl ⟨rfl, by rw [h1]; exact Or.inr ⟨_, rfl⟩, ?_⟩
    rw [h1]
    refine follow_deposit hT hf he (checkedSub_eq_some.mpr ⟨?_, ?_⟩)
    · rw [FEE_eq]; omega
    · rw [FEE_eq]
  · refine Or.inr ⟨?_, by rw [h1]; exact hf⟩
    rw [h1]
    rintro ⟨_, h | ⟨i, h⟩⟩ <;> cases h

theorem follows_withdraw_msg [Crypto] {T : Nat} {o : Oracle} {y : Sys} (hi : SInv y)
    (hT : y.now ≤ T) (hf : Follows T o y.ledger) (caller : Principal) (args : WithdrawArgs) :
    TookStep T o y (.withdraw caller args none) := by
  rcases exec_burn hi (m := .withdraw caller args none) rfl with ⟨s', p, hs⟩ | ⟨e, he⟩
  · obtain ⟨he, hv, _, _, _, _, hx⟩ := hs
    rcases hx with ⟨_, hx⟩ | ⟨hx, _⟩
    · have hfunds := hv.funds
      rw [← FEE_eq] at hfunds
      unfold TookStep
      rw [hx]
      exact Or.inl ⟨rfl, Or.inl rfl, follow_withdraw rfl rfl rfl hi.ledger hT hf he hfunds⟩
    · exact absurd rfl hx
  · refine Or.inr ⟨?_, by rw [he.1]; exact hf⟩
    rintro ⟨_, h | ⟨i, h⟩⟩
    · exact he.2.2.2.2.1 h
    · rw [he.2.1] at h; cases h

/-- One message. -/
theorem follows_exec [Crypto] {T : Nat} {o : Oracle} {y : Sys} (hy : Reachable y)
    (hT : y.now ≤ T) (hf : Follows T o y.ledger) {m : Msg} (hm : Spec.InScope T m) :
    TookStep T o y m := by
  have hi := hy.inv
  have hl := hi.ledger
  cases m with
  | transfer caller args =>
    refine follows_transfer_msg hi hf rfl rfl (fun s' he hv => ?_)
    obtain ⟨o', h1, h2, h3, h4⟩ := follow_transfer hl hf he hv
    have hs : SpendsBy (Spec.TransferReq.transaction ⟨⟨caller, args.fromSubaccount⟩, args.to, none,
        args.amount, args.fee, args.memo, args.createdAtTime.map UInt64.toNat⟩)
        ⟨caller, args.fromSubaccount⟩ none args.amount := Or.inl ⟨_, _, rfl⟩
    exact ⟨o', h1, follows_same hT hf he ((hs.spends he.op _).2 (fun sp h => nomatch h.1)).2
      (fun _ _ _ _ _ _ h => nomatch h) h2 h3 h4⟩
  | transferFrom caller args =>
    exact follows_transfer_msg hi hf rfl rfl (fun s' he hv => follow_transferFrom hl hT hf he hv hm)
  | approve caller args => exact follows_approve_msg hi hT hf hm
  | deposit caller cycles arg => exact follows_deposit_msg hi hT hf caller cycles arg
  | withdraw caller args sync =>
    have hsync : sync = none := hm
    subst hsync
    exact follows_withdraw_msg hi hT hf caller args
  | callback i ans =>
    have hans : ans = .depositCycles none := hm
    subst hans
    refine Or.inr ⟨(fun h => nomatch h.1), ?_⟩
    rcases exec_callback_cases hi i (.depositCycles none) with
      ⟨h, _⟩ | ⟨p, _, _, (⟨_, h, _⟩ | ⟨b, h, _⟩)⟩
    · rw [h]; exact hf
    · rw [h]; exact hf
    · cases h
  | lostCallback i =>
    exact Or.inr ⟨(fun h => nomatch h.1), hf⟩
  | upgrade arg =>
    refine Or.inr ⟨(fun h => nomatch h.1), ?_⟩
    obtain ⟨c, hc⟩ := exec_upgrade_cfg hy arg
    rw [hc]
    exact ⟨hf.supply, hf.balance, hf.allowance, hf.expiry⟩
  | withdrawFrom => exact absurd hm id
  | createCanister => exact absurd hm id
  | createCanisterFrom => exact absurd hm id

theorem run_now_mono [Crypto] : ∀ (es : List Event) {y : Sys}, Reachable y → y.now ≤ (y.run es).now
  | [], _, _ => Nat.le_refl _
  | e :: es, y, h => by
    have h1 : y.now ≤ (y.step e).1.now := (step_grows h.inv e).1
    exact Nat.le_trans h1 (run_now_mono es ((h.tick e.dt).exec e.msg))

theorem follows_run [Crypto] {T : Nat} : ∀ (es : List Event) {y : Sys} {o : Oracle}, Reachable y →
    Follows T o y.ledger → (∀ e ∈ es, Spec.InScope T e.msg) → (y.run es).now ≤ T →
    ∃ o', Spec.follow y o es = some o' ∧ Follows T o' (y.run es).ledger
  | [], _, o, _, hf, _, _ => ⟨o, rfl, hf⟩
  | e :: es, y, o, hy, hf, hs, hT => by
    have hr : Reachable (y.step e).1 := (hy.tick e.dt).exec e.msg
    have hn : (y.tick e.dt).now ≤ T := by
      have h1 := run_now_mono es hr
      have h2 : (y.step e).1.now = (y.tick e.dt).now := (exec_moved (hy.tick e.dt).inv e.msg).now
      have h3 : (y.run (e :: es)).now = ((y.step e).1.run es).now := rfl
      omega
    rcases follows_exec (hy.tick e.dt) hn (o := o) hf (hs e List.mem_cons_self) with
      ⟨h1, h2, o', h3, h4⟩ | ⟨h1, h2⟩
    · obtain ⟨o'', h5, h6⟩ := follows_run es hr h4 (fun x hx => hs x (List.mem_cons_of_mem _ hx)) hT
      refine ⟨o'', ?_, h6⟩
      unfold Spec.follow
      rw [if_pos (show _ ∧ Spec.Accepted (y.step e).2 from ⟨h1, h2⟩), h3]
      exact h5
    · obtain ⟨o'', h5, h6⟩ := follows_run es hr h2 (fun x hx => hs x (List.mem_cons_of_mem _ hx)) hT
      refine ⟨o'', ?_, h6⟩
      unfold Spec.follow
      rw [if_neg (show ¬(_ ∧ Spec.Accepted (y.step e).2) from h1)]
      exact h5

theorem Follows.agree [Crypto] {T : Nat} {o : Oracle} {y : Sys} (hf : Follows T o y.ledger)
    (hT : y.now ≤ T) : Spec.Agree o y := by
  refine ⟨hf.supply, hf.balance, fun a sp => ?_⟩
  rw [hf.allowance, (C56_reported_exactly a sp y.now).1]
  unfold Spec.stored
  cases hg : y.ledger.approvals.get (a.key, sp.key) with
  | none => rfl
  | some v =>
    obtain ⟨x, e⟩ := v
    rcases hf.expiry _ _ _ hg with h | h
    · simp [h]
    · have h0 : ¬e = 0 := by omega
      have h1 : y.now ≤ e := by omega
      simp [h0, h1]

theorem follows_start [Crypto] {config : Config} {now cycles : Nat} {y : Sys} {o : Oracle}
    (h : Sys.init config now cycles = some y) (ho : Spec.Agree o y) (T : Nat) :
    Follows T o y.ledger := by
  have hn : ∀ k, y.ledger.approvals.get k = none := by
    have hi := LInv.empty (now := min now U64MAX) (Nat.min_le_right _ _)
    unfold Sys.init initLedger at h
    rw [Option.map_eq_some_iff] at h
    obtain ⟨s, h1, rfl⟩ := h
    split at h1
    · cases h1
    · rename_i s0 hm
      simp only [Option.some.injEq] at h1
      subst h1
      intro k
      exact ((mintInitial_spec hi hm).2.2.2 k).trans (SMap.get_empty _)
  refine ⟨ho.supply, ho.balance, fun k => ?_, fun k x e hk => ?_⟩
  · have hk := ho.allowance ⟨k.1.1, some k.1.2⟩ ⟨k.2.1, some k.2.2⟩
    have he : (Account.key ⟨k.1.1, some k.1.2⟩, Account.key ⟨k.2.1, some k.2.2⟩) = k := rfl
    rw [(C56_reported_exactly _ _ y.now).1] at hk
    unfold Spec.stored at hk
    rw [he, hn] at hk
    rw [hn]
    exact hk
  · rw [hn] at hk; cases hk

/-- **C79**: let the reference ledger of the tests agree with a newly installed ledger.  After any
history in its scope, in which no granted allowance expires, it has executed every call that the
ledger accepted without an error or a panic, and agrees with the ledger on the total supply, on
the balance of every account and on every allowance. -/
theorem C79_agree [Crypto] {config : Config} {now cycles T : Nat} {y : Sys} {o : Oracle}
    (h : Sys.init config now cycles = some y) (ho : Spec.Agree o y) {es : List Event}
    (hs : ∀ e ∈ es, Spec.InScope T e.msg) (hT : (y.run es).now ≤ T) :
    ∃ o', Spec.follow y o es = some o' ∧ Spec.Agree o' (y.run es) := by
  have hr : Reachable y := ⟨config, now, cycles, y, [], h, rfl⟩
  obtain ⟨o', h1, h2⟩ := follows_run es hr (follows_start h ho T) hs hT
  exact ⟨o', h1, h2.agree hT⟩

/-- **C79**: as the tests use it: no initial balances, and the empty reference ledger. -/
theorem C79_from_empty [Crypto] {config : Config} {now cycles T : Nat} {y : Sys}
    (h : Sys.init config now cycles = some y) (h0 : config.initialBalances.getD [] = [])
    {es : List Event} (hs : ∀ e ∈ es, Spec.InScope T e.msg) (hT : (y.run es).now ≤ T) :
    ∃ o', Spec.follow y Oracle.empty es = some o' ∧ Spec.Agree o' (y.run es) := by
  obtain ⟨_, h2, h3, _⟩ := C69_installed h
  refine C79_agree h ⟨?_, fun a => ?_, fun a sp => ?_⟩ hs hT
  · rw [h3, h0]; rfl
  · rw [h2, h0]; rfl
  · have hi := LInv.empty (now := min now U64MAX) (Nat.min_le_right _ _)
    unfold Sys.init initLedger at h
    rw [Option.map_eq_some_iff] at h
    obtain ⟨s, h1, rfl⟩ := h
    rw [h0] at h1
    simp only [mintInitial, Option.some.injEq] at h1
    subst h1
    rfl

open Toy in
/-- A history with all kinds of events in scope, one transfer of which is refused; and what the
reference ledger says at its end. -/
example :
    let es : List Event :=
      [ dep alice 1000000000000, xfer alice bob 200000000, appr alice bob 900000000 (some 5000000000),
        xferFrom bob alice carol 5000, xfer carol bob 5000, wdr alice 300000000,
        ⟨1, .callback 0 (.depositCycles none)⟩, ⟨1, .upgrade .none⟩ ]
    (start.run es).now ≤ 2000000000 ∧ (start.run es).ledger.blocks.length = 5 ∧
    ((Spec.follow start Oracle.empty es).map (fun o =>
      (o.totalSupply, (o.balances (acc alice).key).getD 0, (o.balances (acc bob).key).getD 0,
        (o.allowances ((acc alice).key, (acc bob).key)).getD 0))) =
      some (999200000000, 998999995000, 200000000, 799995000) := by
  decide +kernel

open Toy in
/-- Out of scope, the two differ: an allowance expires in the ledger only; the owner of an account
needs no allowance in the ledger; and a failed call is refunded in the ledger only. -/
example :
    (let es := [ dep alice 1000000000000, appr alice bob 900000000 (some 1000000010),
        (⟨1000, .upgrade .none⟩ : Event)]
     ((Spec.follow start Oracle.empty es).map
        (fun o => (o.allowances ((acc alice).key, (acc bob).key)).getD 0),
      (icrc2Allowance (start.run es).ledger (acc alice) (acc bob) (start.run es).now).1) =
       (some 900000000, 0)) ∧
    (let es := [ dep alice 1000000000000, xferFrom alice alice bob 5000 ]
     (Spec.follow start Oracle.empty es).isNone = true ∧
       icrc1BalanceOf (start.run es).ledger (acc bob) = 5000) ∧
    (let es := [ dep alice 1000000000000, wdr alice 300000000,
        (⟨1, .callback 0 (.depositCycles (some (.rejected (some .canisterReject))))⟩ : Event) ]
     (Spec.follow start Oracle.empty es).map (fun o => o.totalSupply) = some 999500000000 ∧
       icrc1TotalSupply (start.run es).ledger = 999700000000) := by
  decide +kernel

open Toy in
/-- The converse fails: the reference ledger also executes calls that the ledger refuses, a deposit
of exactly the fee and a withdrawal of nothing. -/
example :
    (Oracle.empty.execute (dep alice 100000000).msg).isSome = true ∧
    (start.step (dep alice 100000000)).2 = .trapped ∧
    ((Oracle.empty.execute (dep alice 1000000000).msg).bind
      (fun o => o.execute (wdr alice 0).msg)).isSome = true ∧
    ¬Spec.Accepted ((start.run [dep alice 1000000000]).step (wdr alice 0)).2 := by
  decide +kernel

end CyclesLedger
