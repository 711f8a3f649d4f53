import Verif.Props.Acceptance
import Verif.Props.Spending
import Verif.Props.Dedup
import Verif.Props.Requests
/-!
# Strangers cannot spoil a request

C73.
-/
namespace CyclesLedger

/-- The principals in `S` have nothing to do with account `a`: none of them owns it, none can
spend from it, none has a burn from it under way. -/
structure Spec.Strangers (S : Principal → Prop) (a : Account) (y : Sys) : Prop where
  owner : ¬S a.owner
  allowances : ∀ sp : Account, S sp.owner → Spec.spendable y.ledger a sp y.now = 0
  calls : ∀ q ∈ y.pending, Spec.SameAccount q.data.frm a → ∀ sp, q.data.spender = some sp →
    ¬S sp.owner

/-- All requests in the history are sent by principals in `S`. -/
def Spec.AllBy (S : Principal → Prop) (es : List Event) : Prop :=
  ∀ e ∈ es, ∀ p, Spec.sender e.msg = some p → S p

theorem Spec.live_mono {t t' : Nat} (h : t ≤ t') (v : Option (Nat × Nat)) :
    Spec.live t' v ≤ Spec.live t v := by
  cases v with
  | none => exact Nat.le_refl _
  | some v =>
    obtain ⟨a, e⟩ := v
    simp only [Spec.live]
    split <;> split <;> omega

theorem live_spend (f : Spec.AllowFn) (key k : ApprovalKey) (x t : Nat) :
    Spec.live t (Spec.spend f key x k) ≤ Spec.live t (f k) := by
  unfold Spec.spend
  split
  · cases f k with
    | none => exact Nat.le_refl _
    | some v =>
      obtain ⟨a, e⟩ := v
      simp only
      split
      · exact Nat.zero_le _
      · simp only [Spec.live]
        split <;> omega
  · exact Nat.le_refl _

/-- Only an approval can raise what can be spent. -/
theorem live_allowStep (f : Spec.AllowFn) (b : Block) (k : ApprovalKey) (t : Nat)
    (hb : ∀ frm sp x ea e fee, b.transaction.operation = .approve frm sp x ea e fee →
      k ≠ (Spec.idOf frm, Spec.idOf sp)) :
    Spec.live t (Spec.allowStep f b k) ≤ Spec.live t (f k) := by
  have other : Spec.live t ((match Spec.spends b with
      | some (key, x) => Spec.spend f key x
      | none => f) k) ≤ Spec.live t (f k) := by
    cases Spec.spends b with
    | none => exact Nat.le_refl _
    | some v => exact live_spend _ _ _ _ _
  unfold Spec.allowStep
  cases hop : b.transaction.operation with
  | approve frm sp x ea e fee =>
    simp only
    rw [if_neg (hb _ _ _ _ _ _ hop)]
    exact Nat.le_refl _
  | mint => exact other
  | transfer => exact other
  | burn => exact other

theorem live_allowances (k : ApprovalKey) (t : Nat) (new : List Block) : ∀ (bs : List Block),
    (∀ b ∈ new, ∀ frm sp x ea e fee, b.transaction.operation = .approve frm sp x ea e fee →
      k ≠ (Spec.idOf frm, Spec.idOf sp)) →
    Spec.live t (Spec.allowances (bs ++ new) k) ≤ Spec.live t (Spec.allowances bs k) := by
  induction new with
  | nil => intro bs _; rw [List.append_nil]; exact Nat.le_refl _
  | cons b new ih =>
    intro bs hb
    have h1 := ih (bs ++ [b]) (fun c hc => hb c (List.mem_cons_of_mem _ hc))
    rw [List.append_assoc, List.singleton_append] at h1
    refine Nat.le_trans h1 ?_
    rw [Spec.allowances_snoc]
    exact live_allowStep _ _ _ _ (hb b List.mem_cons_self)

theorem Spec.Strangers.tick [Crypto] {S : Principal → Prop} {a : Account} {y : Sys}
    (h : Spec.Strangers S a y) (dt : Nat) (hc : y.now ≤ U64MAX) : Spec.Strangers S a (y.tick dt) where
  owner := h.owner
  allowances := by
    intro sp hs
    have h1 := h.allowances sp hs
    have h2 : y.now ≤ (y.tick dt).now := by simp only [Sys.tick]; omega
    have h3 := Spec.live_mono h2 (Spec.stored y.ledger a sp)
    unfold Spec.spendable at h1 ⊢
    exact Nat.le_zero.mp (h1 ▸ h3)
  calls := h.calls

/-- A burn by a stranger, on behalf of the account, is refused. -/
theorem stranger_burn [Crypto] {S : Principal → Prop} {a : Account} {y : Sys} (hr : Reachable y)
    (h : Spec.Strangers S a y) {m : Msg} {r : Spec.BurnReq} {to : Option Principal}
    (hm : Spec.burnRequest m = some (r, to)) (hs : ∀ p, Spec.sender m = some p → S p)
    (hf : Spec.SameAccount r.frm a) : (y.exec m).1 = y := by
  rcases exec_burn hr.inv hm with ⟨s1, p, _, hv, _⟩ | ⟨e, he⟩
  · exfalso
    have hown : ∃ p, Spec.sender m = some p ∧ ((r.spender = none ∧ r.frm.owner = p) ∨
        ∃ sp, r.spender = some sp ∧ sp.owner = p) := by
      cases m <;> cases hm <;> first
        | exact ⟨_, rfl, Or.inl ⟨rfl, rfl⟩⟩ | exact ⟨_, rfl, Or.inr ⟨_, rfl, rfl⟩⟩
    obtain ⟨p, hp, ⟨_, h1⟩ | ⟨sp, h1, h2⟩⟩ := hown
    · exact h.owner (by rw [← hf.1, h1]; exact hs p hp)
    · have hS : S sp.owner := by rw [h2]; exact hs p hp
      have h3 := hv.allowance sp ⟨h1, fun hc => h.owner (by rw [← hf.1, ← hc.1]; exact hS)⟩
      have h4 := h.allowances sp hS
      have hk : Spec.stored y.ledger r.frm sp = Spec.stored y.ledger a sp := by
        unfold Spec.stored
        rw [(sameAccount_iff _ _).mp hf]
      unfold Spec.spendable at h3 h4
      rw [hk, h4] at h3
      omega
  · exact he.1

theorem Spec.Strangers.exec [Crypto] {S : Principal → Prop} {a : Account} {y : Sys}
    (hr : Reachable y) (h : Spec.Strangers S a y) (m : Msg) (hs : ∀ p, Spec.sender m = some p → S p) :
    Spec.Strangers S a (y.exec m).1 ∧
      icrc1BalanceOf y.ledger a ≤ icrc1BalanceOf (y.exec m).1.ledger a := by
  refine ⟨⟨h.owner, ?_, ?_⟩, ?_⟩
  · intro sp hS
    have hnow : (y.exec m).1.now = y.now := (exec_moved hr.inv m).1
    rw [hnow]
    have h1 := C16_allowances_replay (hr.exec m) a sp y.now (by rw [hnow]; exact Nat.le_refl _)
    have h2 := C16_allowances_replay hr a sp y.now (Nat.le_refl _)
    rw [h.allowances sp hS] at h2
    obtain ⟨new, h3, h4⟩ := C57_authorised hr m
    rw [h3] at h1
    by_cases hstay : (y.exec m).1 = y
    · rw [hstay]; exact h.allowances sp hS
    · have h5 := live_allowances (Spec.idOf a, Spec.idOf sp) y.now new y.ledger.blocks (by
        intro b hb frm sp' x ea e fee hop hk
        have h6 := (h4 b hb).2
        unfold Spec.Authorised at h6
        rw [hop] at h6
        simp only [Prod.mk.injEq, Spec.idOf_eq] at hk
        have hk1 := (sameAccount_iff _ _).mpr hk.1
        have hk2 := (sameAccount_iff _ _).mpr hk.2
        rcases h6 with h6 | ⟨kind, p, back, hf, hp1, hp2⟩
        · exact h.owner (hk1.1 ▸ hs _ h6)
        · rcases hf with ⟨i, ans, q, rfl, hq, rfl, rfl, _⟩ | ⟨r, to, old, hb', _, _, rfl, _⟩
          · refine h.calls q (List.mem_of_getElem? hq) ?_ sp' hp2 (hk2.1 ▸ hS)
            rw [hp1]; exact ⟨hk1.1.symm, hk1.2.symm⟩
          · refine hstay (stranger_burn hr h hb' hs ?_)
            simp only at hp1
            rw [hp1]; exact ⟨hk1.1.symm, hk1.2.symm⟩)
      rw [← h1, ← h2] at h5
      exact Nat.le_zero.mp h5
  · intro q hq hf sp hsp
    rcases exec_pending hr.inv m hq with h1 | ⟨r, to, s1, p, hm, hst, rfl⟩
    · exact h.calls q h1 hf sp hsp
    · obtain ⟨_, _, _, _, ⟨old, hp, _⟩, _⟩ := hst
      have hf' : Spec.SameAccount r.frm a := by simp only [hp] at hf; exact hf
      have := stranger_burn hr h hm hs hf'
      rw [this] at hq
      exact h.calls _ hq hf sp hsp
  · cases hsend : Spec.sender m with
    | none => exact C15_callbacks_lower_nothing hr (reply := (y.exec m).2) hsend rfl a
    | some p =>
      refine Nat.le_of_not_lt fun hlow => ?_
      have hS := hs p hsend
      obtain ⟨sp, h1, _, h3⟩ := C15_only_by_allowance hr (reply := (y.exec m).2) hsend rfl a
        (fun hc => h.owner (hc ▸ hS)) hlow
      rw [h.allowances sp (h1 ▸ hS)] at h3
      exact Nat.not_le_of_lt (Nat.sub_pos_of_lt hlow) h3

/-- **C73**: strangers to an account remain strangers, and never lower its balance, whatever they
do and whatever answers arrive. -/
theorem C73_balance_safe [Crypto] {S : Principal → Prop} {a : Account} : ∀ (es : List Event)
    {y : Sys}, Reachable y → Spec.Strangers S a y → Spec.AllBy S es →
    Spec.Strangers S a (y.run es) ∧
      icrc1BalanceOf y.ledger a ≤ icrc1BalanceOf (y.run es).ledger a
  | [], _, _, h, _ => ⟨h, Nat.le_refl _⟩
  | e :: es, y, hr, h, hs => by
    have h1 := (h.tick e.dt hr.inv.ledger.clock).exec (hr.tick e.dt) e.msg (hs e List.mem_cons_self)
    have h2 := C73_balance_safe es (hr.step e) h1.1 (fun e' he => hs e' (List.mem_cons_of_mem _ he))
    exact ⟨h2.1, Nat.le_trans h1.2 h2.2⟩

/-- Nothing strangers do is recorded as transaction `t`, if that needs a request by the owner. -/
theorem strangers_log [Crypto] {S : Principal → Prop} {a : Account} (ha : ¬S a.owner)
    {t : Transaction} (ht : ∀ y m b, Spec.Records y m b → b.transaction = t →
      Spec.sender m = some a.owner) : ∀ (es : List Event) {y : Sys}, Reachable y → Spec.AllBy S es →
    ∀ b ∈ (y.run es).ledger.blocks, b.transaction = t → b ∈ y.ledger.blocks
  | [], _, _, _, _, hb, _ => hb
  | e :: es, y, hr, hs, b, hb, hbt => by
    have h1 := strangers_log ha ht es (hr.step e) (fun e' he => hs e' (List.mem_cons_of_mem _ he)) b hb hbt
    obtain ⟨new, h2, h3⟩ := exec_blocks (hr.tick e.dt).inv e.msg
    change b ∈ ((y.tick e.dt).exec e.msg).1.ledger.blocks at h1
    rw [h2] at h1
    rcases List.mem_append.mp h1 with h4 | h4
    · exact h4
    · exact absurd (hs e List.mem_cons_self _ (ht _ _ _ (h3 b h4).2 hbt)) ha

theorem noClash_earlier [Crypto] {y : Sys} (hr : Reachable y) {es : List Event} {t : Transaction}
    (hn : Spec.NoClash (y.run es).ledger t) : Spec.NoClash y.ledger t := by
  intro hc
  refine hn (hc.mono ?_)
  intro t' ht'
  rcases List.mem_cons.mp ht' with rfl | ht'
  · exact List.mem_cons_self
  · obtain ⟨b, hb, rfl⟩ := List.mem_map.mp ht'
    exact List.mem_cons_of_mem _ (List.mem_map_of_mem ((run_grows hr.inv es).2.subset hb))

theorem strangers_no_duplicate [Crypto] {S : Principal → Prop} {a : Account} {y : Sys}
    (hr : Reachable y) (h : Spec.Strangers S a y) {es : List Event} (hs : Spec.AllBy S es)
    {t : Transaction} (ht : ∀ y m b, Spec.Records y m b → b.transaction = t → t.createdAtTime.isSome →
      Spec.sender m = some a.owner) (hd : ¬Spec.IsDuplicate y.ledger t) :
    ¬Spec.IsDuplicate (y.run es).ledger t := by
  rintro ⟨hc, b, hb, hbt⟩
  exact hd ⟨hc, b, strangers_log h.owner (fun y m b h1 h2 => ht y m b h1 h2 hc) es hr hs b hb hbt, hbt⟩

theorem request_owner {m : Msg} {t : Transaction} (h : Spec.requestTransaction m = some t) :
    match t.operation with
    | .transfer frm _ none _ _ | .burn frm none _ | .approve frm _ _ _ _ _ =>
      Spec.sender m = some frm.owner
    | _ => True := by
  cases m <;> first | cases h; done | (injection h with h; subst h; first | rfl | trivial)

/-- A block that records a request, or is stamped by one, comes from a request. -/
theorem Spec.Records.stamped {y : Sys} {m : Msg} {b : Block} {t : Transaction}
    (h : Spec.Records y m b) (hbt : b.transaction = t) (hc : t.createdAtTime.isSome) :
    Spec.requestTransaction m = some t := by
  cases h with
  | request h1 _ => rw [h1, hbt]
  | refund kind p back _ _ h1 => rw [← hbt, h1] at hc; cases hc
  | allowance kind p back sp s _ _ h1 => rw [← hbt, h1] at hc; cases hc

/-- **C73**: a transfer the owner could have made is still possible after anything strangers do,
as long as its `created_at_time` is in the window. -/
theorem C73_transfer_unspoiled [Crypto] {S : Principal → Prop} {a : Account} {y : Sys}
    (hr : Reachable y) (h : Spec.Strangers S a y) {es : List Event} (hs : Spec.AllBy S es)
    {m : Msg} {r : Spec.TransferReq} (hm : Spec.transferRequest m = some r) (hf : r.frm = a)
    (hsp : r.spender = none) {i : Nat} (hok : Spec.okIndex (y.exec m).2 = some i)
    (hw : Spec.InWindow r.createdAt (y.run es).now)
    (hn : Spec.NoClash (y.run es).ledger r.transaction)
    (hso : ¬Spec.SelfOverflow (y.run es).ledger r) :
    ∃ j, Spec.okIndex ((y.run es).exec m).2 = some j := by
  subst hf
  obtain ⟨hv, hd, _⟩ := (C63_transfer_iff hr hm (noClash_earlier hr hn)).mp ⟨i, hok⟩
  refine (C63_transfer_iff (hr.run es) hm hn).mpr ⟨{ hv with
    window := hw
    funds := Nat.le_trans hv.funds (C73_balance_safe es hr h hs).2
    allowance := ?_ }, strangers_no_duplicate hr h hs ?_ hd, hso⟩
  · intro sp hon
    rw [hsp] at hon
    cases hon.1
  · intro y' m' b hrec hbt hc
    have h1 := request_owner (hrec.stamped hbt hc)
    obtain ⟨frm, to, sp, x, f, mm, c⟩ := r
    simp only at hsp
    subst hsp
    exact h1

/-- **C73**: so is an approval, until the time it expires. -/
theorem C73_approval_unspoiled [Crypto] {S : Principal → Prop} {a : Account} {y : Sys}
    (hr : Reachable y) (h : Spec.Strangers S a y) {es : List Event} (hs : Spec.AllBy S es)
    {m : Msg} {r : Spec.ApproveReq} (hm : Spec.approveRequest m = some r) (hf : r.frm = a)
    (hea : r.expectedAllowance = none) {i : Nat} (hok : Spec.okIndex (y.exec m).2 = some i)
    (hw : Spec.InWindow r.createdAt (y.run es).now)
    (hx : (y.run es).now < r.expiresAt.getD 18446744073709551615)
    (hn : Spec.NoClash (y.run es).ledger r.transaction) :
    ∃ j, Spec.okIndex ((y.run es).exec m).2 = some j := by
  subst hf
  obtain ⟨hv, hd⟩ := (C60_approve_iff hr hm (noClash_earlier hr hn)).mp ⟨i, hok⟩
  refine (C60_approve_iff (hr.run es) hm hn).mpr ⟨{ hv with
    window := hw
    funds := Nat.le_trans hv.funds (C73_balance_safe es hr h hs).2
    expected := ?_
    notExpired := hx }, strangers_no_duplicate hr h hs ?_ hd⟩
  · intro x hx
    rw [hea] at hx
    cases hx
  · intro y' m' b hrec hbt hc
    exact request_owner (hrec.stamped hbt hc)

/-- **C73**: so is a withdrawal or the creation of a canister. -/
theorem C73_burn_unspoiled [Crypto] {S : Principal → Prop} {a : Account} {y : Sys}
    (hr : Reachable y) (h : Spec.Strangers S a y) {es : List Event} (hs : Spec.AllBy S es)
    {m : Msg} {r : Spec.BurnReq} {to : Option Principal} (hm : Spec.burnRequest m = some (r, to))
    (hf : r.frm = a) (hsp : r.spender = none) (hok : (y.exec m).2 = .suspended)
    (hw : Spec.InWindow r.createdAt (y.run es).now)
    (hn : Spec.NoClash (y.run es).ledger (r.transaction to)) :
    ((y.run es).exec m).2 = .suspended := by
  subst hf
  have h0 := C61_burn_iff hr hm (noClash_earlier hr hn)
  have hsync := h0.2.2 hok
  obtain ⟨hv, hrv, hd⟩ := h0.1.mp ((h0.2.1 hsync).mp hok)
  have h1 := C61_burn_iff (hr.run es) hm hn
  refine (h1.2.1 hsync).mpr (h1.1.mpr ⟨{ hv with
    window := hw
    funds := Nat.le_trans hv.funds (C73_balance_safe es hr h hs).2
    allowance := ?_ }, hrv, strangers_no_duplicate hr h hs ?_ hd⟩)
  · intro sp hon
    rw [hsp] at hon
    cases hon.1
  · intro y' m' b hrec hbt hc
    have h1 := request_owner (hrec.stamped hbt hc)
    obtain ⟨frm, sp, x, c⟩ := r
    simp only at hsp
    subst hsp
    exact h1

open Toy in
/-- Alice after her history: bob has an allowance and a call under way, so he is no stranger to
her account; carol and everybody else are. -/
theorem Toy.strangers : Spec.Strangers (fun p => p ≠ alice ∧ p ≠ bob) (acc alice) demo where
  owner := fun h => h.1 rfl
  allowances := by
    intro sp hs
    have h1 : ∀ kv ∈ demo.ledger.approvals.entries, kv.1.2.1 = bob := by decide +kernel
    unfold Spec.spendable Spec.stored
    cases hg : demo.ledger.approvals.get ((acc alice).key, sp.key) with
    | none => rfl
    | some v =>
      have := h1 _ ((SMap.get_eq_some_iff _ _ _).mp hg)
      exact absurd this hs.2
  calls := by
    have h1 : ∀ q ∈ demo.pending, q.data.spender = none ∨ q.data.spender = some (acc bob) := by
      decide +kernel
    intro q hq _ sp hsp hs
    rcases h1 q hq with h2 | h2
    · rw [h2] at hsp; cases hsp
    · rw [h2] at hsp; cases hsp; exact hs.2 rfl

open Toy in
/-- What carol does in the meantime, and the failure of bob's withdrawal from alice's account. -/
def Toy.meanwhile : List Event :=
  [dep carol 900000000, ⟨1, (xferFrom carol alice carol 5).msg⟩, wdr carol 200000000,
    xfer carol alice 100,
    ⟨1, .callback 0 (.depositCycles (some (.rejected (some .canisterReject))))⟩]

open Toy in
example : Reachable demo ∧ Spec.Strangers (fun p => p ≠ alice ∧ p ≠ bob) (acc alice) demo ∧
    Spec.AllBy (fun p => p ≠ alice ∧ p ≠ bob) meanwhile ∧
    Spec.okIndex (demo.exec (xfer alice bob 998499994000).msg).2 = some 6 ∧
    Spec.okIndex ((demo.run meanwhile).exec (xfer alice bob 998499994000).msg).2 = some 11 := by
  refine ⟨demo_reachable, strangers, ?_, by decide +kernel, by decide +kernel⟩
  intro e he p hp
  simp only [meanwhile, List.mem_cons, List.not_mem_nil, or_false] at he
  rcases he with rfl | rfl | rfl | rfl | rfl <;> cases hp <;> decide

end CyclesLedger
