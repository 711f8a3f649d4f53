import Verif.Proof.Alike
/-!
# Systems that differ only in how accounts are written
-/
namespace CyclesLedger
variable [Crypto]

omit [Crypto] in
/-- Outstanding calls that name the same accounts. -/
structure PendAlike (p p' : Pending) : Prop where
  kind : p.kind = p'.kind
  call : p.call = p'.call
  data : SusAlike p.data p'.data

omit [Crypto] in
/-- The two systems differ only in how accounts are written. -/
structure SysAlike (y y' : Sys) : Prop where
  ledger : Alike y.ledger y'.ledger
  now : y.now = y'.now
  pending : All2 PendAlike y.pending y'.pending
  cycles : y.cycles = y'.cycles

omit [Crypto] in
theorem All2.refl {α : Type} {R : α → α → Prop} (h : ∀ a, R a a) : ∀ l, All2 R l l
  | [] => .nil
  | a :: l => .cons (h a) (All2.refl h l)

omit [Crypto] in
theorem All2.snoc {α : Type} {R : α → α → Prop} {l l' : List α} (h : All2 R l l') {a a' : α}
    (ha : R a a') : All2 R (l ++ [a]) (l' ++ [a']) := by
  induction h with
  | nil => exact .cons ha .nil
  | cons h1 _ ih => exact .cons h1 ih

omit [Crypto] in
theorem All2.eraseIdx {α : Type} {R : α → α → Prop} {l l' : List α} (h : All2 R l l') (i : Nat) :
    All2 R (l.eraseIdx i) (l'.eraseIdx i) := by
  induction h generalizing i with
  | nil => exact .nil
  | cons h1 h2 ih =>
    cases i with
    | zero => exact h2
    | succ i => exact .cons h1 (ih i)

omit [Crypto] in
theorem All2.get {α : Type} {R : α → α → Prop} {l l' : List α} (h : All2 R l l') (i : Nat) :
    (l[i]? = none ∧ l'[i]? = none) ∨ ∃ a a', l[i]? = some a ∧ l'[i]? = some a' ∧ R a a' := by
  induction h generalizing i with
  | nil => left; simp
  | cons h1 h2 ih =>
    cases i with
    | zero => right; exact ⟨_, _, rfl, rfl, h1⟩
    | succ i => simpa using ih i

omit [Crypto] in
theorem SysAlike.refl (y : Sys) : SysAlike y y :=
  ⟨.refl _, rfl, All2.refl (fun _ => ⟨rfl, rfl, ⟨rfl, rfl, rfl, rfl, rfl⟩⟩) _, rfl⟩

omit [Crypto] in
/-- Alike outcomes of a message: alike systems, and the same answer. -/
def OutSim (o o' : Sys × Reply) : Prop := SysAlike o.1 o'.1 ∧ o.2 = o'.2

omit [Crypto] in
theorem SysAlike.commit {ε α : Type} {y y' : Sys} (h : SysAlike y y') {r r' : Res State ε α}
    (hr : ResSim (· = ·) r r') (k : Except ε α → Reply) :
    OutSim (y.commit r k) (y'.commit r' k) := by
  unfold Sys.commit
  cases r <;> cases r' <;> simp only [ResSim] at hr
  · obtain ⟨rfl, hr⟩ := hr
    exact ⟨⟨hr, h.now, h.pending, h.cycles⟩, rfl⟩
  · obtain ⟨rfl, hr⟩ := hr
    exact ⟨⟨hr, h.now, h.pending, h.cycles⟩, rfl⟩
  · exact ⟨h, rfl⟩

omit [Crypto] in
theorem ResSim.mapErr {ε ε' α : Type} {r r' : Res State ε α} (h : ResSim (· = ·) r r')
    (f : ε → Option ε') : ResSim (· = ·) (r.mapErr f) (r'.mapErr f) := by
  unfold Res.mapErr
  cases r <;> cases r' <;> simp only [ResSim] at h ⊢
  · exact h
  · obtain ⟨rfl, h⟩ := h
    rename_i e _ _
    cases f e with
    | none => trivial
    | some e => exact ⟨rfl, h⟩

omit [Crypto] in
theorem commit_trap {ε α : Type} (y : Sys) (k : Except ε α → Reply) :
    y.commit (.trap : Res State ε α) k = (y, .trapped) := rfl

omit [Crypto] in
theorem commit_trapped {ε α : Type} {y : Sys} {r : Res State ε α} {k : Except ε α → Reply}
    (hk : ∀ e, k e ≠ .trapped) (h : (y.commit r k).2 = .trapped) : r = .trap := by
  unfold Sys.commit at h
  cases r with
  | trap => rfl
  | ok a s => exact absurd h (hk _)
  | err e s => exact absurd h (hk _)

omit [Crypto] in
/-- Results of which one may trap, if the answers agree on trapping. -/
theorem SysAlike.commitT {ε α : Type} {y y' : Sys} (h : SysAlike y y') {r r' : Res State ε α}
    {k : Except ε α → Reply} (hk : ∀ e, k e ≠ .trapped)
    (hr : ResSim (· = ·) r r' ∨ r = .trap ∨ r' = .trap)
    (ht : (y.commit r k).2 = .trapped ↔ (y'.commit r' k).2 = .trapped) :
    OutSim (y.commit r k) (y'.commit r' k) := by
  rcases hr with hr | rfl | rfl
  · exact h.commit hr k
  · have := commit_trapped hk (ht.mp rfl)
    subst this
    exact ⟨h, rfl⟩
  · have := commit_trapped hk (ht.mpr rfl)
    subst this
    exact ⟨h, rfl⟩

omit [Crypto] in
theorem mapErr_trap {ε ε' α : Type} {r r' : Res State ε α} (f : ε → Option ε')
    (h : ResSim (· = ·) r r' ∨ r = .trap ∨ r' = .trap) :
    ResSim (· = ·) (r.mapErr f) (r'.mapErr f) ∨ r.mapErr f = .trap ∨ r'.mapErr f = .trap := by
  rcases h with h | rfl | rfl
  · exact Or.inl (h.mapErr f)
  · exact Or.inr (Or.inl rfl)
  · exact Or.inr (Or.inr rfl)

theorem SysAlike.finishWithdraw {y y' : Sys} (h : SysAlike y y') {s s' : State} (hs : Alike s s')
    {p p' : Suspended} (hp : SusAlike p p') (kind : CallKind) (r : Option CallError)
    (ht : p.spender ≠ none → ¬(Blank s ∧ Blank s') → ((finishWithdraw y s kind p r).2 = .trapped ↔
      (finishWithdraw y' s' kind p' r).2 = .trapped)) :
    OutSim (finishWithdraw y s kind p r) (finishWithdraw y' s' kind p' r) := by
  have hf := hs.withdrawFinish hp r y.now
  unfold CyclesLedger.finishWithdraw at ht ⊢
  rw [← h.now] at ht ⊢
  rcases hf with hf | ⟨h1, hf, hb⟩
  · cases kind
    · exact h.commit (hf.mapErr _) _
    all_goals exact h.commit hf _
  · have ht := ht h1 hb
    cases kind
    · exact h.commitT (fun e he => by cases he) (mapErr_trap _ (Or.inr hf)) ht
    all_goals exact h.commitT (fun e he => by cases he) (Or.inr hf) ht

theorem SysAlike.finishCreate {y y' : Sys} (h : SysAlike y y') {s s' : State} (hs : Alike s s')
    {p p' : Suspended} (hp : SusAlike p p') (kind : CallKind) (r : CmcResult)
    (ht : p.spender ≠ none → ¬(Blank s ∧ Blank s') → ((finishCreate y s kind p r).2 = .trapped ↔
      (finishCreate y' s' kind p' r).2 = .trapped)) :
    OutSim (finishCreate y s kind p r) (finishCreate y' s' kind p' r) := by
  have hf := hs.createCanisterFinish hp r y.now
  unfold CyclesLedger.finishCreate at ht ⊢
  rw [← h.now] at ht ⊢
  rcases hf with hf | ⟨h1, hf, hb⟩
  · cases kind
    case createCanister => exact h.commit (hf.mapErr _) _
    all_goals exact h.commit hf _
  · have ht := ht h1 hb
    cases kind
    case createCanister =>
      exact h.commitT (fun e he => by cases he) (mapErr_trap _ (Or.inr hf)) ht
    all_goals exact h.commitT (fun e he => by cases he) (Or.inr hf) ht

/-- If the message goes through, the table of recent transactions is empty afterwards. -/
def BlankRes {ε α : Type} (r : Res State ε α) : Prop := ∀ a u, r = .ok a u → Blank u

theorem SysAlike.sendWithdraw {y y' : Sys} (h : SysAlike y y') {sp : Option Account}
    {r r' : Res State WithdrawFromError Suspended}
    (hr : ResSim (fun p p' => SusAlike p p' ∧ p.spender = sp) r r') (kind : CallKind)
    (to : Principal) (sync : Option CallError)
    (ht : sp ≠ none → sync ≠ none → ¬(BlankRes r ∧ BlankRes r') →
      ((sendWithdraw y r kind to sync).2 = .trapped ↔
      (sendWithdraw y' r' kind to sync).2 = .trapped)) :
    OutSim (sendWithdraw y r kind to sync) (sendWithdraw y' r' kind to sync) := by
  unfold CyclesLedger.sendWithdraw at ht ⊢
  cases r <;> cases r' <;> simp only [ResSim] at hr
  · obtain ⟨⟨hp, rfl⟩, hr⟩ := hr
    cases sync with
    | none =>
      simp only
      rw [hp.amount]
      exact ⟨⟨hr, h.now, h.pending.snoc ⟨rfl, rfl, hp⟩, by simp only [h.cycles]⟩, rfl⟩
    | some code => exact h.finishWithdraw hr hp kind _ (fun h1 hb => ht h1 (by simp)
        (fun hb' => hb ⟨hb'.1 _ _ rfl, hb'.2 _ _ rfl⟩))
  · obtain ⟨rfl, hr⟩ := hr
    have : ∀ e, ResSim (· = ·) (Res.err e _ : Res State WithdrawFromError Nat) (.err e _) :=
      fun e => ⟨rfl, hr⟩
    have := this ‹_›
    cases kind
    · exact h.commit (this.mapErr _) _
    all_goals exact h.commit this _
  · exact ⟨h, rfl⟩

theorem SysAlike.sendCreate {y y' : Sys} (h : SysAlike y y') {sp : Option Account}
    {r r' : Res State CreateCanisterFromError Suspended}
    (hr : ResSim (fun p p' => SusAlike p p' ∧ p.spender = sp) r r') (kind : CallKind)
    (caller : Principal) (args : Option CmcArgs) (sync : Option CallError)
    (ht : sp ≠ none → sync ≠ none → ¬(BlankRes r ∧ BlankRes r') →
      ((sendCreate y r kind caller args sync).2 = .trapped ↔
      (sendCreate y' r' kind caller args sync).2 = .trapped)) :
    OutSim (sendCreate y r kind caller args sync) (sendCreate y' r' kind caller args sync) := by
  unfold CyclesLedger.sendCreate at ht ⊢
  cases r <;> cases r' <;> simp only [ResSim] at hr
  · obtain ⟨⟨hp, rfl⟩, hr⟩ := hr
    cases sync with
    | none =>
      simp only
      rw [hp.amount]
      exact ⟨⟨hr, h.now, h.pending.snoc ⟨rfl, rfl, hp⟩, by simp only [h.cycles]⟩, rfl⟩
    | some code => exact h.finishCreate hr hp kind _ (fun h1 hb => ht h1 (by simp)
        (fun hb' => hb ⟨hb'.1 _ _ rfl, hb'.2 _ _ rfl⟩))
  · obtain ⟨rfl, hr⟩ := hr
    have : ∀ e, ResSim (· = ·) (Res.err e _ : Res State CreateCanisterFromError (Nat × Principal))
        (.err e _) := fun e => ⟨rfl, hr⟩
    have := this ‹_›
    cases kind
    case createCanister => exact h.commit (this.mapErr _) _
    all_goals exact h.commit this _
  · exact ⟨h, rfl⟩

/-! ## Requests -/

omit [Crypto] in
theorem sameAccount_key {a a' : Account} (h : Spec.SameAccount a a') : a.key = a'.key :=
  Prod.ext h.1 h.2

omit [Crypto] in
theorem sameSub_key {c : Principal} {a a' : Option Subaccount} (h : Spec.SameSub a a') :
    (Account.mk c a).key = (Account.mk c a').key :=
  Prod.ext rfl h

theorem Alike.executeTransfer {s s' : State} (h : Alike s s') {a a' b b' : Account}
    {sp sp' : Option Account} (ha : a.key = a'.key) (hb : b.key = b'.key)
    (hs : sp.map Account.key = sp'.map Account.key) (x : Nat) (fee : Option Nat)
    (memo : Option Bytes) (cat : Option Nat) (now : Nat) :
    ResSim (· = ·) (executeTransfer s a b sp x fee memo cat now)
      (executeTransfer s' a' b' sp' x fee memo cat now) ∨
    SaysDup PTErr.toTransferFrom s (executeTransfer s a b sp x fee memo cat now) ∨
    SaysDup PTErr.toTransferFrom s' (executeTransfer s' a' b' sp' x fee memo cat now) := by
  unfold CyclesLedger.executeTransfer
  rw [h.balanceOf ha]
  cases toU128 x with
  | none => exact Or.inl (.err h)
  | some x =>
    cases natOpt fee with
    | none => exact Or.inl (.err h)
    | some f =>
      simp only
      rcases h.transfer ha hb hs x memo now cat f with h1 | ⟨i, c, h1, h2⟩ | ⟨i, c, h1, h2⟩
      · left
        revert h1
        cases CyclesLedger.transfer s a b sp x memo now cat f <;>
          cases CyclesLedger.transfer s' a' b' sp' x memo now cat f <;> intro h1 <;>
          simp only [ResSim] at h1 ⊢
        · exact ⟨h1.1, h1.2.prune now⟩
        · exact h1
      · right; left; exact ⟨i, c, by rw [h1], h2⟩
      · right; right; exact ⟨i, c, by rw [h1], h2⟩

theorem Alike.icrc2Approve {s s' : State} (h : Alike s s') {c : Principal} {args args' : ApproveArgs}
    (ha : Spec.SameSub args.fromSubaccount args'.fromSubaccount)
    (hb : Spec.SameAccount args.spender args'.spender)
    (h1 : args.amount = args'.amount) (h2 : args.expectedAllowance = args'.expectedAllowance)
    (h3 : args.expiresAt = args'.expiresAt) (h4 : args.fee = args'.fee)
    (h5 : args.memo = args'.memo) (h6 : args.createdAtTime = args'.createdAtTime) (now : Nat) :
    ResSim (· = ·) (icrc2Approve s c args now) (icrc2Approve s' c args' now) ∨
    SaysDup PTErr.toApprove s (icrc2Approve s c args now) ∨
    SaysDup PTErr.toApprove s' (icrc2Approve s' c args' now) := by
  have ka := sameSub_key (c := c) ha
  have kb := sameAccount_key hb
  unfold CyclesLedger.icrc2Approve
  simp only [h.allowance ka kb, h1, h2, h3, h4, h5, h6]
  cases natOpt args'.expectedAllowance with
  | none => exact Or.inl (.err h)
  | some ea =>
    cases natOpt args'.fee with
    | none => exact Or.inl (.err h)
    | some f =>
      simp only
      rcases h.approve ka kb ((toU128 args'.amount).getD U128MAX) args'.memo now
        (opt64 args'.createdAtTime) f ea (opt64 args'.expiresAt) with h1 | ⟨i, c, h1, h2⟩ | ⟨i, c, h1, h2⟩
      · left
        revert h1
        cases CyclesLedger.approve s ⟨c, args.fromSubaccount⟩ args.spender
            ((toU128 args'.amount).getD U128MAX) args'.memo now
            (opt64 args'.createdAtTime) f ea (opt64 args'.expiresAt) <;>
          cases CyclesLedger.approve s' ⟨c, args'.fromSubaccount⟩ args'.spender
            ((toU128 args'.amount).getD U128MAX) args'.memo now
            (opt64 args'.createdAtTime) f ea (opt64 args'.expiresAt) <;> intro h1 <;>
          simp only [ResSim] at h1 ⊢
        · exact ⟨h1.1, h1.2.prune now⟩
        · exact h1
      · right; left; exact ⟨i, c, by rw [h1], h2⟩
      · right; right; exact ⟨i, c, by rw [h1], h2⟩

theorem Alike.executeWithdraw {s s' : State} (h : Alike s s') {a a' : Account}
    {sp sp' : Option Account} (ha : a.key = a'.key)
    (hs : sp.map Account.key = sp'.map Account.key) (to : Principal) (x : Nat)
    (cat : Option Nat) (now : Nat) :
    ResSim (fun p p' => SusAlike p p' ∧ p.spender = sp) (executeWithdraw s a to sp x cat now)
      (executeWithdraw s' a' to sp' x cat now) ∨
    SaysDup PTErr.toWithdrawFrom s (executeWithdraw s a to sp x cat now) ∨
    SaysDup PTErr.toWithdrawFrom s' (executeWithdraw s' a' to sp' x cat now) := by
  unfold CyclesLedger.executeWithdraw
  rw [h.balanceOf ha]
  cases toU128 x with
  | none => exact Or.inl (.err h)
  | some x => exact h.withdrawStart ha hs to x now cat

theorem Alike.executeCreateCanister {s s' : State} (h : Alike s s') {a a' : Account}
    {sp sp' : Option Account} (ha : a.key = a'.key)
    (hs : sp.map Account.key = sp'.map Account.key) (x : Nat)
    (cat : Option Nat) (now : Nat) :
    ResSim (fun p p' => SusAlike p p' ∧ p.spender = sp) (executeCreateCanister s a sp x cat now)
      (executeCreateCanister s' a' sp' x cat now) ∨
    SaysDup PTErr.toCreateFrom s (executeCreateCanister s a sp x cat now) ∨
    SaysDup PTErr.toCreateFrom s' (executeCreateCanister s' a' sp' x cat now) := by
  unfold CyclesLedger.executeCreateCanister
  rw [h.balanceOf ha]
  cases toU128 x with
  | none => exact Or.inl (.err h)
  | some x => exact h.createCanisterStart ha hs x now cat

theorem executeWithdraw_blank {s : State} (h : Blank s) (a : Account) (to : Principal)
    (sp : Option Account) (x now : Nat) :
    BlankRes (executeWithdraw s a to sp x none now) := by
  intro p u h1
  obtain ⟨_, _, _, v, rfl, ha⟩ := withdrawStart_ok (executeWithdraw_eq h1)
  exact (h.append ha rfl).prune now

theorem executeCreateCanister_blank {s : State} (h : Blank s) (a : Account)
    (sp : Option Account) (x now : Nat) :
    BlankRes (executeCreateCanister s a sp x none now) := by
  intro p u h1
  obtain ⟨_, v, rfl, ha⟩ := createCanisterStart_ok (executeCreateCanister_eq h1)
  exact (h.append ha rfl).prune now

omit [Crypto] in
theorem SaysDup.not_blank {ε α : Type} {f : PTErr → ε} {s : State} {r : Res State ε α}
    (h : SaysDup f s r) : ¬Blank s := by
  obtain ⟨_, _, _, h⟩ := h
  exact h

/-! ## One message -/

theorem SaysDup.withdraw {y : Sys} {r : Res State WithdrawFromError Suspended}
    (h : SaysDup PTErr.toWithdrawFrom y.ledger r) (kind : CallKind) (to : Principal)
    (sync : Option CallError) : Spec.AnswersDuplicate (sendWithdraw y r kind to sync).2 := by
  obtain ⟨i, c, rfl, _⟩ := h
  refine ⟨i, Or.inr (Or.inr ⟨none, ?_⟩)⟩
  cases kind <;> rfl

theorem SaysDup.create {y : Sys} {r : Res State CreateCanisterFromError Suspended}
    (h : SaysDup PTErr.toCreateFrom y.ledger r) (kind : CallKind) (caller : Principal)
    (args : Option CmcArgs) (sync : Option CallError) :
    Spec.AnswersDuplicate (sendCreate y r kind caller args sync).2 := by
  obtain ⟨i, c, rfl, _⟩ := h
  refine ⟨i, Or.inr (Or.inr ⟨some c, ?_⟩)⟩
  cases kind <;> rfl

omit [Crypto] in
theorem Alike.reload [Crypto] {s s' : State} (h : Alike s s') : Alike (reload s) (reload s') :=
  ⟨h.balances, h.approvals, h.queue, h.config, by
    show computeTotalSupply s.balances = computeTotalSupply s'.balances
    rw [h.balances], h.length⟩

theorem Alike.postUpgrade {s s' : State} (h : Alike s s') (arg : PostUpgradeArg) :
    OptSim (postUpgrade s arg) (postUpgrade s' arg) := by
  have h1 := h.reload
  cases arg with
  | none => exact h1
  | init c => trivial
  | upgrade a =>
    cases a with
    | none => exact h1
    | some u =>
      refine ⟨h1.balances, h1.approvals, h1.queue, ?_, h1.supply, h1.length⟩
      simp only [h1.config]

theorem SysAlike.exec_callback {y y' : Sys} (h : SysAlike y y') (i : Nat) (ans : Answer)
    (ht : ¬(Blank y.ledger ∧ Blank y'.ledger) →
      ((y.exec (.callback i ans)).2 = .trapped ↔ (y'.exec (.callback i ans)).2 = .trapped)) :
    OutSim (y.exec (.callback i ans)) (y'.exec (.callback i ans)) := by
  unfold Sys.exec at ht ⊢
  rcases h.pending.get i with ⟨h1, h2⟩ | ⟨p, p', h1, h2, hp⟩
  · simp only [h1, h2]
    exact ⟨h, rfl⟩
  · simp only [h1, h2] at ht ⊢
    rw [← hp.kind, ← hp.call, ← h.cycles] at ht ⊢
    cases hk : p.kind <;> cases ans <;> simp only [hk] at ht ⊢
    · exact SysAlike.finishWithdraw (y := ⟨y.ledger, y.now, y.pending.eraseIdx i, _⟩)
        (y' := ⟨y'.ledger, y'.now, y'.pending.eraseIdx i, _⟩)
        ⟨h.ledger, h.now, h.pending.eraseIdx i, rfl⟩ h.ledger hp.data _ _ (fun _ hb => ht hb)
    · exact ⟨h, rfl⟩
    · exact SysAlike.finishWithdraw (y := ⟨y.ledger, y.now, y.pending.eraseIdx i, _⟩)
        (y' := ⟨y'.ledger, y'.now, y'.pending.eraseIdx i, _⟩)
        ⟨h.ledger, h.now, h.pending.eraseIdx i, rfl⟩ h.ledger hp.data _ _ (fun _ hb => ht hb)
    · exact ⟨h, rfl⟩
    · exact ⟨h, rfl⟩
    · exact SysAlike.finishCreate (y := ⟨y.ledger, y.now, y.pending.eraseIdx i, _⟩)
        (y' := ⟨y'.ledger, y'.now, y'.pending.eraseIdx i, _⟩)
        ⟨h.ledger, h.now, h.pending.eraseIdx i, rfl⟩ h.ledger hp.data _ _ (fun _ hb => ht hb)
    · exact ⟨h, rfl⟩
    · exact SysAlike.finishCreate (y := ⟨y.ledger, y.now, y.pending.eraseIdx i, _⟩)
        (y' := ⟨y'.ledger, y'.now, y'.pending.eraseIdx i, _⟩)
        ⟨h.ledger, h.now, h.pending.eraseIdx i, rfl⟩ h.ledger hp.data _ _ (fun _ hb => ht hb)

/-- The same happens, or one of the two is a duplicate. -/
def OutSimD (y y' : Sys) (o o' : Sys × Reply) : Prop :=
  OutSim o o' ∨ ((Spec.AnswersDuplicate o.2 ∨ Spec.AnswersDuplicate o'.2) ∧
    ¬(Blank y.ledger ∧ Blank y'.ledger))

/-- What a pair of messages does to alike systems: the same, or one is a duplicate. -/
theorem SysAlike.exec {y y' : Sys} (h : SysAlike y y') {m m' : Msg} (hm : Spec.SameMsg m m')
    (ht : Spec.RefundsFrom m → ¬(Blank y.ledger ∧ Blank y'.ledger ∧ Spec.Unstamped m) →
      ((y.exec m).2 = .trapped ↔ (y'.exec m').2 = .trapped)) :
    OutSimD y y' (y.exec m) (y'.exec m') := by
  have hdep : ∀ (caller : Principal) (cycles : Fin (U128MAX + 1)) (memo : Option Bytes)
      (to to' : Account), Spec.SameAccount to to' →
      OutSim (y.exec (.deposit caller cycles ⟨to, memo⟩))
        (y'.exec (.deposit caller cycles ⟨to', memo⟩)) := by
    intro caller cycles memo to to' hto
    have hd := h.ledger.deposit (sameAccount_key hto) cycles.val memo y.now
    unfold Sys.exec depositEndpoint
    rw [← h.now, ← h.cycles]
    revert hd
    simp only
    cases CyclesLedger.deposit y.ledger to cycles.val memo y.now <;>
      cases CyclesLedger.deposit y'.ledger to' cycles.val memo y.now <;> intro hd <;>
      simp only [ResSim] at hd
    · obtain ⟨rfl, hd⟩ := hd
      exact ⟨⟨hd, rfl, h.pending, rfl⟩, rfl⟩
    · exact ⟨h, rfl⟩
    · exact ⟨h, rfl⟩
  have htr : ∀ (caller : Principal) (sub sub' : Option Subaccount) (to to' : Account)
      (amount : Nat) (fee : Option Nat) (memo : Option Bytes) (createdAt : Option UInt64),
      Spec.SameSub sub sub' → Spec.SameAccount to to' →
      OutSimD y y' (y.exec (.transfer caller ⟨sub, to, amount, fee, memo, createdAt⟩))
        (y'.exec (.transfer caller ⟨sub', to', amount, fee, memo, createdAt⟩)) := by
    intro caller sub sub' to to' amount fee memo createdAt h1 h2
    unfold Sys.exec icrc1Transfer
    rw [← h.now]
    rcases h.ledger.executeTransfer (sameSub_key (c := caller) h1) (sameAccount_key h2)
      (sp := none) (sp' := none) rfl amount fee memo (opt64 createdAt) y.now with
      h3 | ⟨i, c, h3, hb⟩ | ⟨i, c, h3, hb⟩
    · exact Or.inl (h.commit (h3.mapErr _) _)
    · exact Or.inr ⟨Or.inl ⟨i, Or.inl (by simp only [h3]; rfl)⟩, fun h => hb h.1⟩
    · exact Or.inr ⟨Or.inr ⟨i, Or.inl (by simp only [h3]; rfl)⟩, fun h => hb h.2⟩
  have htf : ∀ (caller : Principal) (sub sub' : Option Subaccount) (frm frm' to to' : Account)
      (amount : Nat) (fee : Option Nat) (memo : Option Bytes) (createdAt : Option UInt64),
      Spec.SameSub sub sub' → Spec.SameAccount frm frm' → Spec.SameAccount to to' →
      OutSimD y y' (y.exec (.transferFrom caller ⟨sub, frm, to, amount, fee, memo, createdAt⟩))
        (y'.exec (.transferFrom caller ⟨sub', frm', to', amount, fee, memo, createdAt⟩)) := by
    intro caller sub sub' frm frm' to to' amount fee memo createdAt h1 h4 h2
    unfold Sys.exec icrc2TransferFrom
    rw [← h.now]
    rcases h.ledger.executeTransfer (sameAccount_key h4) (sameAccount_key h2)
      (sp := some ⟨caller, sub⟩) (sp' := some ⟨caller, sub'⟩)
      (congrArg some (sameSub_key h1)) amount fee memo (opt64 createdAt) y.now with
      h3 | ⟨i, c, h3, hb⟩ | ⟨i, c, h3, hb⟩
    · exact Or.inl (h.commit h3 _)
    · exact Or.inr ⟨Or.inl ⟨i, Or.inl (by simp only [h3]; rfl)⟩, fun h => hb h.1⟩
    · exact Or.inr ⟨Or.inr ⟨i, Or.inl (by simp only [h3]; rfl)⟩, fun h => hb h.2⟩
  have hap : ∀ (caller : Principal) (args args' : ApproveArgs),
      Spec.SameSub args.fromSubaccount args'.fromSubaccount →
      Spec.SameAccount args.spender args'.spender →
      args.amount = args'.amount → args.expectedAllowance = args'.expectedAllowance →
      args.expiresAt = args'.expiresAt → args.fee = args'.fee → args.memo = args'.memo →
      args.createdAtTime = args'.createdAtTime →
      OutSimD y y' (y.exec (.approve caller args)) (y'.exec (.approve caller args')) := by
    intro caller args args' h1 h2 h3 h4 h5 h6 h7 h8
    unfold Sys.exec
    rw [← h.now]
    rcases h.ledger.icrc2Approve (c := caller) h1 h2 h3 h4 h5 h6 h7 h8 y.now with
      h3 | ⟨i, c, h3, hb⟩ | ⟨i, c, h3, hb⟩
    · exact Or.inl (h.commit h3 _)
    · exact Or.inr ⟨Or.inl ⟨i, Or.inr (Or.inl (by simp only [h3]; rfl))⟩, fun h => hb h.1⟩
    · exact Or.inr ⟨Or.inr ⟨i, Or.inr (Or.inl (by simp only [h3]; rfl))⟩, fun h => hb h.2⟩
  have hwd : ∀ (kind : CallKind) (a a' : Account) (sp sp' : Option Account) (to : Principal)
      (createdAt : Option UInt64) (amount : Nat) (sync : Option CallError),
      a.key = a'.key → sp.map Account.key = sp'.map Account.key →
      (sp ≠ none → sync ≠ none → ¬(Blank y.ledger ∧ Blank y'.ledger ∧ createdAt = none) → ((CyclesLedger.sendWithdraw y (CyclesLedger.executeWithdraw y.ledger a to sp amount
          (opt64 createdAt) y.now) kind to sync).2 = .trapped ↔
        (CyclesLedger.sendWithdraw y' (CyclesLedger.executeWithdraw y'.ledger a' to sp' amount
          (opt64 createdAt) y'.now) kind to sync).2 = .trapped)) →
      OutSimD y y' (CyclesLedger.sendWithdraw y (CyclesLedger.executeWithdraw y.ledger a to sp amount (opt64 createdAt) y.now)
          kind to sync)
        (CyclesLedger.sendWithdraw y' (CyclesLedger.executeWithdraw y'.ledger a' to sp' amount (opt64 createdAt) y'.now)
          kind to sync) := by
    intro kind a a' sp sp' to createdAt amount sync h1 h2 ht
    rw [← h.now] at ht ⊢
    rcases h.ledger.executeWithdraw h1 h2 to amount (opt64 createdAt) y.now with h3 | h3 | h3
    · refine Or.inl (h.sendWithdraw h3 kind to sync (fun h1 h2 h3 => ht h1 h2 (fun h4 => h3 ?_)))
      obtain ⟨h4, h5, rfl⟩ := h4
      exact ⟨executeWithdraw_blank h4 _ _ _ _ _, executeWithdraw_blank h5 _ _ _ _ _⟩
    · exact Or.inr ⟨Or.inl (h3.withdraw kind to sync), fun h => h3.not_blank h.1⟩
    · exact Or.inr ⟨Or.inr (h3.withdraw kind to sync), fun h => h3.not_blank h.2⟩
  have hcc : ∀ (kind : CallKind) (a a' : Account) (sp sp' : Option Account) (caller : Principal)
      (args : Option CmcArgs)
      (createdAt : Option UInt64) (amount : Nat) (sync : Option CallError),
      a.key = a'.key → sp.map Account.key = sp'.map Account.key →
      (sp ≠ none → sync ≠ none → ¬(Blank y.ledger ∧ Blank y'.ledger ∧ createdAt = none) → ((CyclesLedger.sendCreate y (CyclesLedger.executeCreateCanister y.ledger a sp amount
          (opt64 createdAt) y.now) kind caller args sync).2 = .trapped ↔
        (CyclesLedger.sendCreate y' (CyclesLedger.executeCreateCanister y'.ledger a' sp' amount
          (opt64 createdAt) y'.now) kind caller args sync).2 = .trapped)) →
      OutSimD y y' (CyclesLedger.sendCreate y (CyclesLedger.executeCreateCanister y.ledger a sp amount (opt64 createdAt) y.now)
          kind caller args sync)
        (CyclesLedger.sendCreate y' (CyclesLedger.executeCreateCanister y'.ledger a' sp' amount (opt64 createdAt) y'.now)
          kind caller args sync) := by
    intro kind a a' sp sp' caller args createdAt amount sync h1 h2 ht
    rw [← h.now] at ht ⊢
    rcases h.ledger.executeCreateCanister h1 h2 amount (opt64 createdAt) y.now with h3 | h3 | h3
    · refine Or.inl (h.sendCreate h3 kind caller args sync
        (fun h1 h2 h3 => ht h1 h2 (fun h4 => h3 ?_)))
      obtain ⟨h4, h5, rfl⟩ := h4
      exact ⟨executeCreateCanister_blank h4 _ _ _ _, executeCreateCanister_blank h5 _ _ _ _⟩
    · exact Or.inr ⟨Or.inl (h3.create kind caller args sync), fun h => h3.not_blank h.1⟩
    · exact Or.inr ⟨Or.inr (h3.create kind caller args sync), fun h => h3.not_blank h.2⟩
  have href : ∀ {sync : Option CallError}, sync ≠ none → ∃ c, sync = some c := by
    intro sync h; cases sync with
    | none => exact absurd rfl h
    | some c => exact ⟨c, rfl⟩
  cases hm with
  | deposit caller cycles memo h1 => exact Or.inl (hdep _ _ _ _ _ h1)
  | transfer caller amount fee memo createdAt h1 h2 => exact htr _ _ _ _ _ _ _ _ _ h1 h2
  | transferFrom caller amount fee memo createdAt h1 h2 h3 =>
    exact htf _ _ _ _ _ _ _ _ _ _ _ h1 h2 h3
  | approve caller amount expected expiresAt fee memo createdAt h1 h2 =>
    exact hap caller ⟨_, _, amount, expected, expiresAt, fee, memo, createdAt⟩
      ⟨_, _, amount, expected, expiresAt, fee, memo, createdAt⟩ h1 h2 rfl rfl rfl rfl rfl rfl
  | withdraw caller to createdAt amount sync h1 =>
    exact hwd .withdraw _ _ none none to createdAt amount sync (sameSub_key h1) rfl
      (fun h => absurd rfl h)
  | withdrawFrom caller to createdAt amount sync h1 h2 =>
    refine hwd .withdrawFrom _ _ (some _) (some _) to createdAt amount sync (sameAccount_key h2)
      (congrArg some (sameSub_key h1)) (fun _ hs hb => ht ?_ hb)
    obtain ⟨c, rfl⟩ := href hs
    trivial
  | createCanister caller createdAt amount args sync h1 =>
    exact hcc .createCanister _ _ none none caller args createdAt amount sync (sameSub_key h1) rfl
      (fun h => absurd rfl h)
  | createCanisterFrom caller createdAt amount args sync h1 h2 =>
    refine hcc .createCanisterFrom _ _ (some _) (some _) caller args createdAt amount sync
      (sameAccount_key h2) (congrArg some (sameSub_key h1)) (fun _ hs hb => ht ?_ hb)
    obtain ⟨c, rfl⟩ := href hs
    trivial
  | same =>
    cases m with
    | deposit caller cycles arg => exact Or.inl (hdep _ _ _ _ _ ⟨rfl, rfl⟩)
    | transfer caller args => exact htr _ _ _ _ _ _ _ _ _ rfl ⟨rfl, rfl⟩
    | transferFrom caller args => exact htf _ _ _ _ _ _ _ _ _ _ _ rfl ⟨rfl, rfl⟩ ⟨rfl, rfl⟩
    | approve caller args => exact hap caller args args rfl ⟨rfl, rfl⟩ rfl rfl rfl rfl rfl rfl
    | withdraw caller args sync =>
      exact hwd .withdraw _ _ none none args.to args.createdAtTime args.amount sync rfl rfl
        (fun h => absurd rfl h)
    | withdrawFrom caller args sync =>
      refine hwd .withdrawFrom _ _ (some _) (some _) args.to args.createdAtTime args.amount sync
        rfl rfl (fun _ hs hb => ht ?_ hb)
      obtain ⟨c, rfl⟩ := href hs
      trivial
    | createCanister caller args sync =>
      exact hcc .createCanister _ _ none none caller args.creationArgs args.createdAtTime
        args.amount sync rfl rfl (fun h => absurd rfl h)
    | createCanisterFrom caller args sync =>
      refine hcc .createCanisterFrom _ _ (some _) (some _) caller args.creationArgs
        args.createdAtTime args.amount sync rfl rfl (fun _ hs hb => ht ?_ hb)
      obtain ⟨c, rfl⟩ := href hs
      trivial
    | callback i ans => exact Or.inl (h.exec_callback i ans
        (fun hb => ht trivial (fun h => hb ⟨h.1, h.2.1⟩)))
    | lostCallback i => exact Or.inl ⟨⟨h.ledger, h.now, h.pending.eraseIdx i, h.cycles⟩, rfl⟩
    | upgrade arg =>
      left
      have hu := h.ledger.postUpgrade arg
      unfold Sys.exec
      revert hu
      simp only
      cases CyclesLedger.postUpgrade y.ledger arg <;>
        cases CyclesLedger.postUpgrade y'.ledger arg <;> intro hu <;>
        simp only [OptSim] at hu
      · exact ⟨h, rfl⟩
      · exact ⟨⟨hu, h.now, h.pending, h.cycles⟩, rfl⟩

end CyclesLedger
