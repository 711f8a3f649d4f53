import Verif.Model.Generator
import Verif.Props.Oracle
import Verif.Props.Acceptance
/-!
# C99: the calls that the tests generate
-/
namespace CyclesLedger

/-! ## The generator by itself -/

/-- `f` with one value replaced. -/
theorem sum_replace {α : Type} [DecidableEq α] (f : α → Nat) (k : α) (v : Nat) : ∀ ks : List α,
    ks.Nodup → (ks.map (fun x => if x = k then v else f x)).sum + (if k ∈ ks then f k else 0) =
      (ks.map f).sum + (if k ∈ ks then v else 0)
  | [], _ => by simp
  | x :: ks, h => by
    rw [List.nodup_cons] at h
    have ih := sum_replace f k v ks h.2
    simp only [List.map_cons, List.sum_cons, List.mem_cons]
    by_cases hx : x = k
    · subst hx
      rw [if_neg h.1, if_neg h.1] at ih
      simp only [if_true, true_or]
      omega
    · have hx' : ¬k = x := fun h => hx h.symm
      simp only [if_neg hx, hx', false_or]
      omega

/-- The balances of any accounts are together at most `n`. -/
def Bounded (f : AccountKey → Nat) (n : Nat) : Prop :=
  ∀ ks : List AccountKey, ks.Nodup → (ks.map f).sum ≤ n

theorem Bounded.of_mem {f : AccountKey → Nat} {n : Nat} (k : AccountKey)
    (h : ∀ ks : List AccountKey, ks.Nodup → k ∈ ks → (ks.map f).sum ≤ n) : Bounded f n := by
  intro ks hks
  by_cases hk : k ∈ ks
  · exact h ks hks hk
  · have := h (k :: ks) (List.nodup_cons.mpr ⟨hk, hks⟩) List.mem_cons_self
    simp only [List.map_cons, List.sum_cons] at this
    omega

theorem Bounded.one {f : AccountKey → Nat} {n : Nat} (h : Bounded f n) (k : AccountKey) :
    f k ≤ n := by
  have := h [k] (by simp)
  simpa using this

theorem Bounded.two {f : AccountKey → Nat} {n : Nat} (h : Bounded f n) {k l : AccountKey}
    (hkl : k ≠ l) : f k + f l ≤ n := by
  have := h [k, l] (by simp [hkl])
  simpa using this

theorem Bounded.less {f : AccountKey → Nat} {n : Nat} (h : Bounded f n) {k : AccountKey} {x : Nat}
    (hx : x ≤ f k) : Bounded (fun l => if l = k then f k - x else f l) (n - x) := by
  refine Bounded.of_mem k (fun ks hks hk => ?_)
  have h1 := sum_replace f k (f k - x) ks hks
  have h2 := h ks hks
  have h3 := h.one k
  rw [if_pos hk, if_pos hk] at h1
  omega

theorem Bounded.more {f : AccountKey → Nat} {n : Nat} (h : Bounded f n) (k : AccountKey) (x : Nat) :
    Bounded (fun l => if l = k then f k + x else f l) (n + x) := by
  intro ks hks
  have h1 := sum_replace f k (f k + x) ks hks
  have h2 := h ks hks
  by_cases hk : k ∈ ks
  · rw [if_pos hk, if_pos hk] at h1; omega
  · rw [if_neg hk, if_neg hk] at h1; omega

/-- The balance in the reference ledger. -/
def Oracle.bal (o : Oracle) (k : AccountKey) : Nat := (o.balances k).getD 0

theorem Oracle.bal_set (o : Oracle) (a : Account) (x : Nat) :
    (o.setBalance a x).bal = fun l => if l = a.key then x else o.bal l := by
  funext l
  simp only [Oracle.bal, Oracle.setBalance]
  split <;> rfl

/-- What holds of the reference ledger while calls are generated. -/
structure GenInv (g : GenState) : Prop where
  room : g.oracle.totalSupply + g.depositorCycles ≤ U128MAX
  bounded : Bounded g.oracle.bal g.oracle.totalSupply
  owners : ∀ k b, g.oracle.balances k = some b → Arb.principal k.1
  allowances : ∀ k x, g.oracle.allowances k = some x →
    k.1.1 ≠ k.2.1 ∧ Arb.principal k.1.1 ∧ Arb.principal k.2.1

theorem GenInv.new {cycles : Nat} (h : cycles ≤ U128MAX) : GenInv (GenState.new cycles) where
  room := by simpa [GenState.new, Oracle.empty] using h
  bounded := by
    intro ks _
    have : (GenState.new cycles).oracle.bal = fun _ => 0 := rfl
    rw [this]
    have hz : ∀ ks : List AccountKey, (ks.map (fun _ => 0)).sum = 0 := by
      intro ks
      induction ks with
      | nil => rfl
      | cons k ks ih => simpa using ih
    rw [hz]
    exact Nat.zero_le _
  owners := fun k b h => nomatch h
  allowances := fun k b h => nomatch h

/-- A transfer that the sender can pay. -/
theorem gen_transfer {o : Oracle} {a to : Account} {b x : Nat} (hb : o.balances a.key = some b)
    (hx : x + FEE ≤ b) (hne : a.key ≠ to.key) (hbd : Bounded o.bal o.totalSupply)
    (hroom : o.totalSupply ≤ U128MAX) :
    ∃ o', o.transfer a to x = some o' ∧ o'.totalSupply = o.totalSupply - FEE ∧
      Bounded o'.bal o'.totalSupply ∧ o'.allowances = o.allowances ∧
      ∀ k c, o'.balances k = some c → k = to.key ∨ ∃ d, o.balances k = some d := by
  unfold Oracle.transfer
  obtain ⟨F, hF⟩ : ∃ F, FEE = F := ⟨_, rfl⟩
  rw [hF] at hx ⊢
  have hba : o.bal a.key = b := by unfold Oracle.bal; rw [hb]; rfl
  have h1 := hbd.one a.key
  have h2 := hbd.two hne
  have e1 : Oracle.toU128 x = some x := by unfold Oracle.toU128; rw [if_pos (by omega)]
  have e2 : checkedSub b x = some (b - x) := checkedSub_eq_some.mpr ⟨by omega, rfl⟩
  have e3 : checkedSub (b - x) F = some (b - x - F) := checkedSub_eq_some.mpr ⟨by omega, rfl⟩
  have e4 : ((o.setBalance a (b - x - F)).balances to.key).getD 0 = o.bal to.key := by
    simp only [Oracle.setBalance]
    rw [if_neg (fun h => hne h.symm)]
    rfl
  have e5 : checkedAdd (o.bal to.key) x = some (o.bal to.key + x) :=
    checkedAdd_eq_some.mpr ⟨rfl, by omega⟩
  have e6 : checkedSub o.totalSupply F = some (o.totalSupply - F) :=
    checkedSub_eq_some.mpr ⟨by omega, rfl⟩
  have e7 : ((o.setBalance a (b - x - F)).setBalance to (o.bal to.key + x)).totalSupply =
    o.totalSupply := rfl
  refine ⟨{ (o.setBalance a (b - x - F)).setBalance to (o.bal to.key + x) with
    totalSupply := o.totalSupply - F }, ?_, rfl, ?_, rfl, ?_⟩
  · simp only [hb, e1, e2, e3, e4, e5, e6, e7, Option.bind_eq_bind, Option.bind_some]
  · have h3 := (hbd.less (k := a.key) (x := x + F) (by omega)).more to.key x
    have h4 : o.totalSupply - (x + F) + x = o.totalSupply - F := by omega
    rw [h4] at h3
    refine (show ∀ f g : AccountKey → Nat, f = g → Bounded f (o.totalSupply - F) →
      Bounded g (o.totalSupply - F) from fun f g h => h ▸ id) _ _ ?_ h3
    show _ = ((o.setBalance a (b - x - F)).setBalance to (o.bal to.key + x)).bal
    rw [Oracle.bal_set, Oracle.bal_set]
    funext l
    by_cases hl : l = to.key
    · simp only [hl, if_true]
      rw [if_neg (fun h => hne h.symm)]
    · simp only [if_neg hl]
      by_cases hl' : l = a.key
      · simp only [hl', if_true, hba]; omega
      · simp only [if_neg hl']
  · intro k c hk
    simp only [Oracle.setBalance] at hk
    split at hk
    · exact Or.inl ‹_›
    · split at hk
      · rename_i h; exact Or.inr ⟨b, by rw [h]; exact hb⟩
      · exact Or.inr ⟨c, hk⟩

/-- Every call that is drawn can be executed, and the invariant is kept. -/
theorem gen_step {g : GenState} (hi : GenInv g) {depositor : Principal} {now : UInt64} {m : Msg}
    (hd : Draws g depositor now (some m)) : ∃ g', g.execute m = some g' ∧ GenInv g' := by
  have hroom := hi.room
  cases hd with
  | deposit cycles arg h1 h2 h3 h4 h5 h6 =>
    unfold GenState.execute Oracle.execute
    obtain ⟨F, hF⟩ : ∃ F, FEE = F := ⟨_, rfl⟩
    simp only [hF] at h2 h3 ⊢
    obtain ⟨D, hD⟩ : ∃ D, 10000000000000 = D := ⟨_, rfl⟩
    simp only [hD]
    have e1 : checkedSub cycles.val F = some (cycles.val - F) :=
      checkedSub_eq_some.mpr ⟨h3, rfl⟩
    have hb := hi.bounded.one arg.to.key
    have e2 : checkedAdd (g.oracle.bal arg.to.key) (cycles.val - F) =
        some (g.oracle.bal arg.to.key + (cycles.val - F)) :=
      checkedAdd_eq_some.mpr ⟨rfl, by omega⟩
    have e3 : checkedAdd g.oracle.totalSupply (cycles.val - F) =
        some (g.oracle.totalSupply + (cycles.val - F)) :=
      checkedAdd_eq_some.mpr ⟨rfl, by omega⟩
    have e4 : (g.oracle.balances arg.to.key).getD 0 = g.oracle.bal arg.to.key := rfl
    have e5 : (g.oracle.setBalance arg.to (g.oracle.bal arg.to.key + (cycles.val - F))).totalSupply
      = g.oracle.totalSupply := rfl
    refine ⟨⟨{ g.oracle.setBalance arg.to (g.oracle.bal arg.to.key + (cycles.val - F)) with
        totalSupply := g.oracle.totalSupply + (cycles.val - F) },
      g.depositorCycles - min U128MAX (D + (cycles.val - F))⟩, ?_, ?_, ?_, ?_, ?_⟩
    · simp only [e1, e2, e3, e4, e5, Option.bind_eq_bind,
        Option.bind_some]
    · have hd : cycles.val - F ≤ min U128MAX (D + (cycles.val - F)) := by
        have := cycles.isLt
        omega
      generalize min U128MAX (D + (cycles.val - F)) = d at hd
      have hs : ∀ s t : Nat, s = g.oracle.totalSupply + (cycles.val - F) →
          t = g.depositorCycles - d → s + t ≤ U128MAX := by
        rintro s t rfl rfl
        omega
      exact hs _ _ rfl rfl
    · show Bounded (Oracle.bal (g.oracle.setBalance _ _)) _
      rw [Oracle.bal_set]
      exact hi.bounded.more _ _
    · intro k b hk
      simp only [Oracle.setBalance] at hk
      split at hk
      · rename_i h; rw [h]; exact h5
      · exact hi.owners k b hk
    · exact hi.allowances
  | approve a b args h1 h2 h3 h4 h5 =>
    unfold GenState.execute Oracle.execute
    unfold GenState.Funded at h1
    obtain ⟨F, hF⟩ : ∃ F, FEE = F := ⟨_, rfl⟩
    simp only [hF] at h1 ⊢
    obtain ⟨hb, hf⟩ := h1
    have hba : g.oracle.bal a.key = b := by unfold Oracle.bal; rw [hb]; rfl
    have hle := hi.bounded.one a.key
    have ha : (⟨a.owner, args.fromSubaccount⟩ : Account) = a := by rw [h2]
    have e1 : checkedSub b F = some (b - F) := checkedSub_eq_some.mpr ⟨hf, rfl⟩
    have e2 : Oracle.toU128 args.amount = some args.amount := by
      unfold Oracle.toU128 GenState.tokenPool at *; rw [if_pos (by omega)]
    have e3 : checkedSub g.oracle.totalSupply F = some (g.oracle.totalSupply - F) :=
      checkedSub_eq_some.mpr ⟨by omega, rfl⟩
    have e4 : ((g.oracle.setBalance a (b - F)).setAllowance a args.spender args.amount).totalSupply
      = g.oracle.totalSupply := rfl
    refine ⟨⟨{ (g.oracle.setBalance a (b - F)).setAllowance a args.spender args.amount with
        totalSupply := g.oracle.totalSupply - F }, g.depositorCycles⟩, ?_, ?_, ?_, ?_, ?_⟩
    · simp only [ha, hb, e1, e2, e3, e4, Option.bind_eq_bind,
        Option.bind_some]
    · show g.oracle.totalSupply - F + g.depositorCycles ≤ _
      omega
    · show Bounded (Oracle.bal (g.oracle.setBalance a (b - F))) (g.oracle.totalSupply - F)
      rw [Oracle.bal_set]
      have := hi.bounded.less (k := a.key) (x := F) (by omega)
      rwa [hba] at this
    · intro k c hk
      simp only [Oracle.setBalance, Oracle.setAllowance] at hk
      split at hk
      · rename_i h; rw [h]; exact hi.owners _ _ hb
      · exact hi.owners k c hk
    · intro k x hk
      simp only [Oracle.setBalance, Oracle.setAllowance] at hk
      split at hk
      · rename_i h; rw [h]; exact ⟨h4, hi.owners _ _ hb, h3⟩
      · exact hi.allowances k x hk
  | withdraw a b args h1 h2 h3 h4 h5 =>
    unfold GenState.execute Oracle.execute
    unfold GenState.Funded at h1
    obtain ⟨F, hF⟩ : ∃ F, FEE = F := ⟨_, rfl⟩
    simp only [hF] at h1 h4 ⊢
    obtain ⟨hb, hf⟩ := h1
    have hba : g.oracle.bal a.key = b := by unfold Oracle.bal; rw [hb]; rfl
    have hle := hi.bounded.one a.key
    have ha : (⟨a.owner, args.fromSubaccount⟩ : Account) = a := by rw [h2]
    have e1 : Oracle.toU128 args.amount = some args.amount := by
      unfold Oracle.toU128; rw [if_pos (by omega)]
    have e2 : checkedAdd args.amount F = some (args.amount + F) :=
      checkedAdd_eq_some.mpr ⟨rfl, by omega⟩
    have e3 : checkedSub b (args.amount + F) = some (b - (args.amount + F)) :=
      checkedSub_eq_some.mpr ⟨by omega, rfl⟩
    have e4 : checkedSub g.oracle.totalSupply (args.amount + F) =
        some (g.oracle.totalSupply - (args.amount + F)) :=
      checkedSub_eq_some.mpr ⟨by omega, rfl⟩
    have e5 : (g.oracle.setBalance a (b - (args.amount + F))).totalSupply = g.oracle.totalSupply := rfl
    refine ⟨⟨{ g.oracle.setBalance a (b - (args.amount + F)) with
        totalSupply := g.oracle.totalSupply - (args.amount + F) }, g.depositorCycles⟩,
      ?_, ?_, ?_, ?_, hi.allowances⟩
    · simp only [ha, hb, e1, e2, e3, e4, e5, Option.bind_eq_bind, Option.bind_some]
    · show g.oracle.totalSupply - _ + g.depositorCycles ≤ _
      omega
    · show Bounded (Oracle.bal (g.oracle.setBalance a _)) _
      rw [Oracle.bal_set]
      have := hi.bounded.less (k := a.key) (x := args.amount + F) (by omega)
      rwa [hba] at this
    · intro k c hk
      simp only [Oracle.setBalance] at hk
      split at hk
      · rename_i h; rw [h]; exact hi.owners _ _ hb
      · exact hi.owners k c hk
  | transfer a b args h1 h2 h3 h4 h5 =>
    obtain ⟨hb, hf⟩ := h1
    have ha : (⟨a.owner, args.fromSubaccount⟩ : Account) = a := by rw [h2]
    obtain ⟨o', e1, e2, e3, e4, e5⟩ := gen_transfer hb (x := args.amount) (by omega) h4 hi.bounded
      (by omega)
    unfold GenState.execute Oracle.execute
    obtain ⟨F, hF⟩ : ∃ F, FEE = F := ⟨_, rfl⟩
    simp only [hF] at h5 hf e2 ⊢
    refine ⟨⟨o', g.depositorCycles⟩, ?_, ?_, e3, ?_, ?_⟩
    · simp only [ha, e1, Option.bind_eq_bind, Option.bind_some]
    · show o'.totalSupply + g.depositorCycles ≤ _
      omega
    · intro k c hk
      rcases e5 k c hk with rfl | ⟨d, hd⟩
      · exact h3
      · exact hi.owners k d hd
    · show ∀ k x, o'.allowances k = some x → _
      rw [e4]
      exact hi.allowances
  | transferFrom a sp b x args h1 h2 h3 h4 h5 h6 h7 h8 =>
    obtain ⟨hb, hf⟩ := h1
    subst h4
    have hsp : (⟨sp.owner, args.spenderSubaccount⟩ : Account) = sp := by rw [h5]
    obtain ⟨o', e1, e2, e3, e4, e5⟩ := gen_transfer hb (x := args.amount) (by omega) h7 hi.bounded
      (by omega)
    unfold GenState.execute Oracle.execute
    obtain ⟨F, hF⟩ : ∃ F, FEE = F := ⟨_, rfl⟩
    simp only [hF] at h3 h8 hf e2 ⊢
    have hle := hi.bounded.one args.frm.key
    have hba : g.oracle.bal args.frm.key = b := by unfold Oracle.bal; rw [hb]; rfl
    have e6 : Oracle.toU128 args.amount = some args.amount := by
      unfold Oracle.toU128; rw [if_pos (by omega)]
    have e7 : checkedSub x args.amount = some (x - args.amount) :=
      checkedSub_eq_some.mpr ⟨by omega, rfl⟩
    have e8 : checkedSub (x - args.amount) F = some (x - args.amount - F) :=
      checkedSub_eq_some.mpr ⟨by omega, rfl⟩
    have e9 : o'.allowances (args.frm.key, sp.key) = some x := by rw [e4]; exact h2
    refine ⟨⟨o'.setAllowance args.frm sp (x - args.amount - F), g.depositorCycles⟩, ?_, ?_, ?_, ?_, ?_⟩
    · simp only [hsp, e1, e6, e7, e8, e9, Option.bind_eq_bind,
        Option.bind_some]
    · show o'.totalSupply + g.depositorCycles ≤ _
      omega
    · exact e3
    · intro k c hk
      rcases e5 k c hk with rfl | ⟨d, hd⟩
      · exact h6
      · exact hi.owners k d hd
    · intro k c hk
      simp only [Oracle.setAllowance] at hk
      split at hk
      · rename_i h; rw [h]; exact hi.allowances _ _ h2
      · rw [e4] at hk; exact hi.allowances k c hk

theorem Generated.inv {depositor : Principal} {cycles : Nat} {now : UInt64} (hc : cycles ≤ U128MAX)
    {n : Nat} {g : GenState} (h : Generated depositor cycles now n g) : GenInv g := by
  induction h with
  | new => exact GenInv.new hc
  | call _ hd he ih =>
    obtain ⟨g', h1, h2⟩ := gen_step ih hd
    rw [h1] at he
    cases he
    exact h2

/-- **C99**: what is drawn can be executed: the `unwrap` on the reference ledger's answer
(tests/gen.rs:675) never panics. -/
theorem C99_executes {depositor : Principal} {cycles : Nat} {now : UInt64} (hc : cycles < 2 ^ 128)
    {n : Nat} {g : GenState} (h : Generated depositor cycles now n g) {m : Msg}
    (hd : Draws g depositor now (some m)) : ∃ g', g.execute m = some g' := by
  obtain ⟨g', h1, _⟩ := gen_step (h.inv (by rw [U128MAX_eq]; omega)) hd
  exact ⟨g', h1⟩

/-- **C99**: it panics exactly if the depositor has some cycles but less than the fee, or somebody
who can pay the fee has granted an allowance below the fee, or neither the depositor nor anybody
else has cycles for another call.  What is missing: these states can be reached
(`C99_refuted`). -/
theorem C99_panics_partial {g : GenState} {depositor : Principal} {now : UInt64} :
    Draws g depositor now none ↔
      (0 < g.depositorCycles ∧ g.depositorCycles < 100000000) ∨
      (∃ a sp b x, g.oracle.balances (Account.key a) = some b ∧ 100000000 ≤ b ∧
        g.oracle.allowances (a.key, Account.key sp) = some x ∧ x < 100000000) ∨
      (g.depositorCycles = 0 ∧
        ∀ a b, g.oracle.balances (Account.key a) = some b → b < 100000000) := by
  rw [← FEE_eq]
  constructor
  · intro h
    cases h with
    | depositPanic h1 h2 => exact Or.inl ⟨h1, h2⟩
    | transferFromPanic a sp b x h1 h2 h3 =>
      refine Or.inr (Or.inl ⟨a, sp, b, x, h1.1, h1.2, h2, ?_⟩)
      have := h1.2
      omega
    | stuck h1 h2 =>
      exact Or.inr (Or.inr ⟨h1, fun a b h => Nat.lt_of_not_le (fun hf => h2 a b ⟨h, hf⟩)⟩)
  · rintro (⟨h1, h2⟩ | ⟨a, sp, b, x, h1, h2, h3, h4⟩ | ⟨h1, h2⟩)
    · exact .depositPanic h1 h2
    · exact .transferFromPanic a sp b x ⟨h1, h2⟩ h3 (by omega)
    · exact .stuck h1 (fun a b h => absurd h.2 (Nat.not_le_of_lt (h2 a b h.1)))

/-! ## The generated calls and the ledger -/

/-- What the loop of the test (tests/tests.rs:5986-6023) does: an installation without initial
balances at or after the time `t0` that the generator is told; calls drawn, executed by the
reference ledger and accepted by the ledger; in between answers to withdrawals (successful ones,
or none because the ledger was reinstalled) and upgrades.  No allowance expires meanwhile. -/
inductive Spec.Tested [Crypto] (depositor : Principal) (cycles : Nat) (t0 : UInt64) :
    Sys → GenState → Prop
  | start {config : Config} {now held : Nat} {y : Sys} : Sys.init config now held = some y →
      config.initialBalances.getD [] = [] → t0.toNat ≤ y.now → y.now < Arb.expiry t0 →
      Spec.Tested depositor cycles t0 y (GenState.new cycles)
  | call {y : Sys} {g g' : GenState} {m : Msg} (dt : Nat) : Spec.Tested depositor cycles t0 y g →
      Draws g depositor t0 (some m) → g.execute m = some g' → Spec.Accepted (y.step ⟨dt, m⟩).2 →
      (y.step ⟨dt, m⟩).1.now < Arb.expiry t0 →
      Spec.Tested depositor cycles t0 (y.step ⟨dt, m⟩).1 g'
  | other {y : Sys} {g : GenState} {m : Msg} (dt : Nat) : Spec.Tested depositor cycles t0 y g →
      (∃ i, m = .callback i (.depositCycles none) ∨ m = .lostCallback i) ∨ (∃ a, m = .upgrade a) →
      (y.step ⟨dt, m⟩).1.now < Arb.expiry t0 →
      Spec.Tested depositor cycles t0 (y.step ⟨dt, m⟩).1 g

/-- The calls that may be drawn although the ledger refuses them: a deposit of just the fee, a
withdrawal of nothing, a call that was made before with the same `created_at_time`. -/
def Spec.Unlucky (s : State) (m : Msg) : Prop :=
  (∃ caller cycles arg, m = .deposit caller cycles arg ∧ cycles.val = 100000000) ∨
  (∃ caller args sync, m = .withdraw caller args sync ∧ args.amount = 0) ∨
  ∃ t, Spec.requestTransaction m = some t ∧ Spec.IsDuplicate s t

theorem expiry_lt (t0 : UInt64) : Arb.expiry t0 ≤ U64MAX := Nat.min_le_left _ _

theorem ofNat_toNat64 {n : Nat} (h : n ≤ U64MAX) : (UInt64.ofNat n).toNat = n := by
  rw [U64MAX_eq] at h
  rw [UInt64.toNat_ofNat']
  exact Nat.mod_eq_of_lt (by omega)

theorem arb_window {t0 : UInt64} {c : Option UInt64} {now : Nat} (h : Arb.createdAt t0 c)
    (h1 : t0.toNat ≤ now) (h2 : now < Arb.expiry t0) :
    Spec.InWindow (c.map UInt64.toNat) now := by
  intro x hx
  have h3 : now < t0.toNat + 3600000000000 := by unfold Arb.expiry at h2; omega
  have h4 := t0.toNat_lt
  rcases h with rfl | rfl
  · cases hx
  · simp only [Option.map_some, Option.some.injEq] at hx
    rw [ofNat_toNat64 (by rw [U64MAX_eq]; omega)] at hx
    omega

theorem arb_not_expired {t0 : UInt64} {e : Option UInt64} {now : Nat} (h : Arb.expiresAt t0 e)
    (ht : now < Arb.expiry t0) : now < (e.map UInt64.toNat).getD 18446744073709551615 := by
  have he := expiry_lt t0
  rcases h with rfl | rfl
  · rw [U64MAX_eq] at he
    exact Nat.lt_of_lt_of_le ht he
  · rw [Option.map_some, Option.getD_some, ofNat_toNat64 he]
    exact ht

theorem Arb.memo_fits {m : Option Bytes} (h : Arb.memo m) : Spec.MemoFits m :=
  fun x hx => Nat.le_of_lt (h x hx)

theorem Arb.fee_ok {f : Option Nat} (h : Arb.fee f) : f = none ∨ f = some 100000000 := by
  rcases h with rfl | rfl
  · exact Or.inl rfl
  · exact Or.inr (by rw [FEE_eq])

/-- What is drawn is in the scope of the comparison C79. -/
theorem draws_inScope {g : GenState} (hi : GenInv g) {depositor : Principal} {t0 : UInt64} {m : Msg}
    (hd : Draws g depositor t0 (some m)) {T : Nat} (hT : T < Arb.expiry t0) :
    Spec.InScope T m ∧ Spec.isCall m = true := by
  cases hd with
  | deposit => exact ⟨trivial, rfl⟩
  | transfer => exact ⟨trivial, rfl⟩
  | withdraw => exact ⟨rfl, rfl⟩
  | approve a b args h1 h2 h3 h4 h5 h6 h7 =>
    refine ⟨⟨?_, fun e he => ?_⟩, rfl⟩
    · unfold GenState.tokenPool at h5
      rw [U128MAX_eq] at h5
      omega
    · rcases h7 with h7 | h7
      · rw [h7] at he; cases he
      · rw [h7] at he
        cases he
        rw [ofNat_toNat64 (expiry_lt t0)]
        exact hT
  | transferFrom a sp b x args h1 h2 h3 h4 h5 =>
    refine ⟨fun hs => ?_, rfl⟩
    have := (hi.allowances _ _ h2).1
    subst h4
    exact this hs.1.symm

structure TestedInv [Crypto] (depositor : Principal) (cycles : Nat) (t0 : UInt64) (y : Sys)
    (g : GenState) : Prop where
  reach : Reachable y
  gen : ∃ n, Generated depositor cycles t0 n g
  follows : Follows (Arb.expiry t0 - 1) g.oracle y.ledger
  after : t0.toNat ≤ y.now
  before : y.now < Arb.expiry t0

theorem step_now [Crypto] {y : Sys} (h : Reachable y) (e : Event) :
    (y.step e).1.now = (y.tick e.dt).now := (exec_moved (h.tick e.dt).inv e.msg).now

theorem tick_now_le [Crypto] {y : Sys} (h : Reachable y) (dt : Nat) : y.now ≤ (y.tick dt).now := by
  have h1 := (step_grows h.inv ⟨dt, .lostCallback 0⟩).1
  rwa [step_now h ⟨dt, .lostCallback 0⟩] at h1

theorem Spec.Tested.inv [Crypto] {depositor : Principal} {cycles : Nat} {t0 : UInt64}
    (hc : cycles ≤ U128MAX) {y : Sys} {g : GenState} (h : Spec.Tested depositor cycles t0 y g) :
    TestedInv depositor cycles t0 y g := by
  induction h with
  | @start config now held y h h0 h1 h2 =>
    refine ⟨⟨config, now, held, y, [], h, rfl⟩, ⟨0, .new⟩, ?_, h1, h2⟩
    obtain ⟨o', h3, h4⟩ := C79_from_empty (T := y.now) h h0 (es := []) (fun e he => nomatch he)
      (Nat.le_refl _)
    cases h3
    exact follows_start h h4 _
  | @call y g g' m dt h hd he ha ht ih =>
    obtain ⟨n, hn⟩ := ih.gen
    have hn1 := step_now ih.reach ⟨dt, m⟩
    have hn2 := tick_now_le ih.reach dt
    have hi := hn.inv hc
    have h3 : (y.tick dt).now ≤ Arb.expiry t0 - 1 := by
      simp only at hn1; omega
    have h4 := draws_inScope hi hd (T := Arb.expiry t0 - 1) (by omega)
    have h5 := ih.after
    refine ⟨(ih.reach.tick dt).exec m, ⟨n + 1, hn.call hd he⟩, ?_, by simp only at hn1; omega, ht⟩
    rcases follows_exec (ih.reach.tick dt) h3 (o := g.oracle) ih.follows h4.1 with
      ⟨_, _, o', h6, h7⟩ | ⟨h6, _⟩
    · have : g'.oracle = o' := by
        unfold GenState.execute at he
        rw [h6] at he
        simp only [Option.bind_eq_bind, Option.bind_some] at he
        split at he <;> cases he <;> rfl
      rw [this]
      exact h7
    · exact absurd ⟨h4.2, ha⟩ h6
  | @other y g m dt h hm ht ih =>
    have hn1 := step_now ih.reach ⟨dt, m⟩
    have hn2 := tick_now_le ih.reach dt
    have h3 : (y.tick dt).now ≤ Arb.expiry t0 - 1 := by
      simp only at hn1; omega
    have h4 : Spec.InScope (Arb.expiry t0 - 1) m ∧ ¬Spec.isCall m = true := by
      rcases hm with ⟨i, rfl | rfl⟩ | ⟨a, rfl⟩
      · exact ⟨rfl, by simp [Spec.isCall]⟩
      · exact ⟨trivial, by simp [Spec.isCall]⟩
      · exact ⟨trivial, by simp [Spec.isCall]⟩
    have h5 := ih.after
    refine ⟨(ih.reach.tick dt).exec m, ih.gen, ?_, by simp only at hn1; omega, ht⟩
    rcases follows_exec (ih.reach.tick dt) h3 (o := g.oracle) ih.follows h4.1 with
      ⟨h6, _⟩ | ⟨_, h6⟩
    · exact absurd h6 h4.2
    · exact h6

/-- **C99**: throughout the test the reference ledger and the ledger agree: `check_ledger_state`
succeeds, after every call, answer and upgrade. -/
theorem C99_consistent [Crypto] {depositor : Principal} {cycles : Nat} {t0 : UInt64}
    (hc : cycles < 2 ^ 128) {y : Sys} {g : GenState} (h : Spec.Tested depositor cycles t0 y g) :
    Spec.Agree g.oracle y := by
  have hi := h.inv (by rw [U128MAX_eq]; omega)
  have := hi.before
  exact hi.follows.agree (by omega)

theorem spendable_of_follows [Crypto] {T : Nat} {o : Oracle} {s : State} (hf : Follows T o s)
    {now : Nat} (hT : now ≤ T) (a sp : Account) :
    Spec.spendable s a sp now = (o.allowances (a.key, sp.key)).getD 0 := by
  rw [hf.allowance]
  unfold Spec.spendable Spec.live Spec.stored
  cases hg : s.approvals.get (a.key, sp.key) with
  | none => rfl
  | some v =>
    obtain ⟨x, e⟩ := v
    rcases hf.expiry _ _ _ hg with h | h
    · simp [h]
    · have h1 : now < e := by omega
      simp [h1]

/-- **C99**, up to the calls of `Spec.Unlucky` (see `C99_refuted`) and to collisions with this
transaction: the ledger accepts the calls that are drawn.  What is missing: unlucky calls
are drawn too, and refused. -/
theorem C99_accepted_partial [Crypto] {depositor : Principal} {cycles : Nat} {t0 : UInt64}
    (hc : cycles < 2 ^ 128) (hu : ¬Spec.IsUserPrincipal depositor) {y : Sys} {g : GenState}
    (h : Spec.Tested depositor cycles t0 y g) {m : Msg} (hd : Draws g depositor t0 (some m))
    {dt : Nat} (ht : (y.tick dt).now < Arb.expiry t0)
    (hn : ∀ t, Spec.requestTransaction m = some t → Spec.NoClash y.ledger t) :
    Spec.Accepted (y.step ⟨dt, m⟩).2 ↔ ¬Spec.Unlucky y.ledger m := by
  have hti := h.inv (by rw [U128MAX_eq]; omega)
  obtain ⟨n, hg⟩ := hti.gen
  have hi := hg.inv (by rw [U128MAX_eq]; omega)
  have hr := hti.reach.tick dt
  have hnow := tick_now_le hti.reach dt
  have hafter := hti.after
  have hf := hti.follows
  have hagree : Spec.Agree g.oracle (y.tick dt) :=
    Follows.agree (y := y.tick dt) hf (by omega)
  have hl : (y.tick dt).ledger = y.ledger := rfl
  have hbal : ∀ a b, g.Funded a b → balanceOf y.ledger a = b ∧ 100000000 ≤ b := by
    rintro a b ⟨h1, h2⟩
    rw [FEE_eq] at h2
    have := hf.balance a
    rw [h1] at this
    exact ⟨this.symm, h2⟩
  have hown : ∀ a b, g.Funded a b → a.owner ≠ managementCanister :=
    fun a b h1 => (hi.owners _ _ h1.1).1
  show Spec.Accepted ((y.tick dt).exec m).2 ↔ _
  cases hd with
  | deposit cy arg h1 h2 h3 h4 h5 h6 =>
    rw [FEE_eq] at h3
    have hroom := hi.room
    rw [U128MAX_eq, hf.supply] at hroom
    have hnd : Spec.Unlucky y.ledger (.deposit depositor cy arg) ↔ cy.val = 100000000 := by
      constructor
      · rintro (⟨_, _, _, he, h⟩ | ⟨_, _, _, he, _⟩ | ⟨t, he, h⟩)
        · cases he; exact h
        · cases he
        · cases he; exact absurd h.1 (by simp)
      · exact fun h => Or.inl ⟨_, _, _, rfl, h⟩
    rw [hnd]
    rcases exec_deposit hr.inv depositor cy arg with ⟨s', e1, _, e2, _⟩ | ⟨e1, e2⟩
    · rw [e1]
      exact ⟨fun _ => by omega, fun _ => Or.inr ⟨_, rfl⟩⟩
    · rw [e1]
      refine ⟨?_, fun h => ?_⟩
      · rintro (h | ⟨_, h⟩) <;> cases h
      · exfalso
        rcases e2 with e2 | e2 | e2
        · omega
        · exact e2 (Arb.memo_fits h6)
        · rw [hl] at e2; omega
  | approve a b args h1 h2 h3 h4 h5 h6 h7 h8 h9 h10 =>
    have ha : (⟨a.owner, args.fromSubaccount⟩ : Account) = a := by rw [h2]
    have key := C60_approve_iff hr (m := .approve a.owner args) rfl (hn _ rfl)
    have hv : Spec.ApproveValid (y.tick dt).ledger (y.tick dt).now
        ⟨⟨a.owner, args.fromSubaccount⟩, args.spender, args.amount, args.expectedAllowance,
          args.expiresAt.map UInt64.toNat, args.fee, args.memo, args.createdAtTime.map UInt64.toNat⟩ := by
      rw [ha]
      refine ⟨h4, ⟨hown _ _ h1, h3.1⟩, fun x hx => ?_, (Arb.fee_ok h8), (Arb.memo_fits h9),
        arb_window h10 (by omega) ht, ?_, ?_⟩
      · simp only at hx
        rcases h6 with h6 | h6
        · rw [h6] at hx; cases hx
        · rw [h6] at hx; cases hx; exact hagree.allowance a args.spender
      · have := hbal a b h1
        rw [hl]
        simp only
        omega
      · exact arb_not_expired h7 ht
    have hnd : Spec.Unlucky y.ledger (.approve a.owner args) ↔ Spec.IsDuplicate y.ledger
        (Spec.ApproveReq.transaction ⟨⟨a.owner, args.fromSubaccount⟩, args.spender, args.amount, args.expectedAllowance,
          args.expiresAt.map UInt64.toNat, args.fee, args.memo, args.createdAtTime.map UInt64.toNat⟩) := by
      constructor
      · rintro (⟨_, _, _, he, _⟩ | ⟨_, _, _, he, _⟩ | ⟨t, he, h⟩)
        · cases he
        · cases he
        · cases he; exact h
      · exact fun h => Or.inr (Or.inr ⟨_, rfl, h⟩)
    rw [hnd]
    constructor
    · rintro (h | h)
      · simp only [Sys.exec, Sys.commit] at h
        split at h <;> cases h
      · exact (key.mp h).2
    · exact fun h => Or.inr (key.mpr ⟨hv, h⟩)
  | withdraw a b args h1 h2 h3 h4 h5 =>
    have ha : (⟨a.owner, args.fromSubaccount⟩ : Account) = a := by rw [h2]
    obtain ⟨k1, k2, _⟩ := C61_burn_iff hr (m := .withdraw a.owner args none) rfl (hn _ rfl)
    have hb := hbal a b h1
    rw [FEE_eq] at h4
    have hv : Spec.BurnValid (y.tick dt).ledger (y.tick dt).now
        ⟨⟨a.owner, args.fromSubaccount⟩, none, args.amount, args.createdAtTime.map UInt64.toNat⟩ := by
      rw [ha]
      refine ⟨arb_window h5 (by omega) ht, ?_, fun sp hs => nomatch hs.1⟩
      rw [hl]
      simp only
      omega
    have hacc : Spec.Accepted ((y.tick dt).exec (.withdraw a.owner args none)).2 ↔
        Spec.burnError ((y.tick dt).exec (.withdraw a.owner args none)).2 = none := by
      constructor
      · rintro (h | ⟨i, h⟩)
        · exact (k2 rfl).mp h
        · exfalso
          rcases exec_burn hr.inv (m := .withdraw a.owner args none) rfl with
            ⟨s', p, _, _, _, _, _, _, ⟨_, hx⟩ | ⟨hx, _⟩⟩ | ⟨e, he⟩
          · rw [hx] at h; cases h
          · exact absurd rfl hx
          · rw [he.2.1] at h; cases h
      · exact fun h => Or.inl ((k2 rfl).mpr h)
    rw [hacc, k1]
    constructor
    · rintro ⟨_, e1, e2⟩ (⟨_, _, _, he, _⟩ | ⟨_, _, _, he, h0⟩ | ⟨t, he, h0⟩)
      · cases he
      · cases he
        have := e1.2
        simp only at this
        omega
      · cases he; exact e2 h0
    · intro h0
      refine ⟨hv, ⟨by rw [h3]; exact hu, ?_⟩, fun h => h0 (Or.inr (Or.inr ⟨_, rfl, h⟩))⟩
      simp only
      refine Nat.pos_of_ne_zero (fun hz => h0 (Or.inr (Or.inl ⟨_, _, _, rfl, hz⟩)))
  | transfer a b args h1 h2 h3 h4 h5 h6 h7 h8 =>
    have ha : (⟨a.owner, args.fromSubaccount⟩ : Account) = a := by rw [h2]
    have key := C63_transfer_iff hr (m := .transfer a.owner args) rfl (hn _ rfl)
    have hb := hbal a b h1
    rw [FEE_eq] at h5
    have hv : Spec.TransferValid (y.tick dt).ledger (y.tick dt).now
        ⟨⟨a.owner, args.fromSubaccount⟩, args.to, none, args.amount, args.fee, args.memo,
          args.createdAtTime.map UInt64.toNat⟩ := by
      rw [ha]
      refine ⟨⟨hown _ _ h1, h3.1, fun sp hs => nomatch hs⟩, (Arb.fee_ok h6), (Arb.memo_fits h7),
        arb_window h8 (by omega) ht, ?_, fun sp hs => nomatch hs.1⟩
      rw [hl]
      simp only
      omega
    have hso : ¬Spec.SelfOverflow (y.tick dt).ledger
        ⟨⟨a.owner, args.fromSubaccount⟩, args.to, none, args.amount, args.fee, args.memo,
          args.createdAtTime.map UInt64.toNat⟩ := by
      rw [ha]
      exact fun h => h4 ((sameAccount_iff _ _).mp h.1).symm
    constructor
    · rintro (h | h)
      · simp only [Sys.exec, Sys.commit] at h
        split at h <;> cases h
      · rintro (⟨_, _, _, he, _⟩ | ⟨_, _, _, he, _⟩ | ⟨t, he, h0⟩)
        · cases he
        · cases he
        · cases he; exact (key.mp h).2.1 h0
    · exact fun h => Or.inr (key.mpr ⟨hv, fun h0 => h (Or.inr (Or.inr ⟨_, rfl, h0⟩)), hso⟩)
  | transferFrom a sp b x args h1 h2 h3 h4 h5 h6 h7 h8 h9 h10 h11 =>
    have hsp : (⟨sp.owner, args.spenderSubaccount⟩ : Account) = sp := by rw [h5]
    have key := C63_transfer_iff hr (m := .transferFrom sp.owner args) rfl (hn _ rfl)
    have hb := hbal a b h1
    subst h4
    rw [FEE_eq] at h3 h8
    have hv : Spec.TransferValid (y.tick dt).ledger (y.tick dt).now
        ⟨args.frm, args.to, some ⟨sp.owner, args.spenderSubaccount⟩, args.amount, args.fee, args.memo,
          args.createdAtTime.map UInt64.toNat⟩ := by
      rw [hsp]
      refine ⟨⟨hown _ _ h1, h6.1, fun sp' hs => ?_⟩, (Arb.fee_ok h9), (Arb.memo_fits h10),
        arb_window h11 (by omega) ht, ?_, fun sp' hs => ?_⟩
      · cases hs; exact (hi.allowances _ _ h2).2.2.1
      · rw [hl]
        simp only
        omega
      · have hs1 := hs.1
        simp only [Option.some.injEq] at hs1
        subst hs1
        have hsp2 := spendable_of_follows hf (now := (y.tick dt).now) (by omega) args.frm sp
        rw [h2, Option.getD_some] at hsp2
        rw [hl]
        simp only
        omega
    have hso : ¬Spec.SelfOverflow (y.tick dt).ledger
        ⟨args.frm, args.to, some ⟨sp.owner, args.spenderSubaccount⟩, args.amount, args.fee, args.memo,
          args.createdAtTime.map UInt64.toNat⟩ :=
      fun h => h7 ((sameAccount_iff _ _).mp h.1).symm
    constructor
    · rintro (h | h)
      · simp only [Sys.exec, Sys.commit] at h
        split at h <;> cases h
      · rintro (⟨_, _, _, he, _⟩ | ⟨_, _, _, he, _⟩ | ⟨t, he, h0⟩)
        · cases he
        · cases he
        · cases he; exact (key.mp h).2.1 h0
    · exact fun h => Or.inr (key.mpr ⟨hv, fun h0 => h (Or.inr (Or.inr ⟨_, rfl, h0⟩)), hso⟩)

/-! ## What goes wrong -/

theorem Generated.snoc {depositor : Principal} {cycles : Nat} {t0 : UInt64} {n : Nat} {g : GenState}
    {m : Msg} (h : Generated depositor cycles t0 n g) (hd : Draws g depositor t0 (some m))
    (he : (g.execute m).isSome = true) :
    Generated depositor cycles t0 (n + 1) ((g.execute m).getD g) := by
  refine h.call hd ?_
  obtain ⟨g', h'⟩ := Option.isSome_iff_exists.mp he
  rw [h']
  rfl

/-- The calls of the list that can be executed. -/
def Toy.gen (cycles : Nat) (ms : List Msg) : GenState :=
  ms.foldl (fun g m => (g.execute m).getD g) (GenState.new cycles)

namespace Toy

/-- A trillion cycles for Alice. -/
def fund (depositor : Principal) : Msg :=
  .deposit depositor ⟨1000000000000, by decide +kernel⟩ ⟨acc alice, none⟩
/-- Alice allows Bob `x` cycles. -/
def allow (x : Nat) (cat : Option UInt64) : Msg :=
  .approve alice ⟨none, acc bob, x, none, none, none, none, cat⟩

theorem arb_alice : Arb.principal (acc alice).owner := ⟨by decide, by decide⟩
theorem arb_bob : Arb.principal (acc bob).owner := ⟨by decide, by decide⟩
theorem arb_none : Arb.memo none := fun _ h => nomatch h

theorem draws_fund {depositor : Principal} {cycles : Nat} {t0 : UInt64} (h : 1000000000000 ≤ cycles) :
    Draws (GenState.new cycles) depositor t0 (some (fund depositor)) :=
  .deposit _ _ (Nat.lt_of_lt_of_le (by decide) h) (Nat.le_trans (by decide +kernel) h)
    (by decide +kernel) h arb_alice arb_none

theorem draws_allow {g : GenState} {depositor : Principal} {t0 : UInt64} {b x : Nat}
    {cat : Option UInt64} (hb : g.oracle.balances (acc alice).key = some b) (hf : FEE ≤ b)
    (hx : x ≤ g.tokenPool) (hc : Arb.createdAt t0 cat) :
    Draws g depositor t0 (some (allow x cat)) :=
  .approve (acc alice) b _ ⟨hb, hf⟩ rfl arb_bob (show alice ≠ bob by decide) hx (Or.inl rfl) (Or.inl rfl) (Or.inl rfl)
    arb_none hc

/-- The test of the generator (tests/gen.rs:685-691) checks that it does not panic. -/
theorem panics : Generated anonymousPrincipal (2 ^ 128 - 1) 0 2
      (gen (2 ^ 128 - 1) [fund anonymousPrincipal, allow 0 none]) ∧
    Draws (gen (2 ^ 128 - 1) [fund anonymousPrincipal, allow 0 none]) anonymousPrincipal 0 none := by
  constructor
  · refine Generated.snoc (.snoc .new (draws_fund (by decide)) (by decide +kernel)) (draws_allow
      (b := 999900000000) ?_ ?_ (Nat.zero_le _) (Or.inl rfl)) ?_ <;> decide +kernel
  · exact .transferFromPanic (acc alice) (acc bob) 999800000000 0
      ⟨by decide +kernel, by decide +kernel⟩ (by decide +kernel) (by decide +kernel)

theorem tested_snoc {depositor : Principal} {cycles : Nat} {t0 : UInt64} {y : Sys} {g : GenState}
    {m : Msg} (h : Spec.Tested depositor cycles t0 y g) (hd : Draws g depositor t0 (some m))
    (he : (g.execute m).isSome = true) (ha : Spec.Accepted (y.step ⟨1, m⟩).2)
    (ht : (y.step ⟨1, m⟩).1.now < Arb.expiry t0) :
    Spec.Tested depositor cycles t0 (y.step ⟨1, m⟩).1 ((g.execute m).getD g) := by
  refine h.call 1 hd ?_ ha ht
  obtain ⟨g', h'⟩ := Option.isSome_iff_exists.mp he
  rw [h']
  rfl

theorem tested_start : Spec.Tested target 5000000000000 1000000000 start (GenState.new 5000000000000) :=
  .start start_eq rfl (by decide +kernel) (by decide +kernel)

theorem tested_fund : Spec.Tested target 5000000000000 1000000000 (start.run [⟨1, fund target⟩])
    (gen 5000000000000 [fund target]) :=
  tested_snoc tested_start (draws_fund (by decide)) (by decide +kernel) (by decide +kernel)
    (by decide +kernel)

theorem tested_allow : Spec.Tested target 5000000000000 1000000000
    (start.run [⟨1, fund target⟩, ⟨1, allow 7 (some 0)⟩])
    (gen 5000000000000 [fund target, allow 7 (some 0)]) :=
  tested_snoc tested_fund (draws_allow (b := 999900000000) (by decide +kernel) (by decide +kernel)
    (by decide +kernel) (Or.inr (by decide +kernel))) (by decide +kernel) (by decide +kernel)
    (by decide +kernel)

theorem draws_again : Draws (gen 5000000000000 [fund target, allow 7 (some 0)]) target 1000000000
    (some (allow 7 (some 0))) :=
  draws_allow (b := 999800000000) (by decide +kernel) (by decide +kernel) (by decide +kernel)
    (Or.inr (by decide +kernel))

end Toy

open Toy in
/-- **C99** fails.  With the parameters of the generator's own test (ten calls, `u128::MAX` cycles)
it panics: after an approval of less than the fee, a transfer with that allowance is drawn from an
empty range.  And the ledger refuses calls that are drawn: the second of two equal approvals is a
duplicate. -/
theorem C99_refuted :
    (∃ n g, n < 10 ∧ Generated anonymousPrincipal (2 ^ 128 - 1) 0 n g ∧
      Draws g anonymousPrincipal 0 none) ∧
    (∃ y g m, Spec.Tested target 5000000000000 1000000000 y g ∧
      Draws g target 1000000000 (some m) ∧ (y.tick 1).now < Arb.expiry 1000000000 ∧
      ¬Spec.Accepted (y.step ⟨1, m⟩).2) :=
  ⟨⟨2, _, by decide, panics.1, panics.2⟩,
    _, _, _, tested_allow, draws_again, by decide +kernel, by decide +kernel⟩

open Toy in
/-- The other panics: a depositor with one cycle left; nobody with cycles left, because the first
deposit was of the fee alone. -/
example :
    (∃ g, Generated target 10000900000001 0 1 g ∧ g.depositorCycles = 1 ∧ Draws g target 0 none) ∧
    (∃ g, Generated target 100000000 0 1 g ∧ Draws g target 0 none) := by
  refine ⟨⟨_, .snoc (m := .deposit target ⟨1000000000, by decide +kernel⟩ ⟨acc alice, none⟩) .new
      (.deposit _ _ (by decide +kernel) (by decide +kernel) (by decide +kernel) (by decide +kernel)
        arb_alice arb_none) (by decide +kernel), by decide +kernel,
      .depositPanic (by decide +kernel) (by decide +kernel)⟩,
    ⟨_, .snoc (m := .deposit target ⟨100000000, by decide +kernel⟩ ⟨acc alice, none⟩) .new
      (.deposit _ _ (by decide +kernel) (by decide +kernel) (by decide +kernel) (by decide +kernel)
        arb_alice arb_none) (by decide +kernel), .stuck (by decide +kernel) ?_⟩⟩
  rintro a b ⟨h1, h2⟩
  have h3 : 0 < FEE := by decide +kernel
  have h4 : ∀ k c, (gen 100000000 [.deposit target ⟨100000000, by decide +kernel⟩
      ⟨acc alice, none⟩]).oracle.balances k = some c → c = 0 := by
    intro k c hk
    have e1 : gen 100000000 [.deposit target ⟨100000000, by decide +kernel⟩ ⟨acc alice, none⟩] =
        ⟨{ Oracle.empty.setBalance (acc alice) 0 with totalSupply := 0 }, 0⟩ := by
      have e2 : checkedSub 100000000 FEE = some 0 := by decide +kernel
      have e3 : checkedAdd 0 0 = some 0 := by decide +kernel
      have e4 : 100000000 - min U128MAX (10000000000000 + (100000000 - FEE)) = 0 := by decide +kernel
      simp [gen, GenState.execute, Oracle.execute, GenState.new, e2, e3, e4, Oracle.empty,
        Oracle.setBalance]
    rw [e1] at hk
    simp only [Oracle.setBalance, Oracle.empty] at hk
    split at hk
    · cases hk; rfl
    · cases hk
  have h5 := h4 a.key b h1
  omega

open Toy in
/-- A test of two calls; a third that is accepted, and the three ways to be unlucky. -/
example :
    Spec.Tested target 5000000000000 1000000000
      (start.run [⟨1, fund target⟩, ⟨1, allow 7 (some 0)⟩])
      (gen 5000000000000 [fund target, allow 7 (some 0)]) ∧
    ¬Spec.IsUserPrincipal target ∧
    Draws (gen 5000000000000 [fund target]) target 1000000000 (some (allow 7 none)) ∧
    Spec.Accepted ((start.run [⟨1, fund target⟩]).step ⟨1, allow 7 none⟩).2 ∧
    Spec.Unlucky (start.run [⟨1, fund target⟩, ⟨1, allow 7 (some 0)⟩]).ledger (allow 7 (some 0)) ∧
    Draws (gen 5000000000000 [fund target]) target 1000000000
      (some (.withdraw alice ⟨none, target, none, 0⟩ none)) ∧
    ¬Spec.Accepted ((start.run [⟨1, fund target⟩]).step
      ⟨1, .withdraw alice ⟨none, target, none, 0⟩ none⟩).2 ∧
    Draws (GenState.new 5000000000000) target 1000000000
      (some (.deposit target ⟨100000000, by decide +kernel⟩ ⟨acc alice, none⟩)) ∧
    ¬Spec.Accepted (start.step ⟨1, .deposit target ⟨100000000, by decide +kernel⟩
      ⟨acc alice, none⟩⟩).2 := by
  refine ⟨tested_allow, (fun h => by have := h.1; revert this; decide), draws_allow (b := 999900000000) (by decide +kernel)
      (by decide +kernel) (by decide +kernel) (Or.inl rfl), by decide +kernel,
    Or.inr (Or.inr ⟨_, rfl, rfl, ?_⟩),
    .withdraw (acc alice) 999900000000 _ ⟨by decide +kernel, by decide +kernel⟩ rfl rfl
      (Nat.zero_le _) (Or.inl rfl), by decide +kernel,
    .deposit _ _ (by decide +kernel) (by decide +kernel) (by decide +kernel) (by decide +kernel)
        arb_alice arb_none, by decide +kernel⟩
  decide +kernel

end CyclesLedger
