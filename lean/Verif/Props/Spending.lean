import Verif.Proof.Pending
import Verif.Props.Requests
/-!
# Who can spend what; allowances

C14, C15, C16, C17, C18, C19, C52, C56.
-/
namespace CyclesLedger

/-! ## C14 -/

/-- The request went through, or at least the burn did. -/
def Spec.Proceeded (reply : Reply) : Prop := Spec.Accepted reply ∨ Spec.failedBlocks reply ≠ none

/-- **C14**: spending on behalf of somebody goes ahead only with an unexpired allowance
of at least `amount` plus fee ... -/
theorem C14_needs_allowance [Crypto] {y y' : Sys} (h : Reachable y) {m : Msg} {frm sp : Account}
    {spender : Option Account} {x : Nat} {reply : Reply}
    (hm : Spec.spendRequest m = some (frm, spender, x)) (hb : Spec.OnBehalf frm spender sp)
    (hx : y.exec m = (y', reply)) (hp : Spec.Proceeded reply) :
    ∃ a e, Spec.stored y.ledger frm sp = some (a, e) ∧ x + 100000000 ≤ a ∧
      (e = 0 ∨ y.now < e) := by
  rcases exec_spend h.inv hm with ⟨s1, t, hs, he, _⟩ | ⟨_, h1, h2⟩
  · obtain ⟨a, e, h1, h2, h3, _⟩ := (he.spending hs).1 sp hb
    exact ⟨a, e, h1, h2, h3⟩
  · rw [hx] at h1 h2
    rcases hp with hp | hp
    · exact absurd hp h1
    · exact absurd h2 hp

/-- ... and takes exactly that off it, keeping its expiry, and no other allowance. -/
theorem C14_exact_use [Crypto] {y y' : Sys} (h : Reachable y) {m : Msg} {frm sp : Account}
    {spender : Option Account} {x : Nat} {reply : Reply}
    (hm : Spec.spendRequest m = some (frm, spender, x)) (hb : Spec.OnBehalf frm spender sp)
    (hx : y.exec m = (y', reply)) (hp : Spec.Accepted reply) :
    (∃ a e, Spec.stored y.ledger frm sp = some (a, e) ∧ x + 100000000 ≤ a ∧ (e = 0 ∨ y.now < e) ∧
      Spec.stored y'.ledger frm sp =
        if a = x + 100000000 then none else some (a - (x + 100000000), e)) ∧
    (∀ a b t, y.now ≤ t → ¬(Spec.SameAccount a frm ∧ Spec.SameAccount b sp) →
      Spec.spendable y'.ledger a b t = Spec.spendable y.ledger a b t) := by
  rcases exec_spend h.inv hm with ⟨s1, t, hs, he, _, ⟨_, h1⟩ | ⟨p, _, _, _, _, _, _, _, h1⟩⟩ | ⟨_, h1, h2⟩
  · rw [hx] at h1
    simp only at h1
    rw [h1]
    refine ⟨(he.spending hs).1 sp hb, ?_⟩
    intro a b t' ht hne
    refine (he.spending hs).2 a b t' ht ?_
    intro sp' hb'
    have : sp' = sp := by
      have := hb.1.symm.trans hb'.1
      cases this; rfl
    rw [this]; exact hne
  · exfalso
    rcases h1 with ⟨h1, _⟩ | ⟨fb, ab, s', _, _, h2, _, _, h3, _⟩
    · rw [hx] at h1; cases h1; rcases hp with hp | ⟨_, hp⟩ <;> cases hp
    · rw [hx] at h2 h3
      rcases hp with hp | ⟨_, hp⟩
      · exact h3 hp
      · rw [h2] at hp; cases hp
  · rw [hx] at h1; exact absurd hp h1

/-- **C14** for owners: spending one's own cycles uses no allowance. -/
theorem C14_own_no_use [Crypto] {y y' : Sys} (h : Reachable y) {m : Msg} {frm : Account}
    {spender : Option Account} {x : Nat} {reply : Reply}
    (hm : Spec.spendRequest m = some (frm, spender, x)) (hb : ∀ sp, ¬Spec.OnBehalf frm spender sp)
    (hx : y.exec m = (y', reply)) (hp : Spec.Accepted reply) :
    ∀ a b t, y.now ≤ t → Spec.spendable y'.ledger a b t = Spec.spendable y.ledger a b t := by
  rcases exec_spend h.inv hm with ⟨s1, t, hs, he, _, ⟨_, h1⟩ | ⟨p, _, _, _, _, _, _, _, h1⟩⟩ | ⟨_, h1, h2⟩
  · rw [hx] at h1
    simp only at h1
    rw [h1]
    intro a b t' ht
    exact (he.spending hs).2 a b t' ht (fun sp hsp => absurd hsp (hb sp))
  · exfalso
    rcases h1 with ⟨h1, _⟩ | ⟨fb, ab, s', _, _, h2, _, _, h3, _⟩
    · rw [hx] at h1; cases h1; rcases hp with hp | ⟨_, hp⟩ <;> cases hp
    · rw [hx] at h2 h3
      rcases hp with hp | ⟨_, hp⟩
      · exact h3 hp
      · rw [h2] at hp; cases hp
  · rw [hx] at h1; exact absurd hp h1

open Toy in
/-- All three on-behalf endpoints have accepted requests. -/
example : Reachable demo ∧ Spec.OnBehalf (acc alice) (some (acc bob)) (acc bob) ∧
    Spec.stored demo.ledger (acc alice) (acc bob) = some (399995000, 0) ∧
    (demo.exec (xferFrom bob alice carol 7).msg).2 = .transferFrom (.ok 6) ∧
    (demo.exec (wdrFrom bob alice 7).msg).2 = .suspended ∧
    (demo.exec (.createCanisterFrom bob ⟨acc alice, none, none, 299995000, none⟩ none)).2 =
      .suspended :=
  ⟨demo_reachable, ⟨rfl, by decide⟩, by decide +kernel, by decide +kernel, by decide +kernel,
    by decide +kernel⟩

/-! ## C15 -/

theorem spendRequest_sender {m : Msg} {frm : Account} {spender : Option Account} {x : Nat}
    {p : Principal} (hm : Spec.spendRequest m = some (frm, spender, x))
    (hs : Spec.sender m = some p) :
    (spender = none ∧ frm.owner = p) ∨ ∃ sp, spender = some sp ∧ sp.owner = p := by
  cases m <;> cases hm <;> cases hs <;> first | exact Or.inl ⟨rfl, rfl⟩ | exact Or.inr ⟨_, rfl, rfl⟩

theorem spend_balance [Crypto] {now : Nat} {s s' : State} {t : Transaction} {frm : Account}
    {spender : Option Account} {x : Nat} (he : Effect now s s' t) (h : SpendsBy t frm spender x)
    (a : Account) :
    balanceOf s a ≤ balanceOf s' a + (if Spec.SameAccount a frm then x + 100000000 else 0) := by
  obtain ⟨op, c, mm⟩ := t
  rcases h with ⟨to, f, h⟩ | h
  · simp only at h; subst h
    have := (Effect.transfer (r := ⟨frm, to, spender, x, f, mm, c⟩) he).1 a
    simp only at this
    split at this <;> split at this <;> simp only [*, if_true, if_false] <;> omega
  · simp only at h; subst h
    have hfee : Spec.fee (mkBlock s ⟨.burn frm spender x, c, mm⟩ now) = 100000000 := by
      rw [← FEE_eq]; exact fee_mkBlock_burn
    have := he.bal a
    unfold Spec.delta at this
    rw [hfee] at this
    simp only [mkBlock, Spec.idOf_eq, spec_key_iff] at this
    split at this <;> simp only [*, if_true, if_false] <;> omega

theorem decrease_bound {b b1 b' x z f g : Nat} (h1 : b ≤ b1 + (x + f))
    (h3 : b' + z = b1 + (x - f)) (hz : z = 0 ∨ z = f) (hg : g = f + f)
    (hz3 : z = f → g < x) : b ≤ b' + (x + f) := by
  rcases hz with hz | hz
  · omega
  · have := hz3 hz; omega

/-- **C15**: a message by `p` lowers the balance of an account of somebody else only if
some account of `p` held an unexpired allowance covering the whole decrease. -/
theorem C15_only_by_allowance [Crypto] {y y' : Sys} (h : Reachable y) {m : Msg} {p : Principal}
    {reply : Reply} (hs : Spec.sender m = some p) (hx : y.exec m = (y', reply)) (a : Account)
    (ha : a.owner ≠ p) (hlow : icrc1BalanceOf y'.ledger a < icrc1BalanceOf y.ledger a) :
    ∃ sp : Account, sp.owner = p ∧ Spec.OnBehalf a (some sp) sp ∧
      icrc1BalanceOf y.ledger a - icrc1BalanceOf y'.ledger a ≤ Spec.spendable y.ledger a sp y.now := by
  unfold icrc1BalanceOf at *
  cases hm : Spec.spendRequest m with
  | some q =>
    obtain ⟨frm, spender, x⟩ := q
    rcases exec_spend h.inv hm with ⟨s1, t, hsb, he, _, hcase⟩ | ⟨h1, _⟩
    · -- the decrease is at most `x` plus fee, and only for `frm`
      have hdec : Spec.SameAccount a frm ∧ balanceOf y.ledger a ≤ balanceOf y'.ledger a + (x + 100000000) := by
        have h1 := spend_balance he hsb a
        rcases hcase with ⟨_, h2⟩ | ⟨q, rfl, _, rfl, _, _, _, _, h2⟩
        · rw [hx] at h2; simp only at h2; rw [h2] at hlow ⊢
          split at h1
          · exact ⟨by assumption, h1⟩
          · omega
        · rcases h2 with ⟨h2, _⟩ | ⟨fb, ab, s', h2, hr, _⟩
          · rw [hx] at h2; cases h2; omega
          · rw [hx] at h2; simp only at h2
            obtain ⟨z, hz, _, hz3, hz4, _⟩ := hr.effect
            have h3 := hz4 a
            rw [h2] at hlow ⊢
            simp only at hlow ⊢
            split at h1
            · rename_i hsame
              rw [if_pos hsame, if_pos hsame] at h3
              refine ⟨hsame, ?_⟩
              exact decrease_bound h1 h3 hz rfl hz3
            · rename_i hsame
              rw [if_neg hsame, if_neg hsame] at h3
              omega
      rcases spendRequest_sender hm hs with ⟨_, h2⟩ | ⟨sp, rfl, h2⟩
      · exact absurd (hdec.1.1.trans h2) ha
      · have hne : ¬Spec.SameAccount sp frm := by
          intro hc
          exact ha (hdec.1.1.trans (hc.1.symm.trans h2))
        obtain ⟨al, e, h3, h4, h5, _⟩ := (he.spending hsb).1 sp ⟨rfl, hne⟩
        refine ⟨sp, h2, ⟨rfl, ?_⟩, ?_⟩
        · intro hc
          exact ha (hc.1.symm.trans h2)
        · have hk : Spec.stored y.ledger a sp = some (al, e) := by
            have : a.key = frm.key := (sameAccount_iff _ _).mp hdec.1
            unfold Spec.stored at h3 ⊢
            rw [this]; exact h3
          unfold Spec.spendable
          rw [hk]
          simp only [Spec.live]
          rw [if_pos h5]
          omega
    · rw [hx] at h1; simp only at h1; rw [h1] at hlow; exact absurd hlow (Nat.lt_irrefl _)
  | none =>
    exfalso
    rcases msg_cases m with ⟨r, to, hm'⟩ | ⟨r, hm'⟩ | ⟨r, hm'⟩ | ⟨c, cy, arg, rfl⟩ | ⟨i, an, rfl⟩ |
      ⟨i, rfl⟩ | ⟨an, rfl⟩
    · unfold Spec.spendRequest at hm
      rw [hm'] at hm
      split at hm <;> cases hm
    · unfold Spec.spendRequest at hm
      rw [hm'] at hm
      cases hm
    · rcases exec_approve h.inv hm' with ⟨s', h1, _, _, _, he, _⟩ | ⟨e, h1, _⟩ | ⟨h1, _⟩
      · rw [hx] at h1; cases h1
        have := he.approve.1 a
        simp only at hlow
        split at this
        · rename_i hsame
          cases m <;> cases hm' <;> cases hs
          exact ha hsame.1
        · omega
      · rw [hx] at h1; simp only at h1; rw [h1] at hlow; omega
      · rw [hx] at h1; cases h1; omega
    · rcases exec_deposit h.inv c cy arg with ⟨s', h1, he, _⟩ | ⟨h1, _⟩
      · rw [hx] at h1; cases h1
        have := he.mint.1 a
        simp only at hlow
        omega
      · rw [hx] at h1; cases h1; omega
    · cases hs
    · cases hs
    · cases hs

/-- **C15**: answers to outgoing calls, lost answers and upgrades lower no balance. -/
theorem C15_callbacks_lower_nothing [Crypto] {y y' : Sys} (h : Reachable y) {m : Msg} {reply : Reply}
    (hs : Spec.sender m = none) (hx : y.exec m = (y', reply)) (a : Account) :
    icrc1BalanceOf y.ledger a ≤ icrc1BalanceOf y'.ledger a := by
  unfold icrc1BalanceOf
  rcases msg_cases m with ⟨r, to, hm'⟩ | ⟨r, hm'⟩ | ⟨r, hm'⟩ | ⟨c, cy, arg, rfl⟩ | ⟨i, an, rfl⟩ |
    ⟨i, rfl⟩ | ⟨an, rfl⟩
  · cases m <;> cases hm' <;> cases hs
  · cases m <;> cases hm' <;> cases hs
  · cases m <;> cases hm' <;> cases hs
  · cases hs
  · rcases exec_callback_cases h.inv i an with ⟨h1, _⟩ | ⟨p, _, _, ⟨_, h1, _⟩ | ⟨back, _, h1⟩⟩
    · rw [hx] at h1; cases h1; exact Nat.le_refl _
    · rw [hx] at h1; cases h1
      simp only [noteCanister]
      split <;> (try split) <;> exact Nat.le_refl _
    · rcases h1 with ⟨h1, _⟩ | ⟨fb, ab, s', h1, hr, _⟩
      · rw [hx] at h1; cases h1; exact Nat.le_refl _
      · rw [hx] at h1; cases h1
        obtain ⟨z, hz, _, hz3, hz4, _⟩ := hr.effect
        have := hz4 a
        simp only
        rcases hz with hz | hz
        · split at this <;> omega
        · have := hz3 hz
          have h4 := hz4 a
          split at h4 <;> omega
  · cases hx; exact Nat.le_refl _
  · simp only [Sys.exec] at hx
    split at hx
    · cases hx; exact Nat.le_refl _
    · rename_i s hs'
      cases hx
      have := (h.inv.ledger.postUpgrade hs').1
      simp only
      rw [this]
      exact Nat.le_refl _

open Toy in
/-- Bob lowers Alice's balance, by less than the allowance; the answer to an outstanding
call raises it. -/
example : Reachable demo ∧ Spec.sender (xferFrom bob alice carol 7).msg = some bob ∧
    icrc1BalanceOf demo.ledger (acc alice) = 998599994000 ∧
    icrc1BalanceOf (demo.exec (xferFrom bob alice carol 7).msg).1.ledger (acc alice) = 998499993993 ∧
    icrc1BalanceOf (demo.exec (.callback 0 (.depositCycles (some (.rejected none))))).1.ledger (acc alice) =
      998699994000 :=
  ⟨demo_reachable, rfl, by decide +kernel, by decide +kernel, by decide +kernel⟩

/-! ## C16, C17 -/

/-- **C16**: what can be spent, now or later, is the replay of the log. -/
theorem C16_allowances_replay [Crypto] {y : Sys} (h : Reachable y) (a sp : Account) (t : Nat)
    (ht : y.now ≤ t) :
    Spec.spendable y.ledger a sp t = Spec.live t (Spec.allowances y.ledger.blocks (Spec.idOf a, Spec.idOf sp)) := by
  unfold Spec.spendable Spec.stored
  simp only [Spec.idOf_eq]
  rcases h.inv.ledger.allow (a.key, sp.key) with h1 | ⟨h1, x, e, h2, h3, h4⟩
  · rw [h1]
  · rw [h1, h2]
    simp only [Spec.live]
    rw [if_neg (by omega)]

open Toy in
example : Reachable demo ∧
    Spec.allowances demo.ledger.blocks ((acc alice).key, (acc bob).key) = some (399995000, 0) :=
  ⟨demo_reachable, by decide +kernel⟩

/-- **C17**: an allowance whose last approval, according to the log, has expired cannot be
spent: the request is refused without any effect. -/
theorem C17_expired_not_spent [Crypto] {y y' : Sys} (h : Reachable y) {m : Msg} {frm sp : Account}
    {spender : Option Account} {x a e : Nat} {reply : Reply}
    (hm : Spec.spendRequest m = some (frm, spender, x)) (hb : Spec.OnBehalf frm spender sp)
    (hal : Spec.allowances y.ledger.blocks (Spec.idOf frm, Spec.idOf sp) = some (a, e)) (he0 : 0 < e)
    (hexp : e ≤ y.now) (hx : y.exec m = (y', reply)) : y' = y ∧ ¬Spec.Proceeded reply := by
  simp only [Spec.idOf_eq] at hal
  have hno : ¬Spec.Proceeded reply := by
    intro hp
    obtain ⟨a', e', h1, _, h3⟩ := C14_needs_allowance h hm hb hx hp
    unfold Spec.stored at h1
    rcases h.inv.ledger.allow (frm.key, sp.key) with h4 | ⟨h4, _⟩
    · rw [h4, hal] at h1
      simp only [Option.some.injEq, Prod.mk.injEq] at h1
      omega
    · rw [h4] at h1; cases h1
  refine ⟨?_, hno⟩
  rcases exec_spend h.inv hm with ⟨s1, t, hs, he, _⟩ | ⟨h1, _⟩
  · obtain ⟨a', e', h1, h2, h3, _⟩ := (he.spending hs).1 sp hb
    unfold Spec.stored at h1
    rcases h.inv.ledger.allow (frm.key, sp.key) with h4 | ⟨h4, _⟩
    · rw [h4, hal] at h1
      simp only [Option.some.injEq, Prod.mk.injEq] at h1
      omega
    · rw [h4] at h1; cases h1
  · rw [hx] at h1; exact h1

/-- **C17** in the log: every block that spends on behalf of somebody came when the log
before it had an unexpired allowance for it. -/
theorem C17_log [Crypto] {y : Sys} (h : Reachable y) (i : Nat) (b : Block) {key : ApprovalKey}
    {x : Nat} (hb : y.ledger.blocks[i]? = some b) (hs : Spec.spends b = some (key, x)) :
    x ≤ Spec.live b.timestamp (Spec.allowances (y.ledger.blocks.take i) key) := by
  have hsplit : y.ledger.blocks = y.ledger.blocks.take i ++ b :: y.ledger.blocks.drop (i + 1) := by
    obtain ⟨hi, rfl⟩ := List.getElem?_eq_some_iff.mp hb
    simp
  obtain ⟨a, e, h1, h2, h3⟩ := (h.inv.ledger.log _ _ _ hsplit).spend key x hs
  rw [h1]
  simp only [Spec.live]
  rw [if_pos h3]
  exact h2

open Toy in
/-- An allowance of 900000000 that expires, just before and at its expiry. -/
def Toy.expiring : Sys :=
  start.run [dep alice 1000000000000, appr alice bob 900000000 (some 1000000005)]

open Toy in
example : Reachable expiring ∧ expiring.now = 1000000002 ∧
    Spec.allowances expiring.ledger.blocks ((acc alice).key, (acc bob).key) =
      some (900000000, 1000000005) ∧
    ((expiring.tick 2).exec (xferFrom bob alice carol 7).msg).2 = .transferFrom (.ok 2) ∧
    ((expiring.tick 3).exec (xferFrom bob alice carol 7).msg).2 =
      .transferFrom (.error (.genericError 100003)) ∧
    (demo.ledger.blocks[3]?.bind Spec.spends) = some (((acc alice).key, (acc bob).key), 100005000) :=
  ⟨run_reachable _, by decide +kernel, by decide +kernel, by decide +kernel, by decide +kernel,
    by decide +kernel⟩

/-! ## C18, C56 -/

/-- **C18** is false: at the very time an allowance expires it is still reported, though
it can no longer be spent (`allowance` compares with `<`, `check_allowance` with `<=`). -/
theorem C18_refuted : ∃ (_ : Crypto) (y : Sys) (a sp to : Account), Reachable y ∧
    (icrc2Allowance y.ledger a sp y.now).1 = 900000000 ∧
    Spec.spendable y.ledger a sp y.now = 0 ∧
    100000007 ≤ icrc1BalanceOf y.ledger a ∧
    (y.exec (.transferFrom sp.owner ⟨sp.subaccount, a, to, 7, none, none, none⟩)).2 =
      .transferFrom (.error (.genericError 100003)) := by
  open Toy in
  refine ⟨Toy.crypto, (Toy.expiring.tick 3), acc alice, acc bob, acc carol,
    Reachable.tick (run_reachable _) 3, ?_, ?_, ?_, ?_⟩
  all_goals decide +kernel

/-- **C18** but for the instant of expiry: what is reported can be spent. -/
theorem C18_reported_partial [Crypto] {y : Sys} (a sp : Account) (t : Nat)
    (hno : ∀ x, Spec.stored y.ledger a sp = some (x, t) → t = 0) :
    (icrc2Allowance y.ledger a sp t).1 = Spec.spendable y.ledger a sp t := by
  unfold icrc2Allowance allowance Spec.spendable
  cases hg : Spec.stored y.ledger a sp with
  | none =>
    have : y.ledger.approvals.get (a.key, sp.key) = none := hg
    rw [this]; rfl
  | some v =>
    obtain ⟨x, e⟩ := v
    have hg' : y.ledger.approvals.get (a.key, sp.key) = some (x, e) := hg
    simp only [hg', Option.getD_some, Spec.live]
    by_cases he : e = 0
    · subst he; simp
    · have hne : e ≠ t := by
        rintro rfl
        exact he (hno x hg)
      by_cases hl : t < e
      · rw [if_neg (by simp; omega), if_pos (by omega)]
      · rw [if_pos (by simp; omega), if_neg (by omega)]

/-- **C56**: exactly what `icrc2_allowance` reports at any time: amount and expiry of the
stored allowance, up to and including the instant of its expiry, and nothing after. -/
theorem C56_reported_exactly [Crypto] {y : Sys} (a sp : Account) (t : Nat) :
    icrc2Allowance y.ledger a sp t =
      (match Spec.stored y.ledger a sp with
      | some (x, e) => if e = 0 then (x, none) else if t ≤ e then (x, some e) else (0, none)
      | none => (0, none)) ∧
    Spec.spendable y.ledger a sp t ≤ (icrc2Allowance y.ledger a sp t).1 := by
  unfold icrc2Allowance allowance Spec.spendable
  cases hg : Spec.stored y.ledger a sp with
  | none =>
    have : y.ledger.approvals.get (a.key, sp.key) = none := hg
    rw [this]; exact ⟨rfl, Nat.le_refl _⟩
  | some v =>
    obtain ⟨x, e⟩ := v
    have hg' : y.ledger.approvals.get (a.key, sp.key) = some (x, e) := hg
    simp only [hg', Option.getD_some, Spec.live]
    by_cases he : e = 0
    · subst he; simp
    · by_cases hl : t ≤ e
      · have : (decide (e > 0) && decide (e < t)) = false := by simp; omega
        simp only [this, he, hl, if_true, if_false, false_or]
        have h0 : 0 < e := by omega
        simp only [Bool.false_eq_true, if_false, gt_iff_lt, h0, if_true, true_and]
        split <;> omega
      · have : (decide (e > 0) && decide (e < t)) = true := by simp; omega
        simp only [this, he, hl, if_true, if_false, false_or]
        refine ⟨by simp, ?_⟩
        rw [if_neg (by omega)]
        exact Nat.zero_le _

/-- What `icrc2_allowance` is to say at time `t` of an allowance in the log. -/
def Spec.reported (t : Nat) : Option (Nat × Nat) → Nat × Option Nat
  | none => (0, none)
  | some (x, e) => if e = 0 then (x, none) else if t ≤ e then (x, some e) else (0, none)

/-- **C56** from the log: now and at any later time, amount and expiry of the allowance that
replaying the log gives, and nothing once it has expired; at the very instant of expiry either,
depending on whether it has been pruned; and otherwise what is reported can be spent. -/
theorem C56_replay [Crypto] {y : Sys} (h : Reachable y) (a sp : Account) (t : Nat) (ht : y.now ≤ t) :
    (icrc2Allowance y.ledger a sp t =
        Spec.reported t (Spec.allowances y.ledger.blocks (Spec.idOf a, Spec.idOf sp)) ∨
      icrc2Allowance y.ledger a sp t = (0, none) ∧ t = y.now ∧ 0 < t ∧
        ∃ x, Spec.allowances y.ledger.blocks (Spec.idOf a, Spec.idOf sp) = some (x, t)) ∧
    ((∀ x, Spec.allowances y.ledger.blocks (Spec.idOf a, Spec.idOf sp) = some (x, t) → t = 0) →
      (icrc2Allowance y.ledger a sp t).1 = Spec.spendable y.ledger a sp t) := by
  simp only [Spec.idOf_eq]
  rcases h.inv.ledger.allow (a.key, sp.key) with h1 | ⟨h1, x, e, h2, h3, h4⟩
  · rw [← h1]
    refine ⟨Or.inl ?_, C18_reported_partial a sp t⟩
    rw [(C56_reported_exactly a sp t).1]
    unfold Spec.stored
    cases y.ledger.approvals.get (a.key, sp.key) <;> rfl
  · have h5 : icrc2Allowance y.ledger a sp t = (0, none) := by
      rw [(C56_reported_exactly a sp t).1]
      unfold Spec.stored
      rw [h1]
    have h6 : Spec.spendable y.ledger a sp t = 0 := by
      unfold Spec.spendable Spec.stored
      rw [h1]; rfl
    refine ⟨?_, fun _ => by rw [h5, h6]⟩
    rw [h5, h2]
    by_cases h7 : t ≤ e
    · have : e = t := by omega
      subst this
      exact Or.inr ⟨rfl, by omega, by omega, x, rfl⟩
    · refine Or.inl ?_
      simp only [Spec.reported]
      rw [if_neg (by omega), if_neg h7]

open Toy in
/-- At the instant of expiry the allowance is reported in full, until another request has it
pruned. -/
example : Reachable (expiring.tick 3) ∧ (expiring.tick 3).now = 1000000005 ∧
    Spec.allowances (expiring.tick 3).ledger.blocks ((acc alice).key, (acc bob).key) =
      some (900000000, 1000000005) ∧
    icrc2Allowance (expiring.tick 3).ledger (acc alice) (acc bob) 1000000005 =
      (900000000, some 1000000005) ∧
    ((expiring.tick 3).exec (xfer alice carol 7).msg).2 = .transfer (.ok 2) ∧
    icrc2Allowance ((expiring.tick 3).exec (xfer alice carol 7).msg).1.ledger (acc alice) (acc bob)
      1000000005 = (0, none) :=
  ⟨Reachable.tick (run_reachable _) 3, by decide +kernel, by decide +kernel, by decide +kernel,
    by decide +kernel, by decide +kernel⟩

open Toy in
example : Reachable expiring ∧
    icrc2Allowance expiring.ledger (acc alice) (acc bob) 1000000004 = (900000000, some 1000000005) ∧
    icrc2Allowance expiring.ledger (acc alice) (acc bob) 1000000005 = (900000000, some 1000000005) ∧
    icrc2Allowance expiring.ledger (acc alice) (acc bob) 1000000006 = (0, none) :=
  ⟨run_reachable _, by decide +kernel, by decide +kernel, by decide +kernel⟩

/-! ## C19 -/

/-- **C19**: an accepted `icrc2_approve` sets the allowance to exactly what was asked for,
whatever it was before, costs one fee and adds one block; with `expected_allowance` only
if that is what `icrc2_allowance` reports. -/
theorem C19_approve_effect [Crypto] {y y' : Sys} (h : Reachable y) {m : Msg} {r : Spec.ApproveReq}
    {reply : Reply} {i : Nat} (hm : Spec.approveRequest m = some r) (hx : y.exec m = (y', reply))
    (hok : Spec.okIndex reply = some i) :
    Spec.stored y'.ledger r.frm r.spender =
      (if r.amount = 0 then none else some (min r.amount (2 ^ 128 - 1), r.expiresAt.getD 0)) ∧
    (∀ a b t, y.now ≤ t → ¬(Spec.SameAccount a r.frm ∧ Spec.SameAccount b r.spender) →
      Spec.spendable y'.ledger a b t = Spec.spendable y.ledger a b t) ∧
    (∀ a : Account, (icrc1BalanceOf y'.ledger a : Int) = icrc1BalanceOf y.ledger a
      - (if Spec.SameAccount a r.frm then 100000000 else 0)) ∧
    icrc1TotalSupply y.ledger = icrc1TotalSupply y'.ledger + 100000000 ∧
    (∃ b, y'.ledger.blocks = y.ledger.blocks ++ [b] ∧ y'.ledger.blocks[i]? = some b ∧
      b.transaction = r.transaction ∧ b.timestamp = y.now) ∧
    (∀ x, r.expectedAllowance = some x →
      (icrc2Allowance y.ledger r.frm r.spender y.now).1 = x) ∧
    y'.pending = y.pending ∧ y'.cycles = y.cycles := by
  rcases exec_approve h.inv hm with ⟨s', h1, h2, _, _, he, hv, _⟩ | ⟨e, _, h2, _⟩ | ⟨h1, _⟩
  · rw [hx] at h1 h2
    simp only at h1 h2
    rw [h2, Option.some.injEq] at hok
    subst hok h1
    have ha := he.approving
    refine ⟨?_, ha.2, he.approve.1, he.approve.2,
      ⟨_, he.blocks, by simp only; rw [he.blocks]; simp, rfl, rfl⟩,
      fun x hx => (hv.expected x hx).symm, rfl, rfl⟩
    simp only
    rw [ha.1]
    by_cases h0 : r.amount = 0
    · rw [h0]; simp
    · rw [if_neg h0, if_neg (by omega)]
  · rw [hx] at h2; rw [h2] at hok; cases hok
  · rw [hx] at h1; cases h1; cases hok

open Toy in
/-- Overwriting with the right and the wrong expectation; a huge amount. -/
example : Reachable demo ∧
    (demo.exec (.approve alice ⟨none, acc bob, 5, some 399995000, some 2000000000, none, none,
      none⟩)).2 = .approve (.ok 6) ∧
    (demo.exec (.approve alice ⟨none, acc bob, 5, some 399995001, none, none, none, none⟩)).2 =
      .approve (.error (.allowanceChanged 399995000)) ∧
    (demo.exec (.approve alice ⟨none, acc bob, 2 ^ 200, none, none, none, none, none⟩)).2 =
      .approve (.ok 6) :=
  ⟨demo_reachable, by decide +kernel, by decide +kernel, by decide +kernel⟩

/-! ## C52 -/

/-- What a spender took from an account according to the log. -/
def Spec.taken (bs : List Block) (key : ApprovalKey) : Nat :=
  (bs.map (fun b => match Spec.spends b with
    | some (k, x) => if k = key then x else 0
    | none => 0)).sum

/-- What was ever approved to it. -/
def Spec.approved (bs : List Block) (key : ApprovalKey) : Nat :=
  (bs.map (fun b => match b.transaction.operation with
    | .approve frm sp x _ _ _ => if (Spec.idOf frm, Spec.idOf sp) = key then x else 0
    | _ => 0)).sum

theorem Spec.allowances_snoc (pre : List Block) (b : Block) :
    Spec.allowances (pre ++ [b]) = Spec.allowStep (Spec.allowances pre) b := by
  simp [Spec.allowances]

theorem taken_le_approved [Crypto] {bs : List Block}
    (hlog : ∀ pre b suf, bs = pre ++ b :: suf → BlockOk pre b) (key : ApprovalKey) :
    Spec.taken bs key + (match Spec.allowances bs key with | some (a, _) => a | none => 0) ≤
      Spec.approved bs key := by
  have main : ∀ (n : Nat) (pre suf : List Block), pre.length = n → bs = pre ++ suf →
      Spec.taken pre key + (match Spec.allowances pre key with | some (a, _) => a | none => 0) ≤
        Spec.approved pre key := by
    intro n
    induction n with
    | zero =>
      intro pre suf hn _
      have : pre = [] := List.eq_nil_of_length_eq_zero hn
      subst this
      simp [Spec.taken, Spec.approved, Spec.allowances]
    | succ n ih =>
      intro pre suf hn hbs
      rcases List.eq_nil_or_concat pre with rfl | ⟨l, b, rfl⟩
      · cases hn
      · rw [List.concat_eq_append] at hn hbs ⊢
        simp only [List.length_append, List.length_cons, List.length_nil] at hn
        have h1 := ih l (b :: suf) (by omega) (by rw [hbs]; simp)
        have hok := hlog l b suf (by rw [hbs]; simp)
        have ht : Spec.taken (l ++ [b]) key = Spec.taken l key + (match Spec.spends b with
            | some (k, x) => if k = key then x else 0
            | none => 0) := by simp [Spec.taken]
        have ha : Spec.approved (l ++ [b]) key = Spec.approved l key +
            (match b.transaction.operation with
            | .approve frm sp x _ _ _ => if (Spec.idOf frm, Spec.idOf sp) = key then x else 0
            | _ => 0) := by simp [Spec.approved]
        rw [Spec.allowances_snoc, ht, ha]
        cases hop : b.transaction.operation with
        | approve frm sp x ea ex f =>
          have hs : Spec.spends b = none := by simp [Spec.spends, hop]
          simp only [hs, Spec.allowStep, hop, Spec.idOf_eq]
          by_cases hk : (frm.key, sp.key) = key
          · subst hk
            simp only [if_true]
            by_cases hx : x = 0
            · simp only [hx, if_true]; omega
            · simp only [hx, if_false]; split at h1 <;> omega
          · have hk' : ¬key = (frm.key, sp.key) := fun h => hk h.symm
            simp only [hk, hk', if_false]
            omega
        | _ =>
          simp only [Spec.allowStep, hop]
          cases hs : Spec.spends b with
          | none => simp only; omega
          | some kx =>
            obtain ⟨k, x⟩ := kx
            obtain ⟨a, e, h3, h4, _⟩ := hok.spend k x hs
            simp only [Spec.spend]
            by_cases hk : k = key
            · subst hk
              simp only [if_true, h3]
              rw [h3] at h1
              simp only at h1
              by_cases hle : a ≤ x
              · rw [if_pos hle]
                show Spec.taken l k + x + 0 ≤ Spec.approved l k + 0
                omega
              · rw [if_neg hle]
                show Spec.taken l k + x + (a - x) ≤ Spec.approved l k + 0
                omega
            · have hk' : ¬key = k := fun h => hk h.symm
              simp only [hk, hk', if_false]
              omega
  exact main bs.length bs [] rfl (by simp)

/-- **C52**: over the whole log, and over every prefix of it, a spender takes no more from
an account than was ever approved to it. -/
theorem C52_taken_le_approved [Crypto] {y : Sys} (h : Reachable y) (n : Nat) (a sp : Account) :
    Spec.taken (y.ledger.blocks.take n) (Spec.idOf a, Spec.idOf sp) ≤
      Spec.approved (y.ledger.blocks.take n) (Spec.idOf a, Spec.idOf sp) := by
  have hlog := h.inv.ledger.log
  have := taken_le_approved (bs := y.ledger.blocks.take n) (key := (Spec.idOf a, Spec.idOf sp)) (by
    intro pre b suf heq
    refine hlog pre b (suf ++ y.ledger.blocks.drop n) ?_
    have := List.take_append_drop n y.ledger.blocks
    rw [heq] at this
    exact this.symm.trans (by simp))
  omega

open Toy in
example : Reachable demo ∧
    Spec.taken demo.ledger.blocks ((acc alice).key, (acc bob).key) = 500005000 ∧
    Spec.approved demo.ledger.blocks ((acc alice).key, (acc bob).key) = 900000000 :=
  ⟨demo_reachable, by decide +kernel, by decide +kernel⟩

end CyclesLedger
