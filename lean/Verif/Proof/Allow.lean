import Verif.Proof.Effects
/-! # What the allowance functions do -/
namespace CyclesLedger

/-- The expiration queue lists exactly the expiring approvals. -/
def QueueInv (s : State) : Prop :=
  ∀ e k, s.expirationQueue.get (e, k) = some () ↔ (0 < e ∧ ∃ a, s.approvals.get k = some (a, e))

/-- Everything but approvals and the expiration queue is the same. -/
structure SameExceptAllow (s s' : State) : Prop where
  blocks : s'.blocks = s.blocks
  balances : s'.balances = s.balances
  hashes : s'.transactionHashes = s.transactionHashes
  timestamps : s'.transactionTimestamps = s.transactionTimestamps
  config : s'.config = s.config
  cache : s'.cache = s.cache
  cert : s'.certifiedData = s.certifiedData

theorem SameExceptAllow.refl (s : State) : SameExceptAllow s s :=
  ⟨rfl, rfl, rfl, rfl, rfl, rfl, rfl⟩

theorem SameExceptAllow.balAt {s s' : State} (h : SameExceptAllow s s') (k : AccountKey) :
    balAt s' k = balAt s k := by unfold CyclesLedger.balAt; rw [h.balances]

theorem chargedSpender_eq_some {frm : Account} {sp : Option Account} {x : Account} :
    chargedSpender frm sp = some x ↔ sp = some x ∧ x.key ≠ frm.key := by
  unfold chargedSpender
  cases sp with
  | none => simp
  | some y =>
    simp only [Account.same, decide_eq_true_eq]
    split
    · rename_i h; simp; rintro rfl; exact h
    · rename_i h; simp; rintro rfl; exact h

theorem chargedSpender_eq_none {frm : Account} {sp : Option Account} :
    chargedSpender frm sp = none ↔ ∀ x, sp = some x → x.key = frm.key := by
  unfold chargedSpender
  cases sp with
  | none => simp
  | some y =>
    simp only [Account.same, decide_eq_true_eq]
    split
    · rename_i h; simp [h]
    · rename_i h; simp [h]

theorem checkAllowance_ok {s : State} {a sp : Account} {x now n e : Nat}
    (h : checkAllowance s a sp x now = .ok (n, e)) :
    0 < x ∧ ∃ cur, s.approvals.get (a.key, sp.key) = some (cur, e) ∧ (e = 0 ∨ now < e) ∧
      x ≤ cur ∧ n = cur - x := by
  unfold checkAllowance at h
  split at h
  · cases h
  · rename_i hx
    split at h
    · cases h
    · rename_i cur exp hg
      split at h
      · cases h
      · rename_i he
        split at h
        · cases h
        · rename_i new hn
          rw [checkedSub_eq_some] at hn
          simp only [Except.ok.injEq, Prod.mk.injEq] at h
          obtain ⟨rfl, rfl⟩ := h
          refine ⟨by omega, cur, hg, ?_, hn⟩
          simp at he
          by_cases h0 : exp = 0
          · exact Or.inl h0
          · exact Or.inr (he h0)

theorem checkAllowance_eq_ok {s : State} {a sp : Account} {x now cur e : Nat} (hx : 0 < x)
    (hg : s.approvals.get (a.key, sp.key) = some (cur, e)) (he : e = 0 ∨ now < e)
    (hc : x ≤ cur) : checkAllowance s a sp x now = .ok (cur - x, e) := by
  unfold checkAllowance
  rw [if_neg (by omega), hg]
  simp only
  rw [if_neg (by simp; omega), checkedSub_eq_some.mpr ⟨hc, rfl⟩]

theorem useAllowance_ok {s s' : State} {a sp : Account} {x now : Nat}
    (h : useAllowance s a sp x now = .ok s') :
    SameExceptAllow s s' ∧
    (∀ k, s'.approvals.get k = Spec.spend s.approvals.get (a.key, sp.key) x k) ∧
    (QueueInv s → QueueInv s') ∧
    ∃ cur e, s.approvals.get (a.key, sp.key) = some (cur, e) ∧ x ≤ cur ∧ (e = 0 ∨ now < e) ∧ 0 < x := by
  unfold useAllowance at h
  split at h
  · cases h
  · rename_i new exp hc
    obtain ⟨hx, cur, hg, he, hle, rfl⟩ := checkAllowance_ok hc
    simp only at h
    split at h
    · rename_i h0
      simp only [Except.ok.injEq] at h
      subst h
      refine ⟨⟨rfl, rfl, rfl, rfl, rfl, rfl, rfl⟩, ?_, ?_, cur, exp, hg, hle, he, hx⟩
      · intro k
        simp only [SMap.get_erase, Spec.spend]
        by_cases hk : k = (a.key, sp.key)
        · subst hk; simp [hg]; omega
        · simp [hk, Ne.symm hk]
      · intro hq e k
        simp only [SMap.get_erase]
        by_cases hk : (a.key, sp.key) = k
        · subst hk
          simp only [if_true]
          split
          · rw [SMap.get_erase]
            split
            · simp
            · rename_i hne
              rw [hq e _, hg]
              simp only [Option.some.injEq, Prod.mk.injEq]
              constructor
              · rintro ⟨_, _, _, rfl⟩; simp at hne
              · rintro ⟨_, _, h⟩; cases h
          · rename_i h0
            rw [hq e _, hg]
            simp only [Option.some.injEq, Prod.mk.injEq]
            constructor
            · rintro ⟨h1, _, _, rfl⟩; omega
            · rintro ⟨_, _, h⟩; cases h
        · simp only [hk, if_false]
          split
          · rw [SMap.get_erase, if_neg (by intro h; exact hk (Prod.ext_iff.mp h).2)]
            exact hq e k
          · exact hq e k
    · rename_i h0
      simp only [Except.ok.injEq] at h
      subst h
      refine ⟨⟨rfl, rfl, rfl, rfl, rfl, rfl, rfl⟩, ?_, ?_, cur, exp, hg, hle, he, hx⟩
      · intro k
        simp only [SMap.get_insert, Spec.spend]
        by_cases hk : k = (a.key, sp.key)
        · subst hk; simp [hg]; omega
        · simp [hk, Ne.symm hk]
      · intro hq e k
        simp only [SMap.get_insert]
        rw [hq e k]
        by_cases hk : (a.key, sp.key) = k
        · subst hk
          simp [hg]
        · simp [hk]

theorem useAllowance_eq_ok {s : State} {a sp : Account} {x now n e : Nat}
    (h : checkAllowance s a sp x now = .ok (n, e)) : ∃ s', useAllowance s a sp x now = .ok s' := by
  unfold useAllowance
  rw [h]
  simp only
  split <;> exact ⟨_, rfl⟩

theorem recordApproval_same (s : State) (a sp : Account) (x : Nat) (exp : Option Nat) :
    SameExceptAllow s (recordApproval s a sp x exp) := by
  unfold recordApproval
  simp only
  split <;> split <;> (try split) <;> exact ⟨rfl, rfl, rfl, rfl, rfl, rfl, rfl⟩

theorem recordApproval_get (s : State) (a sp : Account) (x : Nat) (exp : Option Nat)
    (k : ApprovalKey) :
    (recordApproval s a sp x exp).approvals.get k =
      if k = (a.key, sp.key) then (if x = 0 then none else some (x, exp.getD 0))
      else s.approvals.get k := by
  unfold recordApproval
  simp only
  split
  · rename_i hg
    split
    · by_cases hk : k = (a.key, sp.key)
      · subst hk; simp [hg]
      · simp [hk]
    · simp only [SMap.get_insert]
      by_cases hk : k = (a.key, sp.key)
      · subst hk; simp
      · simp [hk, Ne.symm hk]
  · split
    · simp only [SMap.get_erase]
      by_cases hk : k = (a.key, sp.key)
      · subst hk; simp
      · simp [hk, Ne.symm hk]
    · split <;>
      · simp only [SMap.get_insert]
        by_cases hk : k = (a.key, sp.key)
        · subst hk; simp
        · simp [hk, Ne.symm hk]

theorem recordApproval_queue {s : State} (a sp : Account) (x : Nat) (exp : Option Nat)
    (hq : QueueInv s) : QueueInv (recordApproval s a sp x exp) := by
  intro e k
  rw [recordApproval_get]
  unfold recordApproval
  simp only
  generalize (a.key, sp.key) = key
  generalize exp.getD 0 = n
  split
  · rename_i hg
    split
    · rename_i h0
      rw [hq e k]
      by_cases hk : k = key
      · subst hk; simp [hg]
      · simp [hk]
    · rename_i h0
      simp only
      by_cases hk : k = key
      · subst hk
        simp only [if_true, Option.some.injEq, Prod.mk.injEq]
        have hqe := hq e k
        rw [hg] at hqe
        split
        · rename_i hn
          rw [SMap.get_insert]
          by_cases hne : n = e
          · subst hne; simp; exact hn
          · simp only [Prod.mk.injEq, hne, false_and, if_false, hqe]; simp
        · rename_i hn
          simp only [hqe]; simp
          intro _ h; omega
      · simp only [hk, if_false]
        rw [← hq e k]
        split
        · rw [SMap.get_insert]; simp [Ne.symm hk]
        · rfl
  · rename_i cur c hg
    have hqk : ∀ e', s.expirationQueue.get (e', key) = some () ↔ 0 < e' ∧ c = e' := by
      intro e'; rw [hq e' key, hg]; simp
    split
    · rename_i h0
      simp only
      by_cases hk : k = key
      · subst hk
        simp only [if_true]
        split
        · rw [SMap.get_erase]
          by_cases hc : c = e
          · simp [hc]
          · simp [hc, hqk e]
        · simp only [hqk e]; simp; omega
      · simp only [hk, if_false]
        rw [← hq e k]
        split
        · rw [SMap.get_erase]; simp [Ne.symm hk]
        · rfl
    · rename_i h0
      by_cases hk : k = key
      · subst hk
        simp only [if_true, Option.some.injEq, Prod.mk.injEq, exists_eq_left']
        split
        · rename_i hne
          simp only
          split
          · rename_i hn
            rw [SMap.get_insert]
            by_cases hne' : n = e
            · subst hne'; simp; exact hn
            · simp only [Prod.mk.injEq, hne', false_and, if_false, and_false, iff_false]
              split
              · rw [SMap.get_erase]
                by_cases hc : c = e
                · simp [hc]
                · simp [hc, hqk e]
              · rw [hqk e]; omega
          · rename_i hn
            split
            · rw [SMap.get_erase]
              by_cases hc : c = e
              · simp [hc]; omega
              · simp only [Prod.mk.injEq, hc, false_and, if_false, hqk e]
                simp only [and_false, false_iff]; omega
            · rw [hqk e]; omega
        · rename_i he
          simp only [ne_eq, Decidable.not_not] at he
          simp only [hqk e, he]
      · simp only [hk, if_false]
        rw [← hq e k]
        split
        · simp only
          split
          · rw [SMap.get_insert]; simp only [Prod.mk.injEq, Ne.symm hk, and_false, if_false]
            split
            · rw [SMap.get_erase]; simp [Ne.symm hk]
            · rfl
          · split
            · rw [SMap.get_erase]; simp [Ne.symm hk]
            · rfl
        · rfl

end CyclesLedger
