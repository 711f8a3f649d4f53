import Verif.Model.Metrics
/-!
# Conversion to `f64`
-/
namespace CyclesLedger

/-- The whole numbers that are `f64`s: at most 53 significant bits. -/
def Spec.IsF64 (m : Nat) : Prop := ∃ a e, a < 2 ^ 53 ∧ m = a * 2 ^ e

/-- The distance of two numbers. -/
def Spec.distance (a b : Nat) : Nat := ((a : Int) - b).natAbs

theorem f64OfNat_small {n : Nat} (h : n < 2 ^ 53) : f64OfNat n = n := by
  have hsh : n.log2 - 52 = 0 := by
    by_cases h0 : n = 0
    · subst h0; rfl
    · have := (Nat.log2_lt h0).2 h
      omega
  simp [f64OfNat, hsh, Nat.mod_one]

theorem log2_bounds {n : Nat} (h : 2 ^ 53 ≤ n) :
    2 ^ 52 * 2 ^ (n.log2 - 52) ≤ n ∧ n < 2 ^ 53 * 2 ^ (n.log2 - 52) := by
  have h0 : n ≠ 0 := by
    intro hn; subst hn; simp at h
  have h1 : 53 ≤ n.log2 := (Nat.le_log2 h0).2 h
  have h2 := (Nat.le_log2 h0 (k := n.log2)).1 (Nat.le_refl _)
  have h3 := (Nat.log2_lt h0 (k := n.log2 + 1)).1 (Nat.lt_succ_self _)
  rw [← Nat.pow_add, ← Nat.pow_add]
  have e1 : 52 + (n.log2 - 52) = n.log2 := by omega
  have e2 : 53 + (n.log2 - 52) = n.log2 + 1 := by omega
  rw [e1, e2]
  exact ⟨h2, h3⟩

/-- A representable number that is not small is a multiple of the spacing. -/
theorem isF64_multiple {m sh : Nat} (h : Spec.IsF64 m) (hm : 2 ^ 52 * 2 ^ sh ≤ m) :
    ∃ c, m = c * 2 ^ sh := by
  obtain ⟨a, e, ha, rfl⟩ := h
  have : sh ≤ e := by
    rcases Nat.lt_or_ge e sh with he | he
    · exfalso
      have h1 : a * 2 ^ e < 2 ^ 53 * 2 ^ e := Nat.mul_lt_mul_of_pos_right ha (Nat.two_pow_pos e)
      have h2 : 2 ^ 53 * 2 ^ e ≤ 2 ^ 52 * 2 ^ sh := by
        rw [← Nat.pow_add, ← Nat.pow_add]
        exact Nat.pow_le_pow_right (by decide) (by omega)
      omega
    · exact he
  refine ⟨a * 2 ^ (e - sh), ?_⟩
  rw [Nat.mul_assoc, ← Nat.pow_add]
  congr 2
  omega

theorem f64OfNat_spec (n : Nat) : Spec.IsF64 (f64OfNat n) ∧
    ∀ m, Spec.IsF64 m → Spec.distance n (f64OfNat n) ≤ Spec.distance n m := by
  rcases Nat.lt_or_ge n (2 ^ 53) with h | h
  · rw [f64OfNat_small h]
    refine ⟨⟨n, 0, h, by simp⟩, ?_⟩
    intro m _
    simp [Spec.distance]
  · obtain ⟨hlo, hhi⟩ := log2_bounds h
    have hsh : n.log2 - 52 = (n.log2 - 53) + 1 := by
      have h0 : n ≠ 0 := by intro hn; subst hn; simp at h
      have h1 : 53 ≤ n.log2 := (Nat.le_log2 h0).2 h
      omega
    generalize hs : n.log2 - 52 = sh at hlo hhi hsh
    have hp : 0 < 2 ^ sh := Nat.two_pow_pos sh
    have hq1 : 2 ^ 52 ≤ n / 2 ^ sh := (Nat.le_div_iff_mul_le hp).2 hlo
    have hq2 : n / 2 ^ sh < 2 ^ 53 := (Nat.div_lt_iff_lt_mul hp).2 hhi
    have hdm := Nat.div_add_mod n (2 ^ sh)
    have hr := Nat.mod_lt n hp
    unfold f64OfNat
    simp only [hs]
    generalize n / 2 ^ sh = q at *
    generalize n % 2 ^ sh = r at *
    have hS : (q + 1) * 2 ^ sh = q * 2 ^ sh + 2 ^ sh := Nat.succ_mul q _
    rw [Nat.mul_comm] at hdm
    have key : ∀ m, Spec.IsF64 m → m ≤ q * 2 ^ sh ∨ (q + 1) * 2 ^ sh ≤ m := by
      intro m hm
      rcases Nat.lt_or_ge m (2 ^ 52 * 2 ^ sh) with h1 | h1
      · left
        exact Nat.le_trans (Nat.le_of_lt h1) (Nat.mul_le_mul_right _ hq1)
      · obtain ⟨c, rfl⟩ := isF64_multiple hm h1
        rcases Nat.lt_or_ge q c with h2 | h2
        · right; exact Nat.mul_le_mul_right _ h2
        · left; exact Nat.mul_le_mul_right _ h2
    rw [hS] at key ⊢
    refine ⟨?_, ?_⟩
    · split
      · exact ⟨q, sh, hq2, rfl⟩
      · rcases Nat.lt_or_ge (q + 1) (2 ^ 53) with h1 | h1
        · exact ⟨q + 1, sh, h1, hS.symm⟩
        · refine ⟨1, 53 + sh, by decide, ?_⟩
          have : q + 1 = 2 ^ 53 := by omega
          rw [Nat.one_mul, Nat.pow_add, ← this, hS]
    · intro m hm
      have hk := key m hm
      unfold Spec.distance
      generalize q * 2 ^ sh = Q at *
      generalize 2 ^ sh = S at *
      split <;> omega

end CyclesLedger
