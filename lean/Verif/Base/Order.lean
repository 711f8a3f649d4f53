/-!
# Total orders used as keys of the stable B-tree maps

Rust keys are compared with `Ord` (tuples: lexicographic).  Only a strict
Boolean comparison with the laws of a total order is needed.
-/
namespace CyclesLedger

/-- A decidable strict total order (`Ord` in Rust). -/
class TotOrd (α : Type) where
  decEq : DecidableEq α
  lt : α → α → Bool
  irrefl : ∀ a, lt a a = false
  trans : ∀ {a b c}, lt a b = true → lt b c = true → lt a c = true
  tri : ∀ a b, lt a b = true ∨ a = b ∨ lt b a = true

attribute [instance_reducible] TotOrd.decEq
attribute [instance 50] TotOrd.decEq

namespace TotOrd
variable {α : Type} [TotOrd α]

theorem asymm {a b : α} (h : lt a b = true) : lt b a = false := by
  cases hb : lt b a with
  | false => rfl
  | true => have := trans h hb; rw [irrefl] at this; exact this.symm

theorem ne_of_lt {a b : α} (h : lt a b = true) : a ≠ b := by
  rintro rfl; rw [irrefl] at h; cases h

theorem eq_of_not {a b : α} (h1 : lt a b = false) (h2 : lt b a = false) : a = b := by
  rcases tri a b with h | h | h
  · rw [h1] at h; cases h
  · exact h
  · rw [h2] at h; cases h

end TotOrd

/-- `u64`, `u128` compare as naturals. -/
instance : TotOrd Nat where
  decEq := inferInstance
  lt a b := decide (a < b)
  irrefl a := by simp
  trans h1 h2 := by simp at *; omega
  tri a b := by simp; omega

instance : TotOrd UInt8 where
  decEq := inferInstance
  lt a b := decide (a.toNat < b.toNat)
  irrefl a := by simp
  trans h1 h2 := by simp only [decide_eq_true_eq] at *; omega
  tri a b := by
    simp only [decide_eq_true_eq]
    rcases Nat.lt_trichotomy a.toNat b.toNat with h | h | h
    · exact Or.inl h
    · exact Or.inr (Or.inl (UInt8.toNat_inj.mp h))
    · exact Or.inr (Or.inr h)

/-- Tuples compare lexicographically (Rust `Ord` on tuples). -/
def lexLt {α β : Type} [TotOrd α] [TotOrd β] (x y : α × β) : Bool :=
  TotOrd.lt x.1 y.1 || (decide (x.1 = y.1) && TotOrd.lt x.2 y.2)

instance {α β : Type} [TotOrd α] [TotOrd β] : TotOrd (α × β) where
  decEq := inferInstance
  lt := lexLt
  irrefl a := by simp [lexLt, TotOrd.irrefl]
  trans := by
    intro a b c h1 h2
    simp only [lexLt, Bool.or_eq_true, Bool.and_eq_true, decide_eq_true_eq] at *
    rcases h1 with h1 | ⟨e1, h1⟩ <;> rcases h2 with h2 | ⟨e2, h2⟩
    · exact Or.inl (TotOrd.trans h1 h2)
    · exact Or.inl (e2 ▸ h1)
    · exact Or.inl (e1 ▸ h2)
    · exact Or.inr ⟨e1.trans e2, TotOrd.trans h1 h2⟩
  tri := by
    intro a b
    simp only [lexLt, Bool.or_eq_true, Bool.and_eq_true, decide_eq_true_eq]
    rcases TotOrd.tri a.1 b.1 with h | h | h
    · exact Or.inl (Or.inl h)
    · rcases TotOrd.tri a.2 b.2 with h' | h' | h'
      · exact Or.inl (Or.inr ⟨h, h'⟩)
      · exact Or.inr (Or.inl (Prod.ext h h'))
      · exact Or.inr (Or.inr (Or.inr ⟨h.symm, h'⟩))
    · exact Or.inr (Or.inr (Or.inl h))

/-- Lexicographic comparison of slices. -/
def listLt {α : Type} [TotOrd α] : List α → List α → Bool
  | [], [] => false
  | [], _ :: _ => true
  | _ :: _, [] => false
  | a :: as, b :: bs => TotOrd.lt a b || (decide (a = b) && listLt as bs)

theorem listLt_irrefl {α : Type} [TotOrd α] : ∀ a : List α, listLt a a = false
  | [] => rfl
  | a :: as => by simp [listLt, TotOrd.irrefl, listLt_irrefl as]

theorem listLt_trans {α : Type} [TotOrd α] : ∀ {a b c : List α},
    listLt a b = true → listLt b c = true → listLt a c = true
  | [], [], _, h, _ => by simp [listLt] at h
  | [], _ :: _, [], _, h => by simp [listLt] at h
  | [], _ :: _, _ :: _, _, _ => by simp [listLt]
  | _ :: _, [], _, h, _ => by simp [listLt] at h
  | _ :: _, _ :: _, [], _, h => by simp [listLt] at h
  | a :: as, b :: bs, c :: cs, h1, h2 => by
    simp only [listLt, Bool.or_eq_true, Bool.and_eq_true, decide_eq_true_eq] at *
    rcases h1 with h1 | ⟨e1, h1⟩ <;> rcases h2 with h2 | ⟨e2, h2⟩
    · exact Or.inl (TotOrd.trans h1 h2)
    · exact Or.inl (e2 ▸ h1)
    · exact Or.inl (e1 ▸ h2)
    · exact Or.inr ⟨e1.trans e2, listLt_trans h1 h2⟩

theorem listLt_tri {α : Type} [TotOrd α] : ∀ a b : List α,
    listLt a b = true ∨ a = b ∨ listLt b a = true
  | [], [] => Or.inr (Or.inl rfl)
  | [], _ :: _ => Or.inl rfl
  | _ :: _, [] => Or.inr (Or.inr rfl)
  | a :: as, b :: bs => by
    simp only [listLt, Bool.or_eq_true, Bool.and_eq_true, decide_eq_true_eq]
    rcases TotOrd.tri a b with h | h | h
    · exact Or.inl (Or.inl h)
    · subst h
      rcases listLt_tri as bs with h' | h' | h'
      · exact Or.inl (Or.inr ⟨rfl, h'⟩)
      · subst h'; exact Or.inr (Or.inl rfl)
      · exact Or.inr (Or.inr (Or.inr ⟨rfl, h'⟩))
    · exact Or.inr (Or.inr (Or.inl h))

instance {α : Type} [TotOrd α] : TotOrd (List α) where
  decEq := inferInstance
  lt := listLt
  irrefl := listLt_irrefl
  trans := listLt_trans
  tri := listLt_tri

/-- Pull an order back along an injective function. -/
@[reducible] def TotOrd.lift {α β : Type} [TotOrd β] (f : α → β)
    (inj : ∀ a b, f a = f b → a = b) : TotOrd α where
  decEq a b := decidable_of_iff (f a = f b) ⟨inj a b, fun h => h ▸ rfl⟩
  lt a b := TotOrd.lt (f a) (f b)
  irrefl a := TotOrd.irrefl (f a)
  trans h1 h2 := TotOrd.trans h1 h2
  tri a b := by
    rcases TotOrd.tri (f a) (f b) with h | h | h
    · exact Or.inl h
    · exact Or.inr (Or.inl (inj a b h))
    · exact Or.inr (Or.inr h)

end CyclesLedger
