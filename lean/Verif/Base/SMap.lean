import Verif.Base.Order
/-!
# `StableBTreeMap` as a strictly sorted association list

Models `ic_stable_structures::StableBTreeMap` (used throughout
cycles-ledger/src/storage.rs:58-70): `get`, `insert`, `remove`,
`contains_key`, `len`, `first_key_value`, `iter`, `range(k..)`.
-/
namespace CyclesLedger

/-- Sorted-list map. -/
structure SMap (K V : Type) [TotOrd K] where
  entries : List (K × V)
  sorted : entries.Pairwise (fun a b => TotOrd.lt a.1 b.1 = true)

namespace SMap
variable {K V : Type} [TotOrd K]

def empty : SMap K V := ⟨[], List.Pairwise.nil⟩

def getL : List (K × V) → K → Option V
  | [], _ => none
  | (k', v) :: t, k => if k' = k then some v else getL t k

def insertL : List (K × V) → K → V → List (K × V)
  | [], k, v => [(k, v)]
  | (k', v') :: t, k, v =>
    if TotOrd.lt k k' then (k, v) :: (k', v') :: t
    else if k' = k then (k, v) :: t
    else (k', v') :: insertL t k v

def eraseL : List (K × V) → K → List (K × V)
  | [], _ => []
  | (k', v') :: t, k => if k' = k then t else (k', v') :: eraseL t k

theorem mem_insertL {l : List (K × V)} {k v x} (h : x ∈ insertL l k v) : x = (k, v) ∨ x ∈ l := by
  induction l with
  | nil => simp [insertL] at h; exact Or.inl h
  | cons a t ih =>
    obtain ⟨k', v'⟩ := a
    simp only [insertL] at h
    split at h
    · simp at h ⊢; rcases h with h | h | h <;> simp [h]
    · split at h
      · simp at h ⊢; rcases h with h | h <;> simp [h]
      · simp at h ⊢
        rcases h with h | h
        · simp [h]
        · rcases ih h with h | h <;> simp [h]

theorem mem_eraseL {l : List (K × V)} {k x} (h : x ∈ eraseL l k) : x ∈ l := by
  induction l with
  | nil => simp [eraseL] at h
  | cons a t ih =>
    obtain ⟨k', v'⟩ := a
    simp only [eraseL] at h
    split at h
    · simp [h]
    · simp at h ⊢
      rcases h with h | h
      · simp [h]
      · simp [ih h]

abbrev SortedL (l : List (K × V)) : Prop := l.Pairwise (fun a b => TotOrd.lt a.1 b.1 = true)

theorem sorted_insertL {l : List (K × V)} (hs : SortedL l) (k : K) (v : V) :
    SortedL (insertL l k v) := by
  induction l with
  | nil => simp [insertL, SortedL]
  | cons a t ih =>
    obtain ⟨k', v'⟩ := a
    rw [SortedL, List.pairwise_cons] at hs
    simp only [insertL]
    split
    · rename_i h
      rw [SortedL, List.pairwise_cons]
      refine ⟨?_, List.pairwise_cons.mpr hs⟩
      intro x hx
      rcases List.mem_cons.mp hx with rfl | hx
      · exact h
      · exact TotOrd.trans h (hs.1 x hx)
    · split
      · rename_i h1 h2
        subst h2
        exact List.pairwise_cons.mpr hs
      · rename_i h1 h2
        rw [SortedL, List.pairwise_cons]
        refine ⟨?_, ih hs.2⟩
        intro x hx
        rcases mem_insertL hx with rfl | hx
        · rcases TotOrd.tri k k' with h | h | h
          · exact absurd h h1
          · exact absurd h.symm h2
          · exact h
        · exact hs.1 x hx

theorem sorted_eraseL {l : List (K × V)} (hs : SortedL l) (k : K) : SortedL (eraseL l k) := by
  induction l with
  | nil => simp [eraseL, SortedL]
  | cons a t ih =>
    obtain ⟨k', v'⟩ := a
    rw [SortedL, List.pairwise_cons] at hs
    simp only [eraseL]
    split
    · exact hs.2
    · rw [SortedL, List.pairwise_cons]
      exact ⟨fun x hx => hs.1 x (mem_eraseL hx), ih hs.2⟩

/-- `StableBTreeMap::get`. -/
def get (m : SMap K V) (k : K) : Option V := getL m.entries k
/-- `StableBTreeMap::insert`. -/
def insert (m : SMap K V) (k : K) (v : V) : SMap K V :=
  ⟨insertL m.entries k v, sorted_insertL m.sorted k v⟩
/-- `StableBTreeMap::remove` (the returned old value is `get` before). -/
def erase (m : SMap K V) (k : K) : SMap K V :=
  ⟨eraseL m.entries k, sorted_eraseL m.sorted k⟩
/-- `StableBTreeMap::first_key_value`. -/
def first? (m : SMap K V) : Option (K × V) := m.entries.head?
/-- `StableBTreeMap::len`. -/
def len (m : SMap K V) : Nat := m.entries.length
/-- `StableBTreeMap::contains_key`. -/
def contains (m : SMap K V) (k : K) : Bool := (m.get k).isSome
/-- `StableBTreeMap::range(k..)`: entries with key not below `k`, in order. -/
def rangeFrom (m : SMap K V) (k : K) : List (K × V) :=
  m.entries.dropWhile (fun e => TotOrd.lt e.1 k)
/-- Sum of the values of a map of numbers, by iteration in key order. -/
def sum (m : SMap K Nat) : Nat := (m.entries.map Prod.snd).sum

theorem getL_none_of_lt {l : List (K × V)} {k : K}
    (h : ∀ x ∈ l, TotOrd.lt k x.1 = true) : getL l k = none := by
  induction l with
  | nil => rfl
  | cons a t ih =>
    obtain ⟨k', v'⟩ := a
    have h1 := h (k', v') (by simp)
    simp only [getL]
    rw [if_neg (TotOrd.ne_of_lt h1).symm]
    exact ih (fun x hx => h x (by simp [hx]))

theorem getL_insertL {l : List (K × V)} (hs : SortedL l) (k : K) (v : V) (j : K) :
    getL (insertL l k v) j = if k = j then some v else getL l j := by
  induction l with
  | nil => simp [insertL, getL]
  | cons a t ih =>
    obtain ⟨k', v'⟩ := a
    rw [SortedL, List.pairwise_cons] at hs
    simp only [insertL]
    split
    · rfl
    · split
      · rename_i _ h2
        subst h2
        simp only [getL]
        by_cases h : k' = j <;> simp [h]
      · rename_i h1 h2
        simp only [getL, ih hs.2]
        by_cases hj : k' = j
        · subst hj
          simp [Ne.symm h2]
        · simp [hj]

theorem getL_eraseL {l : List (K × V)} (hs : SortedL l) (k j : K) :
    getL (eraseL l k) j = if k = j then none else getL l j := by
  induction l with
  | nil => simp [eraseL, getL]
  | cons a t ih =>
    obtain ⟨k', v'⟩ := a
    rw [SortedL, List.pairwise_cons] at hs
    simp only [eraseL]
    split
    · rename_i h
      subst h
      by_cases hj : k' = j
      · subst hj
        simp only [if_true]
        exact getL_none_of_lt hs.1
      · simp [getL, hj]
    · rename_i h
      simp only [getL, ih hs.2]
      by_cases hj : k' = j
      · subst hj
        simp [Ne.symm h]
      · simp [hj]

@[simp] theorem get_empty (k : K) : (empty : SMap K V).get k = none := rfl

theorem get_insert (m : SMap K V) (k : K) (v : V) (j : K) :
    (m.insert k v).get j = if k = j then some v else m.get j :=
  getL_insertL m.sorted k v j

theorem get_erase (m : SMap K V) (k j : K) :
    (m.erase k).get j = if k = j then none else m.get j :=
  getL_eraseL m.sorted k j

@[simp] theorem get_insert_self (m : SMap K V) (k : K) (v : V) :
    (m.insert k v).get k = some v := by simp [get_insert]
@[simp] theorem get_erase_self (m : SMap K V) (k : K) : (m.erase k).get k = none := by
  simp [get_erase]
theorem get_insert_ne (m : SMap K V) {k j : K} (v : V) (h : k ≠ j) :
    (m.insert k v).get j = m.get j := by simp [get_insert, h]
theorem get_erase_ne (m : SMap K V) {k j : K} (h : k ≠ j) :
    (m.erase k).get j = m.get j := by simp [get_erase, h]

theorem getL_eq_some_iff {l : List (K × V)} (hs : SortedL l) (k : K) (v : V) :
    getL l k = some v ↔ (k, v) ∈ l := by
  induction l with
  | nil => simp [getL]
  | cons a t ih =>
    obtain ⟨k', v'⟩ := a
    rw [SortedL, List.pairwise_cons] at hs
    simp only [getL]
    by_cases h : k' = k
    · subst h
      simp only [if_true, Option.some.injEq, List.mem_cons, Prod.mk.injEq, true_and]
      constructor
      · intro h; exact Or.inl h.symm
      · rintro (h | h)
        · exact h.symm
        · have := hs.1 _ h
          simp only at this
          rw [TotOrd.irrefl] at this
          cases this
    · simp only [h, if_false, ih hs.2, List.mem_cons, Prod.mk.injEq]
      constructor
      · intro h; exact Or.inr h
      · rintro (⟨e, _⟩ | h')
        · exact absurd e.symm h
        · exact h'

theorem get_eq_some_iff (m : SMap K V) (k : K) (v : V) :
    m.get k = some v ↔ (k, v) ∈ m.entries := getL_eq_some_iff m.sorted k v

theorem first?_eq_some {m : SMap K V} {k : K} {v : V} (h : m.first? = some (k, v)) :
    m.get k = some v := by
  rw [get_eq_some_iff]
  exact List.mem_of_mem_head? h

theorem first?_le {m : SMap K V} {k : K} {v : V} (h : m.first? = some (k, v)) {k' : K} {v' : V}
    (h' : m.get k' = some v') : k' = k ∨ TotOrd.lt k k' = true := by
  obtain ⟨l, hs⟩ := m
  rw [get_eq_some_iff] at h'
  cases l with
  | nil => simp at h'
  | cons a t =>
    simp only [first?, List.head?_cons, Option.some.injEq] at h
    subst h
    rw [List.pairwise_cons] at hs
    rcases List.mem_cons.mp h' with e | e
    · exact Or.inl (congrArg Prod.fst e)
    · exact Or.inr (hs.1 _ e)

theorem first?_eq_none {m : SMap K V} (h : m.first? = none) (k : K) : m.get k = none := by
  obtain ⟨l, hs⟩ := m
  cases l with
  | nil => rfl
  | cons a t => simp [first?] at h

/-- Two maps with the same lookups are equal. -/
theorem getL_ext {l1 l2 : List (K × V)} (h1 : SortedL l1) (h2 : SortedL l2)
    (h : ∀ k, getL l1 k = getL l2 k) : l1 = l2 := by
  induction l1 generalizing l2 with
  | nil =>
    cases l2 with
    | nil => rfl
    | cons a t => have := h a.1; simp [getL] at this
  | cons a t ih =>
    cases l2 with
    | nil => have := h a.1; simp [getL] at this
    | cons b u =>
      obtain ⟨ka, va⟩ := a
      obtain ⟨kb, vb⟩ := b
      have h1' := List.pairwise_cons.mp h1
      have h2' := List.pairwise_cons.mp h2
      have hk : ka = kb := by
        rcases TotOrd.tri ka kb with hh | hh | hh
        · have := h ka
          simp only [getL, if_true] at this
          rw [if_neg (TotOrd.ne_of_lt hh).symm, getL_none_of_lt] at this
          · cases this
          · intro x hx; exact TotOrd.trans hh (h2'.1 x hx)
        · exact hh
        · have := h kb
          simp only [getL, if_true] at this
          rw [if_neg (TotOrd.ne_of_lt hh).symm, getL_none_of_lt] at this
          · cases this
          · intro x hx; exact TotOrd.trans hh (h1'.1 x hx)
      subst hk
      have hv : va = vb := by
        have := h ka; simpa [getL] using this
      subst hv
      have : t = u := by
        refine ih h1'.2 h2'.2 ?_
        intro k
        by_cases hk : ka = k
        · subst hk
          rw [getL_none_of_lt h1'.1, getL_none_of_lt h2'.1]
        · have := h k
          simpa [getL, hk] using this
      rw [this]

theorem ext {m1 m2 : SMap K V} (h : ∀ k, m1.get k = m2.get k) : m1 = m2 := by
  obtain ⟨l1, h1⟩ := m1
  obtain ⟨l2, h2⟩ := m2
  have : l1 = l2 := getL_ext h1 h2 h
  subst this
  rfl

theorem sumL_insertL {l : List (K × Nat)} (hs : SortedL l) (k : K) (v : Nat) :
    ((insertL l k v).map Prod.snd).sum + (getL l k).getD 0 = (l.map Prod.snd).sum + v := by
  induction l with
  | nil => simp [insertL, getL]
  | cons a t ih =>
    obtain ⟨k', v'⟩ := a
    rw [SortedL, List.pairwise_cons] at hs
    simp only [insertL]
    split
    · rename_i h
      have : getL ((k', v') :: t) k = none := by
        refine getL_none_of_lt ?_
        intro x hx
        rcases List.mem_cons.mp hx with rfl | hx
        · exact h
        · exact TotOrd.trans h (hs.1 x hx)
      rw [this]
      simp; omega
    · split
      · rename_i h
        subst h
        simp [getL]; omega
      · rename_i h
        have := ih hs.2
        simp [getL, h]
        omega

theorem sum_insert (m : SMap K Nat) (k : K) (v : Nat) :
    (m.insert k v).sum + (m.get k).getD 0 = m.sum + v := sumL_insertL m.sorted k v

theorem sumL_eraseL {l : List (K × Nat)} (k : K) :
    ((eraseL l k).map Prod.snd).sum + (getL l k).getD 0 = (l.map Prod.snd).sum := by
  induction l with
  | nil => simp [eraseL, getL]
  | cons a t ih =>
    obtain ⟨k', v'⟩ := a
    simp only [eraseL, getL]
    split
    · simp; omega
    · simp
      omega

theorem sum_erase (m : SMap K Nat) (k : K) :
    (m.erase k).sum + (m.get k).getD 0 = m.sum := sumL_eraseL k

theorem le_sum (m : SMap K Nat) (k : K) : (m.get k).getD 0 ≤ m.sum := by
  have := m.sum_erase k; omega

theorem get_two_le_sum (m : SMap K Nat) {k j : K} (h : k ≠ j) :
    (m.get k).getD 0 + (m.get j).getD 0 ≤ m.sum := by
  have h1 := m.sum_erase k
  have h2 := (m.erase k).le_sum j
  rw [get_erase_ne m h] at h2
  omega

theorem len_erase (m : SMap K V) (k : K) :
    (m.erase k).len = if (m.get k).isSome then m.len - 1 else m.len := by
  obtain ⟨l, hs⟩ := m
  show (eraseL l k).length = if (getL l k).isSome then l.length - 1 else l.length
  clear hs
  induction l with
  | nil => simp [eraseL, getL]
  | cons a t ih =>
    obtain ⟨k', v'⟩ := a
    simp only [eraseL, getL]
    split
    · simp
    · simp only [List.length_cons, ih]
      split
      · rename_i h
        have : t ≠ [] := by rintro rfl; simp [getL] at h
        have := List.length_pos_iff.mpr this
        omega
      · rfl

theorem erase_eq_of_none {m : SMap K V} {k : K} (h : m.get k = none) : m.erase k = m := by
  apply ext
  intro j
  rw [get_erase]
  split
  · rename_i e; subst e; exact h.symm
  · rfl

theorem mem_rangeFrom (m : SMap K V) (k : K) (x : K × V) :
    x ∈ m.rangeFrom k ↔ x ∈ m.entries ∧ TotOrd.lt x.1 k = false := by
  obtain ⟨l, hs⟩ := m
  simp only [rangeFrom]
  induction l with
  | nil => simp
  | cons a t ih =>
    rw [List.pairwise_cons] at hs
    rw [List.dropWhile_cons]
    split
    · rename_i h
      rw [ih hs.2]
      constructor
      · rintro ⟨h1, h2⟩; exact ⟨by simp [h1], h2⟩
      · rintro ⟨h1, h2⟩
        rcases List.mem_cons.mp h1 with rfl | h1
        · rw [h2] at h; cases h
        · exact ⟨h1, h2⟩
    · rename_i h
      simp only [Bool.not_eq_true] at h
      constructor
      · intro hx
        refine ⟨hx, ?_⟩
        rcases List.mem_cons.mp hx with rfl | hx
        · exact h
        · cases hxk : TotOrd.lt x.1 k with
          | false => rfl
          | true =>
            have := TotOrd.trans (hs.1 x hx) hxk
            rw [h] at this; cases this
      · exact fun h => h.1

end SMap
end CyclesLedger
