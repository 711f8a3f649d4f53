import Verif.Spec.Candid
import Verif.Proof.Leb
/-! # Candid: numbers, values, the table of types -/
namespace CyclesLedger.Candid
open CyclesLedger.Spec.Candid

/-! ## Numbers and bytes -/

theorem unleb_leb128 (n : Nat) (rest : Bytes) : unleb (leb128 n ++ rest) = some (n, rest) := by
  induction n using Nat.strongRecOn with
  | ind n ih =>
    unfold leb128
    split
    · rename_i h
      have h1 : (UInt8.ofNat n).toNat = n := by rw [UInt8.toNat_ofNat']; omega
      simp only [List.cons_append, List.nil_append, unleb, h1]
      rw [if_pos h]
    · rename_i h
      have h1 : (UInt8.ofNat (n % 128 + 128)).toNat = n % 128 + 128 := by
        rw [UInt8.toNat_ofNat']; omega
      simp only [List.cons_append, unleb, h1]
      rw [if_neg (by omega), ih (n / 128) (by omega)]
      exact congrArg some (Prod.ext (by simp only; omega) rfl)

theorem unsleb_sleb128 (n : Nat) (rest : Bytes) :
    unsleb (sleb128 n ++ rest) = some ((n : Int), rest) := by
  induction n using Nat.strongRecOn with
  | ind n ih =>
    unfold sleb128
    split
    · rename_i h
      have h1 : (UInt8.ofNat n).toNat = n := by rw [UInt8.toNat_ofNat']; omega
      simp only [List.cons_append, List.nil_append, unsleb, h1]
      rw [if_pos h]
    · rename_i h
      have h1 : (UInt8.ofNat (n % 128 + 128)).toNat = n % 128 + 128 := by
        rw [UInt8.toNat_ofNat']; omega
      simp only [List.cons_append, unsleb, h1]
      rw [if_neg (by omega), if_neg (by omega), ih (n / 128) (by omega)]
      exact congrArg some (Prod.ext (by simp only; omega) rfl)

theorem unsleb_ref {r : Int} (h : -24 ≤ r) (rest : Bytes) :
    unsleb (ref r ++ rest) = some (r, rest) := by
  unfold ref
  split
  · rename_i hr
    have h1 : (UInt8.ofNat (128 + r).toNat).toNat = (128 + r).toNat := by
      rw [UInt8.toNat_ofNat']; omega
    simp only [List.cons_append, List.nil_append, unsleb, h1]
    rw [if_neg (by omega), if_pos (by omega)]
    exact congrArg some (Prod.ext (by simp only; omega) rfl)
  · rename_i hr
    rw [unsleb_sleb128]
    exact congrArg some (Prod.ext (by simp only; omega) rfl)

theorem unint_continued (bs rest : Bytes) (h : Continued bs) :
    unint (bs ++ rest) = some (bs, rest) := by
  induction bs with
  | nil => exact absurd h (by simp [Continued])
  | cons b bs ih =>
    cases bs with
    | nil =>
      simp only [Continued] at h
      simp [unint, h]
    | cons c cs =>
      simp only [Continued] at h
      have := ih h.2
      rw [List.cons_append, unint, if_neg (by omega), this]

theorem takeBytes_append (bs rest : Bytes) : takeBytes bs.length (bs ++ rest) = some (bs, rest) := by
  simp [takeBytes]

theorem takeBlob_append (bs rest : Bytes) :
    takeBlob (leb128 bs.length ++ (bs ++ rest)) = some (bs, rest) := by
  simp only [takeBlob, unleb_leb128]
  exact takeBytes_append bs rest

theorem readMany_append {A : Type} {f : Bytes → Option (A × Bytes)} {g : A → Bytes} (l : List A)
    (rest : Bytes) (h : ∀ a ∈ l, ∀ rest, f (g a ++ rest) = some (a, rest)) :
    readMany f l.length (l.flatMap g ++ rest) = some (l, rest) := by
  induction l with
  | nil => rfl
  | cons a l ih =>
    simp only [List.length_cons, List.flatMap_cons, List.append_assoc, readMany]
    rw [h a List.mem_cons_self]
    simp only
    rw [ih (fun b hb => h b (List.mem_cons_of_mem _ hb))]

/-! ## Values -/

theorem toList_ofList (l : List Val) : (Vals.ofList l).toList = l := by
  induction l with
  | nil => rfl
  | cons v l ih => simp [Vals.ofList, Vals.toList, ih]

theorem values_ofList (l : List Val) : values (Vals.ofList l) = l.flatMap value := by
  induction l with
  | nil => simp [Vals.ofList, values]
  | cons v l ih => simp [Vals.ofList, values, ih]

mutual
/-- A value of a type. -/
def HasTy : Ty → Val → Prop
  | .null, v => v = .null
  | .reserved, v => v = .reserved
  | .bool, v => ∃ b, v = .bool b
  | .nat, v => ∃ n, v = .nat n
  | .int, v => ∃ bs, v = .int bs ∧ Continued bs
  | .text, v => ∃ bs, v = .text bs
  | .principal, v => ∃ bs, v = .principal bs ∧ bs.length ≤ 29
  | .service, v => ∃ bs, v = .service bs ∧ bs.length ≤ 29
  | .func, v => ∃ bs name, v = .func bs name ∧ bs.length ≤ 29
  | .empty, _ => False
  | .cut, _ => False
  | .fixed f, v => ∃ bs, v = .fixed bs ∧ bs.length = f.width
  | .opt t, v => v = .none ∨ ∃ x, v = .some x ∧ HasTy t x
  | .vec t, v => ∃ xs, v = .vec (Vals.ofList xs) ∧ ∀ x ∈ xs, HasTy t x
  | .record fs, v => ∃ vs, v = .record vs ∧ HasTys fs vs
  | .variant fs, v => ∃ i x, v = .variant i x ∧ HasCase fs i x
def HasTys : Fields → Vals → Prop
  | .nil, vs => vs = .nil
  | .cons _ t fs, vs => ∃ x xs, vs = .cons x xs ∧ HasTy t x ∧ HasTys fs xs
def HasCase : Fields → Nat → Val → Prop
  | .nil, _, _ => False
  | .cons _ t fs, i, x => (i = 0 ∧ HasTy t x) ∨ ∃ j, i = j + 1 ∧ HasCase fs j x
end

theorem readId_append (bs rest : Bytes) (h : bs.length ≤ 29) :
    readId (1 :: (leb128 bs.length ++ (bs ++ rest))) = some (bs, rest) := by
  simp only [readId, takeBlob_append]
  rw [if_pos trivial, if_pos h]

theorem readFun_append (bs name rest : Bytes) (h : bs.length ≤ 29) :
    readFun (1 :: 1 :: (leb128 bs.length ++ (bs ++ (leb128 name.length ++ (name ++ rest))))) =
      some ((bs, name), rest) := by
  simp only [readFun, readId_append bs _ h, takeBlob_append]
  rw [if_pos trivial]
  rfl

mutual
theorem readVal_value : ∀ (t : Ty) (v : Val) (rest : Bytes), HasTy t v →
    readVal t (value v ++ rest) = some (v, rest)
  | .null, v, rest, h => by
    simp only [HasTy] at h; subst h; simp [readVal, value]
  | .reserved, v, rest, h => by
    simp only [HasTy] at h; subst h; simp [readVal, value]
  | .bool, v, rest, h => by
    simp only [HasTy] at h; obtain ⟨b, rfl⟩ := h
    cases b <;> simp [readVal, value]
  | .nat, v, rest, h => by
    simp only [HasTy] at h; obtain ⟨n, rfl⟩ := h
    simp only [readVal, value, unleb_leb128, Option.map_some]
  | .int, v, rest, h => by
    simp only [HasTy] at h; obtain ⟨bs, rfl, hb⟩ := h
    simp only [readVal, value, unint_continued bs rest hb, Option.map_some]
  | .text, v, rest, h => by
    simp only [HasTy] at h; obtain ⟨bs, rfl⟩ := h
    simp only [readVal, value, List.append_assoc, takeBlob_append, Option.map_some]
  | .principal, v, rest, h => by
    simp only [HasTy] at h; obtain ⟨bs, rfl, hb⟩ := h
    simp only [readVal, value, List.cons_append, List.append_assoc, readId_append bs rest hb,
      Option.map_some]
  | .service, v, rest, h => by
    simp only [HasTy] at h; obtain ⟨bs, rfl, hb⟩ := h
    simp only [readVal, value, List.cons_append, List.append_assoc, readId_append bs rest hb,
      Option.map_some]
  | .func, v, rest, h => by
    simp only [HasTy] at h; obtain ⟨bs, name, rfl, hb⟩ := h
    simp only [readVal, value, List.cons_append, List.append_assoc, readFun_append bs name rest hb,
      Option.map_some]
  | .empty, v, rest, h => by simp only [HasTy] at h
  | .cut, v, rest, h => by simp only [HasTy] at h
  | .fixed f, v, rest, h => by
    simp only [HasTy] at h; obtain ⟨bs, rfl, hb⟩ := h
    simp only [readVal, value, ← hb, takeBytes_append, Option.map_some]
  | .opt t, v, rest, h => by
    simp only [HasTy] at h
    rcases h with rfl | ⟨x, rfl, hx⟩
    · simp [readVal, value]
    · simp only [readVal, value, List.cons_append]
      rw [if_neg (by decide), if_pos trivial, readVal_value t x rest hx]
      rfl
  | .vec t, v, rest, h => by
    simp only [HasTy] at h; obtain ⟨xs, rfl, hx⟩ := h
    simp only [readVal, value, List.append_assoc, unleb_leb128, toList_ofList, values_ofList]
    rw [readMany_append (f := fun bs => readVal t bs) (g := value) xs rest
      (fun a ha rest => readVal_value t a rest (hx a ha))]
    rfl
  | .record fs, v, rest, h => by
    simp only [HasTy] at h; obtain ⟨vs, rfl, hv⟩ := h
    simp only [readVal, value, readRecord_values fs vs rest hv, Option.map_some]
  | .variant fs, v, rest, h => by
    simp only [HasTy] at h; obtain ⟨i, x, rfl, hv⟩ := h
    simp only [readVal, value, List.append_assoc, unleb_leb128, readCase_value fs i x rest hv,
      Option.map_some]
theorem readRecord_values : ∀ (fs : Fields) (vs : Vals) (rest : Bytes), HasTys fs vs →
    readRecord fs (values vs ++ rest) = some (vs, rest)
  | .nil, vs, rest, h => by
    simp only [HasTys] at h; subst h; simp [readRecord, values]
  | .cons _ t fs, vs, rest, h => by
    simp only [HasTys] at h; obtain ⟨x, xs, rfl, hx, hxs⟩ := h
    simp only [readRecord, values, List.append_assoc]
    rw [readVal_value t x _ hx]
    simp only [readRecord_values fs xs rest hxs, Option.map_some]
theorem readCase_value : ∀ (fs : Fields) (i : Nat) (x : Val) (rest : Bytes), HasCase fs i x →
    readCase fs i (value x ++ rest) = some (x, rest)
  | .nil, i, x, rest, h => by simp only [HasCase] at h
  | .cons _ t fs, i, x, rest, h => by
    simp only [HasCase] at h
    rcases h with ⟨rfl, hx⟩ | ⟨j, rfl, hx⟩
    · simp only [readCase]; exact readVal_value t x rest hx
    · simp only [readCase]; exact readCase_value fs j x rest hx
end

/-! ## The table -/

theorem increasing_of_pairwise : ∀ (fs : List (Nat × Int)),
    fs.Pairwise (fun a b => a.1 < b.1) → increasing fs = true
  | [], _ => rfl
  | [_], _ => rfl
  | a :: b :: rest, h => by
    have h' := List.pairwise_cons.mp h
    simp only [increasing, Bool.and_eq_true, decide_eq_true_eq]
    exact ⟨h'.1 b List.mem_cons_self, increasing_of_pairwise (b :: rest) h'.2⟩

theorem refers_ge {table : List Comp} {r : Int} (h : Refers table r) : -24 ≤ r := by
  rcases h with h | h | ⟨c, h, _⟩ <;> omega

theorem before_of_lt : ∀ {a b : Bytes}, a < b → before a b = true
  | _, [], h => absurd h (List.not_lt_nil _)
  | [], _ :: _, _ => rfl
  | a :: as, b :: bs, h => by
    rw [List.cons_lt_cons_iff] at h
    simp only [before, Bool.or_eq_true, decide_eq_true_eq, Bool.and_eq_true, beq_iff_eq]
    exact h.imp id (fun h => ⟨h.1, before_of_lt h.2⟩)

theorem rising_of_pairwise : ∀ (ms : List (Bytes × Int)),
    ms.Pairwise (fun a b => a.1 < b.1) → rising ms = true
  | [], _ => rfl
  | [_], _ => rfl
  | a :: b :: rest, h => by
    have h' := List.pairwise_cons.mp h
    simp only [rising, Bool.and_eq_true]
    exact ⟨before_of_lt (h'.1 b List.mem_cons_self), rising_of_pairwise (b :: rest) h'.2⟩

theorem readRefs_refs {table : List Comp} (rs : List Int) (rest : Bytes)
    (h : ∀ r ∈ rs, Refers table r) :
    readRefs (leb128 rs.length ++ (rs.flatMap ref ++ rest)) = some (rs, rest) := by
  simp only [readRefs, unleb_leb128]
  exact readMany_append (g := ref) rs rest (fun r hr rest => unsleb_ref (refers_ge (h r hr)) rest)

theorem readFields_fields {table : List Comp} (fs : List (Nat × Int)) (rest : Bytes)
    (h : FieldsOk table fs) :
    readFields (leb128 fs.length ++ (fs.flatMap Spec.Candid.field ++ rest)) = some (fs, rest) := by
  simp only [readFields, unleb_leb128]
  rw [readMany_append (f := readField) (g := Spec.Candid.field) fs rest]
  · simp only
    rw [if_pos (increasing_of_pairwise fs h.1)]
  · intro a ha rest
    obtain ⟨l, r⟩ := a
    simp only [readField, Spec.Candid.field, List.append_assoc, unleb_leb128]
    rw [unsleb_ref (refers_ge (h.2 _ ha))]
    rfl

theorem unsleb_byte {b : UInt8} {rest : Bytes} (h1 : 64 ≤ b.toNat) (h2 : b.toNat < 128) :
    unsleb (b :: rest) = some ((b.toNat : Int) - 128, rest) := by
  simp only [unsleb]
  rw [if_neg (by omega), if_pos h2]

theorem readComp_comp {table : List Comp} (c : Comp) (rest : Bytes) (h : CompOk table c) :
    readComp (comp c ++ rest) = some (c, rest) := by
  cases c with
  | opt r =>
    simp only [comp, List.cons_append, readComp, unsleb_byte (b := 0x6e) (by decide) (by decide)]
    rw [if_pos (by decide), unsleb_ref (refers_ge h)]; rfl
  | vec r =>
    simp only [comp, List.cons_append, readComp, unsleb_byte (b := 0x6d) (by decide) (by decide)]
    rw [if_neg (by decide), if_pos (by decide), unsleb_ref (refers_ge h)]; rfl
  | record fs =>
    simp only [comp, List.cons_append, readComp, unsleb_byte (b := 0x6c) (by decide) (by decide)]
    rw [if_neg (by decide), if_neg (by decide), if_pos (by decide), List.append_assoc,
      readFields_fields fs rest h]; rfl
  | variant fs =>
    simp only [comp, List.cons_append, readComp, unsleb_byte (b := 0x6b) (by decide) (by decide)]
    rw [if_neg (by decide), if_neg (by decide), if_neg (by decide), if_pos (by decide),
      List.append_assoc, readFields_fields fs rest h]; rfl
  | func as rs notes =>
    simp only [comp, List.cons_append, readComp, unsleb_byte (b := 0x6a) (by decide) (by decide)]
    rw [if_neg (by decide), if_neg (by decide), if_neg (by decide), if_neg (by decide),
      if_pos (by decide)]
    obtain ⟨h1, h2, h3⟩ := h
    simp only [readFunc, List.append_assoc, readRefs_refs as _ h1, readRefs_refs rs _ h2,
      takeBlob_append]
    rw [if_pos]
    simp only [List.mem_cons, List.not_mem_nil, or_false] at h3
    rcases h3 with rfl | rfl | rfl | rfl <;> decide
  | service ms =>
    simp only [comp, List.cons_append, readComp, unsleb_byte (b := 0x69) (by decide) (by decide)]
    rw [if_neg (by decide), if_neg (by decide), if_neg (by decide), if_neg (by decide),
      if_neg (by decide), if_pos (by decide)]
    obtain ⟨h1, h2⟩ := h
    simp only [readService, List.append_assoc, unleb_leb128]
    rw [readMany_append (f := readMethod) (g := method) ms rest]
    · simp only
      rw [if_pos (rising_of_pairwise ms h1)]
    · intro m hm rest
      obtain ⟨as, rs, notes, h0, _⟩ := h2 m hm
      simp only [readMethod, method, List.append_assoc, takeBlob_append]
      rw [unsleb_ref (by omega)]
      rfl

theorem simple_some {r : Int} (h : (-17 ≤ r ∧ r ≤ -1) ∨ r = -24) : ∃ t, simple r = some t := by
  have : r = -1 ∨ r = -2 ∨ r = -3 ∨ r = -4 ∨ r = -5 ∨ r = -6 ∨ r = -7 ∨ r = -8 ∨ r = -9 ∨ r = -10 ∨
      r = -11 ∨ r = -12 ∨ r = -13 ∨ r = -14 ∨ r = -15 ∨ r = -16 ∨ r = -17 ∨ r = -24 := by omega
  rcases this with rfl | rfl | rfl | rfl | rfl | rfl | rfl | rfl | rfl | rfl | rfl | rfl | rfl | rfl |
    rfl | rfl | rfl | rfl <;> exact ⟨_, rfl⟩

theorem refers_of {table : List Comp} {r : Int} (h : Refers table r) : refers table r = true := by
  unfold refers
  rcases h with h | h | ⟨c, h0, h1⟩
  · obtain ⟨t, ht⟩ := simple_some (.inl h)
    rw [if_pos (by omega), ht]; rfl
  · obtain ⟨t, ht⟩ := simple_some (.inr h)
    rw [if_pos (by omega), ht]; rfl
  · rw [if_neg (by omega)]
    exact decide_eq_true (List.getElem?_eq_some_iff.mp h1).1

theorem closed_of_ok {table : List Comp} {c : Comp} (h : CompOk table c) : closed table c = true := by
  cases c with
  | opt r => exact refers_of h
  | vec r => exact refers_of h
  | record fs => exact List.all_eq_true.mpr (fun f hf => refers_of (h.2 f hf))
  | variant fs => exact List.all_eq_true.mpr (fun f hf => refers_of (h.2 f hf))
  | func as rs notes =>
    simp only [closed, Bool.and_eq_true, List.all_eq_true]
    exact ⟨fun r hr => refers_of (h.1 r hr), fun r hr => refers_of (h.2.1 r hr)⟩
  | service ms =>
    simp only [closed, List.all_eq_true]
    intro m hm
    obtain ⟨as, rs, notes, h0, h1⟩ := h.2 m hm
    simp only [isFunc, h1, h0, decide_true, Bool.and_self]

/-! ## References: the depth of a type is at most the length of the table -/

mutual
def Ty.depth : Ty → Nat
  | .opt t => t.depth + 1
  | .vec t => t.depth + 1
  | .record fs => fs.depth + 1
  | .variant fs => fs.depth + 1
  | _ => 0
def Fields.depth : Fields → Nat
  | .nil => 0
  | .cons _ t fs => max t.depth fs.depth
end

mutual
/-- A type that is a finite tree, and a reference to it. -/
def Denotes (table : List Comp) : Ty → Int → Prop
  | .null, r => r = -1
  | .bool, r => r = -2
  | .nat, r => r = -3
  | .int, r => r = -4
  | .fixed f, r => r = fixedCode f
  | .text, r => r = -15
  | .reserved, r => r = -16
  | .empty, r => r = -17
  | .principal, r => r = -24
  | .cut, _ => False
  | .func, r => ∃ s : List Int × List Int × Bytes, At table r (.func s.1 s.2.1 s.2.2) ∧ 0 ≤ r
  | .service, r => ∃ s, At table r (.service s) ∧ 0 ≤ r
  | .opt t, r => ∃ s, At table r (.opt s) ∧ Denotes table t s
  | .vec t, r => ∃ s, At table r (.vec s) ∧ Denotes table t s
  | .record fs, r => ∃ l, At table r (.record l) ∧ DenotesAll table fs l
  | .variant fs, r => ∃ l, At table r (.variant l) ∧ DenotesAll table fs l
def DenotesAll (table : List Comp) : Fields → List (Nat × Int) → Prop
  | .nil, l => l = []
  | .cons lb t fs, l => ∃ s rest, l = (lb, s) :: rest ∧ Denotes table t s ∧ DenotesAll table fs rest
end

theorem denotes_at {table : List Comp} {t : Ty} {r : Int} (h : Denotes table t r) (hr : 0 ≤ r) :
    r.toNat < table.length := by
  cases t <;> simp only [Denotes] at h
  case null => omega
  case bool => omega
  case nat => omega
  case int => omega
  case text => omega
  case reserved => omega
  case principal => omega
  case empty => omega
  case fixed f => cases f <;> simp only [fixedCode] at h <;> omega
  all_goals
    obtain ⟨s, ⟨_, h1⟩, _⟩ := h
    exact (List.getElem?_eq_some_iff.mp h1).1

theorem simple_of_denotes {table : List Comp} {t : Ty} {r : Int} (h : Denotes table t r)
    (hr : r < 0) : simple r = some t := by
  cases t <;> simp only [Denotes] at h
  case null => subst h; rfl
  case bool => subst h; rfl
  case nat => subst h; rfl
  case int => subst h; rfl
  case text => subst h; rfl
  case reserved => subst h; rfl
  case principal => subst h; rfl
  case empty => subst h; rfl
  case fixed f => subst h; cases f <;> rfl
  all_goals
    obtain ⟨s, ⟨h0, _⟩, _⟩ := h
    omega

theorem depth_zero_of_neg {table : List Comp} {t : Ty} {r : Int} (h : Denotes table t r)
    (hr : r < 0) : t.depth = 0 := by
  cases t <;> simp only [Denotes] at h <;> first
    | rfl
    | (obtain ⟨s, ⟨h0, _⟩, _⟩ := h; omega)

mutual
theorem denotes_unique {table : List Comp} : ∀ (t u : Ty) (r : Int), Denotes table t r →
    Denotes table u r → t = u
  | .opt t, u, r, h, h' => by
    simp only [Denotes] at h; obtain ⟨s, ⟨h0, h1⟩, h2⟩ := h
    cases u <;> simp only [Denotes] at h'
    case opt u =>
      obtain ⟨s', ⟨_, h1'⟩, h2'⟩ := h'
      rw [h1] at h1'; cases h1'
      rw [denotes_unique t u s h2 h2']
    case fixed f => cases f <;> simp only [fixedCode] at h' <;> omega
    all_goals first
      | omega
      | (obtain ⟨s', ⟨_, h1'⟩, _⟩ := h'; rw [h1] at h1'; cases h1')
  | .vec t, u, r, h, h' => by
    simp only [Denotes] at h; obtain ⟨s, ⟨h0, h1⟩, h2⟩ := h
    cases u <;> simp only [Denotes] at h'
    case vec u =>
      obtain ⟨s', ⟨_, h1'⟩, h2'⟩ := h'
      rw [h1] at h1'; cases h1'
      rw [denotes_unique t u s h2 h2']
    case fixed f => cases f <;> simp only [fixedCode] at h' <;> omega
    all_goals first
      | omega
      | (obtain ⟨s', ⟨_, h1'⟩, _⟩ := h'; rw [h1] at h1'; cases h1')
  | .record t, u, r, h, h' => by
    simp only [Denotes] at h; obtain ⟨s, ⟨h0, h1⟩, h2⟩ := h
    cases u <;> simp only [Denotes] at h'
    case record u =>
      obtain ⟨s', ⟨_, h1'⟩, h2'⟩ := h'
      rw [h1] at h1'; cases h1'
      rw [denotesAll_unique t u s h2 h2']
    case fixed f => cases f <;> simp only [fixedCode] at h' <;> omega
    all_goals first
      | omega
      | (obtain ⟨s', ⟨_, h1'⟩, _⟩ := h'; rw [h1] at h1'; cases h1')
  | .variant t, u, r, h, h' => by
    simp only [Denotes] at h; obtain ⟨s, ⟨h0, h1⟩, h2⟩ := h
    cases u <;> simp only [Denotes] at h'
    case variant u =>
      obtain ⟨s', ⟨_, h1'⟩, h2'⟩ := h'
      rw [h1] at h1'; cases h1'
      rw [denotesAll_unique t u s h2 h2']
    case fixed f => cases f <;> simp only [fixedCode] at h' <;> omega
    all_goals first
      | omega
      | (obtain ⟨s', ⟨_, h1'⟩, _⟩ := h'; rw [h1] at h1'; cases h1')
  | .null, u, r, h, h' => by
    have hr : r < 0 := by simp only [Denotes] at h; omega
    have := simple_of_denotes h hr; rw [simple_of_denotes h' hr] at this; cases this; rfl
  | .bool, u, r, h, h' => by
    have hr : r < 0 := by simp only [Denotes] at h; omega
    have := simple_of_denotes h hr; rw [simple_of_denotes h' hr] at this; cases this; rfl
  | .nat, u, r, h, h' => by
    have hr : r < 0 := by simp only [Denotes] at h; omega
    have := simple_of_denotes h hr; rw [simple_of_denotes h' hr] at this; cases this; rfl
  | .int, u, r, h, h' => by
    have hr : r < 0 := by simp only [Denotes] at h; omega
    have := simple_of_denotes h hr; rw [simple_of_denotes h' hr] at this; cases this; rfl
  | .text, u, r, h, h' => by
    have hr : r < 0 := by simp only [Denotes] at h; omega
    have := simple_of_denotes h hr; rw [simple_of_denotes h' hr] at this; cases this; rfl
  | .reserved, u, r, h, h' => by
    have hr : r < 0 := by simp only [Denotes] at h; omega
    have := simple_of_denotes h hr; rw [simple_of_denotes h' hr] at this; cases this; rfl
  | .cut, u, r, h, h' => by simp only [Denotes] at h
  | .func, u, r, h, h' => by
    simp only [Denotes] at h; obtain ⟨s, ⟨h0, h1⟩, h2⟩ := h
    cases u <;> simp only [Denotes] at h'
    case func => rfl
    case fixed f => cases f <;> simp only [fixedCode] at h' <;> omega
    all_goals first
      | omega
      | (obtain ⟨s', ⟨_, h1'⟩, _⟩ := h'; rw [h1] at h1'; cases h1')
  | .service, u, r, h, h' => by
    simp only [Denotes] at h; obtain ⟨s, ⟨h0, h1⟩, h2⟩ := h
    cases u <;> simp only [Denotes] at h'
    case service => rfl
    case fixed f => cases f <;> simp only [fixedCode] at h' <;> omega
    all_goals first
      | omega
      | (obtain ⟨s', ⟨_, h1'⟩, _⟩ := h'; rw [h1] at h1'; cases h1')
  | .empty, u, r, h, h' => by
    have hr : r < 0 := by simp only [Denotes] at h; omega
    have := simple_of_denotes h hr; rw [simple_of_denotes h' hr] at this; cases this; rfl
  | .principal, u, r, h, h' => by
    have hr : r < 0 := by simp only [Denotes] at h; omega
    have := simple_of_denotes h hr; rw [simple_of_denotes h' hr] at this; cases this; rfl
  | .fixed f, u, r, h, h' => by
    have hr : r < 0 := by
      simp only [Denotes] at h; cases f <;> simp only [fixedCode] at h <;> omega
    have := simple_of_denotes h hr; rw [simple_of_denotes h' hr] at this; cases this; rfl
theorem denotesAll_unique {table : List Comp} : ∀ (t u : Fields) (l : List (Nat × Int)),
    DenotesAll table t l → DenotesAll table u l → t = u
  | .nil, u, l, h, h' => by
    simp only [DenotesAll] at h; subst h
    cases u with
    | nil => rfl
    | cons _ _ _ =>
      simp only [DenotesAll] at h'
      obtain ⟨_, _, h, _⟩ := h'; cases h
  | .cons lb t fs, u, l, h, h' => by
    simp only [DenotesAll] at h; obtain ⟨s, rest, rfl, h1, h2⟩ := h
    cases u with
    | nil => simp only [DenotesAll] at h'; cases h'
    | cons lb' t' fs' =>
      simp only [DenotesAll] at h'
      obtain ⟨s', rest', he, h1', h2'⟩ := h'
      cases he
      rw [denotes_unique t t' s h1 h1', denotesAll_unique fs fs' rest h2 h2']
end

/-- Positions in the table, one for each level of a type. -/
def Levels (table : List Comp) (n d : Nat) : Prop :=
  ∃ l : List Nat, l.Nodup ∧ l.length = d ∧ ∀ i ∈ l, i < table.length ∧
    ∃ t', Denotes table t' (i : Int) ∧ t'.depth ≤ n

theorem levels_cons {table : List Comp} {t : Ty} {r : Int} {d : Nat} (h : Denotes table t r)
    (hr : 0 ≤ r) (hd : t.depth = d + 1) (hl : Levels table d d) : Levels table (d + 1) (d + 1) := by
  obtain ⟨l, h1, h2, h3⟩ := hl
  refine ⟨r.toNat :: l, List.nodup_cons.mpr ⟨?_, h1⟩, by simp [h2], ?_⟩
  · intro hm
    obtain ⟨_, t', ht, hle⟩ := h3 _ hm
    have hi : ((r.toNat : Nat) : Int) = r := by omega
    rw [hi] at ht
    rw [denotes_unique t' t r ht h] at hle
    omega
  · intro i hi
    rcases List.mem_cons.mp hi with rfl | hi
    · refine ⟨denotes_at h hr, t, ?_, by omega⟩
      have hi : ((r.toNat : Nat) : Int) = r := by omega
      rw [hi]; exact h
    · obtain ⟨a, t', b, c⟩ := h3 _ hi
      exact ⟨a, t', b, by omega⟩

theorem levels_zero {table : List Comp} : Levels table 0 0 :=
  ⟨[], List.nodup_nil, rfl, fun i hi => by cases hi⟩

mutual
theorem levels_of_denotes {table : List Comp} : ∀ (t : Ty) (r : Int), Denotes table t r →
    Levels table t.depth t.depth
  | .opt t, r, h => by
    have h' := h
    simp only [Denotes] at h'; obtain ⟨s, ⟨h0, _⟩, h2⟩ := h'
    simp only [Ty.depth]
    exact levels_cons h h0 (by simp only [Ty.depth]) (levels_of_denotes t s h2)
  | .vec t, r, h => by
    have h' := h
    simp only [Denotes] at h'; obtain ⟨s, ⟨h0, _⟩, h2⟩ := h'
    simp only [Ty.depth]
    exact levels_cons h h0 (by simp only [Ty.depth]) (levels_of_denotes t s h2)
  | .record fs, r, h => by
    have h' := h
    simp only [Denotes] at h'; obtain ⟨s, ⟨h0, _⟩, h2⟩ := h'
    simp only [Ty.depth]
    exact levels_cons h h0 (by simp only [Ty.depth]) (levels_of_denotesAll fs s h2)
  | .variant fs, r, h => by
    have h' := h
    simp only [Denotes] at h'; obtain ⟨s, ⟨h0, _⟩, h2⟩ := h'
    simp only [Ty.depth]
    exact levels_cons h h0 (by simp only [Ty.depth]) (levels_of_denotesAll fs s h2)
  | .null, _, _ => by simp only [Ty.depth]; exact levels_zero
  | .bool, _, _ => by simp only [Ty.depth]; exact levels_zero
  | .nat, _, _ => by simp only [Ty.depth]; exact levels_zero
  | .int, _, _ => by simp only [Ty.depth]; exact levels_zero
  | .text, _, _ => by simp only [Ty.depth]; exact levels_zero
  | .reserved, _, _ => by simp only [Ty.depth]; exact levels_zero
  | .principal, _, _ => by simp only [Ty.depth]; exact levels_zero
  | .empty, _, _ => by simp only [Ty.depth]; exact levels_zero
  | .cut, _, _ => by simp only [Ty.depth]; exact levels_zero
  | .func, _, _ => by simp only [Ty.depth]; exact levels_zero
  | .service, _, _ => by simp only [Ty.depth]; exact levels_zero
  | .fixed _, _, _ => by simp only [Ty.depth]; exact levels_zero
theorem levels_of_denotesAll {table : List Comp} : ∀ (fs : Fields) (l : List (Nat × Int)),
    DenotesAll table fs l → Levels table fs.depth fs.depth
  | .nil, _, _ => by simp only [Fields.depth]; exact levels_zero
  | .cons _ t fs, l, h => by
    simp only [DenotesAll] at h; obtain ⟨s, rest, rfl, h1, h2⟩ := h
    simp only [Fields.depth]
    rcases Nat.le_total t.depth fs.depth with hle | hle
    · rw [Nat.max_eq_right hle]; exact levels_of_denotesAll fs rest h2
    · rw [Nat.max_eq_left hle]; exact levels_of_denotes t s h1
end

theorem nodup_length_le : ∀ (n : Nat) (l : List Nat), l.Nodup → (∀ i ∈ l, i < n) → l.length ≤ n
  | 0, l, _, h => by
    cases l with
    | nil => exact Nat.le_refl _
    | cons a l => exact absurd (h a List.mem_cons_self) (by omega)
  | n + 1, l, hn, h => by
    by_cases hm : n ∈ l
    · have h1 := nodup_length_le n (l.erase n) (hn.erase n) (fun i hi => by
        have h2 := (List.Nodup.mem_erase_iff hn).mp hi
        have := h i h2.2
        omega)
      have := List.length_erase_of_mem hm
      omega
    · have := nodup_length_le n l hn (fun i hi => by
        have := h i hi
        have : i ≠ n := fun e => hm (e ▸ hi)
        omega)
      omega

theorem depth_le {table : List Comp} {t : Ty} {r : Int} (h : Denotes table t r) :
    t.depth ≤ table.length := by
  obtain ⟨l, h1, h2, h3⟩ := levels_of_denotes t r h
  have := nodup_length_le table.length l h1 (fun i hi => (h3 i hi).1)
  omega

theorem denotes_ge {table : List Comp} {t : Ty} {r : Int} (h : Denotes table t r) : -24 ≤ r := by
  cases t <;> simp only [Denotes] at h
  case fixed f => cases f <;> simp only [fixedCode] at h <;> omega
  all_goals first
    | omega
    | (obtain ⟨s, ⟨h0, _⟩, _⟩ := h; omega)

theorem denotes_refers {table : List Comp} {t : Ty} {r : Int} (h : Denotes table t r) :
    Refers table r := by
  cases t <;> simp only [Denotes] at h
  case fixed f => left; cases f <;> simp only [fixedCode] at h <;> omega
  case principal => exact .inr (.inl h)
  all_goals first
    | exact .inl (by omega)
    | (obtain ⟨s, h, _⟩ := h; exact .inr (.inr ⟨_, h⟩))

/-! ## Unfolding -/

mutual
theorem unfolds_of_denotes {table : List Comp} : ∀ (t : Ty) (r : Int) (k : Nat),
    Denotes table t r → t.depth < k → Unfolds table t k r
  | .opt t, r, k, h, hk => by
    simp only [Denotes] at h; obtain ⟨s, h1, h2⟩ := h
    simp only [Ty.depth] at hk
    simp only [Unfolds]
    exact ⟨k - 1, s, by omega, h1, unfolds_of_denotes t s (k - 1) h2 (by omega)⟩
  | .vec t, r, k, h, hk => by
    simp only [Denotes] at h; obtain ⟨s, h1, h2⟩ := h
    simp only [Ty.depth] at hk
    simp only [Unfolds]
    exact ⟨k - 1, s, by omega, h1, unfolds_of_denotes t s (k - 1) h2 (by omega)⟩
  | .record fs, r, k, h, hk => by
    simp only [Denotes] at h; obtain ⟨s, h1, h2⟩ := h
    simp only [Ty.depth] at hk
    simp only [Unfolds]
    exact ⟨k - 1, s, by omega, h1, unfoldsAll_of_denotes fs s (k - 1) h2 (by omega)⟩
  | .variant fs, r, k, h, hk => by
    simp only [Denotes] at h; obtain ⟨s, h1, h2⟩ := h
    simp only [Ty.depth] at hk
    simp only [Unfolds]
    exact ⟨k - 1, s, by omega, h1, unfoldsAll_of_denotes fs s (k - 1) h2 (by omega)⟩
  | .func, r, k, h, hk => by
    simp only [Denotes] at h; obtain ⟨s, h1, _⟩ := h
    simp only [Unfolds]
    exact ⟨by omega, _, _, _, h1⟩
  | .service, r, k, h, hk => by
    simp only [Denotes] at h; obtain ⟨s, h1, _⟩ := h
    simp only [Unfolds]
    exact ⟨by omega, _, h1⟩
  | .cut, r, k, h, hk => by simp only [Denotes] at h
  | .null, r, k, h, hk => by
    simp only [Denotes] at h; simp only [Unfolds]
    exact ⟨by omega, h⟩
  | .bool, r, k, h, hk => by
    simp only [Denotes] at h; simp only [Unfolds]
    exact ⟨by omega, h⟩
  | .nat, r, k, h, hk => by
    simp only [Denotes] at h; simp only [Unfolds]
    exact ⟨by omega, h⟩
  | .int, r, k, h, hk => by
    simp only [Denotes] at h; simp only [Unfolds]
    exact ⟨by omega, h⟩
  | .text, r, k, h, hk => by
    simp only [Denotes] at h; simp only [Unfolds]
    exact ⟨by omega, h⟩
  | .reserved, r, k, h, hk => by
    simp only [Denotes] at h; simp only [Unfolds]
    exact ⟨by omega, h⟩
  | .empty, r, k, h, hk => by
    simp only [Denotes] at h; simp only [Unfolds]
    exact ⟨by omega, h⟩
  | .principal, r, k, h, hk => by
    simp only [Denotes] at h; simp only [Unfolds]
    exact ⟨by omega, h⟩
  | .fixed _, r, k, h, hk => by
    simp only [Denotes] at h; simp only [Unfolds]
    exact ⟨by omega, h⟩
theorem unfoldsAll_of_denotes {table : List Comp} : ∀ (fs : Fields) (l : List (Nat × Int))
    (k : Nat), DenotesAll table fs l → fs.depth < k → UnfoldsAll table fs k l
  | .nil, l, k, h, _ => by
    simp only [DenotesAll] at h; simp only [UnfoldsAll]; exact h
  | .cons lb t fs, l, k, h, hk => by
    simp only [DenotesAll] at h; obtain ⟨s, rest, h0, h1, h2⟩ := h
    simp only [Fields.depth] at hk
    simp only [UnfoldsAll]
    exact ⟨s, rest, h0, unfolds_of_denotes t s k h1 (by omega),
      unfoldsAll_of_denotes fs rest k h2 (by omega)⟩
end

theorem fixedCode_neg (f : Fixed) : fixedCode f < 0 := by cases f <;> decide

theorem simple_fixed (f : Fixed) : simple (fixedCode f) = some (.fixed f) := by
  cases f <;> rfl

mutual
theorem resolve_of_unfolds {table : List Comp} : ∀ (t : Ty) (k : Nat) (r : Int),
    Unfolds table t k r → resolve table k r = some t
  | .cut, k, r, h => by simp only [Unfolds] at h; subst h; rfl
  | .opt t, k, r, h => by
    simp only [Unfolds] at h; obtain ⟨j, s, rfl, ⟨h0, h1⟩, h2⟩ := h
    rw [resolve, if_neg (by omega), h1]
    simp only [resolve_of_unfolds t j s h2, Option.map_some]
  | .vec t, k, r, h => by
    simp only [Unfolds] at h; obtain ⟨j, s, rfl, ⟨h0, h1⟩, h2⟩ := h
    rw [resolve, if_neg (by omega), h1]
    simp only [resolve_of_unfolds t j s h2, Option.map_some]
  | .record fs, k, r, h => by
    simp only [Unfolds] at h; obtain ⟨j, s, rfl, ⟨h0, h1⟩, h2⟩ := h
    rw [resolve, if_neg (by omega), h1]
    simp only [resolveFields_of_unfolds fs j s h2, Option.map_some]
  | .variant fs, k, r, h => by
    simp only [Unfolds] at h; obtain ⟨j, s, rfl, ⟨h0, h1⟩, h2⟩ := h
    rw [resolve, if_neg (by omega), h1]
    simp only [resolveFields_of_unfolds fs j s h2, Option.map_some]
  | .func, k, r, h => by
    simp only [Unfolds] at h; obtain ⟨hk, _, _, _, h0, h1⟩ := h
    obtain ⟨j, rfl⟩ : ∃ j, k = j + 1 := ⟨k - 1, by omega⟩
    rw [resolve, if_neg (by omega), h1]
  | .service, k, r, h => by
    simp only [Unfolds] at h; obtain ⟨hk, _, h0, h1⟩ := h
    obtain ⟨j, rfl⟩ : ∃ j, k = j + 1 := ⟨k - 1, by omega⟩
    rw [resolve, if_neg (by omega), h1]
  | .fixed f, k, r, h => by
    simp only [Unfolds] at h; obtain ⟨hk, rfl⟩ := h
    obtain ⟨j, rfl⟩ : ∃ j, k = j + 1 := ⟨k - 1, by omega⟩
    rw [resolve, if_pos (fixedCode_neg f), simple_fixed]
  | .null, k, r, h => by
    simp only [Unfolds] at h; obtain ⟨hk, rfl⟩ := h
    obtain ⟨j, rfl⟩ : ∃ j, k = j + 1 := ⟨k - 1, by omega⟩
    rfl
  | .bool, k, r, h => by
    simp only [Unfolds] at h; obtain ⟨hk, rfl⟩ := h
    obtain ⟨j, rfl⟩ : ∃ j, k = j + 1 := ⟨k - 1, by omega⟩
    rfl
  | .nat, k, r, h => by
    simp only [Unfolds] at h; obtain ⟨hk, rfl⟩ := h
    obtain ⟨j, rfl⟩ : ∃ j, k = j + 1 := ⟨k - 1, by omega⟩
    rfl
  | .int, k, r, h => by
    simp only [Unfolds] at h; obtain ⟨hk, rfl⟩ := h
    obtain ⟨j, rfl⟩ : ∃ j, k = j + 1 := ⟨k - 1, by omega⟩
    rfl
  | .text, k, r, h => by
    simp only [Unfolds] at h; obtain ⟨hk, rfl⟩ := h
    obtain ⟨j, rfl⟩ : ∃ j, k = j + 1 := ⟨k - 1, by omega⟩
    rfl
  | .reserved, k, r, h => by
    simp only [Unfolds] at h; obtain ⟨hk, rfl⟩ := h
    obtain ⟨j, rfl⟩ : ∃ j, k = j + 1 := ⟨k - 1, by omega⟩
    rfl
  | .empty, k, r, h => by
    simp only [Unfolds] at h; obtain ⟨hk, rfl⟩ := h
    obtain ⟨j, rfl⟩ : ∃ j, k = j + 1 := ⟨k - 1, by omega⟩
    rfl
  | .principal, k, r, h => by
    simp only [Unfolds] at h; obtain ⟨hk, rfl⟩ := h
    obtain ⟨j, rfl⟩ : ∃ j, k = j + 1 := ⟨k - 1, by omega⟩
    rfl
theorem resolveFields_of_unfolds {table : List Comp} : ∀ (fs : Fields) (k : Nat)
    (l : List (Nat × Int)), UnfoldsAll table fs k l →
    resolveFields (fun r => resolve table k r) l = some fs
  | .nil, k, l, h => by
    simp only [UnfoldsAll] at h; subst h; rfl
  | .cons lb t fs, k, l, h => by
    simp only [UnfoldsAll] at h; obtain ⟨s, rest, rfl, h1, h2⟩ := h
    simp only [resolveFields, resolve_of_unfolds t k s h1]
    rw [resolveFields_of_unfolds fs k rest h2]
    rfl
end

theorem unfolds_ge {table : List Comp} {t : Ty} {k : Nat} {r : Int} (hk : 0 < k)
    (h : Unfolds table t k r) : -24 ≤ r := by
  cases t <;> simp only [Unfolds] at h
  case fixed f => cases f <;> simp only [fixedCode] at h <;> omega
  case func => obtain ⟨_, _, _, _, h0, _⟩ := h; omega
  case service => obtain ⟨_, _, h0, _⟩ := h; omega
  all_goals first
    | omega
    | (obtain ⟨_, _, _, ⟨h0, _⟩, _⟩ := h; omega)

end CyclesLedger.Candid
