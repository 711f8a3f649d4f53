import Verif.Proof.CandidExact
/-! # Candid messages are read as they are written -/
namespace CyclesLedger.Candid
open CyclesLedger.Spec.Candid

/-! ## Values of recursive types: how deep they are -/

mutual
def _root_.CyclesLedger.Candid.Val.height : Val → Nat
  | .some v => v.height + 1
  | .vec vs => vs.height + 1
  | .record vs => vs.height + 1
  | .variant _ v => v.height + 1
  | _ => 0
def _root_.CyclesLedger.Candid.Vals.height : Vals → Nat
  | .nil => 0
  | .cons v vs => max v.height vs.height
end

mutual
/-- How many records are one directly inside the other. -/
def Val.nested : Val → Nat
  | .record vs => vs.nested + 1
  | _ => 0
def Vals.nested : Vals → Nat
  | .nil => 0
  | .cons v vs => max v.nested vs.nested
end

theorem at_unique {table : List Comp} {r : Int} {c c' : Comp} (h : At table r c)
    (h' : At table r c') : c = c' := by
  have := h.2
  rw [h'.2] at this
  simp only [Option.some.injEq] at this
  exact this.symm

theorem nested_other {table : List Comp} {v : Val} {r : Int} (h : Typed table v r)
    (hr : ∀ fs, ¬ At table r (.record fs)) : v.nested = 0 := by
  cases v <;> simp only [Val.nested]
  simp only [Typed] at h
  obtain ⟨fs, h, _⟩ := h
  exact absurd h (hr fs)

theorem not_record {table : List Comp} {v : Val} {r : Int} (h : Typed table v r)
    (hv : ∀ vs, v ≠ .record vs) : ∀ fs, ¬ At table r (.record fs) := by
  intro fs hfs
  cases v <;> simp only [Typed] at h
  case record vs => exact hv vs rfl
  case fixed bs => obtain ⟨f, rfl, _⟩ := h; have := fixedCode_neg f; have := hfs.1; omega
  case none => obtain ⟨s, h⟩ := h; cases at_unique h hfs
  case some => obtain ⟨s, h, _⟩ := h; cases at_unique h hfs
  case vec => obtain ⟨s, h, _⟩ := h; cases at_unique h hfs
  case variant => obtain ⟨s, _, h, _⟩ := h; cases at_unique h hfs
  case service => obtain ⟨_, _, h⟩ := h; cases at_unique h hfs
  case func => obtain ⟨_, _, _, _, h⟩ := h; cases at_unique h hfs
  all_goals have := hfs.1; omega

mutual
theorem nested_unique {table : List Comp} : ∀ (v w : Val) (r : Int), Typed table v r →
    Typed table w r → v.nested = w.nested
  | .record vs, w, r, h, h' => by
    simp only [Typed] at h; obtain ⟨fs, h1, h2⟩ := h
    cases w with
    | record ws =>
      simp only [Typed] at h'; obtain ⟨fs', h1', h2'⟩ := h'
      cases at_unique h1 h1'
      simp only [Val.nested, nestedAll_unique vs ws fs h2 h2']
    | _ => exact absurd h1 (not_record h' (fun _ h => by cases h) fs)
  | .null, w, r, h, h' => by
    have := not_record h (fun _ h => by cases h)
    rw [nested_other h this, nested_other h' this]
  | .bool b, w, r, h, h' => by
    have := not_record h (fun _ h => by cases h)
    rw [nested_other h this, nested_other h' this]
  | .nat n, w, r, h, h' => by
    have := not_record h (fun _ h => by cases h)
    rw [nested_other h this, nested_other h' this]
  | .int b, w, r, h, h' => by
    have := not_record h (fun _ h => by cases h)
    rw [nested_other h this, nested_other h' this]
  | .text b, w, r, h, h' => by
    have := not_record h (fun _ h => by cases h)
    rw [nested_other h this, nested_other h' this]
  | .reserved, w, r, h, h' => by
    have := not_record h (fun _ h => by cases h)
    rw [nested_other h this, nested_other h' this]
  | .principal b, w, r, h, h' => by
    have := not_record h (fun _ h => by cases h)
    rw [nested_other h this, nested_other h' this]
  | .service b, w, r, h, h' => by
    have := not_record h (fun _ h => by cases h)
    rw [nested_other h this, nested_other h' this]
  | .func b m, w, r, h, h' => by
    have := not_record h (fun _ h => by cases h)
    rw [nested_other h this, nested_other h' this]
  | .fixed b, w, r, h, h' => by
    have := not_record h (fun _ h => by cases h)
    rw [nested_other h this, nested_other h' this]
  | .none, w, r, h, h' => by
    have := not_record h (fun _ h => by cases h)
    rw [nested_other h this, nested_other h' this]
  | .some v, w, r, h, h' => by
    have := not_record h (fun _ h => by cases h)
    rw [nested_other h this, nested_other h' this]
  | .vec vs, w, r, h, h' => by
    have := not_record h (fun _ h => by cases h)
    rw [nested_other h this, nested_other h' this]
  | .variant i v, w, r, h, h' => by
    have := not_record h (fun _ h => by cases h)
    rw [nested_other h this, nested_other h' this]
theorem nestedAll_unique {table : List Comp} : ∀ (vs ws : Vals) (fs : List (Nat × Int)),
    TypedAll table vs fs → TypedAll table ws fs → vs.nested = ws.nested
  | .nil, ws, fs, h, h' => by
    simp only [TypedAll] at h; subst h
    cases ws with
    | nil => rfl
    | cons w ws => simp only [TypedAll] at h'; obtain ⟨_, _, h, _⟩ := h'; cases h
  | .cons v vs, ws, fs, h, h' => by
    simp only [TypedAll] at h; obtain ⟨f, rest, rfl, h1, h2⟩ := h
    cases ws with
    | nil => simp only [TypedAll] at h'; cases h'
    | cons w ws =>
      simp only [TypedAll] at h'; obtain ⟨f', rest', he, h1', h2'⟩ := h'
      cases he
      simp only [Vals.nested, nested_unique v w f.2 h1 h1', nestedAll_unique vs ws rest h2 h2']
end

/-- Positions in the table, one for each record. -/
def Nests (table : List Comp) (n d : Nat) : Prop :=
  ∃ l : List Nat, l.Nodup ∧ l.length = d ∧ ∀ i ∈ l, i < table.length ∧
    ∃ v', Typed table v' (i : Int) ∧ v'.nested ≤ n

theorem nests_zero {table : List Comp} : Nests table 0 0 :=
  ⟨[], List.nodup_nil, rfl, fun i hi => by cases hi⟩

mutual
theorem nests_of_typed {table : List Comp} : ∀ (v : Val) (r : Int), Typed table v r →
    Nests table v.nested v.nested
  | .record vs, r, h => by
    have ht := h
    simp only [Typed] at h; obtain ⟨fs, ⟨h0, h1⟩, h2⟩ := h
    obtain ⟨l, n1, n2, n3⟩ := nestsAll_of_typed vs fs h2
    have hi : ((r.toNat : Nat) : Int) = r := by omega
    simp only [Val.nested]
    refine ⟨r.toNat :: l, List.nodup_cons.mpr ⟨?_, n1⟩, by simp [n2], ?_⟩
    · intro hm
      obtain ⟨_, v', hv, hle⟩ := n3 _ hm
      rw [hi] at hv
      rw [nested_unique v' (.record vs) r hv ht] at hle
      simp only [Val.nested] at hle
      omega
    · intro i hm
      rcases List.mem_cons.mp hm with rfl | hm
      · refine ⟨(List.getElem?_eq_some_iff.mp h1).1, .record vs, ?_, by simp only [Val.nested]; omega⟩
        rw [hi]; exact ht
      · obtain ⟨a, v', b, c⟩ := n3 _ hm
        exact ⟨a, v', b, by omega⟩
  | .null, _, _ => by simp only [Val.nested]; exact nests_zero
  | .bool _, _, _ => by simp only [Val.nested]; exact nests_zero
  | .nat _, _, _ => by simp only [Val.nested]; exact nests_zero
  | .int _, _, _ => by simp only [Val.nested]; exact nests_zero
  | .text _, _, _ => by simp only [Val.nested]; exact nests_zero
  | .reserved, _, _ => by simp only [Val.nested]; exact nests_zero
  | .principal _, _, _ => by simp only [Val.nested]; exact nests_zero
  | .service _, _, _ => by simp only [Val.nested]; exact nests_zero
  | .func _ _, _, _ => by simp only [Val.nested]; exact nests_zero
  | .fixed _, _, _ => by simp only [Val.nested]; exact nests_zero
  | .none, _, _ => by simp only [Val.nested]; exact nests_zero
  | .some _, _, _ => by simp only [Val.nested]; exact nests_zero
  | .vec _, _, _ => by simp only [Val.nested]; exact nests_zero
  | .variant _ _, _, _ => by simp only [Val.nested]; exact nests_zero
theorem nestsAll_of_typed {table : List Comp} : ∀ (vs : Vals) (fs : List (Nat × Int)),
    TypedAll table vs fs → Nests table vs.nested vs.nested
  | .nil, _, _ => by simp only [Vals.nested]; exact nests_zero
  | .cons v vs, fs, h => by
    simp only [TypedAll] at h; obtain ⟨f, rest, rfl, h1, h2⟩ := h
    simp only [Vals.nested]
    rcases Nat.le_total v.nested vs.nested with hle | hle
    · rw [Nat.max_eq_right hle]; exact nestsAll_of_typed vs rest h2
    · rw [Nat.max_eq_left hle]; exact nests_of_typed v f.2 h1
end

theorem nested_le {table : List Comp} {v : Val} {r : Int} (h : Typed table v r) :
    v.nested ≤ table.length := by
  obtain ⟨l, h1, h2, h3⟩ := nests_of_typed v r h
  have := nodup_length_le table.length l h1 (fun i hi => (h3 i hi).1)
  omega

theorem unsigned_pos {bs : Bytes} {n : Nat} (h : Unsigned bs n) : 0 < bs.length := by
  cases bs with
  | nil => exact h.elim
  | cons _ _ => simp

mutual
theorem height_le {table : List Comp} : ∀ (v : Val) (r : Int) (bs : Bytes), Typed table v r →
    ValBytes v bs → v.height ≤ v.nested + (table.length + 1) * bs.length
  | .some v, r, bs, h, hb => by
    simp only [Typed] at h; obtain ⟨s, _, h⟩ := h
    simp only [ValBytes] at hb; obtain ⟨x, rfl, hb⟩ := hb
    have h1 := height_le v s x h hb
    have h2 := nested_le h
    simp only [Val.height, Val.nested, List.length_cons, Nat.mul_add]
    omega
  | .variant i v, r, bs, h, hb => by
    simp only [Typed] at h; obtain ⟨_, f, _, _, h⟩ := h
    simp only [ValBytes] at hb; obtain ⟨x, y, rfl, hx, hb⟩ := hb
    have h1 := height_le v f.2 y h hb
    have h2 := nested_le h
    have h4 := Nat.mul_le_mul_left (table.length + 1) (unsigned_pos hx)
    simp only [Val.height, Val.nested, List.length_append, Nat.mul_add] at h4 ⊢
    omega
  | .vec vs, r, bs, h, hb => by
    simp only [Typed] at h; obtain ⟨s, _, h⟩ := h
    simp only [ValBytes] at hb; obtain ⟨x, y, rfl, hx, hb⟩ := hb
    have h1 := heightEach_le vs s y h hb
    have h4 := Nat.mul_le_mul_left (table.length + 1) (unsigned_pos hx)
    simp only [Val.height, Val.nested, List.length_append, Nat.mul_add] at h4 ⊢
    omega
  | .record vs, r, bs, h, hb => by
    simp only [Typed] at h; obtain ⟨fs, _, h⟩ := h
    simp only [ValBytes] at hb
    have h1 := heightAll_le vs fs bs h hb
    simp only [Val.height, Val.nested]
    omega
  | .null, _, _, _, _ => by simp only [Val.height]; omega
  | .bool _, _, _, _, _ => by simp only [Val.height]; omega
  | .nat _, _, _, _, _ => by simp only [Val.height]; omega
  | .int _, _, _, _, _ => by simp only [Val.height]; omega
  | .text _, _, _, _, _ => by simp only [Val.height]; omega
  | .reserved, _, _, _, _ => by simp only [Val.height]; omega
  | .principal _, _, _, _, _ => by simp only [Val.height]; omega
  | .service _, _, _, _, _ => by simp only [Val.height]; omega
  | .func _ _, _, _, _, _ => by simp only [Val.height]; omega
  | .fixed _, _, _, _, _ => by simp only [Val.height]; omega
  | .none, _, _, _, _ => by simp only [Val.height]; omega
theorem heightEach_le {table : List Comp} : ∀ (vs : Vals) (s : Int) (bs : Bytes),
    TypedEach table vs s → ValsBytes vs bs → vs.height ≤ table.length + (table.length + 1) * bs.length
  | .nil, _, _, _, _ => by simp only [Vals.height]; omega
  | .cons v vs, s, bs, h, hb => by
    simp only [TypedEach] at h
    simp only [ValsBytes] at hb; obtain ⟨x, y, rfl, hx, hy⟩ := hb
    have h1 := height_le v s x h.1 hx
    have h2 := nested_le h.1
    have h3 := heightEach_le vs s y h.2 hy
    simp only [Vals.height, List.length_append, Nat.mul_add]
    omega
theorem heightAll_le {table : List Comp} : ∀ (vs : Vals) (fs : List (Nat × Int)) (bs : Bytes),
    TypedAll table vs fs → ValsBytes vs bs → vs.height ≤ vs.nested + (table.length + 1) * bs.length
  | .nil, _, _, _, _ => by simp only [Vals.height]; omega
  | .cons v vs, fs, bs, h, hb => by
    simp only [TypedAll] at h; obtain ⟨f, rest, rfl, h1, h2⟩ := h
    simp only [ValsBytes] at hb; obtain ⟨x, y, rfl, hx, hy⟩ := hb
    have h1 := height_le v f.2 x h1 hx
    have h3 := heightAll_le vs rest y h2 hy
    simp only [Vals.height, Vals.nested, List.length_append, Nat.mul_add]
    omega
end

theorem height_lt {table : List Comp} {v : Val} {r : Int} (h : Typed table v r) {bs : Bytes}
    (hb : ValBytes v bs) {n : Nat} (hn : bs.length ≤ n) :
    v.height < (table.length + 1) * (n + 17) := by
  have h1 := height_le v r bs h hb
  have h2 := nested_le h
  have h3 := Nat.mul_le_mul_left (table.length + 1) hn
  simp only [Nat.mul_add]
  omega

theorem vals_eta : ∀ vs : Vals, Vals.ofList vs.toList = vs
  | .nil => rfl
  | .cons v vs => by simp [Vals.toList, Vals.ofList, vals_eta vs]

theorem unfolds_of_simple {table : List Comp} {t : Ty} {k : Nat} {r : Int} (h : simple r = some t) :
    Unfolds table t (k + 1) r := by
  by_cases h0 : (-17 ≤ r ∧ r ≤ -1) ∨ r = -24
  · have : r = -1 ∨ r = -2 ∨ r = -3 ∨ r = -4 ∨ r = -5 ∨ r = -6 ∨ r = -7 ∨ r = -8 ∨ r = -9 ∨ r = -10 ∨
        r = -11 ∨ r = -12 ∨ r = -13 ∨ r = -14 ∨ r = -15 ∨ r = -16 ∨ r = -17 ∨ r = -24 := by omega
    rcases this with rfl | rfl | rfl | rfl | rfl | rfl | rfl | rfl | rfl | rfl | rfl | rfl | rfl | rfl |
      rfl | rfl | rfl | rfl <;> (cases h; simp only [Unfolds, fixedCode]; exact ⟨by omega, trivial⟩)
  · have : simple r = none := by
      unfold simple
      repeat rw [if_neg (by omega)]
    rw [this] at h; cases h

theorem unfoldsAll_of_resolve {table : List Comp} {k : Nat}
    (ih : ∀ r t, resolve table k r = some t → Unfolds table t k r) :
    ∀ (l : List (Nat × Int)) (fs : Fields),
      resolveFields (fun r => resolve table k r) l = some fs → UnfoldsAll table fs k l
  | [], fs, h => by
    simp only [resolveFields, Option.some.injEq] at h; subst h
    simp only [UnfoldsAll]
  | (lb, s) :: l, fs, h => by
    simp only [resolveFields] at h
    cases ht : resolve table k s with
    | none => simp only [ht] at h; cases h
    | some t =>
      simp only [ht, Option.map_eq_some_iff] at h
      obtain ⟨gs, hg, rfl⟩ := h
      simp only [UnfoldsAll]
      exact ⟨s, l, rfl, ih s t ht, unfoldsAll_of_resolve ih l gs hg⟩

theorem unfolds_of_resolve {table : List Comp} : ∀ (k : Nat) (r : Int) (t : Ty),
    resolve table k r = some t → Unfolds table t k r
  | 0, r, t, h => by
    simp only [resolve, Option.some.injEq] at h; subst h; simp only [Unfolds]
  | k + 1, r, t, h => by
    rw [resolve] at h
    split at h
    · exact unfolds_of_simple h
    · have h0 : 0 ≤ r := by omega
      cases hc : table[r.toNat]? with
      | none => rw [hc] at h; cases h
      | some c =>
        rw [hc] at h
        cases c with
        | opt s =>
          simp only [Option.map_eq_some_iff] at h; obtain ⟨u, hu, rfl⟩ := h
          simp only [Unfolds]
          exact ⟨k, s, rfl, ⟨h0, hc⟩, unfolds_of_resolve k s u hu⟩
        | vec s =>
          simp only [Option.map_eq_some_iff] at h; obtain ⟨u, hu, rfl⟩ := h
          simp only [Unfolds]
          exact ⟨k, s, rfl, ⟨h0, hc⟩, unfolds_of_resolve k s u hu⟩
        | record l =>
          simp only [Option.map_eq_some_iff] at h; obtain ⟨u, hu, rfl⟩ := h
          simp only [Unfolds]
          exact ⟨k, l, rfl, ⟨h0, hc⟩, unfoldsAll_of_resolve (unfolds_of_resolve k) l u hu⟩
        | variant l =>
          simp only [Option.map_eq_some_iff] at h; obtain ⟨u, hu, rfl⟩ := h
          simp only [Unfolds]
          exact ⟨k, l, rfl, ⟨h0, hc⟩, unfoldsAll_of_resolve (unfolds_of_resolve k) l u hu⟩
        | func as rs notes =>
          simp only [Option.some.injEq] at h; subst h
          simp only [Unfolds]
          exact ⟨by omega, as, rs, notes, h0, hc⟩
        | service ms =>
          simp only [Option.some.injEq] at h; subst h
          simp only [Unfolds]
          exact ⟨by omega, ms, h0, hc⟩

/-- The fields of a record, or the cases of a variant. -/
theorem unfoldsAll_get {table : List Comp} : ∀ {fs : Fields} {k : Nat} {l : List (Nat × Int)}
    (i : Nat) {f : Nat × Int}, UnfoldsAll table fs k l → l[i]? = some f → ∀ {x : Val},
    (∀ t, Unfolds table t k f.2 → HasTy t x) → HasCase fs i x
  | .nil, k, l, i, f, h, hi, x, _ => by
    simp only [UnfoldsAll] at h; subst h; cases hi
  | .cons lb t fs, k, l, i, f, h, hi, x, hx => by
    simp only [UnfoldsAll] at h; obtain ⟨s, rest, rfl, h1, h2⟩ := h
    simp only [HasCase]
    cases i with
    | zero => cases hi; exact .inl ⟨rfl, hx t h1⟩
    | succ i => exact .inr ⟨i, rfl, unfoldsAll_get i h2 hi hx⟩

/-- The type at a position of the table is the one that its entry says. -/
theorem unfolds_at {table : List Comp} {t : Ty} {k : Nat} {r : Int} {c : Comp} (hk : 0 < k)
    (h : Unfolds table t k r) (hc : At table r c) : match c with
      | .opt s => ∃ j u, k = j + 1 ∧ t = .opt u ∧ Unfolds table u j s
      | .vec s => ∃ j u, k = j + 1 ∧ t = .vec u ∧ Unfolds table u j s
      | .record l => ∃ j fs, k = j + 1 ∧ t = .record fs ∧ UnfoldsAll table fs j l
      | .variant l => ∃ j fs, k = j + 1 ∧ t = .variant fs ∧ UnfoldsAll table fs j l
      | .func _ _ _ => t = .func
      | .service _ => t = .service := by
  have h0 := hc.1
  cases t <;> simp only [Unfolds] at h
  case fixed f => obtain ⟨_, rfl⟩ := h; have := fixedCode_neg f; omega
  case func => obtain ⟨_, _, _, _, h⟩ := h; cases at_unique h hc; rfl
  case service => obtain ⟨_, _, h⟩ := h; cases at_unique h hc; rfl
  case opt => obtain ⟨j, s, hj, h, hu⟩ := h; cases at_unique h hc; exact ⟨j, _, hj, rfl, hu⟩
  case vec => obtain ⟨j, s, hj, h, hu⟩ := h; cases at_unique h hc; exact ⟨j, _, hj, rfl, hu⟩
  case record => obtain ⟨j, s, hj, h, hu⟩ := h; cases at_unique h hc; exact ⟨j, _, hj, rfl, hu⟩
  case variant => obtain ⟨j, s, hj, h, hu⟩ := h; cases at_unique h hc; exact ⟨j, _, hj, rfl, hu⟩
  all_goals omega

theorem unfolds_simple {table : List Comp} {t : Ty} {k : Nat} {r : Int} (hk : 0 < k) (hr : r < 0)
    (h : Unfolds table t k r) : simple r = some t := by
  have := resolve_of_unfolds t k r h
  obtain ⟨j, rfl⟩ : ∃ j, k = j + 1 := ⟨k - 1, by omega⟩
  rw [resolve, if_pos hr] at this
  exact this

mutual
/-- A value of the type at a reference has the unfolded type, if the unfolding is deep enough. -/
theorem hasTy_of_typed {table : List Comp} : ∀ (v : Val) (t : Ty) (k : Nat) (r : Int),
    Typed table v r → Unfolds table t k r → v.height < k → HasTy t v
  | .null, t, k, r, h, hu, hk => by
    simp only [Typed] at h; obtain h := h; subst h
    cases unfolds_simple (by omega) (by decide) hu
    simp only [HasTy]
  | .bool b, t, k, r, h, hu, hk => by
    simp only [Typed] at h; obtain h := h; subst h
    cases unfolds_simple (by omega) (by decide) hu
    simp only [HasTy]; exact ⟨b, rfl⟩
  | .nat n, t, k, r, h, hu, hk => by
    simp only [Typed] at h; obtain h := h; subst h
    cases unfolds_simple (by omega) (by decide) hu
    simp only [HasTy]; exact ⟨n, rfl⟩
  | .int b, t, k, r, h, hu, hk => by
    simp only [Typed] at h; obtain ⟨h, hb⟩ := h; subst h
    cases unfolds_simple (by omega) (by decide) hu
    simp only [HasTy]; exact ⟨b, rfl, hb⟩
  | .text b, t, k, r, h, hu, hk => by
    simp only [Typed] at h; obtain h := h; subst h
    cases unfolds_simple (by omega) (by decide) hu
    simp only [HasTy]; exact ⟨b, rfl⟩
  | .reserved, t, k, r, h, hu, hk => by
    simp only [Typed] at h; obtain h := h; subst h
    cases unfolds_simple (by omega) (by decide) hu
    simp only [HasTy]
  | .principal b, t, k, r, h, hu, hk => by
    simp only [Typed] at h; obtain ⟨h, hb⟩ := h; subst h
    cases unfolds_simple (by omega) (by decide) hu
    simp only [HasTy]; exact ⟨b, rfl, hb⟩
  | .fixed b, t, k, r, h, hu, hk => by
    simp only [Typed] at h; obtain ⟨f, rfl, hb⟩ := h
    have := unfolds_simple (by omega) (fixedCode_neg f) hu
    rw [simple_fixed] at this; cases this
    simp only [HasTy]; exact ⟨b, rfl, hb⟩
  | .service b, t, k, r, h, hu, hk => by
    simp only [Typed] at h; obtain ⟨hb, ms, h⟩ := h
    have := unfolds_at (by omega) hu h
    simp only at this; subst this
    simp only [HasTy]; exact ⟨b, rfl, hb⟩
  | .func b m, t, k, r, h, hu, hk => by
    simp only [Typed] at h; obtain ⟨hb, _, _, _, h⟩ := h
    have := unfolds_at (by omega) hu h
    simp only at this; subst this
    simp only [HasTy]; exact ⟨b, m, rfl, hb⟩
  | .none, t, k, r, h, hu, hk => by
    simp only [Typed] at h; obtain ⟨s, h⟩ := h
    obtain ⟨j, u, rfl, rfl, hw⟩ := unfolds_at (by omega) hu h
    simp only [HasTy]; exact .inl trivial
  | .some v, t, k, r, h, hu, hk => by
    simp only [Typed] at h; obtain ⟨s, h, hv⟩ := h
    obtain ⟨j, u, rfl, rfl, hw⟩ := unfolds_at (by omega) hu h
    simp only [Val.height] at hk
    rw [HasTy]; exact .inr ⟨v, rfl, hasTy_of_typed v u j s hv hw (by omega)⟩
  | .vec vs, t, k, r, h, hu, hk => by
    simp only [Typed] at h; obtain ⟨s, h, hv⟩ := h
    obtain ⟨j, u, rfl, rfl, hw⟩ := unfolds_at (by omega) hu h
    simp only [Val.height] at hk
    rw [HasTy]
    exact ⟨vs.toList, by rw [vals_eta], hasTyEach_of_typed vs u j s hv hw (by omega)⟩
  | .record vs, t, k, r, h, hu, hk => by
    simp only [Typed] at h; obtain ⟨l, h, hv⟩ := h
    obtain ⟨j, fs, rfl, rfl, hw⟩ := unfolds_at (by omega) hu h
    simp only [Val.height] at hk
    rw [HasTy]; exact ⟨vs, rfl, hasTys_of_typed vs fs j l hv hw (by omega)⟩
  | .variant i v, t, k, r, h, hu, hk => by
    simp only [Typed] at h; obtain ⟨l, f, h, hf, hv⟩ := h
    obtain ⟨j, fs, rfl, rfl, hw⟩ := unfolds_at (by omega) hu h
    simp only [Val.height] at hk
    rw [HasTy]
    exact ⟨i, v, rfl, unfoldsAll_get i hw hf
      (fun u hu => hasTy_of_typed v u j f.2 hv hu (by omega))⟩
theorem hasTyEach_of_typed {table : List Comp} : ∀ (vs : Vals) (t : Ty) (k : Nat) (s : Int),
    TypedEach table vs s → Unfolds table t k s → vs.height < k → ∀ x ∈ vs.toList, HasTy t x
  | .nil, _, _, _, _, _, _ => fun x hx => by cases hx
  | .cons v vs, t, k, s, h, hu, hk => by
    simp only [TypedEach] at h
    simp only [Vals.height] at hk
    intro x hx
    rw [Vals.toList] at hx
    rcases List.mem_cons.mp hx with hx | hx
    · rw [hx]; exact hasTy_of_typed v t k s h.1 hu (by omega)
    · exact hasTyEach_of_typed vs t k s h.2 hu (by omega) x hx
theorem hasTys_of_typed {table : List Comp} : ∀ (vs : Vals) (fs : Fields) (k : Nat)
    (l : List (Nat × Int)), TypedAll table vs l → UnfoldsAll table fs k l → vs.height < k →
    HasTys fs vs
  | .nil, fs, k, l, h, hu, hk => by
    simp only [TypedAll] at h; subst h
    cases fs with
    | nil => simp only [HasTys]
    | cons _ _ _ => simp only [UnfoldsAll] at hu; obtain ⟨_, _, h, _⟩ := hu; cases h
  | .cons v vs, fs, k, l, h, hu, hk => by
    simp only [TypedAll] at h; obtain ⟨f, rest, rfl, h1, h2⟩ := h
    simp only [Vals.height] at hk
    cases fs with
    | nil => simp only [UnfoldsAll] at hu; cases hu
    | cons lb t fs =>
      simp only [UnfoldsAll] at hu; obtain ⟨s, rest', he, u1, u2⟩ := hu
      cases he
      simp only [HasTys]
      exact ⟨v, vs, rfl, hasTy_of_typed v t k s h1 u1 (by omega),
        hasTys_of_typed vs fs k rest h2 u2 (by omega)⟩
end

mutual
/-- A value of an unfolded type, by way of the table. -/
theorem typed_of_unfolds {table : List Comp} : ∀ (t : Ty) (k : Nat) (r : Int) (v : Val),
    Unfolds table t k r → HasTy t v → Typed table v r
  | .null, k, r, v, h, hv => by
    simp only [Unfolds] at h; simp only [HasTy] at hv; obtain rfl := hv
    simp only [Typed]; exact h.2
  | .bool, k, r, v, h, hv => by
    simp only [Unfolds] at h; simp only [HasTy] at hv; obtain ⟨b, rfl⟩ := hv
    simp only [Typed]; exact h.2
  | .nat, k, r, v, h, hv => by
    simp only [Unfolds] at h; simp only [HasTy] at hv; obtain ⟨b, rfl⟩ := hv
    simp only [Typed]; exact h.2
  | .int, k, r, v, h, hv => by
    simp only [Unfolds] at h; simp only [HasTy] at hv; obtain ⟨b, rfl, hb⟩ := hv
    simp only [Typed]; exact ⟨h.2, hb⟩
  | .text, k, r, v, h, hv => by
    simp only [Unfolds] at h; simp only [HasTy] at hv; obtain ⟨b, rfl⟩ := hv
    simp only [Typed]; exact h.2
  | .reserved, k, r, v, h, hv => by
    simp only [Unfolds] at h; simp only [HasTy] at hv; obtain rfl := hv
    simp only [Typed]; exact h.2
  | .principal, k, r, v, h, hv => by
    simp only [Unfolds] at h; simp only [HasTy] at hv; obtain ⟨b, rfl, hb⟩ := hv
    simp only [Typed]; exact ⟨h.2, hb⟩
  | .fixed f, k, r, v, h, hv => by
    simp only [Unfolds] at h; simp only [HasTy] at hv; obtain ⟨b, rfl, hb⟩ := hv
    simp only [Typed]; exact ⟨f, h.2, hb⟩
  | .service, k, r, v, h, hv => by
    simp only [Unfolds] at h; simp only [HasTy] at hv; obtain ⟨b, rfl, hb⟩ := hv
    simp only [Typed]; exact ⟨hb, h.2⟩
  | .func, k, r, v, h, hv => by
    simp only [Unfolds] at h; simp only [HasTy] at hv; obtain ⟨b, m, rfl, hb⟩ := hv
    simp only [Typed]; exact ⟨hb, h.2⟩
  | .empty, k, r, v, h, hv => by simp only [HasTy] at hv
  | .cut, k, r, v, h, hv => by simp only [HasTy] at hv
  | .opt t, k, r, v, h, hv => by
    simp only [Unfolds] at h; obtain ⟨j, s, rfl, h1, h2⟩ := h
    rw [HasTy] at hv
    rcases hv with rfl | ⟨x, rfl, hx⟩
    · simp only [Typed]; exact ⟨s, h1⟩
    · simp only [Typed]; exact ⟨s, h1, typed_of_unfolds t j s x h2 hx⟩
  | .vec t, k, r, v, h, hv => by
    simp only [Unfolds] at h; obtain ⟨j, s, rfl, h1, h2⟩ := h
    rw [HasTy] at hv
    obtain ⟨xs, rfl, hx⟩ := hv
    simp only [Typed]
    refine ⟨s, h1, ?_⟩
    have key : ∀ x ∈ xs, Typed table x s := fun x hm =>
      typed_of_unfolds t j s x h2 (hx x hm)
    clear hx
    induction xs with
    | nil => simp only [Vals.ofList, TypedEach]
    | cons x xs ih =>
      simp only [Vals.ofList, TypedEach]
      exact ⟨key x List.mem_cons_self, ih (fun y hy => key y (List.mem_cons_of_mem _ hy))⟩
  | .record fs, k, r, v, h, hv => by
    simp only [Unfolds] at h; obtain ⟨j, l, rfl, h1, h2⟩ := h
    rw [HasTy] at hv
    obtain ⟨vs, rfl, hx⟩ := hv
    simp only [Typed]
    exact ⟨l, h1, typedAll_of_hasTys fs j l vs h2 hx⟩
  | .variant fs, k, r, v, h, hv => by
    simp only [Unfolds] at h; obtain ⟨j, l, rfl, h1, h2⟩ := h
    rw [HasTy] at hv
    obtain ⟨i, x, rfl, hx⟩ := hv
    simp only [Typed]
    obtain ⟨f, hf, hx⟩ := typed_of_hasCase fs j l i x h2 hx
    exact ⟨l, f, h1, hf, hx⟩
theorem typedAll_of_hasTys {table : List Comp} : ∀ (fs : Fields) (k : Nat) (l : List (Nat × Int))
    (vs : Vals),
    UnfoldsAll table fs k l → HasTys fs vs → TypedAll table vs l
  | .nil, k, l, vs, h, hv => by
    simp only [UnfoldsAll] at h; simp only [HasTys] at hv; subst hv
    simp only [TypedAll]; exact h
  | .cons lb t fs, k, l, vs, h, hv => by
    simp only [UnfoldsAll] at h; obtain ⟨s, rest, rfl, h1, h2⟩ := h
    simp only [HasTys] at hv; obtain ⟨x, xs, rfl, hx, hxs⟩ := hv
    simp only [TypedAll]
    exact ⟨_, _, rfl, typed_of_unfolds t k s x h1 hx, typedAll_of_hasTys fs k rest xs h2 hxs⟩
theorem typed_of_hasCase {table : List Comp} : ∀ (fs : Fields) (k : Nat) (l : List (Nat × Int))
    (i : Nat) (x : Val), UnfoldsAll table fs k l → HasCase fs i x → ∃ f, l[i]? = some f ∧ Typed table x f.2
  | .nil, k, l, i, x, h, hv => by simp only [HasCase] at hv
  | .cons lb t fs, k, l, i, x, h, hv => by
    simp only [UnfoldsAll] at h; obtain ⟨s, rest, rfl, h1, h2⟩ := h
    simp only [HasCase] at hv
    rcases hv with ⟨rfl, hx⟩ | ⟨j, rfl, hx⟩
    · exact ⟨_, rfl, typed_of_unfolds t k s x h1 hx⟩
    · obtain ⟨f, hf, hx⟩ := typed_of_hasCase fs k rest j x h2 hx
      exact ⟨f, by simpa using hf, hx⟩
end

theorem typed_of_hasTy {table : List Comp} (t : Ty) (r : Int) (v : Val) (h : Denotes table t r)
    (hv : HasTy t v) : Typed table v r :=
  typed_of_unfolds t (t.depth + 1) r v (unfolds_of_denotes t r _ h (by omega)) hv

/-! ## Messages -/

theorem arguments_refs {table : List Comp} {k : Nat} (hk : 0 < k) : ∀ (refs : List Int)
    (args : List (Ty × Val)), Arguments table k refs args → (∀ r ∈ refs, -24 ≤ r) ∧
      allSome (resolve table k) refs = some (args.map Prod.fst)
  | [], args, h => by
    simp only [Arguments] at h; subst h
    exact ⟨fun r hr => (nomatch hr), rfl⟩
  | r :: rs, args, h => by
    simp only [Arguments] at h
    obtain ⟨t, v, rest, rfl, hd, _, hr⟩ := h
    obtain ⟨h1, h2⟩ := arguments_refs hk rs rest hr
    constructor
    · intro x hx
      rcases List.mem_cons.mp hx with rfl | hx
      · exact unfolds_ge hk hd
      · exact h1 x hx
    · simp only [allSome, resolve_of_unfolds t k r hd, h2]
      rfl

theorem arguments_hasTy {table : List Comp} {n : Nat} : ∀ (refs : List Int) (args : List (Ty × Val))
    (bs : Bytes), Arguments table ((table.length + 1) * (n + 17)) refs args →
    Many (fun a => ValBytes a.2) args bs → bs.length ≤ n → ∀ a ∈ args, HasTy a.1 a.2
  | [], args, _, h, _, _ => by
    simp only [Arguments] at h; subst h
    intro a ha; cases ha
  | r :: rs, args, bs, h, hm, hn => by
    simp only [Arguments] at h
    obtain ⟨t, v, rest, rfl, hu, ht, hr⟩ := h
    obtain ⟨x, y, rfl, hx, hy⟩ := hm
    simp only [List.length_append] at hn
    intro a ha
    rcases List.mem_cons.mp ha with rfl | ha
    · exact hasTy_of_typed v t _ r ht hu (height_lt ht hx (by omega))
    · exact arguments_hasTy rs rest y hr hy (by omega) a ha

theorem exact_readArgs : ∀ ts : List Ty, Exact (readArgs ts) (fun args bs =>
    args.map Prod.fst = ts ∧ (∀ a ∈ args, HasTy a.1 a.2) ∧ Many (fun a => ValBytes a.2) args bs)
  | [] => by
    refine (Exact.pure []).to (fun bs => by rw [readArgs]) (fun args bs => ?_)
    cases args <;> simp [Many]
  | t :: ts => by
    refine (Exact.bind (exact_readVal t) (fun v => Exact.map (fun l => (t, v) :: l)
      (exact_readArgs ts))).to (fun bs => by grind [readArgs, bindR]) (fun args bs => ?_)
    constructor
    · rintro ⟨v, x, y, rfl, ⟨h1, h2⟩, l, rfl, rfl, h3, h4⟩
      refine ⟨rfl, fun a ha => ?_, x, y, rfl, h2, h4⟩
      rcases List.mem_cons.mp ha with rfl | ha
      · exact h1
      · exact h3 a ha
    · rintro ⟨h0, h1, h2⟩
      cases args with
      | nil => cases h0
      | cons a l =>
        obtain ⟨t', v⟩ := a
        cases h0
        obtain ⟨x, y, rfl, hx, hy⟩ := h2
        exact ⟨v, x, y, rfl, ⟨h1 _ List.mem_cons_self, hx⟩, l, rfl, rfl,
          fun a ha => h1 a (List.mem_cons_of_mem _ ha), hy⟩

theorem arguments_of_resolve {table : List Comp} {k : Nat} : ∀ (refs : List Int)
    (args : List (Ty × Val)), allSome (resolve table k) refs = some (args.map Prod.fst) →
    (∀ a ∈ args, HasTy a.1 a.2) → Arguments table k refs args
  | [], args, h, _ => by
    simp only [allSome, Option.some.injEq] at h
    simp only [Arguments]
    exact List.map_eq_nil_iff.mp h.symm
  | r :: rs, args, h, ht => by
    rw [allSome] at h
    cases e : resolve table k r with
    | none => rw [e] at h; cases h
    | some t =>
      rw [e] at h
      simp only [Option.map_eq_some_iff] at h
      obtain ⟨ts, h1, h2⟩ := h
      cases args with
      | nil => cases h2
      | cons a args =>
        obtain ⟨t', v⟩ := a
        simp only [List.map_cons, List.cons.injEq] at h2
        obtain ⟨rfl, rfl⟩ := h2
        have hu := unfolds_of_resolve k r t e
        simp only [Arguments]
        exact ⟨t, v, args, rfl, hu, typed_of_unfolds t k r v hu (ht _ List.mem_cons_self),
          arguments_of_resolve rs args h1 (fun a ha => ht a (List.mem_cons_of_mem _ ha))⟩

theorem isMessage_hasTy {bs : Bytes} {args : List (Ty × Val)} (h : IsMessage bs args) :
    ∀ a ∈ args, HasTy a.1 a.2 := by
  obtain ⟨table, refs, _, ha, x, y, z, hb, _, _, hz⟩ := h
  refine arguments_hasTy refs args z ha hz ?_
  rw [hb]
  simp only [List.length_append]
  omega

/-- What comes after the letters. -/
def readHeader : Bytes → Option ((List Comp × List Int) × Bytes) :=
  bindR (bindR unleb (readMany readComp)) (fun table bs =>
    ((bindR unleb (readMany unsleb)) bs).map (fun p => ((table, p.1), p.2)))

theorem exact_readHeader : Exact readHeader (fun p bs => ∃ x y, bs = x ++ y ∧
    ((∀ c ∈ p.1, Proper c) ∧ Counted CompBytes p.1 x) ∧ Counted RefBytes p.2 y) := by
  refine (Exact.bind (exact_counted exact_readComp) (fun table =>
    Exact.map (fun refs => (table, refs)) (exact_counted exact_unsleb))).congr (fun p bs => ?_)
  constructor
  · rintro ⟨t, x, y, rfl, ⟨a, b, rfl, ha, hb⟩, refs, rfl, h2⟩
    rw [many_and] at hb
    exact ⟨_, y, rfl, ⟨hb.1, a, b, rfl, ha, hb.2⟩, h2⟩
  · rintro ⟨_, y, rfl, ⟨h1, a, b, rfl, ha, hb⟩, h2⟩
    exact ⟨p.1, _, y, rfl, ⟨a, b, rfl, ha, (many_and _ _).mpr ⟨h1, hb⟩⟩, p.2, rfl, h2⟩

theorem readMessage_header (bs : Bytes) (args : List (Ty × Val)) : readMessage bs = some args ↔
    ∃ rest table refs vs types, takeBytes 4 bs = some ([68, 73, 68, 76], rest) ∧
      readHeader rest = some ((table, refs), vs) ∧ (∀ c ∈ table, closed table c = true) ∧
      allSome (resolve table (enough table bs.length)) refs = some types ∧
      readArgs types vs = some (args, []) := by
  unfold readMessage readHeader
  constructor
  · intro h
    cases e1 : takeBytes 4 bs with
    | none => rw [e1] at h; cases h
    | some p1 =>
    obtain ⟨magic, r1⟩ := p1
    simp only [e1] at h
    split at h
    · cases h
    rename_i hm
    have hm : magic = [68, 73, 68, 76] := Decidable.not_not.mp hm
    subst hm
    cases e2 : unleb r1 with
    | none => rw [e2] at h; cases h
    | some p2 =>
    obtain ⟨n, r2⟩ := p2
    simp only [e2] at h
    cases e3 : readMany readComp n r2 with
    | none => rw [e3] at h; cases h
    | some p3 =>
    obtain ⟨table, r3⟩ := p3
    simp only [e3] at h
    cases e4 : unleb r3 with
    | none => rw [e4] at h; cases h
    | some p4 =>
    obtain ⟨k, r4⟩ := p4
    simp only [e4] at h
    cases e5 : readMany unsleb k r4 with
    | none => rw [e5] at h; cases h
    | some p5 =>
    obtain ⟨refs, r5⟩ := p5
    simp only [e5] at h
    split at h
    · cases h
    rename_i hc
    cases e6 : allSome (resolve table (enough table bs.length)) refs with
    | none => rw [e6] at h; cases h
    | some types =>
    simp only [e6] at h
    cases e7 : readArgs types r5 with
    | none => rw [e7] at h; cases h
    | some p7 =>
    obtain ⟨l, r7⟩ := p7
    rw [e7] at h
    cases r7 with
    | cons _ _ => cases h
    | nil =>
    cases h
    refine ⟨r1, table, refs, r5, types, rfl, ?_, ?_, e6, e7⟩
    · simp only [bindR, e2, e3, e4, e5, Option.map_some]
    · exact List.all_eq_true.mp (Decidable.not_not.mp hc)
  · rintro ⟨r1, table, refs, r5, types, e1, e2, hc, e6, e7⟩
    simp only [e1, ne_eq, not_true_eq_false, if_false]
    cases e3 : unleb r1 with
    | none => simp only [bindR, e3] at e2; cases e2
    | some p3 =>
    obtain ⟨n, r2⟩ := p3
    cases e4 : readMany readComp n r2 with
    | none => simp only [bindR, e3, e4] at e2; cases e2
    | some p4 =>
    obtain ⟨table', r3⟩ := p4
    cases e5 : unleb r3 with
    | none => simp only [bindR, e3, e4, e5, Option.map_none] at e2; cases e2
    | some p5 =>
    obtain ⟨k, r4⟩ := p5
    cases e8 : readMany unsleb k r4 with
    | none => simp only [bindR, e3, e4, e5, e8, Option.map_none] at e2; cases e2
    | some p8 =>
    obtain ⟨refs', r6⟩ := p8
    simp only [bindR, e3, e4, e5, e8, Option.map_some, Option.some.injEq, Prod.mk.injEq] at e2
    obtain ⟨⟨rfl, rfl⟩, rfl⟩ := e2
    simp only [e4, e5, e8]
    rw [if_neg (by simpa using hc), e6]
    simp only [e7]

/-- The bytes that are read are the messages. -/
theorem readMessage_iff (bs : Bytes) (args : List (Ty × Val)) :
    readMessage bs = some args ↔ IsMessage bs args := by
  rw [readMessage_header]
  constructor
  · rintro ⟨rest, table, refs, vs, types, h1, h2, hc, h3, h4⟩
    rw [exact_takeBytes] at h1
    obtain ⟨_, rfl, rfl, _⟩ := h1
    rw [exact_readHeader] at h2
    obtain ⟨_, rfl, x, y, rfl, ⟨hp, hx⟩, hy⟩ := h2
    rw [exact_readArgs] at h4
    obtain ⟨z, rfl, rfl, ht, hz⟩ := h4
    refine ⟨table, refs, fun c hm => ok_iff.mpr ⟨hp c hm, hc c hm⟩, ?_, x, y, z, by simp, hx, hy, hz⟩
    exact arguments_of_resolve refs args h3 ht
  · intro h
    have ht := isMessage_hasTy h
    obtain ⟨table, refs, hc, ha, x, y, z, hb, hx, hy, hz⟩ := h
    obtain ⟨_, h2⟩ := arguments_refs (Nat.mul_pos (by omega) (by omega)) refs args ha
    refine ⟨x ++ (y ++ z), table, refs, z, args.map Prod.fst, ?_, ?_,
      fun c hm => closed_of_ok (hc c hm), h2, ?_⟩
    · rw [exact_takeBytes]; exact ⟨_, hb, rfl, rfl⟩
    · rw [exact_readHeader]
      exact ⟨x ++ y, by simp, x, y, rfl, ⟨fun c hm => (ok_iff.mp (hc c hm)).1, hx⟩, hy⟩
    · rw [exact_readArgs]; exact ⟨z, by simp, rfl, ht, hz⟩

theorem readMessage_isMessage {bs : Bytes} {args : List (Ty × Val)} (h : IsMessage bs args) :
    readMessage bs = some args := (readMessage_iff bs args).mpr h

/-- A message whose types are finite trees. -/
theorem isMessage_of {table : List Comp} {refs : List Int} {args : List (Ty × Val)}
    (hc : ∀ c ∈ table, CompOk table c)
    (ha : refs.length = args.length ∧ ∀ p ∈ refs.zip args, Denotes table p.2.1 p.1 ∧ HasTy p.2.1 p.2.2) :
    IsMessage (message table refs args) args := by
  refine ⟨table, refs, hc, ?_, messageBytes_message args hc ?_⟩
  case refine_2 =>
    obtain ⟨hl, ha⟩ := ha
    intro r hr
    obtain ⟨i, hi, rfl⟩ := List.getElem_of_mem hr
    have := (ha (refs[i], args[i]) (List.mem_iff_getElem.mpr ⟨i, by simp; omega, by simp⟩)).1
    exact denotes_ge this
  have hk : table.length < (table.length + 1) * ((message table refs args).length + 17) := by
    simp only [Nat.mul_add]; omega
  generalize (table.length + 1) * ((message table refs args).length + 17) = k at hk
  obtain ⟨hl, ha⟩ := ha
  induction refs generalizing args with
  | nil =>
    simp only [Arguments]
    exact List.length_eq_zero_iff.mp hl.symm
  | cons r refs ih =>
    cases args with
    | nil => cases hl
    | cons a args =>
      obtain ⟨t, v⟩ := a
      obtain ⟨h1, h2⟩ := ha (r, (t, v)) List.mem_cons_self
      simp only [Arguments]
      refine ⟨t, v, args, rfl, unfolds_of_denotes t r k h1 ?_, typed_of_hasTy t r v h1 h2,
        ih (by simpa using hl) (fun p hp => ha p (List.mem_cons_of_mem _ hp))⟩
      have : t.depth ≤ table.length := depth_le h1
      omega

/-! ## Every reference stands for some type -/

theorem at_ok {table : List Comp} (hc : ∀ c ∈ table, CompOk table c) {r : Int} {c : Comp}
    (h : At table r c) : CompOk table c := hc c (List.mem_of_getElem? h.2)

theorem resolveFields_exists {f : Int → Option Ty} : ∀ (l : List (Nat × Int)),
    (∀ p ∈ l, ∃ t, f p.2 = some t) → ∃ fs, resolveFields f l = some fs
  | [], _ => ⟨.nil, rfl⟩
  | (lb, r) :: l, h => by
    obtain ⟨t, ht⟩ := h (lb, r) List.mem_cons_self
    obtain ⟨fs, hf⟩ := resolveFields_exists l (fun p hp => h p (List.mem_cons_of_mem _ hp))
    exact ⟨.cons lb t fs, by simp only [resolveFields, ht, hf, Option.map_some]⟩

theorem resolve_exists {table : List Comp} (hc : ∀ c ∈ table, CompOk table c) :
    ∀ (k : Nat) (r : Int), Refers table r → ∃ t, resolve table k r = some t
  | 0, _, _ => ⟨.cut, rfl⟩
  | k + 1, r, h => by
    rw [resolve]
    rcases h with h | h | ⟨c, h⟩
    · rw [if_pos (by omega)]; exact simple_some (.inl h)
    · rw [if_pos (by omega)]; exact simple_some (.inr h)
    · have ho := at_ok hc h
      obtain ⟨h0, h1⟩ := h
      rw [if_neg (by omega), h1]
      cases c with
      | opt s => obtain ⟨t, ht⟩ := resolve_exists hc k s ho; exact ⟨.opt t, by simp [ht]⟩
      | vec s => obtain ⟨t, ht⟩ := resolve_exists hc k s ho; exact ⟨.vec t, by simp [ht]⟩
      | record l =>
        obtain ⟨fs, hf⟩ := resolveFields_exists (f := fun r => resolve table k r) l
          (fun p hp => resolve_exists hc k p.2 (ho.2 p hp))
        exact ⟨.record fs, by simp [hf]⟩
      | variant l =>
        obtain ⟨fs, hf⟩ := resolveFields_exists (f := fun r => resolve table k r) l
          (fun p hp => resolve_exists hc k p.2 (ho.2 p hp))
        exact ⟨.variant fs, by simp [hf]⟩
      | func _ _ _ => exact ⟨_, rfl⟩
      | service _ => exact ⟨_, rfl⟩

theorem typed_refers {table : List Comp} {v : Val} {r : Int} (h : Typed table v r) :
    Refers table r := by
  cases v <;> simp only [Typed] at h
  case fixed => obtain ⟨f, rfl, _⟩ := h; left; cases f <;> decide
  case principal => exact .inr (.inl h.1)
  case service => obtain ⟨_, _, h⟩ := h; exact .inr (.inr ⟨_, h⟩)
  case func => obtain ⟨_, _, _, _, h⟩ := h; exact .inr (.inr ⟨_, h⟩)
  case none => obtain ⟨_, h⟩ := h; exact .inr (.inr ⟨_, h⟩)
  case variant => obtain ⟨_, _, h, _⟩ := h; exact .inr (.inr ⟨_, h⟩)
  all_goals first
    | exact .inl (by omega)
    | (obtain ⟨_, h, _⟩ := h; exact .inr (.inr ⟨_, h⟩))

/-- Values of any types of a table make a message. -/
theorem isMessage_any {table : List Comp} (hc : ∀ c ∈ table, CompOk table c) (l : List (Int × Val))
    (hl : ∀ p ∈ l, Typed table p.2 p.1) : ∃ args, args.map Prod.snd = l.map Prod.snd ∧
      IsMessage (message table (l.map Prod.fst) args) args := by
  have key : ∀ k, ∃ args : List (Ty × Val), args.map Prod.snd = l.map Prod.snd ∧
      Arguments table k (l.map Prod.fst) args := by
    intro k
    induction l with
    | nil => exact ⟨[], rfl, rfl⟩
    | cons p l ih =>
      obtain ⟨args, h1, h2⟩ := ih (fun q hq => hl q (List.mem_cons_of_mem _ hq))
      have hp := hl p List.mem_cons_self
      obtain ⟨t, ht⟩ := resolve_exists hc k p.1 (typed_refers hp)
      refine ⟨(t, p.2) :: args, by simp [h1], ?_⟩
      simp only [List.map_cons, Arguments]
      exact ⟨t, p.2, args, rfl, unfolds_of_resolve k p.1 t ht, hp, h2⟩
  have len : ∀ a b : List (Ty × Val), a.map Prod.snd = b.map Prod.snd →
      message table (l.map Prod.fst) a = message table (l.map Prod.fst) b := by
    intro a b h
    have : ∀ c : List (Ty × Val), c.flatMap (fun a => value a.2) = (c.map Prod.snd).flatMap value := by
      intro c; induction c <;> simp_all
    simp only [message, this, h]
  obtain ⟨a0, e0, _⟩ := key 0
  obtain ⟨args, e1, h1⟩ := key ((table.length + 1) * ((message table (l.map Prod.fst) a0).length + 17))
  refine ⟨args, e1, table, _, hc, ?_, messageBytes_message args hc (fun r hr => ?_)⟩
  case refine_2 =>
    obtain ⟨p, hp, rfl⟩ := List.mem_map.mp hr
    exact refers_ge (typed_refers (hl p hp))
  rw [len args a0 (e1.trans e0.symm)]
  exact h1

theorem isMessage_one {bs : Bytes} {table : List Comp} {r : Int} {t : Ty} {v : Val}
    (hc : ∀ c ∈ table, CompOk table c) (hd : Denotes table t r) (ht : HasTy t v)
    (e : bs = message table [r] [(t, v)]) : IsMessage bs [(t, v)] := by
  rw [e]
  refine isMessage_of hc ⟨rfl, fun p hp => ?_⟩
  simp only [List.zip_cons_cons, List.zip_nil_left, List.mem_cons, List.not_mem_nil, or_false] at hp
  subst hp
  exact ⟨hd, ht⟩

theorem exists_at {table : List Comp} {r : Int} :
    (∃ c, At table r c) ↔ 0 ≤ r ∧ r.toNat < table.length := by
  constructor
  · rintro ⟨c, h, h'⟩
    exact ⟨h, (List.getElem?_eq_some_iff.mp h').1⟩
  · rintro ⟨h, h'⟩
    exact ⟨_, h, List.getElem?_eq_getElem h'⟩

theorem exists_func {table : List Comp} {r : Int} :
    (∃ as rs notes, At table r (.func as rs notes)) ↔
      0 ≤ r ∧ (table[r.toNat]?.any (fun c => c matches .func ..)) = true := by
  constructor
  · rintro ⟨_, _, _, h, h'⟩
    exact ⟨h, by rw [h']; rfl⟩
  · rintro ⟨h, h'⟩
    cases hx : table[r.toNat]? with
    | none => rw [hx] at h'; cases h'
    | some c =>
      rw [hx] at h'
      cases c <;> first | exact ⟨_, _, _, h, hx⟩ | cases h'

instance {table : List Comp} {r : Int} : Decidable (Refers table r) :=
  decidable_of_iff (_ ∨ _ ∨ _) (or_congr_right (or_congr_right exists_at.symm))

instance {table : List Comp} : ∀ {c : Comp}, Decidable (CompOk table c)
  | .opt r => inferInstanceAs (Decidable (Refers table r))
  | .vec r => inferInstanceAs (Decidable (Refers table r))
  | .record fs => inferInstanceAs (Decidable (_ ∧ ∀ f ∈ fs, Refers table f.2))
  | .variant fs => inferInstanceAs (Decidable (_ ∧ ∀ f ∈ fs, Refers table f.2))
  | .func as rs notes => inferInstanceAs (Decidable ((∀ r ∈ as, Refers table r) ∧
      (∀ r ∈ rs, Refers table r) ∧ notes ∈ [[], [1], [2], [3]]))
  | .service ms => decidable_of_iff (ms.Pairwise (fun a b => a.1 < b.1) ∧
      ∀ m ∈ ms, 0 ≤ m.2 ∧ (table[m.2.toNat]?.any (fun c => c matches .func ..)) = true)
      (and_congr_right (fun _ => forall_congr' (fun _ => imp_congr_right (fun _ => exists_func.symm))))

end CyclesLedger.Candid
