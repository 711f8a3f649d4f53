import Verif.Model.Value
import Verif.Proof.TxHash
/-! # Generic and CBOR values: induction, nesting, conversions -/
namespace CyclesLedger

mutual
theorem Value.ind {P : Value → Prop} (hnat : ∀ n, P (.nat n)) (hint : ∀ i, P (.int i))
    (hblob : ∀ b, P (.blob b)) (htext : ∀ t, P (.text t))
    (harray : ∀ vs, (∀ v ∈ vs, P v) → P (.array vs))
    (hmap : ∀ kvs : List (Text × Value), (∀ e ∈ kvs, P e.2) → P (.map kvs)) : ∀ v, P v
  | .nat n => hnat n
  | .int i => hint i
  | .blob b => hblob b
  | .text t => htext t
  | .array vs => harray vs (Value.indList hnat hint hblob htext harray hmap vs)
  | .map kvs => hmap kvs (Value.indMap hnat hint hblob htext harray hmap kvs)
theorem Value.indList {P : Value → Prop} (hnat : ∀ n, P (.nat n)) (hint : ∀ i, P (.int i))
    (hblob : ∀ b, P (.blob b)) (htext : ∀ t, P (.text t))
    (harray : ∀ vs, (∀ v ∈ vs, P v) → P (.array vs))
    (hmap : ∀ kvs : List (Text × Value), (∀ e ∈ kvs, P e.2) → P (.map kvs)) :
    ∀ vs : List Value, ∀ v ∈ vs, P v
  | [] => fun _ h => nomatch h
  | x :: t => fun v h => by
    rcases List.mem_cons.mp h with h | h
    · rw [h]; exact Value.ind hnat hint hblob htext harray hmap x
    · exact Value.indList hnat hint hblob htext harray hmap t v h
theorem Value.indMap {P : Value → Prop} (hnat : ∀ n, P (.nat n)) (hint : ∀ i, P (.int i))
    (hblob : ∀ b, P (.blob b)) (htext : ∀ t, P (.text t))
    (harray : ∀ vs, (∀ v ∈ vs, P v) → P (.array vs))
    (hmap : ∀ kvs : List (Text × Value), (∀ e ∈ kvs, P e.2) → P (.map kvs)) :
    ∀ kvs : List (Text × Value), ∀ e ∈ kvs, P e.2
  | [] => fun _ h => nomatch h
  | (k, x) :: t => fun e h => by
    rcases List.mem_cons.mp h with h | h
    · rw [h]; exact Value.ind hnat hint hblob htext harray hmap x
    · exact Value.indMap hnat hint hblob htext harray hmap t e h
end

mutual
theorem CVal.ind {P : CVal → Prop} (hint : ∀ i, P (.int i)) (hbytes : ∀ b, P (.bytes b))
    (htext : ∀ t, P (.text t)) (harray : ∀ vs, (∀ v ∈ vs, P v) → P (.array vs))
    (hmap : ∀ kvs : List (CVal × CVal), (∀ e ∈ kvs, P e.1 ∧ P e.2) → P (.map kvs))
    (hbool : ∀ b, P (.bool b)) (hnull : P .null) (hfloat : ∀ b, P (.float b))
    (htag : ∀ t v, P v → P (.tag t v)) : ∀ v, P v
  | .int i => hint i
  | .bytes b => hbytes b
  | .text t => htext t
  | .array vs => harray vs (CVal.indList hint hbytes htext harray hmap hbool hnull hfloat htag vs)
  | .map kvs => hmap kvs (CVal.indMap hint hbytes htext harray hmap hbool hnull hfloat htag kvs)
  | .bool b => hbool b
  | .null => hnull
  | .float b => hfloat b
  | .tag t v => htag t v (CVal.ind hint hbytes htext harray hmap hbool hnull hfloat htag v)
theorem CVal.indList {P : CVal → Prop} (hint : ∀ i, P (.int i)) (hbytes : ∀ b, P (.bytes b))
    (htext : ∀ t, P (.text t)) (harray : ∀ vs, (∀ v ∈ vs, P v) → P (.array vs))
    (hmap : ∀ kvs : List (CVal × CVal), (∀ e ∈ kvs, P e.1 ∧ P e.2) → P (.map kvs))
    (hbool : ∀ b, P (.bool b)) (hnull : P .null) (hfloat : ∀ b, P (.float b))
    (htag : ∀ t v, P v → P (.tag t v)) : ∀ vs : List CVal, ∀ v ∈ vs, P v
  | [] => fun _ h => nomatch h
  | x :: t => fun v h => by
    rcases List.mem_cons.mp h with h | h
    · rw [h]; exact CVal.ind hint hbytes htext harray hmap hbool hnull hfloat htag x
    · exact CVal.indList hint hbytes htext harray hmap hbool hnull hfloat htag t v h
theorem CVal.indMap {P : CVal → Prop} (hint : ∀ i, P (.int i)) (hbytes : ∀ b, P (.bytes b))
    (htext : ∀ t, P (.text t)) (harray : ∀ vs, (∀ v ∈ vs, P v) → P (.array vs))
    (hmap : ∀ kvs : List (CVal × CVal), (∀ e ∈ kvs, P e.1 ∧ P e.2) → P (.map kvs))
    (hbool : ∀ b, P (.bool b)) (hnull : P .null) (hfloat : ∀ b, P (.float b))
    (htag : ∀ t v, P v → P (.tag t v)) :
    ∀ kvs : List (CVal × CVal), ∀ e ∈ kvs, P e.1 ∧ P e.2
  | [] => fun _ h => nomatch h
  | (k, x) :: t => fun e h => by
    rcases List.mem_cons.mp h with h | h
    · rw [h]
      exact ⟨CVal.ind hint hbytes htext harray hmap hbool hnull hfloat htag k,
        CVal.ind hint hbytes htext harray hmap hbool hnull hfloat htag x⟩
    · exact CVal.indMap hint hbytes htext harray hmap hbool hnull hfloat htag t e h
end

/-! ## Specification: what can be converted -/
namespace Spec

/-- `Within n v`: `v` nests at most `n` deep, a number or string counting one. -/
inductive Within : Nat → Value → Prop
  | nat {n x} : Within (n + 1) (.nat x)
  | int {n i} : Within (n + 1) (.int i)
  | blob {n b} : Within (n + 1) (.blob b)
  | text {n t} : Within (n + 1) (.text t)
  | array {n vs} : (∀ v ∈ vs, Within n v) → Within (n + 1) (.array vs)
  | map {n kvs} : (∀ e ∈ kvs, Within n e.2) → Within (n + 1) (.map kvs)

/-- Every integer in the value is unsigned and fits 64 bits. -/
inductive Ints64 : Value → Prop
  | nat {x} : Ints64 (.nat x)
  | int {i} : 0 ≤ i → i ≤ 18446744073709551615 → Ints64 (.int i)
  | blob {b} : Ints64 (.blob b)
  | text {t} : Ints64 (.text t)
  | array {vs} : (∀ v ∈ vs, Ints64 v) → Ints64 (.array vs)
  | map {kvs} : (∀ e ∈ kvs, Ints64 e.2) → Ints64 (.map kvs)

/-- A value proper: the keys of every map are in increasing order (`BTreeMap`). -/
inductive Proper : Value → Prop
  | nat {x} : Proper (.nat x)
  | int {i} : Proper (.int i)
  | blob {b} : Proper (.blob b)
  | text {t} : Proper (.text t)
  | array {vs} : (∀ v ∈ vs, Proper v) → Proper (.array vs)
  | map {kvs} : kvs.Pairwise (fun a b => listLt a.1 b.1 = true) → (∀ e ∈ kvs, Proper e.2) →
      Proper (.map kvs)

/-- `Readable n c`: `c` is made of unsigned integers, bignums, byte strings, texts, arrays
and maps with text keys, possibly tagged "self-described CBOR", and nests at most `n` deep,
where that tag counts as one level. -/
inductive Readable : Nat → CVal → Prop
  | int {n i} : 0 ≤ i → Readable (n + 1) (.int i)
  | bytes {n b} : Readable (n + 1) (.bytes b)
  | text {n t} : Readable (n + 1) (.text t)
  | array {n vs} : (∀ v ∈ vs, Readable n v) → Readable (n + 1) (.array vs)
  | map {n kvs} : (∀ e ∈ kvs, ∃ t, e.1 = .text t) → (∀ e ∈ kvs, Readable n e.2) →
      Readable (n + 1) (.map kvs)
  | bignum {n b} : Readable (n + 1) (.tag 2 (.bytes b))
  | described {n v} : Readable n v → Readable (n + 1) (.tag 55799 v)

end Spec

/-- Two lists related element by element. -/
inductive All2 {α β : Type} (R : α → β → Prop) : List α → List β → Prop
  | nil : All2 R [] []
  | cons {a b l l'} : R a b → All2 R l l' → All2 R (a :: l) (b :: l')

/-! ## Value to CBOR -/

theorem genericToCborList_some {vs : List Value} {d : Nat} {cs : List CVal} :
    genericToCborList vs d = some cs ↔
      All2 (fun v c => genericToCbor v d = some c) vs cs := by
  induction vs generalizing cs with
  | nil =>
    simp only [genericToCborList, Option.some.injEq]
    constructor
    · intro h; subst h; exact .nil
    · intro h; cases h; rfl
  | cons v t ih =>
    unfold genericToCborList
    constructor
    · intro h
      cases h1 : genericToCbor v d with
      | none => simp [h1] at h
      | some c =>
        cases h2 : genericToCborList t d with
        | none => simp [h1, h2] at h
        | some cs' =>
          simp only [h1, h2, Option.some.injEq] at h
          subst h
          exact .cons h1 (ih.mp h2)
    · intro h
      cases h with
      | cons h1 h2 => simp [h1, ih.mpr h2]

theorem genericToCborMap_some {kvs : List (Text × Value)} {d : Nat} {cs : List (CVal × CVal)} :
    genericToCborMap kvs d = some cs ↔
      All2 (fun e c => c.1 = .text e.1 ∧ genericToCbor e.2 d = some c.2) kvs cs := by
  induction kvs generalizing cs with
  | nil =>
    simp only [genericToCborMap, Option.some.injEq]
    constructor
    · intro h; subst h; exact .nil
    · intro h; cases h; rfl
  | cons e t ih =>
    obtain ⟨k, v⟩ := e
    unfold genericToCborMap
    constructor
    · intro h
      cases h1 : genericToCbor v d with
      | none => simp [h1] at h
      | some c =>
        cases h2 : genericToCborMap t d with
        | none => simp [h1, h2] at h
        | some cs' =>
          simp only [h1, h2, Option.some.injEq] at h
          subst h
          exact .cons ⟨rfl, h1⟩ (ih.mp h2)
    · intro h
      cases h with
      | @cons _ c _ _ h1 h2 =>
        obtain ⟨ck, cv⟩ := c
        obtain ⟨h1a, h1b⟩ := h1
        simp only at h1a h1b
        subst h1a
        simp [h1b, ih.mpr h2]

theorem forall2_exists {α β : Type} {R : α → β → Prop} {l : List α} (h : ∀ a ∈ l, ∃ b, R a b) :
    ∃ l', All2 R l l' := by
  induction l with
  | nil => exact ⟨[], .nil⟩
  | cons a t ih =>
    obtain ⟨b, hb⟩ := h a (by simp)
    obtain ⟨l', hl⟩ := ih (fun x hx => h x (by simp [hx]))
    exact ⟨b :: l', .cons hb hl⟩

theorem forall2_left {α β : Type} {R : α → β → Prop} {l : List α} {l' : List β}
    (h : All2 R l l') : ∀ a ∈ l, ∃ b ∈ l', R a b := by
  induction h with
  | nil => intro a ha; cases ha
  | cons h1 h2 ih =>
    intro a ha
    rcases List.mem_cons.mp ha with e | e
    · subst e; exact ⟨_, by simp, h1⟩
    · obtain ⟨b, hb, hr⟩ := ih a e; exact ⟨b, by simp [hb], hr⟩

/-- What converts is exactly what nests within the limit and has 64-bit integers. -/
theorem genericToCbor_isSome (v : Value) : ∀ d, (∃ c, genericToCbor v d = some c) ↔
    Spec.Within (64 - d) v ∧ Spec.Ints64 v := by
  refine Value.ind (P := fun v => ∀ d, (∃ c, genericToCbor v d = some c) ↔
    Spec.Within (64 - d) v ∧ Spec.Ints64 v) ?_ ?_ ?_ ?_ ?_ ?_ v
  case refine_1 | refine_3 | refine_4 =>
    all_goals
      intro x d
      unfold genericToCbor
      by_cases hd : d ≥ VALUE_DEPTH_LIMIT
      · rw [if_pos hd]
        have : 64 - d = 0 := by simp [VALUE_DEPTH_LIMIT] at hd; omega
        rw [this]
        exact ⟨fun ⟨_, h⟩ => (nomatch h), fun h => nomatch h.1⟩
      · rw [if_neg hd]
        have : 64 - d = (63 - d) + 1 := by simp [VALUE_DEPTH_LIMIT] at hd; omega
        rw [this]
        exact ⟨fun _ => ⟨by constructor, by constructor⟩, fun _ => ⟨_, rfl⟩⟩
  case refine_2 =>
    intro i d
    unfold genericToCbor
    by_cases hd : d ≥ VALUE_DEPTH_LIMIT
    · rw [if_pos hd]
      have : 64 - d = 0 := by simp [VALUE_DEPTH_LIMIT] at hd; omega
      rw [this]
      exact ⟨fun ⟨_, h⟩ => (nomatch h), fun h => nomatch h.1⟩
    · rw [if_neg hd]
      have : 64 - d = (63 - d) + 1 := by simp [VALUE_DEPTH_LIMIT] at hd; omega
      rw [this]
      simp only
      constructor
      · rintro ⟨c, h⟩
        split at h
        · cases h
        · split at h
          · rename_i h1 h2
            rw [U64MAX_eq] at h2
            exact ⟨.int, .int (by omega) (by omega)⟩
          · cases h
      · rintro ⟨-, h⟩
        cases h with
        | int h1 h2 =>
          rw [if_neg (by omega), if_pos (by rw [U64MAX_eq]; omega)]
          exact ⟨_, rfl⟩
  case refine_5 =>
    intro vs ih d
    unfold genericToCbor
    by_cases hd : d ≥ VALUE_DEPTH_LIMIT
    · rw [if_pos hd]
      have : 64 - d = 0 := by simp [VALUE_DEPTH_LIMIT] at hd; omega
      rw [this]
      exact ⟨fun ⟨_, h⟩ => (nomatch h), fun h => nomatch h.1⟩
    · rw [if_neg hd]
      have h64 : 64 - d = (64 - (d + 1)) + 1 := by simp [VALUE_DEPTH_LIMIT] at hd; omega
      rw [h64]
      simp only
      constructor
      · rintro ⟨c, h⟩
        cases hl : genericToCborList vs (d + 1) with
        | none => simp [hl] at h
        | some cs =>
          have hf := forall2_left (genericToCborList_some.mp hl)
          have : ∀ v ∈ vs, _ := fun v hv =>
            (ih v hv (d + 1)).mp (by obtain ⟨c, _, hc⟩ := hf v hv; exact ⟨c, hc⟩)
          exact ⟨.array (fun v hv => (this v hv).1), .array (fun v hv => (this v hv).2)⟩
      · rintro ⟨h1, h2⟩
        cases h1 with
        | array h1 =>
          cases h2 with
          | array h2 =>
            obtain ⟨cs, hcs⟩ := forall2_exists (R := fun v c => genericToCbor v (d + 1) = some c)
              (l := vs) (fun v hv => (ih v hv (d + 1)).mpr ⟨h1 v hv, h2 v hv⟩)
            rw [genericToCborList_some.mpr hcs]
            exact ⟨_, rfl⟩
  case refine_6 =>
    intro kvs ih d
    unfold genericToCbor
    by_cases hd : d ≥ VALUE_DEPTH_LIMIT
    · rw [if_pos hd]
      have : 64 - d = 0 := by simp [VALUE_DEPTH_LIMIT] at hd; omega
      rw [this]
      exact ⟨fun ⟨_, h⟩ => (nomatch h), fun h => nomatch h.1⟩
    · rw [if_neg hd]
      have h64 : 64 - d = (64 - (d + 1)) + 1 := by simp [VALUE_DEPTH_LIMIT] at hd; omega
      rw [h64]
      simp only
      constructor
      · rintro ⟨c, h⟩
        cases hl : genericToCborMap kvs (d + 1) with
        | none => simp [hl] at h
        | some cs =>
          have hf := forall2_left (genericToCborMap_some.mp hl)
          have : ∀ e ∈ kvs, _ := fun e he =>
            (ih e he (d + 1)).mp (by obtain ⟨c, _, hc⟩ := hf e he; exact ⟨c.2, hc.2⟩)
          exact ⟨.map (fun v hv => (this v hv).1), .map (fun v hv => (this v hv).2)⟩
      · rintro ⟨h1, h2⟩
        cases h1 with
        | map h1 =>
          cases h2 with
          | map h2 =>
            obtain ⟨cs, hcs⟩ := forall2_exists
              (R := fun (e : Text × Value) (c : CVal × CVal) =>
                c.1 = .text e.1 ∧ genericToCbor e.2 (d + 1) = some c.2)
              (l := kvs) (fun e he => by
                obtain ⟨c, hc⟩ := (ih e he (d + 1)).mpr ⟨h1 e he, h2 e he⟩
                exact ⟨(.text e.1, c), rfl, hc⟩)
            rw [genericToCborMap_some.mpr hcs]
            exact ⟨_, rfl⟩

/-! ## There and back -/

theorem insertL_last {K V : Type} [TotOrd K] {l : List (K × V)} {k : K} {v : V}
    (h : ∀ e ∈ l, TotOrd.lt e.1 k = true) : SMap.insertL l k v = l ++ [(k, v)] := by
  induction l with
  | nil => rfl
  | cons e t ih =>
    obtain ⟨k', v'⟩ := e
    have h1 := h (k', v') (by simp)
    simp only [SMap.insertL]
    rw [if_neg (by rw [TotOrd.asymm h1]; simp), if_neg (TotOrd.ne_of_lt h1),
      ih (fun e he => h e (by simp [he]))]
    rfl

theorem cborToGenericList_ok {cs : List CVal} {d : Nat} {vs : List Value} :
    cborToGenericList cs d = .ok vs ↔
      All2 (fun c v => cborToGeneric c d = .ok v) cs vs := by
  induction cs generalizing vs with
  | nil =>
    simp only [cborToGenericList, Except.ok.injEq]
    constructor
    · intro h; subst h; exact .nil
    · intro h; cases h; rfl
  | cons v t ih =>
    unfold cborToGenericList
    constructor
    · intro h
      cases h1 : cborToGeneric v d with
      | error e => simp [h1] at h
      | ok c =>
        cases h2 : cborToGenericList t d with
        | error e => simp [h1, h2] at h
        | ok cs' =>
          simp only [h1, h2, Except.ok.injEq] at h
          subst h
          exact .cons h1 (ih.mp h2)
    · intro h
      cases h with
      | cons h1 h2 => simp [h1, ih.mpr h2]

theorem cborToGeneric_of_generic (v : Value) : ∀ d c, Spec.Proper v → genericToCbor v d = some c →
    cborToGeneric c d = .ok v := by
  refine Value.ind (P := fun v => ∀ d c, Spec.Proper v → genericToCbor v d = some c →
    cborToGeneric c d = .ok v) ?_ ?_ ?_ ?_ ?_ ?_ v
  · intro n d c _ h
    unfold genericToCbor at h
    split at h
    · cases h
    · rename_i hd
      simp only [Option.some.injEq] at h
      subst h
      unfold cborToGeneric
      rw [if_neg hd]
      simp [TAG_BIGNUM, TAG_SELF_DESCRIBED, ofBytesBE_toBytesBE]
  · intro i d c _ h
    unfold genericToCbor at h
    split at h
    · cases h
    · rename_i hd
      simp only at h
      split at h
      · cases h
      · rename_i hi
        split at h
        · simp only [Option.some.injEq] at h
          subst h
          unfold cborToGeneric
          rw [if_neg hd]
          simp only
          rw [if_neg hi]
        · cases h
  · intro b d c _ h
    unfold genericToCbor at h
    split at h
    · cases h
    · rename_i hd
      simp only [Option.some.injEq] at h
      subst h
      unfold cborToGeneric
      rw [if_neg hd]
  · intro b d c _ h
    unfold genericToCbor at h
    split at h
    · cases h
    · rename_i hd
      simp only [Option.some.injEq] at h
      subst h
      unfold cborToGeneric
      rw [if_neg hd]
  · intro vs ih d c hp h
    cases hp with
    | array hp =>
    unfold genericToCbor at h
    split at h
    · cases h
    · rename_i hd
      simp only at h
      cases hl : genericToCborList vs (d + 1) with
      | none => simp [hl] at h
      | some cs =>
        simp only [hl, Option.some.injEq] at h
        subst h
        have hf := genericToCborList_some.mp hl
        have hg : cborToGenericList cs (d + 1) = .ok vs := by
          rw [cborToGenericList_ok]
          clear hl
          induction hf with
          | nil => exact .nil
          | cons h1 _ ih2 =>
            exact .cons (ih _ (by simp) _ _ (hp _ (by simp)) h1)
              (ih2 (fun v hv => ih v (by simp [hv])) (fun v hv => hp v (by simp [hv])))
        unfold cborToGeneric
        rw [if_neg hd]
        simp [hg]
  · intro kvs ih d c hp h
    cases hp with
    | map hs hp =>
    unfold genericToCbor at h
    split at h
    · cases h
    · rename_i hd
      simp only at h
      cases hl : genericToCborMap kvs (d + 1) with
      | none => simp [hl] at h
      | some cs =>
        simp only [hl, Option.some.injEq] at h
        subst h
        have hf := genericToCborMap_some.mp hl
        have hg : ∀ acc : List (Text × Value), (∀ a ∈ acc, ∀ e ∈ kvs, listLt a.1 e.1 = true) →
            cborToGenericMap cs (d + 1) acc = .ok (acc ++ kvs) := by
          clear hl
          induction hf with
          | nil => intro acc _; simp [cborToGenericMap]
          | @cons e c l l' h1 _ ih2 =>
            intro acc hacc
            obtain ⟨ck, cv⟩ := c
            obtain ⟨h1a, h1b⟩ := h1
            simp only at h1a h1b
            subst h1a
            rw [List.pairwise_cons] at hs
            rw [convMap_cons (ih _ (by simp) _ _ (hp _ (by simp)) h1b)]
            have hins : mapInsert acc e.1 e.2 = acc ++ [e] :=
              insertL_last (fun a ha => hacc a ha e (by simp))
            rw [hins, ih2 (fun v hv => ih v (by simp [hv])) hs.2 (fun v hv => hp v (by simp [hv]))]
            · simp
            · intro a ha e' he'
              rcases List.mem_append.mp ha with h | h
              · exact hacc a h e' (by simp [he'])
              · rw [List.mem_singleton] at h; subst h; exact hs.1 e' he'
        unfold cborToGeneric
        rw [if_neg hd]
        simp [hg [] (by simp)]

/-! ## CBOR to value -/

theorem cborToGenericMap_ok {kvs : List (CVal × CVal)} {d : Nat} :
    ∀ acc, (∃ m, cborToGenericMap kvs d acc = .ok m) ↔
      (∀ e ∈ kvs, ∃ t, e.1 = .text t) ∧ (∀ e ∈ kvs, ∃ v, cborToGeneric e.2 d = .ok v) := by
  induction kvs with
  | nil => intro acc; simp [cborToGenericMap]
  | cons e t ih =>
    intro acc
    obtain ⟨k, v⟩ := e
    unfold cborToGenericMap
    constructor
    · rintro ⟨m, h⟩
      cases k with
      | text k =>
        simp only at h
        cases hv : cborToGeneric v d with
        | error e => simp [hv] at h
        | ok v' =>
          simp only [hv] at h
          have := (ih _).mp ⟨m, h⟩
          constructor
          · intro e he
            rcases List.mem_cons.mp he with h | h
            · subst h; exact ⟨k, rfl⟩
            · exact this.1 e h
          · intro e he
            rcases List.mem_cons.mp he with h | h
            · subst h; exact ⟨v', hv⟩
            · exact this.2 e h
      | _ => simp at h
    · rintro ⟨h1, h2⟩
      obtain ⟨k', hk⟩ := h1 (k, v) (by simp)
      simp only at hk
      subst hk
      obtain ⟨v', hv⟩ := h2 (.text k', v) (by simp)
      simp only at hv
      simp only [hv]
      exact (ih _).mpr ⟨fun e he => h1 e (by simp [he]), fun e he => h2 e (by simp [he])⟩

/-- What converts is exactly what is `Readable` within the limit. -/
theorem cborToGeneric_isOk (c : CVal) : ∀ d, (∃ v, cborToGeneric c d = .ok v) ↔
    Spec.Readable (64 - d) c := by
  refine CVal.ind (P := fun c => ∀ d, (∃ v, cborToGeneric c d = .ok v) ↔
    Spec.Readable (64 - d) c) ?_ ?_ ?_ ?_ ?_ ?_ ?_ ?_ ?_ c
  case refine_2 | refine_3 =>
    all_goals
      intro b d
      unfold cborToGeneric
      by_cases hd : d ≥ VALUE_DEPTH_LIMIT
      · rw [if_pos hd]
        have : 64 - d = 0 := by simp [VALUE_DEPTH_LIMIT] at hd; omega
        rw [this]
        exact ⟨fun ⟨_, h⟩ => (nomatch h), fun h => nomatch h⟩
      · rw [if_neg hd]
        have : 64 - d = (63 - d) + 1 := by simp [VALUE_DEPTH_LIMIT] at hd; omega
        rw [this]
        exact ⟨fun _ => by constructor, fun _ => ⟨_, rfl⟩⟩
  case refine_6 | refine_8 =>
    all_goals
      intro b d
      unfold cborToGeneric
      refine ⟨fun ⟨_, h⟩ => ?_, fun h => ?_⟩
      · split at h <;> cases h
      · generalize 64 - d = n at h; cases h
  case refine_7 =>
    intro d
    unfold cborToGeneric
    refine ⟨fun ⟨_, h⟩ => ?_, fun h => ?_⟩
    · split at h <;> cases h
    · generalize 64 - d = n at h; cases h
  case refine_1 =>
    intro i d
    unfold cborToGeneric
    by_cases hd : d ≥ VALUE_DEPTH_LIMIT
    · rw [if_pos hd]
      have : 64 - d = 0 := by simp [VALUE_DEPTH_LIMIT] at hd; omega
      rw [this]
      exact ⟨fun ⟨_, h⟩ => (nomatch h), fun h => nomatch h⟩
    · rw [if_neg hd]
      have : 64 - d = (63 - d) + 1 := by simp [VALUE_DEPTH_LIMIT] at hd; omega
      rw [this]
      simp only
      constructor
      · rintro ⟨v, h⟩
        split at h
        · cases h
        · exact .int (by omega)
      · intro h
        cases h with
        | int h => rw [if_neg (by omega)]; exact ⟨_, rfl⟩
  case refine_4 =>
    intro vs ih d
    unfold cborToGeneric
    by_cases hd : d ≥ VALUE_DEPTH_LIMIT
    · rw [if_pos hd]
      have : 64 - d = 0 := by simp [VALUE_DEPTH_LIMIT] at hd; omega
      rw [this]
      exact ⟨fun ⟨_, h⟩ => (nomatch h), fun h => nomatch h⟩
    · rw [if_neg hd]
      have h64 : 64 - d = (64 - (d + 1)) + 1 := by simp [VALUE_DEPTH_LIMIT] at hd; omega
      rw [h64]
      simp only
      constructor
      · rintro ⟨c, h⟩
        cases hl : cborToGenericList vs (d + 1) with
        | error e => simp [hl] at h
        | ok cs =>
          have hf := forall2_left (cborToGenericList_ok.mp hl)
          exact .array fun v hv =>
            (ih v hv (d + 1)).mp (by obtain ⟨c, _, hc⟩ := hf v hv; exact ⟨c, hc⟩)
      · intro h1
        cases h1 with
        | array h1 =>
          obtain ⟨cs, hcs⟩ := forall2_exists (R := fun v c => cborToGeneric v (d + 1) = .ok c)
            (l := vs) (fun v hv => (ih v hv (d + 1)).mpr (h1 v hv))
          rw [cborToGenericList_ok.mpr hcs]
          exact ⟨_, rfl⟩
  case refine_5 =>
    intro kvs ih d
    unfold cborToGeneric
    by_cases hd : d ≥ VALUE_DEPTH_LIMIT
    · rw [if_pos hd]
      have : 64 - d = 0 := by simp [VALUE_DEPTH_LIMIT] at hd; omega
      rw [this]
      exact ⟨fun ⟨_, h⟩ => (nomatch h), fun h => nomatch h⟩
    · rw [if_neg hd]
      have h64 : 64 - d = (64 - (d + 1)) + 1 := by simp [VALUE_DEPTH_LIMIT] at hd; omega
      rw [h64]
      simp only
      constructor
      · rintro ⟨c, h⟩
        cases hl : cborToGenericMap kvs (d + 1) [] with
        | error e => simp [hl] at h
        | ok cs =>
          have hf := (cborToGenericMap_ok []).mp ⟨_, hl⟩
          exact .map hf.1 (fun e he => ((ih e he).2 (d + 1)).mp (hf.2 e he))
      · intro h1
        cases h1 with
        | map h1 h2 =>
          obtain ⟨m, hm⟩ := (cborToGenericMap_ok (kvs := kvs) (d := d + 1) []).mpr
            ⟨h1, fun e he => ((ih e he).2 (d + 1)).mpr (h2 e he)⟩
          rw [hm]
          exact ⟨_, rfl⟩
  case refine_9 =>
    intro t v ih d
    unfold cborToGeneric
    by_cases hd : d ≥ VALUE_DEPTH_LIMIT
    · rw [if_pos hd]
      have : 64 - d = 0 := by simp [VALUE_DEPTH_LIMIT] at hd; omega
      rw [this]
      exact ⟨fun ⟨_, h⟩ => (nomatch h), fun h => nomatch h⟩
    · rw [if_neg hd]
      have h64 : 64 - d = (64 - (d + 1)) + 1 := by simp [VALUE_DEPTH_LIMIT] at hd; omega
      rw [h64]
      simp only
      by_cases h1 : t = TAG_SELF_DESCRIBED
      · rw [if_pos h1, ih (d + 1)]
        unfold TAG_SELF_DESCRIBED at h1
        subst h1
        exact ⟨.described, fun h => by cases h; assumption⟩
      · rw [if_neg h1]
        unfold TAG_SELF_DESCRIBED at h1
        by_cases h2 : t = TAG_BIGNUM
        · rw [if_pos h2]
          unfold TAG_BIGNUM at h2
          subst h2
          constructor
          · rintro ⟨w, h⟩
            cases v with
            | bytes b => exact .bignum
            | _ => simp at h
          · intro h
            cases h with
            | bignum => exact ⟨_, rfl⟩
        · rw [if_neg h2]
          unfold TAG_BIGNUM at h2
          refine ⟨fun ⟨_, h⟩ => (nomatch h), fun h => ?_⟩
          cases h
          · exact absurd rfl h2
          · exact absurd rfl h1

end CyclesLedger
