import Verif.Spec.CandidBlocks
import Verif.Proof.Candid
import Verif.Proof.CandidArgs
/-! # Blocks in Candid messages: one reading, and the right one -/
namespace CyclesLedger.Candid
open CyclesLedger.Spec.Candid

/-! ## Values -/

def readAll (f : Int → Bytes → Option (Val × Bytes)) :
    List (Nat × Int) → Bytes → Option (Vals × Bytes)
  | [], bs => some (.nil, bs)
  | g :: fs, bs =>
    match f g.2 bs with
    | none => none
    | some (v, bs) => (readAll f fs bs).map (fun p => (.cons v p.1, p.2))

/-- Reads a value of the type at a reference, to a certain depth. -/
def readAt (table : List Comp) : Nat → Int → Bytes → Option (Val × Bytes)
  | k, r, bs =>
    if r < 0 then
      match simple r with
      | none => none
      | some t => readVal t bs
    else match k, table[r.toNat]? with
      | k + 1, some (.opt s) =>
        match bs with
        | [] => none
        | b :: bs => if b = 0 then some (.none, bs)
          else if b = 1 then (readAt table k s bs).map (fun p => (.some p.1, p.2)) else none
      | 0, some (.opt _) =>
        match bs with
        | [] => none
        | b :: bs => if b = 0 then some (.none, bs) else none
      | k + 1, some (.vec s) =>
        match unleb bs with
        | none => none
        | some (n, bs) => (readMany (fun bs => readAt table k s bs) n bs).map
            (fun p => (.vec (Vals.ofList p.1), p.2))
      | k + 1, some (.record fs) =>
        (readAll (fun r bs => readAt table k r bs) fs bs).map (fun p => (.record p.1, p.2))
      | k + 1, some (.variant fs) =>
        match unleb bs with
        | none => none
        | some (i, bs) =>
          match fs[i]? with
          | none => none
          | some g => (readAt table k g.2 bs).map (fun p => (.variant i p.1, p.2))
      | _, some (.service _) => readVal .service bs
      | _, some (.func _ _ _) => readVal .func bs
      | _, _ => none

theorem place_nonneg {table : List Comp} {r : Int} {c : Comp} (h : At table r c) : ¬ r < 0 := by
  have := h.1; omega

theorem values_eq : ∀ vs : Vals, values vs = vs.toList.flatMap value
  | .nil => by simp [values, Vals.toList]
  | .cons v vs => by simp [values, Vals.toList, values_eq vs]

mutual
theorem readAt_value (table : List Comp) : ∀ (v : Val) (k : Nat) (r : Int) (rest : Bytes),
    Typed table v r → v.height ≤ k → readAt table k r (value v ++ rest) = some (v, rest)
  | .null, k, r, rest, h, hk => by
    simp only [Typed] at h; subst h
    unfold readAt; rw [if_pos (by decide)]
    exact readVal_value .null .null rest (by simp [HasTy])
  | .bool b, k, r, rest, h, hk => by
    simp only [Typed] at h; subst h
    unfold readAt; rw [if_pos (by decide)]
    exact readVal_value .bool _ rest (by simp [HasTy])
  | .nat n, k, r, rest, h, hk => by
    simp only [Typed] at h; subst h
    unfold readAt; rw [if_pos (by decide)]
    exact readVal_value .nat _ rest (by simp [HasTy])
  | .int bs, k, r, rest, h, hk => by
    simp only [Typed] at h; obtain ⟨rfl, h⟩ := h
    unfold readAt; rw [if_pos (by decide)]
    exact readVal_value .int _ rest (by simpa [HasTy] using h)
  | .text bs, k, r, rest, h, hk => by
    simp only [Typed] at h; subst h
    unfold readAt; rw [if_pos (by decide)]
    exact readVal_value .text _ rest (by simp [HasTy])
  | .reserved, k, r, rest, h, hk => by
    simp only [Typed] at h; subst h
    unfold readAt; rw [if_pos (by decide)]
    exact readVal_value .reserved _ rest (by simp [HasTy])
  | .principal bs, k, r, rest, h, hk => by
    simp only [Typed] at h; obtain ⟨rfl, h⟩ := h
    unfold readAt; rw [if_pos (by decide)]
    exact readVal_value .principal _ rest (by simpa [HasTy] using h)
  | .fixed bs, k, r, rest, h, hk => by
    simp only [Typed] at h; obtain ⟨f, rfl, h⟩ := h
    unfold readAt; rw [if_pos (fixedCode_neg f), simple_fixed]
    exact readVal_value (.fixed f) _ rest (by simpa [HasTy] using h)
  | .service bs, k, r, rest, h, hk => by
    simp only [Typed] at h; obtain ⟨hb, ms, h⟩ := h
    unfold readAt; rw [if_neg (place_nonneg h), h.2]
    have := readVal_value .service (.service bs) rest (by simpa [HasTy] using hb)
    cases k <;> exact this
  | .func bs name, k, r, rest, h, hk => by
    simp only [Typed] at h; obtain ⟨hb, as, rs, notes, h⟩ := h
    unfold readAt; rw [if_neg (place_nonneg h), h.2]
    have := readVal_value .func (.func bs name) rest (by simpa [HasTy] using hb)
    cases k <;> exact this
  | .none, k, r, rest, h, hk => by
    simp only [Typed] at h; obtain ⟨s, h⟩ := h
    unfold readAt; rw [if_neg (place_nonneg h), h.2]
    cases k <;> simp [value]
  | .some v, k, r, rest, h, hk => by
    simp only [Typed] at h; obtain ⟨s, h, hv⟩ := h
    unfold readAt; rw [if_neg (place_nonneg h), h.2]
    simp only [Val.height] at hk
    obtain ⟨k, rfl⟩ : ∃ j, k = j + 1 := ⟨k - 1, by omega⟩
    simp only [value, List.cons_append]
    rw [if_neg (by decide), if_pos trivial, readAt_value table v k s rest hv (by omega)]
    rfl
  | .vec vs, k, r, rest, h, hk => by
    simp only [Typed] at h; obtain ⟨s, h, hv⟩ := h
    unfold readAt; rw [if_neg (place_nonneg h), h.2]
    simp only [Val.height] at hk
    obtain ⟨k, rfl⟩ : ∃ j, k = j + 1 := ⟨k - 1, by omega⟩
    simp only [value, List.append_assoc, unleb_leb128]
    rw [readEach_values table vs k s rest hv (by omega)]
    simp [vals_eta]
  | .record vs, k, r, rest, h, hk => by
    simp only [Typed] at h; obtain ⟨fs, h, hv⟩ := h
    unfold readAt; rw [if_neg (place_nonneg h), h.2]
    simp only [Val.height] at hk
    obtain ⟨k, rfl⟩ : ∃ j, k = j + 1 := ⟨k - 1, by omega⟩
    simp only [value]
    rw [readAll_values table vs k fs rest hv (by omega)]
    rfl
  | .variant i v, k, r, rest, h, hk => by
    simp only [Typed] at h; obtain ⟨fs, f, h, hf, hv⟩ := h
    unfold readAt; rw [if_neg (place_nonneg h), h.2]
    simp only [Val.height] at hk
    obtain ⟨k, rfl⟩ : ∃ j, k = j + 1 := ⟨k - 1, by omega⟩
    simp only [value, List.append_assoc, unleb_leb128, hf]
    rw [readAt_value table v k f.2 rest hv (by omega)]
    rfl
theorem readEach_values (table : List Comp) : ∀ (vs : Vals) (k : Nat) (s : Int) (rest : Bytes),
    TypedEach table vs s → vs.height ≤ k →
    readMany (fun bs => readAt table k s bs) vs.toList.length (values vs ++ rest) =
      some (vs.toList, rest)
  | .nil, k, s, rest, h, hk => by simp [Vals.toList, values, readMany]
  | .cons v vs, k, s, rest, h, hk => by
    simp only [TypedEach] at h
    simp only [Vals.height] at hk
    simp only [Vals.toList, List.length_cons, values, List.append_assoc, readMany]
    rw [readAt_value table v k s _ h.1 (by omega)]
    simp only
    rw [readEach_values table vs k s rest h.2 (by omega)]
theorem readAll_values (table : List Comp) : ∀ (vs : Vals) (k : Nat) (fs : List (Nat × Int))
    (rest : Bytes), TypedAll table vs fs → vs.height ≤ k →
    readAll (fun r bs => readAt table k r bs) fs (values vs ++ rest) = some (vs, rest)
  | .nil, k, fs, rest, h, hk => by
    simp only [TypedAll] at h; subst h; simp [values, readAll]
  | .cons v vs, k, fs, rest, h, hk => by
    simp only [TypedAll] at h; obtain ⟨f, fs, rfl, hv, h⟩ := h
    simp only [Vals.height] at hk
    simp only [values, List.append_assoc, readAll]
    rw [readAt_value table v k f.2 _ hv (by omega)]
    simp only
    rw [readAll_values table vs k fs rest h (by omega)]
    rfl
end

/-- A message has one table, one type and one value. -/
theorem sends_unique {bs : Bytes} {table table' : List Comp} {r r' : Int} {v v' : Val}
    (h : Sends bs table r v) (h' : Sends bs table' r' v') : table = table' ∧ r = r' ∧ v = v' := by
  obtain ⟨ht, hr, hv, he⟩ := h
  obtain ⟨ht', hr', hv', he'⟩ := h'
  rw [he] at he'
  have e0 := List.append_cancel_left he'
  have e1 := congrArg unleb e0
  rw [unleb_leb128, unleb_leb128] at e1
  simp only [Option.some.injEq, Prod.mk.injEq] at e1
  have e2 := readMany_append (f := readComp) (g := comp) table
    (leb128 1 ++ (ref r ++ value v)) (fun e he rest => readComp_comp e rest (ht e he))
  have e3 := readMany_append (f := readComp) (g := comp) table'
    (leb128 1 ++ (ref r' ++ value v')) (fun e he rest => readComp_comp e rest (ht' e he))
  rw [e1.1, e1.2, e3] at e2
  simp only [Option.some.injEq, Prod.mk.injEq] at e2
  obtain ⟨rfl, e4⟩ := e2
  have e5 := List.append_cancel_left e4
  have e6 := congrArg unsleb e5
  rw [unsleb_ref hr, unsleb_ref hr'] at e6
  simp only [Option.some.injEq, Prod.mk.injEq] at e6
  obtain ⟨rfl, e7⟩ := e6
  refine ⟨rfl, rfl, ?_⟩
  have a := readAt_value table' v (max v.height v'.height) r' [] hv (by omega)
  have b := readAt_value table' v' (max v.height v'.height) r' [] hv' (by omega)
  rw [List.append_nil] at a b
  rw [e7, a] at b
  simp only [Option.some.injEq, Prod.mk.injEq] at b
  exact b.1

/-! ## What is found is determined -/

theorem fcase_unique {table : List Comp} {n n' : String} {w w' : Int → Val → Prop} {r : Int}
    {v : Val} (h : fCase table n w r v) (h' : fCase table n' w' r v) :
    nameHash n = nameHash n' ∧ ∃ s x, w s x ∧ w' s x := by
  obtain ⟨fs, i, s, x, hp, rfl, hf, hw⟩ := h
  obtain ⟨fs', i', s', x', hp', hv, hf', hw'⟩ := h'
  have := at_unique hp hp'
  simp only [Comp.variant.injEq] at this
  subst this
  simp only [Val.variant.injEq] at hv
  obtain ⟨rfl, rfl⟩ := hv
  rw [hf] at hf'
  simp only [Option.some.injEq, Prod.mk.injEq] at hf'
  obtain ⟨hn, rfl⟩ := hf'
  exact ⟨hn, s, x, hw, hw'⟩

theorem label_index {fs : List (Nat × Int)} (h : fs.Pairwise (fun a b => a.1 < b.1)) {i j l : Nat}
    {s t : Int} (hi : fs[i]? = some (l, s)) (hj : fs[j]? = some (l, t)) : i = j := by
  obtain ⟨hi', ei⟩ := List.getElem?_eq_some_iff.mp hi
  obtain ⟨hj', ej⟩ := List.getElem?_eq_some_iff.mp hj
  rw [List.pairwise_iff_getElem] at h
  rcases Nat.lt_trichotomy i j with hlt | heq | hgt
  · have := h i j hi' hj' hlt
    rw [ei, ej] at this
    exact absurd this (Nat.lt_irrefl _)
  · exact heq
  · have := h j i hj' hi' hgt
    rw [ei, ej] at this
    exact absurd this (Nat.lt_irrefl _)

theorem field_unique {table : List Comp} (ht : ∀ e ∈ table, CompOk table e) {l : Nat}
    {w w' : Int → Val → Prop} {r : Int} {v : Val} (h : fField table l w r v)
    (h' : fField table l w' r v) : ∃ s x, w s x ∧ w' s x := by
  obtain ⟨fs, xs, i, s, x, hp, rfl, hf, hx, hw⟩ := h
  obtain ⟨fs', xs', i', s', x', hp', hv, hf', hx', hw'⟩ := h'
  have := at_unique hp hp'
  simp only [Comp.record.injEq] at this
  subst this
  simp only [Val.record.injEq] at hv
  have hv := congrArg Vals.toList hv
  rw [toList_ofList, toList_ofList] at hv
  subst hv
  have hi := label_index (at_ok ht hp).1 hf hf'
  subst hi
  rw [hf] at hf'
  rw [hx] at hx'
  simp only [Option.some.injEq, Prod.mk.injEq, true_and] at hf' hx'
  subst hf'
  subst hx'
  exact ⟨s, x, hw, hw'⟩

theorem vec_unique {A : Type} {table : List Comp} {w : Find A}
    (hw : ∀ a b s x, w a s x → w b s x → a = b) {as bs : List A} {r : Int} {v : Val}
    (h : fVec table w as r v) (h' : fVec table w bs r v) : as = bs := by
  obtain ⟨s, xs, hp, rfl, hl, ha⟩ := h
  obtain ⟨s', xs', hp', hv, hl', hb⟩ := h'
  have := at_unique hp hp'
  simp only [Comp.vec.injEq] at this
  subst this
  simp only [Val.vec.injEq] at hv
  have hv := congrArg Vals.toList hv
  rw [toList_ofList, toList_ofList] at hv
  subst hv
  refine List.ext_getElem (by omega) (fun i hi hi' => ?_)
  refine hw _ _ s (xs[i]'(by omega)) ?_ ?_
  · have := ha ((as.zip xs)[i]'(by simp; omega)) (List.getElem_mem _)
    rw [List.getElem_zip] at this
    exact this
  · have := hb ((bs.zip xs)[i]'(by simp; omega)) (List.getElem_mem _)
    rw [List.getElem_zip] at this
    exact this

theorem blob_unique {table : List Comp} {as bs : Bytes} {r : Int} {v : Val}
    (h : fBlob table as r v) (h' : fBlob table bs r v) : as = bs := by
  refine vec_unique (fun a b s x h h' => ?_) h h'
  have := h.2
  rw [h'.2] at this
  simp only [Val.fixed.injEq, List.cons.injEq, and_true] at this
  exact this.symm

theorem signed_unique : ∀ {bs : Bytes} {i j : Int}, Signed bs i → Signed bs j → i = j
  | [], i, j, h, _ => absurd h (by simp [Signed])
  | [b], i, j, h, h' => by
    simp only [Signed] at h h'
    omega
  | b :: c :: bs, i, j, h, h' => by
    simp only [Signed] at h h'
    obtain ⟨_, k, hk, rfl⟩ := h
    obtain ⟨_, l, hl, rfl⟩ := h'
    rw [signed_unique hk hl]

theorem vec_parts {table : List Comp} {r : Int} {x : Val} {f g : Int → Vals → Prop}
    (h : ∃ s xs, At table r (.vec s) ∧ x = .vec xs ∧ f s xs)
    (h' : ∃ s xs, At table r (.vec s) ∧ x = .vec xs ∧ g s xs) : ∃ s xs, f s xs ∧ g s xs := by
  obtain ⟨s, xs, hp, rfl, hf⟩ := h
  obtain ⟨s', xs', hp', hv, hg⟩ := h'
  have := at_unique hp hp'
  simp only [Comp.vec.injEq] at this
  subst this
  simp only [Val.vec.injEq] at hv
  subst hv
  exact ⟨s, xs, hf, hg⟩

/-- The case of a value, and what it contains. -/
def tag : Value → String
  | .nat _ => "Nat" | .int _ => "Int" | .blob _ => "Blob" | .text _ => "Text"
  | .array _ => "Array" | .map _ => "Map"

def content (table : List Comp) : Value → Int → Val → Prop
  | .nat n => fNat n
  | .int i => fInt i
  | .blob b => fBlob table b
  | .text t => fText t
  | .array vs => fun r x => ∃ s xs, At table r (.vec s) ∧ x = .vec xs ∧ fValues table vs s xs
  | .map kvs => fun r x => ∃ s xs, At table r (.vec s) ∧ x = .vec xs ∧ fPairs table kvs s xs

theorem fValue_eq (table : List Comp) (v : Value) :
    fValue table v = fCase table (tag v) (content table v) := by
  cases v <;> simp [fValue, tag, content]

theorem tag_inj {v w : Value} (h : nameHash (tag v) = nameHash (tag w)) : tag v = tag w := by
  cases v <;> cases w <;> first | rfl | exact absurd h (by simp only [tag]; decide +kernel)

mutual
theorem value_unique {table : List Comp} (ht : ∀ e ∈ table, CompOk table e) : ∀ (a b : Value) (r : Int)
    (v : Val), fValue table a r v → fValue table b r v → a = b
  | a, b, r, v, h, h' => by
    rw [fValue_eq] at h h'
    obtain ⟨hn, s, x, hx, hx'⟩ := fcase_unique h h'
    have hn := tag_inj hn
    match a, b with
    | .nat n, .nat m =>
      simp only [content, fNat] at hx hx'
      have := hx.2
      rw [hx'.2] at this
      simp only [Val.nat.injEq] at this
      rw [this]
    | .int i, .int j =>
      simp only [content, fInt] at hx hx'
      obtain ⟨bs, _, rfl, hi⟩ := hx
      obtain ⟨cs, _, he, hj⟩ := hx'
      simp only [Val.int.injEq] at he
      subst he
      rw [signed_unique hi hj]
    | .blob a, .blob b => rw [blob_unique hx hx']
    | .text a, .text b =>
      simp only [content, fText] at hx hx'
      have := hx.2
      rw [hx'.2] at this
      simp only [Val.text.injEq] at this
      rw [this]
    | .array vs, .array ws =>
      obtain ⟨s, xs, h1, h2⟩ := vec_parts hx hx'
      rw [values_unique ht vs ws s xs h1 h2]
    | .map vs, .map ws =>
      obtain ⟨s, xs, h1, h2⟩ := vec_parts hx hx'
      rw [pairs_unique ht vs ws s xs h1 h2]
    | .nat _, .int _ | .nat _, .blob _ | .nat _, .text _ | .nat _, .array _ | .nat _, .map _
    | .int _, .nat _ | .int _, .blob _ | .int _, .text _ | .int _, .array _ | .int _, .map _
    | .blob _, .nat _ | .blob _, .int _ | .blob _, .text _ | .blob _, .array _ | .blob _, .map _
    | .text _, .nat _ | .text _, .int _ | .text _, .blob _ | .text _, .array _ | .text _, .map _
    | .array _, .nat _ | .array _, .int _ | .array _, .blob _ | .array _, .text _ | .array _, .map _
    | .map _, .nat _ | .map _, .int _ | .map _, .blob _ | .map _, .text _ | .map _, .array _ =>
      exact absurd hn (by simp [tag])
theorem values_unique {table : List Comp} (ht : ∀ e ∈ table, CompOk table e) :
    ∀ (as bs : List Value) (s : Int) (xs : Vals), fValues table as s xs → fValues table bs s xs →
    as = bs
  | [], [], _, _, _, _ => rfl
  | [], b :: bs, s, xs, h, h' => by
    simp only [fValues] at h h'
    subst h
    obtain ⟨x, more, he, _⟩ := h'
    cases he
  | a :: as, [], s, xs, h, h' => by
    simp only [fValues] at h h'
    subst h'
    obtain ⟨x, more, he, _⟩ := h
    cases he
  | a :: as, b :: bs, s, xs, h, h' => by
    simp only [fValues] at h h'
    obtain ⟨x, more, rfl, h1, h2⟩ := h
    obtain ⟨x', more', he, h1', h2'⟩ := h'
    simp only [Vals.cons.injEq] at he
    obtain ⟨rfl, rfl⟩ := he
    rw [value_unique ht a b s x h1 h1', values_unique ht as bs s more h2 h2']
theorem pairs_unique {table : List Comp} (ht : ∀ e ∈ table, CompOk table e) :
    ∀ (as bs : List (Text × Value)) (s : Int) (xs : Vals), fPairs table as s xs →
    fPairs table bs s xs → as = bs
  | [], [], _, _, _, _ => rfl
  | [], (k, b) :: bs, s, xs, h, h' => by
    simp only [fPairs] at h h'
    subst h
    obtain ⟨x, more, he, _⟩ := h'
    cases he
  | (k, a) :: as, [], s, xs, h, h' => by
    simp only [fPairs] at h h'
    subst h'
    obtain ⟨x, more, he, _⟩ := h
    cases he
  | (k, a) :: as, (l, b) :: bs, s, xs, h, h' => by
    simp only [fPairs] at h h'
    obtain ⟨x, more, rfl, hk, h1, h2⟩ := h
    obtain ⟨x', more', he, hl, h1', h2'⟩ := h'
    simp only [Vals.cons.injEq] at he
    obtain ⟨rfl, rfl⟩ := he
    obtain ⟨_, y, hy, hy'⟩ := field_unique ht hk hl
    have hkl := hy.2
    rw [hy'.2] at hkl
    simp only [Val.text.injEq] at hkl
    obtain ⟨s', z, hz, hz'⟩ := field_unique ht h1 h1'
    rw [value_unique ht a b s' z hz hz', hkl, pairs_unique ht as bs s more h2 h2']
end

theorem nat_unique {n m : Nat} {r : Int} {v : Val} (h : fNat n r v) (h' : fNat m r v) : n = m := by
  have := h.2
  rw [h'.2] at this
  simp only [Val.nat.injEq] at this
  exact this.symm

theorem block_unique {table : List Comp} (ht : ∀ e ∈ table, CompOk table e) (a b : Nat × Value) (s : Int)
    (x : Val) (h : fBlock table a s x) (h' : fBlock table b s x) : a = b := by
  obtain ⟨_, _, h1, h1'⟩ := field_unique ht h.1 h'.1
  obtain ⟨_, _, h2, h2'⟩ := field_unique ht h.2 h'.2
  exact Prod.ext (nat_unique h1 h1') (value_unique ht _ _ _ _ h2 h2')

/-- A client finds one result in a message. -/
theorem finds_unique {bs : Bytes} {a b : Nat × List (Nat × Value)} (h : FindsBlocks bs a)
    (h' : FindsBlocks bs b) : a = b := by
  obtain ⟨table, r, v, hs, hr⟩ := h
  obtain ⟨table', r', v', hs', hr'⟩ := h'
  obtain ⟨rfl, rfl, rfl⟩ := sends_unique hs hs'
  have ht := hs.1
  obtain ⟨_, _, h1, h1'⟩ := field_unique ht hr.1 hr'.1
  obtain ⟨_, _, h2, h2'⟩ := field_unique ht hr.2.1 hr'.2.1
  exact Prod.ext (nat_unique h1 h1') (vec_unique (block_unique ht) h2 h2')

/-! ## What is written is found -/

theorem pointwise_get {A B : Type} {rel : A → B → Prop} : ∀ {as : List A} {bs : List B} {i : Nat}
    {a : A}, Pointwise rel as bs → as[i]? = some a → ∃ b, bs[i]? = some b ∧ rel a b
  | [], _, _, _, _, h => by simp at h
  | a :: as, bs, 0, c, h, hi => by
    obtain ⟨b, bs, rfl, hr, _⟩ := h
    simp only [List.getElem?_cons_zero, Option.some.injEq] at hi
    subst hi
    exact ⟨b, rfl, hr⟩
  | a :: as, bs, i + 1, c, h, hi => by
    obtain ⟨b, bs, rfl, _, h⟩ := h
    simp only [List.getElem?_cons_succ] at hi ⊢
    exact pointwise_get h hi

/-- Values in the order of the fields. -/
theorem typedAll_of {table : List Comp} {is : Name → Int → Prop} : ∀ {fs : List (Nat × Name)}
    {l : List (Nat × Int)} {vs : List Val},
    Pointwise (fun f g => f.1 = g.1 ∧ is f.2 g.2) fs l →
    Pointwise (fun (f : Nat × Name) v => ∀ s, is f.2 s → Typed table v s) fs vs →
    TypedAll table (Vals.ofList vs) l
  | [], l, vs, h, hv => by
    simp only [Pointwise] at h hv
    subst h
    subst hv
    simp [Vals.ofList, TypedAll]
  | f :: fs, l, vs, h, hv => by
    obtain ⟨g, l, rfl, hg, h⟩ := h
    obtain ⟨v, vs, rfl, hv', hv⟩ := hv
    simp only [Vals.ofList, TypedAll]
    exact ⟨g, l, rfl, hv' _ hg.2, typedAll_of h hv⟩

theorem slebInt_continued (i : Int) : Continued (slebInt i) ∧ Signed (slebInt i) i := by
  generalize hn : i.natAbs = n
  induction n using Nat.strongRecOn generalizing i with
  | ind n ih =>
    unfold slebInt
    split
    · rename_i h
      have hb : (UInt8.ofNat (i % 128).toNat).toNat = (i % 128).toNat := by
        rw [UInt8.toNat_ofNat']; omega
      simp only [Continued, Signed, hb]
      omega
    · rename_i h
      have hb : (UInt8.ofNat (128 + (i % 128).toNat)).toNat = 128 + (i % 128).toNat := by
        rw [UInt8.toNat_ofNat']; omega
      obtain ⟨h1, h2⟩ := ih (i / 128).natAbs (by omega) (i / 128) rfl
      cases hs : slebInt (i / 128) with
      | nil => rw [hs] at h1; exact absurd h1 (by simp [Continued])
      | cons c cs =>
        rw [hs] at h1 h2
        simp only [Continued, Signed, hb]
        exact ⟨⟨by omega, h1⟩, by omega, i / 128, h2, by omega⟩

section Writing
variable {table : List Comp} {is : Name → Int → Prop}

theorem value_case (ha : ∀ n r, is n r → n.decl.At table is r) {r : Int} (hr : is .value r)
    {name : String} {n : Name} (hi : (named casesValue)[(named casesValue).findIdx
      (fun c => c.1 == label name)]? = some (label name, n)) {x : Val} {w : Int → Val → Prop}
    (hw : ∀ s, is n s → Typed table x s ∧ w s x) :
    Typed table (valueCase name x) r ∧ fCase table name w r (valueCase name x) := by
  obtain ⟨l, h0, hl, hp⟩ := ha _ _ hr
  obtain ⟨g, hg, h1, h2⟩ := pointwise_get hp hi
  obtain ⟨ht, hx⟩ := hw _ h2
  simp only [valueCase, Typed]
  refine ⟨⟨l, g, ⟨h0, hl⟩, hg, ht⟩, l, _, g.2, x, ⟨h0, hl⟩, rfl, ?_, hx⟩
  rw [hg, ← label_eq]
  simp only at h1
  rw [h1]

theorem typedEach_map {A : Type} {f : A → Val} {s : Int} : ∀ (l : List A),
    (∀ a ∈ l, Typed table (f a) s) → TypedEach table (Vals.ofList (l.map f)) s
  | [], _ => by simp [Vals.ofList, TypedEach]
  | a :: l, h => by
    simp only [List.map_cons, Vals.ofList, TypedEach]
    exact ⟨h a List.mem_cons_self, typedEach_map l (fun b hb => h b (List.mem_cons_of_mem _ hb))⟩

theorem vec_put {A : Type} (ha : ∀ n r, is n r → n.decl.At table is r) {n m : Name}
    (hn : n.decl = .vec m) {r : Int} (hr : is n r) {f : A → Val} {w : Find A}
    (hw : ∀ a s, is m s → Typed table (f a) s ∧ w a s (f a)) (l : List A) :
    Typed table (.vec (Vals.ofList (l.map f))) r ∧
      fVec table w l r (.vec (Vals.ofList (l.map f))) := by
  have := ha _ _ hr
  rw [hn] at this
  obtain ⟨s, h0, hs, hm⟩ := this
  refine ⟨?_, s, l.map f, ⟨h0, hs⟩, rfl, by simp, ?_⟩
  · simp only [Typed]
    exact ⟨s, ⟨h0, hs⟩, typedEach_map l (fun a _ => (hw a s hm).1)⟩
  · intro p hp
    obtain ⟨i, hi, rfl⟩ := List.mem_iff_getElem.mp hp
    rw [List.getElem_zip]
    simp only [List.getElem_map]
    exact (hw _ s hm).2

theorem blob_put (ha : ∀ n r, is n r → n.decl.At table is r) {r : Int} (hr : is .blob r) (b : Bytes) :
    Typed table (putBlob b) r ∧ fBlob table b r (putBlob b) := by
  refine vec_put ha (n := .blob) (m := .nat8) rfl hr (fun a s hs => ?_) b
  have : s = -5 := ha _ _ hs
  subst this
  refine ⟨?_, rfl, rfl⟩
  simp only [Typed]
  exact ⟨.nat8, rfl, rfl⟩

theorem field_put {l : List (Nat × Int)} {r : Int} (hp : At table r (.record l)) {xs : List Val}
    {i lb : Nat} {s : Int} (hl : l[i]? = some (lb, s)) {x : Val} (hx : xs[i]? = some x)
    {w : Int → Val → Prop} (hw : w s x) : fField table lb w r (.record (Vals.ofList xs)) :=
  ⟨l, xs, i, s, x, hp, rfl, hl, hx, hw⟩

theorem nat_put (ha : ∀ n r, is n r → n.decl.At table is r) {s : Int} (hs : is .nat s) (n : Nat) :
    Typed table (.nat n) s ∧ fNat n s (.nat n) := by
  have : s = -3 := ha _ _ hs
  subst this
  exact ⟨by simp [Typed], rfl, rfl⟩

theorem text_put (ha : ∀ n r, is n r → n.decl.At table is r) {s : Int} (hs : is .text s) (t : Text) :
    Typed table (.text t) s ∧ fText t s (.text t) := by
  have : s = -15 := ha _ _ hs
  subst this
  exact ⟨by simp [Typed], rfl, rfl⟩

mutual
theorem value_put (ha : ∀ n r, is n r → n.decl.At table is r) : ∀ (v : Value) (r : Int),
    is .value r → Typed table (putValue v) r ∧ fValue table v r (putValue v)
  | .nat n, r, hr => by
    simp only [putValue, fValue]
    exact value_case ha hr (n := .nat) (by decide +kernel) (fun s hs => nat_put ha hs n)
  | .int i, r, hr => by
    simp only [putValue, fValue]
    refine value_case ha hr (n := .int) (by decide +kernel) (fun s hs => ?_)
    have : s = -4 := ha _ _ hs
    subst this
    refine ⟨?_, slebInt i, rfl, rfl, (slebInt_continued i).2⟩
    simp only [Typed]
    exact ⟨trivial, (slebInt_continued i).1⟩
  | .blob b, r, hr => by
    simp only [putValue, fValue]
    exact value_case ha hr (n := .blob) (by decide +kernel) (fun s hs => blob_put ha hs b)
  | .text t, r, hr => by
    simp only [putValue, fValue]
    exact value_case ha hr (n := .text) (by decide +kernel) (fun s hs => text_put ha hs t)
  | .array vs, r, hr => by
    simp only [putValue, fValue]
    refine value_case ha hr (n := .values) (by decide +kernel) (fun s hs => ?_)
    obtain ⟨q, h0, hq, hv⟩ := ha _ _ hs
    obtain ⟨h1, h2⟩ := values_put ha vs q hv
    refine ⟨?_, q, putValues vs, ⟨h0, hq⟩, rfl, h2⟩
    simp only [Typed]
    exact ⟨q, ⟨h0, hq⟩, h1⟩
  | .map kvs, r, hr => by
    simp only [putValue, fValue]
    refine value_case ha hr (n := .pairs) (by decide +kernel) (fun s hs => ?_)
    obtain ⟨q, h0, hq, hv⟩ := ha _ _ hs
    obtain ⟨h1, h2⟩ := pairs_put ha kvs q hv
    refine ⟨?_, q, putPairs kvs, ⟨h0, hq⟩, rfl, h2⟩
    simp only [Typed]
    exact ⟨q, ⟨h0, hq⟩, h1⟩
theorem values_put (ha : ∀ n r, is n r → n.decl.At table is r) : ∀ (vs : List Value) (s : Int),
    is .value s → TypedEach table (putValues vs) s ∧ fValues table vs s (putValues vs)
  | [], s, hs => by simp [putValues, TypedEach, fValues]
  | v :: vs, s, hs => by
    obtain ⟨h1, h2⟩ := value_put ha v s hs
    obtain ⟨h3, h4⟩ := values_put ha vs s hs
    simp only [putValues, TypedEach, fValues]
    exact ⟨⟨h1, h3⟩, _, _, rfl, h2, h4⟩
theorem pairs_put (ha : ∀ n r, is n r → n.decl.At table is r) : ∀ (kvs : List (Text × Value))
    (s : Int), is .pair s → TypedEach table (putPairs kvs) s ∧ fPairs table kvs s (putPairs kvs)
  | [], s, hs => by simp [putPairs, TypedEach, fPairs]
  | (k, v) :: kvs, s, hs => by
    obtain ⟨h3, h4⟩ := pairs_put ha kvs s hs
    obtain ⟨l, h0, hl, hp⟩ := ha _ _ hs
    obtain ⟨⟨la, a⟩, ga, h5, h6⟩ := pointwise_get (i := 0) hp rfl
    obtain ⟨⟨lb, b⟩, gb, h7, h8⟩ := pointwise_get (i := 1) hp rfl
    obtain ⟨h1, h2⟩ := value_put ha v b h8
    obtain ⟨h9, h10⟩ := text_put ha h6 k
    simp only at h5 h7
    subst h5
    subst h7
    simp only [putPairs, TypedEach, fPairs]
    refine ⟨⟨?_, h3⟩, _, _, rfl, ?_, ?_, h4⟩
    · simp only [Typed]
      refine ⟨l, ⟨h0, hl⟩, typedAll_of (vs := [.text k, putValue v]) hp ?_⟩
      refine ⟨_, _, rfl, fun s hs => (text_put ha hs k).1, _, _, rfl,
        fun s hs => (value_put ha v s hs).1, rfl⟩
    · exact field_put (xs := [.text k, putValue v]) ⟨h0, hl⟩ ga rfl h10
    · exact field_put (xs := [.text k, putValue v]) ⟨h0, hl⟩ gb rfl h2
end

/-- A record written with its fields by increasing label. -/
theorem rec_put (ha : ∀ n r, is n r → n.decl.At table is r) {n : Name} {fs : List (Nat × Name)}
    (hn : n.decl = .record fs) {r : Int} (hr : is n r) {xs : List (Nat × Val)}
    (hx : Pointwise (fun (f : Nat × Name) x => ∀ s, is f.2 s → Typed table x s) fs
      (xs.map Prod.snd)) :
    Typed table (.record (Vals.ofList (xs.map Prod.snd))) r ∧
    ∀ (i lb : Nat) (m : Name) (x : Val) (w : Int → Val → Prop), fs[i]? = some (lb, m) →
      (xs.map Prod.snd)[i]? = some x → (∀ s, is m s → w s x) →
      fField table lb w r (.record (Vals.ofList (xs.map Prod.snd))) := by
  have := ha _ _ hr
  rw [hn] at this
  obtain ⟨l, h0, hl, hp⟩ := this
  refine ⟨?_, fun i lb m x w hi hxi hw => ?_⟩
  · simp only [Typed]
    exact ⟨l, ⟨h0, hl⟩, typedAll_of hp hx⟩
  · obtain ⟨⟨lb', s⟩, hg, h1, h2⟩ := pointwise_get hp hi
    simp only at h1 h2
    subst h1
    exact field_put ⟨h0, hl⟩ hg hxi (hw s h2)

theorem named_block : named [("id", Name.nat), ("block", .value)] =
    [(nameHash "id", .nat), (nameHash "block", .value)] := by decide +kernel

theorem recOf_block (a b : Val) : recOf [("id", a), ("block", b)] =
    .record (Vals.ofList ([(nameHash "id", a), (nameHash "block", b)].map Prod.snd)) := by
  have h1 : label "id" < label "block" := by decide +kernel
  simp only [recOf, List.map_cons, List.map_nil, sortFields, insertField]
  rw [if_pos h1]
  simp

theorem block_put (ha : ∀ n r, is n r → n.decl.At table is r) (b : Nat × Value) (r : Int)
    (hr : is .block r) :
    Typed table (recOf [("id", .nat b.1), ("block", putValue b.2)]) r ∧
      fBlock table b r (recOf [("id", .nat b.1), ("block", putValue b.2)]) := by
  rw [recOf_block]
  have hd : Name.block.decl = .record [(nameHash "id", .nat), (nameHash "block", .value)] := by
    simp only [Name.decl, named_block]
  obtain ⟨h1, h2⟩ := rec_put ha hd hr
    (xs := [(nameHash "id", .nat b.1), (nameHash "block", putValue b.2)])
    ⟨_, _, rfl, fun s hs => (nat_put ha hs b.1).1, _, _, rfl, fun s hs => (value_put ha b.2 s hs).1,
      rfl⟩
  exact ⟨h1, h2 0 _ .nat _ _ rfl rfl (fun s hs => (nat_put ha hs b.1).2),
    h2 1 _ .value _ _ rfl rfl (fun s hs => (value_put ha b.2 s hs).2)⟩

end Writing

theorem named_result : named [("log_length", Name.nat), ("blocks", .blocks),
    ("archived_blocks", .archives)] = [(nameHash "log_length", .nat), (nameHash "blocks", .blocks), (nameHash "archived_blocks", .archives)] := by decide +kernel

theorem recOf_result (a b c : Val) : recOf [("log_length", a), ("blocks", b),
    ("archived_blocks", c)] = .record (Vals.ofList ([(nameHash "log_length", a), (nameHash "blocks", b), (nameHash "archived_blocks", c)].map Prod.snd)) := by
  have h0 : label "log_length" < label "blocks" := by decide +kernel
  have h1 : label "log_length" < label "archived_blocks" := by decide +kernel
  have h2 : label "blocks" < label "archived_blocks" := by decide +kernel
  simp only [recOf, List.map_cons, List.map_nil, sortFields, insertField, h0, h1, h2, if_true]

/-- What is written is typed and found. -/
theorem result_put {table : List Comp} {r : Int} (h : Stands table .result r)
    (a : Nat × List (Nat × Value)) : Typed table (putBlocks a) r ∧ fResult table a r (putBlocks a) := by
  obtain ⟨is, hr, ha⟩ := h
  have hd : Name.result.decl = .record [(nameHash "log_length", .nat),
      (nameHash "blocks", .blocks), (nameHash "archived_blocks", .archives)] := by
    simp only [Name.decl, named_result]
  have hb : ∀ s, is .blocks s →
      Typed table (putVec (fun b => recOf [("id", .nat b.1), ("block", putValue b.2)]) a.2) s ∧
      fVec table (fBlock table) a.2 s
        (putVec (fun b => recOf [("id", .nat b.1), ("block", putValue b.2)]) a.2) :=
    fun s hs => vec_put ha (n := .blocks) (m := .block) rfl hs
      (fun b s hs => block_put ha b s hs) a.2
  have hc : ∀ s, is .archives s → Typed table (.vec .nil) s ∧
      fVec table (fun (_ : Unit) _ _ => True) [] s (.vec .nil) := by
    intro s hs
    obtain ⟨q, h0, hq, _⟩ := ha _ _ hs
    refine ⟨?_, q, [], ⟨h0, hq⟩, rfl, rfl, (fun p hp => by cases hp)⟩
    simp only [Typed, TypedEach]
    exact ⟨q, ⟨h0, hq⟩, trivial⟩
  unfold putBlocks fResult
  rw [recOf_result]
  generalize putVec (fun b : Nat × Value => recOf [("id", .nat b.1), ("block", putValue b.2)]) a.2 = x
    at hb
  generalize nameHash "log_length" = l1 at hd
  generalize nameHash "blocks" = l2 at hd
  generalize nameHash "archived_blocks" = l3 at hd
  obtain ⟨h1, h2⟩ := rec_put ha hd hr (xs := [(l1, .nat a.1), (l2, x), (l3, .vec .nil)])
    ⟨_, _, rfl, fun s hs => (nat_put ha hs a.1).1, _, _, rfl, fun s hs => (hb s hs).1, _, _, rfl,
      fun s hs => (hc s hs).1, rfl⟩
  exact ⟨h1, h2 0 _ .nat _ _ rfl rfl (fun s hs => (nat_put ha hs a.1).2),
    h2 1 _ .blocks _ _ rfl rfl (fun s hs => (hb s hs).2),
    h2 2 _ .archives _ _ rfl rfl (fun s hs => (hc s hs).2)⟩

end CyclesLedger.Candid
