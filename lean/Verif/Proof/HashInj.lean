import Verif.Spec.Digest
import Verif.Proof.Leb
import Verif.Proof.Fields
/-! # Equal hashes come from equal values -/
namespace CyclesLedger

/-! ## Lists of equally long byte strings -/

theorem flatten_inj_len {n : Nat} (hn : 0 < n) {l l' : List Bytes} (hl : ∀ x ∈ l, x.length = n)
    (hl' : ∀ x ∈ l', x.length = n) (h : l.flatten = l'.flatten) : l = l' := by
  induction l generalizing l' with
  | nil =>
    cases l' with
    | nil => rfl
    | cons x t =>
      have := hl' x (by simp)
      simp only [List.flatten_nil, List.flatten_cons] at h
      have := congrArg List.length h
      simp at this
      omega
  | cons x t ih =>
    cases l' with
    | nil =>
      have h1 := hl x (by simp)
      have h2 := congrArg List.length h
      simp only [List.flatten_cons, List.length_append, List.flatten_nil, List.length_nil] at h2
      omega
    | cons y u =>
      have h1 := hl x (by simp)
      have h2 := hl' y (by simp)
      simp only [List.flatten_cons] at h
      obtain ⟨e1, e2⟩ := List.append_inj h (by rw [h1, h2])
      rw [e1, ih (fun z hz => hl z (by simp [hz])) (fun z hz => hl' z (by simp [hz])) e2]

theorem mem_insertSorted {x z : Bytes} {l : List Bytes} :
    z ∈ insertSorted x l ↔ z = x ∨ z ∈ l := by
  induction l with
  | nil => simp [insertSorted]
  | cons y t ih =>
    unfold insertSorted
    split
    · simp only [List.mem_cons, ih]
      constructor
      · rintro (h | h | h)
        · exact Or.inr (Or.inl h)
        · exact Or.inl h
        · exact Or.inr (Or.inr h)
      · rintro (h | h | h)
        · exact Or.inr (Or.inl h)
        · exact Or.inl h
        · exact Or.inr (Or.inr h)
    · simp

theorem mem_isort {z : Bytes} {l : List Bytes} : z ∈ isort l ↔ z ∈ l := by
  induction l with
  | nil => simp [isort]
  | cons y t ih => simp [isort, mem_insertSorted, ih]

/-! ## Types of values -/

/-- The shapes of the values the ledger hashes. `num` is a number as serde and
`ciborium_to_generic_value` write it: `Int` up to 64 bits, `Nat` beyond. -/
inductive Ty where
  | nat | num | blob | text
  | list (t : Ty)
  | record (f : Text → Ty)

inductive HasTy : Ty → Value → Prop
  | nat {n} : HasTy .nat (.nat n)
  | num {n} : HasTy .num (genNat n)
  | blob {b} : HasTy .blob (.blob b)
  | text {t} : HasTy .text (.text t)
  | list {t vs} : (∀ v ∈ vs, HasTy t v) → HasTy (.list t) (.array vs)
  | record {f : Text → Ty} {kvs} : SMap.SortedL kvs → (∀ e ∈ kvs, HasTy (f e.1) e.2) →
      HasTy (.record f) (.map kvs)

variable [Crypto]

theorem hashList_len {vs : List Value} : ∀ x ∈ hashList vs, x.length = 32 := by
  induction vs with
  | nil => intro x h; simp [hashList] at h
  | cons v t ih =>
    intro x h
    simp only [hashList, List.mem_cons] at h
    rcases h with h | h
    · rw [h]; exact v.hash.property
    · exact ih x h

theorem hashMap_len {kvs : List (Text × Value)} : ∀ x ∈ hashMap kvs, x.length = 64 := by
  induction kvs with
  | nil => intro x h; simp [hashMap] at h
  | cons e t ih =>
    obtain ⟨k, v⟩ := e
    intro x h
    simp only [hashMap, List.mem_cons] at h
    rcases h with h | h
    · rw [h, List.length_append, (sha k).property, v.hash.property]
    · exact ih x h

theorem mem_hashMap {kvs : List (Text × Value)} {x : Bytes} :
    x ∈ hashMap kvs ↔ ∃ e ∈ kvs, x = (sha e.1).val ++ e.2.hash.val := by
  induction kvs with
  | nil => simp [hashMap]
  | cons e t ih =>
    obtain ⟨k, v⟩ := e
    simp [hashMap, ih]

theorem hashedList_sub {vs : List Value} {v : Value} (h : v ∈ vs) :
    ∀ x ∈ Spec.hashed v, x ∈ Spec.hashedList vs := by
  induction vs with
  | nil => cases h
  | cons w t ih =>
    intro x hx
    simp only [Spec.hashedList, List.mem_append]
    rcases List.mem_cons.mp h with h | h
    · subst h; exact Or.inl hx
    · exact Or.inr (ih h x hx)

theorem hashedMap_sub {kvs : List (Text × Value)} {e : Text × Value} (h : e ∈ kvs) :
    e.1 ∈ Spec.hashedMap kvs ∧ ∀ x ∈ Spec.hashed e.2, x ∈ Spec.hashedMap kvs := by
  induction kvs with
  | nil => cases h
  | cons w t ih =>
    obtain ⟨k, v⟩ := w
    simp only [Spec.hashedMap, List.mem_cons, List.mem_append]
    rcases List.mem_cons.mp h with h | h
    · subst h
      exact ⟨Or.inl rfl, fun x hx => Or.inr (Or.inl hx)⟩
    · obtain ⟨h1, h2⟩ := ih h
      exact ⟨Or.inr (Or.inr h1), fun x hx => Or.inr (Or.inr (h2 x hx))⟩

theorem Spec.ShaCollision.mono {xs ys xs' ys' : List Bytes} (h : Spec.ShaCollision xs ys)
    (hx : ∀ x ∈ xs, x ∈ xs') (hy : ∀ y ∈ ys, y ∈ ys') : Spec.ShaCollision xs' ys' := by
  obtain ⟨x, hx1, y, hy1, hne, he⟩ := h
  exact ⟨x, hx x hx1, y, hy y hy1, hne, he⟩

/-- Equal digests of listed strings: the strings are equal or there is the collision. -/
theorem sha_eq {xs ys : List Bytes} {x y : Bytes} (hx : x ∈ xs) (hy : y ∈ ys)
    (h : sha x = sha y) : x = y ∨ Spec.ShaCollision xs ys := by
  by_cases he : x = y
  · exact Or.inl he
  · exact Or.inr ⟨x, hx, y, hy, he, h⟩

theorem Value.hash_eq (v : Value) : v.hash = match v with
    | .nat n => sha (leb128 n)
    | .int i => sha (Crypto.intEnc i.toNat)
    | .blob b => sha b
    | .text t => sha t
    | .array vs => sha (hashList vs).flatten
    | .map kvs => sha (isort (hashMap kvs)).flatten := by
  cases v <;> simp [Value.hash]

/-- The string hashed for a number. -/
theorem genNat_hash (n : Nat) : ∃ b, (genNat n).hash = sha b ∧ Spec.hashed (genNat n) = [b] ∧
    ofLeb128 b = n := by
  unfold genNat
  split
  · refine ⟨Crypto.intEnc n, ?_, ?_, Crypto.intEnc_decodes n⟩
    · rw [Value.hash_eq]; simp
    · simp [Spec.hashed]
  · exact ⟨leb128 n, by rw [Value.hash_eq], by simp [Spec.hashed], ofLeb128_leb128 n⟩

theorem hash_inj {T : Ty} {v : Value} (hv : HasTy T v) : ∀ {w : Value}, HasTy T w →
    v.hash = w.hash → v = w ∨ Spec.ShaCollision (Spec.hashed v) (Spec.hashed w) := by
  induction hv with
  | @nat n =>
    intro w hw h
    cases hw with
    | @nat m =>
      rw [Value.hash_eq, Value.hash_eq] at h
      rcases sha_eq (xs := Spec.hashed (.nat n)) (ys := Spec.hashed (.nat m))
        (by simp [Spec.hashed]) (by simp [Spec.hashed]) h with h | h
      · left
        have := congrArg ofLeb128 h
        rw [ofLeb128_leb128, ofLeb128_leb128] at this
        rw [this]
      · exact Or.inr h
  | @num n =>
    intro w hw h
    generalize hT : Ty.num = T at hw
    cases hw with
    | @num m =>
      obtain ⟨b, hb1, hb2, hb3⟩ := genNat_hash n
      obtain ⟨c, hc1, hc2, hc3⟩ := genNat_hash m
      rw [hb1, hc1] at h
      rw [hb2, hc2]
      rcases sha_eq (xs := [b]) (ys := [c]) (by simp) (by simp) h with h | h
      · left
        rw [← hb3, ← hc3, h]
      · exact Or.inr h
    | nat => cases hT
    | blob => cases hT
    | text => cases hT
    | list => cases hT
    | record => cases hT
  | @blob b =>
    intro w hw h
    cases hw with
    | @blob c =>
      rw [Value.hash_eq, Value.hash_eq] at h
      rcases sha_eq (xs := Spec.hashed (.blob b)) (ys := Spec.hashed (.blob c))
        (by simp [Spec.hashed]) (by simp [Spec.hashed]) h with h | h
      · exact Or.inl (by rw [h])
      · exact Or.inr h
  | @text b =>
    intro w hw h
    cases hw with
    | @text c =>
      rw [Value.hash_eq, Value.hash_eq] at h
      rcases sha_eq (xs := Spec.hashed (.text b)) (ys := Spec.hashed (.text c))
        (by simp [Spec.hashed]) (by simp [Spec.hashed]) h with h | h
      · exact Or.inl (by rw [h])
      · exact Or.inr h
  | @list t vs hvs ih =>
    intro w hw h
    cases hw with
    | @list _ ws hws =>
      rw [Value.hash_eq, Value.hash_eq] at h
      rcases sha_eq (xs := Spec.hashed (.array vs)) (ys := Spec.hashed (.array ws))
        (by simp [Spec.hashed]) (by simp [Spec.hashed]) h with h | h
      · have hl := flatten_inj_len (by omega) hashList_len hashList_len h
        have key : ∀ (vs ws : List Value), (∀ v ∈ vs, ∀ {w}, HasTy t w → v.hash = w.hash →
            v = w ∨ Spec.ShaCollision (Spec.hashed v) (Spec.hashed w)) → (∀ w ∈ ws, HasTy t w) →
            hashList vs = hashList ws →
            vs = ws ∨ Spec.ShaCollision (Spec.hashedList vs) (Spec.hashedList ws) := by
          intro vs
          induction vs with
          | nil =>
            intro ws _ _ h
            cases ws with
            | nil => exact Or.inl rfl
            | cons => simp [hashList] at h
          | cons v l ihl =>
            intro ws ih hws h
            cases ws with
            | nil => simp [hashList] at h
            | cons w l' =>
              simp only [hashList, List.cons.injEq] at h
              rcases ih v (by simp) (hws w (by simp)) (Subtype.ext h.1) with h1 | h1
              · rcases ihl l' (fun x hx => ih x (by simp [hx])) (fun x hx => hws x (by simp [hx]))
                  h.2 with h2 | h2
                · exact Or.inl (by rw [h1, h2])
                · exact Or.inr (h2.mono (fun x hx => by simp [Spec.hashedList, hx])
                    (fun x hx => by simp [Spec.hashedList, hx]))
              · exact Or.inr (h1.mono (fun x hx => by simp [Spec.hashedList, hx])
                    (fun x hx => by simp [Spec.hashedList, hx]))
        rcases key vs ws ih hws hl with h1 | h1
        · exact Or.inl (by rw [h1])
        · exact Or.inr (h1.mono (fun x hx => by simp [Spec.hashed, hx])
            (fun x hx => by simp [Spec.hashed, hx]))
      · exact Or.inr h
  | @record f kvs hs hk ih =>
    intro w hw h
    cases hw with
    | @record _ kvs' hs' hk' =>
      rw [Value.hash_eq, Value.hash_eq] at h
      rcases sha_eq (xs := Spec.hashed (.map kvs)) (ys := Spec.hashed (.map kvs'))
        (by simp [Spec.hashed]) (by simp [Spec.hashed]) h with h | h
      · have hl := flatten_inj_len (n := 64) (by omega)
          (fun x hx => hashMap_len x (mem_isort.mp hx))
          (fun x hx => hashMap_len x (mem_isort.mp hx)) h
        have hmem : ∀ x, x ∈ hashMap kvs ↔ x ∈ hashMap kvs' := by
          intro x
          rw [← mem_isort (l := hashMap kvs), hl, mem_isort]
        have hsplit : ∀ (e e' : Text × Value),
            (sha e.1).val ++ e.2.hash.val = (sha e'.1).val ++ e'.2.hash.val →
            sha e.1 = sha e'.1 ∧ e.2.hash = e'.2.hash := by
          intro e e' he
          obtain ⟨h1, h2⟩ := List.append_inj he
            (by rw [(sha e.1).property, (sha e'.1).property])
          exact ⟨Subtype.ext h1, Subtype.ext h2⟩
        have hpair : ∀ e ∈ kvs, ∀ e' ∈ kvs',
            (sha e.1).val ++ e.2.hash.val = (sha e'.1).val ++ e'.2.hash.val →
            e = e' ∨ Spec.ShaCollision (Spec.hashed (.map kvs)) (Spec.hashed (.map kvs')) := by
          intro e he e' he' hx
          obtain ⟨hx1, hx2⟩ := hsplit e e' hx
          obtain ⟨hm1, hm2⟩ := hashedMap_sub he
          obtain ⟨hm1', hm2'⟩ := hashedMap_sub he'
          rcases sha_eq (xs := Spec.hashed (.map kvs)) (ys := Spec.hashed (.map kvs'))
            (by simp [Spec.hashed, hm1]) (by simp [Spec.hashed, hm1']) hx1 with h1 | h1
          · rcases ih e he (by rw [h1]; exact hk' e' he') hx2 with h2 | h2
            · exact Or.inl (Prod.ext h1 h2)
            · exact Or.inr (h2.mono (fun x hx => by simp [Spec.hashed, hm2 x hx])
                (fun x hx => by simp [Spec.hashed, hm2' x hx]))
          · exact Or.inr h1
        by_cases hcol : Spec.ShaCollision (Spec.hashed (.map kvs)) (Spec.hashed (.map kvs'))
        · exact Or.inr hcol
        · left
          have hsub : ∀ e, e ∈ kvs ↔ e ∈ kvs' := by
            intro e
            constructor
            · intro he
              obtain ⟨e', he', hx⟩ := mem_hashMap.mp ((hmem _).mp (mem_hashMap.mpr ⟨e, he, rfl⟩))
              rcases hpair e he e' he' hx with h1 | h1
              · rw [h1]; exact he'
              · exact absurd h1 hcol
            · intro he
              obtain ⟨e', he', hx⟩ := mem_hashMap.mp ((hmem _).mpr (mem_hashMap.mpr ⟨e, he, rfl⟩))
              rcases hpair e' he' e he hx.symm with h1 | h1
              · rw [← h1]; exact he'
              · exact absurd h1 hcol
          have : kvs = kvs' := by
            refine SMap.getL_ext hs hs' (fun k => ?_)
            cases hg : SMap.getL kvs' k with
            | some v =>
              rw [SMap.getL_eq_some_iff hs'] at hg
              rw [SMap.getL_eq_some_iff hs]
              exact (hsub _).mpr hg
            | none =>
              cases hg' : SMap.getL kvs k with
              | none => rfl
              | some v =>
                rw [SMap.getL_eq_some_iff hs] at hg'
                have := (hsub _).mp hg'
                rw [← SMap.getL_eq_some_iff hs', hg] at this
                cases this
          rw [this]
      · exact Or.inr h

/-! ## Transactions and blocks -/

omit [Crypto] in
theorem record_insert {f : Text → Ty} {m : SMap Text Value} {k : Text} {v : Value}
    (h : ∀ e ∈ m.entries, HasTy (f e.1) e.2) (hv : HasTy (f k) v) :
    ∀ e ∈ (m.insert k v).entries, HasTy (f e.1) e.2 := by
  intro e he
  rcases SMap.mem_insertL he with h1 | h1
  · subst h1; exact hv
  · exact h e h1

omit [Crypto] in
theorem record_insertOpt {A : Type} {f : Text → Ty} {m : SMap Text Value} {k : Text} {o : Option A}
    {g : A → Value} (h : ∀ e ∈ m.entries, HasTy (f e.1) e.2) (hv : ∀ a, HasTy (f k) (g a)) :
    ∀ e ∈ (m.insertOpt k o g).entries, HasTy (f e.1) e.2 := by
  cases o with
  | none => exact h
  | some a => exact record_insert h (hv a)

/-- The type of each field of a transaction, numbers being of type `n`. -/
def txField (n : Ty) (k : Text) : Ty :=
  if k = kMemo then .blob
  else if k = kOp then .text
  else if k = kFrom ∨ k = kTo ∨ k = kSpender then .list .blob
  else n

omit [Crypto] in
theorem hasTy_account (a : Account) : HasTy (.list .blob) (accountToValue a) := by
  unfold accountToValue
  refine .list ?_
  intro v hv
  obtain ⟨b, _, rfl⟩ := List.mem_map.mp hv
  exact .blob

omit [Crypto] in
theorem hasTy_flat {n : Ty} {num : Nat → Value} (hn : ∀ x, HasTy n (num x)) (f : Flat) :
    HasTy (.record (txField n)) (.map (f.fields num).entries) := by
  refine .record (f.fields num).sorted ?_
  unfold Flat.fields
  refine record_insertOpt (record_insertOpt (record_insertOpt (record_insert (record_insertOpt
    (record_insertOpt (record_insertOpt (record_insert (record_insertOpt (record_insertOpt ?_
    ?_) ?_) ?_) ?_) ?_) ?_) ?_) ?_) ?_) ?_
  · intro e he; cases he
  · exact fun x => hn x
  · exact fun b => .blob
  · exact .text
  · exact fun a => hasTy_account a
  · exact fun a => hasTy_account a
  · exact fun a => hasTy_account a
  · exact hn _
  · exact fun x => hn x
  · exact fun x => hn x
  · exact fun x => hn x

theorem tx_hash_inj {t t' : Transaction} (h : t.flatten.value.hash = t'.flatten.value.hash) :
    t = t' ∨ Spec.ShaCollision (Spec.hashed t.flatten.value) (Spec.hashed t'.flatten.value) := by
  have h1 : HasTy (.record (txField .num)) t.flatten.value := by
    rw [Flat.value_eq]; exact hasTy_flat (fun x => .num) _
  have h2 : HasTy (.record (txField .num)) t'.flatten.value := by
    rw [Flat.value_eq]; exact hasTy_flat (fun x => .num) _
  rcases hash_inj h1 h2 h with h | h
  · left
    rw [Flat.value_eq, Flat.value_eq] at h
    injection h with h
    exact flatten_inj (Flat.fields_inj genNat_inj (entries_inj h))
  · exact Or.inr h

/-- The type of each field of a block. -/
def blockField (k : Text) : Ty :=
  if k = kTx then .record (txField .nat)
  else if k = kPhash then .blob
  else .nat

omit [Crypto] in
theorem hasTy_block (b : Block) : HasTy (.record blockField) b.toValue := by
  rw [b.toValue_eq]
  refine .record b.fields.sorted ?_
  unfold Block.fields
  refine record_insertOpt (record_insertOpt (record_insert (record_insert ?_ ?_) ?_) ?_) ?_
  · intro e he; cases he
  · rw [b.transaction.toValue_eq]
    exact hasTy_flat (fun x => .nat) _
  · exact .nat
  · exact fun h => .blob
  · exact fun n => .nat

theorem block_hash_inj {b b' : Block} (h : b.hash = b'.hash) :
    b = b' ∨ Spec.ShaCollision (Spec.hashed b.toValue) (Spec.hashed b'.toValue) := by
  rcases hash_inj (hasTy_block b) (hasTy_block b') h with h | h
  · exact Or.inl (Block.toValue_inj h)
  · exact Or.inr h

/-! ## Hash trees -/

/-- `t'` is `t` with some subtrees replaced by their digests. -/
inductive Prunes : HashTree → HashTree → Prop
  | refl {t} : Prunes t t
  | pruned {t} : Prunes (.pruned t.digest) t
  | fork {l l' r r'} : Prunes l' l → Prunes r' r → Prunes (.fork l' r') (.fork l r)
  | labeled {k t t'} : Prunes t' t → Prunes (.labeled k t') (.labeled k t)

/-- No part is pruned. -/
inductive Full : HashTree → Prop
  | empty : Full .empty
  | fork {l r} : Full l → Full r → Full (.fork l r)
  | labeled {k t} : Full t → Full (.labeled k t)
  | leaf {b} : Full (.leaf b)

omit [Crypto] in
theorem append_right_inj_len {a a' b b' : Bytes} (h : a ++ b = a' ++ b')
    (hb : b.length = b'.length) : a = a' ∧ b = b' := by
  have := congrArg List.length h
  simp only [List.length_append] at this
  exact List.append_inj h (by omega)

/-- A tree with the same digest as a full tree is a pruning of it, unless SHA-256 collides. -/
theorem prunes_of_digest {t : HashTree} (ht : Full t) : ∀ {t' : HashTree}, t'.digest = t.digest →
    Prunes t' t ∨ Spec.ShaCollision (Spec.treeHashed t') (Spec.treeHashed t) := by
  induction ht with
  | empty =>
    intro t' h
    cases t' with
    | pruned g => exact Or.inl (by have hg : g = HashTree.digest _ := h; rw [hg]; exact .pruned)
    | empty => exact Or.inl .refl
    | fork l r =>
      simp only [HashTree.digest] at h
      refine Or.inr ⟨_, by simp [Spec.treeHashed], _, by simp [Spec.treeHashed], ?_, h⟩
      intro e; simp [sepFork, sepEmpty] at e
    | labeled k u =>
      simp only [HashTree.digest] at h
      refine Or.inr ⟨_, by simp [Spec.treeHashed], _, by simp [Spec.treeHashed], ?_, h⟩
      intro e; simp [sepLabeled, sepEmpty] at e
    | leaf b =>
      simp only [HashTree.digest] at h
      refine Or.inr ⟨_, by simp [Spec.treeHashed], _, by simp [Spec.treeHashed], ?_, h⟩
      intro e; simp [sepLeaf, sepEmpty] at e
  | @leaf b =>
    intro t' h
    cases t' with
    | pruned g => exact Or.inl (by have hg : g = HashTree.digest _ := h; rw [hg]; exact .pruned)
    | empty =>
      simp only [HashTree.digest] at h
      refine Or.inr ⟨_, by simp [Spec.treeHashed], _, by simp [Spec.treeHashed], ?_, h⟩
      intro e; simp [sepLeaf, sepEmpty] at e
    | fork l r =>
      simp only [HashTree.digest] at h
      refine Or.inr ⟨_, by simp [Spec.treeHashed], _, by simp [Spec.treeHashed], ?_, h⟩
      intro e; simp [sepFork, sepLeaf] at e
    | labeled k u =>
      simp only [HashTree.digest] at h
      refine Or.inr ⟨_, by simp [Spec.treeHashed], _, by simp [Spec.treeHashed], ?_, h⟩
      intro e; simp [sepLabeled, sepLeaf] at e
    | leaf c =>
      simp only [HashTree.digest] at h
      rcases sha_eq (xs := Spec.treeHashed (.leaf c)) (ys := Spec.treeHashed (.leaf b))
        (by simp [Spec.treeHashed]) (by simp [Spec.treeHashed]) h with h | h
      · rw [List.append_cancel_left h]; exact Or.inl .refl
      · exact Or.inr h
  | @labeled k u hu ih =>
    intro t' h
    cases t' with
    | pruned g => exact Or.inl (by have hg : g = HashTree.digest _ := h; rw [hg]; exact .pruned)
    | empty =>
      simp only [HashTree.digest] at h
      refine Or.inr ⟨_, by simp [Spec.treeHashed], _, by simp [Spec.treeHashed], ?_, h⟩
      intro e; simp [sepLabeled, sepEmpty] at e
    | fork l r =>
      simp only [HashTree.digest] at h
      refine Or.inr ⟨_, by simp [Spec.treeHashed], _, by simp [Spec.treeHashed], ?_, h⟩
      intro e; simp [sepFork, sepLabeled] at e
    | leaf c =>
      simp only [HashTree.digest] at h
      refine Or.inr ⟨_, by simp [Spec.treeHashed], _, by simp [Spec.treeHashed], ?_, h⟩
      intro e; simp [sepLabeled, sepLeaf] at e
    | labeled k' u' =>
      simp only [HashTree.digest] at h
      rcases sha_eq (xs := Spec.treeHashed (.labeled k' u')) (ys := Spec.treeHashed (.labeled k u))
        (by simp [Spec.treeHashed]) (by simp [Spec.treeHashed]) h with h | h
      · obtain ⟨h1, h2⟩ := append_right_inj_len h (by rw [u'.digest.property, u.digest.property])
        have hk := List.append_cancel_left h1
        rcases ih (Subtype.ext h2) with h3 | h3
        · rw [hk]; exact Or.inl (.labeled h3)
        · exact Or.inr (h3.mono (fun x hx => by simp [Spec.treeHashed, hx])
            (fun x hx => by simp [Spec.treeHashed, hx]))
      · exact Or.inr h
  | @fork l r hl hr ihl ihr =>
    intro t' h
    cases t' with
    | pruned g => exact Or.inl (by have hg : g = HashTree.digest _ := h; rw [hg]; exact .pruned)
    | empty =>
      simp only [HashTree.digest] at h
      refine Or.inr ⟨_, by simp [Spec.treeHashed], _, by simp [Spec.treeHashed], ?_, h⟩
      intro e; simp [sepFork, sepEmpty] at e
    | labeled k' u' =>
      simp only [HashTree.digest] at h
      refine Or.inr ⟨_, by simp [Spec.treeHashed], _, by simp [Spec.treeHashed], ?_, h⟩
      intro e; simp [sepFork, sepLabeled] at e
    | leaf c =>
      simp only [HashTree.digest] at h
      refine Or.inr ⟨_, by simp [Spec.treeHashed], _, by simp [Spec.treeHashed], ?_, h⟩
      intro e; simp [sepFork, sepLeaf] at e
    | fork l' r' =>
      simp only [HashTree.digest] at h
      rcases sha_eq (xs := Spec.treeHashed (.fork l' r')) (ys := Spec.treeHashed (.fork l r))
        (by simp [Spec.treeHashed]) (by simp [Spec.treeHashed]) h with h | h
      · obtain ⟨h1, h2⟩ := append_right_inj_len h (by rw [r'.digest.property, r.digest.property])
        have h1 := List.append_cancel_left h1
        rcases ihl (Subtype.ext h1) with h3 | h3
        · rcases ihr (Subtype.ext h2) with h4 | h4
          · exact Or.inl (.fork h3 h4)
          · exact Or.inr (h4.mono (fun x hx => by simp [Spec.treeHashed, hx])
              (fun x hx => by simp [Spec.treeHashed, hx]))
        · exact Or.inr (h3.mono (fun x hx => by simp [Spec.treeHashed, hx])
            (fun x hx => by simp [Spec.treeHashed, hx]))
      · exact Or.inr h

end CyclesLedger
