import Verif.Proof.Codec
/-! # The fields of a transaction or block as a map -/
namespace CyclesLedger

/-- `optInsert` on maps. -/
def SMap.insertOpt {V A : Type} (m : SMap Text V) (k : Text) (o : Option A) (f : A → V) :
    SMap Text V :=
  match o with
  | none => m
  | some a => m.insert k (f a)

theorem SMap.get_insertOpt {V A : Type} (m : SMap Text V) (k : Text) (o : Option A) (f : A → V)
    (j : Text) : (m.insertOpt k o f).get j = if k = j then (o.map f).or (m.get j) else m.get j := by
  cases o with
  | none => simp [SMap.insertOpt]
  | some a => simp [SMap.insertOpt, SMap.get_insert]

theorem optInsert_entries {V A : Type} (m : SMap Text V) (k : Text) (o : Option A) (f : A → V) :
    optInsert m.entries k o f = (m.insertOpt k o f).entries := by
  cases o <;> rfl

theorem mapInsert_entries {V : Type} (m : SMap Text V) (k : Text) (v : V) :
    mapInsert m.entries k v = (m.insert k v).entries := rfl

/-- The fields of a flattened transaction, numbers written by `num`. -/
def Flat.fields (num : Nat → Value) (f : Flat) : SMap Text Value :=
  ((((((((((SMap.empty.insertOpt kTs f.createdAtTime num).insertOpt kMemo f.memo .blob).insert
    kOp (.text f.op)).insertOpt kFrom f.frm accountToValue).insertOpt kTo f.to
    accountToValue).insertOpt kSpender f.spender accountToValue).insert kAmt
    (num f.amount)).insertOpt kFee f.fee num).insertOpt kExpectedAllowance f.expectedAllowance
    num).insertOpt kExpiresAt f.expiresAt num)

theorem Flat.value_eq (f : Flat) : f.value = .map (f.fields genNat).entries := by
  unfold Flat.value Flat.fields
  simp only [← optInsert_entries, ← mapInsert_entries]
  rfl

/-- The fields of a block. -/
def Block.fields (b : Block) : SMap Text Value :=
  (((SMap.empty.insert kTx b.transaction.toValue).insert kTs (.nat b.timestamp)).insertOpt kPhash
    b.phash (fun h => .blob h.val)).insertOpt kFee b.effectiveFee .nat

theorem Block.toValue_eq (b : Block) : b.toValue = .map b.fields.entries := by
  unfold Block.toValue Block.fields
  simp only [← optInsert_entries, ← mapInsert_entries]
  rfl

/-- All the keys, and lookup of any other. -/
theorem Flat.get_fields (num : Nat → Value) (f : Flat) :
    (f.fields num).get kTs = f.createdAtTime.map num ∧
    (f.fields num).get kMemo = f.memo.map .blob ∧
    (f.fields num).get kOp = some (.text f.op) ∧
    (f.fields num).get kFrom = f.frm.map accountToValue ∧
    (f.fields num).get kTo = f.to.map accountToValue ∧
    (f.fields num).get kSpender = f.spender.map accountToValue ∧
    (f.fields num).get kAmt = some (num f.amount) ∧
    (f.fields num).get kFee = f.fee.map num ∧
    (f.fields num).get kExpectedAllowance = f.expectedAllowance.map num ∧
    (f.fields num).get kExpiresAt = f.expiresAt.map num := by
  unfold Flat.fields
  refine ⟨?_, ?_, ?_, ?_, ?_, ?_, ?_, ?_, ?_, ?_⟩
  all_goals
    simp only [SMap.get_insert, SMap.get_insertOpt]
    simp [kTs, kMemo, kOp, kFrom, kTo, kSpender, kAmt, kFee, kExpectedAllowance, kExpiresAt]

theorem Flat.get_fields_other (num : Nat → Value) (f : Flat) {k : Text}
    (h1 : kTs ≠ k) (h2 : kMemo ≠ k) (h3 : kOp ≠ k) (h4 : kFrom ≠ k) (h5 : kTo ≠ k)
    (h6 : kSpender ≠ k) (h7 : kAmt ≠ k) (h8 : kFee ≠ k) (h9 : kExpectedAllowance ≠ k)
    (h10 : kExpiresAt ≠ k) : (f.fields num).get k = none := by
  unfold Flat.fields
  simp [SMap.get_insert, SMap.get_insertOpt, h1, h2, h3, h4, h5, h6, h7, h8, h9, h10]

theorem Block.get_fields (b : Block) :
    b.fields.get kTx = some b.transaction.toValue ∧
    b.fields.get kTs = some (.nat b.timestamp) ∧
    b.fields.get kPhash = b.phash.map (fun h => .blob h.val) ∧
    b.fields.get kFee = b.effectiveFee.map .nat := by
  unfold Block.fields
  refine ⟨?_, ?_, ?_, ?_⟩
  all_goals
    simp only [SMap.get_insert, SMap.get_insertOpt]
    simp [kTs, kTx, kPhash, kFee]

/-- `Transaction::to_value` and the serialized form have the same fields, numbers being
written as `Nat` in the former. -/
theorem Transaction.toValue_eq (t : Transaction) :
    t.toValue = .map (t.flatten.fields .nat).entries := by
  have key : ∀ m : SMap Text Value, (∀ k, m.get k = (t.flatten.fields .nat).get k) →
      Value.map m.entries = .map (t.flatten.fields .nat).entries := by
    intro m h
    rw [SMap.ext h]
  have hk : ∀ k : Text, kTs = k ∨ kMemo = k ∨ kOp = k ∨ kFrom = k ∨ kTo = k ∨ kSpender = k ∨
      kAmt = k ∨ kFee = k ∨ kExpectedAllowance = k ∨ kExpiresAt = k ∨
      (kTs ≠ k ∧ kMemo ≠ k ∧ kOp ≠ k ∧ kFrom ≠ k ∧ kTo ≠ k ∧ kSpender ≠ k ∧
      kAmt ≠ k ∧ kFee ≠ k ∧ kExpectedAllowance ≠ k ∧ kExpiresAt ≠ k) := by
    intro k
    by_cases h1 : kTs = k; · exact Or.inl h1
    by_cases h2 : kMemo = k; · simp [h2]
    by_cases h3 : kOp = k; · simp [h3]
    by_cases h4 : kFrom = k; · simp [h4]
    by_cases h5 : kTo = k; · simp [h5]
    by_cases h6 : kSpender = k; · simp [h6]
    by_cases h7 : kAmt = k; · simp [h7]
    by_cases h8 : kFee = k; · simp [h8]
    by_cases h9 : kExpectedAllowance = k; · simp [h9]
    by_cases h10 : kExpiresAt = k; · simp [h10]
    simp [h1, h2, h3, h4, h5, h6, h7, h8, h9, h10]
  have all : ∀ m : SMap Text Value, (
      m.get kTs = t.flatten.createdAtTime.map .nat ∧
      m.get kMemo = t.flatten.memo.map .blob ∧
      m.get kOp = some (.text t.flatten.op) ∧
      m.get kFrom = t.flatten.frm.map accountToValue ∧
      m.get kTo = t.flatten.to.map accountToValue ∧
      m.get kSpender = t.flatten.spender.map accountToValue ∧
      m.get kAmt = some (.nat t.flatten.amount) ∧
      m.get kFee = t.flatten.fee.map .nat ∧
      m.get kExpectedAllowance = t.flatten.expectedAllowance.map .nat ∧
      m.get kExpiresAt = t.flatten.expiresAt.map .nat) →
      (∀ k, kTs ≠ k → kMemo ≠ k → kOp ≠ k → kFrom ≠ k → kTo ≠ k → kSpender ≠ k →
      kAmt ≠ k → kFee ≠ k → kExpectedAllowance ≠ k → kExpiresAt ≠ k → m.get k = none) →
      Value.map m.entries = .map (t.flatten.fields .nat).entries := by
    intro m hm ho
    apply key
    intro k
    obtain ⟨a1, a2, a3, a4, a5, a6, a7, a8, a9, a10⟩ := hm
    obtain ⟨b1, b2, b3, b4, b5, b6, b7, b8, b9, b10⟩ := t.flatten.get_fields .nat
    rcases hk k with h | h | h | h | h | h | h | h | h | h | ⟨h1, h2, h3, h4, h5, h6, h7, h8, h9, h10⟩
    · rw [← h, a1, b1]
    · rw [← h, a2, b2]
    · rw [← h, a3, b3]
    · rw [← h, a4, b4]
    · rw [← h, a5, b5]
    · rw [← h, a6, b6]
    · rw [← h, a7, b7]
    · rw [← h, a8, b8]
    · rw [← h, a9, b9]
    · rw [← h, a10, b10]
    · rw [ho k h1 h2 h3 h4 h5 h6 h7 h8 h9 h10,
        t.flatten.get_fields_other .nat h1 h2 h3 h4 h5 h6 h7 h8 h9 h10]
  obtain ⟨op, ct, memo⟩ := t
  unfold Transaction.toValue
  have e0 : ([] : List (Text × Value)) = (SMap.empty : SMap Text Value).entries := rfl
  cases op <;>
  · simp only [e0, optInsert_entries, mapInsert_entries]
    apply all
    · refine ⟨?_, ?_, ?_, ?_, ?_, ?_, ?_, ?_, ?_, ?_⟩
      all_goals
        simp only [SMap.get_insert, SMap.get_insertOpt, Transaction.flatten]
        simp [kTs, kMemo, kOp, kFrom, kTo, kSpender, kAmt, kFee, kExpectedAllowance, kExpiresAt]
    · intro k h1 h2 h3 h4 h5 h6 h7 h8 h9 h10
      simp [SMap.get_insert, SMap.get_insertOpt, h1, h2, h3, h4, h5, h6, h7, h8, h9, h10]

/-! ## Equal fields, equal transactions -/

theorem accountToValue_inj {a b : Account} (h : accountToValue a = accountToValue b) : a = b := by
  unfold accountToValue at h
  injection h with h
  have hm : ∀ l l' : List Bytes, l.map Value.blob = l'.map Value.blob → l = l' := by
    intro l
    induction l with
    | nil => intro l' h; cases l' with
      | nil => rfl
      | cons => simp at h
    | cons x t ih => intro l' h; cases l' with
      | nil => simp at h
      | cons y u =>
        simp only [List.map_cons, List.cons.injEq, Value.blob.injEq] at h
        rw [h.1, ih u h.2]
  exact compact_inj (hm _ _ h)

theorem optMap_inj {A B : Type} {f : A → B} (hf : ∀ a b, f a = f b → a = b) {o o' : Option A}
    (h : o.map f = o'.map f) : o = o' := by
  cases o <;> cases o' <;> simp_all
  exact hf _ _ h

theorem genNat_inj (a b : Nat) (h : genNat a = genNat b) : a = b := by
  unfold genNat at h
  split at h <;> split at h
  · injection h with h; omega
  · cases h
  · cases h
  · injection h

theorem Flat.fields_inj {num : Nat → Value} (hnum : ∀ a b, num a = num b → a = b) {f f' : Flat}
    (h : f.fields num = f'.fields num) : f = f' := by
  obtain ⟨a1, a2, a3, a4, a5, a6, a7, a8, a9, a10⟩ := f.get_fields num
  obtain ⟨b1, b2, b3, b4, b5, b6, b7, b8, b9, b10⟩ := f'.get_fields num
  rw [h] at a1 a2 a3 a4 a5 a6 a7 a8 a9 a10
  have hacc : ∀ a b, accountToValue a = accountToValue b → a = b := fun _ _ => accountToValue_inj
  have c1 := optMap_inj hnum (b1.symm.trans a1)
  have c2 := optMap_inj (f := Value.blob) (fun a b h => by injection h) (b2.symm.trans a2)
  have c3 := b3.symm.trans a3
  have c4 := optMap_inj hacc (b4.symm.trans a4)
  have c5 := optMap_inj hacc (b5.symm.trans a5)
  have c6 := optMap_inj hacc (b6.symm.trans a6)
  have c7 := hnum _ _ (Option.some.inj (b7.symm.trans a7))
  have c8 := optMap_inj hnum (b8.symm.trans a8)
  have c9 := optMap_inj hnum (b9.symm.trans a9)
  have c10 := optMap_inj hnum (b10.symm.trans a10)
  simp only [Option.some.injEq, Value.text.injEq] at c3
  cases f; cases f'
  simp_all

theorem entries_inj {m m' : SMap Text Value} (h : m.entries = m'.entries) : m = m' := by
  cases m; cases m'; simp_all

theorem Transaction.toValue_inj {t t' : Transaction} (h : t.toValue = t'.toValue) : t = t' := by
  rw [t.toValue_eq, t'.toValue_eq] at h
  injection h with h
  exact flatten_inj (Flat.fields_inj (fun a b h => by injection h) (entries_inj h))

theorem Block.toValue_inj {b b' : Block} (h : b.toValue = b'.toValue) : b = b' := by
  rw [b.toValue_eq, b'.toValue_eq] at h
  injection h with h
  have h := entries_inj h
  obtain ⟨a1, a2, a3, a4⟩ := b.get_fields
  obtain ⟨b1, b2, b3, b4⟩ := b'.get_fields
  rw [h] at a1 a2 a3 a4
  have c1 := Transaction.toValue_inj (Option.some.inj (b1.symm.trans a1))
  have c2 := Option.some.inj (b2.symm.trans a2)
  have c3 := optMap_inj (f := fun h : Hash => Value.blob h.val)
    (fun a b h => by injection h with h; exact Subtype.ext h) (b3.symm.trans a3)
  have c4 := optMap_inj (f := Value.nat) (fun a b h => by injection h) (b4.symm.trans a4)
  injection c2 with c2
  cases b; cases b'
  simp_all

/-! ## Through the generic value -/

/-- The CBOR form of the numbers of a generic value. -/
def bigNat (n : Nat) : CVal := .tag TAG_BIGNUM (.bytes (toBytesBE n))

theorem readNat_bigNat {max n : Nat} (h : n ≤ max) : readNat max (bigNat n) = some n := by
  simp [bigNat, readNat, ofBytesBE_toBytesBE, h]

theorem toCbor_blobs (l : List Bytes) (d : Nat) (hd : d < 64) :
    genericToCborList (l.map .blob) d = some (l.map .bytes) := by
  induction l with
  | nil => simp [genericToCborList]
  | cons a t ih =>
    have : genericToCbor (.blob a) d = some (.bytes a) := by
      unfold genericToCbor
      rw [if_neg (by simp [VALUE_DEPTH_LIMIT]; omega)]
    simp [genericToCborList, this, ih]

theorem toCbor_account (a : Account) (d : Nat) (hd : d < 63) :
    genericToCbor (accountToValue a) d = some (cborAccount a) := by
  unfold accountToValue cborAccount genericToCbor
  rw [if_neg (by simp [VALUE_DEPTH_LIMIT]; omega)]
  simp [toCbor_blobs a.compact (d + 1) (by omega)]

theorem toCbor_nat (n d : Nat) (hd : d < 64) : genericToCbor (.nat n) d = some (bigNat n) := by
  unfold genericToCbor
  rw [if_neg (by simp [VALUE_DEPTH_LIMIT]; omega)]
  rfl

theorem toCbor_blob (b : Bytes) (d : Nat) (hd : d < 64) :
    genericToCbor (.blob b) d = some (.bytes b) := by
  unfold genericToCbor
  rw [if_neg (by simp [VALUE_DEPTH_LIMIT]; omega)]

theorem toCbor_text (b : Bytes) (d : Nat) (hd : d < 64) :
    genericToCbor (.text b) d = some (.text b) := by
  unfold genericToCbor
  rw [if_neg (by simp [VALUE_DEPTH_LIMIT]; omega)]

/-- Looking a field up in the CBOR form of a map. -/
theorem pick_of_get {kvs : List (Text × Value)} {d : Nat} {cs : List (CVal × CVal)}
    (hs : SMap.SortedL kvs) (h : genericToCborMap kvs d = some cs) (k : Text) :
    textKeys cs = true ∧
    (SMap.getL kvs k = none → pick k cs = []) ∧
    (∀ v, SMap.getL kvs k = some v → ∃ c, genericToCbor v d = some c ∧ pick k cs = [c]) := by
  have hf := genericToCborMap_some.mp h
  clear h
  induction hf with
  | nil =>
    refine ⟨rfl, fun _ => rfl, ?_⟩
    intro v hv
    cases hv
  | @cons e c l l' h1 h2 ih =>
    obtain ⟨ck, cv⟩ := c
    obtain ⟨ek, ev⟩ := e
    obtain ⟨h1a, h1b⟩ := h1
    simp only at h1a h1b
    subst h1a
    rw [SMap.SortedL, List.pairwise_cons] at hs
    obtain ⟨i1, i2, i3⟩ := ih hs.2
    refine ⟨by rw [textKeys_cons]; exact i1, ?_, ?_⟩
    · intro hn
      simp only [SMap.getL] at hn
      rw [pick_cons]
      split at hn
      · cases hn
      · rename_i hne
        rw [if_neg hne]
        exact i2 hn
    · intro v hv
      simp only [SMap.getL] at hv
      rw [pick_cons]
      split at hv
      · rename_i he
        injection hv with hv
        subst hv
        subst he
        rw [if_pos rfl, i2 (SMap.getL_none_of_lt hs.1)]
        exact ⟨cv, h1b, rfl⟩
      · rename_i hne
        rw [if_neg hne]
        exact i3 v hv

/-- `from_value` of the ICRC-3 value of a transaction. -/
theorem Transaction.ofCbor_toValue {t : Transaction} (ho : Spec.OpFits t.operation)
    (hc : Spec.Bounded (2 ^ 64 - 1) t.createdAtTime) {d : Nat} (hd : d < 61) :
    ∃ c, genericToCbor t.toValue d = some c ∧ Transaction.ofCbor c = some t := by
  have hlim : ∀ n, n < 64 → ¬n ≥ VALUE_DEPTH_LIMIT := by
    intro n h; simp [VALUE_DEPTH_LIMIT]; omega
  rw [t.toValue_eq]
  have hvals : ∀ e ∈ (t.flatten.fields .nat).entries, ∃ c : CVal × CVal,
      c.1 = .text e.1 ∧ genericToCbor e.2 (d + 1) = some c.2 := by
    intro e he
    have hg := (SMap.get_eq_some_iff _ e.1 e.2).mpr he
    obtain ⟨b1, b2, b3, b4, b5, b6, b7, b8, b9, b10⟩ := t.flatten.get_fields .nat
    have hcase : ∀ {A : Type} {o : Option A} {g : A → Value}, o.map g = some e.2 →
        (∀ a, ∃ c, genericToCbor (g a) (d + 1) = some c) →
        ∃ c : CVal × CVal, c.1 = .text e.1 ∧ genericToCbor e.2 (d + 1) = some c.2 := by
      intro A o g h hh
      cases o with
      | none => cases h
      | some a =>
        simp only [Option.map_some, Option.some.injEq] at h
        obtain ⟨c, hc⟩ := hh a
        rw [h] at hc
        exact ⟨(.text e.1, c), rfl, hc⟩
    have hn : ∀ n, ∃ c, genericToCbor (.nat n) (d + 1) = some c :=
      fun n => ⟨_, toCbor_nat n _ (by omega)⟩
    have ha : ∀ a, ∃ c, genericToCbor (accountToValue a) (d + 1) = some c :=
      fun a => ⟨_, toCbor_account a _ (by omega)⟩
    by_cases h1 : kTs = e.1
    · rw [← h1, b1] at hg; exact hcase hg hn
    by_cases h2 : kMemo = e.1
    · rw [← h2, b2] at hg; exact hcase hg (fun b => ⟨_, toCbor_blob b _ (by omega)⟩)
    by_cases h3 : kOp = e.1
    · rw [← h3, b3] at hg
      exact hcase (o := some t.flatten.op) (g := .text) hg (fun b => ⟨_, toCbor_text b _ (by omega)⟩)
    by_cases h4 : kFrom = e.1
    · rw [← h4, b4] at hg; exact hcase hg ha
    by_cases h5 : kTo = e.1
    · rw [← h5, b5] at hg; exact hcase hg ha
    by_cases h6 : kSpender = e.1
    · rw [← h6, b6] at hg; exact hcase hg ha
    by_cases h7 : kAmt = e.1
    · rw [← h7, b7] at hg; exact hcase (o := some t.flatten.amount) (g := .nat) hg hn
    by_cases h8 : kFee = e.1
    · rw [← h8, b8] at hg; exact hcase hg hn
    by_cases h9 : kExpectedAllowance = e.1
    · rw [← h9, b9] at hg; exact hcase hg hn
    by_cases h10 : kExpiresAt = e.1
    · rw [← h10, b10] at hg; exact hcase hg hn
    · rw [t.flatten.get_fields_other .nat h1 h2 h3 h4 h5 h6 h7 h8 h9 h10] at hg
      cases hg
  obtain ⟨cs, hcs⟩ := forall2_exists hvals
  have hmap := genericToCborMap_some.mpr hcs
  refine ⟨.map cs, ?_, ?_⟩
  · unfold genericToCbor
    rw [if_neg (hlim d (by omega))]
    simp [hmap]
  · have hp := pick_of_get (t.flatten.fields .nat).sorted hmap
    have hopt : ∀ {A : Type} (o : Option A) (g : A → Value) (f : A → CVal) (k : Text),
        (t.flatten.fields .nat).get k = o.map g →
        (∀ a, genericToCbor (g a) (d + 1) = some (f a)) → pick k cs = (o.map f).toList := by
      intro A o g f k hk hf
      obtain ⟨-, p1, p2⟩ := hp k
      cases o with
      | none => exact p1 hk
      | some a =>
        obtain ⟨c, hc, hpk⟩ := p2 _ hk
        rw [hf a] at hc
        cases hc
        exact hpk
    obtain ⟨b1, b2, b3, b4, b5, b6, b7, b8, b9, b10⟩ := t.flatten.get_fields .nat
    have hn : ∀ n, genericToCbor (.nat n) (d + 1) = some (bigNat n) :=
      fun n => toCbor_nat n _ (by omega)
    have ha : ∀ a, genericToCbor (accountToValue a) (d + 1) = some (cborAccount a) :=
      fun a => toCbor_account a _ (by omega)
    unfold Transaction.ofCbor
    rw [Flat.ofCbor_of_picks (num := bigNat) (flatten_fits ho hc) (fun _ h => nomatch h)
      (fun max n h => readNat_bigNat h) (hp kTs).1 (hopt _ _ _ _ b1 hn)
      (hopt _ _ _ _ b2 (fun b => toCbor_blob b _ (by omega)))
      (hopt (some t.flatten.op) .text .text _ b3 (fun b => toCbor_text b _ (by omega)))
      (hopt _ _ _ _ b4 ha) (hopt _ _ _ _ b5 ha) (hopt _ _ _ _ b6 ha)
      (hopt (some t.flatten.amount) .nat bigNat _ b7 hn) (hopt _ _ _ _ b8 hn)
      (hopt _ _ _ _ b9 hn) (hopt _ _ _ _ b10 hn)]
    exact unflatten_flatten t

/-- `Block::from_value` undoes `Block::to_value`. -/
theorem Block.fromValue_toValue {b : Block} (hb : Spec.BlockFits b) :
    Block.fromValue b.toValue = some b := by
  have hlim : ∀ n, n < 64 → ¬n ≥ VALUE_DEPTH_LIMIT := by
    intro n h; simp [VALUE_DEPTH_LIMIT]; omega
  obtain ⟨tx, htx, htx2⟩ := Transaction.ofCbor_toValue hb.op hb.created (d := 1) (by omega)
  unfold Block.fromValue
  rw [b.toValue_eq]
  obtain ⟨b1, b2, b3, b4⟩ := b.get_fields
  have hvals : ∀ e ∈ b.fields.entries, ∃ c : CVal × CVal,
      c.1 = .text e.1 ∧ genericToCbor e.2 1 = some c.2 := by
    intro e he
    have hg := (SMap.get_eq_some_iff _ e.1 e.2).mpr he
    by_cases h1 : kTx = e.1
    · rw [← h1, b1] at hg
      injection hg with hg
      exact ⟨(.text e.1, tx), rfl, hg ▸ htx⟩
    by_cases h2 : kTs = e.1
    · rw [← h2, b2] at hg
      injection hg with hg
      exact ⟨(.text e.1, _), rfl, hg ▸ toCbor_nat _ 1 (by omega)⟩
    by_cases h3 : kPhash = e.1
    · rw [← h3, b3] at hg
      cases hh : b.phash with
      | none => rw [hh] at hg; cases hg
      | some x =>
        rw [hh] at hg
        simp only [Option.map_some, Option.some.injEq] at hg
        exact ⟨(.text e.1, _), rfl, hg ▸ toCbor_blob _ 1 (by omega)⟩
    by_cases h4 : kFee = e.1
    · rw [← h4, b4] at hg
      cases hh : b.effectiveFee with
      | none => rw [hh] at hg; cases hg
      | some x =>
        rw [hh] at hg
        simp only [Option.map_some, Option.some.injEq] at hg
        exact ⟨(.text e.1, _), rfl, hg ▸ toCbor_nat _ 1 (by omega)⟩
    · have : b.fields.get e.1 = none := by
        unfold Block.fields
        simp [SMap.get_insert, SMap.get_insertOpt, h1, h2, h3, h4]
      rw [this] at hg
      cases hg
  obtain ⟨cs, hcs⟩ := forall2_exists hvals
  have hmap := genericToCborMap_some.mpr hcs
  have hmain : genericToCbor (.map b.fields.entries) 0 = some (.map cs) := by
    unfold genericToCbor
    rw [if_neg (hlim 0 (by omega))]
    simp [hmap]
  rw [hmain]
  have hp := pick_of_get b.fields.sorted hmap
  have hopt : ∀ {A : Type} (o : Option A) (g : A → Value) (f : A → CVal) (k : Text),
      b.fields.get k = o.map g →
      (∀ a, genericToCbor (g a) 1 = some (f a)) → pick k cs = (o.map f).toList := by
    intro A o g f k hk hf
    obtain ⟨-, p1, p2⟩ := hp k
    cases o with
    | none => exact p1 hk
    | some a =>
      obtain ⟨c, hc, hpk⟩ := p2 _ hk
      rw [hf a] at hc
      cases hc
      exact hpk
  obtain ⟨c, hc, hpk⟩ := (hp kTx).2.2 _ b1
  rw [htx] at hc
  cases hc
  exact Block.ofCbor_of_picks (num := bigNat) hb (fun _ h => nomatch h)
    (fun max n h => readNat_bigNat h) (hp kTx).1 htx2 hpk
    (hopt (some b.timestamp) .nat bigNat _ b2 (fun n => toCbor_nat n 1 (by omega)))
    (hopt _ _ _ _ b3 (fun h => toCbor_blob _ 1 (by omega)))
    (hopt _ _ _ _ b4 (fun n => toCbor_nat n 1 (by omega)))

end CyclesLedger
