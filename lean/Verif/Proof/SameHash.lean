import Verif.Proof.HashInj
/-! # Values that differ only in how numbers are written -/
namespace CyclesLedger

/-- `conv_flat` at any depth. -/
theorem conv_flat_at (f : Flat) (d : Nat) (hd : d < 62) : cborToGeneric f.toCbor d = .ok f.value := by
  unfold Flat.toCbor cborToGeneric
  rw [if_neg (by simp [VALUE_DEPTH_LIMIT]; omega)]
  simp only [List.append_assoc, List.cons_append, List.nil_append]
  have hN : ∀ n, cborToGeneric (cborNat n) (d + 1) = .ok (genNat n) :=
    fun n => conv_cborNat n (d + 1) (by omega)
  have hA : ∀ a, cborToGeneric (cborAccount a) (d + 1) = .ok (accountToValue a) :=
    fun a => conv_account a (d + 1) (by omega)
  rw [convMap_opt hN, convMap_opt (fun b => conv_bytes b (d + 1) (by omega)),
    convMap_cons (conv_text _ (d + 1) (by omega)), convMap_opt hA, convMap_opt hA, convMap_opt hA,
    convMap_cons (hN _), convMap_opt hN, convMap_opt hN]
  rw [show optField kExpiresAt f.expiresAt cborNat
      = optField kExpiresAt f.expiresAt cborNat ++ [] by simp, convMap_opt hN]
  simp [cborToGenericMap, Flat.value]

/-- The generic value of a serialized block. -/
def Block.oldFields (b : Block) : SMap Text Value :=
  (((SMap.empty.insert kTx b.transaction.flatten.value).insert kTs (genNat b.timestamp)).insertOpt
    kPhash b.phash (fun h => .blob h.val)).insertOpt kFee b.effectiveFee genNat

theorem conv_block (b : Block) : cborToGeneric b.toCbor 0 = .ok (.map b.oldFields.entries) := by
  unfold Block.toCbor cborToGeneric
  rw [if_neg (by simp [VALUE_DEPTH_LIMIT])]
  simp only [List.cons_append, List.nil_append, Nat.zero_add]
  have hN : ∀ n, cborToGeneric (cborNat n) 1 = .ok (genNat n) :=
    fun n => conv_cborNat n 1 (by omega)
  rw [Transaction.toCbor, convMap_cons (conv_flat_at _ 1 (by omega)), convMap_cons (hN _),
    convMap_opt (fun h : Hash => conv_bytes h.val 1 (by omega))]
  rw [show optField kFee b.effectiveFee cborNat
      = optField kFee b.effectiveFee cborNat ++ [] by simp, convMap_opt hN]
  simp only [cborToGenericMap, Block.oldFields, ← optInsert_entries, ← mapInsert_entries]
  rfl

variable [Crypto]

/-- The same keys with values of the same hash. -/
def SameHash (l l' : List (Text × Value)) : Prop :=
  All2 (fun a b => a.1 = b.1 ∧ a.2.hash = b.2.hash) l l'

theorem SameHash.insertL {l l' : List (Text × Value)} (h : SameHash l l') (k : Text) {v v' : Value}
    (hv : v.hash = v'.hash) : SameHash (SMap.insertL l k v) (SMap.insertL l' k v') := by
  induction h with
  | nil => exact .cons ⟨rfl, hv⟩ .nil
  | @cons a b t t' h1 ht ih =>
    obtain ⟨ka, va⟩ := a
    obtain ⟨kb, vb⟩ := b
    obtain ⟨rfl, h1⟩ := h1
    simp only [SMap.insertL]
    split
    · exact .cons ⟨rfl, hv⟩ (.cons ⟨rfl, h1⟩ ht)
    · split
      · exact .cons ⟨rfl, hv⟩ ht
      · exact .cons ⟨rfl, h1⟩ ih

theorem SameHash.hashMap {l l' : List (Text × Value)} (h : SameHash l l') :
    hashMap l = hashMap l' := by
  induction h with
  | nil => rfl
  | @cons a b t t' h1 _ ih =>
    obtain ⟨ka, va⟩ := a
    obtain ⟨kb, vb⟩ := b
    obtain ⟨rfl, h1⟩ := h1
    simp only [CyclesLedger.hashMap, ih]
    rw [show va.hash = vb.hash from h1]

theorem SameHash.map {l l' : List (Text × Value)} (h : SameHash l l') :
    (Value.map l).hash = (Value.map l').hash := by
  rw [Value.hash_eq, Value.hash_eq]
  simp only [h.hashMap]

theorem SameHash.insert {m m' : SMap Text Value} (h : SameHash m.entries m'.entries) (k : Text)
    {v v' : Value} (hv : v.hash = v'.hash) :
    SameHash (m.insert k v).entries (m'.insert k v').entries := h.insertL k hv

theorem SameHash.insertOpt {m m' : SMap Text Value} (h : SameHash m.entries m'.entries) (k : Text)
    {A : Type} (o : Option A) {f g : A → Value} (hf : ∀ a, (f a).hash = (g a).hash) :
    SameHash (m.insertOpt k o f).entries (m'.insertOpt k o g).entries := by
  cases o with
  | none => exact h
  | some a => exact h.insertL k (hf a)

theorem sameHash_fields {num num' : Nat → Value} (h : ∀ n, (num n).hash = (num' n).hash) (f : Flat) :
    SameHash (f.fields num).entries (f.fields num').entries := by
  unfold Flat.fields
  exact ((((((((((show SameHash (SMap.empty : SMap Text Value).entries SMap.empty.entries from .nil).insertOpt
    _ _ h).insertOpt _ _ (fun _ => rfl)).insert _ rfl).insertOpt _ _ (fun _ => rfl)).insertOpt _ _
    (fun _ => rfl)).insertOpt _ _ (fun _ => rfl)).insert _ (h _)).insertOpt _ _ h).insertOpt _ _
    h).insertOpt _ _ h

theorem genNat_same (h : ∀ n : Nat, n < 2 ^ 64 → (Value.int n).hash = (Value.nat n).hash) (n : Nat) :
    (genNat n).hash = (Value.nat n).hash := by
  unfold genNat
  split
  · rename_i hn
    rw [U64MAX_eq] at hn
    exact h n (by omega)
  · rfl

end CyclesLedger
