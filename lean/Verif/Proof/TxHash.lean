import Verif.Model.Hash
/-! # Every transaction can be hashed -/
namespace CyclesLedger

/-- The generic value of an unsigned number after serde + conversion. -/
def genNat (n : Nat) : Value := if n ≤ U64MAX then .int n else .nat n

theorem ofLE_leDigits (n : Nat) : ofLE (leDigits n) = n := by
  induction n using Nat.strongRecOn with
  | ind n ih =>
    unfold leDigits
    split
    · simp [ofLE, *]
    · rename_i h
      simp only [ofLE]
      rw [ih (n / 256) (by omega), UInt8.toNat_ofNat']
      omega

theorem ofBytesBE_toBytesBE (n : Nat) : ofBytesBE (toBytesBE n) = n := by
  unfold ofBytesBE toBytesBE
  split
  · simp [ofLE, *]
  · rw [List.reverse_reverse, ofLE_leDigits]

theorem conv_cborNat (n d : Nat) (hd : d < 63) : cborToGeneric (cborNat n) d = .ok (genNat n) := by
  unfold cborNat genNat
  split
  · unfold cborToGeneric
    rw [if_neg (by simp [VALUE_DEPTH_LIMIT]; omega)]
    simp only
    rw [if_neg (by omega)]
  · unfold cborToGeneric
    rw [if_neg (by simp [VALUE_DEPTH_LIMIT]; omega)]
    simp [TAG_BIGNUM, TAG_SELF_DESCRIBED, ofBytesBE_toBytesBE]

theorem conv_bytes (b : Bytes) (d : Nat) (hd : d < 64) :
    cborToGeneric (.bytes b) d = .ok (.blob b) := by
  unfold cborToGeneric
  rw [if_neg (by simp [VALUE_DEPTH_LIMIT]; omega)]

theorem conv_text (b : Bytes) (d : Nat) (hd : d < 64) :
    cborToGeneric (.text b) d = .ok (.text b) := by
  unfold cborToGeneric
  rw [if_neg (by simp [VALUE_DEPTH_LIMIT]; omega)]

theorem conv_blobs (l : List Bytes) (d : Nat) (hd : d < 64) :
    cborToGenericList (l.map .bytes) d = .ok (l.map .blob) := by
  induction l with
  | nil => simp [cborToGenericList]
  | cons a t ih => simp [cborToGenericList, conv_bytes a d hd, ih]

theorem conv_account (a : Account) (d : Nat) (hd : d < 63) :
    cborToGeneric (cborAccount a) d = .ok (accountToValue a) := by
  unfold cborAccount accountToValue cborToGeneric
  rw [if_neg (by simp [VALUE_DEPTH_LIMIT]; omega)]
  simp [conv_blobs a.compact (d + 1) (by omega)]

/-- Reading one more entry of a map. -/
theorem convMap_cons {k : Text} {v : CVal} {v' : Value} {rest : List (CVal × CVal)} {d : Nat}
    {acc : List (Text × Value)} (h : cborToGeneric v d = .ok v') :
    cborToGenericMap ((.text k, v) :: rest) d acc = cborToGenericMap rest d (mapInsert acc k v') := by
  conv => lhs; unfold cborToGenericMap
  simp [h]

theorem convMap_opt {A : Type} {k : Text} {o : Option A} {f : A → CVal} {g : A → Value}
    {rest : List (CVal × CVal)} {d : Nat} {acc : List (Text × Value)}
    (h : ∀ a, cborToGeneric (f a) d = .ok (g a)) :
    cborToGenericMap (optField k o f ++ rest) d acc = cborToGenericMap rest d (optInsert acc k o g) := by
  cases o with
  | none => simp [optField, optInsert]
  | some a => simp [optField, optInsert, convMap_cons (h a)]

/-- The generic value of a flattened transaction. -/
def Flat.value (f : Flat) : Value :=
  let m := optInsert [] kTs f.createdAtTime genNat
  let m := optInsert m kMemo f.memo .blob
  let m := mapInsert m kOp (.text f.op)
  let m := optInsert m kFrom f.frm accountToValue
  let m := optInsert m kTo f.to accountToValue
  let m := optInsert m kSpender f.spender accountToValue
  let m := mapInsert m kAmt (genNat f.amount)
  let m := optInsert m kFee f.fee genNat
  let m := optInsert m kExpectedAllowance f.expectedAllowance genNat
  let m := optInsert m kExpiresAt f.expiresAt genNat
  .map m

theorem conv_flat (f : Flat) : cborToGeneric f.toCbor 0 = .ok f.value := by
  unfold Flat.toCbor cborToGeneric
  rw [if_neg (by simp [VALUE_DEPTH_LIMIT])]
  simp only [List.append_assoc, List.cons_append, List.nil_append, Nat.zero_add]
  have hN : ∀ n, cborToGeneric (cborNat n) 1 = .ok (genNat n) :=
    fun n => conv_cborNat n 1 (by omega)
  have hA : ∀ a, cborToGeneric (cborAccount a) 1 = .ok (accountToValue a) :=
    fun a => conv_account a 1 (by omega)
  rw [convMap_opt hN, convMap_opt (fun b => conv_bytes b 1 (by omega)),
    convMap_cons (conv_text _ 1 (by omega)), convMap_opt hA, convMap_opt hA, convMap_opt hA,
    convMap_cons (hN _), convMap_opt hN, convMap_opt hN]
  rw [show optField kExpiresAt f.expiresAt cborNat
      = optField kExpiresAt f.expiresAt cborNat ++ [] by simp, convMap_opt hN]
  simp [cborToGenericMap, Flat.value]

variable [Crypto]

/-- `Transaction::hash` never fails. -/
theorem Transaction.hash_eq (t : Transaction) : t.hash = some t.flatten.value.hash := by
  unfold Transaction.hash Transaction.toCbor
  rw [conv_flat]

/-- The transaction hash, total. -/
def Transaction.hash! (t : Transaction) : Hash := t.flatten.value.hash

theorem Transaction.hash_eq_some (t : Transaction) : t.hash = some t.hash! := t.hash_eq

end CyclesLedger
