import Verif.Model.Hash
/-! # LEB128 decodes -/
namespace CyclesLedger

/-- Reading an unsigned LEB128 number off a stream of bytes: seven bits a byte, least significant
first, up to and including the first byte whose top bit is clear; and what is left of the stream. -/
def Spec.readUnsigned : Bytes → Option (Nat × Bytes)
  | [] => none
  | b :: bs =>
    if b.toNat < 128 then some (b.toNat, bs)
    else (Spec.readUnsigned bs).map (fun v => (b.toNat - 128 + 128 * v.1, v.2))

theorem readUnsigned_leb128 (n : Nat) (rest : Bytes) :
    Spec.readUnsigned (leb128 n ++ rest) = some (n, rest) := by
  induction n using Nat.strongRecOn with
  | ind n ih =>
    unfold leb128
    split
    · rename_i h
      have h1 : (UInt8.ofNat n).toNat = n := by rw [UInt8.toNat_ofNat']; omega
      simp only [List.cons_append, List.nil_append, Spec.readUnsigned, h1]
      rw [if_pos h]
    · rename_i h
      have h1 : (UInt8.ofNat (n % 128 + 128)).toNat = n % 128 + 128 := by
        rw [UInt8.toNat_ofNat']; omega
      simp only [List.cons_append, Spec.readUnsigned, h1]
      rw [if_neg (by omega), ih (n / 128) (by omega), Option.map_some]
      exact congrArg some (Prod.ext (by simp only; omega) rfl)

theorem leb128_shortest {bs rest : Bytes} {n : Nat} (h : Spec.readUnsigned bs = some (n, rest)) :
    (leb128 n).length + rest.length ≤ bs.length := by
  induction bs generalizing n with
  | nil => cases h
  | cons b bs ih =>
    unfold Spec.readUnsigned at h
    split at h
    · rename_i hb
      cases h
      rw [leb128, dif_pos hb]
      simp only [List.length_cons, List.length_nil]
      omega
    · cases hr : Spec.readUnsigned bs with
      | none => rw [hr] at h; cases h
      | some v =>
        obtain ⟨k, r⟩ := v
        rw [hr] at h
        simp only [Option.map_some, Option.some.injEq, Prod.mk.injEq] at h
        obtain ⟨h1, rfl⟩ := h
        have ih := ih hr
        have hlt := UInt8.toNat_lt b
        have hpos : 0 < (leb128 k).length := by
          rw [leb128]; split <;> simp
        rw [leb128]
        split
        · simp only [List.length_cons, List.length_nil]; omega
        · have : n / 128 = k := by omega
          rw [this]
          simp only [List.length_cons]
          omega

theorem ofLeb128_leb128 (n : Nat) : ofLeb128 (leb128 n) = n := by
  induction n using Nat.strongRecOn with
  | ind n ih =>
    unfold leb128
    split
    · rename_i h
      simp only [ofLeb128, UInt8.toNat_ofNat']
      omega
    · rename_i h
      simp only [ofLeb128]
      rw [ih (n / 128) (by omega), UInt8.toNat_ofNat']
      omega

end CyclesLedger
