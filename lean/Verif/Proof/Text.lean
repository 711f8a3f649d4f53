import Verif.Model.Meta
import Verif.Spec.Text
/-!
# The textual representation of a principal can be read back
-/
namespace CyclesLedger

theorem byteOf_bits (b : UInt8) : Spec.bytesOf (byteBits b) = [b] := by
  simp only [byteBits, Spec.bytesOf, Spec.byteOf, decide_eq_true_eq]
  congr 1
  have h := b.toNat_lt
  apply UInt8.toNat_inj.mp
  rw [UInt8.toNat_ofNat']
  have : ∀ n, n % 2 = (if n % 2 = 1 then 1 else 0) := by intro n; split <;> omega
  rw [← this, ← this, ← this, ← this, ← this, ← this, ← this, ← this]
  omega

theorem bytesOf_bits (bs : Bytes) {pad : List Bool} (hp : pad.length < 8) :
    Spec.bytesOf (bs.flatMap byteBits ++ pad) = bs := by
  induction bs with
  | nil =>
    rw [List.flatMap_nil, List.nil_append]
    unfold Spec.bytesOf
    split
    · simp at hp; omega
    · rfl
  | cons b bs ih =>
    have := byteOf_bits b
    simp only [byteBits, Spec.bytesOf] at this
    simp only [List.flatMap_cons, byteBits, List.cons_append, List.nil_append, Spec.bytesOf]
    rw [ih, (List.cons.inj this).1]

theorem digit_back (a b c d e : Bool) :
    Spec.digitBits (base32Digit [a, b, c, d, e]) = [a, b, c, d, e] ∧
    base32Digit [a, b, c, d, e] ≠ '-' := by
  revert a b c d e; decide

theorem digit_pad (bits : List Bool) (h : bits.length < 5) :
    base32Digit bits = base32Digit (bits ++ List.replicate (5 - bits.length) false) := by
  match bits, h with
  | [], _ => rfl
  | [a], _ => rfl
  | [a, b], _ => rfl
  | [a, b, c], _ => rfl
  | [a, b, c, d], _ => rfl

theorem base32_back (bits : List Bool) :
    (∀ c ∈ base32 bits, c ≠ '-') ∧
    ∃ pad, pad.length < 5 ∧ (base32 bits).flatMap Spec.digitBits = bits ++ pad := by
  induction bits using base32.induct with
  | case1 a b c d e rest ih =>
    obtain ⟨h1, pad, h2, h3⟩ := ih
    obtain ⟨d1, d2⟩ := digit_back a b c d e
    unfold base32
    refine ⟨?_, pad, h2, ?_⟩
    · intro x hx
      rcases List.mem_cons.mp hx with rfl | hx
      · exact d2
      · exact h1 x hx
    · rw [List.flatMap_cons, d1, h3]; rfl
  | case2 => exact ⟨by simp [base32], [], by simp, by simp [base32]⟩
  | case3 bits h1 h2 =>
    have hl : bits.length < 5 := by
      match bits, h1 with
      | [], _ => simp
      | [_], _ => simp
      | [_, _], _ => simp
      | [_, _, _], _ => simp
      | [_, _, _, _], _ => simp
      | a :: b :: c :: d :: e :: rest, h => exact absurd rfl (h a b c d e rest)
    have hb : base32 bits = [base32Digit bits] := by
      match bits, h1, h2 with
      | [], _, h => exact absurd rfl h
      | [_], _, _ => rfl
      | [_, _], _, _ => rfl
      | [_, _, _], _, _ => rfl
      | [_, _, _, _], _, _ => rfl
      | a :: b :: c :: d :: e :: rest, h, _ => exact absurd rfl (h a b c d e rest)
    rw [hb, digit_pad bits hl]
    have key : ∀ l : List Bool, l.length = 5 →
        base32Digit l ≠ '-' ∧ Spec.digitBits (base32Digit l) = l := by
      intro l hl
      match l, hl with
      | [a, b, c, d, e], _ => exact ⟨(digit_back a b c d e).2, (digit_back a b c d e).1⟩
    obtain ⟨k1, k2⟩ := key (bits ++ List.replicate (5 - bits.length) false) (by simp; omega)
    refine ⟨?_, List.replicate (5 - bits.length) false, ?_, ?_⟩
    · intro c hc; rw [List.mem_singleton] at hc; rw [hc]; exact k1
    · have : bits ≠ [] := fun h => h2 h
      have := List.length_pos_iff.mpr this
      simp; omega
    · simp [k2]

theorem dashed_back (cs : List Char) (h : ∀ c ∈ cs, c ≠ '-') :
    (dashed cs).filter (fun c => decide (c ≠ '-')) = cs := by
  induction cs using dashed.induct with
  | case1 a b c d e f rest ih =>
    unfold dashed
    have hr := ih (fun c hc => h c (by
      simp only [List.mem_cons] at hc ⊢
      rcases hc with hc | hc <;> simp [hc]))
    have ha := h a (by simp)
    have hb := h b (by simp)
    have hc := h c (by simp)
    have hd := h d (by simp)
    have he := h e (by simp)
    simp only [List.filter_cons, ne_eq, ha, hb, hc, hd, he, not_false_eq_true, decide_true,
      not_true_eq_false, decide_false, if_true]
    simpa using hr
  | case2 cs hcs =>
    have : dashed cs = cs := by
      unfold dashed
      split
      · rename_i a b c d e f rest; exact absurd rfl (hcs a b c d e f rest)
      · rfl
    rw [this, List.filter_eq_self]
    intro c hc
    simpa using h c hc

/-- The text names the principal. -/
theorem toText_back (p : Principal) : Spec.principalBytes p.toText = p.bytes := by
  unfold Spec.principalBytes Principal.toText
  obtain ⟨h1, pad, h2, h3⟩ :=
    base32_back ((be32 (crc32 p.bytes) ++ p.bytes).flatMap byteBits)
  rw [String.toList_ofList, dashed_back _ h1, h3, bytesOf_bits _ (by omega)]
  rfl

end CyclesLedger
