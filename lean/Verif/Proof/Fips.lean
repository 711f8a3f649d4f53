import Verif.Spec.Fips
import Verif.Model.Sha256
/-! # The model's SHA-256 is that of the standard -/
namespace CyclesLedger
open Spec.Fips

namespace Sha256

theorem W_eq : Sha256.W = 2 ^ 32 := rfl

theorem add_toNat (x y : Word) : add x.toNat y.toNat = (x + y).toNat := by
  rw [BitVec.toNat_add]; rfl

theorem rotr_toNat (x : Word) (n : Nat) (h : n < 32) :
    rotr x.toNat n = (x.rotateRight n).toNat := by
  rw [BitVec.toNat_rotateRight, Nat.mod_eq_of_lt h]; rfl

theorem ch_toNat (x y z : Word) : ch x.toNat y.toNat z.toNat = (Ch x y z).toNat := by
  simp only [ch, Ch, BitVec.toNat_xor, BitVec.toNat_and, BitVec.toNat_not]; rfl

theorem maj_toNat (x y z : Word) : maj x.toNat y.toNat z.toNat = (Maj x y z).toNat := by
  simp only [maj, Maj, BitVec.toNat_xor, BitVec.toNat_and]

theorem bsig0_toNat (x : Word) : bsig0 x.toNat = (Sigma0 x).toNat := by
  simp only [bsig0, Sigma0, BitVec.toNat_xor, rotr_toNat x _ (by decide : 2 < 32),
    rotr_toNat x _ (by decide : 13 < 32), rotr_toNat x _ (by decide : 22 < 32)]

theorem bsig1_toNat (x : Word) : bsig1 x.toNat = (Sigma1 x).toNat := by
  simp only [bsig1, Sigma1, BitVec.toNat_xor, rotr_toNat x _ (by decide : 6 < 32),
    rotr_toNat x _ (by decide : 11 < 32), rotr_toNat x _ (by decide : 25 < 32)]

theorem ssig0_toNat (x : Word) : ssig0 x.toNat = (sigma0 x).toNat := by
  simp only [ssig0, sigma0, BitVec.toNat_xor, rotr_toNat x _ (by decide : 7 < 32),
    rotr_toNat x _ (by decide : 18 < 32), BitVec.toNat_ushiftRight]

theorem ssig1_toNat (x : Word) : ssig1 x.toNat = (sigma1 x).toNat := by
  simp only [ssig1, sigma1, BitVec.toNat_xor, rotr_toNat x _ (by decide : 17 < 32),
    rotr_toNat x _ (by decide : 19 < 32), BitVec.toNat_ushiftRight]

/-! ## Constants -/

theorem K_eq : Sha256.K = (List.range 64).map (fun t => (Spec.Fips.K t).toNat) := by decide +kernel

/-- The words as numbers. -/
def ofVars (v : Vars) : Words :=
  ⟨v.a.toNat, v.b.toNat, v.c.toNat, v.d.toNat, v.e.toNat, v.f.toNat, v.g.toNat, v.h.toNat⟩

theorem H0_eq : Sha256.H0 = ofVars Spec.Fips.H0 := by
  have h : ∀ x y : Words, (x.a = y.a ∧ x.b = y.b ∧ x.c = y.c ∧ x.d = y.d ∧ x.e = y.e ∧ x.f = y.f ∧
      x.g = y.g ∧ x.h = y.h) → x = y := by
    rintro ⟨⟩ ⟨⟩ ⟨h1, h2, h3, h4, h5, h6, h7, h8⟩
    simp only at h1 h2 h3 h4 h5 h6 h7 h8
    rw [h1, h2, h3, h4, h5, h6, h7, h8]
  exact h _ _ (by decide +kernel)

/-! ## The schedule -/

/-- The first `k` words of the schedule, the last first. -/
def rev (M : Nat → Word) (k : Nat) : List Nat :=
  ((List.range k).map (fun t => (Spec.Fips.W M t).toNat)).reverse

theorem rev_succ (M : Nat → Word) (k : Nat) :
    rev M (k + 1) = (Spec.Fips.W M k).toNat :: rev M k := by
  simp [rev, List.range_succ]

theorem rev_getD (M : Nat → Word) (k j : Nat) (h : j < k) :
    (rev M k).getD j 0 = (Spec.Fips.W M (k - 1 - j)).toNat := by
  induction k generalizing j with
  | zero => omega
  | succ k ih =>
    rw [rev_succ]
    cases j with
    | zero => simp
    | succ j =>
      rw [List.getD_cons_succ, ih j (by omega)]
      congr 2
      omega

theorem extend_rev (M : Nat → Word) (n k : Nat) (h : 16 ≤ k) :
    extend n (rev M k) = rev M (k + n) := by
  induction n generalizing k with
  | zero => rfl
  | succ n ih =>
    rw [extend, rev_getD M k 1 (by omega), rev_getD M k 6 (by omega), rev_getD M k 14 (by omega),
      rev_getD M k 15 (by omega), ssig0_toNat, ssig1_toNat, add_toNat, add_toNat, add_toNat]
    have hw : Spec.Fips.W M k = sigma1 (Spec.Fips.W M (k - 1 - 1)) + Spec.Fips.W M (k - 1 - 6) +
        (sigma0 (Spec.Fips.W M (k - 1 - 14)) + Spec.Fips.W M (k - 1 - 15)) := by
      conv => lhs; unfold Spec.Fips.W
      rw [if_neg (by omega), show k - 2 = k - 1 - 1 by omega, show k - 7 = k - 1 - 6 by omega,
        show k - 15 = k - 1 - 14 by omega, show k - 16 = k - 1 - 15 by omega, BitVec.add_assoc]
    rw [← hw, ← rev_succ, ih (k + 1) (by omega), Nat.add_assoc, Nat.add_comm 1 n]

theorem rev_16 (M : Nat → Word) : rev M 16 = ((List.range 16).map (fun t => (M t).toNat)).reverse := by
  unfold rev
  congr 1
  apply List.map_congr_left
  intro t ht
  rw [List.mem_range] at ht
  unfold Spec.Fips.W
  rw [if_pos ht]

/-! ## The rounds -/

theorem round_ofVars (v : Vars) (k w : Word) :
    round (ofVars v) (k.toNat, w.toNat) = ofVars (step k w v) := by
  simp only [round, ofVars, step, bsig0_toNat, bsig1_toNat, ch_toNat, maj_toNat, add_toNat]
  have h : v.h + Sigma1 v.e + (Ch v.e v.f v.g + k) + w = v.h + Sigma1 v.e + Ch v.e v.f v.g + k + w := by
    rw [← BitVec.add_assoc (v.h + Sigma1 v.e)]
  rw [h]

theorem foldl_round (M : Nat → Word) (v : Vars) (n : Nat) :
    ((List.range n).map (fun t => ((Spec.Fips.K t).toNat, (Spec.Fips.W M t).toNat))).foldl round
      (ofVars v) = ofVars (steps M v n) := by
  induction n with
  | zero => rfl
  | succ n ih =>
    rw [List.range_succ, List.map_append, List.foldl_append, ih]
    exact round_ofVars _ _ _

theorem block_ofVars (M : Nat → Word) (v : Vars) :
    block (ofVars v) ((List.range 16).map (fun t => (M t).toNat)) = ofVars (compress M v) := by
  have hw : (extend 48 ((List.range 16).map (fun t => (M t).toNat)).reverse).reverse =
      (List.range 64).map (fun t => (Spec.Fips.W M t).toNat) := by
    rw [← rev_16, extend_rev M 48 16 (by omega), rev, List.reverse_reverse]
  have hr : (Sha256.K.zip (extend 48 ((List.range 16).map (fun t => (M t).toNat)).reverse).reverse).foldl
      round (ofVars v) = ofVars (steps M v 64) := by
    rw [hw, K_eq, ← foldl_round, List.zip_map']
  unfold block
  rw [hr]
  simp only [ofVars, compress, add_toNat, BitVec.add_comm]

/-! ## The blocks -/

/-- Hash values block by block, from any value and any place. -/
def after (g : Nat → Word) (v : Vars) : Nat → Vars
  | 0 => v
  | i + 1 => compress (fun t => g (16 * i + t)) (after g v i)

theorem after_front (g : Nat → Word) (v : Vars) (k : Nat) :
    after g v (k + 1) = after (fun j => g (16 + j)) (compress (fun t => g t) v) k := by
  induction k with
  | zero => simp [after]
  | succ k ih =>
    rw [after, ih]
    conv => rhs; rw [after]
    congr 1
    funext t
    rw [show 16 * (k + 1) + t = 16 + (16 * k + t) by omega]

theorem hashAfter_eq (P : Bytes) (k : Nat) :
    hashAfter P k = after (word P) Spec.Fips.H0 k := by
  induction k with
  | zero => rfl
  | succ k ih => rw [hashAfter, after, ih]

theorem blocks_after (k : Nat) : ∀ (n : Nat) (v : Vars) (g : Nat → Word), k ≤ n →
    blocks n (ofVars v) ((List.range (16 * k)).map (fun j => (g j).toNat)) = ofVars (after g v k) := by
  induction k with
  | zero => intro n v g _; cases n <;> simp [blocks, after]
  | succ k ih =>
    intro n v g hn
    obtain ⟨n, rfl⟩ : ∃ n', n = n' + 1 := ⟨n - 1, by omega⟩
    have hs : List.range (16 * (k + 1)) = List.range 16 ++ (List.range (16 * k)).map (16 + ·) := by
      rw [show 16 * (k + 1) = 16 + 16 * k by omega, List.range_add]
    rw [blocks, if_neg (by simp [hs]), hs, List.map_append, List.take_left' (by simp),
      List.drop_left' (by simp), block_ofVars g v, List.map_map, after_front]
    exact ih n _ (fun j => g (16 + j)) (by omega)

/-! ## Words of the message -/

theorem word_cons4 (a b c d : UInt8) (t : Bytes) (j : Nat) :
    word (a :: b :: c :: d :: t) (j + 1) = word t j := by
  unfold word
  rw [show 4 * (j + 1) = 4 * j + 1 + 1 + 1 + 1 by omega]
  simp only [List.getD_cons_succ]

theorem word_zero (a b c d : UInt8) (t : Bytes) : (word (a :: b :: c :: d :: t) 0).toNat =
    ((a.toNat * 256 + b.toNat) * 256 + c.toNat) * 256 + d.toNat := by
  have ha := a.toNat_lt
  have hb := b.toNat_lt
  have hc := c.toNat_lt
  have hd := d.toNat_lt
  have hw : word (a :: b :: c :: d :: t) 0 =
      BitVec.ofNat 32 (a.toNat * 2 ^ 24 + b.toNat * 2 ^ 16 + c.toNat * 2 ^ 8 + d.toNat) := rfl
  rw [hw, BitVec.toNat_ofNat]
  omega

theorem map_range_succ (f g : Nat → Nat) (n : Nat) (h : ∀ j, f (j + 1) = g j) :
    (List.range (n + 1)).map f = f 0 :: (List.range n).map g := by
  rw [List.range_succ_eq_map, List.map_cons, List.map_map]
  exact congrArg _ (List.map_congr_left fun j _ => h j)

theorem words_eq (n : Nat) (b : Bytes) (h : b.length = 4 * n) :
    words b = (List.range n).map (fun j => (word b j).toNat) := by
  induction n generalizing b with
  | zero =>
    have : b = [] := List.eq_nil_of_length_eq_zero (by omega)
    subst this; rfl
  | succ n ih =>
    obtain ⟨a, b, c, d, t, rfl, ht⟩ : ∃ a b' c d t, b = a :: b' :: c :: d :: t ∧ t.length = 4 * n := by
      match b, h with
      | a :: b :: c :: d :: t, h =>
        exact ⟨a, b, c, d, t, rfl, by simp only [List.length_cons] at h; omega⟩
      | [], h => simp at h
      | [_], h => simp only [List.length_cons, List.length_nil] at h; omega
      | [_, _], h => simp only [List.length_cons, List.length_nil] at h; omega
      | [_, _, _], h => simp only [List.length_cons, List.length_nil] at h; omega
    rw [words, ih t ht, ← word_zero a b c d t]
    refine (map_range_succ (fun j => (word (a :: b :: c :: d :: t) j).toNat)
      (fun j => (word t j).toNat) n (fun j => ?_)).symm
    simp only [word_cons4]

theorem bytes4_eq (w : Word) : bytes4 w.toNat = Spec.Fips.bytes w := by
  have h := w.isLt
  unfold bytes4 Spec.Fips.bytes
  rw [show w.toNat / 16777216 % 256 = w.toNat / 2 ^ 24 by omega]

/-- The digest is the standard's, of the padded message. -/
theorem digest_eq (m : Bytes) (h64 : (pad m).length % 64 = 0) (hle : (pad m).length ≤ m.length + 72) :
    (digest m).val = Spec.Fips.hash (pad m) := by
  have hw := words_eq (16 * ((pad m).length / 64)) (pad m) (by omega)
  unfold digest Spec.Fips.hash
  rw [hw, H0_eq, blocks_after _ _ _ _ (by omega), hashAfter_eq]
  simp only [Words.out, ofVars, bytes4_eq]

/-! ## Roots -/

theorem rootFrom_spec (e n : Nat) : ∀ k c, c ^ e ≤ n → n < (c + 2 ^ k) ^ e →
    rootFrom e n k c ^ e ≤ n ∧ n < (rootFrom e n k c + 1) ^ e
  | 0, c, h1, h2 => by rw [Nat.pow_zero] at h2; exact ⟨h1, h2⟩
  | k + 1, c, h1, h2 => by
    unfold rootFrom
    split
    · rename_i h
      exact rootFrom_spec e n k _ h (by rw [Nat.add_assoc, ← Nat.two_mul, ← Nat.pow_succ']; exact h2)
    · rename_i h
      exact rootFrom_spec e n k c h1 (by omega)

end Sha256
end CyclesLedger
