import Verif.Model.Hash
/-!
# SHA-256 as FIPS 180-4 puts it

Words are `BitVec 32`; the schedule and the rounds are indexed as in the standard; the constants
are the roots of primes the standard says they are, computed.
-/
namespace CyclesLedger
namespace Spec.Fips

abbrev Word := BitVec 32

/-! ## 4.1.2 Functions -/

def Ch (x y z : Word) : Word := (x &&& y) ^^^ (~~~x &&& z)
def Maj (x y z : Word) : Word := (x &&& y) ^^^ (x &&& z) ^^^ (y &&& z)
def Sigma0 (x : Word) : Word := x.rotateRight 2 ^^^ x.rotateRight 13 ^^^ x.rotateRight 22
def Sigma1 (x : Word) : Word := x.rotateRight 6 ^^^ x.rotateRight 11 ^^^ x.rotateRight 25
def sigma0 (x : Word) : Word := x.rotateRight 7 ^^^ x.rotateRight 18 ^^^ (x >>> 3)
def sigma1 (x : Word) : Word := x.rotateRight 17 ^^^ x.rotateRight 19 ^^^ (x >>> 10)

/-! ## 4.2.2, 5.3.3 Constants -/

/-- The digits of the root, from bit `k` down. -/
def rootFrom (e n : Nat) : Nat → Nat → Nat
  | 0, c => c
  | k + 1, c => rootFrom e n k (if (c + 2 ^ k) ^ e ≤ n then c + 2 ^ k else c)

/-- The first 32 bits of the fractional part of the `e`-th root of `p`. -/
def fracRoot (e p : Nat) : Word := BitVec.ofNat 32 (rootFrom e (p * 2 ^ (32 * e)) 40 0)

def isPrime (n : Nat) : Bool := decide (2 ≤ n) && (List.range n).all (fun d => d < 2 || n % d != 0)

/-- The first 64 primes. -/
def primes : List Nat := (List.range 312).filter isPrime

/-- "The first thirty-two bits of the fractional parts of the cube roots of the first sixty-four
prime numbers". -/
def K (t : Nat) : Word := fracRoot 3 (primes.getD t 0)

/-- The working variables. -/
structure Vars where
  (a b c d e f g h : Word)

/-- "... of the square roots of the first eight prime numbers". -/
def H0 : Vars :=
  ⟨fracRoot 2 2, fracRoot 2 3, fracRoot 2 5, fracRoot 2 7, fracRoot 2 11, fracRoot 2 13,
    fracRoot 2 17, fracRoot 2 19⟩

/-! ## 6.2.2 Hash computation -/

/-- The message schedule of a block. -/
def W (M : Nat → Word) (t : Nat) : Word :=
  if t < 16 then M t
  else sigma1 (W M (t - 2)) + W M (t - 7) + sigma0 (W M (t - 15)) + W M (t - 16)
  termination_by t

/-- Step 3, for one `t`. -/
def step (k w : Word) (v : Vars) : Vars :=
  let T1 := v.h + Sigma1 v.e + Ch v.e v.f v.g + k + w
  let T2 := Sigma0 v.a + Maj v.a v.b v.c
  { h := v.g, g := v.f, f := v.e, e := v.d + T1, d := v.c, c := v.b, b := v.a, a := T1 + T2 }

/-- The variables after `t` steps. -/
def steps (M : Nat → Word) (v : Vars) : Nat → Vars
  | 0 => v
  | t + 1 => step (K t) (W M t) (steps M v t)

/-- Step 4: the next intermediate hash value. -/
def compress (M : Nat → Word) (v : Vars) : Vars :=
  let r := steps M v 64
  ⟨r.a + v.a, r.b + v.b, r.c + v.c, r.d + v.d, r.e + v.e, r.f + v.f, r.g + v.g, r.h + v.h⟩

/-- Word `j` of a message: four bytes, the first the most significant. -/
def word (P : Bytes) (j : Nat) : Word :=
  BitVec.ofNat 32 ((P.getD (4 * j) 0).toNat * 2 ^ 24 + (P.getD (4 * j + 1) 0).toNat * 2 ^ 16 +
    (P.getD (4 * j + 2) 0).toNat * 2 ^ 8 + (P.getD (4 * j + 3) 0).toNat)

/-- The intermediate hash value after `i` blocks. -/
def hashAfter (P : Bytes) : Nat → Vars
  | 0 => H0
  | i + 1 => compress (fun t => word P (16 * i + t)) (hashAfter P i)

/-- The bytes of a word. -/
def bytes (w : Word) : Bytes :=
  [UInt8.ofNat (w.toNat / 2 ^ 24), UInt8.ofNat (w.toNat / 2 ^ 16 % 256),
    UInt8.ofNat (w.toNat / 2 ^ 8 % 256), UInt8.ofNat (w.toNat % 256)]

/-- The message digest of a padded message. -/
def hash (P : Bytes) : Bytes :=
  let v := hashAfter P (P.length / 64)
  bytes v.a ++ bytes v.b ++ bytes v.c ++ bytes v.d ++ bytes v.e ++ bytes v.f ++ bytes v.g ++ bytes v.h

/-- 5.1.1: the message, a one bit, as few zeros as possible, the number of bits of the message. -/
def IsPadded (m P : Bytes) : Prop :=
  P.length % 64 = 0 ∧ ∃ k L, k < 64 ∧ P = m ++ 0x80 :: List.replicate k 0 ++ L ∧ L.length = 8 ∧
    ofBytesBE L = 8 * m.length

end Spec.Fips
end CyclesLedger
