import Verif.Model.Hash
import Verif.Proof.Leb
/-!
# The primitives themselves: SHA-256 and SLEB128

The theorems hold for every `Crypto`; here is the one the canister uses: crate `sha2`
(FIPS 180-4) and `candid::Int::encode`.  Words are numbers below 2^32.
-/
namespace CyclesLedger

namespace Sha256

def W : Nat := 4294967296

def add (a b : Nat) : Nat := (a + b) % W
def rotr (x n : Nat) : Nat := (x >>> n) ||| ((x <<< (32 - n)) % W)
def ch (x y z : Nat) : Nat := (x &&& y) ^^^ ((W - 1 - x) &&& z)
def maj (x y z : Nat) : Nat := (x &&& y) ^^^ (x &&& z) ^^^ (y &&& z)
def bsig0 (x : Nat) : Nat := rotr x 2 ^^^ rotr x 13 ^^^ rotr x 22
def bsig1 (x : Nat) : Nat := rotr x 6 ^^^ rotr x 11 ^^^ rotr x 25
def ssig0 (x : Nat) : Nat := rotr x 7 ^^^ rotr x 18 ^^^ (x >>> 3)
def ssig1 (x : Nat) : Nat := rotr x 17 ^^^ rotr x 19 ^^^ (x >>> 10)

/-- FIPS 180-4, 4.2.2. -/
def K : List Nat :=
  [0x428a2f98, 0x71374491, 0xb5c0fbcf, 0xe9b5dba5, 0x3956c25b, 0x59f111f1, 0x923f82a4, 0xab1c5ed5,
   0xd807aa98, 0x12835b01, 0x243185be, 0x550c7dc3, 0x72be5d74, 0x80deb1fe, 0x9bdc06a7, 0xc19bf174,
   0xe49b69c1, 0xefbe4786, 0x0fc19dc6, 0x240ca1cc, 0x2de92c6f, 0x4a7484aa, 0x5cb0a9dc, 0x76f988da,
   0x983e5152, 0xa831c66d, 0xb00327c8, 0xbf597fc7, 0xc6e00bf3, 0xd5a79147, 0x06ca6351, 0x14292967,
   0x27b70a85, 0x2e1b2138, 0x4d2c6dfc, 0x53380d13, 0x650a7354, 0x766a0abb, 0x81c2c92e, 0x92722c85,
   0xa2bfe8a1, 0xa81a664b, 0xc24b8b70, 0xc76c51a3, 0xd192e819, 0xd6990624, 0xf40e3585, 0x106aa070,
   0x19a4c116, 0x1e376c08, 0x2748774c, 0x34b0bcb5, 0x391c0cb3, 0x4ed8aa4a, 0x5b9cca4f, 0x682e6ff3,
   0x748f82ee, 0x78a5636f, 0x84c87814, 0x8cc70208, 0x90befffa, 0xa4506ceb, 0xbef9a3f7, 0xc67178f2]

/-- Eight words. -/
structure Words where
  (a b c d e f g h : Nat)

/-- FIPS 180-4, 5.3.3. -/
def H0 : Words :=
  ⟨0x6a09e667, 0xbb67ae85, 0x3c6ef372, 0xa54ff53a,
    0x510e527f, 0x9b05688c, 0x1f83d9ab, 0x5be0cd19⟩

/-- FIPS 180-4, 5.1.1: a one bit, zeros, and the length in bits. -/
def pad (m : Bytes) : Bytes :=
  m ++ 0x80 :: List.replicate ((119 - m.length % 64) % 64) 0 ++
    (List.range 8).map (fun i => UInt8.ofNat (8 * m.length / 256 ^ (7 - i) % 256))

/-- Big-endian words. -/
def words : Bytes → List Nat
  | a :: b :: c :: d :: t =>
    (((a.toNat * 256 + b.toNat) * 256 + c.toNat) * 256 + d.toNat) :: words t
  | _ => []

/-- The message schedule, the last word first: `n` more words. -/
def extend : Nat → List Nat → List Nat
  | 0, w => w
  | n + 1, w =>
    extend n (add (add (ssig1 (w.getD 1 0)) (w.getD 6 0)) (add (ssig0 (w.getD 14 0)) (w.getD 15 0)) :: w)

/-- One round. -/
def round (s : Words) (kw : Nat × Nat) : Words :=
  let t1 := add (add (add s.h (bsig1 s.e)) (add (ch s.e s.f s.g) kw.1)) kw.2
  let t2 := add (bsig0 s.a) (maj s.a s.b s.c)
  ⟨add t1 t2, s.a, s.b, s.c, add s.d t1, s.e, s.f, s.g⟩

/-- One block of 16 words. -/
def block (s : Words) (w : List Nat) : Words :=
  let r := (K.zip (extend 48 w.reverse).reverse).foldl round s
  ⟨add s.a r.a, add s.b r.b, add s.c r.c, add s.d r.d, add s.e r.e, add s.f r.f, add s.g r.g,
    add s.h r.h⟩

/-- All blocks; at most `n`. -/
def blocks : Nat → Words → List Nat → Words
  | 0, s, _ => s
  | n + 1, s, w => if w = [] then s else blocks n (block s (w.take 16)) (w.drop 16)

/-- The four bytes of a word. -/
def bytes4 (x : Nat) : Bytes :=
  [UInt8.ofNat (x / 16777216 % 256), UInt8.ofNat (x / 65536 % 256), UInt8.ofNat (x / 256 % 256),
    UInt8.ofNat (x % 256)]

/-- The bytes of eight words. -/
def Words.out (s : Words) : Hash :=
  ⟨bytes4 s.a ++ bytes4 s.b ++ bytes4 s.c ++ bytes4 s.d ++ bytes4 s.e ++ bytes4 s.f ++
    bytes4 s.g ++ bytes4 s.h, rfl⟩

/-- SHA-256. -/
def digest (m : Bytes) : Hash := (blocks (m.length / 64 + 2) H0 (words (pad m))).out

end Sha256

/-- SLEB128 of a non-negative number (`candid::Int::encode`): the last byte leaves its sign bit
(64) clear. -/
def sleb128 (n : Nat) : Bytes :=
  if h : n < 64 then [UInt8.ofNat n]
  else UInt8.ofNat (n % 128 + 128) :: sleb128 (n / 128)
  termination_by n
  decreasing_by omega

theorem ofLeb128_sleb128 (n : Nat) : ofLeb128 (sleb128 n) = n := by
  induction n using Nat.strongRecOn with
  | ind n ih =>
    unfold sleb128
    split
    · rename_i h
      simp only [ofLeb128, UInt8.toNat_ofNat']
      omega
    · rename_i h
      simp only [ofLeb128]
      rw [ih (n / 128) (by omega), UInt8.toNat_ofNat']
      omega

/-- The primitives of the canister. -/
@[instance_reducible] def realCrypto : Crypto where
  digest := Sha256.digest
  intEnc := sleb128
  intEnc_decodes := ofLeb128_sleb128

end CyclesLedger
