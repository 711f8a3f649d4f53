import Verif.Model.Types
/-!
# Reading the textual representation of a principal

After the IC interface specification: drop the dashes, read base 32 (RFC 4648, lower case), drop
the four bytes of the checksum.
-/
namespace CyclesLedger.Spec

/-- The value of a base 32 digit, as five bits. -/
def digitBits (c : Char) : List Bool :=
  let v := if 97 ≤ c.toNat ∧ c.toNat ≤ 122 then c.toNat - 97
    else if 50 ≤ c.toNat ∧ c.toNat ≤ 55 then c.toNat - 24 else 0
  [v / 16 % 2 = 1, v / 8 % 2 = 1, v / 4 % 2 = 1, v / 2 % 2 = 1, v % 2 = 1]

/-- A byte from eight bits, most significant first. -/
def byteOf (a b c d e f g h : Bool) : UInt8 :=
  let n (x : Bool) : Nat := if x then 1 else 0
  UInt8.ofNat (128 * n a + 64 * n b + 32 * n c + 16 * n d + 8 * n e + 4 * n f + 2 * n g + n h)

/-- The whole bytes in a list of bits. -/
def bytesOf : List Bool → Bytes
  | a :: b :: c :: d :: e :: f :: g :: h :: rest => byteOf a b c d e f g h :: bytesOf rest
  | _ => []

/-- The bytes of the principal written as `t`. -/
def principalBytes (t : String) : Bytes :=
  (bytesOf ((t.toList.filter (fun c => decide (c ≠ '-'))).flatMap digitBits)).drop 4

end CyclesLedger.Spec
