import Verif.Model.Endpoints
/-!
# Metadata endpoints: cycles-ledger/src/main.rs:74-191, 478-484

The URLs of `icrc1_supported_standards` and of `icrc3_supported_block_types` and the logo are left
out.  `Principal::to_text` is that of the `ic_principal` crate (the textual representation of the
IC interface specification).
-/
namespace CyclesLedger

/-- One bit of the CRC-32 of IEEE 802.3. -/
def crcBit (c : Nat) : Nat := if c % 2 = 1 then (c / 2) ^^^ 0xEDB88320 else c / 2

/-- One byte. -/
def crcByte (c : Nat) (b : UInt8) : Nat :=
  crcBit (crcBit (crcBit (crcBit (crcBit (crcBit (crcBit (crcBit (c ^^^ b.toNat))))))))

/-- CRC-32. -/
def crc32 (bs : Bytes) : Nat := (bs.foldl crcByte 0xFFFFFFFF) ^^^ 0xFFFFFFFF

/-- Big-endian, four bytes. -/
def be32 (n : Nat) : Bytes :=
  [UInt8.ofNat (n / 2 ^ 24), UInt8.ofNat (n / 2 ^ 16), UInt8.ofNat (n / 2 ^ 8), UInt8.ofNat n]

/-- The bits of a byte, most significant first. -/
def byteBits (b : UInt8) : List Bool :=
  [b.toNat / 128 % 2 = 1, b.toNat / 64 % 2 = 1, b.toNat / 32 % 2 = 1, b.toNat / 16 % 2 = 1,
   b.toNat / 8 % 2 = 1, b.toNat / 4 % 2 = 1, b.toNat / 2 % 2 = 1, b.toNat % 2 = 1]

/-- The base 32 digit for up to five bits, padded with zeros. -/
def base32Digit (bits : List Bool) : Char :=
  let bit (i : Nat) : Nat := if bits.getD i false then 1 else 0
  let v := 16 * bit 0 + 8 * bit 1 + 4 * bit 2 + 2 * bit 3 + bit 4
  Char.ofNat (if v < 26 then 97 + v else 24 + v)

/-- Base 32 (RFC 4648), lower case, without padding. -/
def base32 : List Bool → List Char
  | a :: b :: c :: d :: e :: rest => base32Digit [a, b, c, d, e] :: base32 rest
  | [] => []
  | bits => [base32Digit bits]

/-- A dash after every five characters. -/
def dashed : List Char → List Char
  | a :: b :: c :: d :: e :: f :: rest => a :: b :: c :: d :: e :: '-' :: dashed (f :: rest)
  | cs => cs

/-- `Principal::to_text`. -/
def Principal.toText (p : Principal) : String :=
  String.ofList (dashed (base32 ((be32 (crc32 p.bytes) ++ p.bytes).flatMap byteBits)))

/-- `MetadataValue`. -/
inductive MetaValue where
  | nat (n : Nat)
  | text (t : String)
  | blob (b : Bytes)
  deriving DecidableEq

/-- `icrc1_name` (main.rs:74-77). -/
def icrc1Name : String := "Trillion Cycles"
/-- `icrc1_symbol` (main.rs:79-82). -/
def icrc1Symbol : String := "TCYCLES"
/-- `icrc1_decimals` (main.rs:84-87). -/
def icrc1Decimals : Nat := 12
/-- `icrc1_fee` (main.rs:89-92). -/
def icrc1Fee : Nat := FEE
/-- `icrc1_minting_account` (main.rs:94-97). -/
def icrc1MintingAccount : Option Account := none

/-- `icrc1_metadata` (main.rs:171-191), without the logo. -/
def icrc1Metadata (s : State) : List (String × MetaValue) :=
  [("icrc1:decimals", .nat icrc1Decimals), ("icrc1:name", .text icrc1Name),
   ("icrc1:symbol", .text icrc1Symbol), ("icrc1:fee", .nat FEE),
   ("icrc1:max_memo_length", .nat MAX_MEMO_LENGTH),
   ("dfn:max_blocks_per_request", .nat s.config.maxBlocksPerRequest)] ++
  match s.config.indexId with
  | some p => [("icrc106:index_principal", .text p.toText), ("dfn:index_id", .blob p.bytes)]
  | none => []

/-- `icrc3_supported_block_types` (main.rs:140-164), the type names. -/
def icrc3SupportedBlockTypes : List String := ["1burn", "1mint", "2xfer", "2approve"]

end CyclesLedger
