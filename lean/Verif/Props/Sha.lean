import Verif.Model.Sha256
import Verif.Proof.Fips
import Verif.Model.ConfigStore
import Verif.Props.Client
/-!
# C80: the primitives themselves
-/
namespace CyclesLedger

namespace Sha256

theorem pad_length (m : Bytes) : (pad m).length % 64 = 0 ∧ (pad m).length ≤ m.length + 72 ∧
    m.length + 9 ≤ (pad m).length := by
  simp only [pad, List.length_append, List.length_cons, List.length_replicate, List.length_map,
    List.length_range]
  omega

theorem digits8 {x y : Nat} (hx : x < 2 ^ 64) (hy : y < 2 ^ 64)
    (h : (List.range 8).map (fun i => UInt8.ofNat (x / 256 ^ (7 - i) % 256)) =
      (List.range 8).map (fun i => UInt8.ofNat (y / 256 ^ (7 - i) % 256))) : x = y := by
  have hd : ∀ i, i < 8 → x / 256 ^ (7 - i) % 256 = y / 256 ^ (7 - i) % 256 := by
    intro i hi
    have h1 := congrArg (fun l => l[i]?) h
    simp only [List.getElem?_map, List.getElem?_range hi, Option.map_some, Option.some.injEq] at h1
    have h2 := congrArg UInt8.toNat h1
    simp only [UInt8.toNat_ofNat'] at h2
    omega
  have h0 := hd 0 (by omega)
  have h1 := hd 1 (by omega)
  have h2 := hd 2 (by omega)
  have h3 := hd 3 (by omega)
  have h4 := hd 4 (by omega)
  have h5 := hd 5 (by omega)
  have h6 := hd 6 (by omega)
  have h7 := hd 7 (by omega)
  simp only [Nat.reduceSub, Nat.reducePow] at *
  omega

theorem readDigits : ∀ (n x : Nat),
    ofLE ((List.range n).map (fun i => UInt8.ofNat (x / 256 ^ i % 256))) = x % 256 ^ n
  | 0, x => by simp [ofLE, Nat.mod_one]
  | n + 1, x => by
    have h1 : (fun i => UInt8.ofNat (x / 256 ^ i % 256)) ∘ Nat.succ =
        fun i => UInt8.ofNat (x / 256 / 256 ^ i % 256) := by
      funext i
      simp only [Function.comp, Nat.succ_eq_add_one]
      rw [Nat.pow_succ, Nat.mul_comm, ← Nat.div_div_eq_div_mul]
    rw [List.range_succ_eq_map, List.map_cons, List.map_map, ofLE, h1, readDigits n (x / 256),
      Nat.pow_zero, Nat.div_one, UInt8.toNat_ofNat', Nat.mod_mod,
      show 256 ^ (n + 1) = 256 * 256 ^ n by rw [Nat.pow_succ, Nat.mul_comm], Nat.mod_mul]

theorem reverse8 (g : Nat → UInt8) :
    ((List.range 8).map (fun i => g (7 - i))).reverse = (List.range 8).map g := rfl

theorem read8 (x : Nat) (hx : x < 256 ^ 8) :
    ofLE ((List.range 8).map (fun i => UInt8.ofNat (x / 256 ^ (7 - i) % 256))).reverse = x := by
  rw [reverse8 (fun i => UInt8.ofNat (x / 256 ^ i % 256)), readDigits, Nat.mod_eq_of_lt hx]

theorem words_length : ∀ (n : Nat) (b : Bytes), b.length = 4 * n → (words b).length = n
  | 0, b, h => by
    have : b = [] := List.eq_nil_of_length_eq_zero (by omega)
    subst this; rfl
  | n + 1, b, h => by
    match b, h with
    | a :: b :: c :: d :: t, h =>
      simp only [words, List.length_cons]
      rw [words_length n t (by simp only [List.length_cons] at h; omega)]
    | [], h => simp at h
    | [_], h => simp only [List.length_cons, List.length_nil] at h; omega
    | [_, _], h => simp only [List.length_cons, List.length_nil] at h; omega
    | [_, _, _], h => simp only [List.length_cons, List.length_nil] at h; omega

theorem blocks_all : ∀ (k n : Nat) (s : Words) (w : List Nat), w.length = 16 * k → k ≤ n →
    ∃ cs : List (List Nat), (∀ c ∈ cs, c.length = 16) ∧ cs.flatten = w ∧
      blocks n s w = cs.foldl block s
  | 0, n, s, w, h, _ => by
    have : w = [] := List.eq_nil_of_length_eq_zero (by omega)
    subst this
    refine ⟨[], by simp, rfl, ?_⟩
    cases n <;> simp [blocks]
  | k + 1, 0, s, w, _, h => by omega
  | k + 1, n + 1, s, w, h, hn => by
    obtain ⟨cs, h1, h2, h3⟩ := blocks_all k n (block s (w.take 16)) (w.drop 16)
      (by rw [List.length_drop]; omega) (by omega)
    have hne : w ≠ [] := by intro h0; rw [h0] at h; simp at h
    refine ⟨w.take 16 :: cs, ?_, ?_, ?_⟩
    · intro c hc
      rcases List.mem_cons.1 hc with rfl | hc
      · rw [List.length_take]; omega
      · exact h1 c hc
    · rw [List.flatten_cons, h2, List.take_append_drop]
    · rw [blocks, if_neg hne, h3, List.foldl_cons]

end Sha256

/-- **C80**: the padding is unambiguous: two messages (of less than 2^61 bytes) that are padded to
the same blocks are equal. -/
theorem C80_padding {m m' : Bytes} (hm : m.length < 2 ^ 61) (hm' : m'.length < 2 ^ 61)
    (h : Sha256.pad m = Sha256.pad m') : m = m' := by
  unfold Sha256.pad at h
  obtain ⟨h1, h2⟩ := List.append_inj' h (by simp)
  have hl := Sha256.digits8 (by omega) (by omega) h2
  exact (List.append_inj h1 (by omega)).1

/-- **C80**: the digest takes in the whole padded message, cut into blocks of 16 words, in order. -/
theorem C80_whole_message (m : Bytes) :
    ∃ cs : List (List Nat), (∀ c ∈ cs, c.length = 16) ∧
      cs.flatten = Sha256.words (Sha256.pad m) ∧
      (Sha256.words (Sha256.pad m)).length * 4 = (Sha256.pad m).length ∧
      Sha256.digest m = (cs.foldl Sha256.block Sha256.H0).out := by
  obtain ⟨h1, h2, _⟩ := Sha256.pad_length m
  have hw := Sha256.words_length ((Sha256.pad m).length / 4) (Sha256.pad m) (by omega)
  obtain ⟨cs, h4, h5, h6⟩ := Sha256.blocks_all ((Sha256.pad m).length / 64) (m.length / 64 + 2)
    Sha256.H0 (Sha256.words (Sha256.pad m)) (by rw [hw]; omega) (by omega)
  exact ⟨cs, h4, h5, by rw [hw]; omega, by rw [Sha256.digest, h6]⟩

/-- **C80**: SLEB128 is read back by the LEB128 reader; no two numbers are written alike, by either. -/
theorem C80_encodings (n k : Nat) :
    ofLeb128 (sleb128 n) = n ∧ (sleb128 n = sleb128 k → n = k) ∧ (sleb128 n = leb128 k → n = k) := by
  refine ⟨ofLeb128_sleb128 n, fun h => ?_, fun h => ?_⟩
  · have := congrArg ofLeb128 h
    rwa [ofLeb128_sleb128, ofLeb128_sleb128] at this
  · have := congrArg ofLeb128 h
    rwa [ofLeb128_sleb128, ofLeb128_leb128] at this

/-- Reading SLEB128: seven bits a byte, least significant first; the top bit of every byte but the
last is set; the sign is bit 6 of the last byte. -/
def Spec.readSigned : Bytes → Option Int
  | [] => none
  | [b] => if b.toNat < 64 then some b.toNat else if b.toNat < 128 then some (b.toNat - 128) else none
  | b :: b' :: bs =>
    if b.toNat < 128 then none
    else (Spec.readSigned (b' :: bs)).map (fun v => (b.toNat - 128 : Int) + 128 * v)

/-- **C80**: the reader of signed numbers gets the (non-negative) number that was written. -/
theorem C80_signed (n : Nat) : Spec.readSigned (sleb128 n) = some (n : Int) := by
  induction n using Nat.strongRecOn with
  | ind n ih =>
    rw [sleb128]
    split
    · rename_i h
      have h1 : (UInt8.ofNat n).toNat = n := by rw [UInt8.toNat_ofNat']; omega
      rw [Spec.readSigned, h1, if_pos h]
    · rename_i h
      have h1 : (UInt8.ofNat (n % 128 + 128)).toNat = n % 128 + 128 := by
        rw [UInt8.toNat_ofNat']; omega
      have ih := ih (n / 128) (by omega)
      cases hs : sleb128 (n / 128) with
      | nil => rw [hs] at ih; cases ih
      | cons b bs =>
        rw [hs] at ih
        rw [Spec.readSigned, h1, if_neg (by omega), ih, Option.map_some]
        exact congrArg some (by omega)

/-- **C80**: the padded message is the message, a one bit, as few zeros as fill the last block, and
the length of the message in bits, big-endian in the last eight bytes. -/
theorem C80_layout (m : Bytes) (hm : m.length < 2 ^ 61) :
    m ++ [0x80] <+: Sha256.pad m ∧ (Sha256.pad m).length % 64 = 0 ∧
    (Sha256.pad m).length < m.length + 9 + 64 ∧ m.length + 9 ≤ (Sha256.pad m).length ∧
    ofBytesBE ((Sha256.pad m).drop ((Sha256.pad m).length - 8)) = 8 * m.length ∧
    ∀ i, m.length < i → i < (Sha256.pad m).length - 8 → (Sha256.pad m)[i]? = some 0 := by
  obtain ⟨h1, h2, h3⟩ := Sha256.pad_length m
  have hl : (Sha256.pad m).length =
      m.length + 1 + (119 - m.length % 64) % 64 + 8 := by
    simp [Sha256.pad]; omega
  refine ⟨?_, h1, by omega, h3, ?_, ?_⟩
  · exact ⟨_, by rw [Sha256.pad, List.append_assoc, List.append_assoc]; rfl⟩
  · have hd : (Sha256.pad m).drop ((Sha256.pad m).length - 8) =
        (List.range 8).map (fun i => UInt8.ofNat (8 * m.length / 256 ^ (7 - i) % 256)) := by
      rw [hl, Sha256.pad]
      apply List.drop_left'
      simp only [List.length_append, List.length_cons, List.length_replicate]
      omega
    rw [hd, ofBytesBE]
    exact Sha256.read8 (8 * m.length)
      (Nat.lt_of_lt_of_le (Nat.mul_lt_mul_of_pos_left hm (by decide)) (by decide))
  · intro i hi hi2
    rw [hl] at hi2
    rw [Sha256.pad, List.getElem?_append_left (by simp; omega), List.getElem?_append_right (by omega)]
    obtain ⟨k, hk⟩ : ∃ k, i - m.length = k + 1 := ⟨i - m.length - 1, by omega⟩
    rw [hk, List.getElem?_cons_succ, List.getElem?_replicate, if_pos (by omega)]

/-- **C80**: the digest is the one FIPS 180-4 defines: of the padded message, with the schedule, the
steps and the constants of the standard. -/
theorem C80_fips (m : Bytes) (hm : m.length < 2 ^ 61) :
    ∃ P, Spec.Fips.IsPadded m P ∧ (Sha256.digest m).val = Spec.Fips.hash P := by
  obtain ⟨h1, h2, h3⟩ := Sha256.pad_length m
  refine ⟨Sha256.pad m, ⟨h1, (119 - m.length % 64) % 64, _, by omega, rfl, by simp, ?_⟩,
    Sha256.digest_eq m h1 h2⟩
  rw [ofBytesBE]
  exact Sha256.read8 (8 * m.length)
    (Nat.lt_of_lt_of_le (Nat.mul_lt_mul_of_pos_left hm (by decide)) (by decide))

/-- **C80**: where "the first 32 bits of the fractional part of the root" are computed right. -/
theorem C80_roots (e p : Nat) (h : p < 2 ^ (8 * e)) (he : 0 < e) :
    ∃ c, c ^ e ≤ p * 2 ^ (32 * e) ∧ p * 2 ^ (32 * e) < (c + 1) ^ e ∧
      (Spec.Fips.fracRoot e p).toNat = c % 2 ^ 32 := by
  have h1 : p * 2 ^ (32 * e) < (0 + 2 ^ 40) ^ e := by
    rw [Nat.zero_add, ← Nat.pow_mul, show 40 * e = 8 * e + 32 * e by omega, Nat.pow_add]
    exact Nat.mul_lt_mul_of_pos_right h (Nat.two_pow_pos _)
  have h2 := Sha256.rootFrom_spec e (p * 2 ^ (32 * e)) 40 0 (by rw [Nat.zero_pow he]; exact Nat.zero_le _) h1
  exact ⟨_, h2.1, h2.2, by rw [Spec.Fips.fracRoot, BitVec.toNat_ofNat]⟩

/-- The first prime is 2 and the 64th is 311; the first words of the tables. -/
example : Spec.Fips.primes.length = 64 ∧ Spec.Fips.primes.take 5 = [2, 3, 5, 7, 11] ∧
    Spec.Fips.primes.getLast? = some 311 ∧ Spec.Fips.K 0 = 0x428a2f98 ∧
    Spec.Fips.H0.a = 0x6a09e667 := by decide +kernel

/-- Three bytes; two bytes although the number has seven bits only; the length of a padded message. -/
example : Spec.readSigned [0xe5, 0x8e, 0x26] = some 624485 ∧ Spec.readSigned [0x7f] = some (-1) ∧
    Spec.readSigned [0xc0, 0x00] = some 64 ∧ (Sha256.pad [0x61, 0x62, 0x63]).length = 64 ∧
    (Sha256.pad (List.replicate 56 0)).length = 128 := by decide +kernel

/-- **C80**: with SHA-256, whichever way integers are encoded, a client that verified a certified
log knows the balances, the supply and the allowances, or one of the strings it hashed has the
SHA-256 digest of another string that the ledger hashed. -/
theorem C80_client [Crypto] (hs : ∀ m, Crypto.digest m = Sha256.digest m) {y : Sys}
    (h : Reachable y) (t : HashTree) (vs : List Value)
    (bs : List Block) (hp : ∀ v ∈ vs, Spec.Proper v)
    (hc : Client.Accepts y.ledger.certifiedData t vs bs) :
    (bs = y.ledger.blocks ∧
      (∀ a, (icrc1BalanceOf y.ledger a : Int) = Spec.balance bs (Spec.idOf a)) ∧
      (icrc1TotalSupply y.ledger : Int) = Spec.supply bs ∧
      (∀ a sp now, y.now ≤ now → Spec.spendable y.ledger a sp now =
        Spec.live now (Spec.allowances bs (Spec.idOf a, Spec.idOf sp)))) ∨
    ∃ x ∈ vs.flatMap Spec.hashed ++ Spec.treeHashed t,
    ∃ x' ∈ Spec.logHashed y.ledger.blocks ++ Spec.treeHashed (tipHashTree y.ledger),
      x ≠ x' ∧ Sha256.digest x = Sha256.digest x' := by
  rcases C65_believed h t vs bs hp hc with h1 | ⟨x, hx, x', hx', hne, hd⟩
  · exact Or.inl h1.2
  · exact Or.inr ⟨x, hx, x', hx', hne, by rw [← hs, ← hs]; exact hd⟩

/-- Both encodings of integers. -/
example : (∀ m, realCrypto.digest m = Sha256.digest m) ∧
    (∀ m, (⟨Sha256.digest, leb128, ofLeb128_leb128⟩ : Crypto).digest m = Sha256.digest m) :=
  ⟨fun _ => rfl, fun _ => rfl⟩

/-- `SHA-256("abc")` (FIPS 180-4), and a message that needs two blocks. -/
example :
    (Sha256.digest [0x61, 0x62, 0x63]).val =
      [0xba, 0x78, 0x16, 0xbf, 0x8f, 0x01, 0xcf, 0xea, 0x41, 0x41, 0x40, 0xde, 0x5d, 0xae, 0x22, 0x23,
      0xb0, 0x03, 0x61, 0xa3, 0x96, 0x17, 0x7a, 0x9c, 0xb4, 0x10, 0xff, 0x61, 0xf2, 0x00, 0x15, 0xad] ∧
    (Sha256.digest (List.replicate 64 0x61)).val =
      [0xff, 0xe0, 0x54, 0xfe, 0x7a, 0xe0, 0xcb, 0x6d, 0xc6, 0x5c, 0x3a, 0xf9, 0xb6, 0x1d, 0x52, 0x09,
      0xf4, 0x39, 0x85, 0x1d, 0xb4, 0x3d, 0x0b, 0xa5, 0x99, 0x73, 0x37, 0xdf, 0x15, 0x46, 0x68, 0xeb] := by
  decide +kernel

/-- The test vectors of the ICRC-3 standard: nat, int, text, blob, array and map. -/
example :
    (@Value.hash realCrypto (.nat 42)).val =
      [0x68, 0x48, 0x88, 0xc0, 0xeb, 0xb1, 0x7f, 0x37, 0x42, 0x98, 0xb6, 0x5e, 0xe2, 0x80, 0x75, 0x26,
      0xc0, 0x66, 0x09, 0x4c, 0x70, 0x1b, 0xcc, 0x7e, 0xbb, 0xe1, 0xc1, 0x09, 0x5f, 0x49, 0x4f, 0xc1] ∧
    (@Value.hash realCrypto (.int 42)).val =
      [0x68, 0x48, 0x88, 0xc0, 0xeb, 0xb1, 0x7f, 0x37, 0x42, 0x98, 0xb6, 0x5e, 0xe2, 0x80, 0x75, 0x26,
      0xc0, 0x66, 0x09, 0x4c, 0x70, 0x1b, 0xcc, 0x7e, 0xbb, 0xe1, 0xc1, 0x09, 0x5f, 0x49, 0x4f, 0xc1] ∧
    (@Value.hash realCrypto (.text (asciiText "Hello, World!"))).val =
      [0xdf, 0xfd, 0x60, 0x21, 0xbb, 0x2b, 0xd5, 0xb0, 0xaf, 0x67, 0x62, 0x90, 0x80, 0x9e, 0xc3, 0xa5,
      0x31, 0x91, 0xdd, 0x81, 0xc7, 0xf7, 0x0a, 0x4b, 0x28, 0x68, 0x8a, 0x36, 0x21, 0x82, 0x98, 0x6f] ∧
    (@Value.hash realCrypto (.blob [0xde, 0xad, 0xbe, 0xef])).val =
      [0x5f, 0x78, 0xc3, 0x32, 0x74, 0xe4, 0x3f, 0xa9, 0xde, 0x56, 0x59, 0x26, 0x5c, 0x1d, 0x91, 0x7e,
      0x25, 0xc0, 0x37, 0x22, 0xdc, 0xb0, 0xb8, 0xd2, 0x7d, 0xb8, 0xd5, 0xfe, 0xaa, 0x81, 0x39, 0x53] ∧
    (@Value.hash realCrypto (.array [.nat 3, .text (asciiText "foo"), .blob [5, 6]])).val =
      [0x51, 0x4a, 0x04, 0x01, 0x1c, 0xaa, 0x50, 0x39, 0x90, 0xd4, 0x46, 0xb7, 0xde, 0xc5, 0xd7, 0x9e,
      0x19, 0xc2, 0x21, 0xae, 0x60, 0x7f, 0xb0, 0x8b, 0x28, 0x48, 0xc6, 0x77, 0x34, 0xd4, 0x68, 0xd6] ∧
    (@Value.hash realCrypto (.map
      [(asciiText "from", .blob [0x00, 0xab, 0xcd, 0xef, 0x00, 0x12, 0x34, 0x00, 0x56, 0x78, 0x9a, 0x00, 0xbc, 0xde, 0xf0, 0x00,
        0x01, 0x23, 0x45, 0x67, 0x89, 0x00, 0xab, 0xcd, 0xef, 0x01]),
       (asciiText "to", .blob [0x00, 0xab, 0x0d, 0xef, 0x00, 0x12, 0x34, 0x00, 0x56, 0x78, 0x9a, 0x00, 0xbc, 0xde, 0xf0, 0x00,
        0x01, 0x23, 0x45, 0x67, 0x89, 0x00, 0xab, 0xcd, 0xef, 0x01]),
       (asciiText "amount", .nat 42), (asciiText "created_at", .nat 1699218263),
       (asciiText "memo", .nat 0)])).val =
      [0xc5, 0x6e, 0xce, 0x65, 0x0e, 0x1d, 0xe4, 0x26, 0x9c, 0x5b, 0xde, 0xff, 0x78, 0x75, 0x94, 0x9e,
      0x3e, 0x20, 0x33, 0xf8, 0x5b, 0x2d, 0x19, 0x3c, 0x2f, 0xf4, 0xf7, 0xf7, 0x8b, 0xdc, 0xfc, 0x75] := by
  decide +kernel

open Toy in
/-- A history with these primitives: a client accepts the log of the ledger. -/
example : ∃ y, @Reachable realCrypto y ∧ y.ledger.blocks.length = 3 ∧
    @Client.Accepts realCrypto y.ledger.certifiedData (tipHashTree y.ledger)
      ((Spec.numbered y.ledger).map Prod.snd) y.ledger.blocks := by
  have hr : @Reachable realCrypto (@Sys.run realCrypto start
      [dep alice 1000000000000, xfer alice bob 1000 (some 1000000000), appr alice bob 900000000]) :=
    ⟨cfg, T, 0, start, _, start_eq, rfl⟩
  have h3 : (@Sys.run realCrypto start [dep alice 1000000000000,
      xfer alice bob 1000 (some 1000000000), appr alice bob 900000000]).ledger.blocks.length = 3 := by
    decide +kernel
  exact ⟨_, hr, h3, @C65_accepted realCrypto _ hr (fun h => by rw [h] at h3; cases h3)⟩

end CyclesLedger
