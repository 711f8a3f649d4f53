import Verif.Proof.Wire
import Verif.Proof.HashInj
import Verif.Props.Accounting
import Verif.Props.Integrity
/-!
# Encodings

C27, C37, C38, C46, C54.
-/
namespace CyclesLedger

/-! ## C46 -/

/-- **C46**: decoding the compact form of an account gives the account. -/
theorem C46_round_trip (a : Account) : Account.ofCompact a.compact = some a := ofCompact_compact a

/-- **C46**: a tuple is accepted exactly if it is a principal (at most 29 bytes), or a principal
and a subaccount of 32 bytes. -/
theorem C46_accepted (l : List Bytes) :
    (∃ a, Account.ofCompact l = some a) ↔
      (∃ p, l = [p] ∧ p.length ≤ 29) ∨ (∃ p sub, l = [p, sub] ∧ p.length ≤ 29 ∧ sub.length = 32) := by
  match l with
  | [] => simp [Account.ofCompact]
  | [p] =>
    by_cases h : p.length ≤ 29
    · simp [Account.ofCompact, h]
    · simp [Account.ofCompact, h]
  | [p, sub] =>
    by_cases h : p.length ≤ 29
    · by_cases h' : sub.length = 32
      · simp only [Account.ofCompact, h, h', dif_pos]
        exact ⟨fun _ => .inr ⟨p, sub, rfl, h, h'⟩, fun _ => ⟨_, rfl⟩⟩
      · simp only [Account.ofCompact, h, h', dif_pos, dif_neg, not_false_eq_true]
        refine ⟨fun ⟨_, h⟩ => (nomatch h), ?_⟩
        rintro (⟨_, h1, _⟩ | ⟨_, _, h1, _, h3⟩)
        · cases h1
        · cases h1; exact absurd h3 h'
    · simp only [Account.ofCompact, h, dif_neg, not_false_eq_true]
      refine ⟨fun ⟨_, h⟩ => (nomatch h), ?_⟩
      rintro (⟨_, h1, _⟩ | ⟨_, _, h1, h2, _⟩)
      · cases h1
      · cases h1; exact absurd h2 h
  | _ :: _ :: _ :: _ => simp [Account.ofCompact]

/-- **C46**: and what is accepted is the tuple of the account it is read as. -/
theorem C46_exact (l : List Bytes) (a : Account) (h : Account.ofCompact l = some a) :
    l = a.compact := by
  match l with
  | [] => simp [Account.ofCompact] at h
  | [p] =>
    simp only [Account.ofCompact] at h
    split at h
    · cases h; rfl
    · cases h
  | [p, sub] =>
    simp only [Account.ofCompact] at h
    split at h
    · split at h
      · cases h; rfl
      · cases h
    · cases h
  | _ :: _ :: _ :: _ => simp [Account.ofCompact] at h

open Toy in
/-- Accounts with and without a subaccount, and a malformed tuple. -/
example : (acc alice).compact = [[1]] ∧
    (⟨alice, some zeroSub⟩ : Account).compact = [[1], List.replicate 32 0] ∧
    Account.ofCompact [[1], [0]] = none ∧ Account.ofCompact [] = none := by decide +kernel

/-! ## C54 -/

/-- **C54**: a LEB128 reader reads the block index that is certified, and stops at the end of its
encoding. -/
theorem C54_index_encoding (n : Nat) (rest : Bytes) :
    Spec.readUnsigned (leb128 n ++ rest) = some (n, rest) := readUnsigned_leb128 n rest

/-- **C54**: so different indices are certified differently. -/
theorem C54_injective (n m : Nat) (h : leb128 n = leb128 m) : n = m := by
  rw [← ofLeb128_leb128 n, h, ofLeb128_leb128]

/-- **C54**: nothing shorter reads as the index. -/
theorem C54_shortest (bs : Bytes) (n : Nat) (h : Spec.readUnsigned bs = some (n, [])) :
    (leb128 n).length ≤ bs.length := leb128_shortest h

/-- Three bytes for index 624485. -/
example : leb128 624485 = [0xE5, 0x8E, 0x26] ∧
    Spec.readUnsigned [0xE5, 0x8E, 0x26, 7] = some (624485, [7]) ∧
    Spec.readUnsigned [0xE5, 0x8E, 0xA6, 0] = some (624485, []) := by decide +kernel

/-! ## C38 -/

/-- **C38**: a value that converts to CBOR converts back to itself. -/
theorem C38_round_trip (v : Value) (hv : Spec.Proper v) (c : CVal)
    (h : genericToCbor v 0 = some c) : cborToGeneric c 0 = .ok v :=
  cborToGeneric_of_generic v 0 c hv h

/-- **C38**: a value converts to CBOR exactly if it nests at most 64 deep and its integers are
unsigned and of 64 bits. -/
theorem C38_to_cbor (v : Value) :
    (∃ c, genericToCbor v 0 = some c) ↔ Spec.Within 64 v ∧ Spec.Ints64 v :=
  genericToCbor_isSome v 0

/-- **C38**: a CBOR value converts exactly if it is of a supported form and nests at most 64
deep. -/
theorem C38_from_cbor (c : CVal) : (∃ v, cborToGeneric c 0 = .ok v) ↔ Spec.Readable 64 c :=
  cborToGeneric_isOk c 0

/-- `n` arrays around a number. -/
def Spec.nest : Nat → Value
  | 0 => .nat 7
  | n + 1 => .array [Spec.nest n]

theorem not_within_nest (n m : Nat) (h : m ≤ n) : ¬Spec.Within m (Spec.nest n) := by
  induction m generalizing n with
  | zero => intro h; cases h
  | succ m ih =>
    intro hw
    cases n with
    | zero => omega
    | succ n =>
      cases hw with
      | array h' => exact ih n (by omega) (h' _ (by simp))

/-- **C38**: in particular anything with 64 or more arrays around it is refused; 63 are
accepted. -/
theorem C38_too_deep (n : Nat) (h : 64 ≤ n) : genericToCbor (Spec.nest n) 0 = none := by
  cases hc : genericToCbor (Spec.nest n) 0 with
  | none => rfl
  | some c => exact absurd ((C38_to_cbor _).mp ⟨c, hc⟩).1 (not_within_nest n 64 h)

example : (genericToCbor (Spec.nest 63) 0).isSome = true := by decide +kernel

/-! ## C37 -/

/-- **C37**: decoding the ICRC-3 value of a block gives the block. -/
theorem C37_value_round_trip (b : Block) (hb : Spec.BlockFits b) :
    Block.fromValue b.toValue = some b := b.fromValue_toValue hb

/-- **C37**: reading a block from the bytes it is kept as gives the block. -/
theorem C37_stable_round_trip (b : Block) (hb : Spec.BlockFits b)
    (hm : ∀ m, b.transaction.memo = some m → m.length < 2 ^ 64) :
    Block.ofBytes b.toBytes = some b := Block.ofBytes_toBytes hb hm

theorem bounded_opt64 (o : Option UInt64) : Spec.Bounded (2 ^ 64 - 1) (o.map UInt64.toNat) := by
  intro n hn
  cases o with
  | none => cases hn
  | some x =>
    simp only [Option.map_some, Option.some.injEq] at hn
    have := x.toNat_lt
    omega

theorem bounded_none (m : Nat) : Spec.Bounded m none := fun _ h => nomatch h

theorem Reachable.created_fits [Crypto] {y : Sys} (h : Reachable y) :
    ∀ b ∈ y.ledger.blocks, Spec.Bounded (2 ^ 64 - 1) b.transaction.createdAtTime := by
  refine h.block_induct ?_ ?_
  · intro b a x hb; rw [hb]; exact bounded_none _
  · intro y m b _ _ hr
    cases hr with
    | request h1 _ =>
      cases m with
      | deposit c cy a => rw [← Option.some.inj h1]; exact bounded_none _
      | transfer c a => rw [← Option.some.inj h1]; exact bounded_opt64 _
      | transferFrom c a => rw [← Option.some.inj h1]; exact bounded_opt64 _
      | approve c a => rw [← Option.some.inj h1]; exact bounded_opt64 _
      | withdraw c a s => rw [← Option.some.inj h1]; exact bounded_opt64 _
      | withdrawFrom c a s => rw [← Option.some.inj h1]; exact bounded_opt64 _
      | createCanister c a s => rw [← Option.some.inj h1]; exact bounded_opt64 _
      | createCanisterFrom c a s => rw [← Option.some.inj h1]; exact bounded_opt64 _
      | callback i a => cases h1
      | lostCallback i => cases h1
      | upgrade a => cases h1
    | refund k p back _ _ h3 => rw [h3]; exact bounded_none _
    | allowance k p back sp s _ _ h3 => rw [h3]; exact bounded_none _

theorem Reachable.block_fits [Crypto] {y : Sys} (h : Reachable y) (b : Block)
    (hb : b ∈ y.ledger.blocks) : Spec.BlockFits b := by
  obtain ⟨pre, hok⟩ := h.blockOk hb
  have hu : U128MAX = 2 ^ 128 - 1 := by rw [U128MAX_eq]
  have hu64 : U64MAX = 2 ^ 64 - 1 := by rw [U64MAX_eq]
  have hf : FEE ≤ 2 ^ 128 - 1 := by rw [FEE_eq]; decide
  have hfee : ∀ f, FeeOk f → Spec.Bounded (2 ^ 128 - 1) f := by
    intro f hf' n hn
    rcases hf' with rfl | rfl
    · cases hn
    · cases hn; exact hf
  have hop := hok.op
  have heff := hok.fee
  refine ⟨?_, h.created_fits b hb, ?_, ?_⟩
  · cases hop' : b.transaction.operation with
    | mint a x f =>
      rw [hop'] at hop
      refine ⟨hu ▸ hop.1, ?_⟩
      rcases hop.2 with h | h
      · rw [h]; exact hf
      · rw [h]; exact Nat.zero_le _
    | transfer f t sp x fe =>
      rw [hop'] at hop
      exact ⟨by have := hop.1; omega, hfee _ hop.2.1⟩
    | burn f sp x =>
      rw [hop'] at hop
      have : x + FEE ≤ U128MAX := hop
      show x ≤ _
      omega
    | approve f sp x ea ex fe =>
      rw [hop'] at hop
      exact ⟨hu ▸ hop.1, hu ▸ hop.2.1, hu64 ▸ hop.2.2.1, hfee _ hop.2.2.2.1⟩
  · have h1 := h.inv.ledger.times b hb
    have h2 := h.inv.ledger.clock
    omega
  · intro n hn
    rw [heff] at hn
    revert hn
    unfold effectiveFee
    repeat' split
    all_goals intro hn; cases hn <;> first | exact hf | omega

/-- **C37**: so every block of the ledger can be read back, from the value it is served as and
from stable memory. -/
theorem C37_every_block [Crypto] {y : Sys} (h : Reachable y) (b : Block)
    (hb : b ∈ y.ledger.blocks) :
    Block.fromValue b.toValue = some b ∧ Block.ofBytes b.toBytes = some b := by
  have hf := h.block_fits b hb
  refine ⟨C37_value_round_trip b hf, C37_stable_round_trip b hf fun m hm => ?_⟩
  have := C39_memo_bounded h b hb m hm
  omega

open Toy in
/-- A block with all the trimmings that is read back; a bignum amount too. -/
example :
    let b : Block := ⟨⟨.approve (acc alice) ⟨bob, some zeroSub⟩ (2 ^ 100) (some 5) (some 7) (some 8),
      some 9, some [1, 2]⟩, 10, some (sha []), none⟩
    Block.fromValue b.toValue = some b ∧ Block.ofBytes b.toBytes = some b := by
  refine ⟨C37_value_round_trip _ ?_, C37_stable_round_trip _ ?_ ?_⟩
  · exact ⟨⟨by decide, by intro n hn; cases hn; decide, by intro n hn; cases hn; decide,
      by intro n hn; cases hn; decide⟩, by intro n hn; cases hn; decide, by decide,
      by intro n hn; cases hn⟩
  · exact ⟨⟨by decide, by intro n hn; cases hn; decide, by intro n hn; cases hn; decide,
      by intro n hn; cases hn; decide⟩, by intro n hn; cases hn; decide, by decide,
      by intro n hn; cases hn⟩
  · intro m hm; cases hm; decide

/-! ## C27 -/

theorem withdrawMemo_encode (p : Principal) :
    encodeWithdrawMemo p = (CVal.array [.bytes p.bytes]).encode := by
  have hp := p.le
  simp only [encodeWithdrawMemo, CVal.encode, encodeList, List.length_singleton, List.append_nil]
  have h1 : cborHead 4 1 = [0x81] := by decide
  rw [h1]
  unfold cborHead
  split
  · simp
  · rw [if_pos (by omega)]
    have : p.bytes.length % 256 = p.bytes.length := by omega
    simp [beBytes, this]

/-- **C27**: the memo of a withdrawal is at most 32 bytes long. -/
theorem C27_fits (p : Principal) : (encodeWithdrawMemo p).length ≤ 32 := by
  have hp := p.le
  unfold encodeWithdrawMemo
  split <;> simp <;> omega

/-- **C27**: read as CBOR it is an array of one byte string, the receiver. -/
theorem C27_decodes (p : Principal) :
    Cbor.read (encodeWithdrawMemo p) = some (.array [.bytes p.bytes]) := by
  rw [withdrawMemo_encode]
  have hp := p.le
  refine read_encode (.array (by simp) ?_)
  intro v hv
  rw [List.mem_singleton] at hv
  subst hv
  exact .bytes (by omega)

/-- **C27**: it is none of the memos of canister creations, refunds and penalties. -/
theorem C27_distinct (p : Principal) :
    encodeWithdrawMemo p ≠ CREATE_CANISTER_MEMO ∧ encodeWithdrawMemo p ≠ REFUND_MEMO ∧
    encodeWithdrawMemo p ≠ PENALIZE_MEMO ∧ CREATE_CANISTER_MEMO ≠ REFUND_MEMO ∧
    CREATE_CANISTER_MEMO ≠ PENALIZE_MEMO ∧ REFUND_MEMO ≠ PENALIZE_MEMO := by
  have key : ∀ x : UInt8, x ≠ 0x81 → encodeWithdrawMemo p ≠ List.replicate 32 x := by
    intro x hx h
    have : (encodeWithdrawMemo p).head? = some 0x81 := by
      unfold encodeWithdrawMemo; split <;> rfl
    rw [h] at this
    simp at this
    exact hx this
  exact ⟨key _ (by decide), key _ (by decide), key _ (by decide), by decide, by decide, by decide⟩

/-- **C27**: a withdrawal request and a canister creation request, and two withdrawal requests
for different receivers, are recorded as transactions with different hashes, unless SHA-256
collides; so the ledger never takes one for a duplicate of the other. -/
theorem C27_never_duplicates [Crypto] (m m' : Msg) (r r' : Spec.BurnReq) (to to' : Option Principal)
    (h : Spec.burnRequest m = some (r, to)) (h' : Spec.burnRequest m' = some (r', to'))
    (hne : to ≠ to') :
    ∃ t t', Spec.requestTransaction m = some t ∧ Spec.requestTransaction m' = some t' ∧
      (t.hash ≠ t'.hash ∨
        Spec.ShaCollision (Spec.hashed t.flatten.value) (Spec.hashed t'.flatten.value)) := by
  refine ⟨r.transaction to, r'.transaction to', ?_, ?_, ?_⟩
  · cases m <;> cases h <;> rfl
  · cases m' <;> cases h' <;> rfl
  · by_cases heq : (r.transaction to).hash = (r'.transaction to').hash
    · rcases C36_identified _ _ heq with h1 | h1
      · exact absurd (burnMemo_inj (Option.some.inj (congrArg Transaction.memo h1))) hne
      · exact .inr h1
    · exact .inl heq

open Toy in
/-- A withdrawal to the canister `[9, 9]`, with the memo `81 42 09 09`, and a creation. -/
example : encodeWithdrawMemo target = [0x81, 0x42, 9, 9] ∧
    (Spec.burnRequest (wdr alice 5).msg).map Prod.snd = some (some target) ∧
    (Spec.burnRequest (create alice 5).msg).map Prod.snd = some none := by decide +kernel

end CyclesLedger
