import Verif.Proof.Canonical
import Verif.Proof.SameHash
import Verif.Props.Sha
import Verif.Props.Codec
/-!
# The format of blocks

C38 (the way back), C86, C87.
-/
namespace CyclesLedger

/-! ## C38 -/

/-- **C38**: a CBOR value that can be read is written back as it was exactly if it is in the
ledger's own form. -/
theorem C38_back (c : CVal) (v : Value) (h : cborToGeneric c 0 = .ok v) :
    genericToCbor v 0 = some c ↔ Spec.Canonical c :=
  ⟨fun hc => canonical_of_generic v 0 c (proper_of_cbor c 0 v h) hc,
    fun hc => generic_of_canonical c 0 v hc h⟩

/-- **C38**: what is read is a proper value: maps have their keys in order. -/
theorem C38_proper (c : CVal) (v : Value) (h : cborToGeneric c 0 = .ok v) : Spec.Proper v :=
  proper_of_cbor c 0 v h

/-- In the ledger's form: a map with a bignum and an integer. Not so: a bignum with a leading zero,
which is read as 7 and written without it; two entries with one key. -/
example :
    Spec.Canonical (.map [(.text [1], .tag 2 (.bytes [1, 0])), (.text [2], .int 5)]) ∧
    cborToGeneric (.tag 2 (.bytes [0, 7])) 0 = .ok (.nat 7) ∧
    ¬Spec.Canonical (.tag 2 (.bytes [0, 7])) ∧
    cborToGeneric (.map [(.text [1], .int 3), (.text [1], .int 4)]) 0 = .ok (.map [([1], .int 4)]) := by
  refine ⟨.map ?_ ?_ ?_, rfl, ?_, rfl⟩
  · intro e he; simp at he; rcases he with rfl | rfl <;> exact ⟨_, rfl⟩
  · refine .cons ?_ (.cons (by simp) .nil)
    intro e he t u ht hu
    simp at he; subst he; cases ht; cases hu; decide
  · intro e he; simp at he
    rcases he with rfl | rfl
    · exact .bignum (Or.inr (by decide))
    · exact .int (by decide) (by decide)
  · intro h
    cases h with
    | bignum h => rcases h with h | h <;> revert h <;> decide

/-! ## C86 -/

/-- **C86**: if `Int` and `Nat` are hashed alike (for 64-bit numbers), then the hash of a block is the
hash of what its serialization reads as, which is how earlier versions computed it. -/
theorem C86_block [Crypto] (h : ∀ n : Nat, n < 2 ^ 64 → (Value.int n).hash = (Value.nat n).hash)
    (b : Block) : ∃ v, cborToGeneric b.toCbor 0 = .ok v ∧ v.hash = b.hash := by
  refine ⟨_, conv_block b, ?_⟩
  rw [Block.hash, b.toValue_eq]
  refine SameHash.map ?_
  have hg := genNat_same h
  have htx : b.transaction.flatten.value.hash = b.transaction.toValue.hash := by
    rw [Flat.value_eq, Transaction.toValue_eq]
    exact (sameHash_fields hg _).map
  unfold Block.oldFields Block.fields
  exact ((((show SameHash (SMap.empty : SMap Text Value).entries SMap.empty.entries from .nil).insert
    _ htx).insert _ (hg _)).insertOpt _ _ (fun _ => rfl)).insertOpt _ _ hg

/-- **C86**: and then the hash by which a transaction is deduplicated is the hash of the transaction as
published in its block. -/
theorem C86_transaction [Crypto]
    (h : ∀ n : Nat, n < 2 ^ 64 → (Value.int n).hash = (Value.nat n).hash) (t : Transaction) :
    t.hash = some t.toValue.hash := by
  rw [Transaction.hash_eq, Flat.value_eq, Transaction.toValue_eq]
  exact congrArg some (sameHash_fields (genNat_same h) _).map

theorem key_mem_hashedMap [Crypto] {k : Text} {v : Value} : ∀ {l : List (Text × Value)},
    (k, v) ∈ l → k ∈ Spec.hashedMap l
  | e :: l, h => by
    obtain ⟨k', v'⟩ := e
    rw [Spec.hashedMap]
    rcases List.mem_cons.mp h with h | h
    · cases h; exact List.mem_cons_self
    · exact List.mem_cons_of_mem _ (List.mem_append_right _ (key_mem_hashedMap h))

/-- **C86**: the condition is needed: if it fails for a number, then it fails for the burn of that
amount, or SHA-256 collides on two strings that are hashed on the way to the two hashes. -/
theorem C86_needed [Crypto] (n : Nat) (hn : n < 2 ^ 64) (a : Account)
    (h : (⟨.burn a none n, none, none⟩ : Transaction).hash =
      some (⟨.burn a none n, none, none⟩ : Transaction).toValue.hash) :
    (Value.int n).hash = (Value.nat n).hash ∨
      Spec.ShaCollision
        (Spec.hashed (⟨.burn a none n, none, none⟩ : Transaction).flatten.value)
        (Spec.hashed (⟨.burn a none n, none, none⟩ : Transaction).toValue) := by
  have hg : genNat n = .int n := by unfold genNat; rw [if_pos (by rw [U64MAX_eq]; omega)]
  rw [Transaction.hash_eq, Option.some.injEq, Flat.value_eq, Transaction.toValue_eq, Value.hash_eq,
    Value.hash_eq] at h
  simp only at h
  rw [Flat.value_eq, Transaction.toValue_eq]
  refine (Classical.em _).symm.imp (fun hc => ?_) id
  have inj {xs ys : List Bytes} (hc : ¬Spec.ShaCollision xs ys) : ∀ x ∈ xs, ∀ y ∈ ys,
      sha x = sha y → x = y := by
    intro x hx y hy hxy
    by_cases he : x = y
    · exact he
    · exact absurd ⟨x, hx, y, hy, he, hxy⟩ hc
  have hl := flatten_inj_len (n := 64) (by omega)
    (fun x hx => hashMap_len x (mem_isort.mp hx))
    (fun x hx => hashMap_len x (mem_isort.mp hx))
    (inj hc _ (by rw [Spec.hashed]; exact List.mem_cons_self) _
      (by rw [Spec.hashed]; exact List.mem_cons_self) h)
  obtain ⟨_, _, _, _, _, _, h7, _⟩ :=
    Flat.get_fields genNat (⟨.burn a none n, none, none⟩ : Transaction).flatten
  obtain ⟨_, _, _, _, _, _, k7, _⟩ :=
    Flat.get_fields .nat (⟨.burn a none n, none, none⟩ : Transaction).flatten
  rw [SMap.get_eq_some_iff] at h7
  have hm := mem_isort.mpr (mem_hashMap.mpr ⟨_, h7, rfl⟩)
  rw [hl] at hm
  obtain ⟨e, he, hx⟩ := mem_hashMap.mp (mem_isort.mp hm)
  obtain ⟨h1, h2⟩ := List.append_inj hx (by rw [(sha _).property, (sha _).property])
  have hk := inj hc _ (by rw [Spec.hashed]; exact List.mem_cons_of_mem _ (key_mem_hashedMap h7)) _
    (by rw [Spec.hashed]; exact List.mem_cons_of_mem _ (key_mem_hashedMap he)) (Subtype.ext h1)
  have he' : e = (kAmt, .nat n) := by
    obtain ⟨k, v⟩ := e
    simp only at hk
    subst hk
    have := (SMap.get_eq_some_iff _ _ _).mpr he
    rw [k7] at this
    cases this
    rfl
  subst he'
  have h3 := Subtype.ext h2
  simp only [Transaction.flatten, hg] at h3
  exact h3

/-- With LEB128 for integers the condition holds; the two hashes of every
transaction agree. With SLEB128 it fails for 64, and the hashes of a burn of 64 cycles differ. -/
example :
    (∀ n : Nat, @Value.hash ⟨Sha256.digest, leb128, ofLeb128_leb128⟩ (.int n) =
      @Value.hash ⟨Sha256.digest, leb128, ofLeb128_leb128⟩ (.nat n)) ∧
    @Transaction.hash realCrypto ⟨.burn (Toy.acc Toy.alice) none 64, some 1000, some [1]⟩ ≠
      some (@Value.hash realCrypto
        (Transaction.toValue ⟨.burn (Toy.acc Toy.alice) none 64, some 1000, some [1]⟩)) ∧
    leb128 64 = [64] ∧ sleb128 64 = [192, 0] := by
  refine ⟨fun n => ?_, by decide +kernel, by decide +kernel, by decide +kernel⟩
  letI : Crypto := ⟨Sha256.digest, leb128, ofLeb128_leb128⟩
  exact (Value.hash_eq (.int n)).trans (Value.hash_eq (.nat n)).symm

/-! ## C87 -/
namespace Spec

/-- The map has an item with this key, and it is such. -/
def Item (m : List (Text × Value)) (key : String) (P : Value → Prop) : Prop :=
  ∃ v, (asciiText key, v) ∈ m ∧ P v

/-- If the map has an item with this key, it is such. -/
def OptItem (m : List (Text × Value)) (key : String) (P : Value → Prop) : Prop :=
  ∀ v, (asciiText key, v) ∈ m → P v

/-- The map has these items only. -/
def OnlyItems (m : List (Text × Value)) (keys : List String) : Prop :=
  ∀ e ∈ m, ∃ k ∈ keys, e.1 = asciiText k

/-- A number of at most so many bits. -/
def IsNat (bits : Nat) (v : Value) : Prop := ∃ n, v = .nat n ∧ n < 2 ^ bits

/-- A text. -/
def IsText (s : String) (v : Value) : Prop := v = .text (asciiText s)

/-- Any byte string. -/
def IsBlob (v : Value) : Prop := ∃ b, v = .blob b

/-- A hash. -/
def IsHash (v : Value) : Prop := ∃ b, v = .blob b ∧ b.length = 32

/-- An account: a principal, and a subaccount if there is one. -/
def IsAccount (v : Value) : Prop :=
  (∃ p, v = .array [.blob p] ∧ p.length ≤ 29) ∨
  (∃ p s, v = .array [.blob p, .blob s] ∧ p.length ≤ 29 ∧ s.length = 32)

/-- The transactions of ICRC-1 and ICRC-2, as this ledger writes them: a mint has its fee, a burn has
none, and a burn may have a spender. -/
def IsTransaction (v : Value) : Prop := ∃ m, v = .map m ∧
  m.Pairwise (fun a b => listLt a.1 b.1 = true) ∧
  OptItem m "ts" (IsNat 64) ∧ OptItem m "memo" IsBlob ∧ Item m "amt" (IsNat 128) ∧
  ((Item m "op" (IsText "mint") ∧ Item m "to" IsAccount ∧ Item m "fee" (IsNat 128) ∧
      OnlyItems m ["ts", "memo", "amt", "op", "to", "fee"]) ∨
   (Item m "op" (IsText "burn") ∧ Item m "from" IsAccount ∧ OptItem m "spender" IsAccount ∧
      OnlyItems m ["ts", "memo", "amt", "op", "from", "spender"]) ∨
   (Item m "op" (IsText "xfer") ∧ Item m "from" IsAccount ∧ Item m "to" IsAccount ∧
      OptItem m "spender" IsAccount ∧ OptItem m "fee" (IsNat 128) ∧
      OnlyItems m ["ts", "memo", "amt", "op", "from", "to", "spender", "fee"]) ∨
   (Item m "op" (IsText "approve") ∧ Item m "from" IsAccount ∧ Item m "spender" IsAccount ∧
      OptItem m "expected_allowance" (IsNat 128) ∧ OptItem m "expires_at" (IsNat 64) ∧
      OptItem m "fee" (IsNat 128) ∧
      OnlyItems m ["ts", "memo", "amt", "op", "from", "spender", "expected_allowance", "expires_at",
        "fee"]))

/-- The blocks of ICRC-3 with such a transaction. -/
def IsBlock (v : Value) : Prop := ∃ m, v = .map m ∧
  m.Pairwise (fun a b => listLt a.1 b.1 = true) ∧
  Item m "tx" IsTransaction ∧ Item m "ts" (IsNat 64) ∧ OptItem m "phash" IsHash ∧
  OptItem m "fee" (IsNat 128) ∧ OnlyItems m ["tx", "ts", "phash", "fee"]

end Spec

theorem key_ts : asciiText "ts" = kTs := by decide +kernel
theorem key_memo : asciiText "memo" = kMemo := by decide +kernel
theorem key_op : asciiText "op" = kOp := by decide +kernel
theorem key_from : asciiText "from" = kFrom := by decide +kernel
theorem key_to : asciiText "to" = kTo := by decide +kernel
theorem key_spender : asciiText "spender" = kSpender := by decide +kernel
theorem key_amt : asciiText "amt" = kAmt := by decide +kernel
theorem key_fee : asciiText "fee" = kFee := by decide +kernel
theorem key_ea : asciiText "expected_allowance" = kExpectedAllowance := by decide +kernel
theorem key_exp : asciiText "expires_at" = kExpiresAt := by decide +kernel
theorem key_tx : asciiText "tx" = kTx := by decide +kernel
theorem key_phash : asciiText "phash" = kPhash := by decide +kernel
theorem text_mint : asciiText "mint" = opMint := by decide +kernel
theorem text_xfer : asciiText "xfer" = opXfer := by decide +kernel
theorem text_burn : asciiText "burn" = opBurn := by decide +kernel
theorem text_approve : asciiText "approve" = opApprove := by decide +kernel

theorem isAccount_iff (v : Value) : Spec.IsAccount v ↔ ∃ a, v = accountToValue a := by
  constructor
  · rintro (⟨p, rfl, h⟩ | ⟨p, s, rfl, h, hs⟩)
    · exact ⟨⟨⟨p, h⟩, none⟩, rfl⟩
    · exact ⟨⟨⟨p, h⟩, some ⟨s, hs⟩⟩, rfl⟩
  · rintro ⟨⟨⟨p, hp⟩, sub⟩, rfl⟩
    cases sub with
    | none => exact Or.inl ⟨p, rfl, hp⟩
    | some s => exact Or.inr ⟨p, s.val, rfl, hp, s.property⟩

theorem isHash_iff (v : Value) : Spec.IsHash v ↔ ∃ h : Hash, v = .blob h.val :=
  ⟨fun ⟨b, h, hb⟩ => ⟨⟨b, hb⟩, h⟩, fun ⟨h, e⟩ => ⟨h.val, e, h.property⟩⟩

/-- An item of a map is what is found under its key. -/
theorem item_iff (m : SMap Text Value) (key : String) (P : Value → Prop) :
    Spec.Item m.entries key P ↔ ∃ v, m.get (asciiText key) = some v ∧ P v := by
  simp only [Spec.Item, SMap.get_eq_some_iff]

theorem optItem_iff (m : SMap Text Value) (key : String) (P : Value → Prop) :
    Spec.OptItem m.entries key P ↔ ∀ v, m.get (asciiText key) = some v → P v := by
  simp only [Spec.OptItem, SMap.get_eq_some_iff]

theorem onlyItems_iff (m : SMap Text Value) (keys : List String) :
    Spec.OnlyItems m.entries keys ↔ ∀ k, (∀ s ∈ keys, k ≠ asciiText s) → m.get k = none := by
  constructor
  · intro h k hk
    cases hg : m.get k with
    | none => rfl
    | some v =>
      obtain ⟨s, hs, he⟩ := h _ ((SMap.get_eq_some_iff _ _ _).mp hg)
      exact absurd he (hk s hs)
  · intro h e he
    by_cases hx : ∃ s ∈ keys, e.1 = asciiText s
    · exact hx
    · have := h e.1 (fun s hs hk => hx ⟨s, hs, hk⟩)
      rw [(SMap.get_eq_some_iff m e.1 e.2).mpr he] at this
      cases this

/-- An optional item under a key, as an `Option`. -/
theorem optItem_option {A : Type} {m : SMap Text Value} {key : String} {P : Value → Prop}
    (f : A → Value) (Q : A → Prop) (hP : ∀ v, P v → ∃ a, v = f a ∧ Q a)
    (h : Spec.OptItem m.entries key P) :
    ∃ o : Option A, m.get (asciiText key) = o.map f ∧ ∀ a, o = some a → Q a := by
  rw [optItem_iff] at h
  cases hg : m.get (asciiText key) with
  | none => exact ⟨none, rfl, by simp⟩
  | some v =>
    obtain ⟨a, rfl, ha⟩ := hP v (h v hg)
    exact ⟨some a, rfl, by simpa using ha⟩

theorem optItem_of {A : Type} {m : SMap Text Value} {key : String} {P : Value → Prop}
    {f : A → Value} {o : Option A} (h : m.get (asciiText key) = o.map f)
    (hP : ∀ a, o = some a → P (f a)) : Spec.OptItem m.entries key P := by
  rw [optItem_iff, h]
  intro v hv
  cases o with
  | none => cases hv
  | some a => cases hv; exact hP a rfl

theorem item_of {m : SMap Text Value} {key : String} {P : Value → Prop} {v : Value}
    (h : m.get (asciiText key) = some v) (hP : P v) : Spec.Item m.entries key P := by
  rw [item_iff]; exact ⟨v, h, hP⟩

/-- The transaction fits its Rust type. -/
def TxFits (t : Transaction) : Prop :=
  Spec.OpFits t.operation ∧ Spec.Bounded (2 ^ 64 - 1) t.createdAtTime

theorem isNat_of {bits n : Nat} (h : n ≤ 2 ^ bits - 1) : Spec.IsNat bits (.nat n) := by
  have : 0 < 2 ^ bits := Nat.two_pow_pos bits
  exact ⟨n, rfl, by omega⟩

theorem isTransaction_of {t : Transaction} (h : TxFits t) : Spec.IsTransaction t.toValue := by
  obtain ⟨b1, b2, b3, b4, b5, b6, b7, b8, b9, b10⟩ := t.flatten.get_fields .nat
  have ho := fun k => t.flatten.get_fields_other .nat (k := k)
  rw [t.toValue_eq]
  refine ⟨_, rfl, (t.flatten.fields .nat).sorted, ?_, ?_, ?_, ?_⟩
  · refine optItem_of (f := Value.nat) (o := t.createdAtTime) ?_ (fun a ha => isNat_of (h.2 a ha))
    rw [key_ts, b1]
    cases t with | mk op c m => cases op <;> rfl
  · refine optItem_of (f := Value.blob) (o := t.memo) ?_ (fun a _ => ⟨a, rfl⟩)
    rw [key_memo, b2]
    cases t with | mk op c m => cases op <;> rfl
  · refine item_of (by rw [key_amt, b7]) ?_
    obtain ⟨hop, _⟩ := h
    cases t with | mk op c m =>
    cases op with
    | mint => exact isNat_of hop.1
    | transfer => exact isNat_of hop.1
    | burn => exact isNat_of hop
    | approve => exact isNat_of hop.1
  · obtain ⟨hop, _⟩ := h
    cases t with | mk op c m =>
    cases op with
    | mint to x f =>
      refine Or.inl ⟨item_of (by rw [key_op, b3]) (by rw [Spec.IsText, text_mint]; rfl),
        item_of (by rw [key_to, b5]; rfl) ((isAccount_iff _).mpr ⟨to, rfl⟩),
        item_of (by rw [key_fee, b8]; rfl) (isNat_of hop.2), ?_⟩
      rw [onlyItems_iff]
      intro k hk
      simp only [List.mem_cons, List.not_mem_nil, or_false, forall_eq_or_imp, forall_eq,
        key_ts, key_memo, key_amt, key_op, key_to, key_fee] at hk
      by_cases e4 : kFrom = k; · rw [← e4, b4]; rfl
      by_cases e6 : kSpender = k; · rw [← e6, b6]; rfl
      by_cases e9 : kExpectedAllowance = k; · rw [← e9, b9]; rfl
      by_cases e10 : kExpiresAt = k; · rw [← e10, b10]; rfl
      exact ho k (Ne.symm hk.1) (Ne.symm hk.2.1) (Ne.symm hk.2.2.2.1) e4 (Ne.symm hk.2.2.2.2.1) e6
        (Ne.symm hk.2.2.1) (Ne.symm hk.2.2.2.2.2) e9 e10
    | burn frm sp x =>
      refine Or.inr (Or.inl ⟨item_of (by rw [key_op, b3]) (by rw [Spec.IsText, text_burn]; rfl),
        item_of (by rw [key_from, b4]; rfl) ((isAccount_iff _).mpr ⟨frm, rfl⟩),
        optItem_of (by rw [key_spender, b6]) (fun a _ => (isAccount_iff _).mpr ⟨a, rfl⟩), ?_⟩)
      rw [onlyItems_iff]
      intro k hk
      simp only [List.mem_cons, List.not_mem_nil, or_false, forall_eq_or_imp, forall_eq,
        key_ts, key_memo, key_amt, key_op, key_from, key_spender] at hk
      by_cases e5 : kTo = k; · rw [← e5, b5]; rfl
      by_cases e8 : kFee = k; · rw [← e8, b8]; rfl
      by_cases e9 : kExpectedAllowance = k; · rw [← e9, b9]; rfl
      by_cases e10 : kExpiresAt = k; · rw [← e10, b10]; rfl
      exact ho k (Ne.symm hk.1) (Ne.symm hk.2.1) (Ne.symm hk.2.2.2.1) (Ne.symm hk.2.2.2.2.1) e5
        (Ne.symm hk.2.2.2.2.2) (Ne.symm hk.2.2.1) e8 e9 e10
    | transfer frm to sp x f =>
      refine Or.inr (Or.inr (Or.inl
        ⟨item_of (by rw [key_op, b3]) (by rw [Spec.IsText, text_xfer]; rfl),
        item_of (by rw [key_from, b4]; rfl) ((isAccount_iff _).mpr ⟨frm, rfl⟩),
        item_of (by rw [key_to, b5]; rfl) ((isAccount_iff _).mpr ⟨to, rfl⟩),
        optItem_of (by rw [key_spender, b6]) (fun a _ => (isAccount_iff _).mpr ⟨a, rfl⟩),
        optItem_of (f := Value.nat) (by rw [key_fee, b8]; rfl) (fun a ha => isNat_of (hop.2 a ha)), ?_⟩))
      rw [onlyItems_iff]
      intro k hk
      simp only [List.mem_cons, List.not_mem_nil, or_false, forall_eq_or_imp, forall_eq,
        key_ts, key_memo, key_amt, key_op, key_from, key_to, key_spender, key_fee] at hk
      obtain ⟨h1, h2, h3, h4, h5, h6, h7, h8⟩ := hk
      by_cases e9 : kExpectedAllowance = k; · rw [← e9, b9]; rfl
      by_cases e10 : kExpiresAt = k; · rw [← e10, b10]; rfl
      exact ho k h1.symm h2.symm h4.symm h5.symm h6.symm h7.symm h3.symm h8.symm e9 e10
    | approve frm sp x ea ex f =>
      refine Or.inr (Or.inr (Or.inr
        ⟨item_of (by rw [key_op, b3]) (by rw [Spec.IsText, text_approve]; rfl),
        item_of (by rw [key_from, b4]; rfl) ((isAccount_iff _).mpr ⟨frm, rfl⟩),
        item_of (by rw [key_spender, b6]; rfl) ((isAccount_iff _).mpr ⟨sp, rfl⟩),
        optItem_of (f := Value.nat) (by rw [key_ea, b9]; rfl) (fun a ha => isNat_of (hop.2.1 a ha)),
        optItem_of (f := Value.nat) (by rw [key_exp, b10]; rfl)
          (fun a ha => isNat_of (hop.2.2.1 a ha)),
        optItem_of (f := Value.nat) (by rw [key_fee, b8]; rfl)
          (fun a ha => isNat_of (hop.2.2.2 a ha)), ?_⟩))
      rw [onlyItems_iff]
      intro k hk
      simp only [List.mem_cons, List.not_mem_nil, or_false, forall_eq_or_imp, forall_eq,
        key_ts, key_memo, key_amt, key_op, key_from, key_ea, key_exp, key_spender, key_fee] at hk
      obtain ⟨h1, h2, h3, h4, h5, h6, h7, h8, h9⟩ := hk
      by_cases e5 : kTo = k; · rw [← e5, b5]; rfl
      exact ho k h1.symm h2.symm h4.symm h5.symm e5 h6.symm h3.symm h9.symm h7.symm h8.symm

/-- A map with the fields of a transaction is that transaction's value. -/
theorem toValue_of_fields {t : Transaction} {m : SMap Text Value}
    (h : ∀ k, m.get k = (t.flatten.fields .nat).get k) : .map m.entries = t.toValue := by
  rw [t.toValue_eq, SMap.ext h]

theorem bounded_of {bits : Nat} {o : Option Nat} (h : ∀ a, o = some a → a < 2 ^ bits) :
    Spec.Bounded (2 ^ bits - 1) o := fun n hn => by have := h n hn; omega

theorem isTransaction_inv {v : Value} (h : Spec.IsTransaction v) :
    ∃ t, TxFits t ∧ v = t.toValue := by
  obtain ⟨l, rfl, hs, hts, hmemo, hamt, h⟩ := h
  obtain ⟨m, rfl⟩ : ∃ m : SMap Text Value, l = m.entries := ⟨⟨l, hs⟩, rfl⟩
  have hN : ∀ bits v, Spec.IsNat bits v → ∃ a, v = .nat a ∧ a < 2 ^ bits :=
    fun _ _ ⟨n, h, hn⟩ => ⟨n, h, hn⟩
  have hA : ∀ v, Spec.IsAccount v → ∃ a, v = accountToValue a ∧ True := fun v h => by
    obtain ⟨a, rfl⟩ := (isAccount_iff v).mp h
    exact ⟨a, rfl, trivial⟩
  obtain ⟨ts, gts, bts⟩ := optItem_option _ _ (hN 64) hts
  obtain ⟨memo, gmemo, _⟩ := optItem_option Value.blob (fun _ => True)
    (fun v ⟨b, h⟩ => ⟨b, h, trivial⟩) hmemo
  obtain ⟨_, gamt, x, rfl, hx⟩ := (item_iff _ _ _).mp hamt
  rw [key_ts] at gts
  rw [key_memo] at gmemo
  rw [key_amt] at gamt
  have hall : ∀ t : Transaction, t.createdAtTime = ts → t.memo = memo → t.flatten.amount = x →
      m.get kOp = some (.text t.flatten.op) → m.get kFrom = t.flatten.frm.map accountToValue →
      m.get kTo = t.flatten.to.map accountToValue →
      m.get kSpender = t.flatten.spender.map accountToValue →
      m.get kFee = t.flatten.fee.map .nat →
      m.get kExpectedAllowance = t.flatten.expectedAllowance.map .nat →
      m.get kExpiresAt = t.flatten.expiresAt.map .nat →
      (∀ k, kTs ≠ k → kMemo ≠ k → kOp ≠ k → kFrom ≠ k → kTo ≠ k → kSpender ≠ k →
        kAmt ≠ k → kFee ≠ k → kExpectedAllowance ≠ k → kExpiresAt ≠ k → m.get k = none) →
      Value.map m.entries = t.toValue := by
    intro t h1 h2 h7 h3 h4 h5 h6 h8 h9 h10 ho
    obtain ⟨b1, b2, b3, b4, b5, b6, b7, b8, b9, b10⟩ := t.flatten.get_fields .nat
    have e1 : t.flatten.createdAtTime = t.createdAtTime := by
      cases t with | mk op c m => cases op <;> rfl
    have e2 : t.flatten.memo = t.memo := by
      cases t with | mk op c m => cases op <;> rfl
    apply toValue_of_fields
    intro k
    by_cases k1 : kTs = k; · rw [← k1, b1, gts, e1, h1]
    by_cases k2 : kMemo = k; · rw [← k2, b2, gmemo, e2, h2]
    by_cases k3 : kOp = k; · rw [← k3, b3, h3]
    by_cases k4 : kFrom = k; · rw [← k4, b4, h4]
    by_cases k5 : kTo = k; · rw [← k5, b5, h5]
    by_cases k6 : kSpender = k; · rw [← k6, b6, h6]
    by_cases k7 : kAmt = k; · rw [← k7, b7, gamt, h7]
    by_cases k8 : kFee = k; · rw [← k8, b8, h8]
    by_cases k9 : kExpectedAllowance = k; · rw [← k9, b9, h9]
    by_cases k10 : kExpiresAt = k; · rw [← k10, b10, h10]
    rw [ho k k1 k2 k3 k4 k5 k6 k7 k8 k9 k10,
      t.flatten.get_fields_other .nat k1 k2 k3 k4 k5 k6 k7 k8 k9 k10]
  have hts' := bounded_of bts
  rcases h with ⟨hop, hto, hfee, honly⟩ | ⟨hop, hfrom, hsp, honly⟩ | ⟨hop, hfrom, hto, hsp, hfee, honly⟩ |
    ⟨hop, hfrom, hsp, hea, hexp, hfee, honly⟩
  all_goals
    rw [onlyItems_iff] at honly
    simp only [List.mem_cons, List.not_mem_nil, or_false, forall_eq_or_imp, forall_eq,
        key_ts, key_memo, key_amt, key_op, key_from, key_to, key_ea, key_exp, key_spender, key_fee]
      at honly
    obtain ⟨_, gop, rfl⟩ := (item_iff _ _ _).mp hop
    rw [key_op] at gop
  · obtain ⟨_, gto, hto⟩ := (item_iff _ _ _).mp hto
    obtain ⟨to, rfl⟩ := (isAccount_iff _).mp hto
    obtain ⟨_, gfee, f, rfl, hf⟩ := (item_iff _ _ _).mp hfee
    rw [key_to] at gto
    rw [key_fee] at gfee
    rw [text_mint] at gop
    refine ⟨⟨.mint to x f, ts, memo⟩, ⟨⟨by omega, by omega⟩, hts'⟩, ?_⟩
    refine hall ⟨.mint to x f, ts, memo⟩ rfl rfl rfl gop ?_ gto ?_ gfee ?_ ?_ ?_
    · exact honly _ (by decide)
    · exact honly _ (by decide)
    · exact honly _ (by decide)
    · exact honly _ (by decide)
    · intro k k1 k2 k3 k4 k5 k6 k7 k8 k9 k10
      exact honly k ⟨k1.symm, k2.symm, k7.symm, k3.symm, k5.symm, k8.symm⟩
  · obtain ⟨_, gfrom, hfrom⟩ := (item_iff _ _ _).mp hfrom
    obtain ⟨frm, rfl⟩ := (isAccount_iff _).mp hfrom
    obtain ⟨sp, gsp, _⟩ := optItem_option accountToValue (fun _ => True) hA hsp
    rw [key_from] at gfrom
    rw [key_spender] at gsp
    rw [text_burn] at gop
    refine ⟨⟨.burn frm sp x, ts, memo⟩, ⟨show x ≤ _ by omega, hts'⟩, ?_⟩
    refine hall ⟨.burn frm sp x, ts, memo⟩ rfl rfl rfl gop gfrom ?_ gsp ?_ ?_ ?_ ?_
    · exact honly _ (by decide)
    · exact honly _ (by decide)
    · exact honly _ (by decide)
    · exact honly _ (by decide)
    · intro k k1 k2 k3 k4 k5 k6 k7 k8 k9 k10
      exact honly k ⟨k1.symm, k2.symm, k7.symm, k3.symm, k4.symm, k6.symm⟩
  · obtain ⟨_, gfrom, hfrom⟩ := (item_iff _ _ _).mp hfrom
    obtain ⟨frm, rfl⟩ := (isAccount_iff _).mp hfrom
    obtain ⟨_, gto, hto⟩ := (item_iff _ _ _).mp hto
    obtain ⟨to, rfl⟩ := (isAccount_iff _).mp hto
    obtain ⟨sp, gsp, _⟩ := optItem_option accountToValue (fun _ => True) hA hsp
    obtain ⟨f, gfee, bfee⟩ := optItem_option _ _ (hN 128) hfee
    rw [key_from] at gfrom
    rw [key_to] at gto
    rw [key_spender] at gsp
    rw [key_fee] at gfee
    rw [text_xfer] at gop
    refine ⟨⟨.transfer frm to sp x f, ts, memo⟩, ⟨⟨by omega, bounded_of bfee⟩, hts'⟩, ?_⟩
    refine hall ⟨.transfer frm to sp x f, ts, memo⟩ rfl rfl rfl gop gfrom gto gsp gfee ?_ ?_ ?_
    · exact honly _ (by decide)
    · exact honly _ (by decide)
    · intro k k1 k2 k3 k4 k5 k6 k7 k8 k9 k10
      exact honly k ⟨k1.symm, k2.symm, k7.symm, k3.symm, k4.symm, k5.symm, k6.symm, k8.symm⟩
  · obtain ⟨_, gfrom, hfrom⟩ := (item_iff _ _ _).mp hfrom
    obtain ⟨frm, rfl⟩ := (isAccount_iff _).mp hfrom
    obtain ⟨_, gsp, hsp⟩ := (item_iff _ _ _).mp hsp
    obtain ⟨sp, rfl⟩ := (isAccount_iff _).mp hsp
    obtain ⟨ea, gea, bea⟩ := optItem_option _ _ (hN 128) hea
    obtain ⟨ex, gex, bex⟩ := optItem_option _ _ (hN 64) hexp
    obtain ⟨f, gfee, bfee⟩ := optItem_option _ _ (hN 128) hfee
    rw [key_from] at gfrom
    rw [key_spender] at gsp
    rw [key_ea] at gea
    rw [key_exp] at gex
    rw [key_fee] at gfee
    rw [text_approve] at gop
    refine ⟨⟨.approve frm sp x ea ex f, ts, memo⟩,
      ⟨⟨by omega, bounded_of bea, bounded_of bex, bounded_of bfee⟩, hts'⟩, ?_⟩
    refine hall ⟨.approve frm sp x ea ex f, ts, memo⟩ rfl rfl rfl gop gfrom ?_ gsp gfee gea gex ?_
    · exact honly _ (by decide)
    · intro k k1 k2 k3 k4 k5 k6 k7 k8 k9 k10
      exact honly k ⟨k1.symm, k2.symm, k7.symm, k3.symm, k4.symm, k6.symm, k9.symm, k10.symm, k8.symm⟩

/-- **C87**: the values that the ledger's blocks (with numbers of the widths of their Rust types) are
published as are exactly the values that satisfy the schema. -/
theorem C87_schema (v : Value) :
    (∃ b, Spec.BlockFits b ∧ b.toValue = v) ↔ Spec.IsBlock v := by
  constructor
  · rintro ⟨b, hb, rfl⟩
    obtain ⟨b1, b2, b3, b4⟩ := b.get_fields
    rw [b.toValue_eq]
    refine ⟨_, rfl, b.fields.sorted, item_of (by rw [key_tx, b1]) (isTransaction_of ⟨hb.op, hb.created⟩),
      item_of (by rw [key_ts, b2]) (isNat_of hb.time),
      optItem_of (f := fun h : Hash => Value.blob h.val) (by rw [key_phash, b3])
        (fun h _ => (isHash_iff _).mpr ⟨h, rfl⟩),
      optItem_of (f := Value.nat) (by rw [key_fee, b4]) (fun a ha => isNat_of (hb.fee a ha)), ?_⟩
    rw [onlyItems_iff]
    intro k hk
    simp only [List.mem_cons, List.not_mem_nil, or_false, forall_eq_or_imp, forall_eq,
        key_ts, key_tx, key_phash, key_fee] at hk
    unfold Block.fields
    simp [SMap.get_insert, SMap.get_insertOpt, hk.1.symm, hk.2.1.symm, hk.2.2.1.symm,
      hk.2.2.2.symm]
  · rintro ⟨l, rfl, hs, htx, hts, hph, hfee, honly⟩
    obtain ⟨m, rfl⟩ : ∃ m : SMap Text Value, l = m.entries := ⟨⟨l, hs⟩, rfl⟩
    obtain ⟨_, gtx, htx⟩ := (item_iff _ _ _).mp htx
    obtain ⟨t, ht, rfl⟩ := isTransaction_inv htx
    obtain ⟨_, gts, ts, rfl, bts⟩ := (item_iff _ _ _).mp hts
    obtain ⟨ph, gph, _⟩ := optItem_option (fun h : Hash => Value.blob h.val) (fun _ => True)
      (fun v h => by obtain ⟨a, rfl⟩ := (isHash_iff v).mp h; exact ⟨a, rfl, trivial⟩) hph
    obtain ⟨f, gfee, bfee⟩ := optItem_option Value.nat (fun a => a < 2 ^ 128)
      (fun _ ⟨n, h, hn⟩ => ⟨n, h, hn⟩) hfee
    rw [onlyItems_iff] at honly
    simp only [List.mem_cons, List.not_mem_nil, or_false, forall_eq_or_imp, forall_eq,
        key_ts, key_tx, key_phash, key_fee] at honly
    rw [key_tx] at gtx
    rw [key_ts] at gts
    rw [key_phash] at gph
    rw [key_fee] at gfee
    refine ⟨⟨t, ts, ph, f⟩, ⟨ht.1, ht.2, show ts ≤ _ by omega, bounded_of bfee⟩, ?_⟩
    rw [Block.toValue_eq]
    obtain ⟨b1, b2, b3, b4⟩ := Block.get_fields ⟨t, ts, ph, f⟩
    refine congrArg (fun m : SMap Text Value => Value.map m.entries) (SMap.ext fun k => ?_)
    by_cases k1 : kTx = k; · rw [← k1, b1, gtx]
    by_cases k2 : kTs = k; · rw [← k2, b2, gts]
    by_cases k3 : kPhash = k; · rw [← k3, b3, gph]
    by_cases k4 : kFee = k; · rw [← k4, b4, gfee]
    rw [honly k ⟨Ne.symm k1, Ne.symm k2, Ne.symm k3, Ne.symm k4⟩]
    unfold Block.fields
    simp [SMap.get_insert, SMap.get_insertOpt, k1, k2, k3, k4]

/-- **C87**: every block of every ledger is published as such a value. -/
theorem C87_log [Crypto] {y : Sys} (h : Reachable y) (b : Block) (hb : b ∈ y.ledger.blocks) :
    Spec.IsBlock b.toValue := (C87_schema _).mp ⟨b, h.block_fits b hb, rfl⟩

/-- **C87**: and anything of that form is read as a block, the one it is the value of. -/
theorem C87_accepted (v : Value) (h : Spec.IsBlock v) :
    ∃ b, Block.fromValue v = some b ∧ b.toValue = v := by
  obtain ⟨b, hb, rfl⟩ := (C87_schema v).mpr h
  exact ⟨b, C37_value_round_trip b hb, rfl⟩

open Toy in
/-- Four blocks of a history, of all four kinds; a block with a fee of 2^128 is not of the form, nor is
one with another item. -/
example : (∃ y, Reachable y ∧ y.ledger.blocks.map (fun b => b.transaction.flatten.op) =
      [opMint, opXfer, opApprove, opBurn] ∧ ∀ b ∈ y.ledger.blocks, Spec.IsBlock b.toValue) ∧
    ¬Spec.IsBlock (.map [(kFee, .nat (2 ^ 128))]) ∧ ¬Spec.IsBlock (.map [([1], .nat 0)]) := by
  have hr := run_reachable [dep alice 1000000000000, xfer alice bob 1000, appr alice bob 1000000000,
    wdr alice 200000000]
  refine ⟨⟨_, hr, by decide +kernel, fun b hb => C87_log hr b hb⟩, ?_, ?_⟩
  · rintro ⟨m, hm, _, _, _, _, h, _⟩
    cases hm
    obtain ⟨n, hn, hlt⟩ := h (.nat (2 ^ 128)) (by simp [key_fee])
    cases hn
    omega
  · rintro ⟨m, hm, _, _, _, _, _, h⟩
    cases hm
    obtain ⟨k, hk, he⟩ := h ([1], .nat 0) (by simp)
    simp at hk
    rcases hk with rfl | rfl | rfl | rfl <;> revert he <;> decide +kernel

end CyclesLedger
