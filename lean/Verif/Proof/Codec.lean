import Verif.Model.Wire
import Verif.Proof.Values
/-! # Blocks written and read back -/
namespace CyclesLedger

/-! ## Field bounds -/
namespace Spec

/-- A number given as `Option` is at most `max`. -/
def Bounded (max : Nat) (o : Option Nat) : Prop := ∀ n, o = some n → n ≤ max

/-- The numbers of an operation fit their Rust types: `u128` amounts, fees and allowances,
`u64` times (storage.rs:209-241). -/
def OpFits : Operation → Prop
  | .mint _ amount fee => amount ≤ 2 ^ 128 - 1 ∧ fee ≤ 2 ^ 128 - 1
  | .transfer _ _ _ amount fee => amount ≤ 2 ^ 128 - 1 ∧ Bounded (2 ^ 128 - 1) fee
  | .burn _ _ amount => amount ≤ 2 ^ 128 - 1
  | .approve _ _ amount ea exp fee =>
    amount ≤ 2 ^ 128 - 1 ∧ Bounded (2 ^ 128 - 1) ea ∧ Bounded (2 ^ 64 - 1) exp ∧
      Bounded (2 ^ 128 - 1) fee

/-- The numbers of a block fit their Rust types (storage.rs:85-92, 448-459). -/
structure BlockFits (b : Block) : Prop where
  op : OpFits b.transaction.operation
  created : Bounded (2 ^ 64 - 1) b.transaction.createdAtTime
  time : b.timestamp ≤ 2 ^ 64 - 1
  fee : Bounded (2 ^ 128 - 1) b.effectiveFee

end Spec

/-! ## Accounts -/

theorem ofCompact_compact (a : Account) : Account.ofCompact a.compact = some a := by
  obtain ⟨⟨p, hp⟩, sub⟩ := a
  cases sub with
  | none => simp [Account.compact, Account.ofCompact, hp]
  | some s =>
    obtain ⟨s, hs⟩ := s
    simp [Account.compact, Account.ofCompact, hp, hs]

theorem compact_inj {a b : Account} (h : a.compact = b.compact) : a = b := by
  have := ofCompact_compact a
  rw [h, ofCompact_compact] at this
  exact (Option.some.inj this).symm

/-! ## Struct fields -/

theorem pick_append (k : Text) (l l' : List (CVal × CVal)) :
    pick k (l ++ l') = pick k l ++ pick k l' := by
  simp [pick]

theorem pick_cons (k k' : Text) (v : CVal) (l : List (CVal × CVal)) :
    pick k ((.text k', v) :: l) = if k' = k then v :: pick k l else pick k l := by
  simp only [pick, List.filterMap_cons]
  split <;> simp_all

theorem pick_opt {A : Type} (k k' : Text) (o : Option A) (f : A → CVal) :
    pick k (optField k' o f) = if k' = k then (o.map f).toList else [] := by
  cases o with
  | none => simp [optField, pick]
  | some a => simp [optField, pick_cons]; split <;> simp_all [pick]

theorem textKeys_cons (k : Text) (v : CVal) (l : List (CVal × CVal)) :
    textKeys ((.text k, v) :: l) = textKeys l := by
  simp [textKeys]

theorem textKeys_nil : textKeys [] = true := rfl

theorem textKeys_append (l l' : List (CVal × CVal)) :
    textKeys (l ++ l') = (textKeys l && textKeys l') := by
  simp [textKeys]

theorem textKeys_opt {A : Type} (k : Text) (o : Option A) (f : A → CVal) :
    textKeys (optField k o f) = true := by
  cases o <;> simp [optField, textKeys]

/-! ## Reading what was written -/

theorem readNat_cborNat {max n : Nat} (h : n ≤ max) : readNat max (cborNat n) = some n := by
  unfold cborNat
  split
  · simp only [readNat]
    rw [if_pos ⟨by omega, by simpa using h⟩]
    simp
  · simp only [readNat, ofBytesBE_toBytesBE]
    simp [h]

theorem readBytesList_map (l : List Bytes) : readBytesList (l.map .bytes) = some l := by
  induction l with
  | nil => rfl
  | cons b t ih => simp [readBytesList, readBytes, stripTags, ih]

theorem readAccount_cbor (a : Account) : readAccount (cborAccount a) = some a := by
  simp [readAccount, cborAccount, stripTags, readBytesList_map, ofCompact_compact]

/-- Reading back an optional value that was there. -/
theorem fieldOpt_of_pick {A : Type} {kvs : List (CVal × CVal)} {k : Text} {o : Option A}
    {f : A → CVal} {g : CVal → Option A} (h : pick k kvs = (o.map f).toList)
    (hn : ∀ a, f a ≠ .null) (hg : ∀ a, o = some a → g (f a) = some a) :
    fieldOpt kvs k g = some o := by
  unfold fieldOpt
  rw [h]
  cases o with
  | none => rfl
  | some a =>
    simp only [Option.map_some, Option.toList_some]
    unfold readOpt
    split
    · exact absurd (by assumption) (hn a)
    · rw [hg a rfl]; rfl

theorem field_of_pick {A : Type} {kvs : List (CVal × CVal)} {k : Text} {c : CVal}
    {g : CVal → Option A} {a : A} (h : pick k kvs = [c]) (hg : g c = some a) :
    field kvs k g = some a := by
  unfold field
  rw [h]
  exact hg

theorem cborNat_ne_null (n : Nat) : cborNat n ≠ .null := by
  unfold cborNat; split <;> exact fun h => nomatch h

/-- The numbers of a flattened transaction fit. -/
structure Flat.Fits (f : Flat) : Prop where
  created : ∀ n, f.createdAtTime = some n → n ≤ U64MAX
  amount : f.amount ≤ U128MAX
  fee : ∀ n, f.fee = some n → n ≤ U128MAX
  expected : ∀ n, f.expectedAllowance = some n → n ≤ U128MAX
  expires : ∀ n, f.expiresAt = some n → n ≤ U64MAX

/-- Reading a map that has the fields of `f`, in whatever order, with numbers written by `num`
and accounts by `cborAccount`. -/
theorem Flat.ofCbor_of_picks {f : Flat} {num : Nat → CVal} {kvs : List (CVal × CVal)}
    (hf : f.Fits) (hnull : ∀ n, num n ≠ .null)
    (hnum : ∀ max n, n ≤ max → readNat max (num n) = some n) (hk : textKeys kvs = true)
    (h1 : pick kTs kvs = (f.createdAtTime.map num).toList)
    (h2 : pick kMemo kvs = (f.memo.map CVal.bytes).toList)
    (h3 : pick kOp kvs = [.text f.op])
    (h4 : pick kFrom kvs = (f.frm.map cborAccount).toList)
    (h5 : pick kTo kvs = (f.to.map cborAccount).toList)
    (h6 : pick kSpender kvs = (f.spender.map cborAccount).toList)
    (h7 : pick kAmt kvs = [num f.amount])
    (h8 : pick kFee kvs = (f.fee.map num).toList)
    (h9 : pick kExpectedAllowance kvs = (f.expectedAllowance.map num).toList)
    (h10 : pick kExpiresAt kvs = (f.expiresAt.map num).toList) :
    Flat.ofCbor (.map kvs) = some f := by
  have hacc : ∀ a : Account, cborAccount a ≠ .null := fun a => by
    unfold cborAccount; exact fun h => nomatch h
  unfold Flat.ofCbor
  simp only [stripTags]
  rw [if_pos hk]
  rw [fieldOpt_of_pick h1 hnull (fun n hn => hnum _ n (hf.created n hn)),
    fieldOpt_of_pick h2 (fun _ h => nomatch h) (fun b _ => by simp [readBytes, stripTags]),
    field_of_pick (a := f.op) h3 (by simp [readText, stripTags]),
    fieldOpt_of_pick h4 hacc (fun a _ => readAccount_cbor a),
    fieldOpt_of_pick h5 hacc (fun a _ => readAccount_cbor a),
    fieldOpt_of_pick h6 hacc (fun a _ => readAccount_cbor a),
    field_of_pick h7 (hnum _ _ hf.amount),
    fieldOpt_of_pick h8 hnull (fun n hn => hnum _ n (hf.fee n hn)),
    fieldOpt_of_pick h9 hnull (fun n hn => hnum _ n (hf.expected n hn)),
    fieldOpt_of_pick h10 hnull (fun n hn => hnum _ n (hf.expires n hn))]
  rfl

theorem Flat.ofCbor_toCbor {f : Flat} (hf : f.Fits) : Flat.ofCbor f.toCbor = some f := by
  unfold Flat.toCbor
  refine Flat.ofCbor_of_picks hf cborNat_ne_null (fun max n h => readNat_cborNat h) ?_ ?_ ?_ ?_ ?_ ?_
    ?_ ?_ ?_ ?_ ?_
  · simp only [textKeys_append, textKeys_opt, textKeys_cons, textKeys_nil, Bool.and_self]
  all_goals
    simp only [pick_append, pick_opt, pick_cons]
    simp [kTs, kMemo, kOp, kFrom, kTo, kSpender, kAmt, kFee, kExpectedAllowance, kExpiresAt, pick]

theorem unflatten_flatten (t : Transaction) : t.flatten.unflatten = some t := by
  obtain ⟨op, ct, memo⟩ := t
  cases op <;> simp [Transaction.flatten, Flat.unflatten, opBurn, opMint, opXfer, opApprove]

theorem flatten_inj {t t' : Transaction} (h : t.flatten = t'.flatten) : t = t' := by
  have := unflatten_flatten t
  rw [h, unflatten_flatten] at this
  exact (Option.some.inj this).symm

theorem flatten_fits {t : Transaction} (ho : Spec.OpFits t.operation)
    (hc : Spec.Bounded (2 ^ 64 - 1) t.createdAtTime) : t.flatten.Fits := by
  have e64 : U64MAX = 2 ^ 64 - 1 := by rw [U64MAX_eq]
  have e128 : U128MAX = 2 ^ 128 - 1 := by rw [U128MAX_eq]
  obtain ⟨op, ct, memo⟩ := t
  cases op with
  | mint to amount fee =>
    refine ⟨?_, ?_, ?_, ?_, ?_⟩ <;> simp only [Transaction.flatten, e64, e128]
    · exact hc
    · exact ho.1
    · intro n h; cases h; exact ho.2
    · intro n h; cases h
    · intro n h; cases h
  | transfer frm to sp amount fee =>
    refine ⟨?_, ?_, ?_, ?_, ?_⟩ <;> simp only [Transaction.flatten, e64, e128]
    · exact hc
    · exact ho.1
    · exact ho.2
    · intro n h; cases h
    · intro n h; cases h
  | burn frm sp amount =>
    refine ⟨?_, ?_, ?_, ?_, ?_⟩ <;> simp only [Transaction.flatten, e64, e128]
    · exact hc
    · exact ho
    · intro n h; cases h
    · intro n h; cases h
    · intro n h; cases h
  | approve frm sp amount ea exp fee =>
    refine ⟨?_, ?_, ?_, ?_, ?_⟩ <;> simp only [Transaction.flatten, e64, e128]
    · exact hc
    · exact ho.1
    · exact ho.2.2.2
    · exact ho.2.1
    · exact ho.2.2.1

theorem Transaction.ofCbor_toCbor {t : Transaction} (ho : Spec.OpFits t.operation)
    (hc : Spec.Bounded (2 ^ 64 - 1) t.createdAtTime) : Transaction.ofCbor t.toCbor = some t := by
  unfold Transaction.ofCbor Transaction.toCbor
  rw [Flat.ofCbor_toCbor (flatten_fits ho hc)]
  exact unflatten_flatten t

/-- Reading a map that has the fields of block `b`. -/
theorem Block.ofCbor_of_picks {b : Block} {num : Nat → CVal} {kvs : List (CVal × CVal)} {tx : CVal}
    (hb : Spec.BlockFits b) (hnull : ∀ n, num n ≠ .null)
    (hnum : ∀ max n, n ≤ max → readNat max (num n) = some n) (hk : textKeys kvs = true)
    (htx : Transaction.ofCbor tx = some b.transaction)
    (h1 : pick kTx kvs = [tx]) (h2 : pick kTs kvs = [num b.timestamp])
    (h3 : pick kPhash kvs = (b.phash.map (fun h => CVal.bytes h.val)).toList)
    (h4 : pick kFee kvs = (b.effectiveFee.map num).toList) :
    Block.ofCbor (.map kvs) = some b := by
  have e64 : U64MAX = 2 ^ 64 - 1 := by rw [U64MAX_eq]
  have e128 : U128MAX = 2 ^ 128 - 1 := by rw [U128MAX_eq]
  unfold Block.ofCbor
  simp only [stripTags]
  rw [if_pos hk, field_of_pick h1 htx,
    field_of_pick h2 (hnum _ _ (e64 ▸ hb.time)),
    fieldOpt_of_pick (g := readHash) h3 (fun _ h => nomatch h)
      (fun a _ => by
        obtain ⟨a, ha⟩ := a
        simp [readHash, readBytes, stripTags, ha]),
    fieldOpt_of_pick h4 hnull (fun n hn => hnum _ n (e128 ▸ hb.fee n hn))]
  rfl

/-- `Deserialize` undoes `Serialize`. -/
theorem Block.ofCbor_toCbor {b : Block} (hb : Spec.BlockFits b) : Block.ofCbor b.toCbor = some b := by
  unfold Block.toCbor
  refine Block.ofCbor_of_picks hb cborNat_ne_null (fun max n h => readNat_cborNat h) ?_
    (Transaction.ofCbor_toCbor hb.op hb.created) ?_ ?_ ?_ ?_
  · simp only [textKeys_append, textKeys_opt, textKeys_cons, textKeys_nil, Bool.and_self]
  all_goals
    simp only [pick_append, pick_opt, pick_cons]
    simp [kTs, kTx, kPhash, kFee, pick]

end CyclesLedger
