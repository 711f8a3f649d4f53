import Verif.Proof.HashInj
import Verif.Proof.TxHash
import Verif.Proof.SysInv
import Verif.Proof.Toy
import Verif.Proof.Dedup
/-!
# Hashes and certificates

C32, C33, C36.  "Unless SHA-256 collides" is always explicit: the alternative of each
theorem exhibits two different byte strings that were actually hashed, with one digest.
-/
namespace CyclesLedger

/-! ## C36 -/

/-- **C36**: every transaction can be hashed. -/
theorem C36_hashable [Crypto] (t : Transaction) : ∃ h, t.hash = some h := ⟨_, t.hash_eq⟩

/-- **C36**: two transactions with the same hash are the same transaction, or SHA-256 maps two
different strings, hashed for the one and for the other, to the same digest. -/
theorem C36_identified [Crypto] (t t' : Transaction) (h : t.hash = t'.hash) :
    t = t' ∨ Spec.ShaCollision (Spec.hashed t.flatten.value) (Spec.hashed t'.flatten.value) := by
  rw [t.hash_eq, t'.hash_eq] at h
  exact tx_hash_inj (Option.some.inj h)

open Toy in
/-- Two transactions that differ in the memo only have different hashes, and so have two that
differ in how the default subaccount is written. -/
example :
    (⟨.burn (acc alice) none 5, some 1, some [1]⟩ : Transaction).hash ≠
      (⟨.burn (acc alice) none 5, some 1, some [2]⟩ : Transaction).hash ∧
    (⟨.burn (acc alice) none 5, some 1, none⟩ : Transaction).hash ≠
      (⟨.burn ⟨alice, some zeroSub⟩ none 5, some 1, none⟩ : Transaction).hash := by
  decide +kernel

/-! ## C33 -/

/-- A hash chain: the first block has no parent hash, every other one the hash of the block
before it. -/
def Spec.Chained [Crypto] (bs : List Block) : Prop :=
  (∀ b, bs[0]? = some b → b.phash = none) ∧
  (∀ (i : Nat) (p b : Block), bs[i]? = some p → bs[i + 1]? = some b → b.phash = some p.hash)

/-- The byte strings hashed for the blocks of a log. -/
def Spec.logHashed [Crypto] (bs : List Block) : List Bytes :=
  bs.flatMap (fun b => Spec.hashed b.toValue)

theorem Spec.Chained.dropLast [Crypto] {bs : List Block} {b : Block}
    (h : Spec.Chained (bs ++ [b])) : Spec.Chained bs := by
  constructor
  · intro x hx
    exact h.1 x (by rw [List.getElem?_append_left]; exact hx; exact (List.getElem?_eq_some_iff.mp hx).1)
  · intro i p x hp hx
    refine h.2 i p x ?_ ?_
    · rw [List.getElem?_append_left]; exact hp; exact (List.getElem?_eq_some_iff.mp hp).1
    · rw [List.getElem?_append_left]; exact hx; exact (List.getElem?_eq_some_iff.mp hx).1

theorem Spec.Chained.last [Crypto] {bs : List Block} {b : Block}
    (h : Spec.Chained (bs ++ [b])) : b.phash = bs.getLast?.map Block.hash := by
  rcases List.eq_nil_or_concat bs with rfl | ⟨xs, x, rfl⟩
  · exact h.1 b (by simp)
  · rw [List.concat_eq_append] at h ⊢
    rw [h.2 xs.length x b (by simp) (by simp)]
    simp

theorem Spec.ShaCollision.sub [Crypto] {xs ys xs' ys' : List Bytes} (h : Spec.ShaCollision xs ys)
    (h1 : ∀ x ∈ xs, x ∈ xs') (h2 : ∀ y ∈ ys, y ∈ ys') : Spec.ShaCollision xs' ys' := by
  obtain ⟨x, hx, y, hy, h⟩ := h
  exact ⟨x, h1 x hx, y, h2 y hy, h⟩

/-- **C33**: two hash chains that end in the same hash (or are both empty) are the same list of
blocks, or SHA-256 maps two different strings, hashed for the one and for the other, to the same
digest. -/
theorem C33_tamper_evident [Crypto] : ∀ (bs bs' : List Block),
    Spec.Chained bs → Spec.Chained bs' →
    bs.getLast?.map Block.hash = bs'.getLast?.map Block.hash →
    bs = bs' ∨ Spec.ShaCollision (Spec.logHashed bs) (Spec.logHashed bs') := by
  intro bs
  induction h : bs.length generalizing bs with
  | zero =>
    intro bs' _ _ h3
    have : bs = [] := List.length_eq_zero_iff.mp h
    subst this
    left
    cases hl : bs'.getLast? with
    | none => exact (List.getLast?_eq_none_iff.mp hl).symm
    | some b => rw [hl] at h3; simp at h3
  | succ n ih =>
    intro bs' h1 h2 h3
    rcases List.eq_nil_or_concat bs with rfl | ⟨xs, x, rfl⟩
    · simp at h
    rcases List.eq_nil_or_concat bs' with rfl | ⟨zs, z, rfl⟩
    · simp at h3
    rw [List.concat_eq_append] at *
    rw [List.concat_eq_append] at *
    simp only [List.getLast?_append, List.getLast?_singleton, Option.some_or, Option.map_some,
      Option.some.injEq] at h3
    rcases block_hash_inj h3 with hxz | hc
    · subst hxz
      have hp : xs.getLast?.map Block.hash = zs.getLast?.map Block.hash := by
        rw [← h1.last, ← h2.last]
      rcases ih xs (by simpa using h) zs h1.dropLast h2.dropLast hp with rfl | hc
      · exact .inl rfl
      · exact .inr (hc.sub (by intro y hy; simp [Spec.logHashed] at hy ⊢; exact .inl hy)
          (by intro y hy; simp [Spec.logHashed] at hy ⊢; exact .inl hy))
    · exact .inr (hc.sub (by intro y hy; simp [Spec.logHashed]; exact .inr hy)
        (by intro y hy; simp [Spec.logHashed]; exact .inr hy))

/-- **C33** for the ledger: somebody who holds the hash of the last block of a ledger can
check a log handed to them by anybody. -/
theorem C33_ledger_log [Crypto] {y : Sys} (h : Reachable y) (bs : List Block)
    (hc : Spec.Chained bs)
    (hh : bs.getLast?.map Block.hash = y.ledger.blocks.getLast?.map Block.hash) :
    bs = y.ledger.blocks ∨ Spec.ShaCollision (Spec.logHashed bs) (Spec.logHashed y.ledger.blocks) := by
  refine C33_tamper_evident _ _ hc ?_ hh
  have hi := h.inv.ledger
  constructor
  · intro b hb
    rw [List.getElem?_eq_some_iff] at hb
    obtain ⟨hlt, rfl⟩ := hb
    have := (hi.log [] _ (y.ledger.blocks.drop 1) (by
      have := List.drop_eq_getElem_cons hlt
      simpa using this)).phash
    simpa using this
  · intro i p b hp hb
    rw [List.getElem?_eq_some_iff] at hb hp
    obtain ⟨hlt, rfl⟩ := hb
    obtain ⟨hlt', rfl⟩ := hp
    have := (hi.log (y.ledger.blocks.take (i + 1)) _ (y.ledger.blocks.drop (i + 2)) (by
      rw [← List.drop_eq_getElem_cons hlt, List.take_append_drop])).phash
    rw [this, List.getLast?_take]
    simp [List.getElem?_eq_getElem hlt']

open Toy in
/-- The log of the example history is a chain of 6 blocks that ends in a hash. -/
example : demo.ledger.blocks.length = 6 ∧
    (demo.ledger.blocks.getLast?.map Block.hash).isSome = true ∧
    (demo.ledger.blocks[2]?.bind Block.phash) = (demo.ledger.blocks[1]?.map Block.hash) := by
  decide +kernel

/-! ## C32 -/

theorem tip_tree [Crypto] {y : Sys} (h : Reachable y) {b : Block}
    (hb : y.ledger.blocks.getLast? = some b) :
    tipHashTree y.ledger = .fork (.labeled kLastBlockHash (.leaf b.hash.val))
      (.labeled kLastBlockIndex (.leaf (leb128 (y.ledger.blocks.length - 1)))) := by
  have hi := h.inv.ledger
  unfold tipHashTree
  rw [hi.tree]
  unfold computeTip
  rw [hb]
  rfl

/-- **C32**: the certified data is the root of the tree that is served with the certificate,
and that tree holds the index and the hash of the last block.  Nothing is certified before the
first block. -/
theorem C32_certified [Crypto] {y : Sys} (h : Reachable y) :
    (∀ b, y.ledger.blocks.getLast? = some b →
      y.ledger.certifiedData = some (tipHashTree y.ledger).digest ∧
      (∃ v, (tipHashTree y.ledger).lookup kLastBlockIndex = some v ∧
        Spec.readUnsigned v = some (y.ledger.blocks.length - 1, [])) ∧
      (tipHashTree y.ledger).lookup kLastBlockHash = some b.hash.val) ∧
    (y.ledger.blocks = [] → y.ledger.certifiedData = none) := by
  have hi := h.inv.ledger
  refine ⟨fun b hb => ⟨?_, ?_, ?_⟩, hi.nocert⟩
  · exact hi.cert (by rintro h; rw [h] at hb; cases hb)
  · rw [tip_tree h hb]
    have : kLastBlockHash ≠ kLastBlockIndex := by decide
    refine ⟨leb128 (y.ledger.blocks.length - 1), by simp [HashTree.lookup, this], ?_⟩
    have := readUnsigned_leb128 (y.ledger.blocks.length - 1) []
    rwa [List.append_nil] at this
  · rw [tip_tree h hb]
    simp [HashTree.lookup]

/-- **C32**: a tree whose root is the certified data, whoever made it and whatever it leaves
out, can only claim the actual index and hash of the last block, unless SHA-256 collides. -/
theorem C32_unforgeable [Crypto] {y : Sys} (h : Reachable y) {b : Block}
    (hb : y.ledger.blocks.getLast? = some b) (t : HashTree)
    (ht : y.ledger.certifiedData = some t.digest) :
    ((∀ v, t.lookup kLastBlockIndex = some v →
      Spec.readUnsigned v = some (y.ledger.blocks.length - 1, [])) ∧
     (∀ v, t.lookup kLastBlockHash = some v → v = b.hash.val)) ∨
    Spec.ShaCollision (Spec.treeHashed t) (Spec.treeHashed (tipHashTree y.ledger)) := by
  have hne : kLastBlockHash ≠ kLastBlockIndex := by decide
  have hd : t.digest = (tipHashTree y.ledger).digest := by
    rw [((C32_certified h).1 b hb).1] at ht
    exact (Option.some.inj ht).symm
  have hfull : Full (tipHashTree y.ledger) := by
    rw [tip_tree h hb]
    exact .fork (.labeled .leaf) (.labeled .leaf)
  rcases prunes_of_digest hfull hd with hp | hc
  · left
    rw [tip_tree h hb] at hp
    have one : ∀ {k : Bytes} {x : Bytes} {t : HashTree}, Prunes t (.labeled k (.leaf x)) →
        ∀ k', (t.lookup k' = none) ∨ (k = k' ∧ t.lookup k' = some x) := by
      intro k x t ht k'
      by_cases hk : k = k'
      · subst hk
        cases ht with
        | refl => right; simp [HashTree.lookup]
        | pruned => left; rfl
        | labeled h =>
          cases h with
          | refl => right; simp [HashTree.lookup]
          | pruned => left; rfl
      · left
        cases ht with
        | refl => simp [HashTree.lookup, hk]
        | pruned => rfl
        | labeled h =>
          cases h with
          | refl => simp [HashTree.lookup, hk]
          | pruned => rfl
    have two : ∀ l r, t = .fork l r → Prunes l (.labeled kLastBlockHash (.leaf b.hash.val)) →
        Prunes r (.labeled kLastBlockIndex (.leaf (leb128 (y.ledger.blocks.length - 1)))) →
        (∀ v, t.lookup kLastBlockIndex = some v →
      Spec.readUnsigned v = some (y.ledger.blocks.length - 1, [])) ∧
        (∀ v, t.lookup kLastBlockHash = some v → v = b.hash.val) := by
      intro l r he hl hr
      subst he
      constructor
      · intro v hv
        simp only [HashTree.lookup] at hv
        rcases one hl kLastBlockIndex with h1 | ⟨h1, _⟩
        · rw [h1] at hv
          rcases one hr kLastBlockIndex with h2 | ⟨_, h2⟩
          · simp [h2] at hv
          · simp only [h2, Option.some.injEq] at hv
            have := readUnsigned_leb128 (y.ledger.blocks.length - 1) []
            rwa [List.append_nil, hv] at this
        · exact absurd h1 hne
      · intro v hv
        simp only [HashTree.lookup] at hv
        rcases one hr kLastBlockHash with h2 | ⟨h2, _⟩
        · rcases one hl kLastBlockHash with h1 | ⟨_, h1⟩
          · simp [h1, h2] at hv
          · simp only [h1, Option.some.injEq] at hv
            exact hv.symm
        · exact absurd h2.symm hne
    cases hp with
    | refl => exact two _ _ rfl .refl .refl
    | pruned => exact ⟨fun v hv => by simp [HashTree.lookup] at hv, fun v hv => by simp [HashTree.lookup] at hv⟩
    | fork h1 h2 => exact two _ _ rfl h1 h2
  · exact .inr hc

/-- **C32**: the certified data of two ledgers agree only if the ledgers have the same number of
blocks and the same last hash, unless SHA-256 collides. -/
theorem C32_roots [Crypto] {y y' : Sys} (h : Reachable y) (h' : Reachable y')
    (heq : y.ledger.certifiedData = y'.ledger.certifiedData) :
    (y.ledger.blocks.length = y'.ledger.blocks.length ∧
      y.ledger.blocks.getLast?.map Block.hash = y'.ledger.blocks.getLast?.map Block.hash) ∨
    Spec.ShaCollision (Spec.treeHashed (tipHashTree y.ledger))
      (Spec.treeHashed (tipHashTree y'.ledger)) := by
  cases hb : y.ledger.blocks.getLast? with
  | none =>
    cases hb' : y'.ledger.blocks.getLast? with
    | none =>
      left
      rw [List.getLast?_eq_none_iff] at hb hb'
      simp [hb, hb']
    | some b' =>
      rw [((C32_certified h').1 b' hb').1] at heq
      rw [(C32_certified h).2 (List.getLast?_eq_none_iff.mp hb)] at heq
      cases heq
  | some b =>
    have hc := (C32_certified h).1 b hb
    cases hb' : y'.ledger.blocks.getLast? with
    | none =>
      rw [(C32_certified h').2 (List.getLast?_eq_none_iff.mp hb'), hc.1] at heq
      cases heq
    | some b' =>
      have hl : y.ledger.blocks ≠ [] := by rintro h; rw [h] at hb; cases hb
      have hl' : y'.ledger.blocks ≠ [] := by rintro h; rw [h] at hb'; cases hb'
      have hp := List.length_pos_iff.mpr hl
      have hp' := List.length_pos_iff.mpr hl'
      rcases C32_unforgeable h' hb' (tipHashTree y.ledger) (by rw [← heq, hc.1]) with ⟨h1, h2⟩ | hcol
      · left
        obtain ⟨v, hv, hr⟩ := hc.2.1
        have e1 := h1 v hv
        rw [hr] at e1
        simp only [Option.some.injEq, Prod.mk.injEq, and_true] at e1
        have e2 := h2 _ hc.2.2
        refine ⟨by omega, ?_⟩
        simp only [Option.map_some, Option.some.injEq]
        exact Subtype.ext e2
      · exact .inr hcol

open Toy in
/-- After the example history the tree claims index 5. -/
example : (tipHashTree demo.ledger).lookup kLastBlockIndex = some [5] ∧
    demo.ledger.certifiedData.isSome = true := by decide +kernel

end CyclesLedger
