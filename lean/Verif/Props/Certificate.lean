import Verif.Model.Certificate
import Verif.Spec.Tree
import Verif.Proof.Wire
import Verif.Props.Integrity
/-!
# C92: the certificate as it is sent
-/
namespace CyclesLedger

theorem HashTree.standsFor (t : HashTree) : Spec.StandsFor t.toCbor t := by
  induction t with
  | empty => exact .empty
  | fork l r hl hr => exact .fork hl hr
  | labeled k t ht => exact .labeled ht
  | leaf b => exact .leaf
  | pruned h => exact .pruned

/-- Labels and leaves are byte strings CBOR can represent. -/
inductive HFits : HashTree → Prop
  | empty : HFits .empty
  | fork {l r} : HFits l → HFits r → HFits (.fork l r)
  | labeled {k : Bytes} {t} : k.length < 2 ^ 64 → HFits t → HFits (.labeled k t)
  | leaf {b : Bytes} : b.length < 2 ^ 64 → HFits (.leaf b)
  | pruned {h} : HFits (.pruned h)

theorem cfits_tree {t : HashTree} (h : HFits t) : CFits t.toCbor := by
  have hn : ∀ n : Nat, n < 5 → CFits (.int n) := fun n hn => .int (by omega) (by omega)
  induction h with
  | empty =>
    refine .array (by decide) ?_
    intro v hv
    rw [List.mem_singleton.1 hv]
    exact hn 0 (by omega)
  | fork _ _ h1 h2 =>
    refine .array (by simp) ?_
    intro v hv
    simp only [List.mem_cons, List.not_mem_nil, or_false] at hv
    rcases hv with rfl | rfl | rfl
    · exact hn 1 (by omega)
    · exact h1
    · exact h2
  | labeled hk _ h1 =>
    refine .array (by simp) ?_
    intro v hv
    simp only [List.mem_cons, List.not_mem_nil, or_false] at hv
    rcases hv with rfl | rfl | rfl
    · exact hn 2 (by omega)
    · exact .bytes hk
    · exact h1
  | leaf hb =>
    refine .array (by simp) ?_
    intro v hv
    simp only [List.mem_cons, List.not_mem_nil, or_false] at hv
    rcases hv with rfl | rfl
    · exact hn 3 (by omega)
    · exact .bytes hb
  | @pruned h =>
    refine .array (by simp) ?_
    intro v hv
    simp only [List.mem_cons, List.not_mem_nil, or_false] at hv
    rcases hv with rfl | rfl
    · exact hn 4 (by omega)
    · exact .bytes (by have := h.property; omega)

theorem leb128_length (k : Nat) : ∀ n, n < 128 ^ (k + 1) → (leb128 n).length ≤ k + 1 := by
  induction k with
  | zero =>
    intro n hn
    unfold leb128
    rw [dif_pos (by simpa using hn)]
    simp
  | succ k ih =>
    intro n hn
    unfold leb128
    split
    · simp
    · have := ih (n / 128) (by rw [Nat.pow_succ] at hn; omega)
      simp only [List.length_cons]
      omega

theorem kLastBlockIndex_label : kLastBlockIndex = Spec.label "last_block_index" := by decide
theorem kLastBlockHash_label : kLastBlockHash = Spec.label "last_block_hash" := by decide

theorem Spec.StandsFor.eq {c : CVal} {t : HashTree} (h : Spec.StandsFor c t) :
    c = t.toCbor := by
  induction h with
  | empty => rfl
  | fork _ _ h1 h2 => rw [h1, h2]; rfl
  | labeled _ h1 => rw [h1]; rfl
  | leaf => rfl
  | pruned => rfl

theorem HashTree.toCbor_inj : ∀ {t t' : HashTree}, t.toCbor = t'.toCbor → t = t' := by
  intro t
  induction t with
  | empty => intro t' h; cases t' <;> simp [HashTree.toCbor] at h; rfl
  | fork l r hl hr =>
    intro t' h
    cases t' <;> simp [HashTree.toCbor] at h
    rw [hl h.1, hr h.2]
  | labeled k t ht =>
    intro t' h
    cases t' <;> simp [HashTree.toCbor] at h
    rw [h.1, ht h.2]
  | leaf b => intro t' h; cases t' <;> simp [HashTree.toCbor] at h; rw [h]
  | pruned x => intro t' h; cases t' <;> simp [HashTree.toCbor] at h; rw [Subtype.ext h]

/-- The bytes of a tree read as that tree and as no other. -/
theorem readsAs_encode {t : HashTree} (h : HFits t) (t' : HashTree) :
    Spec.ReadsAs t.toCbor.encode t' ↔ t' = t := by
  constructor
  · rintro ⟨c, hc, hs⟩
    rw [read_encode (cfits_tree h)] at hc
    have := Option.some.inj hc
    subst this
    exact (HashTree.toCbor_inj hs.eq).symm
  · rintro rfl
    exact ⟨_, read_encode (cfits_tree h), t'.standsFor⟩

/-- **C92**: the hash tree served with the certificate can be read with the format of the IC
specification, and as one tree only: its root is the certified data, and it holds the
index and the hash of the last block under the labels of ICRC-3.  It is at most 88 bytes long. -/
theorem C92_readable [Crypto] {y : Sys} (h : Reachable y) {b : Block}
    (hb : y.ledger.blocks.getLast? = some b) (hlen : y.ledger.blocks.length < 2 ^ 64)
    (cert : Bytes) :
    ∃ d, icrc3GetTipCertificate y.ledger (some cert) = some d ∧ d.certificate = cert ∧
      d.hashTree.length ≤ 88 ∧
      ∃ t, (∀ t', Spec.ReadsAs d.hashTree t' ↔ t' = t) ∧
        y.ledger.certifiedData = some t.digest ∧
        (∃ v, t.lookup (Spec.label "last_block_index") = some v ∧
          Spec.readUnsigned v = some (y.ledger.blocks.length - 1, [])) ∧
        t.lookup (Spec.label "last_block_hash") = some b.hash.val := by
  obtain ⟨h1, h2, h3⟩ := (C32_certified h).1 b hb
  have hl : (leb128 (y.ledger.blocks.length - 1)).length ≤ 10 := by
    refine leb128_length 9 _ ?_
    have : (128 : Nat) ^ 10 = 2 ^ 70 := by decide
    omega
  have hh : b.hash.val.length = 32 := b.hash.property
  refine ⟨_, rfl, rfl, ?_, tipHashTree y.ledger, ?_, h1, ?_, ?_⟩
  · show (tipHashTree y.ledger).toCbor.encode.length ≤ 88
    rw [tip_tree h hb]
    have e1 : kLastBlockHash.length = 15 := by decide
    have e2 : kLastBlockIndex.length = 16 := by decide
    have c1 : ∀ m n, n < 24 → (cborHead m n).length = 1 := by
      intro m n hn
      unfold cborHead
      rw [if_pos hn]
      rfl
    have c2 : ∀ m, (cborHead m 32).length = 2 := by intro m; rfl
    simp only [HashTree.toCbor, CVal.encode, encodeList, List.length_append, List.length_cons,
      List.length_nil, hh, e1, e2]
    simp [c1, c2, c1 _ _ (show (leb128 (y.ledger.blocks.length - 1)).length < 24 by omega)]
    omega
  · intro t'
    refine readsAs_encode ?_ t'
    rw [tip_tree h hb]
    exact .fork (.labeled (by decide) (.leaf (by omega))) (.labeled (by decide) (.leaf (by omega)))
  · rw [← kLastBlockIndex_label]; exact h2
  · rw [← kLastBlockHash_label]; exact h3

/-- **C92**: before the first block the tree is empty; without a certificate of the subnet there
is no answer. -/
theorem C92_empty [Crypto] {y : Sys} (h : Reachable y) (hb : y.ledger.blocks = [])
    (cert : Bytes) :
    (∃ d, icrc3GetTipCertificate y.ledger (some cert) = some d ∧ d.certificate = cert ∧
      d.hashTree = [0x81, 0x00] ∧ ∀ t', Spec.ReadsAs d.hashTree t' ↔ t' = .empty) ∧
    icrc3GetTipCertificate y.ledger none = none := by
  have ht : tipHashTree y.ledger = .empty := by
    unfold tipHashTree
    rw [h.inv.ledger.tree, hb]
    rfl
  refine ⟨⟨_, rfl, rfl, ?_, ?_⟩, rfl⟩
  · show (tipHashTree y.ledger).toCbor.encode = _
    rw [ht]
    rfl
  · intro t'
    show Spec.ReadsAs (tipHashTree y.ledger).toCbor.encode t' ↔ _
    rw [ht]
    exact readsAs_encode .empty t'

open Toy in
/-- The bytes served after six blocks. -/
example : Reachable demo ∧ demo.ledger.blocks.length = 6 ∧
    (icrc3GetTipCertificate demo.ledger (some [1, 2])).map (fun d => (d.hashTree.length, d.hashTree.take 5)) =
      some (79, [0x83, 0x01, 0x83, 0x02, 0x4f]) ∧
    Reachable start ∧ start.ledger.blocks = [] :=
  ⟨demo_reachable, by decide +kernel, by decide +kernel, run_reachable [], by decide +kernel⟩

end CyclesLedger
