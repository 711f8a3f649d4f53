import Verif.Proof.Client
import Verif.Model.Meta
import Verif.Props.Integrity
import Verif.Props.Accounting
import Verif.Props.Spending
import Verif.Props.Queries
/-!
# Clients of the block log

C65, C66, C67.
-/
namespace CyclesLedger

/-! ## C65 -/

/-- What a client checks before it believes a log: every value is a block; the first one has no
parent hash, every other one the hash of the value before it; and the certified tree names the
hash of the last one. -/
structure Client.Accepts [Crypto] (certified : Option Hash) (t : HashTree) (vs : List Value)
    (bs : List Block) : Prop where
  reads : Client.log vs = some bs
  first : ∀ v, vs[0]? = some v → Client.parent v = none
  linked : ∀ (i : Nat) (p v : Value), vs[i]? = some p → vs[i + 1]? = some v →
    Client.parent v = some (.blob p.hash.val)
  root : certified = some t.digest
  tip : ∃ v, vs.getLast? = some v ∧ t.lookup (Client.ascii "last_block_hash") = some v.hash.val

theorem Client.parent_blob {b : Block} {h : Hash}
    (hp : Client.parent b.toValue = some (.blob h.val)) : b.phash = some h := by
  rw [Client.parent_value] at hp
  cases hb : b.phash with
  | none => simp [hb] at hp
  | some g =>
    simp only [hb, Option.map_some, Option.some.injEq, Value.blob.injEq] at hp
    rw [Subtype.ext hp]

theorem Client.tip_name : Client.ascii "last_block_hash" = kLastBlockHash := by decide

/-- **C65**: a client that accepts a log, whoever handed it over, holds the log of the ledger,
and what it computes from it are the balances, the supply and the allowances of the ledger; or
two different strings were hashed to one digest. -/
theorem C65_believed [Crypto] {y : Sys} (h : Reachable y) (t : HashTree) (vs : List Value)
    (bs : List Block) (hp : ∀ v ∈ vs, Spec.Proper v)
    (hc : Client.Accepts y.ledger.certifiedData t vs bs) :
    (vs = y.ledger.blocks.map Block.toValue ∧ bs = y.ledger.blocks ∧
      (∀ a, (icrc1BalanceOf y.ledger a : Int) = Spec.balance bs (Spec.idOf a)) ∧
      (icrc1TotalSupply y.ledger : Int) = Spec.supply bs ∧
      (∀ a sp now, y.now ≤ now → Spec.spendable y.ledger a sp now =
        Spec.live now (Spec.allowances bs (Spec.idOf a, Spec.idOf sp)))) ∨
    Spec.ShaCollision (vs.flatMap Spec.hashed ++ Spec.treeHashed t)
      (Spec.logHashed y.ledger.blocks ++ Spec.treeHashed (tipHashTree y.ledger)) := by
  have hv := Client.log_exact hp hc.reads
  subst hv
  have hh : (bs.map Block.toValue).flatMap Spec.hashed = Spec.logHashed bs := by
    unfold Spec.logHashed
    rw [List.flatMap_map]
  obtain ⟨v, hv, hlook⟩ := hc.tip
  rw [List.getLast?_map] at hv
  cases hl : bs.getLast? with
  | none => simp [hl] at hv
  | some l =>
  simp only [hl, Option.map_some, Option.some.injEq] at hv
  subst hv
  rw [Client.tip_name] at hlook
  cases hb : y.ledger.blocks.getLast? with
  | none =>
    have := (C32_certified h).2 (List.getLast?_eq_none_iff.mp hb)
    rw [this] at hc
    cases hc.root
  | some b =>
  rcases C32_unforgeable h hb t hc.root with ⟨_, h2⟩ | hcol
  · have e := h2 _ hlook
    have hch : Spec.Chained bs := by
      constructor
      · intro x hx
        have := hc.first x.toValue (by simp [hx])
        rw [Client.parent_value] at this
        simpa using this
      · intro i p x hpi hxi
        exact Client.parent_blob (hc.linked i p.toValue x.toValue (by simp [hpi]) (by simp [hxi]))
    rcases C33_ledger_log h bs hch (by
        rw [hl, hb]; simp only [Option.map_some, Option.some.injEq]; exact Subtype.ext e) with he | hcol
    · subst he
      exact .inl ⟨rfl, rfl, C02_balances_replay h, C02_supply_replay h,
        fun a sp now hn => C16_allowances_replay h a sp now hn⟩
    · exact .inr (hcol.sub (by intro z hz; rw [hh]; exact List.mem_append_left _ hz)
        (fun z hz => List.mem_append_left _ hz))
  · exact .inr (hcol.sub (fun z hz => List.mem_append_right _ hz)
      (fun z hz => List.mem_append_right _ hz))

/-- **C65**: the log and the tree the ledger serves are accepted. -/
theorem C65_accepted [Crypto] {y : Sys} (h : Reachable y) (hne : y.ledger.blocks ≠ []) :
    Client.Accepts y.ledger.certifiedData (tipHashTree y.ledger)
      ((Spec.numbered y.ledger).map Prod.snd) y.ledger.blocks := by
  have hm : (Spec.numbered y.ledger).map Prod.snd = y.ledger.blocks.map Block.toValue := by
    apply List.ext_getElem?
    intro i
    simp only [Spec.numbered, List.getElem?_map, List.getElem?_mapIdx]
    cases y.ledger.blocks[i]? <;> rfl
  rw [hm]
  obtain ⟨c1, c2⟩ := C31_hash_chain h
  cases hb : y.ledger.blocks.getLast? with
  | none => exact absurd (List.getLast?_eq_none_iff.mp hb) hne
  | some b =>
  obtain ⟨d1, _, d3⟩ := (C32_certified h).1 b hb
  refine ⟨Client.log_value _, ?_, ?_, d1, ?_⟩
  · intro v hv
    rw [List.getElem?_map] at hv
    cases hx : y.ledger.blocks[0]? with
    | none => simp [hx] at hv
    | some x =>
      simp only [hx, Option.map_some, Option.some.injEq] at hv
      subst hv
      rw [Client.parent_value, c1 x hx]; rfl
  · intro i p v hpi hvi
    rw [List.getElem?_map] at hpi hvi
    cases hx : y.ledger.blocks[i]? with
    | none => simp [hx] at hpi
    | some x =>
    cases hz : y.ledger.blocks[i + 1]? with
    | none => simp [hz] at hvi
    | some z =>
      simp only [hx, hz, Option.map_some, Option.some.injEq] at hpi hvi
      subst hpi hvi
      rw [Client.parent_value, c2 i x z hx hz]; rfl
  · exact ⟨b.toValue, by rw [List.getLast?_map, hb]; rfl, by rw [Client.tip_name, d3]; rfl⟩

open Toy in
/-- The example history: a client that reads the 6 values of the log computes the 5000 cycles of
carol from them; with the last one replaced by the one before it reads 6 blocks, but does not
accept them. -/
example : demo.ledger.blocks ≠ [] ∧
    ((Client.log ((Spec.numbered demo.ledger).map Prod.snd)).map
      (fun bs => Spec.balance bs (Spec.idOf (acc carol)))) = some 5000 ∧
    ((demo.ledger.blocks[5]?.bind (fun b => Client.parent b.toValue)).map Value.hash) ≠
      ((demo.ledger.blocks[4]?.bind (fun b => Client.parent b.toValue)).map Value.hash) := by
  decide +kernel

/-! ## C66 -/

/-- **C66**: whatever is asked for, every block that is returned is the block with that index,
and the log length is the number of blocks. -/
theorem C66_truthful (s : State) (args : List GetBlocksArg) :
    (getBlocks s args).1 = s.blocks.length ∧
    ∀ e ∈ (getBlocks s args).2, ∃ b, s.blocks[e.1]? = some b ∧ e.2 = b.toValue := by
  refine ⟨rfl, ?_⟩
  suffices ∀ (args : List GetBlocksArg) (l : List (Nat × Value)),
      (∀ e ∈ l, ∃ b, s.blocks[e.1]? = some b ∧ e.2 = b.toValue) →
      ∀ e ∈ getBlocksLoop s args l, ∃ b, s.blocks[e.1]? = some b ∧ e.2 = b.toValue from
    this args [] (by simp)
  have range : ∀ (start stop : Nat), ∀ e ∈ blockRange s start stop,
      ∃ b, s.blocks[e.1]? = some b ∧ e.2 = b.toValue := by
    intro start stop e he
    unfold blockRange at he
    rw [List.mem_filterMap] at he
    obtain ⟨i, _, hi⟩ := he
    cases hb : s.blocks[i]? with
    | none => simp [hb] at hi
    | some b =>
      simp only [hb, Option.map_some, Option.some.injEq] at hi
      subst hi
      exact ⟨b, hb, rfl⟩
  intro args
  induction args with
  | nil => intro l hl; exact hl
  | cons a rest ih =>
    intro l hl
    unfold getBlocksLoop
    simp only
    split
    · exact hl
    · split
      · exact ih l hl
      · split
        · split
          · exact ih l hl
          · refine ih _ ?_
            intro e he
            rcases List.mem_append.mp he with he | he
            · exact hl e he
            · exact range _ _ e he
        · exact ih l hl

/-- **C66**: never more blocks are returned than `max_blocks_per_request`. -/
theorem C66_limited (s : State) (args : List GetBlocksArg) :
    (getBlocks s args).2.length ≤ s.config.maxBlocksPerRequest := by
  suffices ∀ (args : List GetBlocksArg) (l : List (Nat × Value)),
      l.length ≤ s.config.maxBlocksPerRequest →
      (getBlocksLoop s args l).length ≤ s.config.maxBlocksPerRequest from this args [] (by simp)
  have range : ∀ (start stop : Nat), (blockRange s start stop).length ≤ stop - start := by
    intro start stop
    unfold blockRange
    refine Nat.le_trans (List.length_filterMap_le _ _) ?_
    simp
  intro args
  induction args with
  | nil => intro l hl; exact hl
  | cons a rest ih =>
    intro l hl
    unfold getBlocksLoop
    simp only
    split
    · exact hl
    · split
      · exact ih l hl
      · split
        · split
          · exact ih l hl
          · rename_i start _ _ _ length _
            refine ih _ ?_
            have h1 := range start (min s.blocks.length
              (wrapAdd64 start (min (s.config.maxBlocksPerRequest - l.length) length)))
            have h2 : wrapAdd64 start (min (s.config.maxBlocksPerRequest - l.length) length) ≤
                start + (s.config.maxBlocksPerRequest - l.length) := by
              unfold wrapAdd64
              refine Nat.le_trans (Nat.mod_le _ _) ?_
              omega
            rw [List.length_append]
            omega
        · exact ih l hl

open Toy in
/-- Also for the ranges that C34 does not speak of, and for the same range asked for twice. -/
example : ((getBlocks demo.ledger [⟨1, 2 ^ 64⟩, ⟨5, 7⟩, ⟨5, 7⟩]).2.map Prod.fst) = [5, 5] ∧
    (getBlocks demo.ledger [⟨1, 2 ^ 64⟩, ⟨5, 7⟩, ⟨5, 7⟩]).1 = 6 := by decide +kernel

/-! ## C67 -/

/-- The block type ICRC-1 and ICRC-2 give to an operation. -/
def Spec.opType : Operation → String
  | .mint .. => "1mint"
  | .burn .. => "1burn"
  | .transfer _ _ none .. => "1xfer"
  | .transfer _ _ (some _) .. => "2xfer"
  | .approve .. => "2approve"

/-- **C67**: a client reads off every block what its operation was. -/
theorem C67_types (b : Block) :
    Client.blockType b.toValue = some (Spec.opType b.transaction.operation) := by
  rw [b.toValue_eq]
  simp only [Client.blockType, Client.get_entries, Client.nTx, b.get_fields.1,
    b.transaction.toValue_eq]
  obtain ⟨-, -, h3, -, -, h6, -⟩ := b.transaction.flatten.get_fields .nat
  simp only [Client.nOp, Client.nSpender, h3, h6, Client.nMint, Client.nBurn, Client.nXfer,
    Client.nApprove]
  have d1 : opBurn ≠ opMint := by decide
  have d2 : opXfer ≠ opMint := by decide
  have d3 : opApprove ≠ opMint := by decide
  have d4 : opXfer ≠ opBurn := by decide
  have d5 : opApprove ≠ opBurn := by decide
  have d6 : opApprove ≠ opXfer := by decide
  clear h3 h6
  unfold Transaction.flatten
  cases b.transaction.operation with
  | transfer a c sp x f => cases sp <;> simp [Spec.opType, d2, d4]
  | mint => simp [Spec.opType]
  | burn => simp [Spec.opType, d1]
  | approve => simp [Spec.opType, d3, d5, d6]

/-- **C67**, except for transfers by the owner: the type of every other block is declared. -/
theorem C67_declared_partial (b : Block)
    (hb : ∀ a c x f, b.transaction.operation ≠ .transfer a c none x f) :
    ∃ ty ∈ icrc3SupportedBlockTypes, Client.blockType b.toValue = some ty := by
  refine ⟨_, ?_, C67_types b⟩
  cases ho : b.transaction.operation with
  | transfer a c sp x f =>
    cases sp with
    | none => exact absurd ho (hb a c x f)
    | some sp => simp [Spec.opType, icrc3SupportedBlockTypes]
  | _ => simp [Spec.opType, icrc3SupportedBlockTypes]

open Toy in
/-- **C67** is violated: the type `1xfer` of a transfer by the owner is not declared. -/
theorem C67_refuted : ∃ (y : Sys) (b : Block), Reachable y ∧ b ∈ y.ledger.blocks ∧
    ∀ ty ∈ icrc3SupportedBlockTypes, Client.blockType b.toValue ≠ some ty :=
  ⟨demo, demo.ledger.blocks[1]'(by decide +kernel), demo_reachable, List.getElem_mem _,
    by decide +kernel⟩

open Toy in
/-- The types of the blocks of the example history. -/
example : demo.ledger.blocks.map (fun b => Client.blockType b.toValue) =
    [some "1mint", some "1xfer", some "2approve", some "2xfer", some "1burn", some "1burn"] := by
  decide +kernel

end CyclesLedger
