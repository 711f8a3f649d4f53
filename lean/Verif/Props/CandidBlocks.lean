import Verif.Props.Candid
import Verif.Props.Client
import Verif.Proof.CandidBlocks
/-!
# The answer of `icrc3_get_blocks` as bytes

C105.
-/
namespace CyclesLedger

open Candid Spec.Candid

/-! ## A table -/

namespace Candid

/-- A position for every type. -/
def position : Name → Int
  | .nat => -3 | .int => -4 | .nat8 => -5 | .nat64 => -8 | .text => -15
  | .result => 0 | .blocks => 1 | .block => 2 | .value => 3 | .blob => 4 | .values => 5
  | .pairs => 6 | .pair => 7 | .archives => 8 | .archived => 9 | .ranges => 10 | .range => 11
  | .callback => 12

def declared : Decl → Comp
  | .code r => .opt r
  | .vec n => .vec (position n)
  | .record fs => .record (fs.map (fun f => (f.1, position f.2)))
  | .variant fs => .variant (fs.map (fun f => (f.1, position f.2)))
  | .func as rs notes => .func (as.map position) (rs.map position) notes

/-- One of the tables that declare the types of the answer. -/
def someTable : List Comp :=
  [Name.result, .blocks, .block, .value, .blob, .values, .pairs, .pair, .archives, .archived, .ranges,
    .range, .callback].map (fun n => declared n.decl)

/-- The declarations of `GetBlocksResult` and its parts (cycles-ledger.did:125-169) as a table, written
out: entries refer to each other by position, to `nat`, `int`, `nat8`, `nat64` and `text` as -3, -4, -5,
-8 and -15, and to fields and cases by the hashes of their names. -/
def _root_.CyclesLedger.Spec.Candid.blocksTable : List CyclesLedger.Candid.Comp :=
  [ -- 0: GetBlocksResult (log_length, blocks, archived_blocks)
    .record [(2799807105, -3), (2817142406, 1), (4171053571, 8)],
    -- 1
    .vec 2,
    -- 2: BlockWithId (id, block)
    .record [(23515, -3), (3036443981, 3)],
    -- 3: Value (Int, Map, Nat, Nat64, Blob, Text, Array)
    .variant [(3654863, -4), (3850876, 6), (3900609, -3), (699868735, -8),
      (737307005, 4), (936573133, -15), (3099385209, 5)],
    -- 4
    .vec (-5),
    -- 5
    .vec 3,
    -- 6
    .vec 7,
    -- 7
    .record [(0, -15), (1, 3)],
    -- 8
    .vec 9,
    -- 9: ArchivedBlocks (args, callback)
    .record [(1081380189, 10), (2131139013, 12)],
    -- 10
    .vec 11,
    -- 11: GetBlocksArg (start, length)
    .record [(2215343202, -3), (2668074214, -3)],
    -- 12: a query
    .func [10] [0] [1] ]

deriving instance DecidableEq for Comp

theorem someTable_eq : someTable = blocksTable := by decide +kernel

theorem pointwise_map {A B : Type} {rel : A → B → Prop} {f : A → B} : ∀ (l : List A),
    (∀ a, rel a (f a)) → Pointwise rel l (l.map f)
  | [], _ => rfl
  | a :: l, h => ⟨f a, l.map f, rfl, h a, pointwise_map l h⟩

theorem declared_at {table : List Comp} {d : Decl} {r : Int} (hr : 0 ≤ r)
    (h : table[r.toNat]? = some (declared d)) (hd : ∀ c, d ≠ .code c) :
    d.At table (fun n r => r = position n) r := by
  cases d with
  | code c => exact absurd rfl (hd c)
  | vec n => exact ⟨_, hr, h, rfl⟩
  | record fs => exact ⟨_, hr, h, pointwise_map fs (fun _ => ⟨rfl, rfl⟩)⟩
  | variant fs => exact ⟨_, hr, h, pointwise_map fs (fun _ => ⟨rfl, rfl⟩)⟩
  | func as rs notes => exact ⟨_, _, hr, h, pointwise_map as (fun _ => rfl), pointwise_map rs (fun _ => rfl)⟩

theorem someTable_stands (n : Name) : Stands someTable n (position n) := by
  refine ⟨fun n r => r = position n, rfl, fun n r hr => ?_⟩
  subst hr
  cases n <;> first
    | exact rfl
    | exact declared_at (by decide) rfl (fun c h => by cases h)

theorem position_refers (n : Name) : Refers someTable (position n) := by
  cases n <;> first
    | exact .inl (by decide)
    | exact .inr (.inr ⟨_, by decide, rfl⟩)

theorem fieldsOk_declared {fs : List (Nat × Name)} (h : fs.Pairwise (fun a b => a.1 < b.1)) :
    FieldsOk someTable (fs.map (fun f => (f.1, position f.2))) := by
  refine ⟨List.pairwise_map.mpr h, fun f hf => ?_⟩
  obtain ⟨g, _, rfl⟩ := List.mem_map.mp hf
  exact position_refers g.2

theorem someTable_ok : ∀ e ∈ someTable, CompOk someTable e := by
  intro e he
  obtain ⟨n, _, rfl⟩ := List.mem_map.mp he
  cases n <;> simp only [Name.decl, declared, CompOk] <;> first
    | exact position_refers _
    | exact .inl (by decide)
    | exact fieldsOk_declared (by decide +kernel)
    | exact ⟨fun r hr => by obtain ⟨m, _, rfl⟩ := List.mem_map.mp hr; exact position_refers m,
        fun r hr => by obtain ⟨m, _, rfl⟩ := List.mem_map.mp hr; exact position_refers m, by decide⟩

theorem stands_ge {table : List Comp} {r : Int} (h : Stands table .result r) : -24 ≤ r := by
  obtain ⟨is, hr, ha⟩ := h
  obtain ⟨l, h0, _⟩ := ha _ _ hr
  omega

end Candid

/-! ## C105 -/

/-- **C105**: with any table that declares the types, every answer can be sent; the table that
is written out above declares them. -/
theorem C105_sendable (a : Nat × List (Nat × Value)) :
    (∀ table r, (∀ e ∈ table, CompOk table e) → Stands table .result r →
      ∃ bs, Sends bs table r (putBlocks a)) ∧
    (∀ e ∈ blocksTable, CompOk blocksTable e) ∧ Stands blocksTable .result 0 := by
  refine ⟨fun _ _ ht hs => ⟨_, ht, stands_ge hs, (result_put hs a).1, rfl⟩, ?_⟩
  rw [← someTable_eq]
  exact ⟨someTable_ok, someTable_stands .result⟩

/-- **C105**: nobody can find two different results in the same bytes, whoever wrote them. -/
theorem C105_one_reading {bs : Bytes} {a b : Nat × List (Nat × Value)} (h : FindsBlocks bs a)
    (h' : FindsBlocks bs b) : a = b := finds_unique h h'

/-- **C105**: whatever ranges a client writes, in whichever way, and whichever table the answer is
sent with: the client finds in the bytes of the answer the length of the log and the existing blocks
of these ranges, with their indices, up to the limit. -/
theorem C105_end_to_end {y : Sys} {bytes : Bytes} {t : Candid.Ty} {v : Val} {more : List (Candid.Ty × Val)}
    (hb : IsMessage bytes ((t, v) :: more)) {args : List GetBlocksArg} (ha : wVec wRange args t v)
    (hlim : y.ledger.blocks.length + y.ledger.config.maxBlocksPerRequest < 2 ^ 64) :
    ∃ x, answerBlocks y bytes = some x ∧
      ∀ table r bs, Stands table .result r → Sends bs table r x → ∀ a, FindsBlocks bs a ↔
        a = (y.ledger.blocks.length,
          (Spec.requested y.ledger (args.filter (fun a => decide (a.length < 2 ^ 64)))).take
            y.ledger.config.maxBlocksPerRequest) := by
  refine ⟨putBlocks (getBlocks y.ledger args), ?_, fun table r bs hs hm a => ?_⟩
  · simp only [answerBlocks, (C102_queries hb).2.2.1 args ha, Option.map_some]
  · rw [← C58_get_blocks y.ledger args hlim]
    have hf : FindsBlocks bs (getBlocks y.ledger args) := ⟨table, r, _, hm, (result_put hs _).2⟩
    exact ⟨fun h => finds_unique h hf, fun h => h ▸ hf⟩

/-- **C105**: a client that asks for the whole log finds, in the bytes it gets, a log that it accepts
with the certified tree, and from which it computes the balances, the supply and the allowances of
the ledger. -/
theorem C105_audit [Crypto] {y : Sys} (h : Reachable y) (hne : y.ledger.blocks ≠ []) {bytes : Bytes}
    {t : Candid.Ty} {v : Val} {more : List (Candid.Ty × Val)} (hb : IsMessage bytes ((t, v) :: more)) {n : Nat}
    (ha : wVec wRange [⟨0, n⟩] t v) (hn : y.ledger.blocks.length ≤ n) (hn' : n < 2 ^ 64)
    (hmax : y.ledger.blocks.length ≤ y.ledger.config.maxBlocksPerRequest)
    (hlim : y.ledger.blocks.length + y.ledger.config.maxBlocksPerRequest < 2 ^ 64) :
    ∃ x, answerBlocks y bytes = some x ∧
      ∀ table r bs, Stands table .result r → Sends bs table r x → ∃ a, FindsBlocks bs a ∧
        a.1 = a.2.length ∧ (∀ (i : Nat) e, a.2[i]? = some e → e.1 = i) ∧
        ∃ log, Client.Accepts y.ledger.certifiedData (tipHashTree y.ledger) (a.2.map Prod.snd) log ∧
          (∀ acc, (icrc1BalanceOf y.ledger acc : Int) = Spec.balance log (Spec.idOf acc)) ∧
          (icrc1TotalSupply y.ledger : Int) = Spec.supply log ∧
          ∀ o sp now, y.now ≤ now → Spec.spendable y.ledger o sp now =
            Spec.live now (Spec.allowances log (Spec.idOf o, Spec.idOf sp)) := by
  obtain ⟨x, hx, hr⟩ := C105_end_to_end hb ha hlim
  refine ⟨x, hx, fun table r bs hs hm => ?_⟩
  have hl : (Spec.numbered y.ledger).length = y.ledger.blocks.length := by simp [Spec.numbered]
  have he : (Spec.requested y.ledger (([⟨0, n⟩] : List GetBlocksArg).filter
      (fun a => decide (a.length < 2 ^ 64)))).take y.ledger.config.maxBlocksPerRequest =
      Spec.numbered y.ledger := by
    rw [List.filter_cons_of_pos (by simpa using hn')]
    simp only [List.filter_nil, Spec.requested, List.flatMap_cons, List.flatMap_nil, List.append_nil,
      List.drop_zero]
    rw [List.take_of_length_le (i := n) (by omega), List.take_of_length_le (by omega)]
  have hf := (hr table r bs hs hm _).mpr rfl
  rw [he] at hf
  refine ⟨_, hf, hl.symm, ?_, y.ledger.blocks, C65_accepted h hne, C02_balances_replay h,
    C02_supply_replay h, fun a sp now hn => C16_allowances_replay h a sp now hn⟩
  intro i e hi
  simp only [Spec.numbered, List.getElem?_mapIdx] at hi
  cases hx : y.ledger.blocks[i]? with
  | none => simp [hx] at hi
  | some b =>
    simp only [hx, Option.map_some, Option.some.injEq] at hi
    rw [← hi]

/-- The bytes of the answer for a block, written out: the table, then the value. -/
example : Spec.Candid.value (putBlocks (7, [(3, .map [([112], .array [.nat 5, .blob [9]])])]))
    = [7, 1, 3, 1, 1, 1, 112, 6, 2, 2, 5, 4, 1, 9, 0] := by decide +kernel

open Toy in
/-- The example history has six blocks and serves up to 100: the hypotheses of `C105_audit` hold of it
for a client that asks for 100 blocks, and the ranges it asks for can be written. -/
example : demo.ledger.blocks ≠ [] ∧ demo.ledger.blocks.length ≤ 100 ∧
    demo.ledger.blocks.length ≤ demo.ledger.config.maxBlocksPerRequest ∧
    demo.ledger.blocks.length + demo.ledger.config.maxBlocksPerRequest < 2 ^ 64 ∧
    ∃ bs t v, IsMessage bs [(t, v)] ∧ wVec wRange [⟨0, 100⟩] t v :=
  ⟨by decide +kernel, by decide +kernel, by decide +kernel, by decide +kernel,
    exists_message (uniform_vec ⟨0, 0⟩ uniform_range) _⟩

end CyclesLedger
