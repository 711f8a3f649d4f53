import Verif.Proof.Text
import Verif.Props.Accounting
import Verif.Props.Client
/-!
# What the ledger says about itself

C70.
-/
namespace CyclesLedger

/-- The value listed under a name. -/
def Spec.listed (l : List (String × MetaValue)) (name : String) : Option MetaValue :=
  (l.find? (fun e => e.1 = name)).map Prod.snd

/-- **C70**: the fee in the metadata and that of `icrc1_fee` are what every transfer, approval
and burn in the log was charged. -/
theorem C70_fee [Crypto] {y : Sys} (h : Reachable y) :
    Spec.listed (icrc1Metadata y.ledger) "icrc1:fee" = some (.nat icrc1Fee) ∧
    ∀ b ∈ y.ledger.blocks, (∀ a x f, b.transaction.operation ≠ .mint a x f) →
      Spec.fee b = icrc1Fee := by
  constructor
  · simp [icrc1Metadata, Spec.listed, icrc1Fee]
  · intro b hb hm
    have hfee := (C40_block_fee h b hb).1
    have hF : icrc1Fee = 100000000 := FEE_eq
    rw [hF]
    cases ho : b.transaction.operation with
    | mint a x f => exact absurd ho (hm a x f)
    | _ =>
      simp only [Spec.fee, statedFee, ho] at hfee ⊢
      cases he : b.effectiveFee <;> simp_all

/-- **C70**: no name is listed twice, and name, symbol and decimals are those of their own
endpoints; a token, whose name says a trillion cycles, is 10^12 of the smallest unit, a cycle. -/
theorem C70_unit (s : State) :
    ((icrc1Metadata s).map Prod.fst).Nodup ∧
    Spec.listed (icrc1Metadata s) "icrc1:name" = some (.text icrc1Name) ∧
    Spec.listed (icrc1Metadata s) "icrc1:symbol" = some (.text icrc1Symbol) ∧
    Spec.listed (icrc1Metadata s) "icrc1:decimals" = some (.nat icrc1Decimals) ∧
    icrc1Name = "Trillion Cycles" ∧ 10 ^ icrc1Decimals = 1000000000000 := by
  refine ⟨?_, ?_, ?_, ?_, rfl, by decide⟩
  · cases h : s.config.indexId <;> simp [icrc1Metadata, h]
  all_goals simp [icrc1Metadata, Spec.listed]

/-- **C70**: a memo fits exactly if it is not longer than the advertised length. -/
theorem C70_memo (s : State) : ∃ n,
    Spec.listed (icrc1Metadata s) "icrc1:max_memo_length" = some (.nat n) ∧
    (∀ memo : Bytes, Spec.MemoFits (some memo) ↔ memo.length ≤ n) ∧
    ∀ memo : Option Bytes, validateMemo memo = true ↔ ∀ m, memo = some m → m.length ≤ n := by
  refine ⟨MAX_MEMO_LENGTH, by simp [icrc1Metadata, Spec.listed], ?_, ?_⟩
  · intro memo; simp [Spec.MemoFits, MAX_MEMO_LENGTH]
  · intro memo; cases memo <;> simp [validateMemo]

/-- **C70**: never more blocks are returned than advertised, and as many if they are there: also
the longest range is cut at that number only (as long as log length and limit fit 64 bits). -/
theorem C70_blocks (s : State) : ∃ n,
    Spec.listed (icrc1Metadata s) "dfn:max_blocks_per_request" = some (.nat n) ∧
    (∀ args, (getBlocks s args).2.length ≤ n) ∧
    (s.blocks.length + n < 2 ^ 64 → ∀ start length, length < 2 ^ 64 →
      (getBlocks s [⟨start, length⟩]).2.length = min n (min length (s.blocks.length - start))) := by
  refine ⟨s.config.maxBlocksPerRequest, by simp [icrc1Metadata, Spec.listed], C66_limited s, ?_⟩
  intro hl start length hlen
  rw [C34_get_blocks_partial s _ hl (by simpa using hlen)]
  simp [Spec.requested, Spec.numbered]

/-- **C70**: the two metadata entries and `icrc106_get_index_principal` name the same index
canister, or none of them does. -/
theorem C70_index (s : State) :
    (∀ p, icrc106GetIndexPrincipal s = some p →
      Spec.listed (icrc1Metadata s) "dfn:index_id" = some (.blob p.bytes) ∧
      ∃ t, Spec.listed (icrc1Metadata s) "icrc106:index_principal" = some (.text t) ∧
        Spec.principalBytes t = p.bytes) ∧
    (icrc106GetIndexPrincipal s = none →
      Spec.listed (icrc1Metadata s) "dfn:index_id" = none ∧
      Spec.listed (icrc1Metadata s) "icrc106:index_principal" = none) := by
  unfold icrc106GetIndexPrincipal
  constructor
  · intro p hp
    refine ⟨?_, p.toText, ?_, toText_back p⟩
    · simp [icrc1Metadata, Spec.listed, hp]
    · simp [icrc1Metadata, Spec.listed, hp]
  · intro hp
    constructor <;> simp [icrc1Metadata, Spec.listed, hp]

/-- **C70**: which index canister is named is what the last upgrade to say so said, else what was
said at installation. -/
theorem C70_index_upgrade [Crypto] (s s' : State) (arg : PostUpgradeArg)
    (h : postUpgrade s arg = some s') :
    icrc106GetIndexPrincipal s' =
      match arg with
      | .upgrade (some ⟨_, some (.setTo p)⟩) => some p
      | .upgrade (some ⟨_, some .unset⟩) => none
      | _ => icrc106GetIndexPrincipal s := by
  unfold postUpgrade at h
  unfold icrc106GetIndexPrincipal
  split at h
  · rename_i u
    cases h
    obtain ⟨a, c⟩ := u
    cases c with
    | none => cases a <;> rfl
    | some c => cases c <;> cases a <;> rfl
  · cases h; rfl
  · cases h; rfl
  · cases h

open Toy in
/-- With an index canister set (here the cycles minting canister, whose text is known), and in the example
history: none. -/
example :
    Spec.listed (icrc1Metadata { State.empty with config := ⟨5, some cmcPrincipal, none⟩ })
      "icrc106:index_principal" = some (.text "rkp4c-7iaaa-aaaaa-aaaca-cai") ∧
    icrc106GetIndexPrincipal demo.ledger = none ∧
    Spec.listed (icrc1Metadata demo.ledger) "icrc1:fee" = some (.nat 100000000) := by
  decide +kernel

end CyclesLedger
