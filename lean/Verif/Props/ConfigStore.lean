import Verif.Model.ConfigStore
import Verif.Proof.Wire
import Verif.Props.Upgrade
/-!
# C78: the configuration survives in stable memory
-/
namespace CyclesLedger

/-- The Rust types of the fields: `u64`, `u128`, and a list that fits in memory. -/
structure Spec.ConfigFits (c : Config) : Prop where
  limit : c.maxBlocksPerRequest < 2 ^ 64
  amounts : ∀ l, c.initialBalances = some l → ∀ e ∈ l, e.2 < 2 ^ 128
  count : ∀ l, c.initialBalances = some l → l.length < 2 ^ 64

theorem readAll_map {A : Type} {f : A → CVal} {g : CVal → Option A} :
    ∀ (l : List A), (∀ a ∈ l, g (f a) = some a) → readAll g (l.map f) = some l
  | [], _ => rfl
  | a :: t, h => by
    simp only [List.map_cons, readAll, h a List.mem_cons_self,
      readAll_map t (fun b hb => h b (List.mem_cons_of_mem _ hb))]

theorem readPrincipal_cbor (p : Principal) : readPrincipal (cborPrincipal p) = some p := by
  simp [readPrincipal, cborPrincipal, readBytes, stripTags, p.le]

theorem map_toNat_ofNat : ∀ (l : Bytes), (l.map (fun b => b.toNat)).map UInt8.ofNat = l
  | [] => rfl
  | b :: t => by
    have := map_toNat_ofNat t
    simp only [List.map_cons, this]
    congr 1
    simp

theorem readSubaccount_cbor (s : Subaccount) : readSubaccount (cborSubaccount s) = some s := by
  have h : readAll (readNat 255) (s.val.map (fun b => cborNat b.toNat)) =
      some (s.val.map (fun b => b.toNat)) := by
    have := readAll_map (f := cborNat) (g := readNat 255) (s.val.map (fun b => b.toNat))
      (fun n hn => by
        obtain ⟨b, _, rfl⟩ := List.mem_map.mp hn
        have := b.toNat_lt
        exact readNat_cborNat (by omega))
    rwa [List.map_map] at this
  simp only [readSubaccount, cborSubaccount, stripTags, h, map_toNat_ofNat, s.property,
    dite_true]

theorem fieldOpt_of_cborOpt {A : Type} {kvs : List (CVal × CVal)} {k : Text} {o : Option A}
    {f : A → CVal} {g : CVal → Option A} (h : pick k kvs = [cborOpt f o])
    (hn : ∀ a, f a ≠ .null) (hg : ∀ a, o = some a → g (f a) = some a) :
    fieldOpt kvs k g = some o := by
  unfold fieldOpt
  rw [h]
  cases o with
  | none => rfl
  | some a =>
    simp only [cborOpt]
    unfold readOpt
    split
    · exact absurd (by assumption) (hn a)
    · rw [hg a rfl]; rfl

theorem readIcrcAccount_cbor (a : Account) : readIcrcAccount (cborIcrcAccount a) = some a := by
  have hk : kOwner ≠ kSubaccount := by decide
  have h1 := field_of_pick (kvs := [(.text kOwner, cborPrincipal a.owner),
      (.text kSubaccount, cborOpt cborSubaccount a.subaccount)]) (k := kOwner)
    (by simp [hk.symm, pick]) (readPrincipal_cbor a.owner)
  have h2 := fieldOpt_of_cborOpt (kvs := [(.text kOwner, cborPrincipal a.owner),
      (.text kSubaccount, cborOpt cborSubaccount a.subaccount)]) (k := kSubaccount)
    (o := a.subaccount) (f := cborSubaccount) (g := readSubaccount)
    (by simp [hk, pick]) (fun s h => nomatch h) (fun s _ => readSubaccount_cbor s)
  simp only [readIcrcAccount, cborIcrcAccount, stripTags, textKeys_cons, textKeys_nil, if_true,
    h1, h2]
  rfl

theorem readBalance_cbor {e : Account × Nat} (h : e.2 ≤ U128MAX) :
    readBalance (cborBalance e) = some e := by
  simp only [readBalance, cborBalance, stripTags, readIcrcAccount_cbor, readNat_cborNat h]

theorem cfits_subaccount (s : Subaccount) : CFits (cborSubaccount s) := by
  refine .array (by rw [List.length_map, s.property]; omega) (fun v hv => ?_)
  obtain ⟨b, _, rfl⟩ := List.mem_map.mp hv
  have := b.toNat_lt
  exact cfits_nat (by omega)

theorem cfits_principal (p : Principal) : CFits (cborPrincipal p) :=
  .bytes (by have := p.le; omega)

theorem cfits_opt {A : Type} {f : A → CVal} {o : Option A} (h : ∀ a, o = some a → CFits (f a)) :
    CFits (cborOpt f o) := by
  cases o with
  | none => exact .null
  | some a => exact h a rfl

theorem cfits_icrcAccount (a : Account) : CFits (cborIcrcAccount a) := by
  refine .map (by simp) (fun e he => ?_) (fun e he => ?_)
  · simp only [List.mem_cons, List.not_mem_nil, or_false] at he
    rcases he with rfl | rfl <;> exact .text (by decide)
  · simp only [List.mem_cons, List.not_mem_nil, or_false] at he
    rcases he with rfl | rfl
    · exact cfits_principal _
    · exact cfits_opt (fun s _ => cfits_subaccount s)

theorem cfits_balance {e : Account × Nat} (h : e.2 < 2 ^ 128) : CFits (cborBalance e) := by
  refine .array (by simp) (fun v hv => ?_)
  simp only [List.mem_cons, List.not_mem_nil, or_false] at hv
  rcases hv with rfl | rfl
  · exact cfits_icrcAccount _
  · exact cfits_nat (by omega)

theorem cfits_config {c : Config} (h : Spec.ConfigFits c) : CFits c.toCbor := by
  refine .map (by simp) (fun e he => ?_) (fun e he => ?_)
  · simp only [List.mem_cons, List.not_mem_nil, or_false] at he
    rcases he with rfl | rfl | rfl <;> exact .text (by decide)
  · simp only [List.mem_cons, List.not_mem_nil, or_false] at he
    rcases he with rfl | rfl | rfl
    · exact cfits_nat (by have := h.limit; omega)
    · exact cfits_opt (fun p _ => cfits_principal p)
    · refine cfits_opt (fun l hl => .array (by rw [List.length_map]; exact h.count l hl)
        (fun v hv => ?_))
      obtain ⟨e, he, rfl⟩ := List.mem_map.mp hv
      exact cfits_balance (h.amounts l hl e he)

theorem Config.ofCbor_toCbor {c : Config} (h : Spec.ConfigFits c) :
    Config.ofCbor c.toCbor = some c := by
  have k12 : kMaxBlocks ≠ kIndexId := by decide
  have k13 : kMaxBlocks ≠ kInitialBalances := by decide
  have k23 : kIndexId ≠ kInitialBalances := by decide
  have hU : U64MAX = 2 ^ 64 - 1 := by rw [U64MAX_eq]
  have hV : U128MAX = 2 ^ 128 - 1 := by rw [U128MAX_eq]
  unfold Config.toCbor Config.ofCbor
  simp only [stripTags, textKeys_cons, textKeys_nil, if_true]
  have h1 := h.limit
  rw [field_of_pick (a := c.maxBlocksPerRequest) (by simp only [pick_cons, k12.symm, k13.symm]; simp [pick])
    (readNat_cborNat (by omega))]
  simp only [Option.bind_eq_bind, Option.bind_some]
  rw [fieldOpt_of_cborOpt (o := c.indexId) (f := cborPrincipal)
    (by simp only [pick_cons, k12, k23.symm]; simp [pick])
    (fun s h => nomatch h) (fun p _ => readPrincipal_cbor p)]
  simp only [Option.bind_some]
  rw [fieldOpt_of_cborOpt (o := c.initialBalances) (f := fun l => .array (l.map cborBalance))
    (by simp only [pick_cons, k13, k23]; simp [pick])
    (fun s h => nomatch h) (fun l hl => by
      simp only [readBalances, stripTags]
      exact readAll_map l (fun e he => readBalance_cbor (by have := h.amounts l hl e he; omega)))]
  rfl

/-- The bytes written for a configuration are read back as that configuration. -/
theorem C78_round_trip {c : Config} (h : Spec.ConfigFits c) :
    Config.ofBytes c.toBytes = some c := by
  unfold Config.ofBytes Config.toBytes
  rw [read_encode (cfits_config h)]
  exact Config.ofCbor_toCbor h

/-- Different configurations are stored differently. -/
theorem C78_injective {c c' : Config} (h : Spec.ConfigFits c) (h' : Spec.ConfigFits c')
    (he : c.toBytes = c'.toBytes) : c = c' := by
  have h1 := C78_round_trip h
  rw [he, C78_round_trip h'] at h1
  exact (Option.some.inj h1).symm

/-- A configuration stored before a field existed is read with that field unset; fields that are
no longer known are ignored; the order of the fields does not matter. -/
theorem C78_other_versions {n : Nat} (hn : n < 2 ^ 64) (before after : List (Text × CVal))
    (hb : ∀ e ∈ before ++ after, e.1 ≠ asciiText "max_blocks_per_request" ∧
      e.1 ≠ asciiText "index_id" ∧ e.1 ≠ asciiText "initial_balances")
    (hf : ∀ e ∈ before ++ after, e.1.length < 2 ^ 64 ∧ CFits e.2)
    (hl : (before ++ after).length + 1 < 2 ^ 64) :
    Config.ofBytes (CVal.map
        (before.map (fun e => (.text e.1, e.2)) ++
          (.text (asciiText "max_blocks_per_request"), cborNat n) ::
          after.map (fun e => (.text e.1, e.2)))).encode =
      some ⟨n, none, none⟩ := by
  have hp : ∀ (k : Text) (l : List (Text × CVal)), (∀ e ∈ l, e.1 ≠ k) →
      pick k (l.map (fun e => (CVal.text e.1, e.2))) = [] := by
    intro k l
    induction l with
    | nil => intro _; rfl
    | cons e t ih =>
      intro h
      rw [List.map_cons, pick_cons, if_neg (h e List.mem_cons_self),
        ih (fun x hx => h x (List.mem_cons_of_mem _ hx))]
  have ht : ∀ (l : List (Text × CVal)), textKeys (l.map (fun e => (CVal.text e.1, e.2))) = true := by
    intro l
    simp [textKeys]
  have k12 : kMaxBlocks ≠ kIndexId := by decide
  have k13 : kMaxBlocks ≠ kInitialBalances := by decide
  have hU : U64MAX = 2 ^ 64 - 1 := by rw [U64MAX_eq]
  have hb1 : ∀ e ∈ before, _ := fun e he => hb e (List.mem_append_left _ he)
  have hb2 : ∀ e ∈ after, _ := fun e he => hb e (List.mem_append_right _ he)
  unfold Config.ofBytes
  rw [read_encode]
  · simp only [Config.ofCbor, stripTags, textKeys_append, textKeys_cons, ht, Bool.and_self, if_true]
    rw [field_of_pick (a := n) (c := cborNat n) (by
      rw [pick_append, pick_cons, if_pos (show asciiText _ = kMaxBlocks from rfl), hp kMaxBlocks _ (fun e he => (hb1 e he).1),
        hp kMaxBlocks _ (fun e he => (hb2 e he).1)]
      rfl) (readNat_cborNat (by omega))]
    have p2 : ∀ k, k ≠ kMaxBlocks → (∀ e ∈ before ++ after, e.1 ≠ k) →
        pick k (before.map (fun e => (CVal.text e.1, e.2)) ++
          (.text (asciiText "max_blocks_per_request"), cborNat n) ::
          after.map (fun e => (CVal.text e.1, e.2))) = [] := by
      intro k hk h
      rw [pick_append, pick_cons, if_neg (fun h => hk h.symm),
        hp _ _ (fun e he => h e (List.mem_append_left _ he)),
        hp _ _ (fun e he => h e (List.mem_append_right _ he))]
      rfl
    simp only [fieldOpt, p2 kIndexId k12.symm (fun e he => (hb e he).2.1),
      p2 kInitialBalances k13.symm (fun e he => (hb e he).2.2)]
    rfl
  · refine .map (by simp at hl ⊢; omega) (fun e he => ?_) (fun e he => ?_)
    all_goals
      simp only [List.mem_append, List.mem_cons, List.mem_map] at he
      rcases he with ⟨x, hx, rfl⟩ | rfl | ⟨x, hx, rfl⟩
    · exact .text (hf x (List.mem_append_left _ hx)).1
    · exact .text (by decide)
    · exact .text (hf x (List.mem_append_right _ hx)).1
    · exact (hf x (List.mem_append_left _ hx)).2
    · exact cfits_nat (by omega)
    · exact (hf x (List.mem_append_right _ hx)).2

/-- The arguments of the upgrades of a history. -/
def Spec.upgrades (es : List Event) : List PostUpgradeArg :=
  es.filterMap (fun e => match e.msg with
    | .upgrade arg => some arg
    | _ => none)

theorem exec_config [Crypto] {y : Sys} (h : Reachable y) (m : Msg) :
    (y.exec m).1.ledger.config = match m with
      | .upgrade arg => Spec.upgraded y.ledger.config arg
      | _ => y.ledger.config := by
  by_cases hm : ∃ arg, m = .upgrade arg
  · obtain ⟨arg, rfl⟩ := hm
    by_cases ha : ∃ c, arg = .init c
    · obtain ⟨c, rfl⟩ := ha
      rw [C41_init_refused]; rfl
    · obtain ⟨y', h1, h2⟩ := C41_preserved h arg (fun c hc => ha ⟨c, hc⟩)
      rw [h1]
      exact h2.2.2.2.2.2.2.2.2.1
  · have hx := exec_cfg y y.ledger.config m (fun arg ha => hm ⟨arg, ha⟩)
    have : (y.exec m).1.ledger.config = y.ledger.config := congrArg (fun r => r.1.ledger.config) hx
    rw [this]
    cases m with
    | upgrade arg => exact absurd ⟨arg, rfl⟩ hm
    | _ => rfl

theorem run_config_upgrades [Crypto] : ∀ (es : List Event) {y : Sys}, Reachable y →
    (y.run es).ledger.config = (Spec.upgrades es).foldl Spec.upgraded y.ledger.config
  | [], _, _ => rfl
  | ⟨d, m⟩ :: es, y, h => by
    have hr : Reachable (y.step ⟨d, m⟩).1 := (h.tick d).exec m
    have h1 := run_config_upgrades es hr
    have h2 : (y.step ⟨d, m⟩).1.ledger.config = _ := exec_config (h.tick d) m
    show ((y.step ⟨d, m⟩).1.run es).ledger.config = _
    rw [h1, h2]
    cases m <;> rfl

theorem fits_upgraded {c : Config} (h : Spec.ConfigFits c) (arg : PostUpgradeArg) :
    Spec.ConfigFits (Spec.upgraded c arg) := by
  unfold Spec.upgraded
  split
  · refine ⟨?_, h.amounts, h.count⟩
    split
    · exact UInt64.toNat_lt _
    · exact h.limit
  · exact h

/-- **C78**: whatever the history, the configuration is the installed one with the requested
changes of the upgrades, in order, and stable memory gives it back. -/
theorem C78_history [Crypto] {c : Config} (h : Spec.ConfigFits c) {now cycles : Nat} {y0 : Sys}
    (h0 : Sys.init c now cycles = some y0) (es : List Event) :
    (y0.run es).ledger.config = (Spec.upgrades es).foldl Spec.upgraded c ∧
    Config.ofBytes (y0.run es).ledger.config.toBytes = some (y0.run es).ledger.config := by
  have hc : y0.ledger.config = c := by
    unfold Sys.init initLedger at h0
    cases hm : mintInitial State.empty (min now U64MAX) (c.initialBalances.getD []) with
    | none => rw [hm] at h0; exact (nomatch h0)
    | some s => rw [hm] at h0; cases h0; rfl
  have h1 := run_config_upgrades es (y := y0) ⟨c, now, cycles, y0, [], h0, rfl⟩
  rw [hc] at h1
  refine ⟨h1, C78_round_trip ?_⟩
  rw [h1]
  have : ∀ (l : List PostUpgradeArg) (c : Config), Spec.ConfigFits c →
      Spec.ConfigFits (l.foldl Spec.upgraded c) := by
    intro l
    induction l with
    | nil => exact fun _ h => h
    | cons a t ih => exact fun c h => ih _ (fits_upgraded h a)
  exact this _ c h

/-- The default configuration as bytes, by hand: a map of 3, `100` as `18 64`, twice `null`. -/
example : Config.default.toBytes =
    0xa3 :: (0x76 :: asciiText "max_blocks_per_request" ++ [0x18, 0x64]) ++
      (0x68 :: asciiText "index_id" ++ [0xf6]) ++
      (0x70 :: asciiText "initial_balances" ++ [0xf6]) := by
  decide +kernel

open Toy in
/-- A configuration with an index canister and two initial balances, one beyond 64 bits. -/
example :
    let c : Config := ⟨10, some target,
      some [(acc alice, 5), (⟨bob, some ⟨List.replicate 32 200, rfl⟩⟩, 2 ^ 100)]⟩
    Spec.ConfigFits c ∧ Config.ofBytes c.toBytes = some c := by
  have h : Spec.ConfigFits ⟨10, some target,
      some [(acc alice, 5), (⟨bob, some ⟨List.replicate 32 200, rfl⟩⟩, 2 ^ 100)]⟩ := by
    refine ⟨by decide, fun l hl e he => ?_, fun l hl => ?_⟩
    · cases hl
      simp only [List.mem_cons, List.not_mem_nil, or_false] at he
      rcases he with rfl | rfl <;> decide
    · cases hl; decide
  exact ⟨h, C78_round_trip h⟩

open Toy in
/-- Two upgrades of the example ledger, the second one taking the index canister away. -/
example :
    let es : List Event := [⟨1, .upgrade (.upgrade (some ⟨some 7, some (.setTo target)⟩))⟩,
      dep alice 500000000, ⟨1, .upgrade .none⟩,
      ⟨1, .upgrade (.upgrade (some ⟨none, some .unset⟩))⟩]
    (demo.run es).ledger.config.maxBlocksPerRequest = 7 ∧
    (demo.run es).ledger.config.indexId = none ∧ (Spec.upgrades es).length = 3 := by
  decide +kernel

/-- A configuration of an older version, with one field that is no longer known. -/
example : Config.ofBytes (CVal.map [(.text (asciiText "old"), .bool true),
    (.text (asciiText "max_blocks_per_request"), cborNat 3)]).encode = some ⟨3, none, none⟩ :=
  C78_other_versions (by decide) [(asciiText "old", .bool true)] []
    (by intro e he; simp only [List.append_nil, List.mem_cons, List.not_mem_nil, or_false] at he
        subst he; decide)
    (by intro e he; simp only [List.append_nil, List.mem_cons, List.not_mem_nil, or_false] at he
        subst he; exact ⟨by decide, .bool⟩)
    (by decide)

end CyclesLedger
