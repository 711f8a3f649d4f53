import Verif.Props.CandidMeta
import Verif.Props.Stable
import Verif.Props.Acceptance
import Verif.Model.CandidTest
/-!
# What the test build shows of the deduplication

C113.
-/
namespace CyclesLedger

open Candid Spec.Candid

/-! ## The types -/

/-- `null`. -/
def Spec.Candid.wUnit : Way Unit := fun _ t v => t = .null ∧ v = .null

/-- `vec record { blob; nat64 }`: hash and block. -/
def Spec.Candid.wHashes : Way (List (Hash × Nat)) :=
  wVec (wPair (fun h => wBlob h.val) (wFixed .nat64 8))

/-- `vec record { record { nat64; nat64 }; null }`: time and block. -/
def Spec.Candid.wTimes : Way (List ((Nat × Nat) × Unit)) :=
  wVec (wPair (wPair (wFixed .nat64 8) (wFixed .nat64 8)) wUnit)

theorem good_hash : Good (fun h : Hash => wBlob h.val) (.vec (.fixed .nat8))
    (fun h => putBlob h.val) (fun _ => True) :=
  ⟨good_blob.wf, fun _ => good_blob.typed _, fun _ _ => good_blob.ok _ trivial⟩

theorem det_hash : Det (fun h : Hash => wBlob h.val) := by
  intro a b t v ha hb
  exact Subtype.ext (det_blob _ _ _ _ ha hb)

theorem good_unit : Good wUnit .null (fun _ => .null) (fun _ => True) :=
  ⟨by simp only [Wf], fun _ => by unfold Candid.HasTy; rfl, fun _ _ => ⟨rfl, rfl⟩⟩

theorem det_unit : Det wUnit := fun _ _ _ _ _ _ => rfl

theorem nodup_subset_length {A : Type} [DecidableEq A] : ∀ {l m : List A}, l.Nodup →
    (∀ a ∈ l, a ∈ m) → l.length ≤ m.length
  | [], _, _, _ => Nat.zero_le _
  | a :: l, m, hd, hs => by
    rw [List.nodup_cons] at hd
    have ha := hs a (.head _)
    have := nodup_subset_length (l := l) (m := m.erase a) hd.2 (fun b hb =>
      (List.mem_erase_of_ne (fun h : b = a => hd.1 (h ▸ hb))).mpr (hs b (.tail _ hb)))
    rw [List.length_erase_of_mem ha] at this
    have := List.length_pos_of_mem ha
    simp only [List.length_cons]
    omega

theorem told_unique {A : Type} {o : Option (Candid.Ty × Val)} {w : Way A} {a b : A}
    (h : Told o w a) (h' : Told o w b) : a = b := by
  obtain ⟨t, v, ho, ⟨bs, hb⟩, ha⟩ := h
  obtain ⟨t', v', ho', _, hb'⟩ := h'
  rw [ho] at ho'
  cases ho'
  exact (hb' bs hb a).mp ((ha bs hb a).mpr rfl)

theorem entries_nodup {K V : Type} [TotOrd K] (m : SMap K V) : (m.entries.map Prod.fst).Nodup := by
  rw [List.nodup_iff_pairwise_ne, List.pairwise_map]
  exact m.sorted.imp (fun {a b} h he => by rw [he, TotOrd.irrefl] at h; cases h)

theorem told_hashes [Crypto] {y : Sys} (h : Reachable y) (hl : y.ledger.blocks.length < 2 ^ 64)
    {bs : Bytes} {args : List (Candid.Ty × Val)} (hb : IsMessage bs args) :
    Told (showTest y "get_transaction_hashes" bs) wHashes
      (y.ledger.transactionHashes.entries.map (fun e => (e.1, e.2.1))) := by
  have hrm := (readMessage_iff _ _).mpr hb
  have gp := good_pair good_hash (good_fixed .nat64 8 rfl)
  refine told_good (good_vec gp (gp.fits (⟨List.replicate 32 0, by decide⟩, 0)
    ⟨trivial, by decide⟩)) (det_vec (det_pair det_hash (det_fixed _ _))) ?_ ?_
  · intro a ha
    obtain ⟨⟨k, i, c⟩, he, rfl⟩ := List.mem_map.mp ha
    have := h.indices k i c ((SMap.get_eq_some_iff _ _ _).mpr he)
    exact ⟨trivial, by rw [pow64]; show i < _; omega⟩
  · simp only [showTest, hrm, if_true, Option.map_some, putVec, List.map_map]
    rfl

theorem told_times [Crypto] {y : Sys} (h : Reachable y) (hl : y.ledger.blocks.length < 2 ^ 64)
    {bs : Bytes} {args : List (Candid.Ty × Val)} (hb : IsMessage bs args) :
    Told (showTest y "get_transaction_timestamps" bs) wTimes
      y.ledger.transactionTimestamps.entries := by
  have hrm := (readMessage_iff _ _).mpr hb
  have gp := good_pair (good_pair (good_fixed .nat64 8 rfl) (good_fixed .nat64 8 rfl)) good_unit
  refine told_good (good_vec gp (gp.fits ((0, 0), ()) ⟨⟨by decide, by decide⟩, trivial⟩))
    (det_vec (det_pair (det_pair (det_fixed _ _) (det_fixed _ _)) det_unit)) ?_ ?_
  · rintro ⟨⟨t, i⟩, u⟩ ha
    exact ⟨timestamp_fits h hl ((SMap.get_eq_some_iff _ _ _).mpr ha), trivial⟩
  · simp [showTest, hrm]

/-! ## C113 -/

/-- Block `i` was asked for with `created_at_time = t`, by a transaction of hash `k`. -/
def Spec.Stamped [Crypto] (y : Sys) (t i : Nat) (k : Hash) : Prop :=
  ∃ b, y.ledger.blocks[i]? = some b ∧ b.transaction.createdAtTime = some t ∧
    b.transaction.hash = some k

/-- **C113**: `get_transaction_hashes` lists blocks with a `created_at_time`, each once and under its
hash, and all of those whose time is still in the window. -/
theorem C113_hashes [Crypto] {y : Sys} (h : Reachable y)
    (hn : ¬Spec.Collision (y.ledger.blocks.map Block.transaction))
    (hl : y.ledger.blocks.length < 2 ^ 64) {bs : Bytes} {args : List (Candid.Ty × Val)}
    (hb : IsMessage bs args) :
    ∃ l, Told (showTest y "get_transaction_hashes" bs) wHashes l ∧
      (l.map Prod.fst).Nodup ∧ (l.map Prod.snd).Nodup ∧
      (∀ e ∈ l, ∃ t, Spec.Stamped y t e.2 e.1) ∧
      ∀ t i k, Spec.Stamped y t i k → y.now ≤ t + 86400000000000 + 60000000000 → (k, i) ∈ l := by
  obtain ⟨h1, _, h3⟩ := C49_entries h hn
  have hk : ((y.ledger.transactionHashes.entries.map (fun e => (e.1, e.2.1))).map Prod.fst).Nodup := by
    rw [List.map_map]
    exact entries_nodup _
  have hs : ∀ e ∈ y.ledger.transactionHashes.entries.map (fun e => (e.1, e.2.1)),
      ∃ t, Spec.Stamped y t e.2 e.1 := by
    intro e he
    obtain ⟨⟨k, i, c⟩, hm, rfl⟩ := List.mem_map.mp he
    obtain ⟨b, t, hb', hh, hc, _⟩ := h1 k i c ((SMap.get_eq_some_iff _ _ _).mpr hm)
    exact ⟨t, b, hb', hc, hh⟩
  refine ⟨_, told_hashes h hl hb, hk, ?_, hs, ?_⟩
  · rw [List.nodup_iff_pairwise_ne, List.pairwise_map] at hk ⊢
    refine List.Pairwise.imp_of_mem ?_ hk
    intro a b ha hb' hne he
    obtain ⟨_, b1, hb1, _, hh1⟩ := hs a ha
    obtain ⟨_, b2, hb2, _, hh2⟩ := hs b hb'
    rw [he, hb2] at hb1
    cases hb1
    rw [hh1] at hh2
    exact hne (Option.some.inj hh2)
  · rintro t i k ⟨b, hb', hc, hh⟩ hw
    obtain ⟨k', c, hh', hg, _⟩ := h3 i b t hb' hc hw
    rw [hh] at hh'
    cases hh'
    exact List.mem_map.mpr ⟨_, (SMap.get_eq_some_iff _ _ _).mp hg, rfl⟩

/-- **C113**: `get_transaction_timestamps` lists blocks with their `created_at_time`, by increasing
time and each once, and all of those whose time is still in the window. -/
theorem C113_timestamps [Crypto] {y : Sys} (h : Reachable y)
    (hn : ¬Spec.Collision (y.ledger.blocks.map Block.transaction))
    (hl : y.ledger.blocks.length < 2 ^ 64) {bs : Bytes} {args : List (Candid.Ty × Val)}
    (hb : IsMessage bs args) :
    ∃ l, Told (showTest y "get_transaction_timestamps" bs) wTimes l ∧
      l.Pairwise (fun a b => a.1.1 < b.1.1 ∨ a.1.1 = b.1.1 ∧ a.1.2 < b.1.2) ∧
      (l.map (fun e => e.1.2)).Nodup ∧
      (∀ e ∈ l, ∃ k, Spec.Stamped y e.1.1 e.1.2 k) ∧
      ∀ t i k, Spec.Stamped y t i k → y.now ≤ t + 86400000000000 + 60000000000 →
        ((t, i), ()) ∈ l := by
  obtain ⟨_, h2, h3⟩ := C49_entries h hn
  have hk := entries_nodup y.ledger.transactionTimestamps
  have hs : ∀ e ∈ y.ledger.transactionTimestamps.entries, ∃ k, Spec.Stamped y e.1.1 e.1.2 k := by
    rintro ⟨⟨t, i⟩, u⟩ he
    obtain ⟨b, k, c, hb', hc, hh, _⟩ := h2 t i ((SMap.get_eq_some_iff _ _ _).mpr he)
    exact ⟨k, b, hb', hc, hh⟩
  refine ⟨_, told_times h hl hb, ?_, ?_, hs, ?_⟩
  · refine y.ledger.transactionTimestamps.sorted.imp ?_
    rintro ⟨⟨t, i⟩, u⟩ ⟨⟨t', i'⟩, u'⟩ hlt
    have hlt : lexLt (t, i) (t', i') = true := hlt
    simp only [lexLt, Bool.or_eq_true, Bool.and_eq_true, decide_eq_true_eq] at hlt
    simpa [TotOrd.lt] using hlt
  · rw [List.nodup_iff_pairwise_ne, List.pairwise_map] at hk ⊢
    refine List.Pairwise.imp_of_mem ?_ hk
    intro a b ha hb' hne he
    obtain ⟨_, b1, hb1, hc1, _⟩ := hs a ha
    obtain ⟨_, b2, hb2, hc2, _⟩ := hs b hb'
    rw [he, hb2] at hb1
    cases hb1
    rw [hc1] at hc2
    exact hne (Prod.ext (Option.some.inj hc2) he)
  · rintro t i k ⟨b, hb', hc, hh⟩ hw
    obtain ⟨_, _, _, _, hg⟩ := h3 i b t hb' hc hw
    exact (SMap.get_eq_some_iff _ _ _).mp hg

/-- **C113**: both queries list the same blocks. -/
theorem C113_same [Crypto] {y : Sys} (h : Reachable y)
    (hn : ¬Spec.Collision (y.ledger.blocks.map Block.transaction))
    (hl : y.ledger.blocks.length < 2 ^ 64) {bs bs' : Bytes} {args args' : List (Candid.Ty × Val)}
    (hb : IsMessage bs args) (hb' : IsMessage bs' args') :
    ∃ l l', Told (showTest y "get_transaction_hashes" bs) wHashes l ∧
      Told (showTest y "get_transaction_timestamps" bs') wTimes l' ∧
      l.length = l'.length ∧ ∀ i, i ∈ l.map Prod.snd ↔ i ∈ l'.map (fun e => e.1.2) := by
  obtain ⟨h1, h2, _⟩ := C49_entries h hn
  obtain ⟨l, ht, _, hd, _⟩ := C113_hashes h hn hl hb
  obtain ⟨l', ht', _, hd', _⟩ := C113_timestamps h hn hl hb'
  have e1 := told_unique ht (told_hashes h hl hb)
  have e2 := told_unique ht' (told_times h hl hb')
  have hi : ∀ i, i ∈ l.map Prod.snd ↔ i ∈ l'.map (fun e => e.1.2) := by
    intro i
    subst e1 e2
    simp only [List.mem_map]
    constructor
    · rintro ⟨_, ⟨⟨k, j, c⟩, hm, rfl⟩, rfl⟩
      obtain ⟨b, t, _, _, _, hg⟩ := h1 k j c ((SMap.get_eq_some_iff _ _ _).mpr hm)
      exact ⟨_, (SMap.get_eq_some_iff _ _ _).mp hg, rfl⟩
    · rintro ⟨⟨⟨t, j⟩, u⟩, hm, rfl⟩
      obtain ⟨b, k, c, _, _, _, hg⟩ := h2 t j ((SMap.get_eq_some_iff _ _ _).mpr hm)
      exact ⟨_, ⟨_, (SMap.get_eq_some_iff _ _ _).mp hg, rfl⟩, rfl⟩
  refine ⟨l, l', ht, ht', Nat.le_antisymm ?_ ?_, hi⟩
  · have := nodup_subset_length hd (fun i => (hi i).mp)
    simpa using this
  · have := nodup_subset_length hd' (fun i => (hi i).mpr)
    simpa using this

/-- **C113**: if fewer than 100000 blocks are listed when a request is accepted, all that are listed
afterwards are in the window. -/
theorem C113_pruned [Crypto] {y : Sys} (h : Reachable y) {m : Msg} (hr : Spec.IsRequest m)
    (hacc : Spec.Accepted (y.exec m).2)
    (hn : ¬Spec.Collision ((y.exec m).1.ledger.blocks.map Block.transaction))
    (hl : (y.exec m).1.ledger.blocks.length < 2 ^ 64) (hl' : y.ledger.blocks.length < 2 ^ 64)
    {bs : Bytes} {args : List (Candid.Ty × Val)} (hb : IsMessage bs args)
    {l l' : List ((Nat × Nat) × Unit)}
    (ht : Told (showTest y "get_transaction_timestamps" bs) wTimes l)
    (ht' : Told (showTest (y.exec m).1 "get_transaction_timestamps" bs) wTimes l')
    (hlen : l.length < 100000) : ∀ e ∈ l', y.now ≤ e.1.1 + 86400000000000 + 60000000000 := by
  cases told_unique ht (told_times h hl' hb)
  cases told_unique ht' (told_times (h.exec m) hl hb)
  rintro ⟨x, u⟩ he
  refine Nat.le_of_not_lt (fun hlt => ?_)
  obtain ⟨_, gone, g1, g2, _, g4⟩ := C62_transactions h hr hacc hn
    ((SMap.get_eq_some_iff _ _ _).mpr he) hlt
  have := nodup_subset_length (m := y.ledger.transactionTimestamps.entries.map Prod.fst) g1
    (fun z hz => List.mem_map.mpr ⟨_, (SMap.get_eq_some_iff _ _ _).mp (g4 z hz).1, rfl⟩)
  rw [List.length_map] at this
  omega

open Toy in
/-- The example history shows two blocks, 1 and 5, in both lists. -/
example : Reachable demo ∧ ¬Spec.Collision (demo.ledger.blocks.map Block.transaction) ∧
    demo.ledger.blocks.length < 2 ^ 64 ∧ IsMessage [68, 73, 68, 76, 0, 0] [] ∧
    Told (showTest demo "get_transaction_timestamps" [68, 73, 68, 76, 0, 0]) wTimes
      [((1000000000, 1), ()), ((1000000001, 5), ())] ∧
    ∀ i, i < 6 → (i ∈ demo.ledger.transactionHashes.entries.map (fun e => e.2.1) ↔ i = 1 ∨ i = 5) := by
  have hm : IsMessage [68, 73, 68, 76, 0, 0] [] := (readMessage_iff _ _).mp (by rfl)
  have ht := told_times demo_reachable (by decide +kernel) hm
  have he : demo.ledger.transactionTimestamps.entries =
      [((1000000000, 1), ()), ((1000000001, 5), ())] := by decide +kernel
  rw [he] at ht
  exact ⟨demo_reachable, by decide +kernel, by decide +kernel, hm, ht, by decide +kernel⟩

open Toy in
/-- A day later a transfer without a time is accepted: both blocks were listed, none is any more. -/
example : let y := demo.tick 86500000000000
    Reachable y ∧ Spec.IsRequest (xfer alice bob 5).msg ∧
    Spec.Accepted (y.exec (xfer alice bob 5).msg).2 ∧
    ¬Spec.Collision ((y.exec (xfer alice bob 5).msg).1.ledger.blocks.map Block.transaction) ∧
    Told (showTest y "get_transaction_timestamps" [68, 73, 68, 76, 0, 0]) wTimes
      [((1000000000, 1), ()), ((1000000001, 5), ())] ∧
    Told (showTest (y.exec (xfer alice bob 5).msg).1 "get_transaction_timestamps"
      [68, 73, 68, 76, 0, 0]) wTimes [] := by
  have hm : IsMessage [68, 73, 68, 76, 0, 0] [] := (readMessage_iff _ _).mp (by rfl)
  have hr : Reachable (demo.tick 86500000000000) := demo_reachable.tick _
  have ht := told_times hr (by decide +kernel) hm
  have ht' := told_times (hr.exec (xfer alice bob 5).msg) (by decide +kernel) hm
  have he : (demo.tick 86500000000000).ledger.transactionTimestamps.entries =
      [((1000000000, 1), ()), ((1000000001, 5), ())] := by decide +kernel
  have he' : ((demo.tick 86500000000000).exec
      (xfer alice bob 5).msg).1.ledger.transactionTimestamps.entries = [] := by decide +kernel
  rw [he] at ht
  rw [he'] at ht'
  exact ⟨hr, by simp [Spec.IsRequest, Spec.sender, xfer], Or.inr ⟨6, by decide +kernel⟩,
    by decide +kernel, ht, ht'⟩

end CyclesLedger
