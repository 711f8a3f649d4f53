import Verif.Proof.Float
import Verif.Proof.PruneExact
import Verif.Props.Accounting
import Verif.Props.Dedup
import Verif.Props.Storage
/-!
# What the ledger reports about its size

C75.
-/
namespace CyclesLedger

/-- `n` is the number of things that satisfy `P`. -/
def Spec.Counts {α : Type} (P : α → Prop) (n : Nat) : Prop :=
  ∃ l : List α, l.Nodup ∧ (∀ a, a ∈ l ↔ P a) ∧ l.length = n

/-- The value of a gauge in the answer to an HTTP request. -/
def Spec.gauge (a : HttpAnswer) (name : String) : Option Nat :=
  match a with
  | .metrics l => (l.find? (fun e => e.1 = name)).map Prod.snd
  | _ => none

/-- `v` is what is shown for the number `n`: `n` itself if it is representable, otherwise a
representable number that is as close as possible. -/
def Spec.Shows (v n : Nat) : Prop :=
  Spec.IsF64 v ∧ ∀ m, Spec.IsF64 m → Spec.distance n v ≤ Spec.distance n m

theorem Spec.Shows.exact {v n : Nat} (h : Spec.Shows v n) (hn : Spec.IsF64 n) : v = n := by
  have := h.2 n hn
  simp only [Spec.distance] at this
  omega

theorem SMap.nodup_keys {K V : Type} [TotOrd K] (m : SMap K V) : (m.entries.map Prod.fst).Nodup := by
  rw [List.nodup_iff_pairwise_ne, List.pairwise_map]
  refine m.sorted.imp ?_
  intro a b h he
  rw [he, TotOrd.irrefl] at h
  cases h

theorem SMap.mem_keys {K V : Type} [TotOrd K] (m : SMap K V) (k : K) :
    k ∈ m.entries.map Prod.fst ↔ m.get k ≠ none := by
  constructor
  · intro h
    obtain ⟨⟨k', v⟩, h1, rfl⟩ := List.mem_map.1 h
    rw [(SMap.get_eq_some_iff _ _ _).2 h1]
    exact (nomatch ·)
  · intro h
    obtain ⟨v, hv⟩ := Option.ne_none_iff_exists'.1 h
    exact List.mem_map.2 ⟨(k, v), (SMap.get_eq_some_iff _ _ _).1 hv, rfl⟩

theorem nodup_map_some {α : Type} {l : List α} (h : l.Nodup) : (l.map some).Nodup :=
  List.Pairwise.map some (fun _ _ h he => h (Option.some.inj he)) h

theorem SMap.counts {K V : Type} [TotOrd K] (m : SMap K V) {P : K → Prop}
    (h : ∀ k, m.get k ≠ none ↔ P k) : Spec.Counts P m.len :=
  ⟨m.entries.map Prod.fst, m.nodup_keys, fun k => (m.mem_keys k).trans (h k), by simp [SMap.len]⟩

/-- Of two lists, if the elements of the first are among the images of those of the second, … -/
theorem nodup_length_le {α β : Type} [DecidableEq β] (f : α → β) :
    ∀ {l : List β} {l' : List α}, l.Nodup → (∀ x ∈ l, ∃ y ∈ l', f y = x) → l.length ≤ l'.length
  | [], _, _, _ => by simp
  | x :: t, l', hn, h => by
    obtain ⟨y, hy, hf⟩ := h x (by simp)
    obtain ⟨l1, l2, rfl⟩ := List.append_of_mem hy
    rw [List.nodup_cons] at hn
    have := nodup_length_le f (l := t) (l' := l1 ++ l2) hn.2 (by
      intro z hz
      obtain ⟨w, hw, hwz⟩ := h z (List.mem_cons_of_mem _ hz)
      refine ⟨w, ?_, hwz⟩
      rcases List.mem_append.1 hw with h1 | h1
      · exact List.mem_append_left _ h1
      · rcases List.mem_cons.1 h1 with rfl | h1
        · rw [hf] at hwz; subst hwz; exact absurd hz hn.1
        · exact List.mem_append_right _ h1)
    simp at this ⊢
    omega

/-- **C75**: the routes.  `/metrics` and `/logs`, with or without a query, are answered, nothing
else is. -/
theorem C75_routes (s : State) (path query : String) (hp : '?' ∉ path.toList) (url : List Char)
    (hu : url = path.toList ∨ url = path.toList ++ '?' :: query.toList) :
    (httpRequest s url = .logs ↔ path = "/logs") ∧
    ((∃ g, httpRequest s url = .metrics g) ↔ path = "/metrics") ∧
    (httpRequest s url = .notFound ↔ path ≠ "/logs" ∧ path ≠ "/metrics") := by
  have hpath : httpPath url = path.toList := by
    have hall : ∀ c ∈ path.toList, decide (c ≠ '?') = true := by
      intro c hc
      simp only [decide_eq_true_eq]
      rintro rfl
      exact hp hc
    unfold httpPath
    rcases hu with rfl | rfl
    · have := List.takeWhile_append_of_pos (l₂ := []) hall
      simpa using this
    · rw [List.takeWhile_append_of_pos hall]
      simp
  have hinj : ∀ t : String, path.toList = t.toList ↔ path = t := fun t => String.toList_inj
  unfold httpRequest
  rw [hpath]
  simp only [hinj]
  by_cases h1 : path = "/metrics"
  · subst h1; simp
  · by_cases h2 : path = "/logs"
    · subst h2; simp
    · simp [h1, h2]

/-- **C75**: the gauges about the log and the supply. -/
theorem C75_log_gauges [Crypto] {y : Sys} (h : Reachable y) {url : List Char}
    (hu : httpPath url = "/metrics".toList) :
    (∃ v, Spec.gauge (httpRequest y.ledger url) "cycles_ledger_number_of_blocks" = some v ∧
      Spec.Shows v y.ledger.blocks.length) ∧
    (∃ v, ∃ n : Nat, Spec.gauge (httpRequest y.ledger url) "cycles_ledger_total_supply" = some v ∧
      (n : Int) = Spec.supply y.ledger.blocks ∧ Spec.Shows v n) := by
  have hr : httpRequest y.ledger url = .metrics (stateMetrics y.ledger) := by
    unfold httpRequest; rw [if_pos hu]
  rw [hr]
  refine ⟨⟨_, rfl, f64OfNat_spec _⟩, ⟨_, _, ?_, h.inv.ledger.supply, f64OfNat_spec _⟩⟩
  simp [Spec.gauge, stateMetrics]

/-- **C75**: the gauges about balances and approvals count exactly the accounts with a stored
balance, the approvals and the approvals with an expiry. -/
theorem C75_account_gauges [Crypto] {y : Sys} (h : Reachable y) {url : List Char}
    (hu : httpPath url = "/metrics".toList) :
    (∃ v n, Spec.gauge (httpRequest y.ledger url) "cycles_ledger_number_of_balances" = some v ∧
      Spec.Counts (fun k : AccountKey =>
        0 < Spec.balance y.ledger.blocks k ∨ Spec.EmptyCredit y.ledger.blocks k) n ∧
      Spec.Shows v n) ∧
    (∃ v n, Spec.gauge (httpRequest y.ledger url) "cycles_ledger_number_of_approvals" = some v ∧
      Spec.Counts (fun k => y.ledger.approvals.get k ≠ none) n ∧ Spec.Shows v n) ∧
    (∃ v n, Spec.gauge (httpRequest y.ledger url)
        "cycles_ledger_number_of_approval_expiration_entries" = some v ∧
      Spec.Counts (fun k => ∃ x e, y.ledger.approvals.get k = some (x, e) ∧ 0 < e) n ∧
      Spec.Shows v n) := by
  have hr : httpRequest y.ledger url = .metrics (stateMetrics y.ledger) := by
    unfold httpRequest; rw [if_pos hu]
  rw [hr]
  refine ⟨⟨_, _, ?_, SMap.counts _ (C59_stored_balances h), f64OfNat_spec _⟩,
    ⟨_, _, ?_, SMap.counts _ (fun _ => Iff.rfl), f64OfNat_spec _⟩,
    ⟨_, y.ledger.expirationQueue.len, ?_, ?_, f64OfNat_spec _⟩⟩
  · simp [Spec.gauge, stateMetrics]
  · simp [Spec.gauge, stateMetrics]
  · simp [Spec.gauge, stateMetrics]
  · refine ⟨_, h.inv.ledger.queue.keys_nodup, ?_, by simp [SMap.len]⟩
    intro k
    constructor
    · intro hk
      obtain ⟨⟨⟨e, k'⟩, u⟩, h1, rfl⟩ := List.mem_map.1 hk
      have := (C21_queue_matches h e k').1 ((SMap.get_eq_some_iff _ _ _).2 h1)
      obtain ⟨h2, x, h3⟩ := this
      exact ⟨x, e, h3, h2⟩
    · rintro ⟨x, e, h1, h2⟩
      have := (C21_queue_matches h e k).2 ⟨h2, x, h1⟩
      exact List.mem_map.2 ⟨((e, k), ()), (SMap.get_eq_some_iff _ _ _).1 this, rfl⟩

theorem QueueInv.len_le {s : State} (h : QueueInv s) :
    s.expirationQueue.len ≤ s.approvals.len := by
  have := nodup_length_le (fun k : ApprovalKey => k) (l' := s.approvals.entries.map Prod.fst)
    h.keys_nodup (by
      intro k hk
      obtain ⟨⟨⟨e, k'⟩, u⟩, h1, rfl⟩ := List.mem_map.1 hk
      obtain ⟨_, x, h3⟩ := (h e k').1 ((SMap.get_eq_some_iff _ _ _).2 h1)
      exact ⟨k', List.mem_map.2 ⟨_, (SMap.get_eq_some_iff _ _ _).1 h3, rfl⟩, rfl⟩)
  simpa [SMap.len] using this

/-- **C75**: the self-check never raises the alarm, neither on the state between two messages nor
after a pruning at any time. -/
theorem C75_no_alarm [Crypto] {y : Sys} (h : Reachable y) :
    checkInvariantsAlarm y.ledger = false ∧
    ∀ t, checkInvariantsAlarm (prune t y.ledger) = false := by
  have key : ∀ s : State, QueueInv s → checkInvariantsAlarm s = false := by
    intro s hs
    have := hs.len_le
    simp only [checkInvariantsAlarm, decide_eq_false_iff_not]
    omega
  exact ⟨key _ h.inv.ledger.queue, fun t => key _ (prune_spec h.inv.ledger.queue).queue⟩

/-- **C75**: the gauges about the deduplication data.  As long as no two transactions of the log
have the same hash, both show the same number; it is at least the number of blocks with a creation
time still inside the window and at most the number of blocks with a creation time. -/
theorem C75_dedup_gauges [Crypto] {y : Sys} (h : Reachable y)
    (hn : ¬Spec.Collision (y.ledger.blocks.map Block.transaction)) {url : List Char}
    (hu : httpPath url = "/metrics".toList) :
    ∃ v n lo hi,
      Spec.gauge (httpRequest y.ledger url) "cycles_ledger_number_of_transaction_hashes" = some v ∧
      Spec.gauge (httpRequest y.ledger url) "cycles_ledger_number_of_transaction_timestamps" =
        some v ∧
      Spec.Shows v n ∧ lo ≤ n ∧ n ≤ hi ∧
      Spec.Counts (fun i : Nat => ∃ b t, y.ledger.blocks[i]? = some b ∧
        b.transaction.createdAtTime = some t ∧
        y.now ≤ t + 86400000000000 + 60000000000) lo ∧
      Spec.Counts (fun i : Nat => ∃ b t, y.ledger.blocks[i]? = some b ∧
        b.transaction.createdAtTime = some t) hi := by
  have hr : httpRequest y.ledger url = .metrics (stateMetrics y.ledger) := by
    unfold httpRequest; rw [if_pos hu]
  rw [hr]
  obtain ⟨hA, hB, hC⟩ := C49_entries h hn
  let created (i : Nat) : Option Nat := (y.ledger.blocks[i]?).bind (·.transaction.createdAtTime)
  have hcr : ∀ i t, created i = some t ↔
      ∃ b, y.ledger.blocks[i]? = some b ∧ b.transaction.createdAtTime = some t := by
    intro i t
    simp only [created, Option.bind_eq_some_iff]
  have hT := y.ledger.transactionTimestamps.nodup_keys
  have hH := y.ledger.transactionHashes.nodup_keys
  have e1 : y.ledger.transactionHashes.len ≤ y.ledger.transactionTimestamps.len := by
    have := nodup_length_le
      (fun p : Nat × Nat => (y.ledger.blocks[p.2]?).bind (·.transaction.hash))
      (l := (y.ledger.transactionHashes.entries.map Prod.fst).map some)
      (l' := y.ledger.transactionTimestamps.entries.map Prod.fst)
      (nodup_map_some hH) (by
        intro x hx
        obtain ⟨k, hk, rfl⟩ := List.mem_map.1 hx
        obtain ⟨⟨i, c⟩, hv⟩ := Option.ne_none_iff_exists'.1 ((SMap.mem_keys _ k).1 hk)
        obtain ⟨b, t, h1, h2, _, h4⟩ := hA k i c hv
        refine ⟨(t, i), (SMap.mem_keys _ _).2 (by rw [h4]; exact (nomatch ·)), ?_⟩
        simp [h1, h2])
    simpa [SMap.len] using this
  have e2 : y.ledger.transactionTimestamps.len ≤ y.ledger.transactionHashes.len := by
    have := nodup_length_le
      (fun k : Hash => (y.ledger.transactionHashes.get k).bind
        (fun v => (created v.1).map (fun t => (t, v.1))))
      (l := (y.ledger.transactionTimestamps.entries.map Prod.fst).map some)
      (l' := y.ledger.transactionHashes.entries.map Prod.fst)
      (nodup_map_some hT) (by
        intro x hx
        obtain ⟨⟨t, i⟩, hk, rfl⟩ := List.mem_map.1 hx
        obtain ⟨u, hv⟩ := Option.ne_none_iff_exists'.1 ((SMap.mem_keys _ _).1 hk)
        obtain ⟨b, k, c, h1, h2, _, h4⟩ := hB t i hv
        refine ⟨k, (SMap.mem_keys _ _).2 (by rw [h4]; exact (nomatch ·)), ?_⟩
        have : created i = some t := (hcr i t).2 ⟨b, h1, h2⟩
        simp only [h4, Option.bind_some, this, Option.map_some])
    simpa [SMap.len] using this
  have e3 : y.ledger.transactionHashes.len = y.ledger.transactionTimestamps.len :=
    Nat.le_antisymm e1 e2
  have hlt : ∀ i t, created i = some t → i < y.ledger.blocks.length := by
    intro i t hi
    obtain ⟨b, hb, _⟩ := (hcr i t).1 hi
    exact (List.getElem?_eq_some_iff.1 hb).1
  let inWindow (i : Nat) : Bool := match created i with
    | some t => decide (y.now ≤ t + 86400000000000 + 60000000000)
    | none => false
  refine ⟨f64OfNat y.ledger.transactionTimestamps.len, y.ledger.transactionTimestamps.len,
    ((List.range y.ledger.blocks.length).filter inWindow).length,
    ((List.range y.ledger.blocks.length).filter (fun i => (created i).isSome)).length,
    ?_, ?_, f64OfNat_spec _, ?_, ?_, ⟨_, List.nodup_range.filter _, ?_, rfl⟩,
    ⟨_, List.nodup_range.filter _, ?_, rfl⟩⟩
  · rw [← e3]; simp [Spec.gauge, stateMetrics]
  · simp [Spec.gauge, stateMetrics]
  · have := nodup_length_le (fun p : Nat × Nat => p.2)
      (l := (List.range y.ledger.blocks.length).filter inWindow)
      (l' := y.ledger.transactionTimestamps.entries.map Prod.fst) (List.nodup_range.filter _) (by
        intro i hi
        obtain ⟨_, hw⟩ := List.mem_filter.1 hi
        simp only [inWindow] at hw
        split at hw
        · rename_i t ht
          obtain ⟨b, hb, hc⟩ := (hcr i t).1 ht
          obtain ⟨k, c, _, _, h3⟩ := hC i b t hb hc (by simpa using hw)
          exact ⟨(t, i), (SMap.mem_keys _ _).2 (by rw [h3]; exact (nomatch ·)), rfl⟩
        · cases hw)
    simpa [SMap.len] using this
  · have := nodup_length_le (fun i : Nat => (created i).map (fun t => (t, i)))
      (l := (y.ledger.transactionTimestamps.entries.map Prod.fst).map some)
      (l' := (List.range y.ledger.blocks.length).filter (fun i => (created i).isSome))
      (nodup_map_some hT) (by
        intro x hx
        obtain ⟨⟨t, i⟩, hk, rfl⟩ := List.mem_map.1 hx
        obtain ⟨u, hv⟩ := Option.ne_none_iff_exists'.1 ((SMap.mem_keys _ _).1 hk)
        obtain ⟨b, k, c, h1, h2, _, h4⟩ := hB t i hv
        have hc : created i = some t := (hcr i t).2 ⟨b, h1, h2⟩
        refine ⟨i, List.mem_filter.2 ⟨List.mem_range.2 (hlt i t hc), by rw [hc]; rfl⟩, ?_⟩
        simp only [hc, Option.map_some])
    simpa [SMap.len] using this
  · intro i
    rw [List.mem_filter, List.mem_range]
    constructor
    · rintro ⟨_, hw⟩
      simp only [inWindow] at hw
      split at hw
      · rename_i t ht
        obtain ⟨b, hb, hc⟩ := (hcr i t).1 ht
        exact ⟨b, t, hb, hc, by simpa using hw⟩
      · cases hw
    · rintro ⟨b, t, hb, hc, hw⟩
      have hct := (hcr i t).2 ⟨b, hb, hc⟩
      exact ⟨hlt i t hct, by simp only [inWindow, hct]; simpa using hw⟩
  · intro i
    rw [List.mem_filter, List.mem_range]
    constructor
    · rintro ⟨_, hw⟩
      obtain ⟨t, ht⟩ := Option.isSome_iff_exists.1 hw
      obtain ⟨b, hb, hc⟩ := (hcr i t).1 ht
      exact ⟨b, t, hb, hc⟩
    · rintro ⟨b, t, hb, hc⟩
      have hct := (hcr i t).2 ⟨b, hb, hc⟩
      exact ⟨hlt i t hct, by rw [hct]; rfl⟩

open Toy in
/-- The gauges of the example history, and a supply that is shown rounded. -/
example : Reachable demo ∧ ¬Spec.Collision (demo.ledger.blocks.map Block.transaction) ∧
    Spec.gauge (httpRequest demo.ledger "/metrics?x=1".toList) "cycles_ledger_number_of_blocks" =
      some demo.ledger.blocks.length ∧ 0 < demo.ledger.blocks.length ∧
    f64OfNat (2 ^ 53 + 1) = 2 ^ 53 ∧ f64OfNat (2 ^ 53 + 3) = 2 ^ 53 + 4 :=
  ⟨demo_reachable, by decide +kernel, by decide +kernel, by decide +kernel, by decide +kernel,
    by decide +kernel⟩

end CyclesLedger
