import Verif.Props.Acceptance
/-!
# What has expired goes away

C107.
-/
namespace CyclesLedger

/-- The request was carried out or at least started. -/
def Spec.served (e : Event) (r : Reply) : Bool :=
  (Spec.sender e.msg).isSome && (decide (r = .suspended) || (Spec.okIndex r).isSome)

/-- How many requests of a history are accepted. -/
def Spec.servedIn [Crypto] (y : Sys) : List Event → Nat
  | [] => 0
  | e :: es => (if Spec.served e (y.step e).2 then 1 else 0) + Spec.servedIn (y.step e).1 es

/-- An entry for deduplication is out of the window at time `T`. -/
def Spec.Outdated (s : State) (T : Nat) (x : Nat × Nat) : Prop :=
  s.transactionTimestamps.get x = some () ∧ x.1 + 86400000000000 + 60000000000 < T

theorem Chain.expired [Crypto] {now T : Nat} (hT : T ≤ now) {s s' : State} (hc : Chain now s s')
    (hi : LInv now s) {k : ApprovalKey} (h : Spec.Expired s' T k) : Spec.Expired s T k := by
  induction hc with
  | refl => exact h
  | tail h1 ha ih =>
    apply ih
    cases ha with
    | append ha => exact ha.expired hT h
    | prune =>
      obtain ⟨a, e, hg, h2⟩ := h
      rcases (prune_spec (now := now) (hi.chain h1).queue).approvals k with h3 | ⟨h3, _⟩
      · exact ⟨a, e, by rw [← h3]; exact hg, h2⟩
      · rw [h3] at hg; cases hg
    | mark => exact h
    | reload => exact h

theorem pruneTransactions_sub [Crypto] (now : Nat) (x : Nat × Nat) : ∀ (n : Nat) (s : State),
    (pruneTransactions now s n).transactionTimestamps.get x = some () →
    s.transactionTimestamps.get x = some () := by
  intro n
  induction n with
  | zero => exact fun s h => h
  | succ n ih =>
    intro s h
    unfold pruneTransactions at h
    have he : ∀ z, (s.transactionTimestamps.erase z).get x = some () →
        s.transactionTimestamps.get x = some () := by
      intro z hz
      rw [SMap.get_erase] at hz
      split at hz
      · cases hz
      · exact hz
    split at h
    · exact h
    · split at h
      · exact h
      · simp only at h
        split at h
        · exact he _ (ih _ h)
        · split at h <;> exact he _ (ih _ h)

theorem Appended.outdated [Crypto] {now T : Nat} (hT : T ≤ now) (hclk : now ≤ U64MAX)
    {s s1 : State} {t : Transaction} (ha : Appended now s s1 t) {x : Nat × Nat}
    (h : Spec.Outdated s1 T x) : Spec.Outdated s T x := by
  obtain ⟨hz, hlt⟩ := h
  refine ⟨?_, hlt⟩
  rw [ha.timestamps] at hz
  unfold pushBlock at hz
  simp only [mkBlock] at hz
  split at hz
  · exact hz
  · rename_i ts hts
    simp only [SMap.get_insert] at hz
    split at hz
    · rename_i heq
      subst heq
      have hw := ha.createdAt
      rw [hts] at hw
      have hw := validateCreatedAt_window hw
      unfold isBeforeTransactionWindow satAdd64 at hw
      rw [TRANSACTION_WINDOW_eq, PERMITTED_DRIFT_eq, decide_eq_false_iff_not] at hw
      repeat' split at hw
      all_goals omega
    · exact hz

theorem Chain.outdated [Crypto] {now T : Nat} (hT : T ≤ now) {s s' : State} (hc : Chain now s s')
    (hi : LInv now s) {x : Nat × Nat} (h : Spec.Outdated s' T x) : Spec.Outdated s T x := by
  induction hc with
  | refl => exact h
  | tail h1 ha ih =>
    apply ih
    cases ha with
    | append ha => exact ha.outdated hT hi.clock h
    | prune =>
      have hsub := pruneTransactions_sub now x _ _ h.1
      rw [(pruneApprovals_spec (now := now) (hi.chain h1).queue
        APPROVE_PRUNE_LIMIT).same.timestamps] at hsub
      exact ⟨hsub, h.2⟩
    | mark => exact h
    | reload => exact h

/-- Entries of which there are never more, and of which every accepted request removes `N` unless it
removes all. -/
theorem cleanup [Crypto] {K : Type} (P : State → K → Prop) (Q : Sys → Prop) (N T : Nat)
    (hQ : ∀ y e, Reachable y → Q (y.step e).1 → Q y)
    (hstep : ∀ y m k, Reachable y → T ≤ y.now → P (y.exec m).1.ledger k → P y.ledger k)
    (hgone : ∀ y m k, Reachable y → T ≤ y.now → Spec.IsRequest m → Spec.Accepted (y.exec m).2 →
      Q (y.exec m).1 → P (y.exec m).1.ledger k → ∃ gone : List K, gone.Nodup ∧ gone.length = N ∧
        ∀ z ∈ gone, P y.ledger z ∧ ¬P (y.exec m).1.ledger z) :
    ∀ (es : List Event) (y : Sys), Reachable y → T ≤ y.now → Q (y.run es) →
      ∀ left : List K, left ≠ [] → left.Nodup → (∀ k ∈ left, P (y.run es).ledger k) →
      ∃ before : List K, before.Nodup ∧ (∀ k ∈ before, P y.ledger k) ∧
        before.length = left.length + N * Spec.servedIn y es := by
  intro es
  induction es with
  | nil => exact fun y _ _ _ left _ hn hl => ⟨left, hn, hl, by simp [Spec.servedIn]⟩
  | cons e es ih =>
    intro y h hT hq left hne hn hl
    have ht : Reachable (y.tick e.dt) := h.tick _
    have hT' : T ≤ (y.tick e.dt).now := by
      have := h.inv.ledger.clock
      simp only [Sys.tick]
      omega
    have h1 : Reachable (y.step e).1 := h.step e
    have hT1 : T ≤ (y.step e).1.now := by
      have := (exec_moved ht.inv e.msg).now
      show T ≤ ((y.tick e.dt).exec e.msg).1.now
      omega
    obtain ⟨mid, m1, m2, m3⟩ := ih (y.step e).1 h1 hT1 hq left hne hn hl
    have hq1 : Q (y.step e).1 := by
      clear ih m1 m2 m3 hl hn hne hT1
      have : ∀ (es : List Event) (y : Sys), Reachable y → Q (y.run es) → Q y := by
        intro es
        induction es with
        | nil => exact fun _ _ h => h
        | cons e es ih => exact fun y hy h => hQ y e hy (ih _ (hy.step e) h)
      exact this es _ h1 hq
    unfold Spec.servedIn
    by_cases hs : Spec.served e (y.step e).2 = true
    · rw [if_pos hs]
      unfold Spec.served at hs
      rw [Bool.and_eq_true, Bool.or_eq_true, decide_eq_true_eq] at hs
      obtain ⟨z, hz⟩ : ∃ z, z ∈ mid := by
        cases mid with
        | nil =>
          exfalso
          cases left with
          | nil => exact hne rfl
          | cons => simp at m3; omega
        | cons z _ => exact ⟨z, .head _⟩
      obtain ⟨gone, g1, g2, g3⟩ := hgone (y.tick e.dt) e.msg z ht hT'
        (by unfold Spec.IsRequest; intro h0; rw [h0] at hs; simp at hs)
        (hs.2.imp id (fun h => Option.isSome_iff_exists.mp h)) hq1 (m2 z hz)
      refine ⟨gone ++ mid, List.nodup_append.mpr ⟨g1, m1, ?_⟩, ?_, ?_⟩
      · rintro a ha b hb rfl
        exact (g3 a ha).2 (m2 a hb)
      · intro k hk
        rcases List.mem_append.mp hk with hk | hk
        · exact (g3 k hk).1
        · exact hstep (y.tick e.dt) e.msg k ht hT' (m2 k hk)
      · rw [List.length_append, g2, m3, Nat.mul_add]
        omega
    · rw [if_neg hs]
      exact ⟨mid, m1, fun k hk => hstep (y.tick e.dt) e.msg k ht hT' (m2 k hk), by rw [m3]; simp⟩

/-- **C107**: take any approvals that had expired by some time and are still stored later.  When that
time had come, so many were stored that each request accepted since then removed a
hundred others. -/
theorem C107_approvals [Crypto] {y : Sys} (h : Reachable y) {T : Nat} (hT : T ≤ y.now)
    (es : List Event) (left : List ApprovalKey) (hne : left ≠ []) (hn : left.Nodup)
    (hl : ∀ k ∈ left, Spec.Expired (y.run es).ledger T k) :
    ∃ before : List ApprovalKey, before.Nodup ∧ (∀ k ∈ before, Spec.Expired y.ledger T k) ∧
      before.length = left.length + 100 * Spec.servedIn y es := by
  refine cleanup (fun s k => Spec.Expired s T k) (fun _ => True) 100 T (fun _ _ _ _ => trivial)
    ?_ ?_ es y h hT trivial left hne hn hl
  · intro y m k hy hT hk
    exact (exec_moved hy.inv m).chain.expired hT hy.inv.ledger hk
  · intro y m k hy hT hr hacc _ hk
    obtain ⟨s1, t, ha, hs⟩ := exec_pruned hy.inv hr hacc
    simp only [hs] at hk ⊢
    obtain ⟨gone, h1, _, h3, h4, h5, h6⟩ := prune_approvals (now := y.now)
      (ha.queue hy.inv.ledger.queue)
    obtain ⟨a, e, hg, h0, he⟩ := hk
    refine ⟨gone, h1, h6 k ⟨a, e, hg, h0, by omega⟩, fun z hz => ⟨ha.expired hT ?_, ?_⟩⟩
    · obtain ⟨a', e', hg', h0', _⟩ := h3 z hz
      exact ⟨a', e', hg', h0', by have := h5 z hz a' e' hg' k a e hg h0; omega⟩
    · rintro ⟨a', e', hg', _⟩
      rw [h4, if_pos hz] at hg'
      cases hg'

/-- **C107**: the same of the entries for deduplication, a hundred thousand with each accepted
request. -/
theorem C107_transactions [Crypto] {y : Sys} (h : Reachable y) {T : Nat} (hT : T ≤ y.now)
    (es : List Event) (hc : ¬Spec.Collision ((y.run es).ledger.blocks.map Block.transaction))
    (left : List (Nat × Nat)) (hne : left ≠ []) (hn : left.Nodup)
    (hl : ∀ x ∈ left, Spec.Outdated (y.run es).ledger T x) :
    ∃ before : List (Nat × Nat), before.Nodup ∧ (∀ x ∈ before, Spec.Outdated y.ledger T x) ∧
      before.length = left.length + 100000 * Spec.servedIn y es := by
  refine cleanup (fun s x => Spec.Outdated s T x)
    (fun y => ¬Spec.Collision (y.ledger.blocks.map Block.transaction)) 100000 T ?_
    ?_ ?_ es y h hT hc left hne hn hl
  · intro y e hy hq hcol
    have ht := (hy.tick e.dt).inv
    exact hq (hcol.mono (fun t ht' => by
      have := (exec_moved ht e.msg).chain.blocks_prefix ht.ledger
      exact (this.map _).subset ht'))
  · intro y m k hy hT hk
    exact (exec_moved hy.inv m).chain.outdated hT hy.inv.ledger hk
  · intro y m x hy hT hr hacc hq hx
    obtain ⟨s1, t, ha, hs⟩ := exec_pruned hy.inv hr hacc
    simp only [hs] at hx hq ⊢
    have hi := hy.inv.ledger.append ha
    rw [(prune_spec (now := y.now) hi.queue).blocks] at hq
    obtain ⟨gone, h1, _, h3, h4, h5, _, h7⟩ := prune_transactions hi hq
    refine ⟨gone, h1, h7 x hx.1 (by have := hx.2; omega), fun z hz =>
      ⟨ha.outdated hT hi.clock ⟨(h3 z hz).1, ?_⟩, ?_⟩⟩
    · have := h5 z hz x hx.1
      have := hx.2
      omega
    · rintro ⟨hg, _⟩
      rw [h4, if_pos hz] at hg
      cases hg

/-- **C107**: so all approvals that had expired by some time are gone once a request has been accepted for
every hundred of them, and all entries that were out of the window once one has been for every
hundred thousand; whatever else happens meanwhile. -/
theorem C107_gone [Crypto] {y : Sys} (h : Reachable y) {T : Nat} (hT : T ≤ y.now)
    (es : List Event) :
    ((∀ l : List ApprovalKey, l.Nodup → (∀ k ∈ l, Spec.Expired y.ledger T k) →
        l.length ≤ 100 * Spec.servedIn y es) → ∀ k, ¬Spec.Expired (y.run es).ledger T k) ∧
    (¬Spec.Collision ((y.run es).ledger.blocks.map Block.transaction) →
      (∀ l : List (Nat × Nat), l.Nodup → (∀ x ∈ l, Spec.Outdated y.ledger T x) →
        l.length ≤ 100000 * Spec.servedIn y es) → ∀ x, ¬Spec.Outdated (y.run es).ledger T x) := by
  constructor
  · intro hb k hk
    obtain ⟨l, l1, l2, l3⟩ := C107_approvals h hT es [k] (by simp) (by simp) (by simpa using hk)
    have := hb l l1 l2
    simp at l3
    omega
  · intro hc hb x hx
    obtain ⟨l, l1, l2, l3⟩ := C107_transactions h hT es hc [x] (by simp) (by simp) (by simpa using hx)
    have := hb l l1 l2
    simp at l3
    omega

/-- Entries of a table, all different, are at most as many as the table has. -/
theorem length_le_len {K V : Type} [TotOrd K] [DecidableEq K] (m : SMap K V) (l : List K) (hn : l.Nodup)
    (hl : ∀ k ∈ l, ∃ v, m.get k = some v) : l.length ≤ m.len := by
  have hs : l ⊆ m.entries.map Prod.fst := by
    intro k hk
    obtain ⟨v, hv⟩ := hl k hk
    exact List.mem_map.mpr ⟨(k, v), (SMap.get_eq_some_iff _ _ _).mp hv, rfl⟩
  have := length_le_of_subset hn hs
  simpa [SMap.len] using this

open Toy in
/-- Two approvals have expired and a transfer has left the window. -/
def Toy.stale : Sys := (start.run [dep alice 1000000000000, appr alice bob 5 (some 2000000000),
  appr alice carol 5 (some 3000000000), xfer alice bob 7 (some 1000000000)]).tick 100000000000000

open Toy in
/-- A transfer that is rejected, one that is accepted. -/
def Toy.later : List Event := [xfer carol bob 1, xfer alice carol 5]

open Toy in
/-- The rejected transfer changes nothing; the accepted one removes all three. -/
example : Reachable stale ∧ stale.ledger.approvals.len = 2 ∧
    stale.ledger.transactionTimestamps.len = 1 ∧
    Spec.servedIn stale (later.take 1) = 0 ∧ (stale.run (later.take 1)).ledger.approvals.len = 2 ∧
    Spec.servedIn stale later = 1 ∧ (stale.run later).ledger.approvals.len = 0 ∧
    (∀ l : List ApprovalKey, l.Nodup → (∀ k ∈ l, Spec.Expired stale.ledger stale.now k) →
        l.length ≤ 100 * Spec.servedIn stale later) ∧
    ¬Spec.Collision ((stale.run later).ledger.blocks.map Block.transaction) ∧
    ∀ l : List (Nat × Nat), l.Nodup → (∀ x ∈ l, Spec.Outdated stale.ledger stale.now x) →
        l.length ≤ 100000 * Spec.servedIn stale later := by
  have h1 : stale.ledger.approvals.len ≤ 100 * Spec.servedIn stale later := by decide +kernel
  have h2 : stale.ledger.transactionTimestamps.len ≤ 100000 * Spec.servedIn stale later := by
    decide +kernel
  refine ⟨(run_reachable _).tick _, by decide +kernel, by decide +kernel, by decide +kernel,
    by decide +kernel, by decide +kernel, by decide +kernel, ?_, by decide +kernel, ?_⟩
  · intro l hn hl
    refine Nat.le_trans (length_le_len _ l hn (fun k hk => ?_)) h1
    obtain ⟨a, e, hg, _⟩ := hl k hk
    exact ⟨_, hg⟩
  · intro l hn hl
    exact Nat.le_trans (length_le_len _ l hn (fun k hk => ⟨_, (hl k hk).1⟩)) h2

end CyclesLedger
