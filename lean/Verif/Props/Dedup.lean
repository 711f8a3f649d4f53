import Verif.Proof.Dedup
import Verif.Props.Requests
/-!
# Deduplication

C09, C10, C11, C13, C49, and where blocks come from (C57).
-/
namespace CyclesLedger

/-! ## Answers -/

theorem Spec.not_duplicate_of_ok {r : Reply} {i d : Nat} (h : Spec.okIndex r = some i) :
    ¬Spec.SaysDuplicate r d := by
  rintro (h1 | h1 | ⟨c, h1⟩) <;> cases r <;> first | (cases h1; done) | (cases h; done) | skip <;>
    (rename_i x; cases x <;> first | (cases h1; done) | (cases h; done))

theorem Spec.not_duplicate_of_failed {r : Reply} {v : Option Nat × Option Nat × Option Nat} {d : Nat}
    (h : Spec.failedBlocks r = some v) : ¬Spec.SaysDuplicate r d := by
  rintro (h1 | h1 | ⟨c, h1⟩) <;> cases r <;> first | (cases h1; done) | (cases h; done) | skip <;>
    (rename_i x; cases x <;> first | (cases h1; done) | (cases h; done) | skip) <;>
    (rename_i x; cases x <;> first | (cases h1; done) | (cases h; done))

theorem Spec.duplicate_transfer {r : Reply} {e : TransferFromError} {d : Nat}
    (h : Spec.transferError r = some e) : Spec.SaysDuplicate r d → e = .duplicate d := by
  rintro (h1 | h1 | ⟨c, h1⟩)
  · rw [h] at h1; exact Option.some.inj h1
  · cases r <;> first | (cases h1; done) | (cases h; done)
  · cases r <;> first | (cases h1; done) | (cases h; done)

theorem Spec.duplicate_approve {r : Reply} {e : ApproveError} {d : Nat}
    (h : Spec.approveError r = some e) : Spec.SaysDuplicate r d → e = .duplicate d := by
  rintro (h1 | h1 | ⟨c, h1⟩)
  · cases r <;> first | (cases h1; done) | (cases h; done)
  · rw [h] at h1; exact Option.some.inj h1
  · cases r <;> first | (cases h1; done) | (cases h; done)

theorem Spec.duplicate_burn {r : Reply} {e : Spec.BurnError} {d : Nat}
    (h : Spec.burnError r = some e) : Spec.SaysDuplicate r d → ∃ c, e = .duplicate d c := by
  rintro (h1 | h1 | ⟨c, h1⟩)
  · cases r <;> first | (cases h1; done) | (cases h; done)
  · cases r <;> first | (cases h1; done) | (cases h; done)
  · rw [h] at h1; exact ⟨c, Option.some.inj h1⟩

theorem Spec.not_duplicate_of_trapped {d : Nat} : ¬Spec.SaysDuplicate .trapped d := by
  rintro (h1 | h1 | ⟨c, h1⟩) <;> cases h1

theorem Spec.not_duplicate_of_suspended {d : Nat} : ¬Spec.SaysDuplicate .suspended d := by
  rintro (h1 | h1 | ⟨c, h1⟩) <;> cases h1

/-! ## C09 -/

/-- **C09**: a transaction with a `created_at_time` is never in the log twice.  No
assumption about the hash function is needed: a collision can only lead to a request
being refused. -/
theorem C09_at_most_once [Crypto] {y : Sys} (h : Reachable y) {i j : Nat} {b b' : Block}
    (hb : y.ledger.blocks[i]? = some b) (hb' : y.ledger.blocks[j]? = some b')
    (hc : b.transaction.createdAtTime.isSome) (he : b.transaction = b'.transaction) : i = j :=
  h.keys.once i j b b' hb hb' hc he

open Toy in
/-- Without `created_at_time` the same transaction can be there twice, so the hypothesis
matters; with it, the repetition is not recorded, not even a day later (then it is too
old). -/
example :
    (start.run [dep alice 1000000000000, xfer alice bob 5, xfer alice bob 5]).ledger.blocks.length
      = 3 ∧
    (start.run [dep alice 1000000000000, xfer alice bob 5 (some 1000000000),
      xfer alice bob 5 (some 1000000000), ⟨86500000000000, (xfer alice bob 5).msg⟩,
      xfer alice bob 5 (some 1000000000)]).ledger.blocks.length = 3 ∧
    ((start.run [dep alice 1000000000000, xfer alice bob 5 (some 1000000000)]).ledger.blocks[1]?.map
      (fun b => b.transaction.createdAtTime)) = some (some 1000000000) :=
  ⟨by decide +kernel, by decide +kernel, by decide +kernel⟩

/-! ## C10 -/

/-- **C10**: if a request is answered `Duplicate` of block `d`, then block `d` exists and
records exactly that request (if the request does not collide with another). -/
theorem C10_duplicate_truthful [Crypto] {y : Sys} (h : Reachable y) {m : Msg} {t : Transaction}
    {d : Nat} (hm : Spec.requestTransaction m = some t) (hn : Spec.NoClash y.ledger t)
    (hd : Spec.SaysDuplicate (y.exec m).2 d) :
    (∃ b, y.ledger.blocks[d]? = some b ∧ b.transaction = t ∧ t.createdAtTime.isSome) ∧
    (y.exec m).1 = y := by
  rcases msg_cases m with ⟨r, to, hr⟩ | ⟨r, hr⟩ | ⟨r, hr⟩ | ⟨c, cy, a, rfl⟩ | ⟨i, a, rfl⟩ |
    ⟨i, rfl⟩ | ⟨a, rfl⟩
  · have ht : t = r.transaction to := by
      cases m <;> cases hr <;> exact (Option.some.inj hm).symm
    rcases exec_burn h.inv hr with ⟨s1, p, hs⟩ | ⟨e, he⟩
    · exfalso
      obtain ⟨_, _, _, _, _, _, ⟨_, h1⟩ | ⟨_, h1⟩⟩ := hs
      · rw [h1] at hd; exact Spec.not_duplicate_of_suspended hd
      · rcases h1 with ⟨h1, _⟩ | ⟨fb, ab, s', _, _, _, _, _, _, h1⟩
        · rw [h1] at hd; exact Spec.not_duplicate_of_trapped hd
        · exact Spec.not_duplicate_of_failed h1 hd
    · obtain ⟨h1, _, h2, _, _, _, _, h3⟩ := he
      obtain ⟨c, rfl⟩ := Spec.duplicate_burn h2 hd
      obtain ⟨c', h4, _⟩ := h3 d c rfl
      rw [ht] at hn ⊢
      exact ⟨table_hit h.inv.ledger hn h4, h1⟩
  · have ht : t = r.transaction := by
      cases m <;> cases hr <;> exact (Option.some.inj hm).symm
    rcases exec_transfer h.inv hr with ⟨s', _, hok, _⟩ | ⟨e, h1, hok, h2, _, _, h3⟩ | ⟨h1, _⟩
    · exact absurd hd (Spec.not_duplicate_of_ok hok)
    · obtain ⟨c', h4⟩ := h3 d (Spec.duplicate_transfer h2 hd)
      rw [ht] at hn ⊢
      exact ⟨table_hit h.inv.ledger hn h4, h1⟩
    · rw [h1] at hd; exact absurd hd Spec.not_duplicate_of_trapped
  · have ht : t = r.transaction := by
      cases m <;> cases hr <;> exact (Option.some.inj hm).symm
    rcases exec_approve h.inv hr with ⟨s', _, hok, _⟩ | ⟨e, h1, hok, h2, _, _, h3⟩ | ⟨h1, _⟩
    · exact absurd hd (Spec.not_duplicate_of_ok hok)
    · obtain ⟨c', h4⟩ := h3 d (Spec.duplicate_approve h2 hd)
      rw [ht] at hn ⊢
      exact ⟨table_hit h.inv.ledger hn h4, h1⟩
    · rw [h1] at hd; exact absurd hd Spec.not_duplicate_of_trapped
  · rcases exec_deposit h.inv c cy a with ⟨s', h1, _⟩ | ⟨h1, _⟩
    · rw [h1] at hd; exact absurd hd (Spec.not_duplicate_of_ok rfl)
    · rw [h1] at hd; exact absurd hd Spec.not_duplicate_of_trapped
  · cases hm
  · cases hm
  · cases hm

open Toy in
/-- A repeated transfer and a repeated canister creation. -/
example : Reachable demo ∧
    (∀ t, Spec.requestTransaction (xfer alice bob 1000 (some 1000000000)).msg = some t →
      Spec.NoClash demo.ledger t) ∧
    Spec.SaysDuplicate (demo.exec (xfer alice bob 1000 (some 1000000000)).msg).2 1 ∧
    Spec.SaysDuplicate (demo.exec (create alice 500000000 (some 1000000001)).msg).2 5 :=
  ⟨demo_reachable, fun t ht => by cases ht; decide +kernel, Or.inl (by decide +kernel),
    Or.inr (Or.inr ⟨some none, by decide +kernel⟩)⟩

/-! ## C11 -/

/-- **C11**: as long as the `created_at_time` of a block is in the window, the same request
is answered `Duplicate` and changes nothing, with any hash function; if no two
transactions of the log collide it is `Duplicate` of exactly that block. -/
theorem C11_repeated [Crypto] {y : Sys} (h : Reachable y) {i c : Nat} {b : Block}
    (hb : y.ledger.blocks[i]? = some b) (hc : b.transaction.createdAtTime = some c)
    (hw : y.now ≤ c + 86400000000000 + 60000000000) {m : Msg}
    (hm : Spec.requestTransaction m = some b.transaction) :
    (y.exec m).1 = y ∧ (∃ d, Spec.SaysDuplicate (y.exec m).2 d) ∧
    (¬Spec.Collision (y.ledger.blocks.map Block.transaction) →
      Spec.SaysDuplicate (y.exec m).2 i) := by
  obtain ⟨hop, hrv⟩ := h.block_request (List.mem_of_getElem? hb) hm
  have hcs : b.transaction.createdAtTime.isSome := by rw [hc]; rfl
  obtain ⟨d, p, hg⟩ := h.keys.has h.inv.ledger.clock hb hc hw
  have hd := exec_dup hm hcs hop hrv hg
  refine ⟨hd.1, ⟨d, hd.2.1⟩, fun hn => ?_⟩
  obtain ⟨p, hg⟩ := table_has h.inv.ledger hn hb hc hw
  exact (exec_dup hm hcs hop hrv hg).2.1

open Toy in
/-- The transfer of the example, repeated at the last possible moment. -/
example : Reachable (demo.tick 86459999999994) ∧
    ¬Spec.Collision ((demo.tick 86459999999994).ledger.blocks.map Block.transaction) ∧
    (demo.tick 86459999999994).now = 1000000000 + 86400000000000 + 60000000000 ∧
    (demo.tick 86459999999994).ledger.blocks[1]?.map (fun b => b.transaction) =
      Spec.requestTransaction (xfer alice bob 1000 (some 1000000000)).msg ∧
    ((demo.tick 86459999999994).exec (xfer alice bob 1000 (some 1000000000)).msg).2 =
      .transfer (.error (.duplicate 1)) :=
  ⟨demo_reachable.tick _, by decide +kernel, by decide +kernel, by decide +kernel, by decide +kernel⟩

/-! ## C13 -/

/-- The answer says that canister `p` was created, in block `i`. -/
def Spec.SaysCreated (r : Reply) (i : Nat) (p : Principal) : Prop :=
  r = .createCanister (.ok (i, p)) ∨ r = .createCanisterFrom (.ok (i, p))

/-- **C13**: when a canister was reported as created in block `i`, then after any further
history the same request, inside the window, is answered `Duplicate` of block `i` with
that canister, and nothing happens - no call is made - provided no two transactions of
the log collide. -/
theorem C13_created_again [Crypto] {y : Sys} (h : Reachable y) {m : Msg} {i : Nat} {p : Principal}
    (hcr : Spec.SaysCreated (y.exec m).2 i p) (es : List Event) {z : Sys}
    (hz : z = (y.exec m).1.run es) {b : Block} {c : Nat} (hb : z.ledger.blocks[i]? = some b)
    (hc : b.transaction.createdAtTime = some c)
    (hw : z.now ≤ c + 86400000000000 + 60000000000)
    (hn : ¬Spec.Collision (z.ledger.blocks.map Block.transaction))
    {m' : Msg} (hm' : Spec.requestTransaction m' = some b.transaction) :
    (z.exec m').1 = z ∧ Spec.burnError (z.exec m').2 = some (.duplicate i (some (some p))) := by
  subst hz
  have h1 : Reachable (y.exec m).1 := h.exec m
  have h2 : Reachable ((y.exec m).1.run es) := h1.run es
  have hok : Spec.okIndex (y.exec m).2 = some i := by
    rcases hcr with h | h <;> rw [h] <;> rfl
  have hgrow := run_grows h1.inv es
  -- the answer comes from a callback
  have hcb : ∃ k ref q, m = .callback k (.cmc (.created p) ref) ∧ y.pending[k]? = some q ∧
      Spec.Fits q (.cmc (.created p) ref) ∧ q.data.blockIndex = i := by
    rcases msg_cases m with ⟨r, to, hr⟩ | ⟨r, hr⟩ | ⟨r, hr⟩ | ⟨c, cy, a, rfl⟩ | ⟨k, a, rfl⟩ |
      ⟨k, rfl⟩ | ⟨a, rfl⟩
    · exfalso
      rcases exec_burn h.inv hr with ⟨s1, p, _, _, _, _, _, _, ⟨_, h1⟩ | ⟨_, h1⟩⟩ | ⟨e, he⟩
      · rw [h1] at hok; cases hok
      · rcases h1 with ⟨h1, _⟩ | ⟨_, _, _, _, _, h1, _⟩
        · rw [h1] at hok; cases hok
        · rw [h1] at hok; cases hok
      · rw [he.2.1] at hok; cases hok
    · exfalso
      cases m <;> first | (cases hr; done) | skip
      all_goals
        simp only [Sys.exec, Sys.commit] at hcr
        split at hcr <;> rcases hcr with h | h <;> cases h
    · exfalso
      cases m <;> first | (cases hr; done) | skip
      all_goals
        simp only [Sys.exec, Sys.commit] at hcr
        split at hcr <;> rcases hcr with h | h <;> cases h
    · exfalso
      rcases exec_deposit h.inv c cy a with ⟨s', h1, _⟩ | ⟨h1, _⟩ <;> rw [h1] at hcr <;>
        rcases hcr with h | h <;> cases h
    · rcases exec_callback_cases h.inv k a with ⟨h1, _⟩ | ⟨q, hq, hf, ⟨hr, _, hbi⟩ | ⟨back, _, h1⟩⟩
      · rw [h1] at hok; cases hok
      · rw [hok] at hbi
        cases a with
        | depositCycles r =>
          exfalso
          cases r with
          | some c => cases hr
          | none =>
            obtain ⟨kind, d, call⟩ := q
            rcases hf with hf | hf <;> simp only at hf <;> subst hf <;>
              simp only [Sys.exec, hq] at hcr <;> rcases hcr with h | h <;> cases h
        | cmc x ref =>
          cases x with
          | created p' =>
            have := (exec_callback_ok hq hf rfl).2.2 p' ref rfl
            have hp : p' = p := by
              rcases hcr with h | h <;> rw [h] at this <;> rcases this with h | h <;> cases h <;> rfl
            subst hp
            exact ⟨k, ref, q, rfl, hq, hf, (Option.some.inj hbi).symm⟩
          | refunded x => cases hr
          | refundFailed => cases hr
          | callError x => cases hr
      · rcases h1 with ⟨h1, _⟩ | ⟨_, _, _, _, _, h1, _⟩
        · rw [h1] at hok; cases hok
        · rw [h1] at hok; cases hok
    · cases hok
    · exfalso
      simp only [Sys.exec] at hok
      split at hok <;> cases hok
  obtain ⟨k, ref, q, rfl, hq, hf, hi⟩ := hcb
  obtain ⟨he, _, _⟩ := exec_callback_ok hq hf rfl
  have hqm := List.mem_of_getElem? hq
  have hpo := h.inv.pending q hqm
  obtain ⟨b0, hb0, hbt0⟩ := hpo.block
  rw [hi] at hb0
  have hbs : (y.exec (.callback k (.cmc (.created p) ref))).1.ledger.blocks = y.ledger.blocks := by
    rw [he]
    simp only [noteCanister]
    split <;> rfl
  have hbb : b = b0 := by
    obtain ⟨l, hl⟩ := hgrow.2
    rw [hbs] at hl
    rw [← hl, List.getElem?_append_left (List.getElem?_eq_some_iff.mp hb0).1, hb0] at hb
    exact (Option.some.inj hb).symm
  subst hbb
  have hn0 : ¬Spec.Collision (y.ledger.blocks.map Block.transaction) := by
    have := Collision_prefix hgrow.2 hn
    rw [hbs] at this
    exact this
  have hnow : y.now ≤ c + 86400000000000 + 60000000000 := by
    have h3 := hgrow.1
    have h4 := (exec_moved h.inv (.callback k (.cmc (.created p) ref))).now
    rw [h4] at h3
    omega
  obtain ⟨p0, hg0⟩ := table_has h.inv.ledger hn0 hb0 hc hnow
  have hg1 : (y.exec (.callback k (.cmc (.created p) ref))).1.ledger.transactionHashes.get
      b.transaction.hash! = some (i, some p) := by
    rw [he]
    simp only [noteCanister]
    rw [← hbt0]
    have : y.ledger.transactionHashes.contains b.transaction.hash! = true := by
      simp [SMap.contains, hg0]
    rw [if_pos this]
    simp only [SMap.get_insert, if_pos, hi]
  have hpend : ∀ q' ∈ (y.exec (.callback k (.cmc (.created p) ref))).1.pending,
      q'.data.blockIndex ≠ i := by
    rw [he]
    intro q' hq' hqi
    have hnd := h.pending_nodup
    obtain ⟨j, hj⟩ := List.mem_iff_getElem?.mp hq'
    change (y.pending.eraseIdx k)[j]? = some q' at hj
    rw [List.getElem?_eraseIdx] at hj
    have huse : ∀ j', y.pending[j']? = some q' → j' = k := by
      intro j' hj'
      exact nodup_index hnd hj' hq (by rw [hqi, hi])
    split at hj
    · have := huse _ hj; omega
    · have := huse _ hj; omega
  have hg2 := run_keep h1.inv es hg1 (by rw [hbs]; exact hb0) rfl hc hpend hn
    (inWindow_not_before hw h2.inv.ledger.clock)
  obtain ⟨hop, hrv⟩ := h2.block_request (List.mem_of_getElem? hb) hm'
  have hd := exec_dup hm' (by rw [hc]; rfl) hop hrv hg2
  refine ⟨hd.1, ?_⟩
  have hmemo : b.transaction.memo = some (Spec.burnMemo none) := by
    rcases (h.callOk q hqm).body with ⟨h5, _⟩ | ⟨_, _, _, h6⟩
    · rcases hf with h7 | h7 <;> rw [h7] at h5 <;> rcases h5 with h5 | h5 <;> cases h5
    · rw [hbt0]; exact h6
  have hbop := hpo.op
  rw [← hbt0] at hbop
  rcases msg_cases m' with ⟨r, to, hr⟩ | ⟨r, hr⟩ | ⟨r, hr⟩ | ⟨c, cy, a, rfl⟩ | ⟨k, a, rfl⟩ |
    ⟨k, rfl⟩ | ⟨a, rfl⟩
  · have ht : b.transaction = r.transaction to := by
      cases m' <;> cases hr <;> exact (Option.some.inj hm').symm
    rw [ht] at hmemo
    have := burnMemo_inj (Option.some.inj hmemo)
    subst this
    exact hd.2.2 r hr
  · have ht : b.transaction = r.transaction := by
      cases m' <;> cases hr <;> exact (Option.some.inj hm').symm
    rw [ht] at hbop; cases hbop
  · have ht : b.transaction = r.transaction := by
      cases m' <;> cases hr <;> exact (Option.some.inj hm').symm
    rw [ht] at hbop; cases hbop
  · rw [← Option.some.inj hm'] at hbop; cases hbop
  · cases hm'
  · cases hm'
  · cases hm'

open Toy in
/-- The canister creation of the example succeeds, other things happen, and it is asked
for again. -/
example : Reachable demo ∧
    Spec.SaysCreated (demo.exec (.callback 1 (.cmc (.created carol) 0))).2 5 carol ∧
    (∀ z, z = (demo.exec (.callback 1 (.cmc (.created carol) 0))).1.run
        [xfer alice bob 7, ⟨1, .callback 0 (.depositCycles (some (.rejected (some .canisterReject))))⟩] →
      ¬Spec.Collision (z.ledger.blocks.map Block.transaction) ∧
      z.ledger.blocks[5]?.map (fun b => b.transaction) =
        Spec.requestTransaction (create alice 500000000 (some 1000000001)).msg ∧
      (z.exec (create alice 500000000 (some 1000000001)).msg).2 =
        .createCanister (.error (.duplicate 5 (some carol)))) :=
  ⟨demo_reachable, Or.inl (by decide +kernel), fun z hz => by subst hz; decide +kernel⟩

/-! ## C49 -/

/-- **C49**: an entry of the deduplication table names a block with a `created_at_time`
and the hash it is filed under; and every block whose `created_at_time` is still in the
window has its entry (if no two transactions of the log collide). -/
theorem C49_entries [Crypto] {y : Sys} (h : Reachable y)
    (hn : ¬Spec.Collision (y.ledger.blocks.map Block.transaction)) :
    (∀ k i c, y.ledger.transactionHashes.get k = some (i, c) → ∃ b t,
      y.ledger.blocks[i]? = some b ∧ b.transaction.hash = some k ∧
      b.transaction.createdAtTime = some t ∧ y.ledger.transactionTimestamps.get (t, i) = some ()) ∧
    (∀ t i, y.ledger.transactionTimestamps.get (t, i) = some () → ∃ b k c,
      y.ledger.blocks[i]? = some b ∧ b.transaction.createdAtTime = some t ∧
      b.transaction.hash = some k ∧ y.ledger.transactionHashes.get k = some (i, c)) ∧
    (∀ (i : Nat) b t, y.ledger.blocks[i]? = some b → b.transaction.createdAtTime = some t →
      y.now ≤ t + 86400000000000 + 60000000000 →
      ∃ k c, b.transaction.hash = some k ∧ y.ledger.transactionHashes.get k = some (i, c) ∧
        y.ledger.transactionTimestamps.get (t, i) = some ()) := by
  have hi := (h.inv.ledger.hashInv hn).1
  refine ⟨?_, ?_, ?_⟩
  · intro k i c hg
    obtain ⟨b, t, h1, h2, h3, h4⟩ := hi.hash k i c hg
    exact ⟨b, t, h1, by rw [Transaction.hash_eq_some, h2], h3, h4⟩
  · intro t i hg
    obtain ⟨b, h1, h2, c, h3⟩ := hi.time t i hg
    exact ⟨b, _, c, h1, h2, Transaction.hash_eq_some _, h3⟩
  · intro i b t hb hc hw
    rcases hi.all i b t hb hc with h1 | h1
    · obtain ⟨b', hb', _, c, h3⟩ := hi.time t i h1
      rw [hb] at hb'
      cases hb'
      exact ⟨_, c, Transaction.hash_eq_some _, h3, h1⟩
    · rw [inWindow_not_before hw h.inv.ledger.clock] at h1; cases h1

/-- **C49** with any hash function: every key of the table is the hash of a recorded
transaction with a `created_at_time`, and the hash of every such transaction in the window
is there. -/
theorem C49_keys [Crypto] {y : Sys} (h : Reachable y) :
    (∀ k v, y.ledger.transactionHashes.get k = some v → ∃ b ∈ y.ledger.blocks,
      b.transaction.hash = some k ∧ b.transaction.createdAtTime.isSome) ∧
    (∀ b ∈ y.ledger.blocks, ∀ t, b.transaction.createdAtTime = some t →
      y.now ≤ t + 86400000000000 + 60000000000 →
      ∃ k v, b.transaction.hash = some k ∧ y.ledger.transactionHashes.get k = some v) := by
  refine ⟨?_, ?_⟩
  · intro k v hg
    obtain ⟨t, i, b, h1, h2, h3⟩ := h.keys.keys k v hg
    obtain ⟨b', h4, h5, _⟩ := h.keys.time t i h1
    rw [h2] at h4
    cases h4
    exact ⟨b, List.mem_of_getElem? h2, by rw [Transaction.hash_eq_some, h3], by rw [h5]; rfl⟩
  · intro b hb t hc hw
    obtain ⟨i, hi⟩ := List.mem_iff_getElem?.mp hb
    obtain ⟨d, p, hg⟩ := h.keys.has h.inv.ledger.clock hi hc hw
    exact ⟨_, _, Transaction.hash_eq_some _, hg⟩

open Toy in
/-- The example has two entries; a day later the next request removes them. -/
example : Reachable demo ∧ ¬Spec.Collision (demo.ledger.blocks.map Block.transaction) ∧
    demo.ledger.transactionHashes.entries.length = 2 ∧
    (demo.run [⟨86500000000000, (xfer alice bob 5).msg⟩]).ledger.transactionHashes.entries.length = 0 :=
  ⟨demo_reachable, by decide +kernel, by decide +kernel, by decide +kernel⟩

/-! ## C57 -/

/-- Message `m` entitles the ledger to record block `b`: cycles and allowances of an
account are touched by its owner, or by a spender on whose behalf they were approved;
cycles are minted for what a deposit brought in or a failed call brought back. -/
def Spec.Authorised (y : Sys) (m : Msg) (b : Block) : Prop :=
  match b.transaction.operation with
  | .transfer frm _ none _ _ | .burn frm none _ => Spec.sender m = some frm.owner
  | .transfer _ _ (some sp) _ _ | .burn _ (some sp) _ => Spec.sender m = some sp.owner
  | .approve frm sp _ _ _ _ => Spec.sender m = some frm.owner ∨
      ∃ kind p back, Spec.FailingBurn y m kind p back ∧ p.frm = frm ∧ p.spender = some sp
  | .mint to x _ => (∃ c cycles a, m = .deposit c cycles a ∧ a.to = to ∧ x + 100000000 = cycles.val) ∨
      ∃ kind p back, Spec.FailingBurn y m kind p back ∧ p.frm = to ∧ x + 100000000 = back

theorem Spec.Records.authorised {y : Sys} {m : Msg} {b : Block} (h : Spec.Records y m b)
    (hd : ∀ c cycles a, m = .deposit c cycles a → 100000000 < cycles.val) :
    Spec.Authorised y m b := by
  unfold Spec.Authorised
  cases h with
  | request h1 h2 =>
    cases m <;> simp only [Spec.requestTransaction, Spec.transferRequest, Spec.approveRequest,
        Spec.burnRequest, Spec.TransferReq.transaction, Spec.ApproveReq.transaction,
        Spec.BurnReq.transaction, Option.some.injEq, reduceCtorEq] at h1 <;> rw [← h1]
    · refine Or.inl ⟨_, _, _, rfl, rfl, ?_⟩
      have := hd _ _ _ rfl
      omega
    · rfl
    · rfl
    · exact Or.inl rfl
    · rfl
    · rfl
    · rfl
    · rfl
  | refund kind p back h1 h2 h3 =>
    rw [h3]
    exact Or.inr ⟨kind, p, back, h1, rfl, by omega⟩
  | allowance kind p back sp s h1 h2 h3 =>
    rw [h3]
    exact Or.inr ⟨kind, p, back, h1, rfl, h2.1.1⟩

/-- **C57**: every block a message adds is stamped with the current time and is one that
the message's sender was entitled to. -/
theorem C57_authorised [Crypto] {y : Sys} (h : Reachable y) (m : Msg) :
    ∃ new, (y.exec m).1.ledger.blocks = y.ledger.blocks ++ new ∧
      ∀ b ∈ new, b.timestamp = y.now ∧ Spec.Authorised y m b := by
  obtain ⟨new, h1, h2⟩ := exec_blocks h.inv m
  refine ⟨new, h1, fun b hb => ⟨(h2 b hb).1, (h2 b hb).2.authorised ?_⟩⟩
  rintro c cycles a rfl
  rcases exec_deposit h.inv c cycles a with ⟨s', _, _, h3, _⟩ | ⟨h3, _⟩
  · exact h3
  · rw [h3] at h1
    have : new = [] := by simpa using h1.symm
    rw [this] at hb
    cases hb

/-- **C57** for the log: every block is an initial balance or was authorised by a message
sent at the time the block is stamped with. -/
theorem C57_log [Crypto] {config : Config} {now cycles : Nat} {y0 : Sys} {es : List Event}
    (h0 : Sys.init config now cycles = some y0) :
    ∀ b ∈ (y0.run es).ledger.blocks, b ∈ y0.ledger.blocks ∨
      ∃ pre e post, es = pre ++ e :: post ∧ b.timestamp = ((y0.run pre).tick e.dt).now ∧
        Spec.Authorised ((y0.run pre).tick e.dt) e.msg b := by
  have h00 : Reachable y0 := ⟨config, now, cycles, y0, [], h0, rfl⟩
  clear h0
  induction es generalizing y0 with
  | nil => exact fun b hb => Or.inl hb
  | cons e es ih =>
    intro b hb
    rcases ih (h00.step e) b hb with h1 | ⟨pre, e', post, rfl, h2, h3⟩
    · obtain ⟨new, h4, h5⟩ := C57_authorised (h00.tick e.dt) e.msg
      rw [Sys.step, h4, List.mem_append] at h1
      rcases h1 with h1 | h1
      · exact Or.inl h1
      · exact Or.inr ⟨[], e, es, rfl, h5 b h1⟩
    · exact Or.inr ⟨e :: pre, e', post, rfl, h2, h3⟩

open Toy in
/-- All blocks of the example, and the two of a refund with its allowance. -/
example : Sys.init cfg T 0 = some start ∧ demo = start.run events ∧
    demo.ledger.blocks.length = 6 ∧
    (demo.exec (.callback 0 (.depositCycles (some (.rejected (some .canisterReject)))))).1.ledger.blocks.length = 8 :=
  ⟨start_eq, rfl, by decide +kernel, by decide +kernel⟩

end CyclesLedger
