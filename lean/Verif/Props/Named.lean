import Verif.Props.Fate
/-!
# C98: the canister that a duplicate creation names
-/
namespace CyclesLedger

/-- In the course of `es` the cycles minting canister answered the call of block `i` with the new
canister `p`. -/
def Spec.CreatedIn [Crypto] (y : Sys) (es : List Event) (i : Nat) (p : Principal) : Prop :=
  ∃ pre e post k ref q, es = pre ++ e :: post ∧ e.msg = .callback k (.cmc (.created p) ref) ∧
    (y.run pre).pending[k]? = some q ∧ q.data.blockIndex = i ∧
    (q.kind = .createCanister ∨ q.kind = .createCanisterFrom)

/-- Message `m` is this answer. -/
def Spec.Creates (y : Sys) (m : Msg) (i : Nat) (p : Principal) : Prop :=
  ∃ k ref q, m = .callback k (.cmc (.created p) ref) ∧ y.pending[k]? = some q ∧
    q.data.blockIndex = i ∧ (q.kind = .createCanister ∨ q.kind = .createCanisterFrom)

theorem refunded_entries [Crypto] {s s' : State} {now : Nat} {kind : CallKind} {p : Suspended}
    {back : Nat} {fb ab : Option Nat} (h : Refunded s s' now kind p back fb ab)
    (hn : ¬Spec.Collision (s'.blocks.map Block.transaction)) {k : Hash} {i : Nat}
    {c : Option Principal} (hg : s'.transactionHashes.get k = some (i, c)) :
    s.transactionHashes.get k = some (i, c) ∨ (s.blocks.length ≤ i ∧ c = none) := by
  rcases h with ⟨_, _, _, rfl⟩ | ⟨_, _, _, he, _⟩ | ⟨_, _, _, sp, s2, _, he, he2⟩
  · exact Or.inl hg
  · rcases he.entries hn k i c hg with h | ⟨h, h'⟩
    · exact Or.inl h
    · exact Or.inr ⟨by omega, h'⟩
  · rcases he2.entries hn k i c hg with h | ⟨h, h'⟩
    · have hn2 : ¬Spec.Collision (s2.blocks.map Block.transaction) :=
        Collision_prefix (by rw [he2.blocks]; exact List.prefix_append _ _) hn
      rcases he.entries hn2 k i c h with h | ⟨h, h'⟩
      · exact Or.inl h
      · exact Or.inr ⟨by omega, h'⟩
    · refine Or.inr ⟨?_, h'⟩
      rw [he.blocks, List.length_append] at h
      omega

/-- Where the entries of the table come from. -/
theorem exec_entries [Crypto] {y : Sys} (hi : SInv y) (m : Msg)
    (hn : ¬Spec.Collision ((y.exec m).1.ledger.blocks.map Block.transaction)) {h : Hash} {i : Nat}
    {c : Option Principal} (hg : (y.exec m).1.ledger.transactionHashes.get h = some (i, c)) :
    (y.ledger.transactionHashes.get h = some (i, c) ∧ ∀ p, ¬Spec.Creates y m i p) ∨
    (y.ledger.blocks.length ≤ i ∧ c = none) ∨
    ∃ p, c = some p ∧ Spec.Creates y m i p := by
  have nocall : ∀ {j p}, (∀ k a, m ≠ .callback k a) → ¬Spec.Creates y m j p :=
    fun hm ⟨k, ref, q, h, _⟩ => hm _ _ h
  have same : (y.exec m).1.ledger = y.ledger → (∀ k a, m ≠ .callback k a) →
      (y.ledger.transactionHashes.get h = some (i, c) ∧ ∀ p, ¬Spec.Creates y m i p) :=
    fun h1 h2 => ⟨by rw [← h1]; exact hg, fun p => nocall h2⟩
  have one : ∀ {s' t}, (y.exec m).1.ledger = s' → Effect y.now y.ledger s' t →
      (∀ k a, m ≠ .callback k a) →
      (y.ledger.transactionHashes.get h = some (i, c) ∧ ∀ p, ¬Spec.Creates y m i p) ∨
      (y.ledger.blocks.length ≤ i ∧ c = none) := by
    rintro s' t rfl he h2
    rcases he.entries hn h i c hg with h1 | ⟨h1, h1'⟩
    · exact Or.inl ⟨h1, fun p => nocall h2⟩
    · exact Or.inr ⟨by omega, h1'⟩
  have lift : ∀ {P Q R : Prop}, P ∨ Q → P ∨ Q ∨ R := fun h => h.elim Or.inl (fun h => Or.inr (Or.inl h))
  rcases msg_cases m with ⟨r, to, hm⟩ | ⟨r, hm⟩ | ⟨r, hm⟩ | ⟨cc, cy, a, rfl⟩ | ⟨k, a, rfl⟩ |
    ⟨k, rfl⟩ | ⟨a, rfl⟩
  · have hnc : ∀ k a, m ≠ .callback k a := by rintro k a rfl; cases hm
    rcases exec_burn hi hm with ⟨s1, p, he, _, _, _, _, _, ⟨_, h1⟩ | ⟨_, h1⟩⟩ | ⟨e, he⟩
    · exact lift (one (s' := s1) (by rw [h1]; rfl) he hnc)
    · rcases h1 with ⟨h1, _⟩ | ⟨fb, ab, s', h1, h2, _⟩
      · exact Or.inl (same (by rw [h1]) hnc)
      · rw [h1] at hg hn
        rcases refunded_entries h2 hn hg with h3 | ⟨h3, h4⟩
        · have hn1 : ¬Spec.Collision (s1.blocks.map Block.transaction) := by
            refine Collision_prefix ?_ hn
            rcases h2 with ⟨_, _, _, rfl⟩ | ⟨_, _, _, he, _⟩ | ⟨_, _, _, sp, s2, _, he, he2⟩
            · exact List.prefix_refl _
            · exact ⟨_, he.blocks.symm⟩
            · exact ⟨_, by rw [← List.append_assoc]; exact (he2.blocks.trans (by rw [he.blocks])).symm⟩
          rcases he.entries hn1 h i c h3 with h4 | ⟨h4, h5⟩
          · exact Or.inl ⟨h4, fun p => nocall hnc⟩
          · exact Or.inr (Or.inl ⟨by omega, h5⟩)
        · refine Or.inr (Or.inl ⟨?_, h4⟩)
          rw [he.blocks, List.length_append] at h3
          omega
    · exact Or.inl (same (by rw [he.1]) hnc)
  · have hnc : ∀ k a, m ≠ .callback k a := by rintro k a rfl; cases hm
    rcases exec_transfer hi hm with ⟨s', h1, _, _, _, he, _⟩ | ⟨e, h1, _⟩ | ⟨h1, _⟩
    · exact lift (one (s' := s') (by rw [h1]) he hnc)
    · exact Or.inl (same (by rw [h1]) hnc)
    · exact Or.inl (same (by rw [h1]) hnc)
  · have hnc : ∀ k a, m ≠ .callback k a := by rintro k a rfl; cases hm
    rcases exec_approve hi hm with ⟨s', h1, _, _, _, he, _⟩ | ⟨e, h1, _⟩ | ⟨h1, _⟩
    · exact lift (one (s' := s') (by rw [h1]) he hnc)
    · exact Or.inl (same (by rw [h1]) hnc)
    · exact Or.inl (same (by rw [h1]) hnc)
  · have hnc : ∀ k a', Msg.deposit cc cy a ≠ .callback k a' := by rintro k a' ⟨⟩
    rcases exec_deposit hi cc cy a with ⟨s', h1, he, _⟩ | ⟨h1, _⟩
    · exact lift (one (s' := s') (by rw [h1]) he hnc)
    · exact Or.inl (same (by rw [h1]) hnc)
  · rcases exec_callback_cases hi k a with ⟨h1, h2⟩ | ⟨q, hq, hf, ⟨hr, h1, _⟩ | ⟨back, hr, h1⟩⟩
    · refine Or.inl ⟨by rw [h1] at hg; exact hg, ?_⟩
      rintro p ⟨k', ref, q, hm, hq, _, hk⟩
      cases hm
      exact h2 q hq hk
    · rw [h1] at hg hn
      simp only at hg hn
      cases a with
      | depositCycles r => exact Or.inl ⟨hg, fun p ⟨_, _, _, hm, _⟩ => by cases hm⟩
      | cmc x ref =>
        cases x with
        | created p =>
          have hbs : (noteCanister y.ledger q.data (.cmc (.created p) ref)).blocks = y.ledger.blocks := by
            simp only [noteCanister]
            split <;> rfl
          rw [hbs] at hn
          obtain ⟨b, hb, hbt⟩ := (hi.pending q (List.mem_of_getElem? hq)).block
          have key : y.ledger.transactionHashes.get h = some (i, c) → q.data.blockIndex = i →
              h = q.data.transaction.hash! := by
            rintro hg' rfl
            obtain ⟨b', t, hb', hh, _⟩ := (hi.ledger.hashInv hn).1.hash _ _ _ hg'
            rw [hb] at hb'
            cases hb'
            rw [← hh, hbt]
          have other : y.ledger.transactionHashes.get h = some (i, c) → h ≠ q.data.transaction.hash! →
              ∀ p', ¬Spec.Creates y (.callback k (.cmc (.created p) ref)) i p' := by
            rintro hg' hne p' ⟨k', ref', q', hm, hq', hi', _⟩
            cases hm
            rw [hq] at hq'
            cases hq'
            exact hne (key hg' hi')
          simp only [noteCanister] at hg
          split at hg
          · simp only [SMap.get_insert] at hg
            split at hg
            · simp only [Option.some.injEq, Prod.mk.injEq] at hg
              exact Or.inr (Or.inr ⟨p, hg.2.symm, k, ref, q, rfl, hq, hg.1, hf⟩)
            · rename_i hne
              exact Or.inl ⟨hg, other hg (fun h => hne h.symm)⟩
          · rename_i hcon
            refine Or.inl ⟨hg, other hg ?_⟩
            rintro rfl
            exact hcon (by simp [SMap.contains, hg])
        | refunded x => cases hr
        | refundFailed => cases hr
        | callError x => cases hr
    · have hno : ∀ p, ¬Spec.Creates y (.callback k a) i p := by
        rintro p ⟨k', ref, q', hm, _⟩
        cases hm
        cases hr
      rcases h1 with ⟨h1, _⟩ | ⟨fb, ab, s', h1, h2, _⟩
      · rw [h1] at hg
        exact Or.inl ⟨hg, hno⟩
      · rw [h1] at hg hn
        rcases refunded_entries h2 hn hg with h3 | h3
        · exact Or.inl ⟨h3, hno⟩
        · exact Or.inr (Or.inl h3)
  · exact Or.inl (same rfl (by rintro k a ⟨⟩))
  · have h1 : (y.exec (.upgrade a)).1.ledger.transactionHashes = y.ledger.transactionHashes := by
      simp only [Sys.exec]
      split
      · rfl
      · rename_i s' h
        have := (hi.ledger.postUpgrade h).1
        rw [this]
    rw [h1] at hg
    exact Or.inl ⟨hg, fun p => nocall (by rintro k a ⟨⟩)⟩

theorem CreatedIn_snoc [Crypto] {y : Sys} {es : List Event} {e : Event} {i : Nat} {p : Principal} :
    Spec.CreatedIn y (es ++ [e]) i p ↔
      Spec.CreatedIn y es i p ∨ Spec.Creates ((y.run es).tick e.dt) e.msg i p := by
  constructor
  · rintro ⟨pre, e', post, k, ref, q, h1, h2⟩
    rcases List.eq_nil_or_concat post with rfl | ⟨post', x, rfl⟩
    · obtain ⟨rfl, h3⟩ := List.append_inj' h1 rfl
      cases h3
      exact Or.inr ⟨k, ref, q, h2⟩
    · left
      rw [List.concat_eq_append, ← List.cons_append, ← List.append_assoc] at h1
      obtain ⟨rfl, _⟩ := List.append_inj' h1 rfl
      exact ⟨pre, e', post', k, ref, q, rfl, h2⟩
  · rintro (⟨pre, e', post, k, ref, q, rfl, h⟩ | ⟨k, ref, q, h⟩)
    · exact ⟨pre, e', post ++ [e], k, ref, q, by simp, h⟩
    · exact ⟨es, e, [], k, ref, q, rfl, h⟩

theorem CreatedIn_block [Crypto] {y : Sys} (hr : Reachable y) {es : List Event} {i : Nat} {p : Principal}
    (h : Spec.CreatedIn y es i p) : i < (y.run es).ledger.blocks.length := by
  obtain ⟨pre, e, post, k, ref, q, rfl, _, hq, rfl, _⟩ := h
  obtain ⟨b, hb, _⟩ := ((hr.run pre).inv.pending q (List.mem_of_getElem? hq)).block
  have h1 := (List.getElem?_eq_some_iff.1 hb).1
  have h2 := (C30_append_only (hr.run pre) (e :: post)).length_le
  rw [run_append]
  exact Nat.lt_of_lt_of_le h1 h2

/-- The canisters noted in the table are those that were created. -/
theorem named_inv [Crypto] {config : Config} {now cycles : Nat} {y0 : Sys}
    (h0 : Sys.init config now cycles = some y0) (es : List Event)
    (hn : ¬Spec.Collision ((y0.run es).ledger.blocks.map Block.transaction)) {h : Hash} {i : Nat}
    {c : Option Principal} (hg : (y0.run es).ledger.transactionHashes.get h = some (i, c)) :
    ∀ p, c = some p ↔ Spec.CreatedIn y0 es i p := by
  have hr : Reachable y0 := ⟨config, now, cycles, y0, [], h0, rfl⟩
  obtain ⟨n, hlen⟩ : ∃ n, es.length = n := ⟨_, rfl⟩
  induction n generalizing es c with
  | zero =>
    rw [List.length_eq_zero_iff] at hlen
    subst hlen
    exfalso
    obtain ⟨b, t, hb, _, hc, _⟩ := (hr.inv.ledger.hashInv hn).1.hash _ _ _ hg
    obtain ⟨e, _, he⟩ := init_blocks h0 b (List.mem_of_getElem? hb)
    rw [he] at hc
    cases hc
  | succ n ih =>
    obtain ⟨es', e, rfl⟩ : ∃ es' e, es = es' ++ [e] := by
      refine ⟨es.dropLast, es.getLast (by intro h; rw [h] at hlen; cases hlen), ?_⟩
      rw [List.dropLast_concat_getLast]
    have hn' : es'.length = n := by simpa using hlen
    generalize es' = es at *
    have hrun : y0.run (es ++ [e]) = (((y0.run es).tick e.dt).exec e.msg).1 := by rw [run_append]; rfl
    have hrt := (hr.run es).tick e.dt
    rw [hrun] at hn hg
    have hn0 : ¬Spec.Collision ((y0.run es).ledger.blocks.map Block.transaction) := by
      refine Collision_prefix ?_ hn
      exact (step_grows (hr.run es).inv e).2.2
    intro p
    rw [CreatedIn_snoc]
    rcases exec_entries hrt.inv e.msg hn hg with ⟨h1, h2⟩ | ⟨h1, rfl⟩ | ⟨p', rfl, h1⟩
    · rw [ih es hn0 h1 hn' p]
      exact ⟨Or.inl, fun h => h.resolve_right (h2 p)⟩
    · have h1' : (y0.run es).ledger.blocks.length ≤ i := h1
      refine ⟨(fun h => by cases h), ?_⟩
      rintro (h | ⟨k, ref, q, _, hq, rfl, _⟩)
      · have := CreatedIn_block hr h
        omega
      · obtain ⟨b, hb, _⟩ := (hrt.inv.pending q (List.mem_of_getElem? hq)).block
        have := (List.getElem?_eq_some_iff.1 hb).1
        omega
    · obtain ⟨k, ref, q, hm, hq, hqi, hk⟩ := h1
      constructor
      · intro h
        cases h
        exact Or.inr ⟨k, ref, q, hm, hq, hqi, hk⟩
      · rintro (⟨pre, e', post, k', ref', q', rfl, hm', hq', hqi', hk'⟩ | ⟨k', ref', q', hm', hq', hqi', hk'⟩)
        · exfalso
          have hfits : Spec.Decides ((y0.run pre).tick e'.dt) e'.msg i .paid :=
            .paid (p := q') hm' hq' hqi' hk' rfl
          have h3 := (stays_decided ((hr.run pre).tick e'.dt) hfits post).2 q
          have heq : y0.run (pre ++ e' :: post) = ((((y0.run pre).tick e'.dt).exec e'.msg).1.run post) := by
            rw [run_append]; rfl
          refine h3 ?_ hqi
          rw [← heq]
          exact List.mem_of_getElem? hq
        · rw [hm] at hm'
          cases hm'
          rfl

/-- **C98**: a repeated canister creation that is told `Duplicate` of block `i` is also told a
canister if and only if the call of that block was answered with one, and it is that one. -/
theorem C98_named [Crypto] {config : Config} {now cycles : Nat} {y0 : Sys}
    (h0 : Sys.init config now cycles = some y0) (es : List Event) {e : Event} {r : Spec.BurnReq}
    (hm : Spec.burnRequest e.msg = some (r, none))
    (hn : ¬Spec.Collision ((y0.run es).ledger.blocks.map Block.transaction)) {i : Nat}
    {c : Option Principal}
    (hd : Spec.burnError ((y0.run es).step e).2 = some (.duplicate i (some c))) :
    ∀ p, c = some p ↔ Spec.CreatedIn y0 es i p := by
  have hr : Reachable y0 := ⟨config, now, cycles, y0, [], h0, rfl⟩
  have hrt := (hr.run es).tick e.dt
  rcases exec_burn hrt.inv hm with ⟨s1, p, hs⟩ | ⟨e', he⟩
  · exfalso
    obtain ⟨_, _, _, _, _, _, ⟨_, h1⟩ | ⟨_, h1⟩⟩ := hs
    · have : Spec.burnError (((y0.run es).tick e.dt).exec e.msg).2 = none := by rw [h1]; rfl
      exact absurd (this.symm.trans hd) (by simp)
    · rcases h1 with ⟨h1, _⟩ | ⟨_, _, _, _, _, _, h1, _⟩
      · have : Spec.burnError (((y0.run es).tick e.dt).exec e.msg).2 = none := by rw [h1]; rfl
        exact absurd (this.symm.trans hd) (by simp)
      · exact absurd (h1.symm.trans hd) (by simp)
  · obtain ⟨_, _, h2, _, _, _, _, h3⟩ := he
    have h4 : e' = .duplicate i (some c) := Option.some.inj (h2.symm.trans hd)
    obtain ⟨c', h5, h6⟩ := h3 i (some c) h4
    rcases h6 with h6 | ⟨h6, _⟩
    · cases h6
      exact named_inv h0 es hn h5
    · cases h6

/-- **C98** in terms of C95: the duplicate names a canister exactly if the creation was answered
well; if it names none, the call is outstanding, failed, was lost or could not be sent. -/
theorem C98_fate [Crypto] {config : Config} {now cycles : Nat} {y0 : Sys}
    (h0 : Sys.init config now cycles = some y0) (es : List Event) {e : Event} {r : Spec.BurnReq}
    (hm : Spec.burnRequest e.msg = some (r, none))
    (hn : Spec.NoClash (y0.run es).ledger (r.transaction none)) {i : Nat}
    {c : Option Principal}
    (hd : Spec.burnError ((y0.run es).step e).2 = some (.duplicate i (some c))) :
    (∃ b, (y0.run es).ledger.blocks[i]? = some b ∧ b.transaction = r.transaction none) ∧
    ((∃ p, c = some p) ↔ Spec.HasFate y0 es i .paid) := by
  have hr : Reachable y0 := ⟨config, now, cycles, y0, [], h0, rfl⟩
  have hrt := (hr.run es).tick e.dt
  have ht : Spec.requestTransaction e.msg = some (r.transaction none) := by
    cases hx : e.msg <;> rw [hx] at hm <;> cases hm <;> rfl
  obtain ⟨⟨b, hb, hbt, _⟩, _⟩ :=
    C10_duplicate_truthful hrt ht hn (d := i) (Or.inr (Or.inr ⟨_, hd⟩))
  refine ⟨⟨b, hb, hbt⟩, ?_⟩
  have hnamed := C98_named h0 es hm hn.log hd
  constructor
  · rintro ⟨p, hp⟩
    obtain ⟨pre, e', post, k, ref, q, rfl, h1, h2, h3, h4⟩ := (hnamed p).1 hp
    exact Or.inr ⟨pre, e', post, rfl, .paid (p := q) h1 h2 h3 h4 rfl⟩
  · rintro (⟨h, _⟩ | ⟨pre, e', post, rfl, hdec⟩)
    · cases h
    · cases hdec with
      | @paid k ans q h1 h2 h3 h4 h5 =>
        have hkind : q.kind = .createCanister ∨ q.kind = .createCanisterFrom := by
          have hq := List.mem_of_getElem? h2
          have hrp := (hr.run pre).tick e'.dt
          rcases (hrp.callOk q hq).body with ⟨_, _, to, _, h6⟩ | ⟨h6, _⟩
          · exfalso
            obtain ⟨b', hb', hbt'⟩ := (hrp.inv.pending q hq).block
            rw [h3] at hb'
            have h7 : (y0.run (pre ++ e' :: post)).ledger.blocks[i]? = some b' := by
              rw [run_append]
              exact C30_index_stable (hr.run pre) (e' :: post) i b' hb'
            have h8 : some b' = some b := h7.symm.trans hb
            cases h8
            rw [← hbt', hbt] at h6
            exact absurd (burnMemo_inj (Option.some.inj h6)) nofun
          · exact h6
        cases ans with
        | depositCycles x => rcases hkind with h | h <;> rcases h4 with h' | h' <;> rw [h] at h' <;> cases h'
        | cmc x ref =>
          cases x with
          | created p =>
            exact ⟨p, (hnamed p).2 ⟨pre, e', post, k, ref, q, rfl, h1, h2, h3, hkind⟩⟩
          | refunded x => cases h5
          | refundFailed => cases h5
          | callError x => cases h5

open Toy in
/-- The creation of `demo` is repeated before and after the answer, and after a failure. -/
example : Sys.init cfg T 0 = some start ∧
    ¬Spec.Collision ((start.run (events ++ [⟨1, .callback 1 (.cmc (.created carol) 0)⟩])).ledger.blocks.map
      Block.transaction) ∧
    (∀ r, Spec.burnRequest (create alice 500000000 (some 1000000001)).msg = some (r, none) →
      Spec.NoClash (start.run (events ++ [⟨1, .callback 1 (.cmc (.created carol) 0)⟩])).ledger
        (r.transaction none)) ∧
    Spec.burnError ((start.run events).step (create alice 500000000 (some 1000000001))).2 =
      some (.duplicate 5 (some none)) ∧
    Spec.burnError ((start.run (events ++ [⟨1, .callback 1 (.cmc (.created carol) 0)⟩])).step
      (create alice 500000000 (some 1000000001))).2 = some (.duplicate 5 (some (some carol))) ∧
    Spec.burnError ((start.run (events ++ [⟨1, .callback 1 (.cmc .refundFailed 0)⟩])).step
      (create alice 500000000 (some 1000000001))).2 = some (.duplicate 5 (some none)) :=
  ⟨start_eq, by decide +kernel, fun r hr => by cases hr; decide +kernel, by decide +kernel,
    by decide +kernel, by decide +kernel⟩

end CyclesLedger
