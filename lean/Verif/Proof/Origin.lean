import Verif.Proof.Pending
/-!
# Where the blocks of the log come from
-/
namespace CyclesLedger

variable [Crypto]

omit [Crypto] in
/-- The burn whose outgoing call fails in message `m`: the one a callback belongs to, or
the one just started if its call cannot be sent. -/
def Spec.FailingBurn (y : Sys) (m : Msg) (kind : CallKind) (p : Suspended) (back : Nat) : Prop :=
  (∃ i ans q, m = .callback i ans ∧ y.pending[i]? = some q ∧ kind = q.kind ∧ p = q.data ∧
    Spec.returned q ans = some back) ∨
  (∃ r to old, Spec.burnRequest m = some (r, to) ∧ Spec.syncOf m ≠ none ∧ kind = Spec.kindOf m ∧
    p = ⟨r.frm, r.spender, r.amount, y.ledger.blocks.length, old, r.transaction to⟩ ∧
    back = r.amount)

omit [Crypto] in
/-- What a block added by message `m` records: the request itself, the refund of a failed
burn, or the refund of the allowance it used. -/
inductive Spec.Records (y : Sys) (m : Msg) (b : Block) : Prop
  | request : Spec.requestTransaction m = some b.transaction →
      (∀ r to, Spec.burnRequest m = some (r, to) → Spec.ReceiverValid r to) → Records y m b
  | refund (kind : CallKind) (p : Suspended) (back : Nat) : Spec.FailingBurn y m kind p back →
      100000000 < back → b.transaction = Spec.refundTransaction kind p back → Records y m b
  | allowance (kind : CallKind) (p : Suspended) (back : Nat) (sp : Account) (s : State) :
      Spec.FailingBurn y m kind p back → Spec.RefundsAllowance y.now p back sp →
      b.transaction = Spec.allowanceRefund s y.now p sp back → Records y m b

/-- The blocks of a refund. -/
theorem Failed.blocks {y : Sys} {s : State} {kind : CallKind} {p : Suspended} {back : Nat}
    {out : Sys × Reply} (h : Failed y s kind p back out) (htr : out = (y, .trapped) → y.ledger = s) :
    ∃ new, out.1.ledger.blocks = s.blocks ++ new ∧ ∀ b ∈ new, b.timestamp = y.now ∧
      ((100000000 < back ∧ b.transaction = Spec.refundTransaction kind p back) ∨
       ∃ sp, Spec.RefundsAllowance y.now p back sp ∧
        b.transaction = Spec.allowanceRefund s y.now p sp back) := by
  rcases h with ⟨h, _⟩ | ⟨fb, ab, s', h, hr, _⟩
  · refine ⟨[], ?_, by intro b hb; cases hb⟩
    rw [h]; simp [htr h]
  · rw [h]
    rcases hr with ⟨_, _, _, rfl⟩ | ⟨hgt, _, _, he, _⟩ | ⟨hgt, _, _, sp, s2, hra, he, he2⟩
    · exact ⟨[], by simp, by intro b hb; cases hb⟩
    · refine ⟨_, he.blocks, ?_⟩
      intro b hb
      rw [List.mem_singleton] at hb
      subst hb
      exact ⟨rfl, Or.inl ⟨hgt, rfl⟩⟩
    · refine ⟨_, by simp only; rw [he2.blocks, he.blocks, List.append_assoc], ?_⟩
      intro b hb
      simp only [List.cons_append, List.nil_append, List.mem_cons, List.not_mem_nil, or_false] at hb
      rcases hb with rfl | rfl
      · exact ⟨rfl, Or.inl ⟨hgt, rfl⟩⟩
      · exact ⟨rfl, Or.inr ⟨sp, hra, rfl⟩⟩

/-- The blocks a message adds. -/
theorem exec_blocks {y : Sys} (hi : SInv y) (m : Msg) :
    ∃ new, (y.exec m).1.ledger.blocks = y.ledger.blocks ++ new ∧
      ∀ b ∈ new, b.timestamp = y.now ∧ Spec.Records y m b := by
  have none' : (y.exec m).1.ledger.blocks = y.ledger.blocks →
      ∃ new, (y.exec m).1.ledger.blocks = y.ledger.blocks ++ new ∧
      ∀ b ∈ new, b.timestamp = y.now ∧ Spec.Records y m b :=
    fun h => ⟨[], by rw [h]; simp, by intro b hb; cases hb⟩
  have one : ∀ (s' : State) (t : Transaction), (y.exec m).1.ledger = s' →
      Effect y.now y.ledger s' t → Spec.requestTransaction m = some t →
      (∀ r to, Spec.burnRequest m = some (r, to) → Spec.ReceiverValid r to) →
      ∃ new, (y.exec m).1.ledger.blocks = y.ledger.blocks ++ new ∧
      ∀ b ∈ new, b.timestamp = y.now ∧ Spec.Records y m b := by
    intro s' t h1 he h2 h3
    refine ⟨_, by rw [h1, he.blocks], ?_⟩
    intro b hb
    rw [List.mem_singleton] at hb
    subst hb
    exact ⟨rfl, .request h2 h3⟩
  rcases msg_cases m with ⟨r, to, hm⟩ | ⟨r, hm⟩ | ⟨r, hm⟩ | ⟨c, cy, a, rfl⟩ | ⟨i, ans, rfl⟩ |
    ⟨i, rfl⟩ | ⟨a, rfl⟩
  · have hreq : Spec.requestTransaction m = some (r.transaction to) := by
      cases m <;> cases hm <;> rfl
    rcases exec_burn hi hm with ⟨s1, p, he, _, hrv, _, ⟨old, hp, _⟩, hpo, h1⟩ | ⟨e, he⟩
    · have hrv' : ∀ r to, Spec.burnRequest m = some (r, to) → Spec.ReceiverValid r to := by
        intro r' to' h; rw [hm] at h; cases h; exact hrv
      rcases h1 with ⟨_, h1⟩ | ⟨hsync, h1⟩
      · exact one s1 _ (by rw [h1]; rfl) he hreq hrv'
      · by_cases htrap : y.exec m = (y, .trapped)
        · exact none' (by rw [htrap])
        · obtain ⟨new, hn1, hn2⟩ := h1.blocks (fun h => absurd h htrap)
          refine ⟨mkBlock y.ledger (r.transaction to) y.now :: new, ?_, ?_⟩
          · rw [hn1, he.blocks]; simp
          · intro b hb
            rw [List.mem_cons] at hb
            have hfb : Spec.FailingBurn y m (Spec.kindOf m) p r.amount :=
              .inr ⟨r, to, old, hm, hsync, rfl, hp, rfl⟩
            rcases hb with rfl | hb
            · exact ⟨rfl, .request hreq hrv'⟩
            · obtain ⟨h2, ⟨h3, h4⟩ | ⟨sp, h3, h4⟩⟩ := hn2 b hb
              · exact ⟨h2, .refund _ _ _ hfb h3 h4⟩
              · exact ⟨h2, .allowance _ _ _ sp s1 hfb h3 h4⟩
    · exact none' (by rw [he.1])
  · rcases exec_transfer hi hm with ⟨s', h1, _, _, _, he, _⟩ | ⟨e, h1, _⟩ | ⟨h1, _⟩
    · refine one s' _ (by rw [h1]) he ?_ ?_
      · cases m <;> cases hm <;> rfl
      · intro r' to' h; cases m <;> cases hm <;> cases h
    · exact none' (by rw [h1])
    · exact none' (by rw [h1])
  · rcases exec_approve hi hm with ⟨s', h1, _, _, _, he, _⟩ | ⟨e, h1, _⟩ | ⟨h1, _⟩
    · refine one s' _ (by rw [h1]) he ?_ ?_
      · cases m <;> cases hm <;> rfl
      · intro r' to' h; cases m <;> cases hm <;> cases h
    · exact none' (by rw [h1])
    · exact none' (by rw [h1])
  · rcases exec_deposit hi c cy a with ⟨s', h1, he, _⟩ | ⟨h1, _⟩
    · exact one s' _ (by rw [h1]) he rfl (fun r to h => nomatch h)
    · exact none' (by rw [h1])
  · rcases exec_callback_cases hi i ans with ⟨h1, _⟩ | ⟨p, hp, hf, ⟨_, h1, _⟩ | ⟨back, hr, h1⟩⟩
    · exact none' (by rw [h1])
    · refine none' ?_
      rw [h1]
      simp only [noteCanister]
      split
      · split <;> rfl
      · rfl
    · obtain ⟨new, hn1, hn2⟩ := h1.blocks (fun _ => rfl)
      refine ⟨new, hn1, ?_⟩
      intro b hb
      have hfb : Spec.FailingBurn y (.callback i ans) p.kind p.data back :=
        .inl ⟨i, ans, p, rfl, hp, rfl, rfl, hr⟩
      obtain ⟨h2, ⟨h3, h4⟩ | ⟨sp, h3, h4⟩⟩ := hn2 b hb
      · exact ⟨h2, .refund _ _ _ hfb h3 h4⟩
      · exact ⟨h2, .allowance _ _ _ sp _ hfb h3 h4⟩
  · exact none' rfl
  · refine none' ?_
    simp only [Sys.exec]
    split
    · rfl
    · rename_i s' h
      have := (hi.ledger.postUpgrade h).1
      simp only
      rw [this]

theorem mintInitial_blocks {now : Nat} {s s' : State} {l : List (Account × Nat)}
    (h : mintInitial s now l = some s') :
    ∀ b ∈ s'.blocks, b ∈ s.blocks ∨ ∃ e ∈ l, b.transaction = ⟨.mint e.1 e.2 FEE, none, none⟩ := by
  induction l generalizing s with
  | nil =>
    simp only [mintInitial, Option.some.injEq] at h
    subst h
    exact fun b hb => Or.inl hb
  | cons x xs ih =>
    obtain ⟨a, amount⟩ := x
    simp only [mintInitial] at h
    split at h
    · rename_i i s1 hm
      intro b hb
      rcases ih h b hb with h1 | ⟨e, he, h1⟩
      · rw [(mint_ok hm).2.blocks, List.mem_append, List.mem_singleton] at h1
        rcases h1 with h1 | rfl
        · exact Or.inl h1
        · exact Or.inr ⟨(a, amount), by simp, rfl⟩
      · exact Or.inr ⟨e, by simp [he], h1⟩
    · cases h

/-- The blocks of the installation. -/
theorem init_blocks {config : Config} {now cycles : Nat} {y : Sys}
    (h : Sys.init config now cycles = some y) :
    ∀ b ∈ y.ledger.blocks, ∃ e ∈ config.initialBalances.getD [],
      b.transaction = ⟨.mint e.1 e.2 FEE, none, none⟩ := by
  unfold Sys.init initLedger at h
  rw [Option.map_eq_some_iff] at h
  obtain ⟨s, h1, rfl⟩ := h
  split at h1
  · cases h1
  · rename_i s0 hm
    simp only [Option.some.injEq] at h1
    subst h1
    intro b hb
    rcases mintInitial_blocks hm b hb with h2 | h2
    · cases h2
    · exact h2

/-- A property of every block that can be added holds of all blocks. -/
theorem Reachable.block_induct {P : Block → Prop}
    (hinit : ∀ b a x, b.transaction = ⟨.mint a x FEE, none, none⟩ → P b)
    (hnew : ∀ (y : Sys) m b, Reachable y → b.timestamp = y.now → Spec.Records y m b → P b)
    {y : Sys} (h : Reachable y) : ∀ b ∈ y.ledger.blocks, P b := by
  obtain ⟨config, now, cycles, y0, es, h0, rfl⟩ := h
  have h00 : Reachable y0 := ⟨config, now, cycles, y0, [], h0, rfl⟩
  have hp0 : ∀ b ∈ y0.ledger.blocks, P b := by
    intro b hb
    obtain ⟨e, _, he⟩ := init_blocks h0 b hb
    exact hinit b _ _ he
  clear h0
  induction es generalizing y0 with
  | nil => exact hp0
  | cons e es ih =>
    refine ih _ (h00.step e) ?_
    intro b hb
    have hr : Reachable (y0.tick e.dt) := by
      have := h00.step ⟨e.dt, .lostCallback y0.pending.length⟩
      have he : (y0.step ⟨e.dt, .lostCallback y0.pending.length⟩).1 = y0.tick e.dt := by
        simp only [Sys.step, Sys.exec]
        rw [List.eraseIdx_of_length_le (by simp [Sys.tick])]
      rw [he] at this
      exact this
    obtain ⟨new, h1, h2⟩ := exec_blocks (h00.inv.tick e.dt) e.msg
    rw [Sys.step, h1, List.mem_append] at hb
    rcases hb with hb | hb
    · exact hp0 b hb
    · exact hnew _ e.msg b hr (h2 b hb).1 (h2 b hb).2

end CyclesLedger
