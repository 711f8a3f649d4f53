import Verif.Proof.Cases
/-!
# Outstanding calls: where they come from
-/
namespace CyclesLedger

variable [Crypto]

omit [Crypto] in
/-- Every message is of one of these kinds. -/
theorem msg_cases (m : Msg) :
    (∃ r to, Spec.burnRequest m = some (r, to)) ∨ (∃ r, Spec.transferRequest m = some r) ∨
    (∃ r, Spec.approveRequest m = some r) ∨ (∃ c cy a, m = .deposit c cy a) ∨
    (∃ i a, m = .callback i a) ∨ (∃ i, m = .lostCallback i) ∨ (∃ a, m = .upgrade a) := by
  cases m with
  | deposit c cy a => exact .inr (.inr (.inr (.inl ⟨c, cy, a, rfl⟩)))
  | transfer => exact .inr (.inl ⟨_, rfl⟩)
  | transferFrom => exact .inr (.inl ⟨_, rfl⟩)
  | approve => exact .inr (.inr (.inl ⟨_, rfl⟩))
  | withdraw => exact .inl ⟨_, _, rfl⟩
  | withdrawFrom => exact .inl ⟨_, _, rfl⟩
  | createCanister => exact .inl ⟨_, _, rfl⟩
  | createCanisterFrom => exact .inl ⟨_, _, rfl⟩
  | callback i a => exact .inr (.inr (.inr (.inr (.inl ⟨i, a, rfl⟩))))
  | lostCallback i => exact .inr (.inr (.inr (.inr (.inr (.inl ⟨i, rfl⟩)))))
  | upgrade a => exact .inr (.inr (.inr (.inr (.inr (.inr ⟨a, rfl⟩)))))

/-- What an answer does to the system, for every outcome. -/
theorem exec_callback_cases {y : Sys} (hi : SInv y) (i : Nat) (ans : Answer) :
    (y.exec (.callback i ans) = (y, .silent) ∧ ∀ p, y.pending[i]? = some p → ¬Spec.Fits p ans) ∨
    (∃ p, y.pending[i]? = some p ∧ Spec.Fits p ans ∧
      ((Spec.returned p ans = none ∧
        (y.exec (.callback i ans)).1 =
          { answered y i p ans with ledger := noteCanister y.ledger p.data ans } ∧
        Spec.okIndex (y.exec (.callback i ans)).2 = some p.data.blockIndex) ∨
       ∃ back, Spec.returned p ans = some back ∧
        Failed (answered y i p ans) y.ledger p.kind p.data back (y.exec (.callback i ans)))) := by
  by_cases hf : ∃ p, y.pending[i]? = some p ∧ Spec.Fits p ans
  · obtain ⟨p, hp, hf⟩ := hf
    refine Or.inr ⟨p, hp, hf, ?_⟩
    cases hr : Spec.returned p ans with
    | none =>
      have := exec_callback_ok hp hf hr
      exact Or.inl ⟨rfl, this.1, this.2.1⟩
    | some back => exact Or.inr ⟨back, rfl, exec_callback_failed hi hp hf hr⟩
  · have : ∀ p, y.pending[i]? = some p → ¬Spec.Fits p ans := fun p h1 h2 => hf ⟨p, h1, h2⟩
    exact Or.inl ⟨exec_callback_none this, this⟩

theorem Failed.pending {y : Sys} {s : State} {kind : CallKind} {p : Suspended} {back : Nat}
    {out : Sys × Reply} (h : Failed y s kind p back out) :
    out.1.pending = y.pending ∧ out.1.cycles = y.cycles ∧ out.1.now = y.now := by
  rcases h with ⟨h, _⟩ | ⟨fb, ab, s', h, _⟩ <;> rw [h] <;> exact ⟨rfl, rfl, rfl⟩

/-- Outstanding calls are those from before, or the one just made. -/
theorem exec_pending {y : Sys} (hi : SInv y) (m : Msg) {q : Pending}
    (hq : q ∈ (y.exec m).1.pending) :
    q ∈ y.pending ∨ ∃ r to s1 p, Spec.burnRequest m = some (r, to) ∧ Started y m r to s1 p ∧
      q = ⟨Spec.kindOf m, p, callOf m⟩ := by
  rcases msg_cases m with ⟨r, to, hm⟩ | ⟨r, hm⟩ | ⟨r, hm⟩ | ⟨c, cy, a, rfl⟩ | ⟨i, a, rfl⟩ |
    ⟨i, rfl⟩ | ⟨a, rfl⟩
  · rcases exec_burn hi hm with ⟨s1, p, hs⟩ | ⟨e, he⟩
    · have hs' := hs
      obtain ⟨_, _, _, _, _, _, ⟨_, h1⟩ | ⟨_, h1⟩⟩ := hs
      · rw [h1] at hq
        simp only [sent, List.mem_append, List.mem_singleton] at hq
        exact hq.imp id (fun h => ⟨r, to, s1, p, hm, hs', h⟩)
      · rw [h1.pending.1] at hq; exact Or.inl hq
    · rw [he.1] at hq; exact Or.inl hq
  · rcases exec_transfer hi hm with ⟨s', h1, _⟩ | ⟨e, h1, _⟩ | ⟨h1, _⟩ <;> rw [h1] at hq <;>
      exact Or.inl hq
  · rcases exec_approve hi hm with ⟨s', h1, _⟩ | ⟨e, h1, _⟩ | ⟨h1, _⟩ <;> rw [h1] at hq <;>
      exact Or.inl hq
  · rcases exec_deposit hi c cy a with ⟨s', h1, _⟩ | ⟨h1, _⟩ <;> rw [h1] at hq <;> exact Or.inl hq
  · rcases exec_callback_cases hi i a with ⟨h1, _⟩ | ⟨p, _, _, ⟨_, h1, _⟩ | ⟨back, _, h1⟩⟩
    · rw [h1] at hq; exact Or.inl hq
    · rw [h1] at hq; exact Or.inl (mem_eraseIdx_sub hq)
    · rw [h1.pending.1] at hq; exact Or.inl (mem_eraseIdx_sub hq)
  · exact Or.inl (mem_eraseIdx_sub hq)
  · simp only [Sys.exec] at hq
    split at hq <;> exact Or.inl hq

/-- What is known about the call itself. -/
structure CallOk (p : Pending) : Prop where
  cycles : p.call.cycles = p.data.amount
  own : p.kind = .withdraw ∨ p.kind = .createCanister → p.data.spender = none
  body : ((p.kind = .withdraw ∨ p.kind = .withdrawFrom) ∧ p.call.callee = managementCanister ∧
      ∃ to, p.call.body = .depositCycles to ∧ p.data.transaction.memo = some (Spec.burnMemo (some to))) ∨
    ((p.kind = .createCanister ∨ p.kind = .createCanisterFrom) ∧ p.call.callee = cmcPrincipal ∧
      (∃ a, p.call.body = .createCanister a) ∧
      p.data.transaction.memo = some (Spec.burnMemo none))

theorem callOk_started {y : Sys} {m : Msg} {r : Spec.BurnReq} {to : Option Principal} {s1 : State}
    {p : Suspended} (hm : Spec.burnRequest m = some (r, to)) (hs : Started y m r to s1 p) :
    CallOk ⟨Spec.kindOf m, p, callOf m⟩ := by
  obtain ⟨_, _, _, _, ⟨old, rfl, _⟩, _⟩ := hs
  cases m <;> first | cases hm | skip
  · exact ⟨rfl, fun _ => rfl, .inl ⟨.inl rfl, rfl, _, rfl, rfl⟩⟩
  · exact ⟨rfl, fun h => (by rcases h with h | h <;> cases h), .inl ⟨.inr rfl, rfl, _, rfl, rfl⟩⟩
  · exact ⟨rfl, fun _ => rfl, .inr ⟨.inl rfl, rfl, ⟨_, rfl⟩, rfl⟩⟩
  · exact ⟨rfl, fun h => (by rcases h with h | h <;> cases h), .inr ⟨.inr rfl, rfl, ⟨_, rfl⟩, rfl⟩⟩

/-- A property of every new outstanding call holds of all of them. -/
theorem Reachable.pending_induct {P : Pending → Prop}
    (hnew : ∀ (y : Sys) m r to s1 p, Reachable y → Spec.burnRequest m = some (r, to) →
      Started y m r to s1 p → P ⟨Spec.kindOf m, p, callOf m⟩)
    {y : Sys} (h : Reachable y) : ∀ q ∈ y.pending, P q := by
  obtain ⟨config, now, cycles, y0, es, h0, rfl⟩ := h
  have h00 : Reachable y0 := ⟨config, now, cycles, y0, [], h0, rfl⟩
  have hp0 : ∀ q ∈ y0.pending, P q := by
    unfold Sys.init at h0
    rw [Option.map_eq_some_iff] at h0
    obtain ⟨s, _, rfl⟩ := h0
    intro q hq; cases hq
  clear h0
  induction es generalizing y0 with
  | nil => exact hp0
  | cons e es ih =>
    refine ih _ (h00.step e) ?_
    intro q hq
    rcases exec_pending (h00.inv.tick e.dt) e.msg hq with h1 | ⟨r, to, s1, p, hm, hs, rfl⟩
    · exact hp0 q h1
    · refine hnew _ _ _ _ _ _ ?_ hm hs
      have := h00.step ⟨e.dt, .lostCallback y0.pending.length⟩
      have he : (y0.step ⟨e.dt, .lostCallback y0.pending.length⟩).1 = y0.tick e.dt := by
        simp only [Sys.step, Sys.exec]
        rw [List.eraseIdx_of_length_le (by simp [Sys.tick])]
      rw [he] at this
      exact this

theorem Reachable.callOk {y : Sys} (h : Reachable y) : ∀ q ∈ y.pending, CallOk q :=
  h.pending_induct (fun _ _ _ _ _ _ _ hm hs => callOk_started hm hs)

end CyclesLedger
