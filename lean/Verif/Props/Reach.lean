import Verif.Props.Spending
import Verif.Props.Strangers
import Verif.Props.Upgrade
import Verif.Props.Helpers
import Verif.Props.Meta
/-!
# What a spender can still take

C83: unless the owner approves again, the allowance of a spender together with the calls it has
under way only shrinks; a revoked allowance stays revoked.
-/
namespace CyclesLedger

/-- The spender `sp`, acting on account `a`. -/
def Spec.IsPair (frm : Account) (spender : Option Account) (a sp : Account) : Prop :=
  Spec.SameAccount frm a ∧ ∃ s ∈ spender, Spec.SameAccount s sp

instance (frm : Account) (spender : Option Account) (a sp : Account) :
    Decidable (Spec.IsPair frm spender a sp) := by
  unfold Spec.IsPair
  cases spender with
  | none => exact isFalse (fun h => by obtain ⟨_, s, hs, _⟩ := h; cases hs)
  | some s =>
    exact decidable_of_iff (Spec.SameAccount frm a ∧ Spec.SameAccount s sp)
      ⟨fun h => ⟨h.1, s, rfl, h.2⟩, fun ⟨h1, s', hs, h2⟩ => ⟨h1, by cases hs; exact h2⟩⟩

/-- The cycles of the calls that `sp` has under way at the expense of `a`. -/
def Spec.flying (y : Sys) (a sp : Account) : Nat :=
  (y.pending.map fun q =>
    if Spec.IsPair q.data.frm q.data.spender a sp then q.call.cycles else 0).sum

/-- What `sp` may still take from `a`, as far as the approvals given so far go: the allowance and
what would be given back if all its calls failed. -/
def Spec.reach (y : Sys) (a sp : Account) : Nat :=
  Spec.spendable y.ledger a sp y.now + Spec.flying y a sp

/-- What a block takes from `a` by `sp` for good: a transfer its amount and fee, a burn its fee. -/
def Spec.lost (a sp : Account) (b : Block) : Nat :=
  match b.transaction.operation with
  | .transfer frm _ spender amount _ =>
    if Spec.IsPair frm spender a sp then amount + Spec.fee b else 0
  | .burn frm spender _ => if Spec.IsPair frm spender a sp then Spec.fee b else 0
  | _ => 0

/-- The message asks to approve `sp` on `a`. -/
def Spec.Approves (m : Msg) (a sp : Account) : Prop :=
  ∃ r, Spec.approveRequest m = some r ∧ Spec.SameAccount r.frm a ∧ Spec.SameAccount r.spender sp

/-- The CMC does not claim to give back more than it was sent with a call of `sp` on `a`. -/
def Spec.ModestFor (y : Sys) (m : Msg) (a sp : Account) : Prop :=
  ∀ i amount refund q, m = .callback i (.cmc (.refunded amount) refund) → y.pending[i]? = some q →
    Spec.IsPair q.data.frm q.data.spender a sp → amount ≤ q.call.cycles

section
variable [Crypto] {a sp : Account}

omit [Crypto] in
theorem sameAccount_symm {a b : Account} (h : Spec.SameAccount a b) : Spec.SameAccount b a :=
  ⟨h.1.symm, h.2.symm⟩

omit [Crypto] in
theorem spendable_congr (s : State) {a b sp sp' : Account} (h1 : Spec.SameAccount a b)
    (h2 : Spec.SameAccount sp sp') (t : Nat) :
    Spec.spendable s a sp t = Spec.spendable s b sp' t := by
  unfold Spec.spendable Spec.stored
  rw [(sameAccount_iff _ _).mp h1, (sameAccount_iff _ _).mp h2]

omit [Crypto] in
theorem isPair_onBehalf (hne : ¬Spec.SameAccount sp a) {frm : Account} {spender : Option Account} :
    Spec.IsPair frm spender a sp ↔ ∃ s, Spec.OnBehalf frm spender s ∧ Spec.SameAccount a frm ∧
      Spec.SameAccount sp s := by
  constructor
  · rintro ⟨h1, s, hs, h2⟩
    refine ⟨s, ⟨hs, fun hc => hne ?_⟩, sameAccount_symm h1, sameAccount_symm h2⟩
    rw [sameAccount_iff] at *
    rw [← h2, hc, h1]
  · rintro ⟨s, ⟨hs, _⟩, h1, h2⟩
    exact ⟨sameAccount_symm h1, s, hs, sameAccount_symm h2⟩

/-- Spending lowers the allowance by exactly amount and fee. -/
theorem spend_exact (hne : ¬Spec.SameAccount sp a) {now : Nat} {s s' : State} {t : Transaction}
    {frm : Account} {spender : Option Account} {x : Nat} (he : Effect now s s' t)
    (h : SpendsBy t frm spender x) :
    Spec.spendable s' a sp now + (if Spec.IsPair frm spender a sp then x + 100000000 else 0) =
      Spec.spendable s a sp now := by
  obtain ⟨h1, h2⟩ := he.spending h
  by_cases hp : Spec.IsPair frm spender a sp
  · rw [if_pos hp]
    obtain ⟨s0, hb, h3, h4⟩ := (isPair_onBehalf hne).mp hp
    obtain ⟨v, e, h5, h6, h7, h8⟩ := h1 s0 hb
    rw [spendable_congr s' h3 h4, spendable_congr s h3 h4]
    unfold Spec.spendable
    rw [h5, h8]
    split
    · rename_i hv
      simp only [Spec.live, h7, if_true]
      omega
    · simp only [Spec.live, h7, if_true]
      omega
  · rw [if_neg hp]
    exact h2 a sp now (Nat.le_refl _) (fun s0 hb hc => hp ((isPair_onBehalf hne).mpr ⟨s0, hb, hc⟩))

omit [Crypto] in
theorem live_le (t x e : Nat) : Spec.live t (some (x, e)) ≤ x := by
  simp only [Spec.live]
  split
  · exact Nat.le_refl _
  · exact Nat.zero_le _

/-- A refund raises the allowance by no more than what came back. -/
theorem refund_bounded (hne : ¬Spec.SameAccount sp a) {now : Nat} {s s' : State} {kind : CallKind}
    {p : Suspended} {back : Nat} {fb ab : Option Nat} (h : Refunded s s' now kind p back fb ab) :
    Spec.spendable s' a sp now ≤ Spec.spendable s a sp now +
      (if Spec.IsPair p.frm p.spender a sp then back else 0) ∧
    ∃ new, s'.blocks = s.blocks ++ new ∧ (new.map (Spec.lost a sp)).sum = 0 := by
  have hmint : ∀ {s2}, Effect now s s2 (Spec.refundTransaction kind p back) →
      Spec.spendable s2 a sp now = Spec.spendable s a sp now := fun he =>
    (Effect.mint he).2.2 _ _ (Nat.le_refl _)
  rcases h with ⟨_, _, _, rfl⟩ | ⟨_, _, _, he, _⟩ | ⟨_, _, _, s0, s2, hr, he, he2⟩
  · exact ⟨Nat.le_add_right _ _, [], by rw [List.append_nil], rfl⟩
  · exact ⟨by rw [hmint he]; exact Nat.le_add_right _ _, _, he.blocks, rfl⟩
  · refine ⟨?_, _, by rw [he2.blocks, he.blocks, List.append_assoc], rfl⟩
    obtain ⟨h1, h2⟩ := Effect.approving he2
    by_cases hp : Spec.SameAccount a p.frm ∧ Spec.SameAccount sp s0
    · have hpair : Spec.IsPair p.frm p.spender a sp := (isPair_onBehalf hne).mpr ⟨s0, hr.1, hp⟩
      rw [if_pos hpair, spendable_congr s' hp.1 hp.2, spendable_congr s hp.1 hp.2]
      unfold Spec.spendable
      rw [h1]
      have := hr.2.1
      split
      · exact Nat.zero_le _
      · refine Nat.le_trans (m := min (back - 200000000 + Spec.spendable s p.frm s0 now) (2 ^ 128 - 1))
          ?_ ?_
        · exact live_le _ _ _
        · refine Nat.le_trans (Nat.min_le_left _ _) ?_
          unfold Spec.spendable
          omega
    · rw [h2 a sp now (Nat.le_refl _) hp, hmint he]
      exact Nat.le_add_right _ _

theorem reach_failed (hne : ¬Spec.SameAccount sp a) {y : Sys} {s : State} {kind : CallKind}
    {p : Suspended} {back : Nat} {out : Sys × Reply} (h : Failed y s kind p back out)
    (hnt : out.2 ≠ .trapped) :
    Spec.reach out.1 a sp ≤ Spec.spendable s a sp y.now + Spec.flying y a sp +
      (if Spec.IsPair p.frm p.spender a sp then back else 0) ∧
    ∃ new, out.1.ledger.blocks = s.blocks ++ new ∧ (new.map (Spec.lost a sp)).sum = 0 := by
  rcases h with ⟨h1, _⟩ | ⟨fb, ab, s', h1, hr, _⟩
  · rw [h1] at hnt; exact absurd rfl hnt
  · obtain ⟨h2, h3⟩ := refund_bounded hne hr
    rw [h1]
    refine ⟨?_, h3⟩
    unfold Spec.reach Spec.flying
    simp only
    omega

/-- One message. -/
theorem reach_exec (hne : ¬Spec.SameAccount sp a) {y : Sys} (hr : Reachable y) (m : Msg)
    (ha : ¬Spec.Approves m a sp) (hm : Spec.ModestFor y m a sp) :
    ∃ new, (y.exec m).1.ledger.blocks = y.ledger.blocks ++ new ∧
      Spec.reach (y.exec m).1 a sp + (new.map (Spec.lost a sp)).sum ≤ Spec.reach y a sp := by
  have hi := hr.inv
  have stay : ∀ {z : Sys}, z = y → ∃ new, z.ledger.blocks = y.ledger.blocks ++ new ∧
      Spec.reach z a sp + (new.map (Spec.lost a sp)).sum ≤ Spec.reach y a sp := by
    rintro z rfl
    exact ⟨[], by rw [List.append_nil], Nat.le_refl _⟩
  rcases msg_cases m with ⟨r, to, hq⟩ | ⟨r, hq⟩ | ⟨r, hq⟩ | ⟨c, cy, d, rfl⟩ | ⟨i, ans, rfl⟩ |
    ⟨i, rfl⟩ | ⟨arg, rfl⟩
  · rcases exec_burn hi hq with ⟨s1, p, hs⟩ | ⟨e, he⟩
    · have hco := (callOk_started hq hs).cycles
      obtain ⟨he, _, _, _, ⟨old, rfl, _⟩, _, k⟩ := hs
      have hx := spend_exact hne he (Or.inr rfl : SpendsBy (r.transaction to) r.frm r.spender r.amount)
      have hl : Spec.lost a sp (mkBlock y.ledger (r.transaction to) y.now) =
          if Spec.IsPair r.frm r.spender a sp then 100000000 else 0 := by
        unfold Spec.lost
        have hfee : Spec.fee (mkBlock y.ledger (r.transaction to) y.now) = 100000000 := by
          rw [← FEE_eq]; exact fee_mkBlock_burn
        rw [hfee]; rfl
      simp only at hco
      rcases k with ⟨_, k⟩ | ⟨_, k⟩
      · rw [k]
        refine ⟨_, he.blocks, ?_⟩
        simp only [List.map_cons, List.map_nil, List.sum_cons, List.sum_nil, hl]
        unfold Spec.reach Spec.flying
        simp only [sent, List.map_append, List.map_cons, List.map_nil, List.sum_append,
          List.sum_cons, List.sum_nil, hco]
        split at hx <;> rename_i hp <;> simp only [hp, if_true, if_false] <;> omega
      · by_cases hnt : (y.exec m).2 = .trapped
        · rcases k with ⟨k, _⟩ | ⟨_, _, _, _, _, _, _, k, _⟩
          · rw [k]; exact stay rfl
          · exact absurd hnt k
        · obtain ⟨h1, new, h2, h3⟩ := reach_failed hne k hnt
          refine ⟨_, by rw [h2, he.blocks, List.append_assoc], ?_⟩
          rw [List.map_append, List.sum_append, h3]
          simp only [List.map_cons, List.map_nil, List.sum_cons, List.sum_nil, hl]
          simp only at h1
          show Spec.reach _ a sp + _ ≤ Spec.spendable _ a sp _ + _
          split at hx <;> rename_i hp <;> simp only [hp, if_true, if_false] at h1 ⊢ <;> omega
    · exact stay he.1
  · rcases exec_transfer hi hq with ⟨s', h1, _, _, _, he, _⟩ | ⟨_, h1, _⟩ | ⟨h1, _⟩
    · have hx := spend_exact hne he
        (Or.inl ⟨_, _, rfl⟩ : SpendsBy r.transaction r.frm r.spender r.amount)
      have hfee : Spec.fee (mkBlock y.ledger r.transaction y.now) = 100000000 := by
        rw [← FEE_eq]; exact fee_mkBlock_transfer he.op.2.1
      have hl : Spec.lost a sp (mkBlock y.ledger r.transaction y.now) =
          if Spec.IsPair r.frm r.spender a sp then r.amount + 100000000 else 0 := by
        unfold Spec.lost
        rw [hfee]; rfl
      rw [h1]
      refine ⟨_, he.blocks, ?_⟩
      simp only [List.map_cons, List.map_nil, List.sum_cons, List.sum_nil, hl]
      show Spec.spendable s' a sp y.now + _ + _ ≤ Spec.spendable _ a sp _ + _
      have : Spec.flying { y with ledger := s' } a sp = Spec.flying y a sp := rfl
      omega
    · exact stay h1
    · rw [h1]; exact stay rfl
  · rcases exec_approve hi hq with ⟨s', h1, _, _, _, he, _⟩ | ⟨_, h1, _⟩ | ⟨h1, _⟩
    · rw [h1]
      refine ⟨_, he.blocks, ?_⟩
      have h2 := (Effect.approving he).2 a sp y.now (Nat.le_refl _)
        (fun hc => ha ⟨r, hq, sameAccount_symm hc.1, sameAccount_symm hc.2⟩)
      show Spec.spendable s' a sp y.now + Spec.flying y a sp + 0 ≤ Spec.spendable _ a sp _ + _
      omega
    · exact stay h1
    · rw [h1]; exact stay rfl
  · rcases exec_deposit hi c cy d with ⟨s', h1, he, _⟩ | ⟨h1, _⟩
    · rw [h1]
      refine ⟨_, he.blocks, ?_⟩
      have h2 : Spec.spendable s' a sp y.now = _ := (Effect.mint he).2.2 (a.key, sp.key) y.now (Nat.le_refl _)
      show Spec.spendable s' a sp y.now + Spec.flying y a sp + 0 ≤ Spec.spendable _ a sp _ + _
      rw [h2]; exact Nat.le_refl _
    · rw [h1]; exact stay rfl
  · have hfl : ∀ p, y.pending[i]? = some p →
        Spec.flying (answered y i p ans) a sp +
          (if Spec.IsPair p.data.frm p.data.spender a sp then p.call.cycles else 0) =
        Spec.flying y a sp := by
      intro p hp
      exact sum_eraseIdx _ hp
    rcases exec_callback_cases hi i ans with ⟨h1, _⟩ | ⟨p, hp, hf, h1⟩
    · rw [h1]; exact stay rfl
    · have h2 := hfl p hp
      rcases h1 with ⟨_, h1, _⟩ | ⟨back, hb, h1⟩
      · rw [h1]
        have h3 : (noteCanister y.ledger p.data ans).blocks = y.ledger.blocks ∧
            (noteCanister y.ledger p.data ans).approvals = y.ledger.approvals := by
          unfold noteCanister
          split
          · split <;> exact ⟨rfl, rfl⟩
          · exact ⟨rfl, rfl⟩
        refine ⟨[], by rw [List.append_nil]; exact h3.1, ?_⟩
        have h4 : Spec.spendable (noteCanister y.ledger p.data ans) a sp y.now =
            Spec.spendable y.ledger a sp y.now := by
          unfold Spec.spendable Spec.stored
          rw [h3.2]
        show Spec.spendable (noteCanister y.ledger p.data ans) a sp y.now +
          Spec.flying (answered y i p ans) a sp + 0 ≤ Spec.spendable _ a sp _ + _
        omega
      · have hle : Spec.IsPair p.data.frm p.data.spender a sp → back ≤ p.call.cycles := by
          intro hpair
          have hc := (hr.callOk p (List.mem_of_getElem? hp)).cycles
          unfold Spec.returned at hb
          split at hb
          · split at hb
            · cases hb; omega
            · cases hb
          · cases hb
          · cases hb
            exact hm _ _ _ _ rfl hp hpair
          · cases hb; exact Nat.zero_le _
          · cases hb; omega
        by_cases hnt : (y.exec (.callback i ans)).2 = .trapped
        · rcases h1 with ⟨k, _⟩ | ⟨_, _, _, _, _, _, _, k, _⟩
          · rw [k]
            refine ⟨[], by rw [List.append_nil]; rfl, ?_⟩
            show Spec.spendable y.ledger a sp y.now +
              Spec.flying (answered y i p ans) a sp + 0 ≤ Spec.spendable _ a sp _ + _
            omega
          · exact absurd hnt k
        · obtain ⟨h3, new, h4, h5⟩ := reach_failed hne h1 hnt
          refine ⟨new, h4, ?_⟩
          rw [h5]
          have h6 : (answered y i p ans).now = y.now := rfl
          rw [h6] at h3
          show Spec.reach _ a sp + _ ≤ Spec.spendable _ a sp _ + _
          split at h3 <;> rename_i hp' <;> simp only [hp', if_true, if_false] at h2
          · have := hle hp'
            omega
          · omega
  · refine ⟨[], by rw [List.append_nil]; rfl, ?_⟩
    have h2 : Spec.flying (y.exec (.lostCallback i)).1 a sp ≤ Spec.flying y a sp := by
      cases hp : y.pending[i]? with
      | some p =>
        exact Nat.le_trans (Nat.le_add_right _ _) (Nat.le_of_eq (sum_eraseIdx _ hp))
      | none =>
        show ((y.pending.eraseIdx i).map _).sum ≤ _
        rw [List.eraseIdx_of_length_le (by simpa using hp)]
        exact Nat.le_refl _
    show Spec.spendable y.ledger a sp y.now + Spec.flying (y.exec (.lostCallback i)).1 a sp + 0 ≤
      Spec.spendable _ a sp _ + _
    omega
  · obtain ⟨c, h1⟩ := exec_upgrade_cfg hr arg
    rw [h1]
    exact ⟨[], by rw [List.append_nil]; rfl, Nat.le_refl _⟩

omit [Crypto] in
theorem reach_tick {y : Sys} (hc : y.now ≤ U64MAX) (dt : Nat) :
    Spec.reach (y.tick dt) a sp ≤ Spec.reach y a sp := by
  have h2 : y.now ≤ (y.tick dt).now := by simp only [Sys.tick]; omega
  exact Nat.add_le_add_right (Spec.live_mono h2 (Spec.stored y.ledger a sp)) _

end

/-- Nowhere in the history does the owner approve `sp` on `a`, nor does the CMC claim to return
more than it was sent with a call of `sp` on `a`. -/
def Spec.NotRaised [Crypto] (y : Sys) (a sp : Account) : List Event → Prop
  | [] => True
  | e :: es => ¬Spec.Approves e.msg a sp ∧ Spec.ModestFor y e.msg a sp ∧
      Spec.NotRaised (y.step e).1 a sp es

/-- **C83**: as long as the owner does not approve again, what a spender may take - the allowance
and the cycles of its calls under way - only shrinks, with every block by what the spender took
for good. -/
theorem C83_only_shrinks [Crypto] {a sp : Account} (hne : ¬Spec.SameAccount sp a) :
    ∀ (es : List Event) {y : Sys}, Reachable y → Spec.NotRaised y a sp es →
    ∃ new, (y.run es).ledger.blocks = y.ledger.blocks ++ new ∧
      Spec.reach (y.run es) a sp + (new.map (Spec.lost a sp)).sum ≤ Spec.reach y a sp
  | [], _, _, _ => ⟨[], by rw [List.append_nil]; rfl, Nat.le_refl _⟩
  | e :: es, y, hr, ⟨h1, h2, h3⟩ => by
    obtain ⟨n1, e1, l1⟩ := reach_exec hne (hr.tick e.dt) e.msg h1 h2
    obtain ⟨n2, e2, l2⟩ := C83_only_shrinks hne es (hr.step e) h3
    have l0 := reach_tick (a := a) (sp := sp) hr.inv.ledger.clock e.dt
    refine ⟨n1 ++ n2, ?_, ?_⟩
    · show ((y.step e).1.run es).ledger.blocks = _
      rw [e2]
      show ((y.tick e.dt).exec e.msg).1.ledger.blocks ++ n2 = _
      rw [e1, List.append_assoc]; rfl
    · show Spec.reach ((y.step e).1.run es) a sp + _ ≤ _
      change Spec.reach (y.step e).1 a sp + _ ≤ _ at l1
      rw [List.map_append, List.sum_append]
      omega

/-- **C83**: an accepted approval of zero takes the allowance away. -/
theorem C83_revoked [Crypto] {y : Sys} (h : Reachable y) {m : Msg} {r : Spec.ApproveReq} {i : Nat}
    (hm : Spec.approveRequest m = some r) (h0 : r.amount = 0)
    (hok : Spec.okIndex (y.exec m).2 = some i) (t : Nat) :
    Spec.spendable (y.exec m).1.ledger r.frm r.spender t = 0 := by
  rcases exec_approve h.inv hm with ⟨s', h1, _, _, _, he, _⟩ | ⟨_, _, h1, _⟩ | ⟨h1, _⟩
  · rw [h1]
    unfold Spec.spendable
    have h2 := (Effect.approving he).1
    rw [if_pos (by rw [h0]; exact Nat.zero_min _)] at h2
    simp only
    rw [h2]; rfl
  · rw [h1] at hok; cases hok
  · rw [h1] at hok; cases hok

/-- `sp` can take nothing from `a`: no allowance, and no call under way. -/
structure Spec.Revoked (y : Sys) (a sp : Account) : Prop where
  allowance : Spec.spendable y.ledger a sp y.now = 0
  calls : ∀ q ∈ y.pending, ¬Spec.IsPair q.data.frm q.data.spender a sp

theorem Spec.Revoked.flying {y : Sys} {a sp : Account} (h : Spec.Revoked y a sp) :
    Spec.flying y a sp = 0 := by
  unfold Spec.flying
  rw [List.sum_eq_zero_iff_forall_eq_nat]
  intro x hx
  obtain ⟨q, hq, rfl⟩ := List.mem_map.mp hx
  exact if_neg (h.calls q hq)

theorem Spec.Revoked.exec [Crypto] {a sp : Account} (hne : ¬Spec.SameAccount sp a) {y : Sys}
    (hr : Reachable y) (h : Spec.Revoked y a sp) {m : Msg} (ha : ¬Spec.Approves m a sp) :
    Spec.Revoked (y.exec m).1 a sp ∧ ∃ new, (y.exec m).1.ledger.blocks = y.ledger.blocks ++ new ∧
      ∀ b ∈ new, Spec.lost a sp b = 0 := by
  have hz : Spec.reach y a sp = 0 := by
    unfold Spec.reach
    rw [h.allowance, h.flying]
  obtain ⟨new, h1, h2⟩ := reach_exec hne hr m ha
    (fun i x f q _ hq hp => absurd hp (h.calls q (List.mem_of_getElem? hq)))
  rw [hz] at h2
  have h3 : Spec.reach (y.exec m).1 a sp = 0 ∧ (new.map (Spec.lost a sp)).sum = 0 := by omega
  refine ⟨⟨?_, ?_⟩, new, h1, ?_⟩
  · have := h3.1
    unfold Spec.reach at this
    omega
  · intro q hq hp
    rcases exec_pending hr.inv m hq with h4 | ⟨r, to, s1, p, hm, hst, rfl⟩
    · exact h.calls q h4 hp
    · obtain ⟨_, hv, _, _, ⟨old, rfl, _⟩, _⟩ := hst
      obtain ⟨s0, hb, h5, h6⟩ := (isPair_onBehalf hne).mp hp
      have h7 := hv.allowance s0 hb
      rw [← spendable_congr _ h5 h6, h.allowance] at h7
      omega
  · intro b hb
    exact List.sum_eq_zero_iff_forall_eq_nat.mp h3.2 _ (List.mem_map_of_mem hb)

/-- **C83**: a revoked allowance stays revoked: whatever anybody else does, unless the owner
approves again, the spender can never take anything from the account. -/
theorem C83_stays_revoked [Crypto] {a sp : Account} (hne : ¬Spec.SameAccount sp a) :
    ∀ (es : List Event) {y : Sys}, Reachable y → Spec.Revoked y a sp →
    (∀ e ∈ es, ¬Spec.Approves e.msg a sp) →
    Spec.Revoked (y.run es) a sp ∧
    ∃ new, (y.run es).ledger.blocks = y.ledger.blocks ++ new ∧
      ∀ b ∈ new, (∀ to x f s frm, b.transaction.operation = .transfer frm to s x f →
          ¬Spec.IsPair frm s a sp) ∧
        (∀ frm s x, b.transaction.operation = .burn frm s x → ¬Spec.IsPair frm s a sp)
  | [], _, _, h, _ => ⟨h, [], by rw [List.append_nil]; rfl, fun b hb => nomatch hb⟩
  | e :: es, y, hr, h, hs => by
    have ht : Spec.Revoked (y.tick e.dt) a sp := by
      refine ⟨?_, h.calls⟩
      have := reach_tick (a := a) (sp := sp) hr.inv.ledger.clock e.dt
      unfold Spec.reach at this
      rw [h.allowance, h.flying] at this
      omega
    obtain ⟨h1, n1, e1, l1⟩ := ht.exec hne (hr.tick e.dt) (hs e List.mem_cons_self)
    obtain ⟨h2, n2, e2, l2⟩ := C83_stays_revoked hne es (hr.step e) h1
      (fun e' he => hs e' (List.mem_cons_of_mem _ he))
    refine ⟨h2, n1 ++ n2, ?_, ?_⟩
    · show ((y.step e).1.run es).ledger.blocks = _
      rw [e2]
      show ((y.tick e.dt).exec e.msg).1.ledger.blocks ++ n2 = _
      rw [e1, List.append_assoc]; rfl
    · intro b hb
      rcases List.mem_append.mp hb with hb | hb
      · have hmem : b ∈ (y.step e).1.ledger.blocks := by
          show b ∈ ((y.tick e.dt).exec e.msg).1.ledger.blocks
          rw [e1]; exact List.mem_append_right _ hb
        have hfee := (C70_fee (hr.step e)).2 b hmem
        have hl := l1 b hb
        unfold Spec.lost at hl
        constructor
        · intro to x f s frm hop hp
          rw [hop] at hl
          have := hfee (by intro _ _ _ hc; rw [hop] at hc; cases hc)
          simp only [hp, if_true, this] at hl
          rw [show icrc1Fee = 100000000 from FEE_eq] at hl
          omega
        · intro frm s x hop hp
          rw [hop] at hl
          have := hfee (by intro _ _ _ hc; rw [hop] at hc; cases hc)
          simp only [hp, if_true, this] at hl
          rw [show icrc1Fee = 100000000 from FEE_eq] at hl
          omega
      · exact l2 b hb

/-- bob spends some more of alice's allowance, and his withdrawal fails. -/
def Toy.more : List Event :=
  [Toy.xferFrom Toy.bob Toy.alice Toy.carol 1000,
   ⟨1, .callback 0 (.depositCycles (some (.rejected (some .canisterReject))))⟩]

open Toy in
/-- bob may take 399995000 and gets 300000000 back if his call fails; after a transfer of 1000 and
the failure (which costs two fees) he may take 399994000: 1000 and three fees less than the sum. -/
example : Reachable demo ∧ ¬Spec.SameAccount (acc bob) (acc alice) ∧
    Spec.NotRaised demo (acc alice) (acc bob) more ∧
    Spec.spendable demo.ledger (acc alice) (acc bob) demo.now = 399995000 ∧
    Spec.flying demo (acc alice) (acc bob) = 300000000 ∧
    Spec.reach (demo.run more) (acc alice) (acc bob) = 399994000 := by
  refine ⟨demo_reachable, by decide, ⟨?_, ?_, ?_, ?_, trivial⟩, by decide +kernel, by decide +kernel,
    by decide +kernel⟩
  · rintro ⟨r, h, _⟩; cases h
  · intro i x f q h; cases h
  · rintro ⟨r, h, _⟩; cases h
  · intro i x f q h; cases h

/-- bob's withdrawal succeeds, alice revokes his allowance. -/
def Toy.revoke : List Event :=
  [⟨1, .callback 0 (.depositCycles none)⟩, Toy.appr Toy.alice Toy.bob 0]

open Toy in
/-- Then bob can take nothing any more. -/
example : Reachable (demo.run revoke) ∧ Spec.Revoked (demo.run revoke) (acc alice) (acc bob) ∧
    (Spec.reach (demo.run (revoke ++ more)) (acc alice) (acc bob) = 0) := by
  exact ⟨demo_reachable.run _, ⟨by decide +kernel, by decide +kernel⟩, by decide +kernel⟩

open Toy in
/-- But if the withdrawal was under way when alice revoked, its failure gives bob an allowance. -/
example : Spec.spendable (demo.run [appr alice bob 0]).ledger (acc alice) (acc bob) demo.now = 0 ∧
    Spec.spendable (demo.run (appr alice bob 0 :: more)).ledger (acc alice) (acc bob)
      (demo.run (appr alice bob 0 :: more)).now = 100000000 := by
  decide +kernel

end CyclesLedger
