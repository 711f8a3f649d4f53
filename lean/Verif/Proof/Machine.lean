import Verif.Props.Rules
import Verif.Props.Failures
import Verif.Props.Burns
import Verif.Props.Install
import Verif.Spec.Writing
/-!
# The ledger and the reference ledger
-/
namespace CyclesLedger

variable [Crypto]

theorem computeTip_fst (bs : List Block) : (computeTip bs).1 = bs.getLast?.map Block.hash := by
  unfold computeTip
  cases bs.getLast? <;> rfl

omit [Crypto] in
theorem feeField_eq (op : Operation) : Spec.feeField op = effectiveFee op := by
  rcases op with _ | ⟨_, _, _, _, f⟩ | _ | ⟨_, _, _, _, _, f⟩
  · rfl
  · cases f <;> simp [Spec.feeField, effectiveFee, FEE_eq]
  · simp [Spec.feeField, effectiveFee, FEE_eq]
  · cases f <;> simp [Spec.feeField, effectiveFee, FEE_eq]

/-- The reference ledger `r` has the log of `s`, and knows which canisters were made. -/
structure LSim (s : State) (now : Nat) (r : Spec.Ref) : Prop where
  log : r.log = s.blocks
  now : r.now = now
  limit : r.limit = s.config.maxBlocksPerRequest
  index : r.index = s.config.indexId
  fresh : ∀ i, s.blocks.length ≤ i → r.made i = none
  made : Spec.Collision (s.blocks.map Block.transaction) ∨
    ∀ h i x, s.transactionHashes.get h = some (i, x) → x = r.made i

/-- The reference ledger `r` goes along with `y`. -/
structure Sim (y : Sys) (r : Spec.Ref) : Prop where
  ledger : LSim y.ledger y.now r
  pending : r.pending = y.pending
  cycles : r.cycles = y.cycles

namespace LSim
variable {s : State} {now : Nat} {r : Spec.Ref}

theorem balance (h : LSim s now r) (hi : LInv now s) (a : Account) :
    r.balance a = balanceOf s a := by
  have := hi.bal a.key
  unfold Spec.Ref.balance
  rw [h.log, Spec.idOf_eq, ← this, balanceOf_eq]
  simp

theorem supply (h : LSim s now r) (hi : LInv now s) : r.supply = s.cache.totalSupply := by
  have := hi.supply
  unfold Spec.Ref.supply
  rw [h.log, ← this]
  simp

theorem stored (h : LSim s now r) (hi : LInv now s) (frm sp : Account) :
    Spec.stored s frm sp = r.granted frm sp ∨ (Spec.stored s frm sp = none ∧
      ∃ a e, r.granted frm sp = some (a, e) ∧ 0 < e ∧ e ≤ now) := by
  unfold Spec.stored Spec.Ref.granted
  rw [h.log, Spec.idOf_eq, Spec.idOf_eq]
  exact hi.allow _

theorem recalls (h : LSim s now r) (hi : LInv now s) : Spec.Recalls r (Spec.stored s) := by
  intro frm sp
  rw [h.now]
  exact h.stored hi frm sp

theorem spendable (h : LSim s now r) (hi : LInv now s) (frm sp : Account) :
    Spec.spendable s frm sp now = Spec.live now (r.granted frm sp) := by
  unfold Spec.spendable
  rcases h.stored hi frm sp with h1 | ⟨h1, a, e, h2, h3, h4⟩
  · rw [h1]
  · rw [h1, h2]
    simp only [Spec.live]
    rw [if_neg (by omega)]

theorem recallsTx (h : LSim s now r) (hi : LInv now s) (t : Transaction) :
    Spec.RecallsTx r t (s.transactionHashes.get t.hash!) := by
  unfold Spec.RecallsTx
  rw [h.log]
  by_cases hc : Spec.Collision (t :: s.blocks.map Block.transaction)
  · exact Or.inl hc
  right
  have hn : Spec.NoClash s t := hc
  have hr := tableDup_remembers hi hn
  constructor
  · intro d c hd
    have h1 := hr.recorded d (by unfold tableDup; rw [hd]; rfl)
    exact ⟨h1.1, (h.made.resolve_left hn.log) _ _ _ hd, h1.2⟩
  · intro hd hw hcat
    rw [h.now] at hw
    exact hr.complete (by unfold tableDup; rw [hd]; rfl) hw hcat

theorem append {s' : State} {t : Transaction} (h : LSim s now r) (hi : LInv now s)
    (he : Effect now s s' t) : LSim s' now (r.append t) where
  log := by
    unfold Spec.Ref.append
    simp only
    rw [he.blocks, h.log, h.now, feeField_eq]
    unfold mkBlock
    rw [hi.phash, computeTip_fst]
  now := h.now
  limit := by rw [he.config]; exact h.limit
  index := by rw [he.config]; exact h.index
  fresh := by
    intro i hi
    rw [he.blocks, List.length_append] at hi
    exact h.fresh i (by omega)
  made := by
    by_cases hc : Spec.Collision (s'.blocks.map Block.transaction)
    · exact Or.inl hc
    right
    intro x i c hg
    have hc' : ¬Spec.Collision (s.blocks.map Block.transaction) := by
      intro h1
      refine hc (h1.mono ?_)
      intro t ht
      rw [he.blocks, List.map_append]
      exact List.mem_append_left _ ht
    rcases he.entries hc x i c hg with h1 | ⟨h1, h2⟩
    · exact (h.made.resolve_left hc') _ _ _ h1
    · rw [h2]
      exact (h.fresh i (by omega)).symm

end LSim

/-! ## The rules -/

omit [Crypto] in
theorem icrc2Allowance_shown (s : State) (frm sp : Account) (now : Nat) :
    (icrc2Allowance s frm sp now).1 = Spec.shown now (Spec.stored s frm sp) := by
  unfold icrc2Allowance allowance Spec.stored
  cases hg : s.approvals.get (frm.key, sp.key) with
  | none => simp [Spec.shown]
  | some v =>
    obtain ⟨a, e⟩ := v
    simp only [Option.getD_some, Spec.shown]
    by_cases h1 : e = 0
    · simp [h1]
    · by_cases h2 : now ≤ e
      · rw [if_neg (by simp; omega), if_pos (by omega)]
      · rw [if_pos (by simp; omega), if_neg (by omega)]

omit [Crypto] in
theorem dupRule {ε : Type} {f : Nat → ε} {dup : Option (Nat × Option Principal)} :
    (fun v => ∃ d, dup.map Prod.fst = some d ∧ v = f d) =
      (fun v => ∃ d c, dup = some (d, c) ∧ v = f d) := by
  funext v
  refine propext ⟨?_, ?_⟩
  · rintro ⟨d, h1, h2⟩
    obtain ⟨⟨d', c⟩, h3, rfl⟩ := Option.map_eq_some_iff.mp h1
    exact ⟨_, c, h3, h2⟩
  · rintro ⟨d, c, h1, h2⟩
    exact ⟨d, by rw [h1]; rfl, h2⟩

variable {s : State} {now : Nat} {r : Spec.Ref}

theorem judgeTransfer_eq (h : LSim s now r) (hi : LInv now s) (q : Spec.TransferReq)
    (dup : Option (Nat × Option Principal)) :
    Spec.judgeTransfer r (Spec.stored s) dup q = Spec.transferRules s now (dup.map Prod.fst) q := by
  unfold Spec.judgeTransfer Spec.transferRules Spec.spendable Spec.SelfOverflow
  rw [dupRule, h.balance hi, h.now]

theorem judgeApprove_eq (h : LSim s now r) (hi : LInv now s) (q : Spec.ApproveReq)
    (dup : Option (Nat × Option Principal)) :
    Spec.judgeApprove r (Spec.stored s) dup q = Spec.approveRules s now (dup.map Prod.fst) q := by
  unfold Spec.judgeApprove Spec.approveRules
  rw [dupRule, h.balance hi, h.now, icrc2Allowance_shown]

theorem judgeBurn_of (h : LSim s now r) (hi : LInv now s) {q : Spec.BurnReq} {to : Option Principal}
    {dup : Option (Nat × Option Principal)} {v : Option Spec.BurnError}
    (hf : Spec.FirstOf (Spec.burnRules s now (dup.map Prod.fst) q to) v)
    (hd : ∀ d c, v = some (.duplicate d c) → ∃ c', dup = some (d, c') ∧
      c = if to = none then some c' else none) :
    Spec.FirstOf (Spec.judgeBurn r (Spec.stored s) dup q to) v := by
  unfold Spec.burnRules Spec.spendable at hf
  unfold Spec.judgeBurn
  rw [h.balance hi, h.now]
  cases hf with
  | hit h1 => exact .hit h1
  | miss h1 hf =>
  refine .miss h1 ?_
  cases hf with
  | hit h1 => exact .hit h1
  | miss h1 hf =>
  refine .miss h1 ?_
  cases hf with
  | hit h1 => exact .hit h1
  | miss h1 hf =>
  refine .miss h1 ?_
  cases hf with
  | hit h1 =>
    obtain ⟨d, c, h1, rfl, _⟩ := h1
    obtain ⟨c', h2, h3⟩ := hd d c rfl
    exact .hit ⟨d, c', h2, by rw [h3]⟩
  | miss h1 hf =>
    refine .miss ?_ hf
    rintro v ⟨d, c, h2, h3⟩
    refine h1 (.duplicate d (if to = none then some c else none)) ⟨d, _, by rw [h2]; rfl, rfl, ?_⟩
    by_cases ht : to = none <;> simp [ht]

/-! ## Refunds -/

theorem allowanceBack_eq (h : LSim s now r) (hi : LInv now s) (p : Suspended) (sp : Account)
    (back : Nat) : r.allowanceBack p sp back = Spec.allowanceRefund s now p sp back := by
  unfold Spec.Ref.allowanceBack Spec.allowanceRefund
  rw [h.spendable hi, h.now]
  congr 2
  rcases h.stored hi p.frm sp with h1 | ⟨h1, a, e, h2, h3, h4⟩
  · rw [h1]
    cases r.granted p.frm sp <;> rfl
  · rw [h1, h2]
    simp only
    rw [if_neg (by omega)]

theorem repaid_of (h : LSim s now r) (hi : LInv now s) {s' : State} {kind : CallKind}
    {p : Suspended} {back : Nat} {fb ab : Option Nat} (hr : Refunded s s' now kind p back fb ab) :
    ∃ r', Spec.Repaid r kind p back r' fb ab ∧ LSim s' now r' ∧ r'.pending = r.pending ∧
      r'.cycles = r.cycles := by
  have hsup : ∀ {s1}, Effect now s s1 (Spec.refundTransaction kind p back) →
      r.supply + (back - 100000000) < 2 ^ 128 := by
    intro s1 he
    have h1 := he.inv.bound
    have h2 := he.supply
    rw [U128MAX_eq] at h1
    rw [h.supply hi]
    simp only [Spec.supplyDelta, mkBlock, Spec.refundTransaction] at h2
    omega
  have hlen : r.log.length = s.blocks.length := by rw [h.log]
  rcases hr with ⟨h1, rfl, rfl, rfl⟩ | ⟨h1, rfl, rfl, he, hno⟩ | ⟨h1, rfl, rfl, sp, s2, hra, he, he2⟩
  · exact ⟨r, .nothing h1, h, rfl, rfl⟩
  · rw [← hlen]
    exact ⟨_, .cycles h1 (hsup he) (by rw [h.now]; exact hno), h.append hi he, rfl, rfl⟩
  · rw [← hlen]
    refine ⟨_, .both (by rw [h.now]; exact hra) (hsup he) ?_, ?_, rfl, rfl⟩
    · rintro ⟨h2, h3⟩
      rw [h.now] at h2
      have hop := he2.op
      simp only [Spec.allowanceRefund, OpOk] at hop
      have hlast := hop.2.2.2.2.2.2.2
      rw [h3] at hlast
      cases hg : Spec.stored s p.frm sp with
      | none =>
        rw [hg] at hlast
        simp only [Option.getD_none, U64MAX_eq] at hlast
        omega
      | some v =>
        obtain ⟨a, e⟩ := v
        have := (hi.approvals _ a e hg).2.2.1
        rw [U64MAX_eq] at this
        rw [hg] at hlast
        simp only at hlast
        rw [if_neg (by omega)] at hlast
        simp only [Option.getD_none, U64MAX_eq] at hlast
        omega
    · rw [allowanceBack_eq h hi]
      exact (h.append hi he).append he.inv he2

theorem unpayable_of (h : LSim s now r) (hi : LInv now s) {kind : CallKind}
    {p : Suspended} {back : Nat} (hr : RefundTraps s now kind p back) :
    Spec.Unpayable r kind p back := by
  unfold Spec.Unpayable
  rw [h.supply hi, h.log, h.now]
  rcases hr with h1 | ⟨sp, h1, h2⟩
  · have hb := hi.bound
    rw [U128MAX_eq] at hb
    refine Or.inl ⟨?_, h1⟩
    by_cases hx : 100000000 < back
    · exact hx
    · omega
  · refine Or.inr ⟨sp, h1, ?_⟩
    rcases h2 with ⟨a, h2, h3, _⟩ | h2 | h2
    · left
      rcases h.stored hi p.frm sp with h4 | ⟨h4, _⟩
      · exact ⟨a, by rw [← h4, h2], h3⟩
      · rw [h4] at h2; cases h2
    · exact Or.inr (Or.inl h2)
    · rw [allowanceBack_eq h hi]
      exact Or.inr (Or.inr h2)

/-! ## Answers of failed burns -/

omit [Crypto] in
theorem undone_eq {kind : CallKind} {i : Nat} {fb ab fb' ab' : Option Nat} {c : RejectionCode}
    (h : Spec.failedBlocks (Spec.undone i fb' ab' c kind) = some (reported kind i fb ab)) :
    Spec.undone i fb' ab' c kind = Spec.undone i fb ab c kind := by
  cases kind <;> simp [Spec.undone, Spec.failedBlocks, reported] at h ⊢ <;> simp [h]

theorem finishWithdraw_undone {y : Sys} {s : State} {kind : CallKind} {p : Suspended}
    (e : CallError) (hk : kind = .withdraw ∨ kind = .withdrawFrom) :
    (finishWithdraw y s kind p (some e)).2 = .trapped ∨
    ∃ fb ab, (finishWithdraw y s kind p (some e)).2 =
      Spec.undone p.blockIndex fb ab (callErrorToReject e) kind := by
  unfold finishWithdraw
  rw [withdrawFinish_eq]
  generalize refund s p (satSub p.amount FEE) PENALIZE_MEMO (decide (p.amount > 2 * FEE)) y.now = r
  cases r with
  | none => left; rcases hk with rfl | rfl <;> rfl
  | some v => right; exact ⟨v.1, v.2.1, by rcases hk with rfl | rfl <;> rfl⟩

theorem finishCreate_undone {y : Sys} {s : State} {kind : CallKind} {p : Suspended} {res : CmcResult}
    {code : RejectionCode} {back : Nat}
    (hk : kind = .createCanister ∨ kind = .createCanisterFrom)
    (hr : createCanisterFinish s p res y.now = createFailed s p code back y.now) :
    (finishCreate y s kind p res).2 = .trapped ∨
    ∃ fb ab, (finishCreate y s kind p res).2 = Spec.undone p.blockIndex fb ab code kind := by
  unfold finishCreate
  rw [hr]
  unfold createFailed
  generalize refund s p (satSub back FEE) REFUND_MEMO (decide (satSub back FEE > FEE)) y.now = r
  cases r with
  | none => left; rcases hk with rfl | rfl <;> rfl
  | some v => right; exact ⟨v.1, v.2.1, by rcases hk with rfl | rfl <;> rfl⟩

/-! ## Messages -/

omit [Crypto] in
theorem commit_answers {ε α : Type} {y : Sys} {res : Res State ε α} {reply : Except ε α → Reply}
    {m : Msg} (h : ∀ x, Spec.Answers m (reply x)) :
    (y.commit res reply).2 = .trapped ∨ Spec.Answers m (y.commit res reply).2 := by
  cases res with
  | ok a s => exact Or.inr (h _)
  | err e s => exact Or.inr (h _)
  | trap => exact Or.inl rfl

theorem exec_answers {y : Sys} {m : Msg}
    (hm : Spec.transferRequest m ≠ none ∨ Spec.approveRequest m ≠ none ∨ Spec.burnRequest m ≠ none) :
    (y.exec m).2 = .trapped ∨ (y.exec m).2 = .suspended ∨ Spec.Answers m (y.exec m).2 := by
  have hc : ∀ {ε α : Type} {res : Res State ε α} {reply : Except ε α → Reply},
      (∀ x, Spec.Answers m (reply x)) → (y.commit res reply).2 = .trapped ∨
        (y.commit res reply).2 = .suspended ∨ Spec.Answers m (y.commit res reply).2 := by
    intro ε α res reply h
    rcases commit_answers (y := y) (res := res) h with h | h
    · exact Or.inl h
    · exact Or.inr (Or.inr h)
  cases m with
  | transfer c a => exact hc (fun _ => trivial)
  | transferFrom c a => exact hc (fun _ => trivial)
  | approve c a => exact hc (fun _ => trivial)
  | withdraw c a sync =>
    simp only [Sys.exec, sendWithdraw]
    split
    · exact Or.inl rfl
    · exact hc (fun _ => trivial)
    · split
      · exact Or.inr (Or.inl rfl)
      · exact hc (fun _ => trivial)
  | withdrawFrom c a sync =>
    simp only [Sys.exec, sendWithdraw]
    split
    · exact Or.inl rfl
    · exact hc (fun _ => trivial)
    · split
      · exact Or.inr (Or.inl rfl)
      · exact hc (fun _ => trivial)
  | createCanister c a sync =>
    simp only [Sys.exec, sendCreate]
    split
    · exact Or.inl rfl
    · exact hc (fun _ => trivial)
    · split
      · exact Or.inr (Or.inl rfl)
      · exact hc (fun _ => trivial)
  | createCanisterFrom c a sync =>
    simp only [Sys.exec, sendCreate]
    split
    · exact Or.inl rfl
    · exact hc (fun _ => trivial)
    · split
      · exact Or.inr (Or.inl rfl)
      · exact hc (fun _ => trivial)
  | _ => simp [Spec.transferRequest, Spec.approveRequest, Spec.burnRequest] at hm

/-- A failed burn of this message, with the code that goes with the error. -/
theorem exec_undone {y : Sys} {m : Msg} {q : Spec.BurnReq} {to : Option Principal} {e : CallError}
    (hm : Spec.burnRequest m = some (q, to)) (hs : Spec.syncOf m = some e) (hi : SInv y)
    (hb : Spec.burnError (y.exec m).2 = none) (hnt : (y.exec m).2 ≠ .trapped) :
    ∃ i fb ab, (y.exec m).2 = Spec.undone i fb ab (callErrorToReject e) (Spec.kindOf m) := by
  cases m with
  | withdraw c a sync =>
    simp only [Spec.syncOf] at hs
    subst hs
    have hcl := executeWithdraw_class hi.ledger ⟨⟨c, a.fromSubaccount⟩, none, a.amount,
      opt64 a.createdAtTime⟩ a.to (opt64_le _)
    simp only [Sys.exec, sendWithdraw] at hnt hb hcl ⊢
    generalize executeWithdraw _ _ _ _ _ _ _ = res at hnt hb hcl ⊢
    cases res with
    | ok p s =>
      rcases finishWithdraw_undone (y := y) (s := s) (p := p) e (Or.inl rfl) with h | ⟨fb, ab, h⟩
      · exact absurd h hnt
      · exact ⟨_, fb, ab, h⟩
    | err e s =>
      cases e <;> first
        | exact absurd hcl.2.1 id
        | (simp [Sys.commit, Res.mapErr, withdrawFromErrorToWithdrawError, Spec.burnError] at hb)
      · obtain ⟨_, ⟨sp, hsp, _⟩, _⟩ := hcl
        cases hsp.1
      · exact absurd hcl.2.1.1 hb
    | trap => exact absurd rfl hnt
  | withdrawFrom c a sync =>
    simp only [Spec.syncOf] at hs
    subst hs
    have hcl := executeWithdraw_class hi.ledger ⟨a.frm, some ⟨c, a.spenderSubaccount⟩, a.amount,
      opt64 a.createdAtTime⟩ a.to (opt64_le _)
    simp only [Sys.exec, sendWithdraw] at hnt hb hcl ⊢
    generalize executeWithdraw _ _ _ _ _ _ _ = res at hnt hb hcl ⊢
    cases res with
    | ok p s =>
      rcases finishWithdraw_undone (y := y) (s := s) (p := p) e (Or.inr rfl) with h | ⟨fb, ab, h⟩
      · exact absurd h hnt
      · exact ⟨_, fb, ab, h⟩
    | err e s =>
      cases e <;> first
        | exact absurd hcl.2.1 id
        | (simp [Sys.commit, Spec.burnError] at hb)
      · exact absurd hcl.2.1.1 hb
    | trap => exact absurd rfl hnt
  | createCanister c a sync =>
    simp only [Spec.syncOf] at hs
    subst hs
    have hcl := executeCreateCanister_class hi.ledger ⟨⟨c, a.fromSubaccount⟩, none, a.amount,
      opt64 a.createdAtTime⟩ (opt64_le _)
    simp only [Sys.exec, sendCreate] at hnt hb hcl ⊢
    generalize executeCreateCanister _ _ _ _ _ _ = res at hnt hb hcl ⊢
    cases res with
    | ok p s =>
      rcases finishCreate_undone (y := y) (s := s) (p := p) (Or.inl rfl)
        ((createCanisterFinish_failed s p y.now).2.2 e) with h | ⟨fb, ab, h⟩
      · exact absurd h hnt
      · exact ⟨_, fb, ab, h⟩
    | err e s =>
      cases e <;> first
        | exact absurd hcl.2.1 id
        | (simp [Sys.commit, Res.mapErr, createFromErrorToCreateError, Spec.burnError] at hb)
      · obtain ⟨_, ⟨sp, hsp, _⟩, _⟩ := hcl
        cases hsp.1
    | trap => exact absurd rfl hnt
  | createCanisterFrom c a sync =>
    simp only [Spec.syncOf] at hs
    subst hs
    have hcl := executeCreateCanister_class hi.ledger ⟨a.frm, some ⟨c, a.spenderSubaccount⟩, a.amount,
      opt64 a.createdAtTime⟩ (opt64_le _)
    simp only [Sys.exec, sendCreate] at hnt hb hcl ⊢
    generalize executeCreateCanister _ _ _ _ _ _ = res at hnt hb hcl ⊢
    cases res with
    | ok p s =>
      rcases finishCreate_undone (y := y) (s := s) (p := p) (Or.inr rfl)
        ((createCanisterFinish_failed s p y.now).2.2 e) with h | ⟨fb, ab, h⟩
      · exact absurd h hnt
      · exact ⟨_, fb, ab, h⟩
    | err e s =>
      cases e <;> first
        | exact absurd hcl.2.1 id
        | (simp [Sys.commit, Spec.burnError] at hb)
    | trap => exact absurd rfl hnt
  | _ => simp [Spec.burnRequest] at hm

omit [Crypto] in
theorem usesUntil_of [Crypto] (h : LSim s now r) (hi : LInv now s) {q : Spec.BurnReq} {old : Option Nat}
    (he : ExpiryFrom s q.frm q.spender now old) : Spec.UsesUntil r q old := by
  unfold ExpiryFrom at he
  split at he
  · rename_i hc
    subst he
    refine .own ?_
    rintro sp ⟨h1, h2⟩
    rw [h1] at hc
    unfold chargedSpender at hc
    simp only at hc
    split at hc
    · rename_i h3
      rw [sameAccount_iff] at h2
      simp only [Account.same, decide_eq_true_eq] at h3
      exact h2 h3
    · cases hc
  · rename_i x hc
    obtain ⟨a, e, hg, h1, rfl⟩ := he
    have hb : Spec.OnBehalf q.frm q.spender x := by
      unfold chargedSpender at hc
      split at hc
      · cases hc
      · rename_i sp hsp
        split at hc
        · cases hc
        · rename_i h3
          cases hc
          refine ⟨hsp, ?_⟩
          rw [sameAccount_iff]
          simpa [Account.same] using h3
    have hgr : r.granted q.frm x = some (a, e) := by
      rcases h.stored hi q.frm x with h4 | ⟨h4, _⟩
      · rw [← h4]; exact hg
      · unfold Spec.stored at h4; rw [h4] at hg; cases hg
    unfold oldExpiry
    split
    · rename_i hpos
      exact .until hb hgr hpos
    · rename_i hpos
      have : e = 0 := by omega
      subst this
      exact .ever hb hgr

omit [Crypto] in
theorem callsFor_of {m : Msg} {q : Spec.BurnReq} {to : Option Principal}
    (hm : Spec.burnRequest m = some (q, to)) : Spec.CallsFor m (callOf m) := by
  cases m with
  | withdraw c a s => exact .withdraw rfl
  | withdrawFrom c a s => exact .withdrawFrom rfl
  | createCanister c a s => exact .create rfl (cmcArgument_spec _ _)
  | createCanisterFrom c a s => exact .createFrom rfl (cmcArgument_spec _ _)
  | _ => simp [Spec.burnRequest] at hm

omit [Crypto] in
theorem callOf_cycles {m : Msg} {q : Spec.BurnReq} {to : Option Principal}
    (hm : Spec.burnRequest m = some (q, to)) : (callOf m).cycles = q.amount := by
  cases m <;> simp [Spec.burnRequest] at hm <;> (obtain ⟨rfl, _⟩ := hm; rfl)

theorem exec_callback_done {y : Sys} {i : Nat} {p : Pending} {ans : Answer}
    (hp : y.pending[i]? = some p) (hf : Spec.Fits p ans) (hr : Spec.returned p ans = none) :
    Spec.Done p.data.blockIndex p.kind ans (y.exec (.callback i ans)).2 := by
  have h3 := (exec_callback_ok hp hf hr).2.2
  have hans := (exec_callback_ok hp hf hr).2.1
  obtain ⟨kind, d, call⟩ := p
  cases ans with
  | depositCycles o =>
    cases o with
    | some code => simp [Spec.returned] at hr
    | none =>
      rcases hf with hf | hf <;> simp only at hf <;> subst hf <;> simp only [Sys.exec, hp]
      · exact .withdraw
      · exact .withdrawFrom
  | cmc o refund =>
    cases o with
    | created c =>
      have hco : ∀ s : State, ∃ s', createCanisterFinish s d (.created c) y.now =
          .ok (d.blockIndex, c) s' := by
        intro s
        refine ⟨noteCanister s d (.cmc (.created c) refund), ?_⟩
        simp only [createCanisterFinish, Transaction.hash_eq_some, noteCanister]
      obtain ⟨s', hs'⟩ := hco y.ledger
      rcases hf with hf | hf <;> simp only at hf <;> subst hf <;>
        simp only [Sys.exec, hp, finishCreate, hs']
      · exact .create
      · exact .createFrom
    | refunded amt => simp [Spec.returned] at hr
    | refundFailed => simp [Spec.returned] at hr
    | callError e => simp [Spec.returned] at hr

theorem exec_callback_undone {y : Sys} {i : Nat} {p : Pending} {ans : Answer} {back : Nat}
    (hp : y.pending[i]? = some p) (hf : Spec.Fits p ans) (hr : Spec.returned p ans = some back) :
    (y.exec (.callback i ans)).2 = .trapped ∨ ∃ fb ab c, Spec.FailsWith ans c ∧
      (y.exec (.callback i ans)).2 = Spec.undone p.data.blockIndex fb ab c p.kind := by
  obtain ⟨kind, d, call⟩ := p
  cases ans with
  | depositCycles o =>
    cases o with
    | none => simp [Spec.returned] at hr
    | some code =>
      have hk := hf
      simp only [Spec.Fits] at hk
      have hx : (y.exec (.callback i (.depositCycles (some code)))) =
          finishWithdraw (answered y i ⟨kind, d, call⟩ (.depositCycles (some code))) y.ledger kind d
            (some code) := by
        rcases hk with rfl | rfl <;> simp only [Sys.exec, hp] <;> rfl
      rw [hx]
      rcases finishWithdraw_undone (s := y.ledger) (p := d)
        (y := answered y i ⟨kind, d, call⟩ (.depositCycles (some code))) code hk with h | ⟨fb, ab, h⟩
      · exact Or.inl h
      · exact Or.inr ⟨fb, ab, _, .deposit (explains_reject code), h⟩
  | cmc o refund =>
    have hk := hf
    simp only [Spec.Fits] at hk
    have hx : (y.exec (.callback i (.cmc o refund))) =
        finishCreate (answered y i ⟨kind, d, call⟩ (.cmc o refund)) y.ledger kind d o := by
      rcases hk with rfl | rfl <;> simp only [Sys.exec, hp] <;> rfl
    have hcode : ∃ c b, Spec.FailsWith (.cmc o refund) c ∧ createCanisterFinish y.ledger d o
        (answered y i ⟨kind, d, call⟩ (.cmc o refund)).now =
          createFailed y.ledger d c b (answered y i ⟨kind, d, call⟩ (.cmc o refund)).now := by
      have := createCanisterFinish_failed y.ledger d
        (answered y i ⟨kind, d, call⟩ (.cmc o refund)).now
      cases o with
      | created c => simp [Spec.returned] at hr
      | refunded amt => exact ⟨_, _, .refunded, this.1 amt⟩
      | refundFailed => exact ⟨_, _, .refundFailed, this.2.1⟩
      | callError e => exact ⟨_, _, .call (explains_reject e), this.2.2 e⟩
    obtain ⟨c, b, hc, hcf⟩ := hcode
    rw [hx]
    rcases finishCreate_undone hk hcf with h | ⟨fb, ab, h⟩
    · exact Or.inl h
    · exact Or.inr ⟨fb, ab, c, hc, h⟩

theorem Sim.answered {y : Sys} {r : Spec.Ref} (h : Sim y r) (i : Nat) (p : Pending) (ans : Answer) :
    Sim (CyclesLedger.answered y i p ans) (r.answered i p ans) where
  ledger := ⟨h.ledger.log, h.ledger.now, h.ledger.limit, h.ledger.index, h.ledger.fresh,
    h.ledger.made⟩
  pending := by
    simp only [Spec.Ref.answered, CyclesLedger.answered]
    rw [h.pending]
  cycles := by
    simp only [Spec.Ref.answered, CyclesLedger.answered]
    rw [h.cycles]
    cases ans with
    | depositCycles o => cases o <;> simp
    | cmc o refund => rfl

theorem LSim.note (h : LSim s now r) (hi : LInv now s) {p : Suspended} (hp : PendOk s p)
    (ans : Answer) : LSim (noteCanister s p ans) now (r.note p.blockIndex ans) := by
  have hsame : (noteCanister s p ans).blocks = s.blocks ∧
      (noteCanister s p ans).config = s.config := by
    unfold noteCanister
    split
    · split <;> exact ⟨rfl, rfl⟩
    · exact ⟨rfl, rfl⟩
  have hr : (r.note p.blockIndex ans).log = r.log ∧ (r.note p.blockIndex ans).now = r.now ∧
      (r.note p.blockIndex ans).limit = r.limit ∧ (r.note p.blockIndex ans).index = r.index := by
    unfold Spec.Ref.note
    split <;> exact ⟨rfl, rfl, rfl, rfl⟩
  obtain ⟨b, hb, hbt⟩ := hp.block
  have hlt : p.blockIndex < s.blocks.length := (List.getElem?_eq_some_iff.mp hb).1
  refine ⟨by rw [hr.1, hsame.1, h.log], by rw [hr.2.1, h.now], by rw [hr.2.2.1, hsame.2, h.limit],
    by rw [hr.2.2.2, hsame.2, h.index], ?_, ?_⟩
  · rw [hsame.1]
    intro j hj
    unfold Spec.Ref.note
    split
    · simp only
      rw [if_neg (by omega)]
      exact h.fresh j hj
    · exact h.fresh j hj
  · rw [hsame.1]
    by_cases hc : Spec.Collision (s.blocks.map Block.transaction)
    · exact Or.inl hc
    right
    have hm := h.made.resolve_left hc
    obtain ⟨hh, hone⟩ := hi.hashInv hc
    intro k j x hg
    unfold noteCanister at hg
    unfold Spec.Ref.note
    split at hg
    · rename_i c n
      simp only
      split at hg
      · rename_i hcon
        simp only [SMap.get_insert] at hg
        split at hg
        · simp only [Option.some.injEq, Prod.mk.injEq] at hg
          obtain ⟨rfl, rfl⟩ := hg
          rw [if_pos rfl]
        · rename_i hne
          rw [if_neg]
          · exact hm _ _ _ hg
          · rintro rfl
            obtain ⟨b', t, hb', hk, _⟩ := hh.hash _ _ _ hg
            rw [hb] at hb'
            cases hb'
            rw [hbt] at hk
            exact hne hk
      · rename_i hcon
        rw [if_neg]
        · exact hm _ _ _ hg
        · rintro rfl
          obtain ⟨b', t, hb', hk, _⟩ := hh.hash _ _ _ hg
          rw [hb] at hb'
          cases hb'
          rw [hbt] at hk
          refine hcon ?_
          unfold SMap.contains
          rw [hk, hg]
          rfl
    · rename_i hno
      split
      · rename_i c n
        exact absurd rfl (hno c n)
      · exact hm _ _ _ hg

/-- Every message does what the reference ledger does. -/
theorem Sim.step {y : Sys} {r : Spec.Ref} (h : Sim y r) (hi : SInv y) (m : Msg) :
    ∃ r', Spec.Step r m r' (y.exec m).2 ∧ Sim (y.exec m).1 r' := by
  have hlen : r.log.length = y.ledger.blocks.length := by rw [h.ledger.log]
  by_cases ht : ∃ q, Spec.transferRequest m = some q
  · obtain ⟨q, hm⟩ := ht
    have hans := exec_answers (y := y) (m := m) (Or.inl (by rw [hm]; simp))
    have hr := exec_transfer_rules hi hm
    rw [tableDup, ← judgeTransfer_eq h.ledger hi.ledger] at hr
    have hrec := h.ledger.recalls hi.ledger
    have hrt := h.ledger.recallsTx hi.ledger q.transaction
    rcases exec_transfer hi hm with ⟨s', h1, h2, h3, h4, he, _⟩ | ⟨e, h1, h2, h3, h4, _⟩ | ⟨h1, _⟩
    · rw [Spec.transferVerdict, if_neg h4, h3] at hr
      have ha : Spec.Answers m (y.exec m).2 := by
        rcases hans with h5 | h5 | h5
        · exact absurd h5 h4
        · rw [h5] at h2; cases h2
        · exact h5
      refine ⟨_, .transfer hm hrec hrt hr ha (by rw [h2, hlen]), ?_⟩
      rw [h1]
      exact ⟨h.ledger.append hi.ledger he, h.pending, h.cycles⟩
    · rw [Spec.transferVerdict, if_neg h4, h3] at hr
      have ha : Spec.Answers m (y.exec m).2 := by
        rcases hans with h5 | h5 | h5
        · exact absurd h5 h4
        · rw [h5] at h3; cases h3
        · exact h5
      refine ⟨_, .transferRefused hm hrec hrt hr ha h3, ?_⟩
      rw [h1]
      exact h
    · rw [h1] at hr ⊢
      exact ⟨_, .transferTrap hm hrec hrt hr, h⟩
  by_cases ht : ∃ q, Spec.approveRequest m = some q
  · obtain ⟨q, hm⟩ := ht
    have hans := exec_answers (y := y) (m := m) (Or.inr (Or.inl (by rw [hm]; simp)))
    have hr := exec_approve_rules hi hm
    rw [tableDup, ← judgeApprove_eq h.ledger hi.ledger] at hr
    have hrec := h.ledger.recalls hi.ledger
    have hrt := h.ledger.recallsTx hi.ledger q.transaction
    rcases exec_approve hi hm with ⟨s', h1, h2, h3, h4, he, _⟩ | ⟨e, h1, h2, h3, h4, _⟩ | ⟨h1, _⟩
    · rw [Spec.approveVerdict, if_neg h4, h3] at hr
      have ha : Spec.Answers m (y.exec m).2 := by
        rcases hans with h5 | h5 | h5
        · exact absurd h5 h4
        · rw [h5] at h2; cases h2
        · exact h5
      refine ⟨_, .approve hm hrec hrt hr ha (by rw [h2, hlen]), ?_⟩
      rw [h1]
      exact ⟨h.ledger.append hi.ledger he, h.pending, h.cycles⟩
    · rw [Spec.approveVerdict, if_neg h4, h3] at hr
      have ha : Spec.Answers m (y.exec m).2 := by
        rcases hans with h5 | h5 | h5
        · exact absurd h5 h4
        · rw [h5] at h3; cases h3
        · exact h5
      refine ⟨_, .approveRefused hm hrec hrt hr ha h3, ?_⟩
      rw [h1]
      exact h
    · rw [h1] at hr ⊢
      exact ⟨_, .approveTrap hm hrec hrt hr, h⟩
  by_cases ht : ∃ q to, Spec.burnRequest m = some (q, to)
  · obtain ⟨q, to, hm⟩ := ht
    have hans := exec_answers (y := y) (m := m) (Or.inr (Or.inr (by rw [hm]; simp)))
    have hr := exec_burn_rules hi hm
    rw [tableDup] at hr
    have hrec := h.ledger.recalls hi.ledger
    have hrt := h.ledger.recallsTx hi.ledger (q.transaction to)
    rcases exec_burn hi hm with ⟨s1, p, he, _, _, _, ⟨old, hp, hold⟩, hpo, hx⟩ | ⟨e, h1, h2, h3, h4, h5, _, _, hd⟩
    · have hnb : Spec.burnError (y.exec m).2 = none := by
        rcases hx with ⟨_, hx⟩ | ⟨_, ⟨hx, _⟩ | ⟨_, _, _, _, _, _, hx, _⟩⟩
        · rw [hx]; rfl
        · rw [hx]; rfl
        · exact hx
      rw [hnb] at hr
      have hj := judgeBurn_of h.ledger hi.ledger hr (fun d c hdc => by cases hdc)
      have hu := usesUntil_of h.ledger hi.ledger hold
      have hl1 := h.ledger.append hi.ledger he
      rcases hx with ⟨hs, hx⟩ | ⟨hs, hx⟩
      · rw [hx]
        refine ⟨_, .burn hm hrec hrt hj hu hs (callsFor_of hm), ?_⟩
        refine ⟨⟨hl1.log, hl1.now, hl1.limit, hl1.index, hl1.fresh, hl1.made⟩, ?_, ?_⟩
        · simp only [sent]
          rw [h.pending, hp, hlen]
        · simp only [sent]
          rw [h.cycles, callOf_cycles hm]
      · obtain ⟨e, hs⟩ := Option.ne_none_iff_exists'.mp hs
        have hp' : p = ⟨q.frm, q.spender, q.amount, r.log.length, old, q.transaction to⟩ := by
          rw [hp, hlen]
        rcases hx with ⟨hx, htr⟩ | ⟨fb, ab, s', hx, hre, _, _, hnt, _, hfb⟩
        · rw [hx]
          have := unpayable_of hl1 he.inv htr
          rw [hp'] at this
          exact ⟨_, .burnTrap hm hrec hrt hj hu hs this, h⟩
        · obtain ⟨r', hrep, hl2, hpend, hcyc⟩ := repaid_of hl1 he.inv hre
          obtain ⟨i, fb', ab', hun⟩ := exec_undone hm hs hi hnb hnt
          have hi' : i = p.blockIndex ∨ Spec.kindOf m = .withdraw := by
            rw [hun] at hfb
            revert hfb
            cases Spec.kindOf m <;> simp [Spec.undone, Spec.failedBlocks, reported] <;>
              (intros; assumption)
          have hun2 : (y.exec m).2 =
              Spec.undone p.blockIndex fb' ab' (callErrorToReject e) (Spec.kindOf m) := by
            rcases hi' with h6 | h6
            · rw [hun, h6]
            · rw [hun, h6]; rfl
          rw [hun2] at hfb
          rw [hun2, undone_eq hfb]
          rw [hp'] at hrep ⊢
          refine ⟨r', .burnNotSent hm hrec hrt hj hu hs (explains_reject e) hrep, ?_⟩
          rw [hx]
          exact ⟨hl2, hpend.trans h.pending, hcyc.trans h.cycles⟩
    · rw [h3] at hr
      have hj := judgeBurn_of h.ledger hi.ledger hr (fun d c hdc => by
        cases hdc
        obtain ⟨c', h6, h7⟩ := hd d c rfl
        refine ⟨c', h6, ?_⟩
        have hcn : (c = none ↔ to ≠ none) := by
          have := hr
          unfold Spec.burnRules at this
          cases this with
          | hit h => cases h.2
          | miss _ this =>
          cases this with
          | hit h => obtain ⟨_, _, _, h⟩ := h; cases h
          | miss _ this =>
          cases this with
          | hit h => cases h.2
          | miss _ this =>
          cases this with
          | hit h =>
            obtain ⟨d', c'', _, h8, h9⟩ := h
            cases h8
            exact h9
          | miss hno _ =>
            exfalso
            refine hno (.duplicate d (if to = none then some c' else none)) ⟨d, _, by rw [h6]; rfl,
              rfl, ?_⟩
            by_cases ht : to = none <;> simp [ht]
        by_cases ht : to = none
        · rw [if_pos ht]
          rcases h7 with h7 | ⟨h7, _⟩
          · exact h7
          · exact absurd ht (hcn.mp h7)
        · rw [if_neg ht]
          exact hcn.mpr ht)
      have ha : Spec.Answers m (y.exec m).2 := by
        rcases hans with h6 | h6 | h6
        · exact absurd h6 h4
        · exact absurd h6 h5
        · exact h6
      refine ⟨_, .burnRefused hm hrec hrt hj ha h3, ?_⟩
      rw [h1]
      exact h
  cases m with
  | deposit c n arg =>
    rcases exec_deposit hi c n arg with ⟨s', hx, he, h1, h2, h3⟩ | ⟨hx, h1⟩
    · have hl := h.ledger.append hi.ledger he
      rw [hx, ← hl.balance he.inv, ← hlen]
      refine ⟨_, .deposit h1 h2 (by rw [h.ledger.supply hi.ledger]; exact h3) rfl, ?_⟩
      refine ⟨⟨hl.log, hl.now, hl.limit, hl.index, hl.fresh, hl.made⟩, h.pending, ?_⟩
      simp only
      rw [h.cycles]
    · rw [hx]
      exact ⟨_, .depositRefused (by rw [h.ledger.supply hi.ledger]; exact h1), h⟩
  | callback i ans =>
    by_cases hp : ∃ p, y.pending[i]? = some p ∧ Spec.Fits p ans
    · obtain ⟨p, hp, hf⟩ := hp
      have hp' : r.pending[i]? = some p := by rw [h.pending]; exact hp
      have hpo := hi.pending p (List.mem_of_getElem? hp)
      have ha := h.answered i p ans
      cases hr : Spec.returned p ans with
      | none =>
        refine ⟨_, .callback hp' (exec_callback_done hp hf hr), ?_⟩
        rw [(exec_callback_ok hp hf hr).1]
        refine ⟨ha.ledger.note hi.ledger hpo ans, ?_, ?_⟩
        · rw [← ha.pending]
          unfold Spec.Ref.note
          split <;> rfl
        · show _ = (CyclesLedger.answered y i p ans).cycles
          rw [← ha.cycles]
          unfold Spec.Ref.note
          split <;> rfl
      | some back =>
        rcases exec_callback_failed hi hp hf hr with ⟨hx, htr⟩ | ⟨fb, ab, s', hx, hre, _, _, hnt, _, hfb⟩
        · rw [hx]
          exact ⟨_, .callbackTrap hp' hf hr (unpayable_of ha.ledger hi.ledger htr), ha⟩
        · obtain ⟨r', hrep, hl2, hpend, hcyc⟩ := repaid_of ha.ledger hi.ledger hre
          rcases exec_callback_undone hp hf hr with h5 | ⟨fb', ab', c, hc, hun⟩
          · exact absurd h5 hnt
          · rw [hun] at hfb
            rw [hun, undone_eq hfb]
            refine ⟨r', .callbackFailed hp' hf hr hc hrep, ?_⟩
            rw [hx]
            exact ⟨hl2, hpend.trans ha.pending, hcyc.trans ha.cycles⟩
    · have hno : ∀ p, y.pending[i]? = some p → ¬Spec.Fits p ans := fun p h1 h2 => hp ⟨p, h1, h2⟩
      rw [exec_callback_none hno]
      exact ⟨_, .noCallback (by rw [h.pending]; exact hno), h⟩
  | lostCallback i =>
    refine ⟨_, .lostCallback, ⟨h.ledger.log, h.ledger.now, h.ledger.limit, h.ledger.index,
      h.ledger.fresh, h.ledger.made⟩, ?_, h.cycles⟩
    simp only [Sys.exec]
    rw [h.pending]
  | upgrade arg =>
    have hsame : Sim { y with ledger := reload y.ledger } r :=
      ⟨⟨h.ledger.log, h.ledger.now, h.ledger.limit, h.ledger.index, h.ledger.fresh, h.ledger.made⟩,
        h.pending, h.cycles⟩
    cases arg with
    | none => exact ⟨_, .upgrade (Or.inl rfl), hsame⟩
    | init c => exact ⟨_, .reinstall, h⟩
    | upgrade u =>
      cases u with
      | none => exact ⟨_, .upgrade (Or.inr rfl), hsame⟩
      | some u =>
        refine ⟨_, .reconfigure, ⟨h.ledger.log, h.ledger.now, ?_, ?_, h.ledger.fresh, h.ledger.made⟩,
          h.pending, h.cycles⟩
        · obtain ⟨a, b⟩ := u
          simp only [Sys.exec, postUpgrade, Spec.Ref.reconfigured, applyUpgradeArgs]
          have h1 := h.ledger.limit
          have h2 : (reload y.ledger).config = y.ledger.config := rfl
          rw [h2]
          cases a <;> rcases b with _ | _ | _ <;> simp <;> exact h1
        · obtain ⟨a, b⟩ := u
          simp only [Sys.exec, postUpgrade, Spec.Ref.reconfigured, applyUpgradeArgs]
          have h1 := h.ledger.index
          have h2 : (reload y.ledger).config = y.ledger.config := rfl
          rw [h2]
          cases a <;> rcases b with _ | _ | _ <;> simp <;> exact h1
  | transfer c a => exact absurd ⟨_, rfl⟩ ‹¬∃ q, Spec.transferRequest _ = some q›
  | transferFrom c a => exact absurd ⟨_, rfl⟩ ‹¬∃ q, Spec.transferRequest _ = some q›
  | approve c a => exact absurd ⟨_, rfl⟩ ‹¬∃ q, Spec.approveRequest _ = some q›
  | withdraw c a s => exact absurd ⟨_, _, rfl⟩ ht
  | withdrawFrom c a s => exact absurd ⟨_, _, rfl⟩ ht
  | createCanister c a s => exact absurd ⟨_, _, rfl⟩ ht
  | createCanisterFrom c a s => exact absurd ⟨_, _, rfl⟩ ht

end CyclesLedger
