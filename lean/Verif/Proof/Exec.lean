import Verif.Proof.Results
import Verif.Proof.PruneExact
/-!
# What one message does, in terms of requests and replies
-/
namespace CyclesLedger

variable [Crypto]

/-! ## Collisions -/

theorem Spec.Collision.mono {ts ts' : List Transaction} (h : Spec.Collision ts)
    (hsub : ∀ t ∈ ts, t ∈ ts') : Spec.Collision ts' := by
  obtain ⟨a, ha, b, hb, h1, h2⟩ := h
  exact ⟨a, hsub a ha, b, hsub b hb, h1, h2⟩

theorem logCollision_iff (bs : List Block) :
    LogCollision bs ↔ Spec.Collision (bs.map Block.transaction) := by
  constructor
  · rintro ⟨b, hb, b', hb', h1, h2⟩
    exact ⟨_, List.mem_map_of_mem hb, _, List.mem_map_of_mem hb', h1, by
      rw [Transaction.hash_eq_some, Transaction.hash_eq_some, h2]⟩
  · rintro ⟨a, ha, b, hb, h1, h2⟩
    obtain ⟨x, hx, rfl⟩ := List.mem_map.mp ha
    obtain ⟨z, hz, rfl⟩ := List.mem_map.mp hb
    rw [Transaction.hash_eq_some, Transaction.hash_eq_some, Option.some.injEq] at h2
    exact ⟨x, hx, z, hz, h1, h2⟩

/-- Without collisions the deduplication tables are right. -/
theorem LInv.hashInv {now : Nat} {s : State} (hi : LInv now s)
    (hn : ¬Spec.Collision (s.blocks.map Block.transaction)) : HashInv now s ∧ OnceInLog s.blocks :=
  hi.dedup.resolve_left (fun h => hn ((logCollision_iff _).mp h))

theorem Spec.NoClash.log {s : State} {t : Transaction} (h : Spec.NoClash s t) :
    ¬Spec.Collision (s.blocks.map Block.transaction) :=
  fun hc => h (hc.mono (fun _ hx => List.mem_cons_of_mem _ hx))

/-- A hit in the table is a block with exactly this transaction. -/
theorem table_hit {now : Nat} {s : State} (hi : LInv now s) {t : Transaction}
    (hn : Spec.NoClash s t) {i : Nat} {c : Option Principal}
    (h : s.transactionHashes.get t.hash! = some (i, c)) :
    ∃ b, s.blocks[i]? = some b ∧ b.transaction = t ∧ t.createdAtTime.isSome := by
  obtain ⟨b, ts, hb, hh, hc, _⟩ := (hi.hashInv hn.log).1.hash _ _ _ h
  have : b.transaction = t := by
    refine Classical.byContradiction fun hne => hn ⟨b.transaction, ?_, t, by simp, hne, ?_⟩
    · exact List.mem_cons_of_mem _ (List.mem_map_of_mem (List.mem_of_getElem? hb))
    · rw [Transaction.hash_eq_some, Transaction.hash_eq_some, hh]
  exact ⟨b, hb, this, by rw [← this, hc]; rfl⟩

/-! ## The effect of one recorded transaction -/

/-- One block with transaction `t` was added; balances, supply and allowances changed
as the block says, but for allowances that have expired. -/
structure Effect (now : Nat) (s s' : State) (t : Transaction) : Prop where
  blocks : s'.blocks = s.blocks ++ [mkBlock s t now]
  config : s'.config = s.config
  bal : ∀ a, (balanceOf s' a : Int) = balanceOf s a + Spec.delta (mkBlock s t now) a.key
  supply : (s'.cache.totalSupply : Int) = s.cache.totalSupply + Spec.supplyDelta (mkBlock s t now)
  allow : ∀ k, s'.approvals.get k = Spec.allowStep s.approvals.get (mkBlock s t now) k ∨
    (s'.approvals.get k = none ∧ ∃ a e,
      Spec.allowStep s.approvals.get (mkBlock s t now) k = some (a, e) ∧ 0 < e ∧ e ≤ now)
  spend : ∀ key x, Spec.spends (mkBlock s t now) = some (key, x) →
    ∃ a e, s.approvals.get key = some (a, e) ∧ x ≤ a ∧ (e = 0 ∨ now < e)
  op : OpOk now t.operation
  inv : LInv now s'
  keep : ¬Spec.Collision (s'.blocks.map Block.transaction) → ∀ h i c b ts,
    s.transactionHashes.get h = some (i, c) → s.blocks[i]? = some b →
    b.transaction.createdAtTime = some ts → isBeforeTransactionWindow ts now = false →
    s'.transactionHashes.get h = some (i, c)
  entries : ¬Spec.Collision (s'.blocks.map Block.transaction) → ∀ h i c,
    s'.transactionHashes.get h = some (i, c) →
    s.transactionHashes.get h = some (i, c) ∨ (i = s.blocks.length ∧ c = none)

theorem Appended.effect {now : Nat} {s s1 : State} {t : Transaction} (hi : LInv now s)
    (ha : Appended now s s1 t) : Effect now s s1 t where
  blocks := ha.blocks
  config := ha.config
  bal a := ha.bal a.key
  supply := ha.supply
  allow k := Or.inl (ha.allow k)
  spend := ha.spend
  op := ha.op
  inv := hi.append ha
  keep := by
    intro _ h i c b ts hg _ _ _
    rw [ha.hashes]
    unfold pushBlock
    simp only
    split
    · exact hg
    · rename_i ts' hts
      simp only [SMap.get_insert]
      rw [if_neg]
      · exact hg
      · intro heq
        have := ha.fresh (by simp only [mkBlock] at hts; rw [hts]; rfl)
        rw [← heq] at hg
        simp only [mkBlock] at hg
        rw [this] at hg
        cases hg
  entries := by
    intro _ h i c hg
    rw [ha.hashes] at hg
    unfold pushBlock at hg
    simp only at hg
    split at hg
    · exact Or.inl hg
    · simp only [SMap.get_insert] at hg
      split at hg
      · simp only [Option.some.injEq, Prod.mk.injEq] at hg
        exact Or.inr ⟨hg.1.symm, hg.2.symm⟩
      · exact Or.inl hg

theorem Effect.prune {now : Nat} {s s1 : State} {t : Transaction} (h : Effect now s s1 t) :
    Effect now s (prune now s1) t := by
  have hp := prune_spec (now := now) h.inv.queue
  refine
    { blocks := by rw [hp.blocks, h.blocks]
      config := by rw [hp.config, h.config]
      bal := fun a => by rw [← h.bal a]; unfold balanceOf; rw [hp.balances]
      supply := by rw [hp.cache, h.supply]
      allow := ?_
      spend := h.spend
      op := h.op
      inv := h.inv.prune
      keep := ?_
      entries := ?_ }
  rotate_left
  rotate_left
  · intro hn x i c hg
    rw [hp.blocks] at hn
    exact h.entries hn x i c ((prune_tx h.inv.queue (h.inv.hashInv hn).1).2.1 x _ hg)
  rotate_left
  · intro hn x i c b ts hg hb hc hw
    rw [hp.blocks] at hn
    refine (prune_tx h.inv.queue (h.inv.hashInv hn).1).2.2 x i c b ts (h.keep hn x i c b ts hg hb hc hw)
      ?_ hc hw
    rw [h.blocks, List.getElem?_append_left (List.getElem?_eq_some_iff.mp hb).1]
    exact hb
  intro k
  rcases hp.approvals k with h1 | ⟨h1, a, e, h2, h3, h4⟩
  · rw [h1]; exact h.allow k
  · rcases h.allow k with h5 | ⟨h5, _⟩
    · right
      refine ⟨h1, a, e, ?_, h3, h4⟩
      rw [← h5, h2]
    · rw [h5] at h2; cases h2

/-- What can be spent later, in terms of the block. -/
theorem Effect.live {now : Nat} {s s' : State} {t : Transaction} (h : Effect now s s' t)
    (k : ApprovalKey) {at' : Nat} (hat : now ≤ at') :
    Spec.live at' (s'.approvals.get k) =
      Spec.live at' (Spec.allowStep s.approvals.get (mkBlock s t now) k) := by
  rcases h.allow k with h1 | ⟨h1, a, e, h2, h3, h4⟩
  · rw [h1]
  · rw [h1, h2]
    simp only [Spec.live]
    rw [if_neg (by omega)]

/-- An allowance that has not expired is exactly as the block says. -/
theorem Effect.allow_live {now : Nat} {s s' : State} {t : Transaction} (h : Effect now s s' t)
    {k : ApprovalKey} {a e : Nat}
    (hk : Spec.allowStep s.approvals.get (mkBlock s t now) k = some (a, e)) (he : e = 0 ∨ now < e) :
    s'.approvals.get k = some (a, e) := by
  rcases h.allow k with h1 | ⟨h1, a', e', h2, h3, h4⟩
  · rw [h1, hk]
  · rw [hk] at h2
    simp only [Option.some.injEq, Prod.mk.injEq] at h2
    omega

/-! ## Transfers -/

/-- The three things that can happen to a transfer request. -/
theorem exec_transfer {y : Sys} (hi : SInv y) {m : Msg} {r : Spec.TransferReq}
    (hm : Spec.transferRequest m = some r) :
    (∃ s', (y.exec m).1 = { y with ledger := s' } ∧
      Spec.okIndex (y.exec m).2 = some y.ledger.blocks.length ∧
      Spec.transferError (y.exec m).2 = none ∧ (y.exec m).2 ≠ .trapped ∧
      Effect y.now y.ledger s' r.transaction ∧
      Spec.TransferValid y.ledger y.now r ∧ ¬Spec.SelfOverflow y.ledger r ∧
      y.ledger.transactionHashes.get r.transaction.hash! = none) ∨
    (∃ e, (y.exec m).1 = y ∧ Spec.okIndex (y.exec m).2 = none ∧
      Spec.transferError (y.exec m).2 = some e ∧ (y.exec m).2 ≠ .trapped ∧
      Spec.TransferRefused y.ledger y.now r e ∧
      ∀ d, e = .duplicate d →
        ∃ c, y.ledger.transactionHashes.get r.transaction.hash! = some (d, c)) ∨
    (y.exec m = (y, .trapped) ∧ ¬Spec.MemoFits r.memo) := by
  cases m with
  | transfer caller args =>
    simp only [Spec.transferRequest, Option.some.injEq] at hm
    subst hm
    have hc := executeTransfer_class hi.ledger ⟨⟨caller, args.fromSubaccount⟩, args.to, none,
      args.amount, args.fee, args.memo, args.createdAtTime.map UInt64.toNat⟩ (opt64_le _)
    simp only at hc
    simp only [Sys.exec, icrc1Transfer, opt64]
    generalize hres : executeTransfer y.ledger ⟨caller, args.fromSubaccount⟩ args.to none
      args.amount args.fee args.memo (args.createdAtTime.map UInt64.toNat) y.now = res at hc ⊢
    cases res with
    | ok i s' =>
      obtain ⟨rfl, s1, rfl, ha⟩ := executeTransfer_ok hres
      exact Or.inl ⟨_, rfl, rfl, rfl, by simp [Res.mapErr, Sys.commit],
        (ha.effect hi.ledger).prune, hc⟩
    | err e s' =>
      obtain ⟨rfl, hr, hd⟩ := hc
      cases e with
      | insufficientAllowance a =>
        obtain ⟨sp, hsp, _⟩ := hr
        cases hsp.1
      | _ =>
        exact Or.inr (Or.inl ⟨_, rfl, rfl, rfl,
          by simp [Res.mapErr, transferFromErrorToTransferError, Sys.commit], hr, hd⟩)
    | trap => exact Or.inr (Or.inr ⟨rfl, hc⟩)
  | transferFrom caller args =>
    simp only [Spec.transferRequest, Option.some.injEq] at hm
    subst hm
    have hc := executeTransfer_class hi.ledger ⟨args.frm, args.to,
      some ⟨caller, args.spenderSubaccount⟩, args.amount, args.fee, args.memo,
      args.createdAtTime.map UInt64.toNat⟩ (opt64_le _)
    simp only at hc
    simp only [Sys.exec, icrc2TransferFrom, opt64]
    generalize hres : executeTransfer y.ledger args.frm args.to
      (some ⟨caller, args.spenderSubaccount⟩)
      args.amount args.fee args.memo (args.createdAtTime.map UInt64.toNat) y.now = res at hc ⊢
    cases res with
    | ok i s' =>
      obtain ⟨rfl, s1, rfl, ha⟩ := executeTransfer_ok hres
      exact Or.inl ⟨_, rfl, rfl, rfl, by simp [Sys.commit], (ha.effect hi.ledger).prune, hc⟩
    | err e s' =>
      obtain ⟨rfl, hr, hd⟩ := hc
      exact Or.inr (Or.inl ⟨_, rfl, rfl, rfl, by simp [Sys.commit], hr, hd⟩)
    | trap => exact Or.inr (Or.inr ⟨rfl, hc⟩)
  | _ => simp [Spec.transferRequest] at hm

/-! ## Approvals -/

/-- The three things that can happen to an approve request. -/
theorem exec_approve {y : Sys} (hi : SInv y) {m : Msg} {r : Spec.ApproveReq}
    (hm : Spec.approveRequest m = some r) :
    (∃ s', (y.exec m).1 = { y with ledger := s' } ∧
      Spec.okIndex (y.exec m).2 = some y.ledger.blocks.length ∧
      Spec.approveError (y.exec m).2 = none ∧ (y.exec m).2 ≠ .trapped ∧
      Effect y.now y.ledger s' r.transaction ∧
      Spec.ApproveValid y.ledger y.now r ∧
      y.ledger.transactionHashes.get r.transaction.hash! = none) ∨
    (∃ e, (y.exec m).1 = y ∧ Spec.okIndex (y.exec m).2 = none ∧
      Spec.approveError (y.exec m).2 = some e ∧ (y.exec m).2 ≠ .trapped ∧
      Spec.ApproveRefused y.ledger y.now r e ∧
      ∀ d, e = .duplicate d →
        ∃ c, y.ledger.transactionHashes.get r.transaction.hash! = some (d, c)) ∨
    (y.exec m = (y, .trapped) ∧ (¬Spec.MemoFits r.memo ∨ r.frm.owner = r.spender.owner)) := by
  cases m with
  | approve caller args =>
    simp only [Spec.approveRequest, Option.some.injEq] at hm
    have hc := icrc2Approve_class hi.ledger caller args
    have hreq : args.req caller = r := by rw [← hm]; rfl
    have hmemo : r.memo = args.memo := by rw [← hm]
    have hfo : r.frm.owner = caller := by rw [← hm]
    have hso : r.spender = args.spender := by rw [← hm]
    rw [hreq] at hc
    rw [hmemo, hfo, hso]
    simp only [Sys.exec]
    generalize hres : icrc2Approve y.ledger caller args y.now = res at hc ⊢
    cases res with
    | ok i s' =>
      obtain ⟨rfl, _, s1, rfl, ha, _⟩ := icrc2Approve_ok hres
      refine Or.inl ⟨_, rfl, rfl, rfl, by simp [Sys.commit], ?_, hc⟩
      have : r.transaction = ⟨.approve ⟨caller, args.fromSubaccount⟩ args.spender
          (min args.amount U128MAX) args.expectedAllowance (opt64 args.expiresAt) args.fee,
          opt64 args.createdAtTime, args.memo⟩ := by
        rw [← hm, U128MAX_eq]; rfl
      rw [this]
      exact (ha.effect hi.ledger).prune
    | err e s' =>
      obtain ⟨rfl, hr, hd⟩ := hc
      exact Or.inr (Or.inl ⟨_, rfl, rfl, rfl, by simp [Sys.commit], hr, hd⟩)
    | trap => exact Or.inr (Or.inr ⟨rfl, hc⟩)
  | _ => simp [Spec.approveRequest] at hm

/-! ## Deposits -/

theorem exec_deposit {y : Sys} (hi : SInv y) (caller : Principal) (cycles : Fin (U128MAX + 1))
    (arg : DepositArg) :
    (∃ s', y.exec (.deposit caller cycles arg) =
        ({ y with ledger := s', cycles := y.cycles + cycles.val },
          .deposit y.ledger.blocks.length (balanceOf s' arg.to)) ∧
      Effect y.now y.ledger s' ⟨.mint arg.to (cycles.val - 100000000) 100000000, none, arg.memo⟩ ∧
      100000000 < cycles.val ∧ Spec.MemoFits arg.memo ∧
      y.ledger.cache.totalSupply + (cycles.val - 100000000) < 2 ^ 128) ∨
    (y.exec (.deposit caller cycles arg) = (y, .trapped) ∧
      (cycles.val ≤ 100000000 ∨ ¬Spec.MemoFits arg.memo ∨
        2 ^ 128 ≤ y.ledger.cache.totalSupply + (cycles.val - 100000000))) := by
  have hc := depositEndpoint_class hi.ledger arg cycles.val
  simp only [Sys.exec]
  generalize hres : depositEndpoint y.ledger arg cycles.val y.now = res at hc ⊢
  cases res with
  | ok r s' =>
    unfold depositEndpoint at hres
    split at hres
    · rename_i r' s1 hd
      cases hres
      obtain ⟨_, h1, h2, s1, rfl, ha⟩ := deposit_ok hd
      obtain ⟨i, b⟩ := r
      simp only at h1 h2
      subst h1 h2
      refine Or.inl ⟨_, rfl, ?_, hc⟩
      rw [FEE_eq] at ha
      exact (ha.effect hi.ledger).prune
    · cases hres
    · cases hres
  | err e s' => nomatch e
  | trap => exact Or.inr ⟨rfl, hc⟩

/-! ## Refunds -/

/-- Two hundred other approvals have expired and are still stored, and pruning comes to them
before an approval of `frm` to `sp` that expires now: they expired earlier, or now too and come
first in the order of the accounts. -/
def Spec.Backlog (s : State) (now : Nat) (frm sp : Account) : Prop :=
  ∃ ks : List ApprovalKey, ks.Nodup ∧ ks.length = 200 ∧
    ∀ k ∈ ks, ∃ a e, s.approvals.get k = some (a, e) ∧ 0 < e ∧
      (e < now ∨ e = now ∧ TotOrd.lt k (frm.key, sp.key) = true)

omit [Crypto] in
theorem queue_lt {e now : Nat} {k j : ApprovalKey} :
    TotOrd.lt (e, k) (now, j) = true ↔ e < now ∨ e = now ∧ TotOrd.lt k j = true := by
  show lexLt (e, k) (now, j) = true ↔ _
  simp only [lexLt, Bool.or_eq_true, Bool.and_eq_true, decide_eq_true_eq]
  have : (TotOrd.lt e now = true) ↔ e < now := by
    show decide (e < now) = true ↔ _
    rw [decide_eq_true_eq]
  rw [this]

/-- When a refund traps. -/
def RefundTraps (s : State) (now : Nat) (kind : CallKind) (p : Suspended) (back : Nat) : Prop :=
  2 ^ 128 ≤ s.cache.totalSupply + (back - 100000000) ∨
  ∃ sp, Spec.RefundsAllowance now p back sp ∧
    ((∃ a, Spec.stored s p.frm sp = some (a, now) ∧ 0 < now ∧ Spec.Backlog s now p.frm sp) ∨
     (now = 18446744073709551615 ∧ p.oldExpiresAt = none) ∨
     Spec.Collision (Spec.allowanceRefund s now p sp back :: Spec.refundTransaction kind p back ::
       s.blocks.map Block.transaction))

/-- What a refund does. -/
def Refunded (s s' : State) (now : Nat) (kind : CallKind) (p : Suspended) (back : Nat)
    (fb ab : Option Nat) : Prop :=
  (back ≤ 100000000 ∧ fb = none ∧ ab = none ∧ s' = s) ∨
  (100000000 < back ∧ fb = some s.blocks.length ∧ ab = none ∧
    Effect now s s' (Spec.refundTransaction kind p back) ∧
    ∀ sp, ¬Spec.RefundsAllowance now p back sp) ∨
  (100000000 < back ∧ fb = some s.blocks.length ∧ ab = some (s.blocks.length + 1) ∧
    ∃ sp s2, Spec.RefundsAllowance now p back sp ∧
      Effect now s s2 (Spec.refundTransaction kind p back) ∧
      Effect now s2 s' (Spec.allowanceRefund s now p sp back))

omit [Crypto] in
theorem stillValid_iff {old : Option Nat} {now : Nat} :
    approvalStillValid old now = true ↔ ∀ e, old = some e → now < e := by
  cases old <;> simp [approvalStillValid]

omit [Crypto] in
theorem satSub_eq (a b : Nat) : satSub a b = a - b := by
  unfold satSub; split <;> omega

omit [Crypto] in
theorem satAdd128_eq (a b : Nat) : satAdd128 a b = min (a + b) (2 ^ 128 - 1) := by
  unfold satAdd128; rw [U128MAX_eq]; split <;> omega

omit [Crypto] in
/-- What a refund finds of the allowance, after pruning. -/
theorem refund_allowance {now : Nat} {s s2 : State} {frm sp : Account} {old : Option Nat}
    (hg : s2.approvals.get (frm.key, sp.key) = s.approvals.get (frm.key, sp.key) ∨
      (s2.approvals.get (frm.key, sp.key) = none ∧ ∃ a e,
        s.approvals.get (frm.key, sp.key) = some (a, e) ∧ 0 < e ∧ e ≤ now))
    (hb : ∀ a, s2.approvals.get (frm.key, sp.key) = some (a, now) → now = 0) :
    (allowance s2 frm sp now).1 = Spec.spendable s frm sp now ∧
    refundExpiry s2 frm sp old now = (match Spec.stored s frm sp with
      | some (_, e) => if now < e then some e else old
      | none => old) := by
  unfold Spec.spendable Spec.stored refundExpiry allowance
  simp only
  rcases hg with hg | ⟨hg, a, e, h1, h2, h3⟩
  · rw [hg] at hb ⊢
    cases hs : s.approvals.get (frm.key, sp.key) with
    | none => simp [Spec.live]
    | some v =>
      obtain ⟨a, e⟩ := v
      simp only [Option.getD_some, Spec.live]
      have hb := hb a
      rw [hs] at hb
      by_cases h0 : e = 0
      · subst h0; simp
      · by_cases hlt : e < now
        · simp [h0, show ¬now < e by omega, hlt, show 0 < e by omega]
        · by_cases heq : e = now
          · subst heq; simp at hb; omega
          · simp [show now < e by omega, show 0 < e by omega, hlt]
  · rw [hg, h1]
    simp [Spec.live, show ¬e = 0 by omega, show ¬now < e by omega]

omit [Crypto] in
theorem refund_amount (back x : Nat) : satAdd128 (satSub (satSub back FEE) FEE) x =
    min (back - 200000000 + x) (2 ^ 128 - 1) := by
  rw [satAdd128_eq, satSub_eq, satSub_eq, Nat.sub_sub]
  have : FEE + FEE = 200000000 := by rw [FEE_eq]
  rw [this]

omit [Crypto] in
/-- The approval a refund makes is the one the specification names, unless an approval
that expires right now is still stored. -/
theorem allowanceRefund_eq {now : Nat} {s s2 : State} {p : Suspended} {sp : Account} {back : Nat}
    (hg : s2.approvals.get (p.frm.key, sp.key) = s.approvals.get (p.frm.key, sp.key) ∨
      (s2.approvals.get (p.frm.key, sp.key) = none ∧ ∃ a e,
        s.approvals.get (p.frm.key, sp.key) = some (a, e) ∧ 0 < e ∧ e ≤ now))
    (hb : ∀ a, s2.approvals.get (p.frm.key, sp.key) = some (a, now) → now = 0) :
    (⟨.approve p.frm sp (satAdd128 (satSub (satSub back FEE) FEE) (allowance s2 p.frm sp now).1)
      none (refundExpiry s2 p.frm sp p.oldExpiresAt now) none, none, some PENALIZE_MEMO⟩ :
        Transaction) = Spec.allowanceRefund s now p sp back := by
  obtain ⟨h1, h2⟩ := refund_allowance (old := p.oldExpiresAt) hg hb
  rw [h1, h2, refund_amount]
  rfl

theorem refund_spec {now : Nat} {s : State} {p : Suspended} {back : Nat} {kind : CallKind}
    {memo : Bytes} (hi : LInv now s) (hp : PendOk s p) (hmemo : memo = Spec.refundMemo kind) :
    match refund s p (satSub back FEE) memo (decide (satSub back FEE > FEE)) now with
    | none => RefundTraps s now kind p back
    | some (fb, ab, s') => Refunded s s' now kind p back fb ab := by
  have hmv : validateMemo (some memo) = true := by
    rw [hmemo]; cases kind <;> decide
  have hback : satSub back FEE = back - 100000000 := by rw [satSub_eq, FEE_eq]
  have hchg : ∀ sp, Spec.OnBehalf p.frm p.spender sp ↔ p.spender = some sp ∧ sp.key ≠ p.frm.key := by
    intro sp
    rw [Spec.OnBehalf, sameAccount_iff]
  -- the states after the refund itself
  have hmid : ∀ s1, Appended now s s1 ⟨.mint p.frm (satSub back FEE) 0, none, some memo⟩ →
      Effect now s (prune now (prune now s1)) (Spec.refundTransaction kind p back) ∧
      ∀ k, (prune now (prune now s1)).approvals.get k = s.approvals.get k ∨
        ((prune now (prune now s1)).approvals.get k = none ∧ ∃ a e,
          s.approvals.get k = some (a, e) ∧ 0 < e ∧ e ≤ now) := by
    intro s1 ha
    rw [hback, hmemo] at ha
    have he : Effect now s (prune now (prune now s1)) (Spec.refundTransaction kind p back) :=
      (Effect.prune (ha.effect hi).prune)
    exact ⟨he, he.allow⟩
  generalize hr : refund s p (satSub back FEE) memo (decide (satSub back FEE > FEE)) now = res
  cases res with
  | some v =>
    obtain ⟨fb, ab, s'⟩ := v
    simp only
    have hc := refund_cases hi hp.expiry hr
    rcases hc with ⟨h0, rfl, rfl, rfl⟩ | ⟨h0, rfl, s1, ha, ⟨rfl, rfl, hno⟩ |
      ⟨sp, hsp, hne, hcond, hval, rfl, ha2⟩⟩
    · exact Or.inl ⟨by omega, rfl, rfl, rfl⟩
    · refine Or.inr (Or.inl ⟨by omega, rfl, rfl, (hmid s1 ha).1, ?_⟩)
      rintro sp ⟨hb, hgt, hv⟩
      rw [hchg] at hb
      have := hno sp hb.1 hb.2 (by rw [hback, FEE_eq]; simp; omega)
      rw [← Bool.not_eq_true, stillValid_iff] at this
      exact this hv
    · refine Or.inr (Or.inr ⟨by omega, rfl, rfl, sp, _, ⟨(hchg sp).mpr ⟨hsp, hne⟩, ?_,
        stillValid_iff.mp hval⟩, (hmid s1 ha).1, ?_⟩)
      · rw [hback, FEE_eq, decide_eq_true_eq] at hcond; omega
      · have h2 := (hmid s1 ha).2 (p.frm.key, sp.key)
        have hop := ha2.op
        simp only [OpOk] at hop
        rw [allowanceRefund_eq h2 ?_] at ha2
        · exact ha2.effect (hmid s1 ha).1.inv
        · intro a hga
          refine Nat.eq_zero_of_not_pos fun hpos => ?_
          have he : refundExpiry (prune now (prune now s1)) p.frm sp p.oldExpiresAt now = some now := by
            unfold refundExpiry allowance
            simp [hga, hpos]
          rw [he] at hop
          have := hop.2.2.2.2.2.2.2
          simp at this
  | none =>
    simp only
    unfold refund at hr
    split at hr
    · cases hr
    rename_i hne0
    by_cases hov : 2 ^ 128 ≤ s.cache.totalSupply + (back - 100000000)
    · exact Or.inl hov
    right
    have hle := hi.balance_le p.frm
    have hcred : s.cache.totalSupply + satSub back FEE ≤ U128MAX := by
      rw [hback, U128MAX_eq]; omega
    -- the mint itself goes through
    have hre : ∃ s1, reimburse s p.frm (satSub back FEE) now memo = .ok s.blocks.length (prune now s1) ∧
        Appended now s s1 ⟨.mint p.frm (satSub back FEE) 0, none, some memo⟩ := by
      have hpt := processTransaction_eq_ok (s := s)
        (t := ⟨.mint p.frm (satSub back FEE) 0, none, some memo⟩) (now := now) hmv rfl
      obtain ⟨s1, hs1⟩ := credit_isSome (s := pushBlock s (mkBlock s
        ⟨.mint p.frm (satSub back FEE) 0, none, some memo⟩ now)) (a := p.frm)
        (x := satSub back FEE) (by rw [balAt_pushBlock, ← balanceOf_eq]; omega)
        (by rw [pushBlock_supply]; exact hcred)
      refine ⟨s1, ?_, appended_mint (Or.inr rfl) hmv hs1⟩
      unfold reimburse
      rw [hpt]
      simp only
      rw [hs1]
    obtain ⟨s1, hre, ha⟩ := hre
    rw [hre] at hr
    simp only at hr
    split at hr
    · cases hr
    rename_i sp hsp
    split at hr
    · rename_i hcond
      simp only [Account.same, Bool.and_eq_true, Bool.not_eq_true', decide_eq_false_iff_not,
        decide_eq_true_eq] at hcond
      obtain ⟨⟨hsame, hgt⟩, hval⟩ := hcond
      have hob : Spec.OnBehalf p.frm p.spender sp := (hchg sp).mpr ⟨hsp, hsame⟩
      have hra : Spec.RefundsAllowance now p back sp := by
        refine ⟨hob, ?_, stillValid_iff.mp hval⟩
        rw [hback, FEE_eq] at hgt; omega
      refine ⟨sp, hra, ?_⟩
      obtain ⟨heff, hal⟩ := hmid s1 ha
      generalize hs2 : prune now (prune now s1) = s2 at *
      by_cases hbd : ∃ a, s2.approvals.get (p.frm.key, sp.key) = some (a, now) ∧ 0 < now
      · left
        obtain ⟨a, h1, h2⟩ := hbd
        rcases hal (p.frm.key, sp.key) with h3 | ⟨h3, _⟩
        · refine ⟨a, by unfold Spec.stored; rw [← h3, h1], h2, ?_⟩
          have h1' := h1
          rw [← hs2] at h1'
          obtain ⟨ks, k1, k2, k3, k4⟩ := prune_backlog (ha.queue hi.queue) h1' h2 (Nat.le_refl _)
          refine ⟨ks, k1, k2, fun k hk => ?_⟩
          obtain ⟨a', e', h4, h5, h6, h7⟩ := k4 k hk
          rw [ha.allow] at h4
          exact ⟨a', e', h4, h5, queue_lt.mp h7⟩
        · rw [h3] at h1; cases h1
      have hbd' : ∀ a, s2.approvals.get (p.frm.key, sp.key) = some (a, now) → now = 0 := by
        intro a h
        refine Nat.eq_zero_of_not_pos fun hpos => hbd ⟨a, h, hpos⟩
      have htx := allowanceRefund_eq (back := back) (hal (p.frm.key, sp.key)) hbd'
      right
      unfold reimburseApproval at hr
      simp only at hr
      have hclass := approve_class heff.inv (r := ⟨p.frm, sp,
        satAdd128 (satSub (satSub back FEE) FEE) (allowance s2 p.frm sp now).1, none,
        refundExpiry s2 p.frm sp p.oldExpiresAt now, none, some PENALIZE_MEMO, none⟩)
        (by intro n hn; cases hn) (satAdd128_le _ _)
      simp only [refundExpiry] at hclass
      have howner : p.frm.owner ≠ sp.owner ∧ p.frm.owner ≠ managementCanister ∧
          sp.owner ≠ managementCanister := by
        refine hp.spender sp ?_
        unfold chargedSpender
        rw [hsp]
        simp [Account.same, hsame]
      generalize approve s2 p.frm sp (satAdd128 (satSub (satSub back FEE) FEE)
        (allowance s2 p.frm sp now).1) (some PENALIZE_MEMO) now none none none
        (if (allowance s2 p.frm sp now).2 > 0 then some (allowance s2 p.frm sp now).2
          else p.oldExpiresAt) = ra at hr hclass
      cases ra with
      | ok i s3 => cases hr
      | trap =>
        exfalso
        rcases hclass with h | h
        · exact h (by intro m hm; cases hm; simp [PENALIZE_MEMO])
        · exact howner.1 h
      | err e s3 =>
        obtain ⟨_, href, hdup⟩ := hclass
        cases e with
        | badFee f => exact absurd rfl href.2.1
        | insufficientFunds b =>
          exfalso
          obtain ⟨h1, h2⟩ := href
          have := heff.bal p.frm
          simp only at h1
          simp [Spec.delta, mkBlock, Spec.refundTransaction] at this
          have := hra.2.1
          omega
        | allowanceChanged x => exact absurd rfl href.2.1
        | expired t =>
          left
          have hexp := href.2
          simp only at hexp
          unfold allowance at hexp
          simp only at hexp
          have hv := stillValid_iff.mp hval
          have hclk := hi.clock
          rw [U64MAX_eq] at hclk
          have hold : p.oldExpiresAt.getD 18446744073709551615 ≤ now →
              now = 18446744073709551615 ∧ p.oldExpiresAt = none := by
            intro h
            cases ho : p.oldExpiresAt with
            | none => rw [ho] at h; simp at h; exact ⟨by omega, rfl⟩
            | some o =>
              rw [ho] at h
              have := hv o ho
              simp at h
              omega
          cases hg : s2.approvals.get (p.frm.key, sp.key) with
          | none =>
            rw [hg] at hexp
            simp at hexp
            exact hold hexp
          | some v =>
            obtain ⟨a, e⟩ := v
            rw [hg] at hexp
            simp only [Option.getD_some] at hexp
            by_cases h0 : e = 0
            · subst h0; simp at hexp; exact hold hexp
            · by_cases hlt : e < now
              · simp [hlt, show 0 < e by omega] at hexp; exact hold hexp
              · simp [hlt, show 0 < e by omega] at hexp
                have : e = now := by omega
                subst this
                exact absurd (hbd' a hg) h0
        | tooOld => obtain ⟨c, hc, _⟩ := href; cases hc
        | createdInFuture t => obtain ⟨_, c, hc, _⟩ := href; cases hc
        | temporarilyUnavailable => exact absurd href id
        | genericError c =>
          rcases href.2 with h | h
          · exact absurd h howner.2.1
          · exact absurd h howner.2.2
        | duplicate d =>
          right
          obtain ⟨c, hd⟩ := hdup d rfl
          refine Classical.byContradiction fun hnc => ?_
          have htx2 : Spec.ApproveReq.transaction ⟨p.frm, sp,
              satAdd128 (satSub (satSub back FEE) FEE) (allowance s2 p.frm sp now).1, none,
              if (allowance s2 p.frm sp now).2 > 0 then some (allowance s2 p.frm sp now).2
                else p.oldExpiresAt, none, some PENALIZE_MEMO, none⟩ =
              Spec.allowanceRefund s now p sp back := by
            rw [← htx]
            unfold Spec.ApproveReq.transaction refundExpiry
            have hm := satAdd128_le (satSub (satSub back FEE) FEE) (allowance s2 p.frm sp now).1
            rw [U128MAX_eq] at hm
            simp only
            rw [Nat.min_eq_left (by omega)]
          rw [htx2] at hd
          have := table_hit heff.inv (t := Spec.allowanceRefund s now p sp back) ?_ hd
          · obtain ⟨_, _, _, h⟩ := this
            cases h
          · intro hcol
            refine hnc (hcol.mono ?_)
            intro t ht
            rw [heff.blocks] at ht
            simp only [List.map_append, List.mem_cons, List.mem_append, List.map_cons,
              List.map_nil, List.not_mem_nil, or_false] at ht ⊢
            rcases ht with h | h | h
            · exact Or.inl h
            · exact Or.inr (Or.inr h)
            · exact Or.inr (Or.inl (by rw [h]; rfl))
    · cases hr

omit [Crypto] in
/-- Which of the three block indices an endpoint reports. -/
def reported (kind : CallKind) (idx : Nat) (fb ab : Option Nat) :
    Option Nat × Option Nat × Option Nat :=
  match kind with
  | .withdraw => (none, fb, none)
  | .withdrawFrom => (some idx, fb, ab)
  | .createCanister => (some idx, fb, none)
  | .createCanisterFrom => (some idx, fb, ab)

/-- What the end of a failed call does. -/
def Failed (y : Sys) (s : State) (kind : CallKind) (p : Suspended) (back : Nat)
    (out : Sys × Reply) : Prop :=
  (out = (y, .trapped) ∧ RefundTraps s y.now kind p back) ∨
  ∃ fb ab s', out.1 = { y with ledger := s' } ∧ Refunded s s' y.now kind p back fb ab ∧
    Spec.okIndex out.2 = none ∧ Spec.burnError out.2 = none ∧ out.2 ≠ .trapped ∧
    out.2 ≠ .suspended ∧ Spec.failedBlocks out.2 = some (reported kind p.blockIndex fb ab)

omit [Crypto] in
theorem twoFee (a : Nat) : decide (a > 2 * FEE) = decide (satSub a FEE > FEE) := by
  rw [satSub_eq]
  congr 1
  rw [eq_iff_iff]
  omega

theorem finishWithdraw_failed {y : Sys} {s : State} {kind : CallKind} {p : Suspended}
    (code : CallError) (hk : kind = .withdraw ∨ kind = .withdrawFrom) (hi : LInv y.now s)
    (hp : PendOk s p) : Failed y s kind p p.amount (finishWithdraw y s kind p (some code)) := by
  have hspec := refund_spec (kind := kind) (back := p.amount) (memo := PENALIZE_MEMO) hi hp
    (by rcases hk with rfl | rfl <;> rfl)
  have hwf := withdrawFinish_eq s p code y.now
  rw [twoFee] at hwf
  generalize refund s p (satSub p.amount FEE) PENALIZE_MEMO (decide (satSub p.amount FEE > FEE))
    y.now = res at hspec hwf
  unfold finishWithdraw
  cases res with
  | none =>
    left
    rcases hk with rfl | rfl <;> simp only [hwf] <;> exact ⟨rfl, hspec⟩
  | some v =>
    obtain ⟨fb, ab, s'⟩ := v
    right
    refine ⟨fb, ab, s', ?_⟩
    rcases hk with rfl | rfl <;> simp only [hwf] <;>
      exact ⟨rfl, hspec, rfl, rfl, by simp [Sys.commit, Res.mapErr, withdrawFromErrorToWithdrawError],
        by simp [Sys.commit, Res.mapErr, withdrawFromErrorToWithdrawError], rfl⟩

theorem finishCreate_failed {y : Sys} {s : State} {kind : CallKind} {p : Suspended}
    {r : CmcResult} {back : Nat} (hk : kind = .createCanister ∨ kind = .createCanisterFrom)
    (hi : LInv y.now s) (hp : PendOk s p)
    (hr : r = .refunded back ∨ (r = .refundFailed ∧ back = 0) ∨
      ∃ code, r = .callError code ∧ back = p.amount) :
    Failed y s kind p back (finishCreate y s kind p r) := by
  have hspec := refund_spec (kind := kind) (back := back) (memo := REFUND_MEMO) hi hp
    (by rcases hk with rfl | rfl <;> rfl)
  have hcf : ∃ code, createCanisterFinish s p r y.now = createFailed s p code back y.now := by
    have := createCanisterFinish_failed s p y.now
    rcases hr with rfl | ⟨rfl, rfl⟩ | ⟨code, rfl, rfl⟩
    · exact ⟨_, this.1 back⟩
    · exact ⟨_, this.2.1⟩
    · exact ⟨_, this.2.2 code⟩
  obtain ⟨code, hcf⟩ := hcf
  unfold createFailed at hcf
  generalize refund s p (satSub back FEE) REFUND_MEMO (decide (satSub back FEE > FEE))
    y.now = res at hspec hcf
  unfold finishCreate
  cases res with
  | none =>
    left
    rcases hk with rfl | rfl <;> simp only [hcf] <;> exact ⟨rfl, hspec⟩
  | some v =>
    obtain ⟨fb, ab, s'⟩ := v
    right
    refine ⟨fb, ab, s', ?_⟩
    rcases hk with rfl | rfl <;> simp only [hcf] <;>
      exact ⟨rfl, hspec, rfl, rfl, by simp [Sys.commit, Res.mapErr, createFromErrorToCreateError],
        by simp [Sys.commit, Res.mapErr, createFromErrorToCreateError], rfl⟩

/-! ## Burns -/

omit [Crypto] in
theorem burnMemo_some (p : Principal) : Spec.burnMemo (some p) = encodeWithdrawMemo p := by
  unfold Spec.burnMemo encodeWithdrawMemo
  rfl

omit [Crypto] in
/-- The system once the outgoing call is under way. -/
def sent (y : Sys) (s1 : State) (kind : CallKind) (p : Suspended) (call : OutCall) : Sys :=
  ⟨s1, y.now, y.pending ++ [⟨kind, p, call⟩], y.cycles - call.cycles⟩

/-- The call a burn request leads to. -/
def callOf (m : Msg) : OutCall :=
  match m with
  | .withdraw _ a _ => depositCyclesCall a.to a.amount
  | .withdrawFrom _ a _ => depositCyclesCall a.to a.amount
  | .createCanister c a _ => createCanisterCall c a.creationArgs a.amount
  | .createCanisterFrom c a _ => createCanisterCall c a.creationArgs a.amount
  | _ => depositCyclesCall managementCanister 0

/-- What starting a burn does. -/
def Started (y : Sys) (m : Msg) (r : Spec.BurnReq) (to : Option Principal) (s1 : State)
    (p : Suspended) : Prop :=
  Effect y.now y.ledger s1 (r.transaction to) ∧
  Spec.BurnValid y.ledger y.now r ∧ Spec.ReceiverValid r to ∧
  y.ledger.transactionHashes.get (r.transaction to).hash! = none ∧
  (∃ old, p = ⟨r.frm, r.spender, r.amount, y.ledger.blocks.length, old, r.transaction to⟩ ∧
    ExpiryFrom y.ledger r.frm r.spender y.now old) ∧
  PendOk s1 p ∧
  ((Spec.syncOf m = none ∧ y.exec m = (sent y s1 (Spec.kindOf m) p (callOf m), .suspended)) ∨
   (Spec.syncOf m ≠ none ∧ Failed y s1 (Spec.kindOf m) p r.amount (y.exec m)))

/-- What refusing a burn says. -/
def BurnRefusal (y : Sys) (m : Msg) (r : Spec.BurnReq) (to : Option Principal)
    (e : Spec.BurnError) : Prop :=
  (y.exec m).1 = y ∧ Spec.okIndex (y.exec m).2 = none ∧ Spec.burnError (y.exec m).2 = some e ∧
  (y.exec m).2 ≠ .trapped ∧ (y.exec m).2 ≠ .suspended ∧ Spec.failedBlocks (y.exec m).2 = none ∧
  Spec.BurnRefused y.ledger y.now r to e ∧
  ∀ d c, e = .duplicate d c →
    ∃ c', y.ledger.transactionHashes.get (r.transaction to).hash! = some (d, c') ∧
      (c = some c' ∨ (c = none ∧ to ≠ none))

theorem sendWithdraw_class {y : Sys} (hi : SInv y) (r : Spec.BurnReq) (to : Principal) (m : Msg)
    (hc : OptLe r.createdAt U64MAX) (hk : Spec.kindOf m = .withdraw ∨ Spec.kindOf m = .withdrawFrom)
    (hsp : Spec.kindOf m = .withdraw → r.spender = none)
    (hex : y.exec m = sendWithdraw y (executeWithdraw y.ledger r.frm to r.spender r.amount
      r.createdAt y.now) (Spec.kindOf m) to (Spec.syncOf m))
    (hcall : callOf m = depositCyclesCall to r.amount) :
    (∃ s1 p, Started y m r (some to) s1 p) ∨ (∃ e, BurnRefusal y m r (some to) e) := by
  have hcl := executeWithdraw_class hi.ledger r to hc
  rw [← burnMemo_some] at hcl
  unfold Started BurnRefusal
  rw [hex]
  generalize hres : executeWithdraw y.ledger r.frm to r.spender r.amount r.createdAt y.now = res
    at hcl ⊢
  cases res with
  | trap => exact absurd hcl id
  | ok p s1 =>
    obtain ⟨hv, hnu, hpos, hfr⟩ := hcl
    obtain ⟨_, _, ⟨old, hpe, hold⟩, s0, rfl, ha⟩ := withdrawStart_ok (executeWithdraw_eq hres)
    rw [← burnMemo_some] at hpe ha
    have hpend := pendOk_start hi.ledger hold ha
    rw [← hpe] at hpend
    have heff := (ha.effect hi.ledger).prune
    refine Or.inl ⟨_, p, heff, hv, ⟨hnu, hpos⟩, hfr, ⟨old, hpe, hold⟩, hpend, ?_⟩
    have hpa : p.amount = r.amount := by rw [hpe]
    unfold sendWithdraw
    cases hsy : Spec.syncOf m with
    | none =>
      exact Or.inl ⟨rfl, by rw [hcall, ← hpa]; rfl⟩
    | some code =>
      right
      refine ⟨by simp, ?_⟩
      simp only
      rw [← hpa]
      exact finishWithdraw_failed code hk heff.inv hpend
  | err e s' =>
    obtain ⟨rfl, hr, hd⟩ := hcl
    right
    unfold sendWithdraw
    rcases hk with hk | hk
    · rw [hk]
      have hns := hsp hk
      cases e with
      | insufficientAllowance a =>
        obtain ⟨sp, h, _⟩ := hr
        rw [h.1] at hns; cases hns
      | temporarilyUnavailable => exact absurd hr id
      | failedToWithdrawFrom => exact absurd hr id
      | genericError code =>
        obtain ⟨rfl, h0⟩ := hr
        exact ⟨.zeroAmount, rfl, rfl, rfl,
          by simp [Sys.commit, Res.mapErr, withdrawFromErrorToWithdrawError],
          by simp [Sys.commit, Res.mapErr, withdrawFromErrorToWithdrawError], rfl,
          ⟨h0, by simp⟩, by intro d c h; cases h⟩
      | duplicate d =>
        refine ⟨.duplicate d none, rfl, rfl, rfl,
          by simp [Sys.commit, Res.mapErr, withdrawFromErrorToWithdrawError],
          by simp [Sys.commit, Res.mapErr, withdrawFromErrorToWithdrawError], rfl, trivial, ?_⟩
        intro d' c' h
        cases h
        obtain ⟨c, hc⟩ := hd d rfl
        exact ⟨c, hc, Or.inr ⟨rfl, by simp⟩⟩
      | invalidReceiver q =>
        exact ⟨.invalidReceiver q, rfl, rfl, rfl,
          by simp [Sys.commit, Res.mapErr, withdrawFromErrorToWithdrawError],
          by simp [Sys.commit, Res.mapErr, withdrawFromErrorToWithdrawError], rfl,
          ⟨by rw [hr.1], hr.1 ▸ hr.2⟩, by intro d c h; cases h⟩
      | insufficientFunds b =>
        exact ⟨.insufficientFunds b, rfl, rfl, rfl,
          by simp [Sys.commit, Res.mapErr, withdrawFromErrorToWithdrawError],
          by simp [Sys.commit, Res.mapErr, withdrawFromErrorToWithdrawError], rfl, hr,
          by intro d c h; cases h⟩
      | tooOld =>
        exact ⟨.tooOld, rfl, rfl, rfl,
          by simp [Sys.commit, Res.mapErr, withdrawFromErrorToWithdrawError],
          by simp [Sys.commit, Res.mapErr, withdrawFromErrorToWithdrawError], rfl, hr,
          by intro d c h; cases h⟩
      | createdInFuture t =>
        exact ⟨.createdInFuture t, rfl, rfl, rfl,
          by simp [Sys.commit, Res.mapErr, withdrawFromErrorToWithdrawError],
          by simp [Sys.commit, Res.mapErr, withdrawFromErrorToWithdrawError], rfl, hr,
          by intro d c h; cases h⟩
    · rw [hk]
      cases e with
      | insufficientAllowance a =>
        exact ⟨.insufficientAllowance a, rfl, rfl, rfl, by simp [Sys.commit], by simp [Sys.commit],
          rfl, hr, by intro d c h; cases h⟩
      | temporarilyUnavailable => exact absurd hr id
      | failedToWithdrawFrom => exact absurd hr id
      | genericError code =>
        obtain ⟨rfl, h0⟩ := hr
        exact ⟨.zeroAmount, rfl, rfl, rfl, by simp [Sys.commit], by simp [Sys.commit], rfl,
          ⟨h0, by simp⟩, by intro d c h; cases h⟩
      | duplicate d =>
        refine ⟨.duplicate d none, rfl, rfl, rfl, by simp [Sys.commit], by simp [Sys.commit], rfl,
          trivial, ?_⟩
        intro d' c' h
        cases h
        obtain ⟨c, hc⟩ := hd d rfl
        exact ⟨c, hc, Or.inr ⟨rfl, by simp⟩⟩
      | invalidReceiver q =>
        exact ⟨.invalidReceiver q, rfl, rfl, rfl, by simp [Sys.commit], by simp [Sys.commit], rfl,
          ⟨by rw [hr.1], hr.1 ▸ hr.2⟩, by intro d c h; cases h⟩
      | insufficientFunds b =>
        exact ⟨.insufficientFunds b, rfl, rfl, rfl, by simp [Sys.commit], by simp [Sys.commit], rfl,
          hr, by intro d c h; cases h⟩
      | tooOld =>
        exact ⟨.tooOld, rfl, rfl, rfl, by simp [Sys.commit], by simp [Sys.commit], rfl,
          hr, by intro d c h; cases h⟩
      | createdInFuture t =>
        exact ⟨.createdInFuture t, rfl, rfl, rfl, by simp [Sys.commit], by simp [Sys.commit], rfl,
          hr, by intro d c h; cases h⟩

theorem sendCreate_class {y : Sys} (hi : SInv y) (r : Spec.BurnReq) (m : Msg)
    (caller : Principal) (args : Option CmcArgs)
    (hc : OptLe r.createdAt U64MAX)
    (hk : Spec.kindOf m = .createCanister ∨ Spec.kindOf m = .createCanisterFrom)
    (hsp : Spec.kindOf m = .createCanister → r.spender = none)
    (hex : y.exec m = sendCreate y (executeCreateCanister y.ledger r.frm r.spender r.amount
      r.createdAt y.now) (Spec.kindOf m) caller args (Spec.syncOf m))
    (hcall : callOf m = createCanisterCall caller args r.amount) :
    (∃ s1 p, Started y m r none s1 p) ∨ (∃ e, BurnRefusal y m r none e) := by
  have hcl := executeCreateCanister_class hi.ledger r hc
  have hmemo : CREATE_CANISTER_MEMO = Spec.burnMemo none := rfl
  rw [hmemo] at hcl
  unfold Started BurnRefusal
  rw [hex]
  generalize hres : executeCreateCanister y.ledger r.frm r.spender r.amount r.createdAt y.now = res
    at hcl ⊢
  cases res with
  | trap => exact absurd hcl id
  | ok p s1 =>
    obtain ⟨hv, hfr⟩ := hcl
    obtain ⟨⟨old, hpe, hold⟩, s0, rfl, ha⟩ := createCanisterStart_ok (executeCreateCanister_eq hres)
    rw [hmemo] at hpe ha
    have hpend := pendOk_start hi.ledger hold ha
    rw [← hpe] at hpend
    have heff := (ha.effect hi.ledger).prune
    refine Or.inl ⟨_, p, heff, hv, trivial, hfr, ⟨old, hpe, hold⟩, hpend, ?_⟩
    have hpa : p.amount = r.amount := by rw [hpe]
    unfold sendCreate
    cases hsy : Spec.syncOf m with
    | none =>
      exact Or.inl ⟨rfl, by rw [hcall, ← hpa]; rfl⟩
    | some code =>
      right
      refine ⟨by simp, ?_⟩
      simp only
      rw [← hpa]
      exact finishCreate_failed hk heff.inv hpend (Or.inr (Or.inr ⟨code, rfl, rfl⟩))
  | err e s' =>
    obtain ⟨rfl, hr, hd⟩ := hcl
    right
    unfold sendCreate
    rcases hk with hk | hk
    · rw [hk]
      have hns := hsp hk
      cases e with
      | insufficientAllowance a =>
        obtain ⟨sp, h, _⟩ := hr
        rw [h.1] at hns; cases hns
      | temporarilyUnavailable => exact absurd hr id
      | failedToCreateFrom => exact absurd hr id
      | genericError code => exact absurd hr id
      | duplicate d c0 =>
        refine ⟨.duplicate d (some c0), rfl, rfl, rfl,
          by simp [Sys.commit, Res.mapErr, createFromErrorToCreateError],
          by simp [Sys.commit, Res.mapErr, createFromErrorToCreateError], rfl, trivial, ?_⟩
        intro d' c' h
        cases h
        exact ⟨c0, hd d c0 rfl, Or.inl rfl⟩
      | insufficientFunds b =>
        exact ⟨.insufficientFunds b, rfl, rfl, rfl,
          by simp [Sys.commit, Res.mapErr, createFromErrorToCreateError],
          by simp [Sys.commit, Res.mapErr, createFromErrorToCreateError], rfl, hr,
          by intro d c h; cases h⟩
      | tooOld =>
        exact ⟨.tooOld, rfl, rfl, rfl,
          by simp [Sys.commit, Res.mapErr, createFromErrorToCreateError],
          by simp [Sys.commit, Res.mapErr, createFromErrorToCreateError], rfl, hr,
          by intro d c h; cases h⟩
      | createdInFuture t =>
        exact ⟨.createdInFuture t, rfl, rfl, rfl,
          by simp [Sys.commit, Res.mapErr, createFromErrorToCreateError],
          by simp [Sys.commit, Res.mapErr, createFromErrorToCreateError], rfl, hr,
          by intro d c h; cases h⟩
    · rw [hk]
      cases e with
      | insufficientAllowance a =>
        exact ⟨.insufficientAllowance a, rfl, rfl, rfl, by simp [Sys.commit], by simp [Sys.commit],
          rfl, hr, by intro d c h; cases h⟩
      | temporarilyUnavailable => exact absurd hr id
      | failedToCreateFrom => exact absurd hr id
      | genericError code => exact absurd hr id
      | duplicate d c0 =>
        refine ⟨.duplicate d (some c0), rfl, rfl, rfl, by simp [Sys.commit], by simp [Sys.commit],
          rfl, trivial, ?_⟩
        intro d' c' h
        cases h
        exact ⟨c0, hd d c0 rfl, Or.inl rfl⟩
      | insufficientFunds b =>
        exact ⟨.insufficientFunds b, rfl, rfl, rfl, by simp [Sys.commit], by simp [Sys.commit], rfl,
          hr, by intro d c h; cases h⟩
      | tooOld =>
        exact ⟨.tooOld, rfl, rfl, rfl, by simp [Sys.commit], by simp [Sys.commit], rfl,
          hr, by intro d c h; cases h⟩
      | createdInFuture t =>
        exact ⟨.createdInFuture t, rfl, rfl, rfl, by simp [Sys.commit], by simp [Sys.commit], rfl,
          hr, by intro d c h; cases h⟩

/-- A burn request is either started or refused; it never traps before the call. -/
theorem exec_burn {y : Sys} (hi : SInv y) {m : Msg} {r : Spec.BurnReq} {to : Option Principal}
    (hm : Spec.burnRequest m = some (r, to)) :
    (∃ s1 p, Started y m r to s1 p) ∨ (∃ e, BurnRefusal y m r to e) := by
  cases m with
  | withdraw caller args sync =>
    simp only [Spec.burnRequest, Option.some.injEq, Prod.mk.injEq] at hm
    obtain ⟨rfl, rfl⟩ := hm
    exact sendWithdraw_class hi _ args.to _ (opt64_le _) (Or.inl rfl) (fun _ => rfl) rfl rfl
  | withdrawFrom caller args sync =>
    simp only [Spec.burnRequest, Option.some.injEq, Prod.mk.injEq] at hm
    obtain ⟨rfl, rfl⟩ := hm
    exact sendWithdraw_class hi _ args.to _ (opt64_le _) (Or.inr rfl) (fun h => by cases h) rfl rfl
  | createCanister caller args sync =>
    simp only [Spec.burnRequest, Option.some.injEq, Prod.mk.injEq] at hm
    obtain ⟨rfl, rfl⟩ := hm
    exact sendCreate_class hi _ _ _ _ (opt64_le _) (Or.inl rfl) (fun _ => rfl) rfl rfl
  | createCanisterFrom caller args sync =>
    simp only [Spec.burnRequest, Option.some.injEq, Prod.mk.injEq] at hm
    obtain ⟨rfl, rfl⟩ := hm
    exact sendCreate_class hi _ _ _ _ (opt64_le _) (Or.inr rfl) (fun h => by cases h) rfl rfl
  | _ => simp [Spec.burnRequest] at hm

/-! ## Callbacks -/

omit [Crypto] in
/-- The system at the start of a callback: the call is no longer outstanding, and
cycles may have come back. -/
def answered (y : Sys) (i : Nat) (p : Pending) (ans : Answer) : Sys :=
  { y with pending := y.pending.eraseIdx i
           cycles := y.cycles + (match ans with
             | .depositCycles r => if r.isSome then (p.call.cycles : Int) else 0
             | .cmc _ refund => (refund : Int)) }

/-- A failed call. -/
theorem exec_callback_failed {y : Sys} (hi : SInv y) {i : Nat} {p : Pending} {ans : Answer}
    {back : Nat} (hp : y.pending[i]? = some p) (hf : Spec.Fits p ans)
    (hr : Spec.returned p ans = some back) :
    Failed (answered y i p ans) y.ledger p.kind p.data back (y.exec (.callback i ans)) := by
  have hpo := hi.pending p (List.mem_of_getElem? hp)
  obtain ⟨kind, d, call⟩ := p
  cases ans with
  | depositCycles r =>
    cases r with
    | none => simp [Spec.returned] at hr
    | some code =>
      simp only [Spec.returned, Option.isSome_some, if_true, Option.some.injEq] at hr
      subst hr
      have := finishWithdraw_failed (y := answered y i ⟨kind, d, call⟩ (.depositCycles (some code)))
        code hf hi.ledger hpo
      rcases hf with hf | hf <;>
      · simp only at hf
        subst hf
        simp only [Sys.exec, hp]
        exact this
  | cmc r refund =>
    have hres : r = .refunded back ∨ (r = .refundFailed ∧ back = 0) ∨
        ∃ code, r = .callError code ∧ back = d.amount := by
      cases r <;> simp [Spec.returned] at hr <;> simp [hr]
    have := finishCreate_failed (y := answered y i ⟨kind, d, call⟩ (.cmc r refund)) hf hi.ledger hpo hres
    rcases hf with hf | hf <;>
    · simp only at hf
      subst hf
      simp only [Sys.exec, hp]
      exact this

/-- The canister made by a creation is noted with the transaction, as long as that is
remembered at all. -/
def noteCanister (s : State) (p : Suspended) (ans : Answer) : State :=
  match ans with
  | .cmc (.created c) _ =>
    if s.transactionHashes.contains p.transaction.hash! then
      { s with transactionHashes :=
          s.transactionHashes.insert p.transaction.hash! (p.blockIndex, some c) }
    else s
  | _ => s

/-- A successful call. -/
theorem exec_callback_ok {y : Sys} {i : Nat} {p : Pending} {ans : Answer}
    (hp : y.pending[i]? = some p) (hf : Spec.Fits p ans) (hr : Spec.returned p ans = none) :
    (y.exec (.callback i ans)).1 =
      { answered y i p ans with ledger := noteCanister y.ledger p.data ans } ∧
    Spec.okIndex (y.exec (.callback i ans)).2 = some p.data.blockIndex ∧
    (∀ c refund, ans = .cmc (.created c) refund →
      (y.exec (.callback i ans)).2 = .createCanister (.ok (p.data.blockIndex, c)) ∨
      (y.exec (.callback i ans)).2 = .createCanisterFrom (.ok (p.data.blockIndex, c))) := by
  obtain ⟨kind, d, call⟩ := p
  cases ans with
  | depositCycles r =>
    cases r with
    | some code => simp [Spec.returned] at hr
    | none =>
      rcases hf with hf | hf <;>
      · simp only at hf
        subst hf
        simp only [Sys.exec, hp]
        refine ⟨rfl, rfl, ?_⟩
        intro c refund h
        cases h
  | cmc r refund =>
    cases r with
    | created c =>
      have hfin : createCanisterFinish y.ledger d (.created c) y.now =
          .ok (d.blockIndex, c) (noteCanister y.ledger d (.cmc (.created c) refund)) := by
        simp only [createCanisterFinish, Transaction.hash_eq_some, noteCanister]
      rcases hf with hf | hf
      · simp only at hf
        subst hf
        simp only [Sys.exec, hp, finishCreate]
        rw [hfin]
        exact ⟨rfl, rfl, fun c' r' h => by cases h; exact Or.inl rfl⟩
      · simp only at hf
        subst hf
        simp only [Sys.exec, hp, finishCreate]
        rw [hfin]
        exact ⟨rfl, rfl, fun c' r' h => by cases h; exact Or.inr rfl⟩
    | _ => simp [Spec.returned] at hr

/-- A callback that belongs to nothing does nothing. -/
theorem exec_callback_none {y : Sys} {i : Nat} {ans : Answer}
    (h : ∀ p, y.pending[i]? = some p → ¬Spec.Fits p ans) :
    y.exec (.callback i ans) = (y, .silent) := by
  simp only [Sys.exec]
  cases hp : y.pending[i]? with
  | none => rfl
  | some p =>
    have := h p hp
    obtain ⟨kind, d, call⟩ := p
    cases ans <;> cases kind <;> simp [Spec.Fits] at this <;> rfl

end CyclesLedger
