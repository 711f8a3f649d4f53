import Verif.Proof.Origin
import Verif.Proof.Keys
/-!
# Deduplication: what a hit in the table leads to, and how long entries last
-/
namespace CyclesLedger

/-! ## Memos -/

theorem principal_ext {p q : Principal} (h : p.bytes = q.bytes) : p = q := by
  cases p; cases q; simp only at h; subst h; rfl

theorem burnMemo_inj {a b : Option Principal} (h : Spec.burnMemo a = Spec.burnMemo b) : a = b := by
  have h1 : ∀ p : Principal, Spec.burnMemo (some p) ≠ Spec.burnMemo none := by
    intro p hp
    unfold Spec.burnMemo at hp
    simp only at hp
    split at hp
    · have := congrArg List.head? hp; simp [List.replicate] at this
    · have := congrArg List.head? hp; simp [List.replicate] at this
  cases a with
  | none =>
    cases b with
    | none => rfl
    | some q => exact absurd h.symm (h1 q)
  | some p =>
    cases b with
    | none => exact absurd h (h1 p)
    | some q =>
      congr 1
      apply principal_ext
      unfold Spec.burnMemo at h
      simp only at h
      have hp := p.le
      have hq := q.le
      split at h <;> split at h
      · simp only [List.cons_append, List.nil_append, List.cons.injEq] at h
        exact h.2.2
      · rename_i h2 h3
        simp only [List.cons_append, List.nil_append, List.cons.injEq] at h
        have := congrArg UInt8.toNat h.2.1
        simp only [UInt8.toNat_ofNat'] at this
        have h88 : UInt8.toNat 0x58 = 88 := rfl
        rw [h88] at this
        omega
      · rename_i h2 h3
        simp only [List.cons_append, List.nil_append, List.cons.injEq] at h
        have := congrArg UInt8.toNat h.2.1
        simp only [UInt8.toNat_ofNat'] at this
        have h88 : UInt8.toNat 0x58 = 88 := rfl
        rw [h88] at this
        omega
      · simp only [List.cons_append, List.nil_append, List.cons.injEq] at h
        exact h.2.2.2

variable [Crypto]

/-- Every burn block in the log records a burn that was allowed. -/
theorem Reachable.burn_blocks {y : Sys} (h : Reachable y) : ∀ b ∈ y.ledger.blocks,
    ∀ frm sp x, b.transaction.operation = .burn frm sp x →
      ∃ to, b.transaction.memo = some (Spec.burnMemo to) ∧
        Spec.ReceiverValid ⟨frm, sp, x, b.transaction.createdAtTime⟩ to := by
  refine h.block_induct ?_ ?_
  · intro b a x hb frm sp y hop
    rw [hb] at hop; cases hop
  · intro y m b _ _ hrec frm sp x hop
    cases hrec with
    | request h1 h2 =>
      cases m <;> simp only [Spec.requestTransaction, Spec.transferRequest, Spec.approveRequest,
        Spec.burnRequest, Spec.TransferReq.transaction, Spec.ApproveReq.transaction,
        Spec.BurnReq.transaction, Option.some.injEq, reduceCtorEq] at h1 <;> rw [← h1] at hop ⊢ <;>
        cases hop
      · exact ⟨_, rfl, h2 _ _ rfl⟩
      · exact ⟨_, rfl, h2 _ _ rfl⟩
      · exact ⟨_, rfl, h2 _ _ rfl⟩
      · exact ⟨_, rfl, h2 _ _ rfl⟩
    | refund kind p back _ _ h1 => rw [h1] at hop; cases hop
    | allowance kind p back sp' s _ _ h1 => rw [h1] at hop; cases hop

/-! ## A hit in the table -/

omit [Crypto] in
theorem toU128_of_le {n : Nat} (h : n ≤ U128MAX) : toU128 n = some n := toU128_eq_some.mpr ⟨h, rfl⟩

omit [Crypto] in
theorem natOpt_of_le {o : Option Nat} (h : OptLe o U128MAX) : natOpt o = some o := by
  cases o with
  | none => rfl
  | some n => simp [natOpt, toU128_of_le (h n rfl)]

omit [Crypto] in
theorem FeeOk.le {f : Option Nat} (h : FeeOk f) : OptLe f U128MAX := by
  intro n hn
  rcases h with rfl | rfl
  · cases hn
  · cases hn; rw [FEE_eq, U128MAX_eq]; decide

theorem executeTransfer_dup {s : State} {frm to : Account} {sp : Option Account} {amount now : Nat}
    {fee cat : Option Nat} {memo : Option Bytes} {d : Nat} {c : Option Principal}
    (ha : amount ≤ U128MAX) (hf : OptLe fee U128MAX)
    (hg : s.transactionHashes.get (Transaction.mk (.transfer frm to sp amount fee) cat memo).hash! =
      some (d, c)) :
    executeTransfer s frm to sp amount fee memo cat now = .err (.duplicate d) s := by
  unfold executeTransfer
  rw [toU128_of_le ha, natOpt_of_le hf]
  simp only
  unfold transfer
  simp only
  rw [checkDuplicate_eq_some.mpr ⟨d, c, hg, rfl⟩]
  rfl

theorem icrc2Approve_dup {s : State} {caller : Principal} {args : ApproveArgs} {now : Nat} {d : Nat}
    {c : Option Principal} (he : OptLe args.expectedAllowance U128MAX) (hf : OptLe args.fee U128MAX)
    (hg : s.transactionHashes.get (args.req caller).transaction.hash! = some (d, c)) :
    icrc2Approve s caller args now = .err (.duplicate d) s := by
  have hU : 2 ^ 128 - 1 = U128MAX := by rw [U128MAX_eq]
  have hmin : (toU128 args.amount).getD U128MAX = min args.amount U128MAX := by
    unfold toU128; split <;> simp <;> omega
  unfold icrc2Approve
  simp only
  rw [natOpt_of_le he, natOpt_of_le hf]
  simp only
  unfold approve
  simp only
  rw [checkDuplicate_eq_some.mpr ⟨d, c, by
    rw [hmin, ← hU]; exact hg, rfl⟩]
  rfl

theorem executeWithdraw_dup {s : State} {frm : Account} {to : Principal} {sp : Option Account}
    {amount now : Nat} {cat : Option Nat} {d : Nat} {c : Option Principal}
    (ha : amount ≤ U128MAX) (hu : ¬Spec.IsUserPrincipal to) (h0 : 0 < amount)
    (hg : s.transactionHashes.get
      (Transaction.mk (.burn frm sp amount) cat (some (encodeWithdrawMemo to))).hash! =
      some (d, c)) :
    executeWithdraw s frm to sp amount cat now = .err (.duplicate d) s := by
  unfold executeWithdraw
  rw [toU128_of_le ha]
  simp only
  unfold withdrawStart
  rw [if_neg (fun h => hu ((isSelfAuthenticating_iff to).mp h)), if_neg (by omega)]
  simp only
  rw [checkDuplicate_eq_some.mpr ⟨d, c, hg, rfl⟩]
  rfl

theorem executeCreate_dup {s : State} {frm : Account} {sp : Option Account}
    {amount now : Nat} {cat : Option Nat} {d : Nat} {c : Option Principal}
    (ha : amount ≤ U128MAX)
    (hg : s.transactionHashes.get
      (Transaction.mk (.burn frm sp amount) cat (some CREATE_CANISTER_MEMO)).hash! = some (d, c)) :
    executeCreateCanister s frm sp amount cat now = .err (.duplicate d c) s := by
  unfold executeCreateCanister
  rw [toU128_of_le ha]
  simp only
  unfold createCanisterStart
  simp only
  rw [checkDuplicate_eq_some.mpr ⟨d, c, hg, rfl⟩]
  rfl

/-- A request whose transaction is in the table, and fits, is answered `Duplicate`. -/
theorem exec_dup {y : Sys} {m : Msg} {t : Transaction} {d tm : Nat} {c : Option Principal}
    (hm : Spec.requestTransaction m = some t) (hcat : t.createdAtTime.isSome)
    (hop : OpOk tm t.operation)
    (hrv : ∀ r to, Spec.burnRequest m = some (r, to) → Spec.ReceiverValid r to)
    (hg : y.ledger.transactionHashes.get t.hash! = some (d, c)) :
    (y.exec m).1 = y ∧ Spec.SaysDuplicate (y.exec m).2 d ∧
    (∀ r, Spec.burnRequest m = some (r, none) →
      Spec.burnError (y.exec m).2 = some (.duplicate d (some c))) := by
  cases m with
  | deposit c cy a =>
    simp only [Spec.requestTransaction, Option.some.injEq] at hm
    subst hm; cases hcat
  | transfer caller args =>
    cases hm
    obtain ⟨h1, h2, _⟩ := hop
    have := executeTransfer_dup (now := y.now) (Nat.le_trans (Nat.le_add_right _ FEE) h1) h2.le hg
    simp only [Sys.exec, icrc1Transfer]
    unfold opt64
    simp only at this
    rw [this]
    exact ⟨rfl, Or.inl rfl, fun r h => nomatch h⟩
  | transferFrom caller args =>
    cases hm
    obtain ⟨h1, h2, _⟩ := hop
    have := executeTransfer_dup (now := y.now) (Nat.le_trans (Nat.le_add_right _ FEE) h1) h2.le hg
    simp only [Sys.exec, icrc2TransferFrom]
    unfold opt64
    simp only at this
    rw [this]
    exact ⟨rfl, Or.inl rfl, fun r h => nomatch h⟩
  | approve caller args =>
    cases hm
    obtain ⟨_, h1, _, h2, _⟩ := hop
    simp only [Sys.exec]
    rw [icrc2Approve_dup (args := args) (caller := caller) h1 h2.le hg]
    exact ⟨rfl, Or.inr (Or.inl rfl), fun r h => nomatch h⟩
  | withdraw caller args sync =>
    cases hm
    have hv := hrv _ _ rfl
    have := executeWithdraw_dup (now := y.now) (to := args.to) (s := y.ledger)
      (frm := ⟨caller, args.fromSubaccount⟩) (sp := none) (amount := args.amount)
      (cat := opt64 args.createdAtTime) (d := d) (c := c)
      (by have : args.amount + FEE ≤ U128MAX := hop; omega) hv.1 hv.2 (by
        rw [← burnMemo_some]; exact hg)
    simp only [Sys.exec]
    rw [this]
    exact ⟨rfl, Or.inr (Or.inr ⟨_, rfl⟩), fun r h => nomatch h⟩
  | withdrawFrom caller args sync =>
    cases hm
    have hv := hrv _ _ rfl
    have := executeWithdraw_dup (now := y.now) (to := args.to) (s := y.ledger)
      (frm := args.frm) (sp := some ⟨caller, args.spenderSubaccount⟩) (amount := args.amount)
      (cat := opt64 args.createdAtTime) (d := d) (c := c)
      (by have : args.amount + FEE ≤ U128MAX := hop; omega) hv.1 hv.2 (by
        rw [← burnMemo_some]; exact hg)
    simp only [Sys.exec]
    rw [this]
    exact ⟨rfl, Or.inr (Or.inr ⟨_, rfl⟩), fun r h => nomatch h⟩
  | createCanister caller args sync =>
    cases hm
    have := executeCreate_dup (now := y.now) (s := y.ledger)
      (frm := ⟨caller, args.fromSubaccount⟩) (sp := none) (amount := args.amount)
      (cat := opt64 args.createdAtTime) (d := d) (c := c)
      (by have : args.amount + FEE ≤ U128MAX := hop; omega) hg
    simp only [Sys.exec]
    rw [this]
    exact ⟨rfl, Or.inr (Or.inr ⟨_, rfl⟩), fun r h => rfl⟩
  | createCanisterFrom caller args sync =>
    cases hm
    have := executeCreate_dup (now := y.now) (s := y.ledger)
      (frm := args.frm) (sp := some ⟨caller, args.spenderSubaccount⟩) (amount := args.amount)
      (cat := opt64 args.createdAtTime) (d := d) (c := c)
      (by have : args.amount + FEE ≤ U128MAX := hop; omega) hg
    simp only [Sys.exec]
    rw [this]
    exact ⟨rfl, Or.inr (Or.inr ⟨_, rfl⟩), fun r h => rfl⟩
  | callback i a => cases hm
  | lostCallback i => cases hm
  | upgrade a => cases hm

/-- A request that is recorded in the log would be valid but for being a duplicate. -/
theorem Reachable.block_request {y : Sys} (h : Reachable y) {b : Block} (hb : b ∈ y.ledger.blocks)
    {m : Msg} (hm : Spec.requestTransaction m = some b.transaction) :
    OpOk b.timestamp b.transaction.operation ∧
    (∀ r to, Spec.burnRequest m = some (r, to) → Spec.ReceiverValid r to) := by
  obtain ⟨pre, suf, heq⟩ := List.append_of_mem hb
  refine ⟨(h.inv.ledger.log pre b suf heq).op, ?_⟩
  intro r to hbr
  have ht : b.transaction = r.transaction to := by
    cases m <;> cases hbr <;> exact (Option.some.inj hm).symm
  obtain ⟨to', h1, h2⟩ := h.burn_blocks b hb r.frm r.spender r.amount (by rw [ht]; rfl)
  rw [ht] at h1 h2
  have := burnMemo_inj (Option.some.inj h1)
  subst this
  exact h2

/-! ## How long entries last -/

/-- The blocks of outstanding calls are all different. -/
theorem Reachable.pending_nodup {y : Sys} (h : Reachable y) :
    (y.pending.map (fun q => q.data.blockIndex)).Nodup := by
  obtain ⟨config, now, cycles, y0, es, h0, rfl⟩ := h
  have hi0 := SInv.init h0
  have hk0 : (y0.pending.map (fun q => q.data.blockIndex)).Nodup := by
    unfold Sys.init at h0
    rw [Option.map_eq_some_iff] at h0
    obtain ⟨s, _, rfl⟩ := h0
    exact .nil
  clear h0
  induction es generalizing y0 with
  | nil => exact hk0
  | cons e es ih =>
    refine ih _ (hi0.step e) ?_
    have hi := hi0.tick e.dt
    have hk : ((y0.tick e.dt).pending.map (fun q => q.data.blockIndex)).Nodup := hk0
    rw [Sys.step]
    generalize y0.tick e.dt = y at hi hk
    generalize e.msg = m
    have same : (y.exec m).1.pending = y.pending →
        ((y.exec m).1.pending.map (fun q => q.data.blockIndex)).Nodup := fun h => by rw [h]; exact hk
    have erase : ∀ i, (y.exec m).1.pending = y.pending.eraseIdx i →
        ((y.exec m).1.pending.map (fun q => q.data.blockIndex)).Nodup := by
      intro i h
      rw [h]
      exact hk.sublist ((List.eraseIdx_sublist _ _).map _)
    rcases msg_cases m with ⟨r, to, hm⟩ | ⟨r, hm⟩ | ⟨r, hm⟩ | ⟨c, cy, a, rfl⟩ | ⟨i, a, rfl⟩ |
      ⟨i, rfl⟩ | ⟨a, rfl⟩
    · rcases exec_burn hi hm with ⟨s1, p, hs⟩ | ⟨e, he⟩
      · obtain ⟨_, _, _, _, ⟨old, hp, _⟩, _, ⟨_, h1⟩ | ⟨_, h1⟩⟩ := hs
        · rw [h1]
          simp only [sent, List.map_append, List.map_cons, List.map_nil]
          rw [List.nodup_append]
          refine ⟨hk, by simp, ?_⟩
          intro a ha b hb
          rw [List.mem_singleton] at hb
          obtain ⟨q, hq, rfl⟩ := List.mem_map.mp ha
          obtain ⟨b', hb', _⟩ := (hi.pending q hq).block
          have := (List.getElem?_eq_some_iff.mp hb').1
          rw [hb, hp]
          simp only
          omega
        · exact same h1.pending.1
      · exact same (by rw [he.1])
    · rcases exec_transfer hi hm with ⟨s', h1, _⟩ | ⟨e, h1, _⟩ | ⟨h1, _⟩ <;>
        exact same (by rw [h1])
    · rcases exec_approve hi hm with ⟨s', h1, _⟩ | ⟨e, h1, _⟩ | ⟨h1, _⟩ <;>
        exact same (by rw [h1])
    · rcases exec_deposit hi c cy a with ⟨s', h1, _⟩ | ⟨h1, _⟩ <;> exact same (by rw [h1])
    · rcases exec_callback_cases hi i a with ⟨h1, _⟩ | ⟨p, _, _, ⟨_, h1, _⟩ | ⟨back, _, h1⟩⟩
      · exact same (by rw [h1])
      · exact erase i (by rw [h1]; rfl)
      · exact erase i h1.pending.1
    · exact erase i rfl
    · refine same ?_
      simp only [Sys.exec]
      split <;> rfl

omit [Crypto] in
theorem nodup_index {α β : Type} {f : α → β} {l : List α} (h : (l.map f).Nodup) {i j : Nat} {a b : α}
    (ha : l[i]? = some a) (hb : l[j]? = some b) (he : f a = f b) : i = j := by
  obtain ⟨hi, rfl⟩ := List.getElem?_eq_some_iff.mp ha
  obtain ⟨hj, rfl⟩ := List.getElem?_eq_some_iff.mp hb
  have hp := List.pairwise_iff_getElem.mp h
  rcases Nat.lt_trichotomy i j with hlt | heq | hlt
  · exact absurd (by rw [List.getElem_map, List.getElem_map]; exact he) (hp i j (by simpa using hi) (by simpa using hj) hlt)
  · exact heq
  · exact absurd (by rw [List.getElem_map, List.getElem_map]; exact he.symm) (hp j i (by simpa using hj) (by simpa using hi) hlt)

/-- The entry `h ↦ (i, c)` is there, for a block of that hash and a `created_at_time`
that is not too old. -/
def Entry (now : Nat) (s : State) (h : Hash) (i : Nat) (c : Option Principal) (b : Block) : Prop :=
  s.transactionHashes.get h = some (i, c) ∧ s.blocks[i]? = some b ∧ b.transaction.hash! = h ∧
  ∃ ts, b.transaction.createdAtTime = some ts ∧ isBeforeTransactionWindow ts now = false

theorem Entry.effect {now : Nat} {s s' : State} {t : Transaction} (he : Effect now s s' t)
    {h : Hash} {i : Nat} {c : Option Principal} {b : Block} (hen : Entry now s h i c b)
    (hn : ¬Spec.Collision (s'.blocks.map Block.transaction)) : Entry now s' h i c b := by
  obtain ⟨h1, h2, h3, ts, h4, h5⟩ := hen
  refine ⟨he.keep hn h i c b ts h1 h2 h4 h5, ?_, h3, ts, h4, h5⟩
  rw [he.blocks, List.getElem?_append_left (List.getElem?_eq_some_iff.mp h2).1]
  exact h2

theorem Collision_prefix {bs bs' : List Block} (hp : bs <+: bs')
    (hn : ¬Spec.Collision (bs'.map Block.transaction)) : ¬Spec.Collision (bs.map Block.transaction) := by
  intro h
  apply hn
  refine h.mono ?_
  intro t ht
  obtain ⟨b, hb, rfl⟩ := List.mem_map.mp ht
  exact List.mem_map_of_mem (hp.subset hb)

theorem Entry.failed {y : Sys} {s : State} {kind : CallKind} {p : Suspended} {back : Nat}
    {out : Sys × Reply} (hf : Failed y s kind p back out) {h : Hash} {i : Nat}
    {c : Option Principal} {b : Block} (hen : Entry y.now s h i c b)
    (hy : out = (y, .trapped) → Entry y.now y.ledger h i c b)
    (hn : ¬Spec.Collision (out.1.ledger.blocks.map Block.transaction)) :
    Entry y.now out.1.ledger h i c b := by
  rcases hf with ⟨h1, _⟩ | ⟨fb, ab, s', h1, hr, _⟩
  · have := hy h1; rw [h1]; exact this
  · rw [h1] at hn ⊢
    simp only at hn ⊢
    rcases hr with ⟨_, _, _, rfl⟩ | ⟨_, _, _, he, _⟩ | ⟨_, _, _, sp, s2, _, he, he2⟩
    · exact hen
    · exact hen.effect he hn
    · refine (hen.effect he ?_).effect he2 hn
      exact Collision_prefix (by rw [he2.blocks]; exact List.prefix_append _ _) hn

/-- A message keeps an entry, unless it is the answer to the call the entry is about. -/
theorem exec_keep {y : Sys} (hi : SInv y) (m : Msg) {h : Hash} {i : Nat} {c : Option Principal}
    {b : Block} (hen : Entry y.now y.ledger h i c b)
    (hp : ∀ q ∈ y.pending, q.data.blockIndex ≠ i)
    (hn : ¬Spec.Collision ((y.exec m).1.ledger.blocks.map Block.transaction)) :
    Entry y.now (y.exec m).1.ledger h i c b := by
  have same : (y.exec m).1.ledger = y.ledger → Entry y.now (y.exec m).1.ledger h i c b :=
    fun h => by rw [h]; exact hen
  have one : ∀ s' t, (y.exec m).1.ledger = s' → Effect y.now y.ledger s' t →
      Entry y.now (y.exec m).1.ledger h i c b := by
    intro s' t h1 he
    rw [h1] at hn ⊢
    exact hen.effect he hn
  rcases msg_cases m with ⟨r, to, hm⟩ | ⟨r, hm⟩ | ⟨r, hm⟩ | ⟨cc, cy, a, rfl⟩ | ⟨k, a, rfl⟩ |
    ⟨k, rfl⟩ | ⟨a, rfl⟩
  · rcases exec_burn hi hm with ⟨s1, p, he, _, _, _, _, _, ⟨_, h1⟩ | ⟨_, h1⟩⟩ | ⟨e, he⟩
    · exact one s1 _ (by rw [h1]; rfl) he
    · by_cases htrap : y.exec m = (y, .trapped)
      · exact same (by rw [htrap])
      · refine Entry.failed h1 (hen.effect he ?_) (fun h => absurd h htrap) hn
        obtain ⟨new, hb, _⟩ := h1.blocks (fun h => absurd h htrap)
        exact Collision_prefix (by rw [hb]; exact List.prefix_append _ _) hn
    · exact same (by rw [he.1])
  · rcases exec_transfer hi hm with ⟨s', h1, _, _, _, he, _⟩ | ⟨e, h1, _⟩ | ⟨h1, _⟩
    · exact one s' _ (by rw [h1]) he
    · exact same (by rw [h1])
    · exact same (by rw [h1])
  · rcases exec_approve hi hm with ⟨s', h1, _, _, _, he, _⟩ | ⟨e, h1, _⟩ | ⟨h1, _⟩
    · exact one s' _ (by rw [h1]) he
    · exact same (by rw [h1])
    · exact same (by rw [h1])
  · rcases exec_deposit hi cc cy a with ⟨s', h1, he, _⟩ | ⟨h1, _⟩
    · exact one s' _ (by rw [h1]) he
    · exact same (by rw [h1])
  · rcases exec_callback_cases hi k a with ⟨h1, _⟩ | ⟨p, hpk, _, ⟨_, h1, _⟩ | ⟨back, _, h1⟩⟩
    · exact same (by rw [h1])
    · rw [h1] at hn ⊢
      simp only at hn ⊢
      unfold noteCanister at hn ⊢
      split at hn
      · split at hn
        · rename_i c' _ hcon
          simp only [hcon, if_true] at hn ⊢
          obtain ⟨h2, h3, h4, ts, h5, h6⟩ := hen
          refine ⟨?_, h3, h4, ts, h5, h6⟩
          simp only [SMap.get_insert]
          rw [if_neg]
          · exact h2
          · intro heq
            obtain ⟨b', hb', hbt⟩ := (hi.pending p (List.mem_of_getElem? hpk)).block
            have hhash : b.transaction.hash! = b'.transaction.hash! := by rw [hbt, h4, heq]
            have htt : b.transaction = b'.transaction := by
              refine Classical.byContradiction fun hne => hn ⟨b.transaction, ?_, b'.transaction, ?_,
                hne, ?_⟩
              · exact List.mem_map_of_mem (List.mem_of_getElem? h3)
              · exact List.mem_map_of_mem (List.mem_of_getElem? hb')
              · rw [Transaction.hash_eq_some, Transaction.hash_eq_some, hhash]
            have := (hi.ledger.hashInv hn).2 i p.data.blockIndex b b' h3 hb' (by rw [h5]; rfl)
              (by rw [← htt, h5]; rfl) hhash
            exact hp p (List.mem_of_getElem? hpk) this.symm
        · rename_i hcon
          simp only [hcon] at hn ⊢
          exact hen
      · exact hen
    · exact Entry.failed h1 hen (fun _ => hen) hn
  · exact same rfl
  · have h1 : (y.exec (.upgrade a)).1.ledger.blocks = y.ledger.blocks ∧
        (y.exec (.upgrade a)).1.ledger.transactionHashes = y.ledger.transactionHashes := by
      simp only [Sys.exec]
      split
      · exact ⟨rfl, rfl⟩
      · rename_i s' h
        have := (hi.ledger.postUpgrade h).1
        rw [this]
        exact ⟨rfl, rfl⟩
    unfold Entry
    rw [h1.1, h1.2]
    exact hen

/-- Time does not run backwards, and the log only grows. -/
theorem step_grows {y : Sys} (hi : SInv y) (e : Event) :
    y.now ≤ (y.step e).1.now ∧ (y.step e).1.now = (y.tick e.dt).now ∧
    y.ledger.blocks <+: (y.step e).1.ledger.blocks := by
  have hn : ((y.tick e.dt).exec e.msg).1.now = (y.tick e.dt).now := (exec_moved (hi.tick e.dt) e.msg).now
  have hc := hi.ledger.clock
  refine ⟨?_, hn, ?_⟩
  · rw [Sys.step, hn]
    unfold Sys.tick
    simp only
    omega
  · obtain ⟨new, h1, _⟩ := exec_blocks (hi.tick e.dt) e.msg
    rw [Sys.step, h1]
    exact List.prefix_append _ _

theorem run_grows {y : Sys} (hi : SInv y) (es : List Event) :
    y.now ≤ (y.run es).now ∧ y.ledger.blocks <+: (y.run es).ledger.blocks := by
  induction es generalizing y with
  | nil => exact ⟨Nat.le_refl _, List.prefix_refl _⟩
  | cons e es ih =>
    have h1 := step_grows hi e
    have h2 := ih (hi.step e)
    exact ⟨Nat.le_trans h1.1 h2.1, h1.2.2.trans h2.2⟩

theorem Reachable.run {y : Sys} (h : Reachable y) (es : List Event) : Reachable (y.run es) := by
  induction es generalizing y with
  | nil => exact h
  | cons e es ih => exact ih (h.step e)

/-- An entry about no outstanding call lasts as long as it is in the window. -/
theorem run_keep {y : Sys} (hi : SInv y) (es : List Event) {h : Hash} {i : Nat}
    {c : Option Principal} {b : Block} {ts : Nat} (hg : y.ledger.transactionHashes.get h = some (i, c))
    (hb : y.ledger.blocks[i]? = some b) (hh : b.transaction.hash! = h)
    (hts : b.transaction.createdAtTime = some ts)
    (hp : ∀ q ∈ y.pending, q.data.blockIndex ≠ i)
    (hn : ¬Spec.Collision ((y.run es).ledger.blocks.map Block.transaction))
    (hw : isBeforeTransactionWindow ts (y.run es).now = false) :
    (y.run es).ledger.transactionHashes.get h = some (i, c) := by
  induction es generalizing y with
  | nil => exact hg
  | cons e es ih =>
    have hrun : y.run (e :: es) = (y.step e).1.run es := rfl
    rw [hrun] at hn hw ⊢
    have hg1 := step_grows hi e
    have hg2 := run_grows (hi.step e) es
    have hw1 : isBeforeTransactionWindow ts (y.tick e.dt).now = false := by
      cases hx : isBeforeTransactionWindow ts (y.tick e.dt).now with
      | false => rfl
      | true => rw [isBefore_mono hx (by rw [← hg1.2.1]; exact hg2.1)] at hw; cases hw
    have hen : Entry (y.tick e.dt).now (y.tick e.dt).ledger h i c b := ⟨hg, hb, hh, ts, hts, hw1⟩
    have hk := exec_keep (hi.tick e.dt) e.msg hen hp (Collision_prefix hg2.2 hn)
    refine ih (hi.step e) hk.1 hk.2.1 ?_ hn hw
    intro q hq
    rcases exec_pending (hi.tick e.dt) e.msg hq with h1 | ⟨r, to, s1, p, _, hs, rfl⟩
    · exact hp q h1
    · obtain ⟨_, _, _, _, ⟨old, rfl, _⟩, _⟩ := hs
      have := (List.getElem?_eq_some_iff.mp hb).1
      intro h
      have : (y.tick e.dt).ledger.blocks.length = i := h
      have : y.ledger.blocks.length = i := this
      omega

end CyclesLedger
