import Verif.Proof.Machine
/-!
# C90: the ledger behaves like its reference ledger
-/
namespace CyclesLedger

/-- What can be seen of the ledger and of the reference ledger is the same. -/
structure Spec.Mirrors (y : Sys) (r : Spec.Ref) : Prop where
  log : y.ledger.blocks = r.log
  now : y.now = r.now
  pending : y.pending = r.pending
  cycles : y.cycles = r.cycles
  limit : y.ledger.config.maxBlocksPerRequest = r.limit
  index : y.ledger.config.indexId = r.index
  balance : ∀ a, icrc1BalanceOf y.ledger a = r.balance a
  supply : icrc1TotalSupply y.ledger = r.supply
  allowance : ∃ app, Spec.Recalls r app ∧ ∀ a sp,
    (icrc2Allowance y.ledger a sp y.now).1 = Spec.shown r.now (app a sp) ∧
    (∀ e, (icrc2Allowance y.ledger a sp y.now).2 = some e ↔
      0 < e ∧ r.now ≤ e ∧ ∃ x, app a sp = some (x, e))

section
variable [Crypto]

theorem LSim.config {s : State} {now : Nat} {r : Spec.Ref} (h : LSim s now r) (c : Config) :
    LSim { s with config := c } now
      { r with limit := c.maxBlocksPerRequest, index := c.indexId } :=
  ⟨h.log, h.now, rfl, rfl, h.fresh, h.made⟩

/-- The mints of the installation. -/
def Spec.Ref.mints (r : Spec.Ref) (l : List (Account × Nat)) : Spec.Ref :=
  l.foldl (fun r e => r.append ⟨.mint e.1 e.2 100000000, none, none⟩) r

theorem LSim.mints {s s' : State} {now : Nat} {r : Spec.Ref} (h : LSim s now r) (hi : LInv now s)
    {l : List (Account × Nat)} (hm : mintInitial s now l = some s') :
    LSim s' now (r.mints l) := by
  induction l generalizing s r with
  | nil =>
    simp only [mintInitial, Option.some.injEq] at hm
    subst hm
    exact h
  | cons x xs ih =>
    obtain ⟨a, n⟩ := x
    simp only [mintInitial] at hm
    split at hm
    · rename_i i s1 hmint
      obtain ⟨_, ha⟩ := mint_ok hmint
      have he := ha.effect hi
      have h1 := h.append hi he
      rw [FEE_eq] at h1
      exact ih h1 he.inv hm
    · cases hm

theorem mints_config (r : Spec.Ref) (l : List (Account × Nat)) (n : Nat) (p : Option Principal) :
    { r.mints l with limit := n, index := p } = Spec.Ref.mints { r with limit := n, index := p } l := by
  induction l generalizing r with
  | nil => rfl
  | cons x xs ih => exact ih _

theorem mints_pending (r : Spec.Ref) (l : List (Account × Nat)) : (r.mints l).pending = r.pending := by
  induction l generalizing r with
  | nil => rfl
  | cons x xs ih => exact ih _

theorem mints_cycles (r : Spec.Ref) (l : List (Account × Nat)) : (r.mints l).cycles = r.cycles := by
  induction l generalizing r with
  | nil => rfl
  | cons x xs ih => exact ih _

theorem Sim.init {config : Config} {now cycles : Nat} {y : Sys}
    (h : Sys.init config now cycles = some y) : Sim y (Spec.Ref.init config now cycles) := by
  unfold Sys.init at h
  rw [Option.map_eq_some_iff] at h
  obtain ⟨s, hs, rfl⟩ := h
  unfold initLedger at hs
  split at hs
  · cases hs
  · rename_i s0 hm
    cases hs
    have h0 : LSim State.empty (min now U64MAX) ⟨[], min now U64MAX, [], cycles,
        Config.default.maxBlocksPerRequest, Config.default.indexId, fun _ => none⟩ :=
      ⟨rfl, rfl, rfl, rfl, fun _ _ => rfl, Or.inr (fun h i x hg => by cases hg)⟩
    have h1 := h0.mints (LInv.empty (Nat.min_le_right _ _)) hm
    have h4 := h1.config config
    rw [mints_config] at h4
    have h5 : Spec.Ref.init config now cycles = Spec.Ref.mints ⟨[], min now U64MAX, [], cycles,
        config.maxBlocksPerRequest, config.indexId, fun _ => none⟩
          (config.initialBalances.getD []) := by
      unfold Spec.Ref.init Spec.Ref.mints
      rw [U64MAX_eq]
    rw [h5]
    exact ⟨h4, mints_pending _ _, mints_cycles _ _⟩

theorem Sim.tick {y : Sys} {r : Spec.Ref} (h : Sim y r) (dt : Nat) : Sim (y.tick dt) (r.tick dt) where
  ledger := by
    refine ⟨h.ledger.log, ?_, h.ledger.limit, h.ledger.index, h.ledger.fresh, h.ledger.made⟩
    simp only [Spec.Ref.tick, Sys.tick]
    rw [h.ledger.now, U64MAX_eq]
  pending := h.pending
  cycles := h.cycles

theorem Sim.run {y : Sys} {r : Spec.Ref} (h : Sim y r) (hr : Reachable y) (es : List Event) :
    ∃ r', Spec.Steps r es r' (Spec.replies y es) ∧ Sim (y.run es) r' := by
  induction es generalizing y r with
  | nil => exact ⟨r, .nil, h⟩
  | cons e es ih =>
    obtain ⟨r1, h1, h2⟩ := (h.tick e.dt).step (hr.inv.tick e.dt) e.msg
    obtain ⟨r2, h3, h4⟩ := ih h2 (hr.step e)
    exact ⟨r2, .cons h1 h3, h4⟩

theorem Sim.shows {y : Sys} {r : Spec.Ref} (h : Sim y r) (hi : SInv y) : Spec.Mirrors y r where
  log := h.ledger.log.symm
  now := h.ledger.now.symm
  pending := h.pending.symm
  cycles := h.cycles.symm
  limit := h.ledger.limit.symm
  index := h.ledger.index.symm
  balance a := (h.ledger.balance hi.ledger a).symm
  supply := (h.ledger.supply hi.ledger).symm
  allowance := ⟨_, h.ledger.recalls hi.ledger, fun a sp => by
    rw [icrc2Allowance_shown, h.ledger.now]
    refine ⟨rfl, fun e => ?_⟩
    unfold icrc2Allowance allowance Spec.stored
    cases hg : y.ledger.approvals.get (a.key, sp.key) with
    | none => simp
    | some v =>
      obtain ⟨x, e'⟩ := v
      simp only [Option.getD_some, Option.some.injEq, Prod.mk.injEq]
      by_cases h1 : e' > 0 ∧ e' < y.now
      · have hc : (decide (e' > 0) && decide (e' < y.now)) = true := by simpa using h1
        simp only [hc, if_true, gt_iff_lt, Nat.lt_irrefl, if_false, reduceCtorEq, false_iff]
        rintro ⟨h2, h3, x', rfl, rfl⟩
        omega
      · have hc : (decide (e' > 0) && decide (e' < y.now)) = false := by simpa using h1
        simp only [hc, Bool.false_eq_true, if_false]
        by_cases h2 : e' > 0
        · rw [if_pos h2]
          simp only [Option.some.injEq]
          constructor
          · rintro rfl
            exact ⟨h2, by omega, x, rfl, rfl⟩
          · rintro ⟨_, _, _, _, rfl⟩
            rfl
        · rw [if_neg h2]
          simp only [reduceCtorEq, false_iff]
          rintro ⟨h3, _, _, _, rfl⟩
          exact h2 h3⟩

end

/-- **C90**: whatever happens to a ledger from its installation on, the reference ledger can do the
same: it gives the same answers in the same order, and shows the same log, balances, allowances,
outstanding calls, cycles and settings. -/
theorem C90_run [Crypto] {config : Config} {now cycles : Nat} {y : Sys}
    (h : Sys.init config now cycles = some y) (es : List Event) :
    ∃ r, Spec.Steps (Spec.Ref.init config now cycles) es r (Spec.replies y es) ∧
      Spec.Mirrors (y.run es) r := by
  have hr : Reachable y := ⟨config, now, cycles, y, [], h, rfl⟩
  obtain ⟨r, h1, h2⟩ := (Sim.init h).run hr es
  exact ⟨r, h1, h2.shows (hr.inv.run es)⟩


open Toy in
/-- The busy little history, with its answers. -/
example : ∃ r, Spec.Steps (Spec.Ref.init cfg T 0) events r (Spec.replies start events) ∧
    Spec.Mirrors demo r ∧
    (Spec.replies start events).map Spec.okIndex =
      [some 0, some 1, some 2, some 3, none, none] ∧ r.pending.length = 2 := by
  obtain ⟨r, h1, h2⟩ := C90_run start_eq events
  exact ⟨r, h1, h2, by decide +kernel, by rw [← h2.pending]; decide +kernel⟩

/-! ## The reference ledger leaves nothing else open -/

/-- The transaction a message asks for. -/
def Spec.asked (m : Msg) : Option Transaction :=
  match Spec.transferRequest m, Spec.approveRequest m, Spec.burnRequest m with
  | some q, _, _ => some q.transaction
  | _, some q, _ => some q.transaction
  | _, _, some (q, to) => some (q.transaction to)
  | _, _, _ => none

/-- The transactions that a message may lead to: what it asks for, and refunds. -/
inductive Spec.MayRecord [Crypto] (r : Spec.Ref) : Msg → List Transaction → Prop
  | asked {m t} : Spec.asked m = some t → MayRecord r m [t]
  | notSent {m q to p sp} : Spec.burnRequest m = some (q, to) →
    MayRecord r m [(r.append (q.transaction to)).allowanceBack p sp q.amount,
      Spec.refundTransaction (Spec.kindOf m) p q.amount, q.transaction to]
  | failed {i p ans back sp} : r.pending[i]? = some p → Spec.returned p ans = some back →
    MayRecord r (.callback i ans) [r.allowanceBack p.data sp back,
      Spec.refundTransaction p.kind p.data back]

/-- Nothing is left open about message `m`: no allowance has expired, the transaction asked for is
not too old, none that carries a time is in the log twice, and no hashes collide. -/
structure Spec.Settled [Crypto] (r : Spec.Ref) (m : Msg) : Prop where
  live : ∀ frm sp a e, r.granted frm sp = some (a, e) → e = 0 ∨ r.now < e
  recent : ∀ t, Spec.asked m = some t → ¬Spec.TooOld t.createdAtTime r.now
  once : ∀ (i j : Nat) (b b' : Block), r.log[i]? = some b → r.log[j]? = some b' →
    b.transaction = b'.transaction → b.transaction.createdAtTime ≠ none → i = j
  apart : ∀ ts, Spec.MayRecord r m ts → ¬Spec.Collision (ts ++ r.log.map Block.transaction)

section
variable [Crypto] {r : Spec.Ref} {m : Msg}

theorem recalls_unique (h : Spec.Settled r m) {app : Account → Account → Option (Nat × Nat)}
    (ha : Spec.Recalls r app) : app = r.granted := by
  funext frm sp
  rcases ha frm sp with h1 | ⟨_, a, e, h2, h3, h4⟩
  · exact h1
  · rcases h.live _ _ _ _ h2 with h5 | h5 <;> omega

theorem recallsTx_unique (h : Spec.Settled r m) {t : Transaction} (ht : Spec.asked m = some t)
    {dup dup' : Option (Nat × Option Principal)}
    (h1 : Spec.RecallsTx r t dup) (h2 : Spec.RecallsTx r t dup') : dup = dup' := by
  have hc := h.apart _ (.asked ht)
  have hf := h.recent _ ht
  rcases h1 with h1 | ⟨h1, h1'⟩
  · exact absurd h1 hc
  rcases h2 with h2 | ⟨h2, h2'⟩
  · exact absurd h2 hc
  cases hd : dup with
  | none =>
    cases hd' : dup' with
    | none => rfl
    | some v =>
      obtain ⟨h3, _, b, h4, h5⟩ := h2 _ _ hd'
      exact absurd h5 (h1' hd hf h3 b (List.mem_of_getElem? h4))
  | some v =>
    obtain ⟨h3, h3', b, h4, h5⟩ := h1 _ _ hd
    cases hd' : dup' with
    | none => exact absurd h5 (h2' hd' hf h3 b (List.mem_of_getElem? h4))
    | some v' =>
      obtain ⟨_, h6', b', h7, h8⟩ := h2 _ _ hd'
      have := h.once _ _ _ _ h4 h7 (by rw [h5, h8]) (by rw [h5]; exact h3)
      obtain ⟨d, c⟩ := v
      obtain ⟨d', c'⟩ := v'
      simp only at h3' h6' this
      rw [h3', h6', this]

omit [Crypto] in
theorem onBehalf_unique {frm sp sp' : Account} {s : Option Account}
    (h : Spec.OnBehalf frm s sp) (h' : Spec.OnBehalf frm s sp') : sp = sp' := by
  have := h.1.symm.trans h'.1
  exact Option.some.inj this

omit [Crypto] in
theorem judgeTransfer_unique {app dup q v v'} (h : Spec.FirstOf (Spec.judgeTransfer r app dup q) v)
    (h' : Spec.FirstOf (Spec.judgeTransfer r app dup q) v') : v = v' := by
  refine h.unique ?_ h'
  intro x hx a b ha hb
  simp only [Spec.judgeTransfer, List.mem_cons, List.not_mem_nil, or_false] at hx
  rcases hx with rfl | rfl | rfl | rfl | rfl | rfl | rfl | rfl | rfl | rfl | rfl | rfl | rfl <;>
    first
    | exact ha.2.trans hb.2.symm
    | (obtain ⟨d, c, h1, rfl⟩ := ha; obtain ⟨d', c', h2, rfl⟩ := hb
       rw [h1] at h2; cases h2; rfl)
    | (obtain ⟨sp, h1, _, rfl⟩ := ha; obtain ⟨sp', h2, _, rfl⟩ := hb
       rw [onBehalf_unique h1 h2])

omit [Crypto] in
theorem judgeApprove_unique {app dup q v v'} (h : Spec.FirstOf (Spec.judgeApprove r app dup q) v)
    (h' : Spec.FirstOf (Spec.judgeApprove r app dup q) v') : v = v' := by
  refine h.unique ?_ h'
  intro x hx a b ha hb
  simp only [Spec.judgeApprove, List.mem_cons, List.not_mem_nil, or_false] at hx
  rcases hx with rfl | rfl | rfl | rfl | rfl | rfl | rfl | rfl | rfl | rfl | rfl | rfl <;>
    first
    | exact ha.2.trans hb.2.symm
    | (obtain ⟨d, c, h1, rfl⟩ := ha; obtain ⟨d', c', h2, rfl⟩ := hb
       rw [h1] at h2; cases h2; rfl)

omit [Crypto] in
theorem judgeBurn_unique {app dup q to v v'} (h : Spec.FirstOf (Spec.judgeBurn r app dup q to) v)
    (h' : Spec.FirstOf (Spec.judgeBurn r app dup q to) v') : v = v' := by
  refine h.unique ?_ h'
  intro x hx a b ha hb
  simp only [Spec.judgeBurn, List.mem_cons, List.not_mem_nil, or_false] at hx
  rcases hx with rfl | rfl | rfl | rfl | rfl | rfl | rfl | rfl | rfl <;>
    first
    | exact ha.2.trans hb.2.symm
    | (obtain ⟨d, c, h1, rfl⟩ := ha; obtain ⟨d', c', h2, rfl⟩ := hb
       rw [h1] at h2; cases h2; rfl)
    | (obtain ⟨p, h1, _, rfl⟩ := ha; obtain ⟨p', h2, _, rfl⟩ := hb
       rw [h1] at h2; cases h2; rfl)
    | (obtain ⟨sp, h1, _, rfl⟩ := ha; obtain ⟨sp', h2, _, rfl⟩ := hb
       rw [onBehalf_unique h1 h2])

omit [Crypto] in
theorem usesUntil_unique {q : Spec.BurnReq} {o o' : Option Nat} (h : Spec.UsesUntil r q o)
    (h' : Spec.UsesUntil r q o') : o = o' := by
  cases h with
  | own hn =>
    cases h' with
    | own => rfl
    | ever h1 => rfl
    | «until» h1 => exact absurd h1 (hn _)
  | ever h1 h2 =>
    cases h' with
    | own => rfl
    | ever => rfl
    | «until» h3 h4 h5 =>
      rw [onBehalf_unique h1 h3, h4] at h2
      cases h2; omega
  | «until» h1 h2 h3 =>
    cases h' with
    | own hn => exact absurd h1 (hn _)
    | ever h4 h5 =>
      rw [onBehalf_unique h1 h4, h5] at h2
      cases h2; omega
    | «until» h4 h5 h6 =>
      rw [onBehalf_unique h1 h4, h5] at h2
      cases h2; rfl

omit [Crypto] in
theorem explains_unique {e : CallError} {c c' : RejectionCode} (h : Spec.Explains e c)
    (h' : Spec.Explains e c') : c = c' := by
  cases h <;> cases h' <;> rfl

omit [Crypto] in
theorem failsWith_unique {a : Answer} {c c' : RejectionCode} (h : Spec.FailsWith a c)
    (h' : Spec.FailsWith a c') : c = c' := by
  cases h <;> cases h' <;> first | rfl | exact explains_unique (by assumption) (by assumption)

omit [Crypto] in
theorem principal_eq {p p' : Principal} (h : p.bytes = p'.bytes) : p = p' := by
  cases p; cases p'; cases h; rfl

omit [Crypto] in
theorem creationArg_unique {g : Option CmcArgs} {c : Principal} {x x' : CmcArgs}
    (h : Spec.CreationArg g c x) (h' : Spec.CreationArg g c x') : x = x' := by
  obtain ⟨h1, st, h2, h3, h4⟩ := h
  obtain ⟨h1', st', h2', h3', h4'⟩ := h'
  have hs : st = st' := by
    by_cases hg : ∃ g0 st0, g = some g0 ∧ g0.settings = some st0
    · obtain ⟨g0, st0, h5, h6⟩ := hg
      obtain ⟨h7, h8⟩ := h3 _ _ h5 h6
      obtain ⟨h7', h8'⟩ := h3' _ _ h5 h6
      cases hc : st0.controllers with
      | none => rw [h8 hc, h8' hc]
      | some cs => rw [h7 _ hc, h7' _ hc]
    · have hn : ∀ g0 st0, g = some g0 → g0.settings ≠ some st0 :=
        fun g0 st0 h5 h6 => hg ⟨g0, st0, h5, h6⟩
      rw [h4 hn, h4' hn]
  have hn : x.subnetSelection = x'.subnetSelection := by
    apply Option.ext
    intro a
    rw [h1, h1']
  obtain ⟨a, b⟩ := x
  obtain ⟨a', b'⟩ := x'
  simp only at *
  subst hs
  simp only [h2, h2', hn]

omit [Crypto] in
theorem callsFor_unique {c c' : OutCall} (h : Spec.CallsFor m c) (h' : Spec.CallsFor m c') :
    c = c' := by
  cases h with
  | withdraw h1 =>
    cases h' with
    | withdraw h2 => rw [principal_eq (h1.trans h2.symm)]
  | withdrawFrom h1 =>
    cases h' with
    | withdrawFrom h2 => rw [principal_eq (h1.trans h2.symm)]
  | create h1 h2 =>
    cases h' with
    | create h3 h4 => rw [principal_eq (h1.trans h3.symm), creationArg_unique h2 h4]
  | createFrom h1 h2 =>
    cases h' with
    | createFrom h3 h4 => rw [principal_eq (h1.trans h3.symm), creationArg_unique h2 h4]

theorem repaid_unique {kind : CallKind} {p : Suspended} {back : Nat} {r1 r2 : Spec.Ref}
    {f1 a1 f2 a2 : Option Nat} (h1 : Spec.Repaid r kind p back r1 f1 a1)
    (h2 : Spec.Repaid r kind p back r2 f2 a2) : r1 = r2 ∧ f1 = f2 ∧ a1 = a2 := by
  cases h1 with
  | nothing hb =>
    cases h2 with
    | nothing => exact ⟨rfl, rfl, rfl⟩
    | cycles hb' => omega
    | both hs => have := hs.2.1; omega
  | cycles hb _ hn =>
    cases h2 with
    | nothing => omega
    | cycles => exact ⟨rfl, rfl, rfl⟩
    | both hs => exact absurd hs (hn _)
  | both hs =>
    cases h2 with
    | nothing => have := hs.2.1; omega
    | cycles _ _ hn => exact absurd hs (hn _)
    | both hs' => rw [onBehalf_unique hs.1 hs'.1]; exact ⟨rfl, rfl, rfl⟩

theorem repaid_not_unpayable {kind : CallKind} {p : Suspended} {back : Nat} {r1 : Spec.Ref}
    {f1 a1 : Option Nat} (h1 : Spec.Repaid r kind p back r1 f1 a1)
    (hl : ∀ sp a, r.granted p.frm sp = some (a, r.now) → r.now = 0)
    (hc : ∀ sp, ¬Spec.Collision (r.allowanceBack p sp back :: Spec.refundTransaction kind p back ::
       r.log.map Block.transaction)) : ¬Spec.Unpayable r kind p back := by
  rintro (⟨h2, h3⟩ | ⟨sp, h2, h3⟩)
  · cases h1 <;> omega
  · have h4 := h2.2.1
    have h5 : ¬(r.now = 18446744073709551615 ∧ p.oldExpiresAt = none) := by
      cases h1 with
      | nothing hb => omega
      | cycles _ _ hn => exact absurd h2 (hn _)
      | both _ _ h => exact h
    rcases h3 with ⟨a, h6, h7⟩ | h6 | h6
    · have := hl _ _ h6; omega
    · exact h5 h6
    · exact hc sp h6

omit [Crypto] in
theorem allowStep_burn {f : Spec.AllowFn} {b : Block} {frm : Account} {sp : Option Account} {n : Nat}
    (hb : b.transaction.operation = .burn frm sp n) {k : ApprovalKey} {a e : Nat}
    (h : Spec.allowStep f b k = some (a, e)) : ∃ a', f k = some (a', e) := by
  unfold Spec.allowStep at h
  rw [hb] at h
  simp only at h
  cases hs : Spec.spends b with
  | none => rw [hs] at h; exact ⟨a, h⟩
  | some v =>
    rw [hs] at h
    simp only [Spec.spend] at h
    split at h
    · cases hf : f k with
      | none => rw [hf] at h; cases h
      | some w =>
        obtain ⟨a', e'⟩ := w
        rw [hf] at h
        simp only at h
        split at h
        · cases h
        · cases h; exact ⟨a', rfl⟩
    · exact ⟨a, h⟩

/-- A burn changes no expiry. -/
theorem granted_burn {q : Spec.BurnReq} {to : Option Principal} {frm sp : Account} {a e : Nat}
    (h : (r.append (q.transaction to)).granted frm sp = some (a, e)) :
    ∃ a', r.granted frm sp = some (a', e) := by
  unfold Spec.Ref.granted Spec.Ref.append Spec.allowances at h
  rw [List.foldl_append, List.foldl_cons, List.foldl_nil, ← Spec.allowances] at h
  exact allowStep_burn (by rfl) h

omit [Crypto] in
theorem okReply_unique {x x' : Reply} {i : Nat} (ht : Spec.transferRequest m ≠ none ∨
    Spec.approveRequest m ≠ none) (h1 : Spec.Answers m x) (h1' : Spec.Answers m x')
    (h2 : Spec.okIndex x = some i) (h2' : Spec.okIndex x' = some i) : x = x' := by
  cases m <;> simp [Spec.transferRequest, Spec.approveRequest] at ht <;>
    cases x <;> simp [Spec.Answers] at h1 <;> cases x' <;> simp [Spec.Answers] at h1' <;>
    rename_i u v <;> cases u <;> simp [Spec.okIndex] at h2 <;> cases v <;>
    simp [Spec.okIndex] at h2' <;> rw [h2, h2']

omit [Crypto] in
theorem transferReply_unique {x x' : Reply} {e : TransferFromError}
    (h1 : Spec.Answers m x) (h1' : Spec.Answers m x')
    (h2 : Spec.transferError x = some e) (h2' : Spec.transferError x' = some e) : x = x' := by
  cases m <;> cases x <;> simp [Spec.Answers, Spec.transferError] at h1 h2 <;>
    cases x' <;> simp [Spec.Answers, Spec.transferError] at h1' h2'
  · rename_i u v
    cases u <;> simp at h2
    cases v <;> simp at h2'
    rename_i u v
    cases u <;> simp only [Spec.widenTransfer] at h2 <;> subst h2 <;>
      cases v <;> simp [Spec.widenTransfer] at h2' <;> simp [h2']
  · rename_i u v
    cases u <;> simp at h2
    cases v <;> simp at h2'
    rw [h2, h2']

omit [Crypto] in
theorem approveReply_unique {x x' : Reply} {e : ApproveError}
    (h1 : Spec.Answers m x) (h1' : Spec.Answers m x')
    (h2 : Spec.approveError x = some e) (h2' : Spec.approveError x' = some e) : x = x' := by
  cases m <;> cases x <;> simp [Spec.Answers, Spec.approveError] at h1 h2 <;>
    cases x' <;> simp [Spec.Answers, Spec.approveError] at h1' h2'
  rename_i u v
  cases u <;> simp at h2
  cases v <;> simp at h2'
  rw [h2, h2']

omit [Crypto] in
theorem burnReply_unique {x x' : Reply} {e : Spec.BurnError}
    (h1 : Spec.Answers m x) (h1' : Spec.Answers m x')
    (h2 : Spec.burnError x = some e) (h2' : Spec.burnError x' = some e) : x = x' := by
  cases m <;> cases x <;> simp [Spec.Answers, Spec.burnError] at h1 h2 <;>
    cases x' <;> simp [Spec.Answers, Spec.burnError] at h1' h2' <;>
    rename_i u v <;> cases u <;> simp at h2 <;> cases v <;> simp at h2' <;>
    rename_i u v <;> cases u <;> simp at h2 <;>
    first
    | (subst h2; cases v <;> simp at h2' <;> simp [h2'])
    | (obtain ⟨h2, rfl⟩ := h2; cases v <;> simp at h2' <;> simp [h2, h2'])

/-- What a transfer request leads to. -/
theorem step_transfer {q : Spec.TransferReq} (hq : Spec.transferRequest m = some q)
    {r' : Spec.Ref} {x : Reply} (h : Spec.Step r m r' x) :
    ∃ app dup v, Spec.Recalls r app ∧ Spec.RecallsTx r q.transaction dup ∧
      Spec.FirstOf (Spec.judgeTransfer r app dup q) v ∧
      match v with
      | none => r' = r.append q.transaction ∧ Spec.Answers m x ∧ Spec.okIndex x = some r.log.length
      | some (.refuse e) => r' = r ∧ Spec.Answers m x ∧ Spec.transferError x = some e
      | some .trap => r' = r ∧ x = .trapped := by
  cases h with
  | transfer h1 h2 h3 h4 h5 h6 => cases hq.symm.trans h1; exact ⟨_, _, none, h2, h3, h4, rfl, h5, h6⟩
  | transferRefused h1 h2 h3 h4 h5 h6 => cases hq.symm.trans h1; exact ⟨_, _, _, h2, h3, h4, rfl, h5, h6⟩
  | transferTrap h1 h2 h3 h4 => cases hq.symm.trans h1; exact ⟨_, _, _, h2, h3, h4, rfl, rfl⟩
  | approve h1 => cases m <;> simp [Spec.transferRequest, Spec.approveRequest] at hq h1
  | approveRefused h1 => cases m <;> simp [Spec.transferRequest, Spec.approveRequest] at hq h1
  | approveTrap h1 => cases m <;> simp [Spec.transferRequest, Spec.approveRequest] at hq h1
  | burnRefused h1 => cases m <;> simp [Spec.transferRequest, Spec.burnRequest] at hq h1
  | burn h1 => cases m <;> simp [Spec.transferRequest, Spec.burnRequest] at hq h1
  | burnNotSent h1 => cases m <;> simp [Spec.transferRequest, Spec.burnRequest] at hq h1
  | burnTrap h1 => cases m <;> simp [Spec.transferRequest, Spec.burnRequest] at hq h1
  | _ => cases hq

/-- What an approval request leads to. -/
theorem step_approve {q : Spec.ApproveReq} (hq : Spec.approveRequest m = some q)
    {r' : Spec.Ref} {x : Reply} (h : Spec.Step r m r' x) :
    ∃ app dup v, Spec.Recalls r app ∧ Spec.RecallsTx r q.transaction dup ∧
      Spec.FirstOf (Spec.judgeApprove r app dup q) v ∧
      match v with
      | none => r' = r.append q.transaction ∧ Spec.Answers m x ∧ Spec.okIndex x = some r.log.length
      | some (.refuse e) => r' = r ∧ Spec.Answers m x ∧ Spec.approveError x = some e
      | some .trap => r' = r ∧ x = .trapped := by
  cases h with
  | approve h1 h2 h3 h4 h5 h6 => cases hq.symm.trans h1; exact ⟨_, _, none, h2, h3, h4, rfl, h5, h6⟩
  | approveRefused h1 h2 h3 h4 h5 h6 => cases hq.symm.trans h1; exact ⟨_, _, _, h2, h3, h4, rfl, h5, h6⟩
  | approveTrap h1 h2 h3 h4 => cases hq.symm.trans h1; exact ⟨_, _, _, h2, h3, h4, rfl, rfl⟩
  | transfer h1 => cases m <;> simp [Spec.transferRequest, Spec.approveRequest] at hq h1
  | transferRefused h1 => cases m <;> simp [Spec.transferRequest, Spec.approveRequest] at hq h1
  | transferTrap h1 => cases m <;> simp [Spec.transferRequest, Spec.approveRequest] at hq h1
  | burnRefused h1 => cases m <;> simp [Spec.approveRequest, Spec.burnRequest] at hq h1
  | burn h1 => cases m <;> simp [Spec.approveRequest, Spec.burnRequest] at hq h1
  | burnNotSent h1 => cases m <;> simp [Spec.approveRequest, Spec.burnRequest] at hq h1
  | burnTrap h1 => cases m <;> simp [Spec.approveRequest, Spec.burnRequest] at hq h1
  | _ => cases hq

/-- What a burn request leads to, if it is not refused. -/
inductive Burns (r : Spec.Ref) (m : Msg) (q : Spec.BurnReq) (to : Option Principal) (old : Option Nat) :
    Spec.Ref → Reply → Prop
  | sent {call} : Spec.syncOf m = none → Spec.CallsFor m call → Burns r m q to old
      { r.append (q.transaction to) with
        pending := r.pending ++ [⟨Spec.kindOf m,
          ⟨q.frm, q.spender, q.amount, r.log.length, old, q.transaction to⟩, call⟩]
        cycles := r.cycles - q.amount }
      .suspended
  | notSent {r' e c fb ab} : Spec.syncOf m = some e → Spec.Explains e c →
    Spec.Repaid (r.append (q.transaction to)) (Spec.kindOf m)
      ⟨q.frm, q.spender, q.amount, r.log.length, old, q.transaction to⟩ q.amount r' fb ab →
    Burns r m q to old r' (Spec.undone r.log.length fb ab c (Spec.kindOf m))
  | trap {e} : Spec.syncOf m = some e →
    Spec.Unpayable (r.append (q.transaction to)) (Spec.kindOf m)
      ⟨q.frm, q.spender, q.amount, r.log.length, old, q.transaction to⟩ q.amount →
    Burns r m q to old r .trapped

theorem step_burn {q : Spec.BurnReq} {to : Option Principal}
    (hq : Spec.burnRequest m = some (q, to))
    {r' : Spec.Ref} {x : Reply} (h : Spec.Step r m r' x) :
    ∃ app dup v, Spec.Recalls r app ∧ Spec.RecallsTx r (q.transaction to) dup ∧
      Spec.FirstOf (Spec.judgeBurn r app dup q to) v ∧
      match v with
      | some e => r' = r ∧ Spec.Answers m x ∧ Spec.burnError x = some e
      | none => ∃ old, Spec.UsesUntil r q old ∧ Burns r m q to old r' x := by
  cases h with
  | burnRefused h1 h2 h3 h4 h5 h6 => cases hq.symm.trans h1; exact ⟨_, _, _, h2, h3, h4, rfl, h5, h6⟩
  | burn h1 h2 h3 h4 h5 h6 h7 =>
    cases hq.symm.trans h1; exact ⟨_, _, none, h2, h3, h4, _, h5, .sent h6 h7⟩
  | burnNotSent h1 h2 h3 h4 h5 h6 h7 h8 =>
    cases hq.symm.trans h1; exact ⟨_, _, none, h2, h3, h4, _, h5, .notSent h6 h7 h8⟩
  | burnTrap h1 h2 h3 h4 h5 h6 h7 =>
    cases hq.symm.trans h1; exact ⟨_, _, none, h2, h3, h4, _, h5, .trap h6 h7⟩
  | transfer h1 => cases m <;> simp [Spec.transferRequest, Spec.burnRequest] at hq h1
  | transferRefused h1 => cases m <;> simp [Spec.transferRequest, Spec.burnRequest] at hq h1
  | transferTrap h1 => cases m <;> simp [Spec.transferRequest, Spec.burnRequest] at hq h1
  | approve h1 => cases m <;> simp [Spec.burnRequest, Spec.approveRequest] at hq h1
  | approveRefused h1 => cases m <;> simp [Spec.burnRequest, Spec.approveRequest] at hq h1
  | approveTrap h1 => cases m <;> simp [Spec.burnRequest, Spec.approveRequest] at hq h1
  | _ => cases hq

theorem collision_burnt {ts : List Transaction} {t : Transaction}
    (h : Spec.Collision (ts ++ (r.append t).log.map Block.transaction)) :
    Spec.Collision (ts ++ [t] ++ r.log.map Block.transaction) := by
  obtain ⟨a, ha, b, hb, hne, he⟩ := h
  simp only [Spec.Ref.append, List.map_append, List.map_cons, List.map_nil, List.mem_append,
    List.mem_singleton] at ha hb
  refine ⟨a, ?_, b, ?_, hne, he⟩
  · rcases ha with ha | ha | ha
    · exact List.mem_append_left _ (List.mem_append_left _ ha)
    · exact List.mem_append_right _ ha
    · exact List.mem_append_left _ (List.mem_append_right _ (List.mem_singleton.mpr ha))
  · rcases hb with hb | hb | hb
    · exact List.mem_append_left _ (List.mem_append_left _ hb)
    · exact List.mem_append_right _ hb
    · exact List.mem_append_left _ (List.mem_append_right _ (List.mem_singleton.mpr hb))

theorem burns_unique (h : Spec.Settled r m) {q : Spec.BurnReq} {to : Option Principal}
    (hq : Spec.burnRequest m = some (q, to)) {old : Option Nat} {r1 r2 : Spec.Ref} {x1 x2 : Reply}
    (h1 : Burns r m q to old r1 x1) (h2 : Burns r m q to old r2 x2) : r1 = r2 ∧ x1 = x2 := by
  have hx : ∀ r' fb ab, Spec.Repaid (r.append (q.transaction to)) (Spec.kindOf m)
      ⟨q.frm, q.spender, q.amount, r.log.length, old, q.transaction to⟩ q.amount r' fb ab →
      ¬Spec.Unpayable (r.append (q.transaction to)) (Spec.kindOf m)
        ⟨q.frm, q.spender, q.amount, r.log.length, old, q.transaction to⟩ q.amount := by
    intro r' fb ab hr
    refine repaid_not_unpayable hr ?_ ?_
    · intro sp a hg
      obtain ⟨a', hg'⟩ := granted_burn hg
      have h3 : (r.append (q.transaction to)).now = r.now := rfl
      rw [h3] at hg' ⊢
      rcases h.live _ _ _ _ hg' with h4 | h4
      · exact h4
      · omega
    · intro sp hc
      exact h.apart _ (.notSent hq) (collision_burnt (ts := [_, _]) hc)
  cases h1 with
  | sent h3 h4 =>
    cases h2 with
    | sent h5 h6 => rw [callsFor_unique h4 h6]; exact ⟨rfl, rfl⟩
    | notSent h5 => rw [h3] at h5; cases h5
    | trap h5 => rw [h3] at h5; cases h5
  | notSent h3 h4 h5 =>
    cases h2 with
    | sent h6 => rw [h3] at h6; cases h6
    | notSent h6 h7 h8 =>
      rw [h3] at h6; cases h6
      obtain ⟨rfl, rfl, rfl⟩ := repaid_unique h5 h8
      rw [explains_unique h4 h7]
      exact ⟨rfl, rfl⟩
    | trap h6 h7 => exact absurd h7 (hx _ _ _ h5)
  | trap h3 h4 =>
    cases h2 with
    | sent h6 => rw [h3] at h6; cases h6
    | notSent h6 h7 h8 => exact absurd h4 (hx _ _ _ h8)
    | trap => exact ⟨rfl, rfl⟩

omit [Crypto] in
theorem done_facts {i : Nat} {p : Pending} {a : Answer} {x : Reply}
    (h : Spec.Done i p.kind a x) : Spec.Fits p a ∧ Spec.returned p a = none := by
  generalize hk : p.kind = k at h
  cases h <;> simp [Spec.Fits, Spec.returned, hk]

/-- What the answer to a call leads to. -/
inductive Calls (r : Spec.Ref) (i : Nat) (ans : Answer) : Spec.Ref → Reply → Prop
  | done {p reply} : r.pending[i]? = some p → Spec.Done p.data.blockIndex p.kind ans reply →
    Calls r i ans ((r.answered i p ans).note p.data.blockIndex ans) reply
  | failed {r' p back c fb ab} : r.pending[i]? = some p → Spec.Fits p ans →
    Spec.returned p ans = some back → Spec.FailsWith ans c →
    Spec.Repaid (r.answered i p ans) p.kind p.data back r' fb ab →
    Calls r i ans r' (Spec.undone p.data.blockIndex fb ab c p.kind)
  | trap {p back} : r.pending[i]? = some p → Spec.Fits p ans →
    Spec.returned p ans = some back → Spec.Unpayable (r.answered i p ans) p.kind p.data back →
    Calls r i ans (r.answered i p ans) .trapped
  | none : (∀ p, r.pending[i]? = some p → ¬Spec.Fits p ans) → Calls r i ans r .silent

theorem step_callback {i : Nat} {ans : Answer} {r' : Spec.Ref} {x : Reply}
    (h : Spec.Step r (.callback i ans) r' x) : Calls r i ans r' x := by
  cases h with
  | callback h1 h2 => exact .done h1 h2
  | callbackFailed h1 h2 h3 h4 h5 => exact .failed h1 h2 h3 h4 h5
  | callbackTrap h1 h2 h3 h4 => exact .trap h1 h2 h3 h4
  | noCallback h1 => exact .none h1
  | transfer h1 => cases h1
  | transferRefused h1 => cases h1
  | transferTrap h1 => cases h1
  | approve h1 => cases h1
  | approveRefused h1 => cases h1
  | approveTrap h1 => cases h1
  | burnRefused h1 => cases h1
  | burn h1 => cases h1
  | burnNotSent h1 => cases h1
  | burnTrap h1 => cases h1

theorem callback_unique {i : Nat} {ans : Answer} (h : Spec.Settled r (.callback i ans))
    {r1 r2 : Spec.Ref} {x1 x2 : Reply} (h1 : Calls r i ans r1 x1)
    (h2 : Calls r i ans r2 x2) : r1 = r2 ∧ x1 = x2 := by
  have hx : ∀ p back r' fb ab, r.pending[i]? = some p → Spec.returned p ans = some back →
      Spec.Repaid (r.answered i p ans) p.kind p.data back r' fb ab →
      ¬Spec.Unpayable (r.answered i p ans) p.kind p.data back := by
    intro p back r' fb ab hp hb hr
    refine repaid_not_unpayable hr ?_ ?_
    · intro sp a hg
      rcases h.live p.data.frm sp _ _ hg with h4 | h4
      · exact h4
      · exact absurd h4 (Nat.lt_irrefl _)
    · intro sp hc
      exact h.apart _ (.failed hp hb) hc
  cases h1 with
  | done h3 h4 =>
    cases h2 with
    | done h5 h6 =>
      rw [h3] at h5; cases h5
      refine ⟨rfl, ?_⟩
      rename_i p
      generalize p.kind = k at h4 h6
      cases h4 <;> cases h6 <;> rfl
    | failed h5 _ h6 =>
      rw [h3] at h5; cases h5
      rw [(done_facts h4).2] at h6; cases h6
    | trap h5 _ h6 =>
      rw [h3] at h5; cases h5
      rw [(done_facts h4).2] at h6; cases h6
    | none h5 => exact absurd (done_facts h4).1 (h5 _ h3)
  | failed h3 h4 h5 h6 h7 =>
    cases h2 with
    | done h8 h9 =>
      rw [h3] at h8; cases h8
      rw [(done_facts h9).2] at h5; cases h5
    | failed h8 h9 h10 h11 h12 =>
      rw [h3] at h8; cases h8
      rw [h5] at h10; cases h10
      obtain ⟨rfl, rfl, rfl⟩ := repaid_unique h7 h12
      rw [failsWith_unique h6 h11]
      exact ⟨rfl, rfl⟩
    | trap h8 h9 h10 h11 =>
      rw [h3] at h8; cases h8
      rw [h5] at h10; cases h10
      exact absurd h11 (hx _ _ _ _ _ h3 h5 h7)
    | none h8 => exact absurd h4 (h8 _ h3)
  | trap h3 h4 h5 h6 =>
    cases h2 with
    | done h8 h9 =>
      rw [h3] at h8; cases h8
      rw [(done_facts h9).2] at h5; cases h5
    | failed h8 h9 h10 h11 h12 =>
      rw [h3] at h8; cases h8
      rw [h5] at h10; cases h10
      exact absurd h6 (hx _ _ _ _ _ h3 h5 h12)
    | trap h8 h9 h10 h11 =>
      rw [h3] at h8; cases h8
      exact ⟨rfl, rfl⟩
    | none h8 => exact absurd h4 (h8 _ h3)
  | none h3 =>
    cases h2 with
    | done h8 h9 => exact absurd (done_facts h9).1 (h3 _ h8)
    | failed h8 h9 => exact absurd h9 (h3 _ h8)
    | trap h8 h9 => exact absurd h9 (h3 _ h8)
    | none => exact ⟨rfl, rfl⟩

/-- What is left: deposits, lost callbacks and upgrades. -/
inductive Others (r : Spec.Ref) : Msg → Spec.Ref → Reply → Prop
  | deposit {c n arg t} : 100000000 < n.val → Spec.MemoFits arg.memo →
    r.supply + (n.val - 100000000) < 2 ^ 128 →
    t = ⟨.mint arg.to (n.val - 100000000) 100000000, none, arg.memo⟩ →
    Others r (.deposit c n arg) { r.append t with cycles := r.cycles + n.val }
      (.deposit r.log.length ((r.append t).balance arg.to))
  | depositRefused {c n arg} : n.val ≤ 100000000 ∨ ¬Spec.MemoFits arg.memo ∨
      2 ^ 128 ≤ r.supply + (n.val - 100000000) →
    Others r (.deposit c n arg) r .trapped
  | lostCallback {i} :
    Others r (.lostCallback i) { r with pending := r.pending.eraseIdx i } .silent
  | upgrade {arg} : arg = .none ∨ arg = .upgrade none → Others r (.upgrade arg) r .silent
  | reconfigure {u} : Others r (.upgrade (.upgrade (some u))) (r.reconfigured u) .silent
  | reinstall {c} : Others r (.upgrade (.init c)) r .trapped

theorem step_other {r' : Spec.Ref} {x : Reply} (ht : Spec.transferRequest m = none)
    (ha : Spec.approveRequest m = none) (hb : Spec.burnRequest m = none)
    (hc : ∀ i ans, m ≠ .callback i ans) (h : Spec.Step r m r' x) : Others r m r' x := by
  cases h with
  | deposit h1 h2 h3 h4 => exact .deposit h1 h2 h3 h4
  | depositRefused h1 => exact .depositRefused h1
  | lostCallback => exact .lostCallback
  | upgrade h1 => exact .upgrade h1
  | reconfigure => exact .reconfigure
  | reinstall => exact .reinstall
  | callback => exact absurd rfl (hc _ _)
  | callbackFailed => exact absurd rfl (hc _ _)
  | callbackTrap => exact absurd rfl (hc _ _)
  | noCallback => exact absurd rfl (hc _ _)
  | transfer h1 => rw [ht] at h1; cases h1
  | transferRefused h1 => rw [ht] at h1; cases h1
  | transferTrap h1 => rw [ht] at h1; cases h1
  | approve h1 => rw [ha] at h1; cases h1
  | approveRefused h1 => rw [ha] at h1; cases h1
  | approveTrap h1 => rw [ha] at h1; cases h1
  | burnRefused h1 => rw [hb] at h1; cases h1
  | burn h1 => rw [hb] at h1; cases h1
  | burnNotSent h1 => rw [hb] at h1; cases h1
  | burnTrap h1 => rw [hb] at h1; cases h1

theorem others_unique {r1 r2 : Spec.Ref} {x1 x2 : Reply} (h1 : Others r m r1 x1)
    (h2 : Others r m r2 x2) : r1 = r2 ∧ x1 = x2 := by
  cases h1 with
  | deposit h3 h4 h5 h6 =>
    cases h2 with
    | deposit _ _ _ h7 => rw [h6, h7]; exact ⟨rfl, rfl⟩
    | depositRefused h7 =>
      rcases h7 with h7 | h7 | h7
      · omega
      · exact absurd h4 h7
      · omega
  | depositRefused h7 =>
    cases h2 with
    | deposit h3 h4 h5 h6 =>
      rcases h7 with h7 | h7 | h7
      · omega
      · exact absurd h4 h7
      · omega
    | depositRefused => exact ⟨rfl, rfl⟩
  | lostCallback => cases h2; exact ⟨rfl, rfl⟩
  | upgrade h3 =>
    rcases h3 with rfl | rfl <;> cases h2 <;> exact ⟨rfl, rfl⟩
  | reconfigure =>
    cases h2 with
    | upgrade h3 => rcases h3 with h3 | h3 <;> cases h3
    | reconfigure => exact ⟨rfl, rfl⟩
  | reinstall =>
    cases h2 with
    | upgrade h3 => rcases h3 with h3 | h3 <;> cases h3
    | reinstall => exact ⟨rfl, rfl⟩

end

/-- **C90**: the reference ledger leaves nothing open but the three things it names: whether expired
allowances and outdated transactions are remembered, and what collisions do.  Where none of these
matters, what a message does and how it is answered is determined. -/
theorem C90_determined [Crypto] {r r1 r2 : Spec.Ref} {m : Msg} {x1 x2 : Reply}
    (h : Spec.Settled r m) (h1 : Spec.Step r m r1 x1) (h2 : Spec.Step r m r2 x2) :
    r1 = r2 ∧ x1 = x2 := by
  cases ht : Spec.transferRequest m with
  | some q =>
    have hask : Spec.asked m = some q.transaction := by simp [Spec.asked, ht]
    obtain ⟨app, dup, v, a1, b1, c1, d1⟩ := step_transfer ht h1
    obtain ⟨app', dup', v', a2, b2, c2, d2⟩ := step_transfer ht h2
    rw [recalls_unique h a1] at c1
    rw [recalls_unique h a2, ← recallsTx_unique h hask b1 b2] at c2
    have hv := judgeTransfer_unique c1 c2
    subst hv
    match v, d1, d2 with
    | none, d1, d2 =>
      exact ⟨d1.1.trans d2.1.symm,
        okReply_unique (Or.inl (by rw [ht]; simp)) d1.2.1 d2.2.1 d1.2.2 d2.2.2⟩
    | some (.refuse e), d1, d2 =>
      exact ⟨d1.1.trans d2.1.symm, transferReply_unique d1.2.1 d2.2.1 d1.2.2 d2.2.2⟩
    | some .trap, d1, d2 => exact ⟨d1.1.trans d2.1.symm, d1.2.trans d2.2.symm⟩
  | none =>
  cases ha : Spec.approveRequest m with
  | some q =>
    have hask : Spec.asked m = some q.transaction := by simp [Spec.asked, ht, ha]
    obtain ⟨app, dup, v, a1, b1, c1, d1⟩ := step_approve ha h1
    obtain ⟨app', dup', v', a2, b2, c2, d2⟩ := step_approve ha h2
    rw [recalls_unique h a1] at c1
    rw [recalls_unique h a2, ← recallsTx_unique h hask b1 b2] at c2
    have hv := judgeApprove_unique c1 c2
    subst hv
    match v, d1, d2 with
    | none, d1, d2 =>
      exact ⟨d1.1.trans d2.1.symm,
        okReply_unique (Or.inr (by rw [ha]; simp)) d1.2.1 d2.2.1 d1.2.2 d2.2.2⟩
    | some (.refuse e), d1, d2 =>
      exact ⟨d1.1.trans d2.1.symm, approveReply_unique d1.2.1 d2.2.1 d1.2.2 d2.2.2⟩
    | some .trap, d1, d2 => exact ⟨d1.1.trans d2.1.symm, d1.2.trans d2.2.symm⟩
  | none =>
  cases hb : Spec.burnRequest m with
  | some w =>
    obtain ⟨q, to⟩ := w
    have hask : Spec.asked m = some (q.transaction to) := by simp [Spec.asked, ht, ha, hb]
    obtain ⟨app, dup, v, a1, b1, c1, d1⟩ := step_burn hb h1
    obtain ⟨app', dup', v', a2, b2, c2, d2⟩ := step_burn hb h2
    rw [recalls_unique h a1] at c1
    rw [recalls_unique h a2, ← recallsTx_unique h hask b1 b2] at c2
    have hv := judgeBurn_unique c1 c2
    subst hv
    match v, d1, d2 with
    | some e, d1, d2 =>
      exact ⟨d1.1.trans d2.1.symm, burnReply_unique d1.2.1 d2.2.1 d1.2.2 d2.2.2⟩
    | none, d1, d2 =>
      obtain ⟨old, e1, f1⟩ := d1
      obtain ⟨old', e2, f2⟩ := d2
      rw [← usesUntil_unique e1 e2] at f2
      exact burns_unique h hb f1 f2
  | none =>
    by_cases hc : ∃ i ans, m = .callback i ans
    · obtain ⟨i, ans, rfl⟩ := hc
      exact callback_unique h (step_callback h1) (step_callback h2)
    · have hc' : ∀ i ans, m ≠ .callback i ans := fun i ans he => hc ⟨i, ans, he⟩
      exact others_unique (step_other ht ha hb hc' h1) (step_other ht ha hb hc' h2)

/-- One initial balance. -/
def Toy.cfg1 : Config := { Config.default with initialBalances := some [(Toy.acc Toy.alice, 900000000)] }

open Toy in
/-- A transfer right after the installation of a ledger with one initial balance. -/
example :
    let r := (Spec.Ref.init cfg1 T 0).tick 1
    let m := Msg.transfer alice ⟨none, acc bob, 1000, none, none, some 1000000000⟩
    Spec.Settled r m ∧ r.log.length = 1 ∧ ∃ r', Spec.Step r m r' (.transfer (.ok 1)) := by
  refine ⟨⟨?_, ?_, ?_, ?_⟩, rfl, ?_⟩
  · intro frm sp a e h
    cases h
  · intro t ht
    cases ht
    rintro ⟨c, hc, h⟩
    cases hc
    revert h
    decide +kernel
  · intro i j b b' hb hb' _ _
    match i, j with
    | 0, 0 => rfl
    | i + 1, _ => cases hb
    | 0, j + 1 => cases hb'
  · intro ts hts
    cases hts with
    | asked ht =>
      cases ht
      rintro ⟨a, ha, b, hb, hne, he⟩
      change a ∈ [_, _] at ha
      change b ∈ [_, _] at hb
      simp only [List.mem_cons, List.not_mem_nil, or_false] at ha hb
      rcases ha with rfl | rfl <;> rcases hb with rfl | rfl
      · exact hne rfl
      · revert he; decide +kernel
      · revert he; decide +kernel
      · exact hne rfl
    | notSent h => cases h
  · have h0 : (Sys.init cfg1 T 0).isSome = true := by decide +kernel
    obtain ⟨y, hy⟩ := Option.isSome_iff_exists.mp h0
    obtain ⟨r, h1, _⟩ := C90_run hy
      [⟨1, .transfer alice ⟨none, acc bob, 1000, none, none, some 1000000000⟩⟩]
    have h2 : Spec.replies y
        [⟨1, .transfer alice ⟨none, acc bob, 1000, none, none, some 1000000000⟩⟩] =
        [.transfer (.ok 1)] := by
      have h3 : ∀ y', Sys.init cfg1 T 0 = some y' → y' = (Sys.init cfg1 T 0).getD start := by
        intro y' h; simp [h]
      rw [h3 y hy]
      decide +kernel
    rw [h2] at h1
    cases h1 with
    | cons h4 _ => exact ⟨_, h4⟩

end CyclesLedger
