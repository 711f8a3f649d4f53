import Verif.Props.Acceptance
import Verif.Props.Queries
import Verif.Props.Integrity
import Verif.Props.Spending
import Verif.Props.Upgrade
/-!
# The log decides

C82: two ledgers with the same log, clock and outstanding calls behave the same, whatever else is
in their tables (what has been pruned, what the deduplication remembers, the configuration).
-/
namespace CyclesLedger

/-- The same log, the same clock and the same outstanding calls. -/
structure Spec.SameLog (y z : Sys) : Prop where
  blocks : y.ledger.blocks = z.ledger.blocks
  now : y.now = z.now
  pending : y.pending = z.pending

/-- No approval in the log expires at this very instant. -/
def Spec.NoneExpiring (bs : List Block) (now : Nat) : Prop :=
  ∀ k x e, Spec.allowances bs k = some (x, e) → e ≠ now ∨ e = 0

/-! ## What the log determines -/

section
variable [Crypto] {now : Nat} {s t : State}

theorem same_bal (hs : LInv now s) (ht : LInv now t) (h : s.blocks = t.blocks) (a : Account) :
    balanceOf s a = balanceOf t a := by
  have h1 := hs.bal a.key
  have h2 := ht.bal a.key
  rw [h] at h1
  rw [balanceOf_eq, balanceOf_eq]
  omega

theorem same_supply (hs : LInv now s) (ht : LInv now t) (h : s.blocks = t.blocks) :
    s.cache.totalSupply = t.cache.totalSupply := by
  have h1 := hs.supply
  have h2 := ht.supply
  rw [h] at h1
  omega

theorem same_mkBlock (hs : LInv now s) (ht : LInv now t) (h : s.blocks = t.blocks)
    (x : Transaction) (at' : Nat) : mkBlock s x at' = mkBlock t x at' := by
  unfold mkBlock
  rw [hs.phash, ht.phash, h]

/-- Approvals that are alive are stored alike. -/
theorem same_alive (hs : LInv now s) (ht : LInv now t) (h : s.blocks = t.blocks)
    {k : ApprovalKey} {a e : Nat} (hk : s.approvals.get k = some (a, e))
    (he : e = 0 ∨ now < e) : t.approvals.get k = some (a, e) := by
  have h1 : Spec.allowances s.blocks k = some (a, e) := by
    rcases hs.allow k with h1 | ⟨h1, _⟩
    · rw [← h1, hk]
    · rw [h1] at hk; cases hk
  rcases ht.allow k with h2 | ⟨_, a', e', h3, h4, h5⟩
  · rw [h2, ← h, h1]
  · rw [← h, h1] at h3
    cases h3
    omega

theorem same_spendable (hs : LInv now s) (ht : LInv now t) (h : s.blocks = t.blocks)
    (a sp : Account) {at' : Nat} (hat : now ≤ at') :
    Spec.spendable s a sp at' = Spec.spendable t a sp at' := by
  have key : ∀ {s t : State}, LInv now s → LInv now t → s.blocks = t.blocks →
      Spec.spendable s a sp at' ≠ 0 → Spec.spendable s a sp at' = Spec.spendable t a sp at' := by
    intro s t hs ht h hne
    unfold Spec.spendable Spec.stored at *
    cases hk : s.approvals.get (a.key, sp.key) with
    | none => rw [hk] at hne; exact absurd rfl hne
    | some v =>
      obtain ⟨x, e⟩ := v
      have he : e = 0 ∨ now < e := by
        rw [hk] at hne
        simp only [Spec.live] at hne
        by_cases h1 : e = 0 ∨ at' < e
        · rcases h1 with h1 | h1
          · exact Or.inl h1
          · exact Or.inr (by omega)
        · rw [if_neg h1] at hne; exact absurd rfl hne
      rw [same_alive hs ht h hk he]
  by_cases h1 : Spec.spendable s a sp at' = 0
  · by_cases h2 : Spec.spendable t a sp at' = 0
    · rw [h1, h2]
    · exact (key ht hs h.symm h2).symm
  · exact key hs ht h h1

/-- The expiry noted with an outstanding call is the same. -/
theorem same_expiry (hs : LInv now s) (ht : LInv now t) (h : s.blocks = t.blocks)
    {frm : Account} {sp : Option Account} {old old' : Option Nat}
    (h1 : ExpiryFrom s frm sp now old) (h2 : ExpiryFrom t frm sp now old') : old = old' := by
  unfold ExpiryFrom at h1 h2
  split at h1
  · rename_i hc
    rw [hc] at h2
    rw [h1, h2]
  · rename_i x hc
    rw [hc] at h2
    obtain ⟨a, e, h3, h4, rfl⟩ := h1
    obtain ⟨a', e', h5, h6, rfl⟩ := h2
    rw [same_alive hs ht h h3 h4] at h5
    cases h5
    rfl

/-- What `icrc2_allowance` reports, unless the approval expires right now. -/
theorem same_reported (hs : LInv now s) (ht : LInv now t) (h : s.blocks = t.blocks)
    (a sp : Account) {at' : Nat} (hat : now < at' ∨ (now = at' ∧ Spec.NoneExpiring s.blocks now)) :
    icrc2Allowance s a sp at' = icrc2Allowance t a sp at' := by
  have key : ∀ {s t : State}, LInv now s → LInv now t → s.blocks = t.blocks →
      (now < at' ∨ (now = at' ∧ Spec.NoneExpiring s.blocks now)) →
      icrc2Allowance s a sp at' ≠ (0, none) →
      icrc2Allowance s a sp at' = icrc2Allowance t a sp at' := by
    intro s t hs ht h hat hne
    have h1 := (C56_reported_exactly (y := ⟨s, now, [], 0⟩) a sp at').1
    have h2 := (C56_reported_exactly (y := ⟨t, now, [], 0⟩) a sp at').1
    simp only at h1 h2
    cases hk : Spec.stored s a sp with
    | none => rw [hk] at h1; exact absurd h1 hne
    | some v =>
      obtain ⟨x, e⟩ := v
      have hal : e = 0 ∨ now < e := by
        by_cases h0 : e = 0
        · exact Or.inl h0
        · right
          rw [hk] at h1
          simp only [h0, if_false] at h1
          have hte : at' ≤ e := by
            refine Classical.byContradiction fun hc => ?_
            rw [if_neg hc] at h1
            exact hne h1
          rcases hat with hat | ⟨hat, hx⟩
          · omega
          · have : Spec.allowances s.blocks (a.key, sp.key) = some (x, e) := by
              rcases hs.allow (a.key, sp.key) with h3 | ⟨h3, _⟩
              · rw [← h3]; exact hk
              · unfold Spec.stored at hk
                rw [h3] at hk; cases hk
            rcases hx _ _ _ this with h4 | h4 <;> omega
      have hz' : Spec.stored t a sp = some (x, e) := same_alive hs ht h hk hal
      rw [h1, h2, hk, hz']
  by_cases hne : icrc2Allowance s a sp at' = (0, none)
  · by_cases hne' : icrc2Allowance t a sp at' = (0, none)
    · rw [hne, hne']
    · exact (key ht hs h.symm (h ▸ hat) hne').symm
  · exact key hs ht h hat hne

theorem same_transferValid (hs : LInv now s) (ht : LInv now t) (h : s.blocks = t.blocks)
    {r : Spec.TransferReq} (hv : Spec.TransferValid s now r) : Spec.TransferValid t now r :=
  ⟨hv.notManagement, hv.fee, hv.memo, hv.window, same_bal hs ht h _ ▸ hv.funds,
    fun sp hsp => same_spendable hs ht h r.frm sp (Nat.le_refl _) ▸ hv.allowance sp hsp⟩

theorem same_burnValid (hs : LInv now s) (ht : LInv now t) (h : s.blocks = t.blocks)
    {r : Spec.BurnReq} (hv : Spec.BurnValid s now r) : Spec.BurnValid t now r :=
  ⟨hv.window, same_bal hs ht h _ ▸ hv.funds,
    fun sp hsp => same_spendable hs ht h r.frm sp (Nat.le_refl _) ▸ hv.allowance sp hsp⟩

theorem same_approveValid (hs : LInv now s) (ht : LInv now t) (h : s.blocks = t.blocks)
    {r : Spec.ApproveReq} (hx : r.expectedAllowance ≠ none → Spec.NoneExpiring s.blocks now)
    (hv : Spec.ApproveValid s now r) : Spec.ApproveValid t now r :=
  ⟨hv.notSelf, hv.notManagement, fun x hxe => by
      rw [hv.expected x hxe, same_reported hs ht h r.frm r.spender
        (Or.inr ⟨rfl, hx (by rw [hxe]; exact Option.some_ne_none x)⟩)],
    hv.fee, hv.memo, hv.window, same_bal hs ht h _ ▸ hv.funds, hv.notExpired⟩

theorem same_allowanceRefund (hs : LInv now s) (ht : LInv now t) (h : s.blocks = t.blocks)
    (p : Suspended) (sp : Account) (back : Nat) :
    Spec.allowanceRefund s now p sp back = Spec.allowanceRefund t now p sp back := by
  have key : ∀ {s t : State}, LInv now s → LInv now t → s.blocks = t.blocks →
      ∀ x e, Spec.stored s p.frm sp = some (x, e) → now < e → Spec.stored t p.frm sp = some (x, e) :=
    fun hs ht h x e hk he => same_alive hs ht h hk (Or.inr he)
  unfold Spec.allowanceRefund
  rw [same_spendable hs ht h p.frm sp (Nat.le_refl _)]
  have : (match Spec.stored s p.frm sp with
      | some (_, e) => if now < e then some e else p.oldExpiresAt
      | none => p.oldExpiresAt) = (match Spec.stored t p.frm sp with
      | some (_, e) => if now < e then some e else p.oldExpiresAt
      | none => p.oldExpiresAt) := by
    cases h1 : Spec.stored s p.frm sp with
    | none =>
      cases h2 : Spec.stored t p.frm sp with
      | none => rfl
      | some w =>
        obtain ⟨x, e⟩ := w
        simp only
        split
        · rename_i he
          rw [key ht hs h.symm x e h2 he] at h1; cases h1
        · rfl
    | some v =>
      obtain ⟨x, e⟩ := v
      by_cases he : now < e
      · rw [key hs ht h x e h1 he]
      · simp only [he, if_false]
        cases h2 : Spec.stored t p.frm sp with
        | none => rfl
        | some w =>
          obtain ⟨x', e'⟩ := w
          simp only
          split
          · rename_i he'
            rw [key ht hs h.symm x' e' h2 he'] at h1
            cases h1
            exact absurd he' he
          · rfl
  congr 2

theorem same_effect (hs : LInv now s) (ht : LInv now t) (h : s.blocks = t.blocks)
    {s' t' : State} {x : Transaction} (h1 : Effect now s s' x) (h2 : Effect now t t' x) :
    s'.blocks = t'.blocks := by
  rw [h1.blocks, h2.blocks, same_mkBlock hs ht h, h]

/-- Refunds are the same. -/
theorem same_refunded (hs : LInv now s) (ht : LInv now t) (h : s.blocks = t.blocks)
    {s' t' : State} {kind : CallKind} {p : Suspended} {back : Nat} {fb ab fb' ab' : Option Nat}
    (h1 : Refunded s s' now kind p back fb ab) (h2 : Refunded t t' now kind p back fb' ab') :
    s'.blocks = t'.blocks ∧ fb = fb' ∧ ab = ab' := by
  rcases h1 with ⟨h0, rfl, rfl, rfl⟩ | ⟨h0, rfl, rfl, he, hno⟩ | ⟨h0, rfl, rfl, sp, s2, hr, he, he2⟩
  · rcases h2 with ⟨_, rfl, rfl, rfl⟩ | ⟨h3, _⟩ | ⟨h3, _⟩
    · exact ⟨h, rfl, rfl⟩
    · omega
    · omega
  · rcases h2 with ⟨h3, _⟩ | ⟨_, rfl, rfl, he', _⟩ | ⟨_, _, _, sp, _, hr, _⟩
    · omega
    · exact ⟨same_effect hs ht h he he', by rw [h], rfl⟩
    · exact absurd hr (hno sp)
  · rcases h2 with ⟨h3, _⟩ | ⟨_, _, _, _, hno⟩ | ⟨_, rfl, rfl, sp', t2, hr', he', he2'⟩
    · omega
    · exact absurd hr (hno sp)
    · have hsp : sp = sp' := by
        have h3 := hr.1.1
        rw [hr'.1.1] at h3
        cases h3; rfl
      subst hsp
      have hb := same_effect hs ht h he he'
      rw [same_allowanceRefund hs ht h] at he2
      exact ⟨same_effect he.inv he'.inv hb he2 he2', by rw [h], by rw [h]⟩

end

section
variable [Crypto] {y z : Sys}

theorem Spec.SameLog.inv (h : Spec.SameLog y z) (hz : Reachable z) : LInv y.now z.ledger :=
  h.now ▸ hz.inv.ledger

theorem Spec.SameLog.noClash (h : Spec.SameLog y z) {x : Transaction}
    (hn : Spec.NoClash y.ledger x) : Spec.NoClash z.ledger x := by
  unfold Spec.NoClash at hn ⊢
  rw [← h.blocks]; exact hn

omit [Crypto] in
theorem Spec.SameLog.duplicate (h : Spec.SameLog y z) {x : Transaction} :
    Spec.IsDuplicate y.ledger x ↔ Spec.IsDuplicate z.ledger x := by
  unfold Spec.IsDuplicate
  rw [h.blocks]

omit [Crypto] in
theorem Spec.SameLog.symm (h : Spec.SameLog y z) : Spec.SameLog z y :=
  ⟨h.blocks.symm, h.now.symm, h.pending.symm⟩

/-- Failures end alike, unless one of them traps. -/
theorem same_failed {ya za : Sys} {s t : State} {kind : CallKind} {p : Suspended} {back : Nat}
    {out out' : Sys × Reply} (hnow : ya.now = za.now) (hpend : ya.pending = za.pending)
    (hs : LInv ya.now s) (ht : LInv ya.now t) (h : s.blocks = t.blocks)
    (h1 : Failed ya s kind p back out) (h2 : Failed za t kind p back out')
    (hn1 : out.2 ≠ .trapped) (hn2 : out'.2 ≠ .trapped) :
    Spec.SameLog out.1 out'.1 ∧ Spec.okIndex out.2 = Spec.okIndex out'.2 ∧
    Spec.failedBlocks out.2 = Spec.failedBlocks out'.2 ∧
    (out.2 = .suspended ↔ out'.2 = .suspended) := by
  rcases h1 with ⟨h1, _⟩ | ⟨fb, ab, s', h1, hr, ho, _, _, hsu, hf⟩
  · rw [h1] at hn1; exact absurd rfl hn1
  · rcases h2 with ⟨h2, _⟩ | ⟨fb', ab', t', h2, hr', ho', _, _, hsu', hf'⟩
    · rw [h2] at hn2; exact absurd rfl hn2
    · obtain ⟨hb, rfl, rfl⟩ := same_refunded hs ht h hr (hnow ▸ hr')
      refine ⟨?_, by rw [ho, ho'], by rw [hf, hf'], by simp [hsu, hsu']⟩
      rw [h1, h2]
      exact ⟨hb, hnow, hpend⟩

end

/-! ## C82 -/

theorem getBlocksLoop_congr {s t : State} (hb : s.blocks = t.blocks)
    (hc : s.config.maxBlocksPerRequest = t.config.maxBlocksPerRequest) :
    ∀ (args : List GetBlocksArg) (acc : List (Nat × Value)),
      getBlocksLoop s args acc = getBlocksLoop t args acc
  | [], _ => rfl
  | a :: rest, acc => by
    have hr : ∀ i j, blockRange s i j = blockRange t i j := by
      intro i j; unfold blockRange; rw [hb]
    simp only [getBlocksLoop, hb, hc, hr, getBlocksLoop_congr hb hc rest]

theorem sorted_ext {K V : Type} [TotOrd K] {l1 l2 : List (K × V)} (h1 : SMap.SortedL l1)
    (h2 : SMap.SortedL l2) (h : ∀ x, x ∈ l1 ↔ x ∈ l2) : l1 = l2 := by
  refine SMap.getL_ext h1 h2 fun k => ?_
  cases g1 : SMap.getL l1 k with
  | some v =>
    have := (SMap.getL_eq_some_iff h1 k v).1 g1
    exact ((SMap.getL_eq_some_iff h2 k v).2 ((h _).1 this)).symm
  | none =>
    cases g2 : SMap.getL l2 k with
    | none => rfl
    | some v =>
      have := (SMap.getL_eq_some_iff h2 k v).1 g2
      rw [(SMap.getL_eq_some_iff h1 k v).2 ((h _).2 this)] at g1
      cases g1

theorem same_listing [Crypto] {now : Nat} {s t : State} (hs : LInv now s) (ht : LInv now t)
    (h : s.blocks = t.blocks) (frm : Account) (prev : Option Account) {at' : Nat} (hat : now ≤ at') :
    Spec.listing s frm prev at' = Spec.listing t frm prev at' := by
  have key : ∀ {s t : State}, LInv now s → LInv now t → s.blocks = t.blocks →
      ∀ x : ApprovalKey × (Nat × Nat), (x.2.2 = 0 ∨ at' < x.2.2) →
        x ∈ s.approvals.entries → x ∈ t.approvals.entries := by
    intro s t hs ht h x hx hm
    obtain ⟨k, a, e⟩ := x
    have h1 := (SMap.get_eq_some_iff s.approvals k (a, e)).2 hm
    refine (SMap.get_eq_some_iff t.approvals k (a, e)).1 (same_alive hs ht h h1 ?_)
    rcases hx with hx | hx
    · exact Or.inl hx
    · exact Or.inr (by simp only at hx; omega)
  unfold Spec.listing
  congr 1
  refine sorted_ext (s.approvals.sorted.filter _) (t.approvals.sorted.filter _) fun x => ?_
  simp only [List.mem_filter, decide_eq_true_eq]
  constructor
  · rintro ⟨h1, h2, h3, h4⟩
    exact ⟨key hs ht h x h4 h1, h2, h3, h4⟩
  · rintro ⟨h1, h2, h3, h4⟩
    exact ⟨key ht hs h.symm x h4 h1, h2, h3, h4⟩

/-- **C82**: what can be asked of the ledger is determined by the log. -/
theorem C82_queries [Crypto] {y z : Sys} (hy : Reachable y) (hz : Reachable z)
    (h : Spec.SameLog y z) :
    (∀ a, icrc1BalanceOf y.ledger a = icrc1BalanceOf z.ledger a) ∧
    icrc1TotalSupply y.ledger = icrc1TotalSupply z.ledger ∧
    (∀ a sp t, (y.now < t ∨ (y.now = t ∧ Spec.NoneExpiring y.ledger.blocks y.now)) →
      icrc2Allowance y.ledger a sp t = icrc2Allowance z.ledger a sp t) ∧
    (∀ caller frm prev take t, y.now ≤ t → icrc103GetAllowances y.ledger caller frm prev take t =
      icrc103GetAllowances z.ledger caller frm prev take t) ∧
    tipHashTree y.ledger = tipHashTree z.ledger ∧ y.ledger.certifiedData = z.ledger.certifiedData ∧
    (y.ledger.config.maxBlocksPerRequest = z.ledger.config.maxBlocksPerRequest →
      ∀ args, getBlocks y.ledger args = getBlocks z.ledger args) := by
  have hi := hy.inv.ledger
  have hj := h.inv hz
  have htree : y.ledger.cache.hashTree = z.ledger.cache.hashTree := by
    rw [hi.tree, hj.tree, h.blocks]
  refine ⟨same_bal hi hj h.blocks, same_supply hi hj h.blocks,
    fun a sp t ht => same_reported hi hj h.blocks a sp ht, ?_, ?_, ?_, ?_⟩
  · intro caller frm prev take t ht
    rw [C22_page, C22_page, same_listing hi hj h.blocks _ _ ht]
  · unfold tipHashTree; rw [htree]
  · by_cases hb : y.ledger.blocks = []
    · rw [hi.nocert hb, hj.nocert (h.blocks ▸ hb)]
    · rw [hi.cert hb, hj.cert (h.blocks ▸ hb), htree]
  · intro hc args
    unfold getBlocks
    rw [h.blocks, getBlocksLoop_congr h.blocks hc]

/-- The circumstances in which the log alone does not decide: a hash collision; an approval that
expires at this very instant, if the request states the allowance it expects; a trap while a failed
call is cleaned up. -/
structure Spec.Clear [Crypto] (y : Sys) (m : Msg) : Prop where
  noClash : ∀ t, Spec.requestTransaction m = some t → Spec.NoClash y.ledger t
  notExpiring : ∀ r, Spec.approveRequest m = some r → r.expectedAllowance ≠ none →
    Spec.NoneExpiring y.ledger.blocks y.now
  cleansUp : (Spec.syncOf m ≠ none ∨ ∃ i ans, m = .callback i ans) → (y.exec m).2 ≠ .trapped

/-- The message either records `t` or does nothing, and makes no call. -/
def Simple [Crypto] (y : Sys) (m : Msg) (t : Transaction) : Prop :=
  (y.exec m).2 ≠ .suspended ∧ (y.exec m).1.now = y.now ∧ (y.exec m).1.pending = y.pending ∧
  ((Spec.okIndex (y.exec m).2 = some y.ledger.blocks.length ∧
    Effect y.now y.ledger (y.exec m).1.ledger t) ∨
   (Spec.okIndex (y.exec m).2 = none ∧ (y.exec m).1 = y))

theorem Simple.same [Crypto] {y z : Sys} (hy : Reachable y) (hz : Reachable z)
    (h : Spec.SameLog y z) {m : Msg} {t : Transaction} (h1 : Simple y m t) (h2 : Simple z m t)
    (hiff : (∃ i, Spec.okIndex (y.exec m).2 = some i) ↔ (∃ i, Spec.okIndex (z.exec m).2 = some i)) :
    Spec.SameLog (y.exec m).1 (z.exec m).1 ∧
    Spec.okIndex (y.exec m).2 = Spec.okIndex (z.exec m).2 ∧
    ((y.exec m).2 = .suspended ↔ (z.exec m).2 = .suspended) := by
  obtain ⟨a1, a2, a3, a4⟩ := h1
  obtain ⟨b1, b2, b3, b4⟩ := h2
  have hsu : (y.exec m).2 = .suspended ↔ (z.exec m).2 = .suspended :=
    ⟨fun hs => absurd hs a1, fun hs => absurd hs b1⟩
  have hnow : (y.exec m).1.now = (z.exec m).1.now := by rw [a2, b2, h.now]
  have hpend : (y.exec m).1.pending = (z.exec m).1.pending := by rw [a3, b3, h.pending]
  rcases a4 with ⟨o1, e1⟩ | ⟨o1, e1⟩
  · obtain ⟨i, hi⟩ := hiff.1 ⟨_, o1⟩
    rcases b4 with ⟨o2, e2⟩ | ⟨o2, e2⟩
    · exact ⟨⟨same_effect hy.inv.ledger (h.inv hz) h.blocks e1 (h.now ▸ e2), hnow, hpend⟩,
        by rw [o1, o2, h.blocks], hsu⟩
    · rw [o2] at hi; cases hi
  · rcases b4 with ⟨o2, e2⟩ | ⟨o2, e2⟩
    · obtain ⟨i, hi⟩ := hiff.2 ⟨_, o2⟩
      rw [o1] at hi; cases hi
    · exact ⟨⟨by rw [e1, e2, h.blocks], hnow, hpend⟩, by rw [o1, o2], hsu⟩

theorem simple_transfer [Crypto] {y : Sys} (hy : Reachable y) {m : Msg} {r : Spec.TransferReq}
    (hm : Spec.transferRequest m = some r) : Simple y m r.transaction := by
  rcases exec_transfer hy.inv hm with ⟨s', e1, o1, _, _, f1, _⟩ | ⟨_, e1, o1, t1, _⟩ | ⟨e1, _⟩
  · refine ⟨(fun hs => by rw [hs] at o1; cases o1), by rw [e1], by rw [e1], Or.inl ⟨o1, by rw [e1]; exact f1⟩⟩
  · exact ⟨(fun hs => by rw [hs] at t1; cases t1), by rw [e1], by rw [e1], Or.inr ⟨o1, e1⟩⟩
  · rw [Simple, e1]; exact ⟨(fun hs => nomatch hs), rfl, rfl, Or.inr ⟨rfl, rfl⟩⟩

theorem simple_approve [Crypto] {y : Sys} (hy : Reachable y) {m : Msg} {r : Spec.ApproveReq}
    (hm : Spec.approveRequest m = some r) : Simple y m r.transaction := by
  rcases exec_approve hy.inv hm with ⟨s', e1, o1, _, _, f1, _⟩ | ⟨_, e1, o1, t1, _⟩ | ⟨e1, _⟩
  · refine ⟨(fun hs => by rw [hs] at o1; cases o1), by rw [e1], by rw [e1], Or.inl ⟨o1, by rw [e1]; exact f1⟩⟩
  · exact ⟨(fun hs => by rw [hs] at t1; cases t1), by rw [e1], by rw [e1], Or.inr ⟨o1, e1⟩⟩
  · rw [Simple, e1]; exact ⟨(fun hs => nomatch hs), rfl, rfl, Or.inr ⟨rfl, rfl⟩⟩

theorem simple_deposit [Crypto] {y : Sys} (hy : Reachable y) (c : Principal)
    (cy : Fin (U128MAX + 1)) (a : DepositArg) :
    Simple y (.deposit c cy a) ⟨.mint a.to (cy.val - 100000000) 100000000, none, a.memo⟩ ∧
    ((∃ i, Spec.okIndex (y.exec (.deposit c cy a)).2 = some i) ↔
      (100000000 < cy.val ∧ Spec.MemoFits a.memo ∧
        y.ledger.cache.totalSupply + (cy.val - 100000000) < 2 ^ 128)) := by
  rcases exec_deposit hy.inv c cy a with ⟨s', e1, f1, v⟩ | ⟨e1, v⟩
  · rw [Simple, e1]
    exact ⟨⟨(fun hs => nomatch hs), rfl, rfl, Or.inl ⟨rfl, f1⟩⟩, fun _ => v, fun _ => ⟨_, rfl⟩⟩
  · rw [Simple, e1]
    refine ⟨⟨(fun hs => nomatch hs), rfl, rfl, Or.inr ⟨rfl, rfl⟩⟩, ?_, ?_⟩
    · rintro ⟨i, hi⟩; cases hi
    · rintro ⟨v1, v2, v3⟩
      rcases v with v | v | v
      · omega
      · exact absurd v2 v
      · omega

theorem same_burn [Crypto] {y z : Sys} (hy : Reachable y) (hz : Reachable z)
    (h : Spec.SameLog y z) {m : Msg} {r : Spec.BurnReq} {to : Option Principal}
    (hm : Spec.burnRequest m = some (r, to)) (hn : Spec.NoClash y.ledger (r.transaction to))
    (h1 : Spec.syncOf m ≠ none → (y.exec m).2 ≠ .trapped)
    (h2 : Spec.syncOf m ≠ none → (z.exec m).2 ≠ .trapped) :
    Spec.SameLog (y.exec m).1 (z.exec m).1 ∧
    Spec.okIndex (y.exec m).2 = Spec.okIndex (z.exec m).2 ∧
    ((y.exec m).2 = .suspended ↔ (z.exec m).2 = .suspended) := by
  have hi := hy.inv.ledger
  have hj := h.inv hz
  have c1 := (C61_burn_iff hy hm hn).1
  have c2 := (C61_burn_iff hz hm (h.noClash hn)).1
  have hiff : Spec.burnError (y.exec m).2 = none ↔ Spec.burnError (z.exec m).2 = none := by
    rw [c1, c2, ← h.duplicate, ← h.now]
    exact ⟨fun ⟨a, b⟩ => ⟨same_burnValid hi hj h.blocks a, b⟩,
      fun ⟨a, b⟩ => ⟨same_burnValid hj hi h.blocks.symm a, b⟩⟩
  have hst : ∀ {y : Sys} {s1 p}, Started y m r to s1 p → Spec.burnError (y.exec m).2 = none := by
    rintro y s1 p ⟨_, _, _, _, _, _, ⟨_, hx⟩ | ⟨hs, hf⟩⟩
    · rw [hx]; rfl
    · rcases hf with ⟨hf, _⟩ | ⟨_, _, _, _, _, _, hf, _⟩
      · rw [hf]; rfl
      · exact hf
  rcases exec_burn hy.inv hm with ⟨s1, p, hA⟩ | ⟨e, hA⟩
  · rcases exec_burn hz.inv hm with ⟨t1, q, hB⟩ | ⟨e, hB⟩
    · obtain ⟨f1, _, _, _, ⟨old, rfl, x1⟩, _, k1⟩ := hA
      obtain ⟨f2, _, _, _, ⟨old', rfl, x2⟩, _, k2⟩ := hB
      have hold : old = old' := same_expiry hi hj h.blocks x1 (h.now ▸ x2)
      have hb : s1.blocks = t1.blocks := same_effect hi hj h.blocks f1 (h.now ▸ f2)
      rcases k1 with ⟨hs, k1⟩ | ⟨hs, k1⟩
      · rcases k2 with ⟨_, k2⟩ | ⟨hs', _⟩
        · rw [k1, k2]
          refine ⟨⟨hb, h.now, ?_⟩, rfl, Iff.rfl⟩
          simp only [sent]
          rw [h.pending, hold, h.blocks]
        · exact absurd hs hs'
      · rcases k2 with ⟨hs', _⟩ | ⟨_, k2⟩
        · exact absurd hs' hs
        · rw [← hold, ← h.blocks] at k2
          have := same_failed h.now h.pending f1.inv (h.now ▸ f2.inv) hb k1 k2 (h1 hs) (h2 hs)
          exact ⟨this.1, this.2.1, this.2.2.2⟩
    · have := hiff.1 (hst hA)
      rw [hB.2.2.1] at this; cases this
  · rcases exec_burn hz.inv hm with ⟨t1, q, hB⟩ | ⟨e', hB⟩
    · have := hiff.2 (hst hB)
      rw [hA.2.2.1] at this; cases this
    · refine ⟨by rw [hA.1, hB.1]; exact h, by rw [hA.2.1, hB.2.1],
        fun hs => absurd hs hA.2.2.2.2.1, fun hs => absurd hs hB.2.2.2.2.1⟩

theorem same_callback [Crypto] {y z : Sys} (hy : Reachable y) (hz : Reachable z)
    (h : Spec.SameLog y z) {i : Nat} {ans : Answer}
    (h1 : (y.exec (.callback i ans)).2 ≠ .trapped) (h2 : (z.exec (.callback i ans)).2 ≠ .trapped) :
    Spec.SameLog (y.exec (.callback i ans)).1 (z.exec (.callback i ans)).1 ∧
    Spec.okIndex (y.exec (.callback i ans)).2 = Spec.okIndex (z.exec (.callback i ans)).2 ∧
    ((y.exec (.callback i ans)).2 = .suspended ↔ (z.exec (.callback i ans)).2 = .suspended) := by
  have hi := hy.inv.ledger
  have hj := h.inv hz
  have hok : ∀ {y : Sys} {n}, Spec.okIndex (y.exec (.callback i ans)).2 = some n →
      (y.exec (.callback i ans)).2 ≠ .suspended := by
    intro y n h1 h2
    rw [h2] at h1; cases h1
  have hnote : ∀ (s : State) p, (noteCanister s p ans).blocks = s.blocks := by
    intro s p
    unfold noteCanister
    split
    · split <;> rfl
    · rfl
  rcases exec_callback_cases hy.inv i ans with ⟨a1, a2⟩ | ⟨p, hp, hf, hA⟩
  · rcases exec_callback_cases hz.inv i ans with ⟨b1, b2⟩ | ⟨p, hp, hf, hB⟩
    · rw [a1, b1]; exact ⟨h, rfl, Iff.rfl⟩
    · rw [← h.pending] at hp
      exact absurd hf (a2 p hp)
  · rcases exec_callback_cases hz.inv i ans with ⟨b1, b2⟩ | ⟨q, hq, hg, hB⟩
    · rw [h.pending] at hp
      exact absurd hf (b2 p hp)
    · rw [← h.pending, hp] at hq
      cases hq
      rcases hA with ⟨r1, a1, a2⟩ | ⟨back, r1, a1⟩
      · rcases hB with ⟨_, b1, b2⟩ | ⟨back, r2, _⟩
        · refine ⟨?_, by rw [a2, b2], fun hs => absurd hs (hok a2), fun hs => absurd hs (hok b2)⟩
          rw [a1, b1]
          refine ⟨by simp only [hnote]; exact h.blocks, h.now, ?_⟩
          simp only [answered]
          rw [h.pending]
        · rw [r1] at r2; cases r2
      · rcases hB with ⟨r2, _⟩ | ⟨back', r2, b1⟩
        · rw [r1] at r2; cases r2
        · rw [r1] at r2
          cases r2
          have := same_failed (ya := answered y i p ans) (za := answered z i p ans) h.now
            (by simp only [answered]; rw [h.pending]) hi hj h.blocks a1 b1 h1 h2
          exact ⟨this.1, this.2.1, this.2.2.2⟩

/-- **C82**: the log decides what a message does: the same requests are carried out, with the same
blocks, and the same calls are made. -/
theorem C82_step [Crypto] {y z : Sys} (hy : Reachable y) (hz : Reachable z)
    (h : Spec.SameLog y z) {m : Msg} (cy : Spec.Clear y m) (cz : Spec.Clear z m) :
    Spec.SameLog (y.exec m).1 (z.exec m).1 ∧
    Spec.okIndex (y.exec m).2 = Spec.okIndex (z.exec m).2 ∧
    ((y.exec m).2 = .suspended ↔ (z.exec m).2 = .suspended) := by
  have hi := hy.inv.ledger
  have hj := h.inv hz
  rcases msg_cases m with ⟨r, to, hm⟩ | ⟨r, hm⟩ | ⟨r, hm⟩ | ⟨c, cyc, a, rfl⟩ | ⟨i, a, rfl⟩ | ⟨i, rfl⟩ |
    ⟨a, rfl⟩
  · have hn : Spec.NoClash y.ledger (r.transaction to) := by
      refine cy.noClash _ ?_
      cases m <;> simp only [Spec.burnRequest, Option.some.injEq, Prod.mk.injEq, reduceCtorEq] at hm <;>
        (obtain ⟨rfl, rfl⟩ := hm; rfl)
    exact same_burn hy hz h hm hn (fun hs => cy.cleansUp (Or.inl hs)) (fun hs => cz.cleansUp (Or.inl hs))
  · have hn : Spec.NoClash y.ledger r.transaction := by
      refine cy.noClash _ ?_
      cases m <;> simp only [Spec.transferRequest, Option.some.injEq, reduceCtorEq] at hm <;>
        (subst hm; rfl)
    refine Simple.same hy hz h (simple_transfer hy hm) (simple_transfer hz hm) ?_
    rw [C63_transfer_iff hy hm hn, C63_transfer_iff hz hm (h.noClash hn), ← h.duplicate, ← h.now]
    unfold Spec.SelfOverflow
    rw [same_bal hi hj h.blocks]
    exact ⟨fun ⟨a, b⟩ => ⟨same_transferValid hi hj h.blocks a, b⟩,
      fun ⟨a, b⟩ => ⟨same_transferValid hj hi h.blocks.symm a, b⟩⟩
  · have hn : Spec.NoClash y.ledger r.transaction := by
      refine cy.noClash _ ?_
      cases m <;> simp only [Spec.approveRequest, Option.some.injEq, reduceCtorEq] at hm <;>
        (subst hm; rfl)
    refine Simple.same hy hz h (simple_approve hy hm) (simple_approve hz hm) ?_
    rw [C60_approve_iff hy hm hn, C60_approve_iff hz hm (h.noClash hn), ← h.duplicate, ← h.now]
    have hx := cy.notExpiring r hm
    exact ⟨fun ⟨a, b⟩ => ⟨same_approveValid hi hj h.blocks hx a, b⟩,
      fun ⟨a, b⟩ => ⟨same_approveValid hj hi h.blocks.symm (h.blocks ▸ hx) a, b⟩⟩
  · refine Simple.same hy hz h (simple_deposit hy c cyc a).1 (simple_deposit hz c cyc a).1 ?_
    rw [(simple_deposit hy c cyc a).2, (simple_deposit hz c cyc a).2,
      same_supply hi hj h.blocks]
  · exact same_callback hy hz h (cy.cleansUp (Or.inr ⟨_, _, rfl⟩)) (cz.cleansUp (Or.inr ⟨_, _, rfl⟩))
  · exact ⟨⟨h.blocks, h.now, by simp only [Sys.exec]; rw [h.pending]⟩, rfl, Iff.rfl⟩
  · obtain ⟨c, hc⟩ := exec_upgrade_cfg hy a
    obtain ⟨c', hc'⟩ := exec_upgrade_cfg hz a
    have hre : ∀ y : Sys, (y.exec (.upgrade a)).2 = .trapped ∨ (y.exec (.upgrade a)).2 = .silent := by
      intro y
      simp only [Sys.exec]
      split
      · exact Or.inl rfl
      · exact Or.inr rfl
    refine ⟨by rw [hc, hc']; exact ⟨h.blocks, h.now, h.pending⟩, ?_, ?_⟩ <;>
      rcases hre y with h1 | h1 <;> rcases hre z with h2 | h2 <;> rw [h1, h2] <;> simp [Spec.okIndex]

/-- **C82**: and so does everything that happens later. -/
theorem C82_run [Crypto] {y z : Sys} (hy : Reachable y) (hz : Reachable z) (h : Spec.SameLog y z)
    (es : List Event)
    (hc : ∀ pre e suf, es = pre ++ e :: suf →
      Spec.Clear ((y.run pre).tick e.dt) e.msg ∧ Spec.Clear ((z.run pre).tick e.dt) e.msg) :
    Spec.SameLog (y.run es) (z.run es) := by
  induction es generalizing y z with
  | nil => exact h
  | cons e es ih =>
    have h0 := hc [] e es rfl
    have ht : Spec.SameLog (y.tick e.dt) (z.tick e.dt) :=
      ⟨h.blocks, by simp only [Sys.tick]; rw [h.now], h.pending⟩
    have h1 := C82_step (hy.tick e.dt) (hz.tick e.dt) ht h0.1 h0.2
    refine ih (hy.step e) (hz.step e) h1.1 ?_
    intro pre e' suf heq
    exact hc (e :: pre) e' suf (by rw [heq]; rfl)

open Toy in
/-- Two histories that differ in the canister the cycles minting canister made: the logs are the
same, the tables are not (repeating the creation tells), and further requests are answered alike. -/
example :
    let made (c : Principal) : List Event := [dep alice 1000000000000,
      create alice 500000000 (some 1000000001), ⟨1, .callback 0 (.cmc (.created c) 0)⟩]
    let y := start.run (made target)
    let z := start.run (made carol)
    Reachable y ∧ Reachable z ∧ Spec.SameLog y z ∧
    (y.exec (create alice 500000000 (some 1000000001)).msg).2 ≠
      (z.exec (create alice 500000000 (some 1000000001)).msg).2 ∧
    Spec.Clear y (xfer alice bob 7).msg ∧ Spec.Clear z (xfer alice bob 7).msg ∧
    (y.exec (xfer alice bob 7).msg).1.ledger.blocks.length = 3 := by
  intro made y z
  have hb : y.ledger.blocks = z.ledger.blocks := by decide +kernel
  have hn : Spec.NoClash y.ledger ⟨.transfer (acc alice) (acc bob) none 7 none, none, none⟩ := by
    decide +kernel
  refine ⟨run_reachable _, run_reachable _, ⟨hb, by decide +kernel, by decide +kernel⟩,
    by decide +kernel, ⟨?_, (fun r hr => nomatch hr), ?_⟩, ⟨?_, (fun r hr => nomatch hr), ?_⟩, by decide +kernel⟩
  · intro t ht; cases ht; exact hn
  · rintro (h | ⟨i, a, h⟩)
    · exact absurd rfl h
    · cases h
  · intro t ht; cases ht
    unfold Spec.NoClash at hn ⊢
    rw [← hb]; exact hn
  · rintro (h | ⟨i, a, h⟩)
    · exact absurd rfl h
    · cases h

end CyclesLedger
