import Verif.Proof.Origin
import Verif.Proof.Toy
import Verif.Proof.Dedup
import Verif.Props.Requests
/-!
# Every refund repays a burn

C72.
-/
namespace CyclesLedger

/-- A mint without a fee: after the installation these are the refunds. -/
def Spec.freeMint (b : Block) : Bool :=
  match b.transaction.operation with
  | .mint _ _ 0 => true
  | _ => false

/-- The indices of the refunds in a log that started with `n` initial balances, in order. -/
def Spec.refundsIn (n : Nat) (blocks : List Block) : List Nat :=
  (List.range blocks.length).filter fun i =>
    decide (n ≤ i) && (blocks[i]?.map Spec.freeMint).getD false

/-- The mint repays the burn: it credits the account that was charged.  A failed withdrawal is
repaid exactly, less one fee; a failed canister creation is repaid at most that if the cycles
minting canister is `modest`. -/
def Spec.Repays (modest : Prop) (burn mint : Transaction) : Prop :=
  ∃ frm sp amount minted, burn.operation = .burn frm sp amount ∧
    mint.operation = .mint frm minted 0 ∧ 0 < minted ∧ mint.createdAtTime = none ∧
    (((∃ to, burn.memo = some (Spec.burnMemo (some to))) ∧
        mint.memo = some (List.replicate 32 255) ∧ minted + 100000000 = amount) ∨
     (burn.memo = some (Spec.burnMemo none) ∧ mint.memo = some (List.replicate 32 253) ∧
        (modest → minted + 100000000 ≤ amount)))

/-- The cycles minting canister does not claim to return more than it was sent. -/
def Spec.Modest (y : Sys) (m : Msg) : Prop :=
  ∀ i amount refund q, m = .callback i (.cmc (.refunded amount) refund) →
    y.pending[i]? = some q → amount ≤ q.call.cycles

/-- It never does so in the history. -/
def Spec.ModestRun [Crypto] (y : Sys) : List Event → Prop
  | [] => True
  | e :: es => Spec.Modest y e.msg ∧ Spec.ModestRun (y.step e).1 es

/-- `pairs` matches the refunds of the log, in order and without exception, with burns before
them; no burn is matched twice, nor is one whose call is outstanding (`outstanding`). -/
structure Spec.Matching (modest : Prop) (n : Nat) (blocks : List Block) (outstanding : List Nat)
    (pairs : List (Nat × Nat)) : Prop where
  refunds : pairs.map Prod.snd = Spec.refundsIn n blocks
  distinct : (pairs.map Prod.fst ++ outstanding).Nodup
  repays : ∀ j i, (j, i) ∈ pairs → j < i ∧ ∃ burn mint, blocks[j]? = some burn ∧
    blocks[i]? = some mint ∧ Spec.Repays modest burn.transaction mint.transaction

theorem refundsIn_append (n : Nat) (blocks : List Block) (b : Block) :
    Spec.refundsIn n (blocks ++ [b]) = Spec.refundsIn n blocks ++
      (if n ≤ blocks.length ∧ Spec.freeMint b = true then [blocks.length] else []) := by
  unfold Spec.refundsIn
  rw [List.length_append, List.length_singleton, List.range_succ, List.filter_append]
  congr 1
  · apply List.filter_congr
    intro i hi
    rw [List.mem_range] at hi
    rw [List.getElem?_append_left hi]
  · by_cases h1 : n ≤ blocks.length <;> by_cases h2 : Spec.freeMint b = true <;>
      simp [h1, h2]

theorem refundsIn_lt {n : Nat} {blocks : List Block} {i : Nat} (h : i ∈ Spec.refundsIn n blocks) :
    i < blocks.length := by
  unfold Spec.refundsIn at h
  exact List.mem_range.mp (List.mem_filter.mp h).1

theorem perm_eraseIdx {α : Type} {x : α} : ∀ (l : List α) {k : Nat}, l[k]? = some x →
    List.Perm (x :: l.eraseIdx k) l
  | [], _, h => by simp at h
  | y :: l, 0, h => by
    simp only [List.getElem?_cons_zero, Option.some.injEq] at h
    subst h
    exact List.Perm.refl _
  | y :: l, k + 1, h => by
    simp only [List.getElem?_cons_succ] at h
    exact (List.Perm.swap y x _).trans ((perm_eraseIdx l h).cons y)

namespace Spec.Matching

variable {modest : Prop} {n : Nat} {blocks : List Block} {o : List Nat} {pairs : List (Nat × Nat)}

theorem fst_lt (h : Spec.Matching modest n blocks o pairs) :
    ∀ j ∈ pairs.map Prod.fst, j < blocks.length := by
  intro j hj
  obtain ⟨⟨j', i⟩, hm, rfl⟩ := List.mem_map.mp hj
  obtain ⟨_, _, _, h1, _⟩ := h.repays _ _ hm
  exact (List.getElem?_eq_some_iff.mp h1).1

theorem sub {o' : List Nat} (h : Spec.Matching modest n blocks o pairs) (hs : o'.Sublist o) :
    Spec.Matching modest n blocks o' pairs :=
  { h with distinct := h.distinct.sublist (List.Sublist.append (List.Sublist.refl _) hs) }

theorem repays_mono (h : Spec.Matching modest n blocks o pairs) (new : List Block) :
    ∀ j i, (j, i) ∈ pairs → j < i ∧ ∃ burn mint, (blocks ++ new)[j]? = some burn ∧
    (blocks ++ new)[i]? = some mint ∧ Spec.Repays modest burn.transaction mint.transaction := by
  intro j i hm
  obtain ⟨h1, b, m, h2, h3, h4⟩ := h.repays j i hm
  refine ⟨h1, b, m, ?_, ?_, h4⟩
  · rw [List.getElem?_append_left (List.getElem?_eq_some_iff.mp h2).1]; exact h2
  · rw [List.getElem?_append_left (List.getElem?_eq_some_iff.mp h3).1]; exact h3

/-- A block that is not a refund. -/
theorem plain (h : Spec.Matching modest n blocks o pairs) {b : Block}
    (hb : Spec.freeMint b = false) : Spec.Matching modest n (blocks ++ [b]) o pairs where
  refunds := by rw [refundsIn_append, h.refunds]; simp [hb]
  distinct := h.distinct
  repays := h.repays_mono _

/-- A burn. -/
theorem start (h : Spec.Matching modest n blocks o pairs) (ho : ∀ j ∈ o, j < blocks.length)
    {b : Block} (hb : Spec.freeMint b = false) :
    Spec.Matching modest n (blocks ++ [b]) (o ++ [blocks.length]) pairs := by
  refine { h.plain hb with distinct := ?_ }
  rw [← List.append_assoc, List.nodup_append]
  refine ⟨h.distinct, by simp, ?_⟩
  intro a ha c hc hac
  rw [List.mem_singleton] at hc
  subst hc hac
  rcases List.mem_append.mp ha with h1 | h1
  · exact absurd (h.fst_lt _ h1) (Nat.lt_irrefl _)
  · exact absurd (ho _ h1) (Nat.lt_irrefl _)

/-- A refund. -/
theorem refund (h : Spec.Matching modest n blocks o pairs) (hn : n ≤ blocks.length) {k j : Nat}
    (hk : o[k]? = some j) {burn b : Block} (hj : blocks[j]? = some burn)
    (hr : Spec.Repays modest burn.transaction b.transaction) :
    Spec.Matching modest n (blocks ++ [b]) (o.eraseIdx k) (pairs ++ [(j, blocks.length)]) where
  refunds := by
    have hb : Spec.freeMint b = true := by
      obtain ⟨_, _, _, _, _, h1, _⟩ := hr
      simp [Spec.freeMint, h1]
    rw [refundsIn_append, List.map_append, h.refunds]; simp [hb, hn]
  distinct := by
    have h2 := (((perm_eraseIdx o hk).append_left (pairs.map Prod.fst)).nodup_iff).mpr h.distinct
    simpa using h2
  repays := by
    intro j' i' hm
    rcases List.mem_append.mp hm with hm | hm
    · exact h.repays_mono _ j' i' hm
    · simp only [List.mem_singleton, Prod.mk.injEq] at hm
      obtain ⟨rfl, rfl⟩ := hm
      have hlt := (List.getElem?_eq_some_iff.mp hj).1
      refine ⟨hlt, burn, b, ?_, ?_, hr⟩
      · rw [List.getElem?_append_left hlt]; exact hj
      · rw [List.getElem?_append_right (Nat.le_refl _)]; simp

end Spec.Matching

/-- The burns whose calls are outstanding. -/
def Spec.openBurns (y : Sys) : List Nat := y.pending.map fun q => q.data.blockIndex

theorem openBurns_lt {y : Sys} [Crypto] (hi : SInv y) : ∀ j ∈ Spec.openBurns y,
    j < y.ledger.blocks.length := by
  intro j hj
  obtain ⟨q, hq, rfl⟩ := List.mem_map.mp hj
  obtain ⟨b, h1, _⟩ := (hi.pending q hq).block
  exact (List.getElem?_eq_some_iff.mp h1).1

theorem map_eraseIdx' {α β : Type} (f : α → β) : ∀ (l : List α) (i : Nat),
    (l.eraseIdx i).map f = (l.map f).eraseIdx i
  | [], _ => rfl
  | _ :: _, 0 => rfl
  | a :: l, i + 1 => congrArg (f a :: ·) (map_eraseIdx' f l i)

/-- What a failed call adds to the log, as a matching. -/
theorem refunded_matching [Crypto] {modest : Prop} {n : Nat} {s s' : State} {now : Nat}
    {kind : CallKind} {p : Suspended} {back : Nat} {fb ab : Option Nat} {o : List Nat} {k : Nat}
    {pairs : List (Nat × Nat)}
    (h : Refunded s s' now kind p back fb ab) (hm : Spec.Matching modest n s.blocks o pairs)
    (hn : n ≤ s.blocks.length) (hp : PendOk s p) (hk : o[k]? = some p.blockIndex)
    (hmemo : ((kind = .withdraw ∨ kind = .withdrawFrom) ∧ back = p.amount ∧
        ∃ to, p.transaction.memo = some (Spec.burnMemo (some to))) ∨
      ((kind = .createCanister ∨ kind = .createCanisterFrom) ∧ (modest → back ≤ p.amount) ∧
        p.transaction.memo = some (Spec.burnMemo none))) :
    ∃ pairs', Spec.Matching modest n s'.blocks (o.eraseIdx k) pairs' := by
  obtain ⟨burn, hb, ht⟩ := hp.block
  have hrep : 100000000 < back →
      Spec.Repays modest burn.transaction (Spec.refundTransaction kind p back) := by
    intro hgt
    refine ⟨p.frm, p.spender, p.amount, back - 100000000, by rw [ht, hp.op], rfl, by omega, rfl, ?_⟩
    rw [ht]
    rcases hmemo with ⟨h1 | h1, h2, h3⟩ | ⟨h1 | h1, h2, h3⟩ <;> subst h1
    · exact .inl ⟨h3, rfl, by omega⟩
    · exact .inl ⟨h3, rfl, by omega⟩
    · exact .inr ⟨h3, rfl, fun hm => by have := h2 hm; omega⟩
    · exact .inr ⟨h3, rfl, fun hm => by have := h2 hm; omega⟩
  rcases h with ⟨_, _, _, rfl⟩ | ⟨hgt, _, _, he, _⟩ | ⟨hgt, _, _, sp, s2, _, he, he2⟩
  · exact ⟨pairs, hm.sub (List.eraseIdx_sublist ..)⟩
  · rw [he.blocks]
    exact ⟨_, hm.refund hn hk hb (hrep hgt)⟩
  · rw [he2.blocks, he.blocks]
    exact ⟨_, (hm.refund hn hk hb (hrep hgt)).plain rfl⟩

theorem matching_exec [Crypto] {modest : Prop} {n : Nat} {y : Sys} (h : Reachable y) (m : Msg)
    (hmod : modest → Spec.Modest y m) (hn : n ≤ y.ledger.blocks.length)
    {pairs : List (Nat × Nat)}
    (hm : Spec.Matching modest n y.ledger.blocks (Spec.openBurns y) pairs) :
    ∃ pairs', Spec.Matching modest n (y.exec m).1.ledger.blocks
      (Spec.openBurns (y.exec m).1) pairs' := by
  have hi := h.inv
  rcases msg_cases m with ⟨r, to, hr⟩ | ⟨r, hr⟩ | ⟨r, hr⟩ | ⟨c, cy, a, rfl⟩ | ⟨i, ans, rfl⟩ |
    ⟨i, rfl⟩ | ⟨a, rfl⟩
  · rcases exec_burn hi hr with ⟨s1, p, hs⟩ | ⟨e, he⟩
    · have hco := callOk_started hr hs
      obtain ⟨he, _, _, _, ⟨old, hp, _⟩, hpo, h1⟩ := hs
      have hst := hm.start (openBurns_lt hi) (b := mkBlock y.ledger (r.transaction to) y.now) rfl
      rw [← he.blocks] at hst
      rcases h1 with ⟨_, h1⟩ | ⟨_, h1⟩
      · rw [h1]
        refine ⟨pairs, ?_⟩
        have : Spec.openBurns (sent y s1 (Spec.kindOf m) p (callOf m)) =
            Spec.openBurns y ++ [y.ledger.blocks.length] := by
          simp [Spec.openBurns, sent, hp]
        rw [this]
        exact hst
      · rcases h1 with ⟨h1, _⟩ | ⟨fb, ab, s', h1, h2, _⟩
        · rw [h1]; exact ⟨pairs, hm⟩
        · rw [h1]
          have hk : (Spec.openBurns y ++ [y.ledger.blocks.length])[(Spec.openBurns y).length]? =
              some p.blockIndex := by
            rw [List.getElem?_append_right (Nat.le_refl _)]; simp [hp]
          have := refunded_matching h2 hst (by rw [he.blocks]; simp; omega) hpo hk (by
            rcases hco.body with ⟨hkind, _, to', _, h3⟩ | ⟨hkind, _, _, h3⟩
            · exact .inl ⟨hkind, by rw [hp], to', h3⟩
            · exact .inr ⟨hkind, fun _ => by rw [hp]; exact Nat.le_refl _, h3⟩)
          rw [List.eraseIdx_append_of_length_le (Nat.le_refl _)] at this
          simp only [Nat.sub_self, List.eraseIdx_cons_zero, List.append_nil] at this
          exact this
    · rw [he.1]; exact ⟨pairs, hm⟩
  · rcases exec_transfer hi hr with ⟨s', h1, _, _, _, he, _⟩ | ⟨e, h1, _⟩ | ⟨h1, _⟩
    · rw [h1]
      simp only
      rw [he.blocks]
      exact ⟨pairs, hm.plain rfl⟩
    · rw [h1]; exact ⟨pairs, hm⟩
    · rw [h1]; exact ⟨pairs, hm⟩
  · rcases exec_approve hi hr with ⟨s', h1, _, _, _, he, _⟩ | ⟨e, h1, _⟩ | ⟨h1, _⟩
    · rw [h1]
      simp only
      rw [he.blocks]
      exact ⟨pairs, hm.plain rfl⟩
    · rw [h1]; exact ⟨pairs, hm⟩
    · rw [h1]; exact ⟨pairs, hm⟩
  · rcases exec_deposit hi c cy a with ⟨s', h1, he, _⟩ | ⟨h1, _⟩
    · rw [h1]
      simp only
      rw [he.blocks]
      exact ⟨pairs, hm.plain rfl⟩
    · rw [h1]; exact ⟨pairs, hm⟩
  · rcases exec_callback_cases hi i ans with ⟨h1, _⟩ | ⟨q, hq, hf, ⟨_, h1, _⟩ | ⟨back, hr, h1⟩⟩
    · rw [h1]; exact ⟨pairs, hm⟩
    · rw [h1]
      refine ⟨pairs, ?_⟩
      have hb : (noteCanister y.ledger q.data ans).blocks = y.ledger.blocks := by
        simp only [noteCanister]
        split
        · split <;> rfl
        · rfl
      simp only
      rw [hb]
      exact hm.sub (by
        unfold Spec.openBurns answered
        rw [map_eraseIdx']
        exact List.eraseIdx_sublist ..)
    · have ho : Spec.openBurns (y.exec (.callback i ans)).1 = (Spec.openBurns y).eraseIdx i := by
        unfold Spec.openBurns
        rw [h1.pending.1]
        exact map_eraseIdx' _ _ _
      rw [ho]
      rcases h1 with ⟨h1, _⟩ | ⟨fb, ab, s', h1, h2, _⟩
      · rw [h1]
        exact ⟨pairs, hm.sub (List.eraseIdx_sublist ..)⟩
      · rw [h1]
        have hqm := List.mem_of_getElem? hq
        have hco := h.callOk q hqm
        refine refunded_matching h2 hm hn (hi.pending q hqm) (by
          unfold Spec.openBurns; rw [List.getElem?_map, hq]; rfl) ?_
        rcases hco.body with ⟨hkind, _, to', _, h3⟩ | ⟨hkind, _, _, h3⟩
        · refine .inl ⟨hkind, ?_, to', h3⟩
          cases ans with
          | depositCycles r =>
            simp only [Spec.returned] at hr
            split at hr
            · cases hr; rfl
            · cases hr
          | cmc r refund =>
            rcases hf with hf | hf <;> rw [hf] at hkind <;> rcases hkind with hkind | hkind <;>
              cases hkind
        · refine .inr ⟨hkind, fun hmm => ?_, h3⟩
          cases ans with
          | depositCycles r =>
            rcases hf with hf | hf <;> rw [hf] at hkind <;> rcases hkind with hkind | hkind <;>
              cases hkind
          | cmc r refund =>
            cases r with
            | created c => cases hr
            | refunded amt =>
              cases hr
              have := hmod hmm i back refund q rfl hq
              rw [hco.cycles] at this
              exact this
            | refundFailed => cases hr; exact Nat.zero_le _
            | callError e => cases hr; exact Nat.le_refl _
  · refine ⟨pairs, hm.sub ?_⟩
    unfold Spec.openBurns
    simp only [Sys.exec]
    rw [map_eraseIdx']
    exact List.eraseIdx_sublist ..
  · simp only [Sys.exec]
    cases hs : postUpgrade y.ledger a with
    | none => exact ⟨pairs, hm⟩
    | some s' =>
      refine ⟨pairs, ?_⟩
      simp only
      rw [(hi.ledger.postUpgrade hs).1]
      exact hm

theorem matching_run [Crypto] {modest : Prop} {n : Nat} : ∀ (es : List Event) (y : Sys),
    Reachable y → (modest → Spec.ModestRun y es) → n ≤ y.ledger.blocks.length →
    (∃ pairs, Spec.Matching modest n y.ledger.blocks (Spec.openBurns y) pairs) →
    ∃ pairs, Spec.Matching modest n (y.run es).ledger.blocks (Spec.openBurns (y.run es)) pairs
  | [], _, _, _, _, hm => hm
  | e :: es, y, h, hmod, hn, ⟨pairs, hm⟩ => by
    have h1 := matching_exec (modest := modest) (h.tick e.dt) e.msg (fun h => (hmod h).1) hn hm
    obtain ⟨new, h2, _⟩ := exec_blocks (h.tick e.dt).inv e.msg
    refine matching_run es _ (h.step e) (fun h => (hmod h).2) ?_ h1
    show n ≤ ((y.tick e.dt).exec e.msg).1.ledger.blocks.length
    rw [h2, List.length_append]
    exact Nat.le_trans hn (Nat.le_add_right _ _)

/-- **C72**: the refunds in the log of any history - all fee-less mints after the initial
balances - can be matched one by one with earlier burns from the accounts they credit.  No burn
is repaid twice, and none whose call is still outstanding is repaid. -/
theorem C72_refunds_repay [Crypto] {config : Config} {now cycles : Nat} {y0 : Sys}
    (h0 : Sys.init config now cycles = some y0) (es : List Event) :
    ∃ pairs, Spec.Matching (Spec.ModestRun y0 es) y0.ledger.blocks.length
      (y0.run es).ledger.blocks (Spec.openBurns (y0.run es)) pairs := by
  have hr : Reachable y0 := ⟨config, now, cycles, y0, [], h0, rfl⟩
  refine matching_run es y0 hr id (Nat.le_refl _) ⟨[], ?_, ?_, ?_⟩
  · symm
    unfold Spec.refundsIn
    rw [List.map_nil, List.filter_eq_nil_iff]
    intro i hi
    rw [List.mem_range] at hi
    simp
    omega
  · unfold Sys.init at h0
    rw [Option.map_eq_some_iff] at h0
    obtain ⟨s, _, rfl⟩ := h0
    exact List.nodup_nil
  · intro j i h; cases h

/-- What the refunds among the blocks credit to account `a`. -/
def Spec.refundedTo (a : Account) (bs : List Block) : Nat :=
  (bs.map fun b => match b.transaction.operation with
    | .mint to amount 0 => if Spec.SameAccount to a then amount else 0
    | _ => 0).sum

/-- What the blocks burn from account `a`, without the fees. -/
def Spec.burnedFrom (a : Account) (bs : List Block) : Nat :=
  (bs.map fun b => match b.transaction.operation with
    | .burn frm _ amount => if Spec.SameAccount frm a then amount else 0
    | _ => 0).sum

/-- The cycles of account `a` that are on their way. -/
def Spec.underWay (a : Account) (y : Sys) : Nat :=
  (y.pending.map fun q => if Spec.SameAccount q.data.frm a then q.call.cycles else 0).sum

theorem snoc_induction {α : Type} {P : List α → Prop} (h0 : P [])
    (h1 : ∀ l x, P l → P (l ++ [x])) (l : List α) : P l := by
  rw [← List.reverse_reverse l]
  induction l.reverse with
  | nil => exact h0
  | cons x l ih => rw [List.reverse_cons]; exact h1 _ _ ih

theorem sum_range {α : Type} (f : α → Nat) (l : List α) :
    ((List.range l.length).map fun i => (l[i]?.map f).getD 0).sum = (l.map f).sum := by
  refine snoc_induction (P := fun l : List α =>
    ((List.range l.length).map fun i => (l[i]?.map f).getD 0).sum = (l.map f).sum) rfl ?_ l
  intro l x ih
  rw [List.length_append, List.length_singleton, List.range_succ, List.map_append, List.sum_append,
    List.map_append, List.sum_append, ← ih]
  congr 1
  · congr 1
    apply List.map_congr_left
    intro i hi
    rw [List.mem_range] at hi
    rw [List.getElem?_append_left hi]
  · simp

theorem sum_refundsIn (f : Block → Nat) (n : Nat) (hf : ∀ b, Spec.freeMint b = false → f b = 0)
    (l : List Block) :
    ((Spec.refundsIn n l).map fun i => (l[i]?.map f).getD 0).sum = ((l.drop n).map f).sum := by
  refine snoc_induction (P := fun l => ((Spec.refundsIn n l).map fun i =>
    (l[i]?.map f).getD 0).sum = ((l.drop n).map f).sum) (by simp [Spec.refundsIn]) ?_ l
  intro l x ih
  rw [refundsIn_append, List.map_append, List.sum_append, List.drop_append, List.map_append,
    List.sum_append, ← ih]
  congr 1
  · congr 1
    apply List.map_congr_left
    intro i hi
    rw [List.getElem?_append_left (refundsIn_lt hi)]
  · by_cases h1 : n ≤ l.length
    · rw [show n - l.length = 0 from by omega]
      cases h2 : Spec.freeMint x
      · simp [hf x h2]
      · simp [h1]
    · have : ∃ k, n - l.length = k + 1 := ⟨n - l.length - 1, by omega⟩
      obtain ⟨k, hk⟩ := this
      simp [h1, hk]

theorem sum_le_of_nodup {α : Type} [DecidableEq α] (f : α → Nat) : ∀ (l l' : List α), l.Nodup →
    (∀ x ∈ l, x ∈ l') → (l.map f).sum ≤ (l'.map f).sum
  | [], _, _, _ => Nat.zero_le _
  | x :: l, l', hn, hs => by
    have hx := hs x List.mem_cons_self
    have hp := List.perm_cons_erase hx
    have h1 := (hp.map f).sum_nat
    have h2 := sum_le_of_nodup f l (l'.erase x) (List.nodup_cons.mp hn).2 (by
      intro z hz
      have hne : z ≠ x := fun h => (List.nodup_cons.mp hn).1 (h ▸ hz)
      exact (List.mem_erase_of_ne hne).mpr (hs z (List.mem_cons_of_mem _ hz)))
    rw [h1]
    simp only [List.map_cons, List.sum_cons]
    omega

/-- **C72**: so no account ever gets back more than was burned from it; what it got back and
what is on its way together do not exceed that either.  (If the cycles minting canister does not
claim to return more than it was sent.) -/
theorem C72_account_totals [Crypto] {config : Config} {now cycles : Nat} {y0 : Sys}
    (h0 : Sys.init config now cycles = some y0) (es : List Event) (hm : Spec.ModestRun y0 es)
    (a : Account) :
    Spec.refundedTo a ((y0.run es).ledger.blocks.drop y0.ledger.blocks.length) +
      Spec.underWay a (y0.run es) ≤ Spec.burnedFrom a (y0.run es).ledger.blocks := by
  obtain ⟨pairs, h⟩ := C72_refunds_repay h0 es
  have hr : Reachable (y0.run es) := ⟨config, now, cycles, y0, es, h0, rfl⟩
  unfold Spec.refundedTo Spec.burnedFrom
  generalize hg : (fun b : Block => match b.transaction.operation with
    | .mint to amount 0 => if Spec.SameAccount to a then amount else 0
    | _ => 0) = g
  generalize hf : (fun b : Block => match b.transaction.operation with
    | .burn frm _ amount => if Spec.SameAccount frm a then amount else 0
    | _ => 0) = f
  generalize hbs : (y0.run es).ledger.blocks = bs at h ⊢
  rw [← sum_refundsIn g _ (by
      intro b hb
      subst hg
      simp only [Spec.freeMint] at hb
      simp only
      split at hb <;> simp_all) bs, ← h.refunds, ← sum_range f bs]
  refine Nat.le_trans ?_ (sum_le_of_nodup _ _ _ h.distinct ?_)
  · rw [List.map_append, List.sum_append, List.map_map, List.map_map]
    refine Nat.add_le_add ?_ ?_
    · have : ∀ (l : List (Nat × Nat)), (∀ x ∈ l, x ∈ pairs) →
          (l.map ((fun i => (bs[i]?.map g).getD 0) ∘ Prod.snd)).sum ≤
          (l.map ((fun i => (bs[i]?.map f).getD 0) ∘ Prod.fst)).sum := by
        intro l
        induction l with
        | nil => intro _; exact Nat.le_refl _
        | cons x l ih =>
          intro hl
          obtain ⟨j, i⟩ := x
          obtain ⟨_, burn, mint, h1, h2, frm, sp, amount, minted, h3, h4, _, _, h5⟩ :=
            h.repays j i (hl _ List.mem_cons_self)
          have h6 := ih (fun x hx => hl x (List.mem_cons_of_mem _ hx))
          simp only [List.map_cons, List.sum_cons, Function.comp_apply] at h6 ⊢
          have h7 : minted ≤ amount := by
            rcases h5 with ⟨_, _, h5⟩ | ⟨_, _, h5⟩
            · omega
            · have := h5 hm; omega
          have h8 : ((bs[i]?.map g).getD 0) ≤ ((bs[j]?.map f).getD 0) := by
            rw [h1, h2]
            subst hf hg
            simp only [Option.map_some, Option.getD_some, h3, h4]
            split
            · exact h7
            · exact Nat.zero_le _
          omega
      exact this pairs (fun _ h => h)
    · unfold Spec.underWay Spec.openBurns
      rw [List.map_map]
      have : ∀ (l : List Pending), (∀ x ∈ l, x ∈ (y0.run es).pending) →
          (l.map fun q => if Spec.SameAccount q.data.frm a then q.call.cycles else 0).sum ≤
          (l.map ((fun i => (bs[i]?.map f).getD 0) ∘ fun q => q.data.blockIndex)).sum := by
        intro l
        induction l with
        | nil => intro _; exact Nat.le_refl _
        | cons q l ih =>
          intro hl
          have hq := hl _ List.mem_cons_self
          have hp := hr.inv.pending q hq
          obtain ⟨b, h1, h2⟩ := hp.block
          have h6 := ih (fun x hx => hl x (List.mem_cons_of_mem _ hx))
          simp only [List.map_cons, List.sum_cons, Function.comp_apply] at h6 ⊢
          refine Nat.add_le_add ?_ h6
          rw [hbs] at h1
          rw [h1, (hr.callOk q hq).cycles]
          subst hf
          simp [h2, hp.op]
      exact this _ (fun _ h => h)
  · intro j hj
    rw [List.mem_range]
    rcases List.mem_append.mp hj with h1 | h1
    · exact h.fst_lt j h1
    · have := openBurns_lt hr.inv j h1
      rw [hbs] at this
      exact this

/-- The example history; then alice's withdrawal by bob fails, and a creation is returned in part. -/
def Toy.failing : List Event := Toy.events ++
  [⟨1, .callback 1 (.cmc (.refunded 400000000) 400000000)⟩, Toy.wdr Toy.alice 1000000000,
   ⟨1, .callback 0 (.depositCycles (some (.rejected (some .canisterReject))))⟩]

open Toy in
/-- Three burns from alice's account, of 300000000 (block 4), 500000000 (block 5) and 1000000000
(block 7, outstanding); blocks 6 and 8 repay 300000000 of block 5 and 200000000 of block 4. -/
example : Sys.init cfg T 0 = some start ∧ Spec.ModestRun start failing ∧
    Spec.refundsIn 0 (start.run failing).ledger.blocks = [6, 8] ∧
    Spec.openBurns (start.run failing) = [7] ∧
    Spec.refundedTo (acc alice) (start.run failing).ledger.blocks = 500000000 ∧
    Spec.underWay (acc alice) (start.run failing) = 1000000000 ∧
    Spec.burnedFrom (acc alice) (start.run failing).ledger.blocks = 1800000000 := by
  refine ⟨start_eq, ?_, by decide +kernel, by decide +kernel, by decide +kernel, by decide +kernel,
    by decide +kernel⟩
  have no : ∀ (y : Sys) (m : Msg), (∀ i a r, m ≠ .callback i (.cmc a r)) → Spec.Modest y m :=
    fun y m h i a r q hm _ => absurd hm (h _ _ _)
  refine ⟨no _ _ ?_, no _ _ ?_, no _ _ ?_, no _ _ ?_, no _ _ ?_, no _ _ ?_, ?_, no _ _ ?_, no _ _ ?_,
    trivial⟩
  all_goals first | (intro i a r h; cases h; done) | skip
  intro i amount refund q hm hq
  cases hm
  have h1 : demo.pending[1]?.map (fun q => q.call.cycles) = some 500000000 := by decide +kernel
  change demo.pending[1]? = some q at hq
  rw [hq, Option.map_some, Option.some.injEq] at h1
  omega

end CyclesLedger
