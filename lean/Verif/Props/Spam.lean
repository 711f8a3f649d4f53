import Verif.Props.Revenue
import Verif.Props.Dedup
import Verif.Props.Storage
import Verif.Proof.PruneExact
/-!
# Storage is paid for

C88: nobody fills the memory of the ledger for free.  Every block costs the fee, and everything
else that is stored is bounded by the blocks.
-/
namespace CyclesLedger

namespace Spec

/-- Cycles accepted by a message. -/
def accepted (m : Msg) (r : Reply) : Nat :=
  match m with
  | .deposit _ cycles _ => if r = .trapped then 0 else cycles.val
  | _ => 0

/-- Cycles accepted along a history. -/
def acceptedRun [Crypto] (y : Sys) : List Event → Nat
  | [] => 0
  | e :: es => accepted e.msg (y.step e).2 + acceptedRun (y.step e).1 es

/-- Cycles under way to other canisters. -/
def underway (y : Sys) : Nat := (y.pending.map (fun p => p.call.cycles)).sum

/-- No call returns more cycles than were sent with it: the IC sees to that. -/
def NoGift (y : Sys) (m : Msg) : Prop :=
  ∀ i r refund p, m = .callback i (.cmc r refund) → y.pending[i]? = some p → refund ≤ p.call.cycles

def NoGiftRun [Crypto] (y : Sys) : List Event → Prop
  | [] => True
  | e :: es => NoGift y e.msg ∧ NoGiftRun (y.step e).1 es

end Spec

section
variable [Crypto]

theorem refunded_paid {s s' : State} {now : Nat} {kind : CallKind} {p : Suspended}
    {back : Nat} {fb ab : Option Nat} (h : Refunded s s' now kind p back fb ab) :
    s.blocks.length ≤ s'.blocks.length ∧
    s'.cache.totalSupply + 100000000 * (s'.blocks.length - s.blocks.length) ≤
      s.cache.totalSupply + back := by
  rcases h with ⟨h1, _, _, rfl⟩ | ⟨_, _, _, he, _⟩ | ⟨_, _, _, sp, s2, _, he, he2⟩
  · omega
  · have := (Effect.mint he).2.1
    rw [he.blocks, List.length_append, List.length_singleton]
    omega
  · have h1 := (Effect.mint he).2.1
    have h2 := (Effect.approve he2).2
    rw [he2.blocks, he.blocks]
    simp only [List.length_append, List.length_singleton]
    omega

theorem paid_exec {y : Sys} (hi : SInv y) (hc : ∀ q ∈ y.pending, CallOk q) (m : Msg)
    (hm : Spec.Honest y m) :
    y.ledger.blocks.length ≤ (y.exec m).1.ledger.blocks.length ∧
    Spec.surplus y + 100000000 * ((y.exec m).1.ledger.blocks.length - y.ledger.blocks.length : Nat) ≤
      Spec.surplus (y.exec m).1 := by
  unfold Spec.surplus icrc1TotalSupply
  rcases msg_cases m with ⟨r, to, hr⟩ | ⟨r, hr⟩ | ⟨r, hr⟩ | ⟨c, cy, a, rfl⟩ | ⟨i, ans, rfl⟩ |
    ⟨i, rfl⟩ | ⟨a, rfl⟩
  · rcases exec_burn hi hr with ⟨s1, p, hs⟩ | ⟨e, he⟩
    · have hco := callOk_started hr hs
      obtain ⟨he, _, _, _, ⟨old, hp, _⟩, _, h1⟩ := hs
      have hb := he.burn.2
      have hl : s1.blocks.length = y.ledger.blocks.length + 1 := by
        rw [he.blocks, List.length_append, List.length_singleton]
      rcases h1 with ⟨_, h1⟩ | ⟨_, h1⟩
      · rw [h1]
        have hcy : (callOf m).cycles = r.amount := by rw [hco.cycles]; simp [hp]
        simp only [sent, hcy]
        omega
      · rcases h1 with ⟨h1, _⟩ | ⟨fb, ab, s', h1, h2, _⟩
        · rw [h1]; simp
        · have h3 := refunded_paid h2
          rw [h1]
          simp only
          omega
    · rw [he.1]; simp
  · rcases exec_transfer hi hr with ⟨s', h1, _, _, _, he, _⟩ | ⟨e, h1, _⟩ | ⟨h1, _⟩
    · have := he.transfer.2
      rw [h1]
      simp only [he.blocks, List.length_append, List.length_singleton]
      omega
    · rw [h1]; simp
    · rw [h1]; simp
  · rcases exec_approve hi hr with ⟨s', h1, _, _, _, he, _⟩ | ⟨e, h1, _⟩ | ⟨h1, _⟩
    · have := (Effect.approve he).2
      rw [h1]
      simp only [he.blocks, List.length_append, List.length_singleton]
      omega
    · rw [h1]; simp
    · rw [h1]; simp
  · rcases exec_deposit hi c cy a with ⟨s', h1, he, h2, _⟩ | ⟨h1, _⟩
    · have := (Effect.mint he).2.1
      rw [h1]
      simp only [he.blocks, List.length_append, List.length_singleton]
      omega
    · rw [h1]; simp
  · rcases exec_callback_cases hi i ans with ⟨h1, h2⟩ | ⟨p, hp, hf, ⟨hr, h1, h2⟩ | ⟨back, hr, h1⟩⟩
    · rw [h1]; simp only; omega
    · have hsup : (noteCanister y.ledger p.data ans).cache = y.ledger.cache ∧
          (noteCanister y.ledger p.data ans).blocks = y.ledger.blocks := by
        unfold noteCanister
        split
        · split <;> exact ⟨rfl, rfl⟩
        · exact ⟨rfl, rfl⟩
      rw [h1]
      simp only [hsup.1, hsup.2, answered]
      cases ans with
      | depositCycles r => simp only; split <;> omega
      | cmc r refund => simp only; omega
    · have hback : (back : Int) ≤ (answered y i p ans).cycles - y.cycles := by
        cases ans with
        | depositCycles r =>
          have hcy := (hc p (List.mem_of_getElem? hp)).cycles
          cases r with
          | none => cases hr
          | some e =>
            simp only [Spec.returned, Option.isSome_some, if_true, Option.some.injEq] at hr
            simp only [answered, Option.isSome_some, if_true]
            omega
        | cmc r refund =>
          have := hm i r refund p back rfl hp hr
          simp only [answered]
          omega
      rcases h1 with ⟨h1, _⟩ | ⟨fb, ab, s', h1, h2, _⟩
      · rw [h1]
        have : (answered y i p ans).ledger = y.ledger := rfl
        simp only [this]
        omega
      · have h3 := refunded_paid h2
        rw [h1]
        simp only
        omega
  · simp [Sys.exec]
  · simp only [Sys.exec]
    split
    · simp
    · rename_i s' hs
      have := (hi.ledger.postUpgrade hs).1
      rw [this]
      simp

omit [Crypto] in
theorem sum_underway_erase {l : List Pending} {i : Nat} {p : Pending} (h : l[i]? = some p) :
    ((l.eraseIdx i).map (fun p => p.call.cycles)).sum + p.call.cycles =
      (l.map (fun p => p.call.cycles)).sum := by
  induction l generalizing i with
  | nil => cases h
  | cons a l ih =>
    cases i with
    | zero => cases h; simp; omega
    | succ i => have := ih (i := i) h; simp; omega

theorem cash_exec {y : Sys} (hi : SInv y) (m : Msg) (hm : Spec.NoGift y m) :
    (y.exec m).1.cycles + Spec.underway (y.exec m).1 ≤
      y.cycles + Spec.underway y + Spec.accepted m (y.exec m).2 := by
  unfold Spec.underway
  rcases msg_cases m with ⟨r, to, hr⟩ | ⟨r, hr⟩ | ⟨r, hr⟩ | ⟨c, cy, a, rfl⟩ | ⟨i, ans, rfl⟩ |
    ⟨i, rfl⟩ | ⟨a, rfl⟩
  · rcases exec_burn hi hr with ⟨s1, p, hs⟩ | ⟨e, he⟩
    · obtain ⟨he, _, _, _, ⟨old, hp, _⟩, _, h1⟩ := hs
      rcases h1 with ⟨_, h1⟩ | ⟨_, h1⟩
      · rw [h1]
        simp only [sent, List.map_append, List.sum_append, List.map_cons, List.map_nil,
          List.sum_cons, List.sum_nil]
        omega
      · rcases h1 with ⟨h1, _⟩ | ⟨fb, ab, s', h1, h2, _⟩
        · rw [h1]; simp; omega
        · rw [h1]; simp only; omega
    · rw [he.1]; omega
  · rcases exec_transfer hi hr with ⟨s', h1, _⟩ | ⟨e, h1, _⟩ | ⟨h1, _⟩ <;>
      (rw [h1]; try simp only
       omega)
  · rcases exec_approve hi hr with ⟨s', h1, _⟩ | ⟨e, h1, _⟩ | ⟨h1, _⟩ <;>
      (rw [h1]; try simp only
       omega)
  · rcases exec_deposit hi c cy a with ⟨s', h1, he, h2, _⟩ | ⟨h1, _⟩
    · rw [h1]; simp [Spec.accepted]; omega
    · rw [h1]; simp [Spec.accepted]
  · rcases exec_callback_cases hi i ans with ⟨h1, h2⟩ | ⟨p, hp, hf, h1⟩
    · rw [h1]; simp only; omega
    · have hs := sum_underway_erase hp
      have hcame : (answered y i p ans).cycles ≤ y.cycles + p.call.cycles := by
        cases ans with
        | depositCycles r => simp only [answered]; split <;> omega
        | cmc r refund =>
          have := hm i r refund p rfl hp
          simp only [answered]
          omega
      have hpc : (y.exec (.callback i ans)).1.pending = y.pending.eraseIdx i ∧
          (y.exec (.callback i ans)).1.cycles = (answered y i p ans).cycles := by
        rcases h1 with ⟨_, h1, _⟩ | ⟨back, _, h1⟩
        · rw [h1]; exact ⟨rfl, rfl⟩
        · exact ⟨h1.pending.1, h1.pending.2.1⟩
      rw [hpc.1, hpc.2]
      omega
  · simp only [Sys.exec]
    cases hp : y.pending[i]? with
    | none =>
      rw [List.eraseIdx_of_length_le (List.getElem?_eq_none_iff.mp hp)]
      omega
    | some p =>
      have := sum_underway_erase hp
      omega
  · simp only [Sys.exec]
    split <;> (simp only; omega)

end

/-! ## Storage -/

/-- The account a block credits. -/
def receiverOf (b : Block) : Option AccountKey :=
  match b.transaction.operation with
  | .mint to _ _ => some (Spec.idOf to)
  | .transfer _ to _ _ _ => some (Spec.idOf to)
  | _ => none

/-- The allowance a block sets. -/
def approvalOf (b : Block) : Option ApprovalKey :=
  match b.transaction.operation with
  | .approve frm sp _ _ _ _ => some (Spec.idOf frm, Spec.idOf sp)
  | _ => none

theorem receiverOf_credits {b : Block} {k : AccountKey} {x : Nat} (h : Spec.credits b k = some x) :
    receiverOf b = some k := by
  unfold Spec.credits at h
  unfold receiverOf
  cases hop : b.transaction.operation <;> simp only [hop] at h ⊢
  case mint =>
    split at h
    · rename_i h'; rw [h']
    · cases h
  case transfer =>
    split at h
    · rename_i h'; rw [h']
    · cases h
  all_goals cases h

theorem receiverOf_delta {b : Block} {k : AccountKey} (h : 0 < Spec.delta b k) :
    receiverOf b = some k := by
  unfold Spec.delta at h
  unfold receiverOf
  cases hop : b.transaction.operation <;> simp only [hop] at h ⊢
  case mint =>
    split at h
    · rename_i h'; rw [h']
    · omega
  case transfer =>
    split at h
    · rename_i h'; rw [h']
    · split at h <;> omega
  all_goals (split at h <;> omega)

theorem receiver_balance {bs : List Block} {k : AccountKey} (h : 0 < Spec.balance bs k) :
    k ∈ bs.filterMap receiverOf := by
  induction bs with
  | nil => simp [Spec.balance] at h
  | cons b bs ih =>
    by_cases hb : 0 < Spec.delta b k
    · exact List.mem_filterMap.mpr ⟨b, List.mem_cons_self .., receiverOf_delta hb⟩
    · have : 0 < Spec.balance bs k := by
        simp only [Spec.balance, List.map_cons, List.sum_cons] at h
        unfold Spec.balance
        omega
      obtain ⟨c, hc, h1⟩ := List.mem_filterMap.mp (ih this)
      exact List.mem_filterMap.mpr ⟨c, List.mem_cons_of_mem _ hc, h1⟩

theorem approval_allowances {k : ApprovalKey} (bs : List Block) (f : Spec.AllowFn)
    (h : bs.foldl Spec.allowStep f k ≠ none) : f k ≠ none ∨ k ∈ bs.filterMap approvalOf := by
  induction bs generalizing f with
  | nil => exact Or.inl h
  | cons b bs ih =>
    rcases ih _ h with h1 | h1
    · have spent : ∀ o : Option (ApprovalKey × Nat),
          (match o with | some (key, x) => Spec.spend f key x | none => f) k ≠ none → f k ≠ none := by
        intro o h
        cases o with
        | none => exact h
        | some o =>
          simp only [Spec.spend] at h
          split at h
          · intro h2; rw [h2] at h; exact h rfl
          · exact h
      unfold Spec.allowStep at h1
      cases hop : b.transaction.operation <;> simp only [hop] at h1
      case approve frm sp amount x1 x2 x3 =>
        by_cases hk : k = (Spec.idOf frm, Spec.idOf sp)
        · right
          refine List.mem_filterMap.mpr ⟨b, List.mem_cons_self .., ?_⟩
          unfold approvalOf
          rw [hop, hk]
        · rw [if_neg hk] at h1; exact Or.inl h1
      all_goals exact Or.inl (spent _ h1)
    · obtain ⟨c, hc, h1⟩ := List.mem_filterMap.mp h1
      exact Or.inr (List.mem_filterMap.mpr ⟨c, List.mem_cons_of_mem _ hc, h1⟩)

theorem receivers_approvals (bs : List Block) :
    (bs.filterMap receiverOf).length + (bs.filterMap approvalOf).length ≤ bs.length := by
  induction bs with
  | nil => simp
  | cons b bs ih =>
    simp only [List.filterMap_cons, List.length_cons]
    unfold receiverOf approvalOf at *
    cases b.transaction.operation <;> simp only [List.length_cons] <;> omega

/-- **C88**: every block added costs a fee, which the ledger keeps. -/
theorem C88_step [Crypto] {y : Sys} (h : Reachable y) (e : Event) (hm : Spec.Honest y e.msg) :
    ∃ new, (y.step e).1.ledger.blocks = y.ledger.blocks ++ new ∧
    Spec.surplus y + 100000000 * new.length ≤ Spec.surplus (y.step e).1 := by
  obtain ⟨new, hn, _⟩ := C68_exact h e
  have := paid_exec (y := y.tick e.dt) (h.inv.tick e.dt) h.callOk e.msg hm
  refine ⟨new, hn, ?_⟩
  have h2 := this.2
  have hl : ((y.tick e.dt).exec e.msg).1.ledger.blocks.length = y.ledger.blocks.length + new.length := by
    rw [← List.length_append, ← hn]; rfl
  rw [hl] at h2
  have h3 : y.ledger.blocks.length + new.length - (y.tick e.dt).ledger.blocks.length = new.length := by
    show y.ledger.blocks.length + new.length - y.ledger.blocks.length = new.length
    omega
  rw [h3] at h2
  exact h2

/-- **C88**: whoever wants to fill the log has to pay for it: the fees of the blocks added, the supply,
and the cycles under way are never more than the supply at the start and the cycles deposited since. -/
theorem C88_blocks [Crypto] {y : Sys} (h : Reachable y) (es : List Event)
    (hm : Spec.HonestRun y es) (hg : Spec.NoGiftRun y es) :
    ∃ new, (y.run es).ledger.blocks = y.ledger.blocks ++ new ∧
    100000000 * new.length + icrc1TotalSupply (y.run es).ledger + Spec.underway (y.run es) ≤
      icrc1TotalSupply y.ledger + Spec.underway y + Spec.acceptedRun y es := by
  suffices ∃ new, (y.run es).ledger.blocks = y.ledger.blocks ++ new ∧
      Spec.surplus y + 100000000 * new.length ≤ Spec.surplus (y.run es) ∧
      (y.run es).cycles + Spec.underway (y.run es) ≤
        y.cycles + Spec.underway y + Spec.acceptedRun y es by
    obtain ⟨new, h1, h2, h3⟩ := this
    refine ⟨new, h1, ?_⟩
    unfold Spec.surplus at h2
    omega
  induction es generalizing y with
  | nil => exact ⟨[], by simp [Sys.run], by simp [Sys.run], by simp [Sys.run, Spec.acceptedRun]⟩
  | cons e es ih =>
    obtain ⟨n1, h1, h2⟩ := C88_step h e hm.1
    obtain ⟨n2, h3, h4, h5⟩ := ih (h.step e) hm.2 hg.2
    have h6 := cash_exec (y := y.tick e.dt) (h.inv.tick e.dt) e.msg hg.1
    refine ⟨n1 ++ n2, by rw [Sys.run, h3, h1, List.append_assoc], ?_, ?_⟩
    · rw [Sys.run, List.length_append]; omega
    · rw [Sys.run, Spec.acceptedRun]
      have h7 : (y.step e).1.cycles + Spec.underway (y.step e).1 ≤
        y.cycles + Spec.underway y + Spec.accepted e.msg (y.step e).2 := h6
      omega

/-- **C88**: nor can anything else be filled for free: the accounts and the allowances stored are
together no more than the blocks, the expiries queued no more than the allowances, and the
transactions remembered no more than the blocks. -/
theorem C88_storage [Crypto] {y : Sys} (h : Reachable y) :
    y.ledger.balances.len + y.ledger.approvals.len ≤ y.ledger.blocks.length ∧
    y.ledger.expirationQueue.len ≤ y.ledger.approvals.len ∧
    y.ledger.transactionTimestamps.len ≤ y.ledger.blocks.length ∧
    y.ledger.transactionHashes.len ≤ y.ledger.transactionTimestamps.len := by
  have hi := h.inv.ledger
  refine ⟨?_, ?_, ?_, ?_⟩
  · have h1 : (y.ledger.balances.entries.map Prod.fst).length ≤
        (y.ledger.blocks.filterMap receiverOf).length := by
      refine length_le_of_subset (keys_nodup _) ?_
      intro k hk
      obtain ⟨⟨k', v⟩, hm, rfl⟩ := List.mem_map.mp hk
      have hg := (SMap.get_eq_some_iff _ _ _).mpr hm
      rcases (C59_stored_balances h k').mp (by rw [hg]; simp) with h1 | ⟨pre, b, suf, he, hc, _⟩
      · exact receiver_balance h1
      · exact List.mem_filterMap.mpr ⟨b, by rw [he]; simp, receiverOf_credits hc⟩
    have h2 : (y.ledger.approvals.entries.map Prod.fst).length ≤
        (y.ledger.blocks.filterMap approvalOf).length := by
      refine length_le_of_subset (keys_nodup _) ?_
      intro k hk
      obtain ⟨⟨k', v⟩, hm, rfl⟩ := List.mem_map.mp hk
      have hg := (SMap.get_eq_some_iff _ _ _).mpr hm
      rcases hi.allow k' with h1 | ⟨h1, _⟩
      · rw [hg] at h1
        rcases approval_allowances (k := k') y.ledger.blocks (fun _ => none)
          (by show Spec.allowances _ _ ≠ none; rw [← h1]; simp) with h2 | h2
        · exact absurd rfl h2
        · exact h2
      · rw [hg] at h1; cases h1
    have h3 := receivers_approvals y.ledger.blocks
    rw [List.length_map] at h1 h2
    unfold SMap.len
    omega
  · have h1 : (y.ledger.expirationQueue.entries.map (fun x => x.1.2)).length ≤
        (y.ledger.approvals.entries.map Prod.fst).length := by
      refine length_le_of_subset hi.queue.keys_nodup ?_
      intro k hk
      obtain ⟨⟨⟨e, k'⟩, v⟩, hm, rfl⟩ := List.mem_map.mp hk
      have hg := (SMap.get_eq_some_iff _ _ _).mpr hm
      obtain ⟨_, x, hx⟩ := (hi.queue e k').mp hg
      exact List.mem_map_of_mem (f := Prod.fst) ((SMap.get_eq_some_iff _ _ _).mp hx)
    rw [List.length_map, List.length_map] at h1
    exact h1
  · have hn : (y.ledger.transactionTimestamps.entries.map (fun x => x.1.2)).Nodup := by
      rw [List.nodup_iff_pairwise_ne, List.pairwise_map]
      refine List.Pairwise.imp_of_mem ?_ y.ledger.transactionTimestamps.sorted
      intro a b ha hb hlt heq
      obtain ⟨c, hc, h1, _⟩ := h.keys.time a.1.1 a.1.2 ((SMap.get_eq_some_iff _ _ _).mpr ha)
      obtain ⟨d, hd, h2, _⟩ := h.keys.time b.1.1 b.1.2 ((SMap.get_eq_some_iff _ _ _).mpr hb)
      rw [heq, hd] at hc
      cases hc
      rw [h2] at h1
      exact TotOrd.ne_of_lt hlt (Prod.ext (Option.some.inj h1).symm heq)
    have h1 : (y.ledger.transactionTimestamps.entries.map (fun x => x.1.2)).length ≤
        (List.range y.ledger.blocks.length).length := by
      refine length_le_of_subset hn ?_
      intro i hi
      obtain ⟨⟨⟨t, i⟩, v⟩, hm, rfl⟩ := List.mem_map.mp hi
      obtain ⟨b, hb, _⟩ := h.keys.time t i ((SMap.get_eq_some_iff _ _ _).mpr hm)
      exact List.mem_range.mpr (List.getElem?_eq_some_iff.mp hb).1
    rw [List.length_map, List.length_range] at h1
    exact h1
  · have h1 : (y.ledger.transactionHashes.entries.map Prod.fst).length ≤
        (y.ledger.transactionTimestamps.entries.filterMap
          (fun x => (y.ledger.blocks[x.1.2]?).map (fun b => b.transaction.hash!))).length := by
      refine length_le_of_subset (keys_nodup _) ?_
      intro k hk
      obtain ⟨⟨k', v⟩, hm, rfl⟩ := List.mem_map.mp hk
      obtain ⟨t, i, b, h1, h2, h3⟩ := h.keys.keys k' v ((SMap.get_eq_some_iff _ _ _).mpr hm)
      refine List.mem_filterMap.mpr ⟨((t, i), ()), (SMap.get_eq_some_iff _ _ _).mp h1, ?_⟩
      simp only [h2, Option.map_some, h3]
    rw [List.length_map] at h1
    exact Nat.le_trans h1 (List.length_filterMap_le _ _)

open Toy in
/-- A history with calls under way and one that came back: the answers are honest, nothing is given
away; before the answers everything deposited is accounted for to the cycle, by the fees of the
blocks, the supply and the calls. -/
example : Reachable start ∧
    Spec.HonestRun start (events ++ [⟨1, .callback 1 (.cmc (.refunded 400000000) 400000000)⟩]) ∧
    Spec.NoGiftRun start (events ++ [⟨1, .callback 1 (.cmc (.refunded 400000000) 400000000)⟩]) ∧
    100000000 * demo.ledger.blocks.length + icrc1TotalSupply demo.ledger + Spec.underway demo =
      icrc1TotalSupply start.ledger + Spec.underway start + Spec.acceptedRun start events ∧
    demo.ledger.blocks.length = 6 ∧ Spec.underway demo = 800000000 := by
  refine ⟨run_reachable [], ?_, ?_, by decide +kernel, by decide +kernel, by decide +kernel⟩
  · have no : ∀ (y : Sys) (m : Msg), (∀ i a, m ≠ .callback i a) → Spec.Honest y m :=
      fun y m h i r rf p b hm _ _ => absurd hm (h _ _)
    refine ⟨no _ _ ?_, no _ _ ?_, no _ _ ?_, no _ _ ?_, no _ _ ?_, no _ _ ?_, ?_, trivial⟩
    all_goals first | (intro i a h; cases h; done) | skip
    · intro i r rf p b hm _ hr
      cases hm; cases hr; exact Nat.le_refl _
  · have no : ∀ (y : Sys) (m : Msg), (∀ i a, m ≠ .callback i a) → Spec.NoGift y m :=
      fun y m h i r rf p hm _ => absurd hm (h _ _)
    refine ⟨no _ _ ?_, no _ _ ?_, no _ _ ?_, no _ _ ?_, no _ _ ?_, no _ _ ?_, ?_, trivial⟩
    all_goals first | (intro i a h; cases h; done) | skip
    · intro i r rf p hm hp
      cases hm
      have : (demo.pending[1]?).map (fun p => p.call.cycles) = some 500000000 := by decide +kernel
      have hp : demo.pending[1]? = some p := hp
      rw [hp] at this
      simp only [Option.map_some, Option.some.injEq] at this
      omega

open Toy in
/-- Three accounts and an allowance are stored for six blocks; the bound is attained by a first
deposit. -/
example : Reachable demo ∧ demo.ledger.balances.len = 3 ∧ demo.ledger.approvals.len = 1 ∧
    demo.ledger.transactionTimestamps.len = 2 ∧ demo.ledger.transactionHashes.len = 2 ∧
    (start.run [dep alice 1000000000000]).ledger.balances.len = 1 ∧
    (start.run [dep alice 1000000000000]).ledger.blocks.length = 1 :=
  ⟨run_reachable _, by decide +kernel, by decide +kernel, by decide +kernel, by decide +kernel,
    by decide +kernel, by decide +kernel⟩

end CyclesLedger
