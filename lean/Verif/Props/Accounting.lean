import Verif.Proof.SysInv
import Verif.Proof.Toy
/-!
# Properties of every reachable state: supply, balances, log

C01, C02, C03, C20, C21, C30, C31, C35, C39, C40.
-/
namespace CyclesLedger

/-! ## C01 -/

theorem sum_as_balances (m : SMap AccountKey Nat) :
    m.sum = ((m.entries.map Prod.fst).map (fun k => (m.get k).getD 0)).sum := by
  unfold SMap.sum
  congr 1
  rw [List.map_map]
  apply List.map_congr_left
  intro x hx
  have : m.get x.1 = some x.2 := (SMap.get_eq_some_iff m x.1 x.2).mpr hx
  simp [this]

theorem keys_nodup {K V : Type} [TotOrd K] (m : SMap K V) : (m.entries.map Prod.fst).Nodup := by
  rw [List.nodup_iff_pairwise_ne, List.pairwise_map]
  refine m.sorted.imp ?_
  intro a b h
  exact TotOrd.ne_of_lt h

/-- **C01**: the total supply is the sum of all balances and fits 128 bits.  `keys`
names each account with a nonzero balance once. -/
theorem C01_supply_is_sum [Crypto] {y : Sys} (h : Reachable y) :
    ∃ keys : List AccountKey, keys.Nodup ∧
      (∀ a : Account, Spec.idOf a ∉ keys → icrc1BalanceOf y.ledger a = 0) ∧
      icrc1TotalSupply y.ledger =
        (keys.map (fun k => icrc1BalanceOf y.ledger ⟨k.1, some k.2⟩)).sum ∧
      icrc1TotalSupply y.ledger < 2 ^ 128 := by
  have hi := h.inv.ledger
  refine ⟨y.ledger.balances.entries.map Prod.fst, keys_nodup _, ?_, ?_, ?_⟩
  · intro a ha
    unfold icrc1BalanceOf balanceOf
    cases hg : y.ledger.balances.get a.key with
    | none => rfl
    | some v =>
      exact absurd (List.mem_map_of_mem (f := Prod.fst)
        ((SMap.get_eq_some_iff _ _ _).mp hg)) ha
  · unfold icrc1TotalSupply
    rw [hi.sum, sum_as_balances]
    rfl
  · unfold icrc1TotalSupply
    have := hi.bound
    rw [U128MAX_eq] at this
    omega

open Toy in
example : Reachable demo ∧ icrc1TotalSupply demo.ledger = 998600000000 ∧
    icrc1BalanceOf demo.ledger (acc bob) = 1000 ∧ icrc1BalanceOf demo.ledger (acc carol) = 5000 ∧
    icrc1BalanceOf demo.ledger (acc alice) = 998600000000 - 6000 :=
  ⟨demo_reachable, by decide +kernel, by decide +kernel, by decide +kernel, by decide +kernel⟩

/-! ## C02, C03 -/

/-- **C02**: every balance is the replay of the log. -/
theorem C02_balances_replay [Crypto] {y : Sys} (h : Reachable y) (a : Account) :
    (icrc1BalanceOf y.ledger a : Int) = Spec.balance y.ledger.blocks (Spec.idOf a) :=
  h.inv.ledger.bal a.key

/-- **C02** for the supply. -/
theorem C02_supply_replay [Crypto] {y : Sys} (h : Reachable y) :
    (icrc1TotalSupply y.ledger : Int) = Spec.supply y.ledger.blocks :=
  h.inv.ledger.supply

open Toy in
example : Reachable demo ∧ Spec.balance demo.ledger.blocks (acc carol).key = 5000 :=
  ⟨demo_reachable, by decide +kernel⟩

/-- **C03**: no prefix of the log overdraws an account, or makes the supply negative
or larger than 128 bits. -/
theorem C03_no_overdraft [Crypto] {y : Sys} (h : Reachable y) (pre : List Block)
    (hp : pre <+: y.ledger.blocks) :
    (∀ a : Account, 0 ≤ Spec.balance pre (Spec.idOf a)) ∧
    0 ≤ Spec.supply pre ∧ Spec.supply pre < 2 ^ 128 := by
  obtain ⟨suf, hs⟩ := hp
  have hi := h.inv.ledger
  rcases List.eq_nil_or_concat pre with rfl | ⟨l, b, rfl⟩
  · refine ⟨fun a => ?_, ?_, ?_⟩ <;> simp [Spec.balance, Spec.supply]
  · have hok := hi.log l b suf (by rw [← hs]; simp)
    rw [List.concat_eq_append]
    refine ⟨fun a => hok.balance a.key, hok.supply.1, ?_⟩
    have := hok.supply.2
    rw [U128MAX_eq] at this
    omega

open Toy in
example : Reachable demo ∧ demo.ledger.blocks.take 3 <+: demo.ledger.blocks ∧
    Spec.balance (demo.ledger.blocks.take 3) (acc alice).key = 999699999000 :=
  ⟨demo_reachable, List.take_prefix _ _, by decide +kernel⟩

/-! ## C20, C21 -/

/-- **C20**: no allowance from an account to a spender of the same owner, and none
that involves the management canister. -/
theorem C20_no_self_allowance [Crypto] {y : Sys} (h : Reachable y) (a sp : Account) (t : Nat)
    (hbad : a.owner = sp.owner ∨ a.owner = managementCanister ∨ sp.owner = managementCanister) :
    icrc2Allowance y.ledger a sp t = (0, none) := by
  have hg : y.ledger.approvals.get (a.key, sp.key) = none := by
    cases hg : y.ledger.approvals.get (a.key, sp.key) with
    | none => rfl
    | some v =>
      obtain ⟨_, _, _, h1, h2, h3⟩ := h.inv.ledger.approvals _ v.1 v.2 hg
      rcases hbad with hb | hb | hb
      · exact absurd hb h1
      · exact absurd hb h2
      · exact absurd hb h3
  simp [icrc2Allowance, allowance, hg]

open Toy in
example : Reachable demo ∧ (acc alice).owner = (⟨alice, some zeroSub⟩ : Account).owner ∧
    icrc2Allowance demo.ledger (acc alice) (acc bob) demo.now = (399995000, none) :=
  ⟨demo_reachable, rfl, by decide +kernel⟩

/-- **C21**: pruning leaves every allowance that is not expired alone, ... -/
theorem C21_prune_keeps_live [Crypto] {y : Sys} (h : Reachable y) (a sp : Account) (t : Nat) :
    Spec.live t ((prune t y.ledger).approvals.get (a.key, sp.key)) =
      Spec.live t (y.ledger.approvals.get (a.key, sp.key)) ∧
    (∀ x e, y.ledger.approvals.get (a.key, sp.key) = some (x, e) → (e = 0 ∨ t < e) →
      (prune t y.ledger).approvals.get (a.key, sp.key) = some (x, e)) := by
  have hp := (prune_spec (now := t) h.inv.ledger.queue).approvals (a.key, sp.key)
  constructor
  · rcases hp with h1 | ⟨h1, x, e, h2, h3, h4⟩
    · rw [h1]
    · rw [h1, h2]
      simp only [Spec.live]
      rw [if_neg (by omega)]
  · intro x e hg he
    rcases hp with h1 | ⟨h1, x', e', h2, h3, h4⟩
    · rw [h1, hg]
    · rw [hg] at h2
      simp only [Option.some.injEq, Prod.mk.injEq] at h2
      omega

/-- **C21**, the bookkeeping: the expiration queue lists exactly the stored approvals
that expire, with their expiry. -/
theorem C21_queue_matches [Crypto] {y : Sys} (h : Reachable y) (e : Nat) (k : ApprovalKey) :
    y.ledger.expirationQueue.get (e, k) = some () ↔
      0 < e ∧ ∃ x, y.ledger.approvals.get k = some (x, e) :=
  h.inv.ledger.queue e k

open Toy in
/-- A history with one expiring allowance. -/
example : Reachable (start.run [dep alice 1000000000000, appr alice bob 5 (some 1000000007)]) ∧
    (start.run [dep alice 1000000000000, appr alice bob 5 (some 1000000007)]).ledger.expirationQueue.get
      (1000000007, ((acc alice).key, (acc bob).key)) = some () :=
  ⟨run_reachable _, by decide +kernel⟩

/-! ## C30, C31, C35 -/

/-- **C30**: whatever happens, blocks are only added at the end. -/
theorem C30_append_only [Crypto] {y : Sys} (h : Reachable y) (es : List Event) :
    y.ledger.blocks <+: (y.run es).ledger.blocks := by
  have key : ∀ (es : List Event) (y : Sys), SInv y → y.ledger.blocks <+: (y.run es).ledger.blocks := by
    intro es
    induction es with
    | nil => intro y _; exact List.prefix_refl _
    | cons e es ih =>
      intro y hi
      have h1 := (exec_moved (hi.tick e.dt) e.msg).chain.blocks_prefix (hi.tick e.dt).ledger
      exact h1.trans (ih _ (hi.step e))
  exact key es y h.inv

/-- **C30**, by index: a block once at index `i` stays there. -/
theorem C30_index_stable [Crypto] {y : Sys} (h : Reachable y) (es : List Event) (i : Nat) (b : Block)
    (hb : y.ledger.blocks[i]? = some b) : (y.run es).ledger.blocks[i]? = some b := by
  obtain ⟨l, hl⟩ := C30_append_only h es
  rw [← hl, List.getElem?_append_left (List.getElem?_eq_some_iff.mp hb).1]
  exact hb

open Toy in
example : Reachable demo ∧ demo.ledger.blocks.length = 6 ∧
    (demo.run [xfer bob alice 5, xfer alice bob 7]).ledger.blocks.length = 7 :=
  ⟨demo_reachable, by decide +kernel, by decide +kernel⟩

theorem split_at {α : Type} {l : List α} {i : Nat} {b : α} (h : l[i]? = some b) :
    l = l.take i ++ b :: l.drop (i + 1) := by
  obtain ⟨hi, rfl⟩ := List.getElem?_eq_some_iff.mp h
  simp

/-- **C31**: the log is a hash chain. -/
theorem C31_hash_chain [Crypto] {y : Sys} (h : Reachable y) :
    (∀ b, y.ledger.blocks[0]? = some b → b.phash = none) ∧
    (∀ (i : Nat) (p b : Block), y.ledger.blocks[i]? = some p → y.ledger.blocks[i + 1]? = some b →
      b.phash = some p.hash) := by
  have hi := h.inv.ledger
  constructor
  · intro b hb
    have := (hi.log _ _ _ (split_at hb)).phash
    simpa using this
  · intro i p b hp hb
    have := (hi.log _ _ _ (split_at hb)).phash
    rw [this]
    have hl : (y.ledger.blocks.take (i + 1)).getLast? = some p := by
      rw [List.getLast?_eq_getElem?]
      have hlt := (List.getElem?_eq_some_iff.mp hb).1
      rw [List.length_take, Nat.min_eq_left (by omega), List.getElem?_take]
      simp [hp]
    rw [hl]; rfl

open Toy in
example : Reachable demo ∧ (demo.ledger.blocks[5]?).isSome ∧
    (demo.ledger.blocks[5]?.bind Block.phash).isSome :=
  ⟨demo_reachable, by decide +kernel, by decide +kernel⟩

/-- **C35**: block timestamps never go backwards nor beyond the clock. -/
theorem C35_timestamps_monotone [Crypto] {y : Sys} (h : Reachable y) :
    (∀ (i j : Nat) (b c : Block), i ≤ j → y.ledger.blocks[i]? = some b → y.ledger.blocks[j]? = some c →
      b.timestamp ≤ c.timestamp) ∧
    (∀ b ∈ y.ledger.blocks, b.timestamp ≤ y.now) := by
  have hi := h.inv.ledger
  refine ⟨?_, hi.times⟩
  intro i j b c hij hb hc
  rcases Nat.eq_or_lt_of_le hij with rfl | hlt
  · rw [hb] at hc; cases hc; exact Nat.le_refl _
  · refine (hi.log _ _ _ (split_at hc)).time b ?_
    rw [List.mem_iff_getElem?]
    exact ⟨i, by rw [List.getElem?_take, if_pos hlt]; exact hb⟩

open Toy in
example : Reachable demo ∧ demo.ledger.blocks.map Block.timestamp =
    [1000000001, 1000000002, 1000000003, 1000000004, 1000000005, 1000000006] :=
  ⟨demo_reachable, by decide +kernel⟩

/-! ## C39, C40 -/

theorem Reachable.blockOk [Crypto] {y : Sys} (h : Reachable y) {b : Block} (hb : b ∈ y.ledger.blocks) :
    ∃ pre, BlockOk pre b := by
  obtain ⟨pre, suf, heq⟩ := List.append_of_mem hb
  exact ⟨pre, h.inv.ledger.log pre b suf heq⟩

/-- **C39**: no block has a memo of more than 32 bytes. -/
theorem C39_memo_bounded [Crypto] {y : Sys} (h : Reachable y) (b : Block) (hb : b ∈ y.ledger.blocks)
    (m : Bytes) (hm : b.transaction.memo = some m) : m.length ≤ 32 := by
  obtain ⟨pre, hok⟩ := h.blockOk hb
  have := hok.memo
  rw [hm] at this
  simp [validateMemo, MAX_MEMO_LENGTH] at this
  omega

open Toy in
example : Reachable demo ∧ (demo.ledger.blocks[5]?.bind (fun b => b.transaction.memo)) =
    some (List.replicate 32 254) :=
  ⟨demo_reachable, by decide +kernel⟩

/-- What a block says its fee is (ICRC-3): the block's `fee` field, else the fee
named in the transaction. -/
def statedFee (b : Block) : Option Nat :=
  match b.effectiveFee with
  | some f => some f
  | none =>
    match b.transaction.operation with
    | .mint _ _ f => some f
    | .transfer _ _ _ _ f => f
    | .burn _ _ _ => none
    | .approve _ _ _ _ _ f => f

/-- **C40**: the fee stated by a block is the ledger fee, or zero for a mint. -/
theorem C40_block_fee [Crypto] {y : Sys} (h : Reachable y) (b : Block) (hb : b ∈ y.ledger.blocks) :
    statedFee b = some (match b.transaction.operation with
      | .mint _ _ _ => 0
      | _ => 100000000) ∧
    (∀ frm to sp x f, b.transaction.operation = .transfer frm to sp x (some f) → f = 100000000) ∧
    (∀ frm sp x ea ex f, b.transaction.operation = .approve frm sp x ea ex (some f) →
      f = 100000000) := by
  obtain ⟨pre, hok⟩ := h.blockOk hb
  have hop := hok.op
  have hfee := hok.fee
  cases ho : b.transaction.operation with
  | mint to x f =>
    rw [ho] at hfee
    simp [statedFee, hfee, effectiveFee]
  | burn frm sp x =>
    rw [ho] at hfee
    simp [statedFee, hfee, effectiveFee, FEE_eq]
  | transfer frm to sp x f =>
    rw [ho] at hfee hop
    rcases hop.2.1 with rfl | rfl <;> simp [statedFee, hfee, effectiveFee, ho, FEE_eq] <;> (intros; omega)
  | approve frm sp x ea ex f =>
    rw [ho] at hfee hop
    rcases hop.2.2.2.1 with rfl | rfl <;> simp [statedFee, hfee, effectiveFee, ho, FEE_eq] <;> (intros; omega)

open Toy in
example : Reachable demo ∧ demo.ledger.blocks.map statedFee =
    [some 0, some 100000000, some 100000000, some 100000000, some 100000000, some 100000000] :=
  ⟨demo_reachable, by decide +kernel⟩

end CyclesLedger
