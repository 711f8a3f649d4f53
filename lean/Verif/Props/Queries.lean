import Verif.Proof.Cases
import Verif.Proof.Toy
/-!
# Queries

C22, C34, C58.
-/
namespace CyclesLedger

/-! ## C22 -/

/-- The allowance is listed after (or at) the place where a page starts: strictly after the
pair `(frm, prev)` if `prev` is given, else from the first spender of `frm` on. -/
def Spec.From (frm : Account) (prev : Option Account) (k : ApprovalKey) : Prop :=
  match prev with
  | some sp => TotOrd.lt (Spec.idOf frm, Spec.idOf sp) k = true
  | none => TotOrd.lt k.1 (Spec.idOf frm) = false

instance (frm : Account) (prev : Option Account) (k : ApprovalKey) :
    Decidable (Spec.From frm prev k) := by
  unfold Spec.From; cases prev <;> infer_instance

/-- An allowance as it is listed. -/
def Spec.entry (e : ApprovalKey × (Nat × Nat)) : AllowanceEntry :=
  { fromAccount := ⟨e.1.1.1, some e.1.1.2⟩, toSpender := ⟨e.1.2.1, some e.1.2.2⟩
    allowance := e.2.1, expiresAt := if e.2.2 = 0 then none else some e.2.2 }

/-- All stored allowances of the owner of `frm` that have not expired at `now`, in key order
from the start of the page on. -/
def Spec.listing (s : State) (frm : Account) (prev : Option Account) (now : Nat) :
    List AllowanceEntry :=
  (s.approvals.entries.filter (fun e =>
    decide (e.1.1.1 = frm.owner ∧ Spec.From frm prev e.1 ∧ (e.2.2 = 0 ∨ now < e.2.2)))).map Spec.entry

/-- The number of results that are asked for. -/
def Spec.pageSize (take : Option Nat) : Nat := min (take.getD 500) 500

theorem lt_pair_iff {α β : Type} [TotOrd α] [TotOrd β] (x y : α × β) :
    TotOrd.lt x y = true ↔ TotOrd.lt x.1 y.1 = true ∨ (x.1 = y.1 ∧ TotOrd.lt x.2 y.2 = true) := by
  show lexLt x y = true ↔ _
  simp [lexLt]

theorem not_lt_trans {α : Type} [TotOrd α] {a b c : α} (h1 : TotOrd.lt b a = false)
    (h2 : TotOrd.lt c b = false) : TotOrd.lt c a = false := by
  cases h : TotOrd.lt c a with
  | false => rfl
  | true =>
    rcases TotOrd.tri b c with h3 | h3 | h3
    · rw [TotOrd.trans h3 h] at h1; cases h1
    · subst h3; rw [h] at h1; cases h1
    · rw [h3] at h2; cases h2

theorem owner_of_lt {k k' : ApprovalKey} (h : TotOrd.lt k k' = true) :
    TotOrd.lt k'.1.1 k.1.1 = false := by
  rw [lt_pair_iff] at h
  rcases h with h | ⟨h, _⟩
  · rw [lt_pair_iff] at h
    rcases h with h | ⟨h, _⟩
    · exact TotOrd.asymm h
    · rw [h]; exact TotOrd.irrefl _
  · rw [h]; exact TotOrd.irrefl _

theorem loop_eq (frm : Account) (skip : Option ApprovalKey) (max now : Nat) :
    ∀ (l : List (ApprovalKey × (Nat × Nat))) (acc : List AllowanceEntry),
      l.Pairwise (fun a b => TotOrd.lt a.1 b.1 = true) →
      (∀ e ∈ l, TotOrd.lt e.1.1.1 frm.owner = false) →
      getAllowancesLoop frm skip max now l acc =
        acc ++ ((l.filter (fun e => decide (skip ≠ some e.1 ∧ e.1.1.1 = frm.owner ∧
          (e.2.2 = 0 ∨ now < e.2.2)))).map Spec.entry).take (max - acc.length) := by
  intro l
  induction l with
  | nil => intro acc _ _; simp [getAllowancesLoop]
  | cons e t ih =>
    intro acc hs ho
    obtain ⟨key, amount, exp⟩ := e
    rw [List.pairwise_cons] at hs
    have ho' : ∀ e ∈ t, TotOrd.lt e.1.1.1 frm.owner = false :=
      fun e he => ho e (List.mem_cons_of_mem _ he)
    unfold getAllowancesLoop
    by_cases hskip : skip = some key
    · rw [if_pos hskip, ih acc hs.2 ho', List.filter_cons_of_neg (by simp [hskip])]
    · rw [if_neg hskip]
      by_cases hmax : acc.length ≥ max
      · rw [if_pos hmax]
        have : max - acc.length = 0 := by omega
        rw [this]; simp
      · rw [if_neg hmax]
        by_cases hown : key.1.1 ≠ frm.owner
        · rw [if_pos hown]
          have hlt : TotOrd.lt frm.owner key.1.1 = true := by
            rcases TotOrd.tri frm.owner key.1.1 with h | h | h
            · exact h
            · exact absurd h.symm hown
            · have := ho _ List.mem_cons_self
              rw [this] at h; cases h
          have hnone : ((key, amount, exp) :: t).filter (fun e => decide (skip ≠ some e.1 ∧
              e.1.1.1 = frm.owner ∧ (e.2.2 = 0 ∨ now < e.2.2))) = [] := by
            rw [List.filter_eq_nil_iff]
            intro x hx
            rcases List.mem_cons.mp hx with rfl | hx
            · simp [hown]
            · have h1 := owner_of_lt (hs.1 x hx)
              have h2 : x.1.1.1 ≠ frm.owner := by
                intro h; rw [h, hlt] at h1; cases h1
              simp [h2]
          rw [hnone]; simp
        · rw [if_neg hown]
          simp only [ne_eq, Decidable.not_not] at hown
          by_cases hexp : (decide (exp > 0) && decide (exp ≤ now)) = true
          · rw [if_pos hexp, ih acc hs.2 ho', List.filter_cons_of_neg]
            simp only [Bool.and_eq_true, decide_eq_true_eq] at hexp
            simp only [decide_eq_true_eq]
            omega
          · rw [if_neg hexp, ih _ hs.2 ho', List.filter_cons_of_pos]
            · simp only [List.map_cons, List.length_append, List.length_singleton,
                List.append_assoc]
              have : max - acc.length = (max - (acc.length + 1)) + 1 := by omega
              rw [this, List.take_succ_cons]
              rfl
            · simp only [Bool.and_eq_true, decide_eq_true_eq, not_and, Nat.not_le] at hexp
              simp only [decide_eq_true_eq]
              exact ⟨hskip, hown, by omega⟩

theorem rangeFrom_eq (m : SMap ApprovalKey (Nat × Nat)) (k : ApprovalKey) :
    m.rangeFrom k = m.entries.filter (fun e => !TotOrd.lt e.1 k) := by
  obtain ⟨l, hs⟩ := m
  simp only [SMap.rangeFrom]
  induction l with
  | nil => rfl
  | cons a t ih =>
    have hs' := List.pairwise_cons.mp hs
    rw [List.dropWhile_cons]
    split
    · rename_i h
      rw [ih hs'.2, List.filter_cons_of_neg (by simp [h])]
    · rename_i h
      simp only [Bool.not_eq_true] at h
      symm
      rw [List.filter_eq_self]
      intro x hx
      rcases List.mem_cons.mp hx with rfl | hx
      · simp [h]
      · cases hx' : TotOrd.lt x.1 k with
        | false => rfl
        | true => rw [TotOrd.trans (hs'.1 x hx) hx'] at h; cases h

theorem lt_min (k : AccountKey) : TotOrd.lt k (Account.key ⟨managementCanister, none⟩) = false := by
  obtain ⟨p, sub⟩ := k
  cases h : TotOrd.lt (p, sub) (Account.key ⟨managementCanister, none⟩) with
  | false => rfl
  | true =>
    exfalso
    rw [lt_pair_iff] at h
    rcases h with h | ⟨_, h⟩
    · have h' : TotOrd.lt (p.bytes.length, p.bytes) (0, ([] : Bytes)) = true := h
      rw [lt_pair_iff] at h'
      rcases h' with h' | ⟨_, h'⟩
      · have : decide (p.bytes.length < 0) = true := h'
        simp at this
      · have : listLt p.bytes [] = true := h'
        cases hp : p.bytes <;> rw [hp] at this <;> simp [listLt] at this
    · have h' : listLt sub.val (List.replicate 32 0) = true := h
      have key : ∀ (n : Nat) (l : Bytes), listLt l (List.replicate n 0) = true → l.length < n := by
        intro n
        induction n with
        | zero => intro l hl; cases l <;> simp [listLt] at hl
        | succ n ih =>
          intro l hl
          cases l with
          | nil => simp
          | cons x t =>
            simp only [List.replicate_succ, listLt, Bool.or_eq_true, Bool.and_eq_true,
              decide_eq_true_eq] at hl
            rcases hl with hl | ⟨_, hl⟩
            · have : decide (x < 0) = true := hl
              simp at this
            · have := ih t hl
              simp; omega
      have := key 32 sub.val h'
      have := sub.property
      omega

theorem getAllowances_eq (s : State) (frm : Account) (prev : Option Account) (max now : Nat) :
    getAllowances s frm prev max now = (Spec.listing s frm prev now).take max := by
  have hs := s.approvals.sorted
  have own : ∀ (k : ApprovalKey) (sp : AccountKey), TotOrd.lt k (frm.key, sp) = false → TotOrd.lt k.1.1 frm.owner = false := by
    intro k sp h
    cases h' : TotOrd.lt k.1.1 frm.owner with
    | false => rfl
    | true =>
      have : TotOrd.lt k (frm.key, sp) = true := by
        rw [lt_pair_iff]; left; rw [lt_pair_iff]; exact .inl h'
      rw [h] at this; cases this
  unfold getAllowances Spec.listing
  cases prev with
  | some sp =>
    simp only
    rw [loop_eq, rangeFrom_eq, List.filter_filter]
    · simp only [List.nil_append, List.length_nil, Nat.sub_zero]
      congr 2
      apply List.filter_congr
      intro e _
      rw [Bool.eq_iff_iff]
      simp only [Bool.and_eq_true, decide_eq_true_eq, Bool.not_eq_true']
      simp only [Spec.From]
      constructor
      · rintro ⟨⟨h1, h2, h3⟩, h4⟩
        refine ⟨h2, ?_, h3⟩
        rcases TotOrd.tri (frm.key, sp.key) e.1 with h | h | h
        · exact h
        · exact absurd (by rw [h]) h1
        · rw [h4] at h; cases h
      · rintro ⟨h1, h2, h3⟩
        refine ⟨⟨?_, h1, h3⟩, TotOrd.asymm h2⟩
        intro h
        simp only [Option.some.injEq] at h
        simp only [Spec.idOf_eq] at h2
        rw [h, TotOrd.irrefl] at h2; cases h2
    · rw [rangeFrom_eq]; exact List.Pairwise.filter _ hs
    · intro e he
      rw [SMap.mem_rangeFrom] at he
      exact own _ _ he.2
  | none =>
    simp only
    rw [loop_eq, rangeFrom_eq, List.filter_filter]
    · simp only [List.nil_append, List.length_nil, Nat.sub_zero]
      congr 2
      apply List.filter_congr
      intro e _
      rw [Bool.eq_iff_iff]
      simp only [Bool.and_eq_true, decide_eq_true_eq, Bool.not_eq_true']
      simp only [Spec.From, ne_eq, reduceCtorEq, not_false_eq_true, true_and]
      have : TotOrd.lt e.1 (frm.key, Account.key ⟨managementCanister, none⟩) = false ↔
          TotOrd.lt e.1.1 frm.key = false := by
        rw [← Bool.not_eq_true, ← Bool.not_eq_true, lt_pair_iff]
        simp only [lt_min]
        simp
      rw [this]
      constructor
      · rintro ⟨⟨h1, h2⟩, h3⟩; exact ⟨h1, h3, h2⟩
      · rintro ⟨h1, h2, h3⟩; exact ⟨⟨h1, h3⟩, h2⟩
    · rw [rangeFrom_eq]; exact List.Pairwise.filter _ hs
    · intro e he
      rw [SMap.mem_rangeFrom] at he
      exact own _ _ he.2

/-- **C22**: the answer is the first `min(take, 500)` unexpired allowances of the owner in key
order from the start of the page on. -/
theorem C22_page (s : State) (caller : Principal) (frm prev : Option Account) (take : Option Nat)
    (now : Nat) :
    icrc103GetAllowances s caller frm prev take now =
      (Spec.listing s (frm.getD ⟨caller, none⟩) prev now).take (Spec.pageSize take) := by
  unfold icrc103GetAllowances
  simp only
  rw [getAllowances_eq]
  congr 1
  unfold Spec.pageSize
  have h500 : MAX_TAKE_ALLOWANCES = 500 := rfl
  cases take with
  | none => simp [h500]
  | some t =>
    simp only [toU64, Option.getD_some, h500]
    split
    · rfl
    · rename_i h
      rw [U64MAX_eq] at h
      simp; omega

/-- **C22**: continuing after the last pair of a page gives the rest of the listing, whatever
subaccounts the listing runs through. -/
theorem C22_continue (s : State) (frm : Account) (prev : Option Account) (now n : Nat)
    (e : AllowanceEntry) (he : ((Spec.listing s frm prev now).take n).getLast? = some e) :
    Spec.listing s e.fromAccount (some e.toSpender) now = (Spec.listing s frm prev now).drop n := by
  have hs := s.approvals.sorted
  -- the listing is sorted by key
  unfold Spec.listing at he ⊢
  generalize hP : (fun x : ApprovalKey × (Nat × Nat) => decide (x.1.1.1 = frm.owner ∧
    Spec.From frm prev x.1 ∧ (x.2.2 = 0 ∨ now < x.2.2))) = P at he ⊢
  rw [← List.map_take, List.getLast?_map] at he
  cases hl : ((s.approvals.entries.filter P).take n).getLast? with
  | none => rw [hl] at he; cases he
  | some x =>
    rw [hl] at he
    simp only [Option.map_some, Option.some.injEq] at he
    subst he
    have hxk : (Spec.entry x).fromAccount.key = x.1.1 := rfl
    have hyk : (Spec.entry x).toSpender.key = x.1.2 := rfl
    have hown' : (Spec.entry x).fromAccount.owner = x.1.1.1 := rfl
    rw [← List.map_drop]
    congr 1
    obtain ⟨ini, hini⟩ := List.getLast?_eq_some_iff.mp hl
    have hsplit : s.approvals.entries.filter P = ini ++ [x] ++ (s.approvals.entries.filter P).drop n := by
      rw [← hini, List.take_append_drop]
    have hsf : (s.approvals.entries.filter P).Pairwise (fun a b => TotOrd.lt a.1 b.1 = true) :=
      List.Pairwise.filter _ hs
    have hxm : x ∈ s.approvals.entries.filter P := by rw [hsplit]; simp
    have hxP := (List.mem_filter.mp hxm).2
    rw [← hP] at hxP
    simp only [decide_eq_true_eq] at hxP
    have e1 : s.approvals.entries.filter (fun e => decide (e.1.1.1 = (Spec.entry x).fromAccount.owner ∧
        Spec.From (Spec.entry x).fromAccount (some (Spec.entry x).toSpender) e.1 ∧
        (e.2.2 = 0 ∨ now < e.2.2))) =
        (s.approvals.entries.filter P).filter (fun e => TotOrd.lt x.1 e.1) := by
      rw [List.filter_filter]
      apply List.filter_congr
      intro e _
      rw [Bool.eq_iff_iff]
      rw [← hP]
      simp only [Bool.and_eq_true, decide_eq_true_eq]
      rw [hown', hxP.1]
      simp only [Spec.From, hxk, hyk]
      have hfrom : TotOrd.lt x.1 e.1 = true → Spec.From frm prev e.1 := by
        intro h
        have := hxP.2.1
        unfold Spec.From at this ⊢
        cases prev with
        | some sp => exact TotOrd.trans this h
        | none =>
          simp only at this ⊢
          rw [lt_pair_iff] at h
          rcases h with h | ⟨h, _⟩
          · exact not_lt_trans this (TotOrd.asymm h)
          · rw [← h]; exact this
      constructor
      · rintro ⟨h1, h2, h3⟩; exact ⟨h2, h1, hfrom h2, h3⟩
      · rintro ⟨h1, h2, _, h4⟩; exact ⟨h2, h1, h4⟩
    rw [e1]
    generalize hrest : (s.approvals.entries.filter P).drop n = rest at hsplit ⊢
    rw [hsplit] at hsf ⊢
    rw [List.append_assoc, List.pairwise_append] at hsf
    rw [List.append_assoc, List.filter_append, List.filter_append]
    have h1 : ini.filter (fun e => TotOrd.lt x.1 e.1) = [] := by
      rw [List.filter_eq_nil_iff]
      intro z hz
      have := TotOrd.asymm (hsf.2.2 z hz x (by simp))
      simp [this]
    have h2 : [x].filter (fun e => TotOrd.lt x.1 e.1) = [] := by
      simp [TotOrd.irrefl]
    have h3 : rest.filter (fun e => TotOrd.lt x.1 e.1) = rest := by
      rw [List.filter_eq_self]
      intro z hz
      have := (List.pairwise_append.mp hsf.2.1).2.2 x (by simp) z hz
      exact this
    rw [h1, h2, h3]; rfl

/-- `n` pages in a row, each one starting where the one before it ended. -/
def Spec.pages (s : State) (now size : Nat) : Nat → Account → Option Account → List AllowanceEntry
  | 0, _, _ => []
  | n + 1, frm, prev =>
    let page := getAllowances s frm prev size now
    match page.getLast? with
    | none => []
    | some e => page ++ Spec.pages s now size n e.fromAccount (some e.toSpender)

/-- **C22**: paging through the allowances lists each of them exactly once and in order: `n`
pages of `size` are the first `n * size` allowances. -/
theorem C22_paging (s : State) (now size n : Nat) (frm : Account) (prev : Option Account) :
    Spec.pages s now size n frm prev = (Spec.listing s frm prev now).take (n * size) := by
  induction n generalizing frm prev with
  | zero => simp [Spec.pages]
  | succ n ih =>
    simp only [Spec.pages, getAllowances_eq]
    cases hl : ((Spec.listing s frm prev now).take size).getLast? with
    | none =>
      rw [List.getLast?_eq_none_iff, List.take_eq_nil_iff] at hl
      simp only
      rcases hl with rfl | hl
      · simp
      · rw [hl]; simp
    | some e =>
      simp only
      rw [ih, C22_continue s frm prev now size e hl, Nat.succ_mul, Nat.add_comm (n * size),
        List.take_add]

/-- **C22**: and nothing is listed twice. -/
theorem C22_no_repetition (s : State) (frm : Account) (prev : Option Account) (now : Nat) :
    ((Spec.listing s frm prev now).map (fun e => (e.fromAccount, e.toSpender))).Nodup := by
  unfold Spec.listing
  rw [List.map_map]
  have hs : (s.approvals.entries.filter (fun e => decide (e.1.1.1 = frm.owner ∧
    Spec.From frm prev e.1 ∧ (e.2.2 = 0 ∨ now < e.2.2)))).Pairwise
      (fun a b => TotOrd.lt a.1 b.1 = true) := List.Pairwise.filter _ s.approvals.sorted
  rw [List.Nodup, List.pairwise_map]
  refine hs.imp ?_
  intro a b hab heq
  simp only [Function.comp, Spec.entry, Prod.mk.injEq, Account.mk.injEq, Option.some.injEq] at heq
  have : a.1 = b.1 := Prod.ext (Prod.ext heq.1.1 heq.1.2) (Prod.ext heq.2.1 heq.2.2)
  rw [this, TotOrd.irrefl] at hab
  cases hab

/-- **C22**: an unexpired allowance of the owner is in the listing. -/
theorem C22_complete (s : State) (frm spender : Account) (now a e : Nat)
    (h : Spec.stored s frm spender = some (a, e)) (he : e = 0 ∨ now < e) :
    (⟨⟨frm.owner, some (frm.subaccount.getD zeroSub)⟩,
      ⟨spender.owner, some (spender.subaccount.getD zeroSub)⟩, a,
      if e = 0 then none else some e⟩ : AllowanceEntry) ∈ Spec.listing s frm none now := by
  unfold Spec.stored at h
  rw [SMap.get_eq_some_iff] at h
  unfold Spec.listing
  rw [List.mem_map]
  refine ⟨_, List.mem_filter.mpr ⟨h, ?_⟩, rfl⟩
  simp only [decide_eq_true_eq]
  exact ⟨rfl, TotOrd.irrefl _, he⟩

open Toy in
/-- Three allowances of alice, two of them live, and one of bob: pages of one list alice's. -/
example :
    let y := start.run [dep alice 1000000000000, dep bob 1000000000000, appr alice bob 5,
      appr alice carol 7 (some 1000000010), appr alice target 9, appr bob carol 1,
      ⟨10, .upgrade .none⟩]
    y.ledger.approvals.len = 4 ∧
    (Spec.pages y.ledger y.now 1 5 (acc alice) none).map (fun e => (e.toSpender.owner, e.allowance))
      = [(bob, 5), (target, 9)] ∧
    (icrc103GetAllowances y.ledger alice none (some (acc bob)) (some 1) y.now).map
      AllowanceEntry.allowance = [9] := by
  decide +kernel

/-! ## C34, C58 -/

/-- The log as it is served: every block with its index. -/
def Spec.numbered (s : State) : List (Nat × Value) :=
  s.blocks.mapIdx (fun i b => (i, b.toValue))

/-- The existing blocks of the requested ranges, in the order of the ranges. -/
def Spec.requested (s : State) (args : List GetBlocksArg) : List (Nat × Value) :=
  args.flatMap (fun a => ((Spec.numbered s).drop a.start).take a.length)

theorem blockRange_eq (s : State) (start n : Nat) :
    blockRange s start (start + n) = ((Spec.numbered s).drop start).take n := by
  unfold blockRange
  rw [Nat.add_sub_cancel_left]
  induction n generalizing start with
  | zero => simp
  | succ n ih =>
    rw [List.range'_succ, List.filterMap_cons]
    by_cases h : start < s.blocks.length
    · have h1 : (Spec.numbered s)[start]'(by simpa [Spec.numbered] using h) =
          (start, (s.blocks[start]).toValue) := by simp [Spec.numbered]
      rw [List.getElem?_eq_getElem h, List.drop_eq_getElem_cons (by simpa [Spec.numbered] using h),
        List.take_succ_cons, h1, ← ih]
      rfl
    · rw [List.getElem?_eq_none (by omega)]
      have h2 : (Spec.numbered s).drop start = [] := by
        rw [List.drop_eq_nil_iff]; simp [Spec.numbered]; omega
      have h3 : (Spec.numbered s).drop (start + 1) = [] := by
        rw [List.drop_eq_nil_iff]; simp [Spec.numbered]; omega
      simp only [Option.map_none]
      rw [ih, h2, h3]; simp

theorem getBlocksLoop_eq (s : State)
    (hlim : s.blocks.length + s.config.maxBlocksPerRequest < 2 ^ 64) :
    ∀ (args : List GetBlocksArg) (acc : List (Nat × Value)),
      getBlocksLoop s args acc = acc ++ (Spec.requested s (args.filter (fun a =>
        decide (a.length < 2 ^ 64)))).take (s.config.maxBlocksPerRequest - acc.length) := by
  have hnum : (Spec.numbered s).length = s.blocks.length := by simp [Spec.numbered]
  intro args
  induction args with
  | nil => intro acc; simp [getBlocksLoop, Spec.requested]
  | cons a rest ih =>
    intro acc
    unfold getBlocksLoop
    simp only
    by_cases hrem : s.config.maxBlocksPerRequest - acc.length = 0
    · rw [if_pos hrem, hrem]; simp
    rw [if_neg hrem]
    -- a range that contributes nothing
    have skip : (a.length < 2 ^ 64 → ((Spec.numbered s).drop a.start).take a.length = []) →
        getBlocksLoop s rest acc = acc ++ (Spec.requested s ((a :: rest).filter (fun a =>
        decide (a.length < 2 ^ 64)))).take (s.config.maxBlocksPerRequest - acc.length) := by
      intro h
      rw [ih]
      by_cases hl : a.length < 2 ^ 64
      · rw [List.filter_cons_of_pos (by simpa using hl)]
        simp only [Spec.requested, List.flatMap_cons, h hl, List.nil_append]
      · rw [List.filter_cons_of_neg (by simpa using hl)]
    have past : s.blocks.length ≤ a.start →
        ((Spec.numbered s).drop a.start).take a.length = [] := by
      intro h
      rw [List.drop_eq_nil_iff.mpr (by omega)]; simp
    by_cases h1 : a.start ≤ U64MAX
    · rw [show toU64 a.start = some a.start from if_pos h1]
      simp only
      by_cases h2 : a.start < s.blocks.length
      · rw [if_pos h2]
        by_cases h3 : a.length ≤ U64MAX
        · rw [show toU64 a.length = some a.length from if_pos h3]
          simp only
          have h3' : a.length < 2 ^ 64 := by rw [U64MAX_eq] at h3; omega
          have hw : wrapAdd64 a.start (min (s.config.maxBlocksPerRequest - acc.length) a.length) =
              a.start + min (s.config.maxBlocksPerRequest - acc.length) a.length := by
            unfold wrapAdd64
            rw [U64MAX_eq]
            apply Nat.mod_eq_of_lt
            omega
          rw [hw]
          have hend : min s.blocks.length
              (a.start + min (s.config.maxBlocksPerRequest - acc.length) a.length) =
              a.start + min (s.blocks.length - a.start)
                (min (s.config.maxBlocksPerRequest - acc.length) a.length) := by omega
          rw [hend, blockRange_eq, ih, List.filter_cons_of_pos (by simpa using h3')]
          simp only [Spec.requested, List.flatMap_cons]
          generalize hD : (Spec.numbered s).drop a.start = D
          have hDl : D.length = s.blocks.length - a.start := by rw [← hD]; simp [hnum]
          generalize hm : s.config.maxBlocksPerRequest - acc.length = m at hrem ⊢
          have ht : D.take (min (s.blocks.length - a.start) (min m a.length)) =
              (D.take a.length).take m := by
            rw [List.take_take, ← hDl]
            have : min D.length (min m a.length) = min (min m a.length) D.length := by omega
            rw [this, ← List.take_take, List.take_length]
          rw [ht, List.append_assoc, List.take_append]
          congr 2
          have hlen : ((D.take a.length).take m).length = min m (min a.length D.length) := by simp
          have hlen2 : (D.take a.length).length = min a.length D.length := by simp
          rw [List.length_append, hlen, hlen2]
          congr 1
          omega
        · rw [show toU64 a.length = none from if_neg h3]
          exact skip (fun h => by rw [U64MAX_eq] at h3; omega)
      · rw [if_neg h2]
        exact skip (fun _ => past (by omega))
    · rw [show toU64 a.start = none from if_neg h1]
      exact skip (fun _ => past (by rw [U64MAX_eq] at h1; omega))

/-- **C58**: what `icrc3_get_blocks` returns, if the log length and the limit together fit 64
bits: ranges longer than that are ignored, the other ones are served up to the limit. -/
theorem C58_get_blocks (s : State) (args : List GetBlocksArg)
    (hlim : s.blocks.length + s.config.maxBlocksPerRequest < 2 ^ 64) :
    getBlocks s args = (s.blocks.length,
      (Spec.requested s (args.filter (fun a => decide (a.length < 2 ^ 64)))).take
        s.config.maxBlocksPerRequest) := by
  unfold getBlocks
  rw [getBlocksLoop_eq s hlim]
  simp

/-- **C34**, for ranges of less than 2^64 blocks and a limit that does not make the end of a
range overflow. -/
theorem C34_get_blocks_partial (s : State) (args : List GetBlocksArg)
    (hlim : s.blocks.length + s.config.maxBlocksPerRequest < 2 ^ 64)
    (hlen : ∀ a ∈ args, a.length < 2 ^ 64) :
    getBlocks s args = (s.blocks.length,
      (Spec.requested s args).take s.config.maxBlocksPerRequest) := by
  rw [C58_get_blocks s args hlim, List.filter_eq_self.mpr]
  intro a ha
  simpa using hlen a ha

open Toy in
/-- **C34** is violated for other ranges: a range of 2^64 blocks from the start of a log of 6 is
answered with no blocks. -/
theorem C34_refuted : ∃ (y : Sys) (args : List GetBlocksArg), Reachable y ∧
    y.ledger.config.maxBlocksPerRequest = 100 ∧
    (getBlocks y.ledger args).2 = [] ∧
    ((Spec.requested y.ledger args).take y.ledger.config.maxBlocksPerRequest).length = 6 :=
  ⟨demo, [⟨0, 2 ^ 64⟩], demo_reachable, by decide +kernel⟩

open Toy in
/-- **C34** is violated for other limits: with a limit of 2^64-1 the end of a range of 2^64-1
blocks from block 1 on overflows, and no blocks are returned. -/
theorem C34_refuted_limit : ∃ (y : Sys) (args : List GetBlocksArg), Reachable y ∧
    (∀ a ∈ args, a.length < 2 ^ 64) ∧
    (getBlocks y.ledger args).2 = [] ∧
    ((Spec.requested y.ledger args).take y.ledger.config.maxBlocksPerRequest).length = 5 :=
  ⟨start.run (events ++ [⟨1, .upgrade (.upgrade (some ⟨some 18446744073709551615, none⟩))⟩]),
    [⟨1, 2 ^ 64 - 1⟩], run_reachable _, by
      intro a ha
      rw [List.mem_singleton] at ha
      subst ha
      exact Nat.sub_lt (by decide) (by decide), by decide +kernel⟩

open Toy in
/-- Two ranges of the example log, the second cut off at the end of the log, a third one
beyond it. -/
example :
    ((getBlocks demo.ledger [⟨4, 1⟩, ⟨3, 100⟩, ⟨6, 5⟩]).2.map Prod.fst) = [4, 3, 4, 5] ∧
    demo.ledger.blocks.length + demo.ledger.config.maxBlocksPerRequest < 2 ^ 64 := by
  decide +kernel

end CyclesLedger
