import Verif.Props.Queries
import Verif.Props.Repeat
import Verif.Props.Burns
/-!
# Listing the allowances of the log, and telling withdrawals apart

C22 once more, from the outside: a client that pages through `icrc103_get_allowances` gets the
allowances the block log grants.  C27 once more, from the outside: two withdrawals to different
principals are never taken for one another.
-/
namespace CyclesLedger

/-! ## C22 -/

/-- A client that asks for `n` pages in a row, each one starting at the last entry of the one before
it, and stops at an empty page. -/
def Spec.browse (y : Sys) (caller : Principal) (take : Option Nat) :
    Nat → Option Account → Option Account → List AllowanceEntry
  | 0, _, _ => []
  | n + 1, frm, prev =>
    let page := icrc103GetAllowances y.ledger caller frm prev take y.now
    match page.getLast? with
    | none => []
    | some e => page ++ Spec.browse y caller take n (some e.fromAccount) (some e.toSpender)

/-- The entry says what the log says: the last word of the log about this pair of accounts
is this allowance with this expiration, and it has not expired. -/
def Spec.Grants (bs : List Block) (now : Nat) (e : AllowanceEntry) : Prop :=
  e.fromAccount.subaccount.isSome ∧ e.toSpender.subaccount.isSome ∧ e.expiresAt ≠ some 0 ∧
  Spec.allowances bs (Spec.idOf e.fromAccount, Spec.idOf e.toSpender) =
    some (e.allowance, e.expiresAt.getD 0) ∧
  ∀ t, e.expiresAt = some t → now < t

theorem browse_eq (y : Sys) (caller : Principal) (take : Option Nat) (n : Nat)
    (frm prev : Option Account) :
    Spec.browse y caller take n frm prev =
      (Spec.listing y.ledger (frm.getD ⟨caller, none⟩) prev y.now).take
        (n * Spec.pageSize take) := by
  induction n generalizing frm prev with
  | zero => simp [Spec.browse]
  | succ n ih =>
    simp only [Spec.browse, C22_page]
    cases hl : ((Spec.listing y.ledger (frm.getD ⟨caller, none⟩) prev y.now).take
        (Spec.pageSize take)).getLast? with
    | none =>
      rw [List.getLast?_eq_none_iff, List.take_eq_nil_iff] at hl
      simp only
      rcases hl with hl | hl
      · rw [hl]; simp
      · rw [hl]; simp
    | some e =>
      simp only
      rw [ih, Option.getD_some, C22_continue _ _ _ _ _ e hl, Nat.succ_mul,
        Nat.add_comm (n * _), List.take_add]

theorem listLt_zeros : ∀ (n : Nat) (l : List UInt8), l.length = n →
    listLt l (List.replicate n 0) = false
  | 0, [], _ => rfl
  | n + 1, a :: l, h => by
    have ih := listLt_zeros n l (by simpa using h)
    simp only [List.replicate_succ, listLt, ih, Bool.and_false, Bool.or_false]
    show decide (a.toNat < (0 : UInt8).toNat) = false
    simp

theorem not_lt_zeroSub (s : Subaccount) : TotOrd.lt s zeroSub = false :=
  listLt_zeros 32 s.1 s.2

/-- **C22**: whoever pages through the allowances of an owner from the default account
on, with any page size, gets the first entries of one list `L`, which is in order, mentions no pair of
accounts twice, and contains exactly what the block log grants. -/
theorem C22_all [Crypto] {y : Sys} (h : Reachable y) (caller owner : Principal)
    (frm : Option Account) (hf : Spec.idOf (frm.getD ⟨caller, none⟩) = (owner, zeroSub)) :
    ∃ L : List AllowanceEntry,
      (∀ take n, Spec.browse y caller take n frm none =
        L.take (n * min (take.getD 500) 500)) ∧
      L.Pairwise (fun d e => TotOrd.lt (Spec.idOf d.fromAccount, Spec.idOf d.toSpender)
        (Spec.idOf e.fromAccount, Spec.idOf e.toSpender) = true) ∧
      ∀ e, e ∈ L ↔ e.fromAccount.owner = owner ∧ Spec.Grants y.ledger.blocks y.now e := by
  have ho : (frm.getD ⟨caller, none⟩).owner = owner := congrArg Prod.fst hf
  refine ⟨Spec.listing y.ledger (frm.getD ⟨caller, none⟩) none y.now, fun take n => ?_, ?_, ?_⟩
  · rw [browse_eq]; rfl
  · unfold Spec.listing
    rw [List.pairwise_map]
    exact (List.Pairwise.filter _ y.ledger.approvals.sorted).imp (fun h => h)
  · intro e
    unfold Spec.listing
    rw [List.mem_map]
    constructor
    · rintro ⟨⟨⟨⟨p, s⟩, ⟨q, t⟩⟩, x, ex⟩, hm, rfl⟩
      rw [List.mem_filter, decide_eq_true_eq] at hm
      obtain ⟨hm, h1, h2, h3⟩ := hm
      simp only at h1 h2 h3
      have hg : y.ledger.approvals.get ((p, s), (q, t)) = some (x, ex) :=
        (SMap.get_eq_some_iff _ _ _).mpr hm
      have hal : Spec.allowances y.ledger.blocks ((p, s), (q, t)) = some (x, ex) := by
        rcases h.inv.ledger.allow ((p, s), (q, t)) with h4 | ⟨h4, _⟩
        · rw [← h4, hg]
        · rw [hg] at h4; cases h4
      refine ⟨h1.trans ho, rfl, rfl, ?_, ?_, ?_⟩ <;> simp only [Spec.entry]
      · split
        · exact fun h => by cases h
        · rename_i h5; intro h6; exact h5 (Option.some.inj h6)
      · simp only [Spec.idOf, Option.getD_some]
        rw [hal]
        split
        · rename_i h5; rw [h5]; rfl
        · rfl
      · intro t ht
        split at ht
        · cases ht
        · cases ht; omega
    · rcases e with ⟨⟨p, s⟩, ⟨q, t⟩, x, ex⟩
      rintro ⟨h1, h2, h3, h4, h5, h6⟩
      simp only at h1 h2 h3 h4 h5 h6
      obtain ⟨s, rfl⟩ := Option.isSome_iff_exists.mp h2
      obtain ⟨t, rfl⟩ := Option.isSome_iff_exists.mp h3
      simp only [Spec.idOf, Option.getD_some] at h5
      have hlive : ex.getD 0 = 0 ∨ y.now < ex.getD 0 := by
        cases ex with
        | none => exact Or.inl rfl
        | some v => exact Or.inr (h6 v rfl)
      have hg : y.ledger.approvals.get ((p, s), (q, t)) = some (x, ex.getD 0) := by
        rcases h.inv.ledger.allow ((p, s), (q, t)) with h7 | ⟨_, a, b, h7, h8, h9⟩
        · rw [h7, h5]
        · rw [h5] at h7; cases h7; omega
      refine ⟨(((p, s), (q, t)), (x, ex.getD 0)), ?_, ?_⟩
      · rw [List.mem_filter, decide_eq_true_eq]
        refine ⟨(SMap.get_eq_some_iff _ _ _).mp hg, h1.trans ho.symm, ?_, hlive⟩
        simp only [Spec.From]
        rw [hf]
        cases hlt : TotOrd.lt (p, s) (owner, zeroSub) with
        | false => rfl
        | true =>
          rw [lt_pair_iff] at hlt
          rcases hlt with hlt | ⟨_, hlt⟩
          · rw [h1, TotOrd.irrefl] at hlt; cases hlt
          · rw [not_lt_zeroSub] at hlt; cases hlt
      · simp only [Spec.entry]
        congr 1
        cases ex with
        | none => rfl
        | some v =>
          rw [Option.getD_some, if_neg (fun h0 => h4 (by rw [h0]))]

open Toy in
/-- The owner has four allowances, of which one has expired; two pages of two. -/
example : let y := start.run [dep alice 1000000000000, appr alice bob 5,
      appr alice carol 7 (some 1000000010), appr alice target 9, appr bob carol 1,
      ⟨10, .upgrade .none⟩]
    Reachable y ∧
    (Spec.browse y alice (some 1) 2 none none).map (fun e => (e.toSpender.owner, e.allowance)) =
      [(bob, 5), (target, 9)] ∧
    Spec.allowances y.ledger.blocks ((acc alice).key, (acc carol).key) = some (7, 1000000010) :=
  ⟨run_reachable _, by decide +kernel⟩

/-! ## C27 -/

/-- **C27**: a withdrawal or creation was started and got block `i`.  Whatever happens
afterwards, a withdrawal to another principal (or a creation instead of a withdrawal) is never answered
`Duplicate` of `i`. -/
theorem C27_told_apart [Crypto] {y y' : Sys} (h : Reachable y) {m m' : Msg} {r r' : Spec.BurnReq}
    {to to' : Option Principal} (hm : Spec.burnRequest m = some (r, to))
    (hx : y.exec m = (y', .suspended)) (es : List Event)
    (hm' : Spec.burnRequest m' = some (r', to')) (hne : to ≠ to')
    (hn : Spec.NoClash (y'.run es).ledger (r'.transaction to')) :
    ¬Spec.SaysDuplicate ((y'.run es).exec m').2 y.ledger.blocks.length := by
  intro hd
  have hr : Reachable y' := by
    have := h.exec m
    rwa [hx] at this
  obtain ⟨_, ⟨b, hb, ht, _⟩, _⟩ := C26_call_made h hm hx
  have h1 : y'.ledger.blocks[y.ledger.blocks.length]? = some b := by rw [hb]; simp
  have h2 := C30_index_stable hr es _ _ h1
  have hq : Spec.requestTransaction m' = some (r'.transaction to') := by
    cases m' <;> cases hm' <;> rfl
  obtain ⟨⟨b', h3, h4, _⟩, _⟩ := C10_duplicate_truthful (hr.run es) hq hn hd
  rw [h2] at h3
  cases h3
  rw [ht] at h4
  exact hne (burnMemo_inj (Option.some.inj (congrArg Transaction.memo h4)))

open Toy in
/-- A withdrawal, the same one to another canister, a creation, and the same withdrawal again. -/
example : let y := start.run [dep alice 1000000000000]
    let y' := (y.exec (.withdraw alice ⟨none, target, some 1000000001, 500000000⟩ none)).1
    Reachable y ∧ y.ledger.blocks.length = 1 ∧
    (y.exec (.withdraw alice ⟨none, target, some 1000000001, 500000000⟩ none)).2 = .suspended ∧
    (y'.exec (.withdraw alice ⟨none, carol, some 1000000001, 500000000⟩ none)).2 = .suspended ∧
    (y'.exec (.createCanister alice ⟨none, some 1000000001, 500000000, none⟩ none)).2 =
      .suspended ∧
    (y'.exec (.withdraw alice ⟨none, target, some 1000000001, 500000000⟩ none)).2 =
      .withdraw (.error (.duplicate 1)) :=
  ⟨run_reachable _, by decide +kernel⟩

end CyclesLedger
