import Verif.Spec.Client
import Verif.Proof.Fields
import Verif.Proof.Values
/-! # The client reads what the ledger writes, and nothing else -/
namespace CyclesLedger
namespace Client

theorem get_entries (m : SMap Text Value) (k : String) :
    get m.entries k = m.get (ascii k) := by
  unfold get SMap.get
  generalize m.entries = l
  induction l with
  | nil => rfl
  | cons e t ih =>
    simp only [List.find?_cons, SMap.getL]
    by_cases h : e.1 = ascii k
    · simp [h]
    · simp only [h, decide_false, if_neg, not_false_eq_true]
      exact ih

theorem nTs : ascii "ts" = kTs := by decide
theorem nMemo : ascii "memo" = kMemo := by decide
theorem nOp : ascii "op" = kOp := by decide
theorem nFrom : ascii "from" = kFrom := by decide
theorem nTo : ascii "to" = kTo := by decide
theorem nSpender : ascii "spender" = kSpender := by decide
theorem nAmt : ascii "amt" = kAmt := by decide
theorem nFee : ascii "fee" = kFee := by decide
theorem nExpected : ascii "expected_allowance" = kExpectedAllowance := by decide
theorem nExpires : ascii "expires_at" = kExpiresAt := by decide
theorem nTx : ascii "tx" = kTx := by decide
theorem nPhash : ascii "phash" = kPhash := by decide
theorem nMint : ascii "mint" = opMint := by decide
theorem nXfer : ascii "xfer" = opXfer := by decide
theorem nBurn : ascii "burn" = opBurn := by decide
theorem nApprove : ascii "approve" = opApprove := by decide

theorem nat_iff {v : Value} {n : Nat} : nat v = some n ↔ v = .nat n := by
  cases v <;> simp [nat]

theorem blob_iff {v : Value} {b : Bytes} : blob v = some b ↔ v = .blob b := by
  cases v <;> simp [blob]

theorem hash_iff {v : Value} {h : Hash} : hash v = some h ↔ v = .blob h.val := by
  unfold hash
  split
  · split
    · rename_i b hb
      constructor
      · intro e; cases e; rfl
      · intro e; cases e; rfl
    · rename_i b hb
      constructor
      · intro e; cases e
      · intro e; cases e; exact absurd h.property hb
  · rename_i hn
    constructor
    · intro e; cases e
    · intro e; exact absurd e (hn _)

theorem account_value (a : Account) : account (accountToValue a) = some a := by
  obtain ⟨o, s⟩ := a
  cases s with
  | none => simp [accountToValue, Account.compact, account, o.le]
  | some s => simp [accountToValue, Account.compact, account, o.le, s.property]

theorem account_iff {v : Value} {a : Account} : account v = some a ↔ v = accountToValue a := by
  refine ⟨fun h => ?_, fun h => h ▸ account_value a⟩
  unfold account at h
  split at h
  · split at h
    · cases h; rfl
    · cases h
  · split at h
    · split at h
      · cases h; rfl
      · cases h
    · cases h
  · cases h

theorem need_iff {A : Type} {m : SMap Text Value} {k : String} {f : Value → Option A}
    {g : A → Value} (hf : ∀ v a, f v = some a ↔ v = g a) {a : A} :
    need m.entries k f = some a ↔ m.get (ascii k) = some (g a) := by
  unfold need
  rw [get_entries]
  cases h : m.get (ascii k) with
  | none => simp
  | some v => simp [hf]

theorem may_iff {A : Type} {m : SMap Text Value} {k : String} {f : Value → Option A}
    {g : A → Value} (hf : ∀ v a, f v = some a ↔ v = g a) {o : Option A} :
    may m.entries k f = some o ↔ m.get (ascii k) = o.map g := by
  unfold may
  rw [get_entries]
  cases h : m.get (ascii k) with
  | none => cases o <;> simp
  | some v =>
    cases o with
    | none =>
      simp
    | some a => simp [hf]

theorem only_iff {m : SMap Text Value} {ks : List String} :
    only m.entries ks = true ↔ ∀ k, k ∉ ks.map ascii → m.get k = none := by
  unfold only
  rw [List.all_eq_true]
  constructor
  · intro h k hk
    cases hg : m.get k with
    | none => rfl
    | some v =>
      have := h _ ((SMap.get_eq_some_iff m k v).mp hg)
      simp only [decide_eq_true_eq] at this
      exact absurd this hk
  · intro h e he
    simp only [decide_eq_true_eq]
    by_cases hk : e.1 ∈ ks.map ascii
    · exact hk
    · have := h _ hk
      rw [(SMap.get_eq_some_iff m e.1 e.2).mpr he] at this
      cases this

/-- The map with exactly the fields of a flattened transaction. -/
theorem fields_iff {m : SMap Text Value} {f : Flat} :
    m = f.fields .nat ↔
      (m.get kTs = f.createdAtTime.map .nat ∧ m.get kMemo = f.memo.map .blob ∧
       m.get kOp = some (.text f.op) ∧ m.get kFrom = f.frm.map accountToValue ∧
       m.get kTo = f.to.map accountToValue ∧ m.get kSpender = f.spender.map accountToValue ∧
       m.get kAmt = some (.nat f.amount) ∧ m.get kFee = f.fee.map .nat ∧
       m.get kExpectedAllowance = f.expectedAllowance.map .nat ∧
       m.get kExpiresAt = f.expiresAt.map .nat) ∧
      ∀ k, k ∉ [kTs, kMemo, kOp, kFrom, kTo, kSpender, kAmt, kFee, kExpectedAllowance,
        kExpiresAt] → m.get k = none := by
  constructor
  · intro h
    subst h
    refine ⟨f.get_fields .nat, fun k hk => ?_⟩
    simp only [List.mem_cons, List.not_mem_nil, or_false, not_or] at hk
    obtain ⟨h1, h2, h3, h4, h5, h6, h7, h8, h9, h10⟩ := hk
    exact f.get_fields_other .nat (Ne.symm h1) (Ne.symm h2) (Ne.symm h3) (Ne.symm h4)
      (Ne.symm h5) (Ne.symm h6) (Ne.symm h7) (Ne.symm h8) (Ne.symm h9) (Ne.symm h10)
  · rintro ⟨hk, ho⟩
    obtain ⟨g1, g2, g3, g4, g5, g6, g7, g8, g9, g10⟩ := f.get_fields .nat
    obtain ⟨h1, h2, h3, h4, h5, h6, h7, h8, h9, h10⟩ := hk
    refine SMap.ext fun k => ?_
    by_cases hm : k ∈ [kTs, kMemo, kOp, kFrom, kTo, kSpender, kAmt, kFee, kExpectedAllowance,
        kExpiresAt]
    · simp only [List.mem_cons, List.not_mem_nil, or_false] at hm
      rcases hm with rfl | rfl | rfl | rfl | rfl | rfl | rfl | rfl | rfl | rfl
      · rw [h1, g1]
      · rw [h2, g2]
      · rw [h3, g3]
      · rw [h4, g4]
      · rw [h5, g5]
      · rw [h6, g6]
      · rw [h7, g7]
      · rw [h8, g8]
      · rw [h9, g9]
      · rw [h10, g10]
    · rw [ho k hm]
      simp only [List.mem_cons, List.not_mem_nil, or_false, not_or] at hm
      obtain ⟨h1, h2, h3, h4, h5, h6, h7, h8, h9, h10⟩ := hm
      exact (f.get_fields_other .nat (Ne.symm h1) (Ne.symm h2) (Ne.symm h3) (Ne.symm h4)
        (Ne.symm h5) (Ne.symm h6) (Ne.symm h7) (Ne.symm h8) (Ne.symm h9) (Ne.symm h10)).symm

theorem bind_some {A B : Type} {o : Option A} {f : A → Option B} {b : B} :
    (o >>= f) = some b ↔ ∃ a, o = some a ∧ f a = some b := by
  cases o <;> simp

theorem keys_distinct : [kTs, kMemo, kOp, kFrom, kTo, kSpender, kAmt, kFee, kExpectedAllowance,
    kExpiresAt].Nodup := by decide

theorem operation_iff {m : SMap Text Value} {o : Operation} {ks : List String} :
    operation m.entries = some (o, ks) ↔
    (∃ to amt fee, o = .mint to amt fee ∧ ks = ["to", "amt", "fee"] ∧
      m.get kOp = some (.text opMint) ∧ m.get kTo = some (accountToValue to) ∧
      m.get kAmt = some (.nat amt) ∧ m.get kFee = some (.nat fee)) ∨
    (∃ frm sp amt, o = .burn frm sp amt ∧ ks = ["from", "spender", "amt"] ∧
      m.get kOp = some (.text opBurn) ∧ m.get kFrom = some (accountToValue frm) ∧
      m.get kSpender = sp.map accountToValue ∧ m.get kAmt = some (.nat amt)) ∨
    (∃ frm to sp amt fee, o = .transfer frm to sp amt fee ∧
      ks = ["from", "to", "spender", "amt", "fee"] ∧
      m.get kOp = some (.text opXfer) ∧ m.get kFrom = some (accountToValue frm) ∧
      m.get kTo = some (accountToValue to) ∧ m.get kSpender = sp.map accountToValue ∧
      m.get kAmt = some (.nat amt) ∧ m.get kFee = fee.map .nat) ∨
    (∃ frm sp amt ea ex fee, o = .approve frm sp amt ea ex fee ∧
      ks = ["from", "spender", "amt", "expected_allowance", "expires_at", "fee"] ∧
      m.get kOp = some (.text opApprove) ∧ m.get kFrom = some (accountToValue frm) ∧
      m.get kSpender = some (accountToValue sp) ∧ m.get kAmt = some (.nat amt) ∧
      m.get kExpectedAllowance = ea.map .nat ∧ m.get kExpiresAt = ex.map .nat ∧
      m.get kFee = fee.map .nat) := by
  have ha := fun (v : Value) (a : Account) => (account_iff (v := v) (a := a))
  have hn := fun (v : Value) (a : Nat) => (nat_iff (v := v) (n := a))
  unfold operation
  rw [get_entries, nOp, nMint, nBurn, nXfer, nApprove]
  cases h : m.get kOp with
  | none => simp
  | some v =>
    cases v with
    | text op =>
      have d1 : opMint ≠ opBurn := by decide
      have d2 : opMint ≠ opXfer := by decide
      have d3 : opMint ≠ opApprove := by decide
      have d4 : opBurn ≠ opXfer := by decide
      have d5 : opBurn ≠ opApprove := by decide
      have d6 : opXfer ≠ opApprove := by decide
      simp only [Option.some.injEq, Value.text.injEq]
      split
      · rename_i e; subst e
        simp only [bind_some, need_iff ha, need_iff hn, nTo, nAmt, nFee, Option.some.injEq,
          Prod.mk.injEq, d1, d2, d3, false_and, and_false, exists_false, or_false, true_and]
        constructor
        · rintro ⟨to, h1, amt, h2, fee, h3, rfl, rfl⟩; exact ⟨to, amt, fee, rfl, rfl, h1, h2, h3⟩
        · rintro ⟨to, amt, fee, rfl, rfl, h1, h2, h3⟩; exact ⟨to, h1, amt, h2, fee, h3, rfl, rfl⟩
      · rename_i n1
        split
        · rename_i e; subst e
          simp only [bind_some, need_iff ha, need_iff hn, may_iff ha, nFrom, nSpender, nAmt,
            Option.some.injEq, Prod.mk.injEq, n1, d4, d5, false_and, and_false, exists_false,
            or_false, false_or, true_and]
          constructor
          · rintro ⟨to, h1, amt, h2, fee, h3, rfl, rfl⟩; exact ⟨to, amt, fee, rfl, rfl, h1, h2, h3⟩
          · rintro ⟨to, amt, fee, rfl, rfl, h1, h2, h3⟩; exact ⟨to, h1, amt, h2, fee, h3, rfl, rfl⟩
        · rename_i n2
          split
          · rename_i e; subst e
            simp only [bind_some, need_iff ha, need_iff hn, may_iff ha, may_iff hn, nFrom, nTo,
              nSpender, nAmt, nFee, Option.some.injEq, Prod.mk.injEq, n1, n2, d6, false_and,
              and_false, exists_false, or_false, false_or, true_and]
            constructor
            · rintro ⟨a, h1, b, h2, c, h3, d, h4, e, h5, rfl, rfl⟩
              exact ⟨a, b, c, d, e, rfl, rfl, h1, h2, h3, h4, h5⟩
            · rintro ⟨a, b, c, d, e, rfl, rfl, h1, h2, h3, h4, h5⟩
              exact ⟨a, h1, b, h2, c, h3, d, h4, e, h5, rfl, rfl⟩
          · rename_i n3
            split
            · rename_i e; subst e
              simp only [bind_some, need_iff ha, need_iff hn, may_iff hn, nFrom, nSpender, nAmt,
                nFee, nExpected, nExpires, Option.some.injEq, Prod.mk.injEq, n1, n2, n3, false_and,
                and_false, exists_false, false_or, true_and]
              constructor
              · rintro ⟨a, h1, b, h2, c, h3, d, h4, e, h5, f, h6, rfl, rfl⟩
                exact ⟨a, b, c, d, e, f, rfl, rfl, h1, h2, h3, h4, h5, h6⟩
              · rintro ⟨a, b, c, d, e, f, rfl, rfl, h1, h2, h3, h4, h5, h6⟩
                exact ⟨a, h1, b, h2, c, h3, d, h4, e, h5, f, h6, rfl, rfl⟩
            · rename_i n4
              simp [n1, n2, n3, n4]
    | _ => simp

theorem transaction_iff {m : SMap Text Value} {t : Transaction} :
    transaction (.map m.entries) = some t ↔ m = t.flatten.fields .nat := by
  have hb := fun (v : Value) (a : Bytes) => (blob_iff (v := v) (b := a))
  have hn := fun (v : Value) (a : Nat) => (nat_iff (v := v) (n := a))
  simp only [transaction, bind_some, Prod.exists, operation_iff, may_iff hn, may_iff hb, only_iff,
    nTs, nMemo, Option.ite_none_right_eq_some, Option.some.injEq]
  rw [fields_iff]
  have out : ∀ {ks : List Text} {k : Text}, (∀ k, k ∉ ks → m.get k = none) → k ∉ ks →
      m.get k = none := fun h hk => h _ hk
  obtain ⟨o, c, me⟩ := t
  constructor
  · rintro ⟨op, ks, hop, ts, hts, memo, hm, ho, he⟩
    simp only [Transaction.mk.injEq] at he
    obtain ⟨rfl, rfl, rfl⟩ := he
    simp only [List.map_cons, nOp, nTs, nMemo] at ho
    rcases hop with ⟨to, amt, fee, rfl, rfl, h1, h2, h3, h4⟩ | ⟨frm, sp, amt, rfl, rfl, h1, h2, h3, h4⟩ |
      ⟨frm, to, sp, amt, fee, rfl, rfl, h1, h2, h3, h4, h5, h6⟩ |
      ⟨frm, sp, amt, ea, ex, fee, rfl, rfl, h1, h2, h3, h4, h5, h6, h7⟩
    all_goals
      simp only [List.map_cons, List.map_nil, nFrom, nTo, nSpender, nAmt, nFee, nExpected,
        nExpires] at ho
      simp only [Transaction.flatten, Option.map_some, Option.map_none]
    · exact ⟨⟨hts, hm, h1, out ho (by decide), h2, out ho (by decide), h3, h4,
        out ho (by decide), out ho (by decide)⟩, fun k hk => ho k (fun h => hk (by
          revert h; simp only [List.mem_cons, List.not_mem_nil, or_false]; rintro (rfl | rfl | rfl | rfl | rfl | rfl) <;> simp))⟩
    · exact ⟨⟨hts, hm, h1, h2, out ho (by decide), h3, h4, out ho (by decide),
        out ho (by decide), out ho (by decide)⟩, fun k hk => ho k (fun h => hk (by
          revert h; simp only [List.mem_cons, List.not_mem_nil, or_false]; rintro (rfl | rfl | rfl | rfl | rfl | rfl) <;> simp))⟩
    · exact ⟨⟨hts, hm, h1, h2, h3, h4, h5, h6, out ho (by decide), out ho (by decide)⟩,
        fun k hk => ho k (fun h => hk (by
          revert h; simp only [List.mem_cons, List.not_mem_nil, or_false]; rintro (rfl | rfl | rfl | rfl | rfl | rfl | rfl | rfl) <;> simp))⟩
    · exact ⟨⟨hts, hm, h1, h2, out ho (by decide), h3, h4, h7, h5, h6⟩,
        fun k hk => ho k (fun h => hk (by
          revert h; simp only [List.mem_cons, List.not_mem_nil, or_false]; rintro (rfl | rfl | rfl | rfl | rfl | rfl | rfl | rfl | rfl) <;> simp))⟩
  · rintro ⟨⟨h1, h2, h3, h4, h5, h6, h7, h8, h9, h10⟩, ho⟩
    have hsub : ∀ (ks : List Text), (∀ k ∈ [kTs, kMemo, kOp, kFrom, kTo, kSpender, kAmt, kFee,
        kExpectedAllowance, kExpiresAt], k ∉ ks → m.get k = none) → ∀ k, k ∉ ks → m.get k = none := by
      intro ks h k hk
      by_cases hm : k ∈ [kTs, kMemo, kOp, kFrom, kTo, kSpender, kAmt, kFee, kExpectedAllowance,
        kExpiresAt]
      · exact h k hm hk
      · exact ho k hm
    cases o with
    | mint to amt fee =>
      refine ⟨_, _, .inl ⟨to, amt, fee, rfl, rfl, h3, h5, h7, h8⟩, c, h1, me, h2, ?_, rfl⟩
      refine hsub _ fun k hk hn => ?_
      simp only [List.map_cons, List.map_nil, nTo, nAmt, nFee, nOp, nTs, nMemo, List.mem_cons,
        List.not_mem_nil, or_false, not_or] at hk hn
      rcases hk with rfl | rfl | rfl | rfl | rfl | rfl | rfl | rfl | rfl | rfl <;>
        first | exact h4 | exact h6 | exact h9 | exact h10 | simp at hn
    | burn frm sp amt =>
      refine ⟨_, _, .inr (.inl ⟨frm, sp, amt, rfl, rfl, h3, h4, h6, h7⟩), c, h1, me, h2, ?_, rfl⟩
      refine hsub _ fun k hk hn => ?_
      simp only [List.map_cons, List.map_nil, nFrom, nSpender, nAmt, nOp, nTs, nMemo, List.mem_cons,
        List.not_mem_nil, or_false, not_or] at hk hn
      rcases hk with rfl | rfl | rfl | rfl | rfl | rfl | rfl | rfl | rfl | rfl <;>
        first | exact h5 | exact h8 | exact h9 | exact h10 | simp at hn
    | transfer frm to sp amt fee =>
      refine ⟨_, _, .inr (.inr (.inl ⟨frm, to, sp, amt, fee, rfl, rfl, h3, h4, h5, h6, h7, h8⟩)),
        c, h1, me, h2, ?_, rfl⟩
      refine hsub _ fun k hk hn => ?_
      simp only [List.map_cons, List.map_nil, nFrom, nTo, nSpender, nAmt, nFee, nOp, nTs, nMemo,
        List.mem_cons, List.not_mem_nil, or_false, not_or] at hk hn
      rcases hk with rfl | rfl | rfl | rfl | rfl | rfl | rfl | rfl | rfl | rfl <;>
        first | exact h9 | exact h10 | simp at hn
    | approve frm sp amt ea ex fee =>
      refine ⟨_, _, .inr (.inr (.inr ⟨frm, sp, amt, ea, ex, fee, rfl, rfl, h3, h4, h6, h7, h9, h10,
        h8⟩)), c, h1, me, h2, ?_, rfl⟩
      refine hsub _ fun k hk hn => ?_
      simp only [List.map_cons, List.map_nil, nFrom, nSpender, nAmt, nFee, nExpected, nExpires, nOp,
        nTs, nMemo, List.mem_cons, List.not_mem_nil, or_false, not_or] at hk hn
      rcases hk with rfl | rfl | rfl | rfl | rfl | rfl | rfl | rfl | rfl | rfl <;>
        first | exact h5 | simp at hn

theorem transaction_value (t : Transaction) : transaction t.toValue = some t := by
  rw [t.toValue_eq]; exact transaction_iff.mpr rfl

theorem transaction_exact {v : Value} {t : Transaction} (hp : Spec.Proper v)
    (h : transaction v = some t) : v = t.toValue := by
  cases v with
  | map kvs =>
    cases hp with
    | map hs _ =>
      have h' : transaction (.map (⟨kvs, hs⟩ : SMap Text Value).entries) = some t := h
      rw [transaction_iff] at h'
      rw [t.toValue_eq, ← h']
  | _ => simp [transaction] at h

theorem need_inv {A : Type} {m : SMap Text Value} {k : String} {f : Value → Option A} {a : A}
    (h : need m.entries k f = some a) : ∃ v, m.get (ascii k) = some v ∧ f v = some a := by
  unfold need at h
  rw [get_entries] at h
  cases hg : m.get (ascii k) with
  | none => simp [hg] at h
  | some v => exact ⟨v, rfl, by simpa [hg] using h⟩

/-- What the ledger writes, the client reads. -/
theorem block_value (b : Block) : block b.toValue = some b := by
  have hn := fun (v : Value) (a : Nat) => (nat_iff (v := v) (n := a))
  have hh := fun (v : Value) (a : Hash) => (hash_iff (v := v) (h := a))
  obtain ⟨g1, g2, g3, g4⟩ := b.get_fields
  rw [b.toValue_eq]
  simp only [block, bind_some]
  refine ⟨b.transaction, ?_, b.timestamp, (need_iff hn).mpr (by rw [nTs]; exact g2), b.phash,
    (may_iff hh).mpr (by rw [nPhash]; exact g3), b.effectiveFee,
    (may_iff hn).mpr (by rw [nFee]; exact g4), ?_⟩
  · unfold need
    rw [get_entries, nTx, g1]
    exact transaction_value _
  · have : only b.fields.entries ["tx", "ts", "phash", "fee"] = true := by
      rw [only_iff]
      intro k hk
      simp only [List.map_cons, List.map_nil, nTx, nTs, nPhash, nFee, List.mem_cons,
        List.not_mem_nil, or_false, not_or] at hk
      unfold Block.fields
      simp [SMap.get_insert, SMap.get_insertOpt, Ne.symm hk.1, Ne.symm hk.2.1, Ne.symm hk.2.2.1,
        Ne.symm hk.2.2.2]
    rw [if_pos this]

/-- And what the client reads is what the ledger would have written. -/
theorem block_exact {v : Value} {b : Block} (hp : Spec.Proper v) (h : block v = some b) :
    v = b.toValue := by
  have hn := fun (v : Value) (a : Nat) => (nat_iff (v := v) (n := a))
  have hh := fun (v : Value) (a : Hash) => (hash_iff (v := v) (h := a))
  cases v with
  | map kvs =>
    cases hp with
    | map hs hps =>
      have h' : block (.map (⟨kvs, hs⟩ : SMap Text Value).entries) = some b := h
      revert h'
      generalize hm : (⟨kvs, hs⟩ : SMap Text Value) = m
      have hme : m.entries = kvs := by rw [← hm]
      intro h'
      simp only [block, bind_some, Option.ite_none_right_eq_some, Option.some.injEq] at h'
      obtain ⟨tx, h1, ts, h2, ph, h3, fee, h4, ho, rfl⟩ := h'
      obtain ⟨vt, h1, ht⟩ := need_inv h1
      have h2 := (need_iff hn).mp h2
      have h3 := (may_iff hh).mp h3
      have h4 := (may_iff hn).mp h4
      rw [only_iff] at ho
      rw [nTx] at h1
      rw [nTs] at h2
      rw [nPhash] at h3
      rw [nFee] at h4
      have hpt : Spec.Proper vt := by
        have := (SMap.get_eq_some_iff m _ _).mp h1
        exact hps _ (hme ▸ this)
      have hvt := transaction_exact hpt ht
      subst hvt
      rw [Block.toValue_eq]
      congr 1
      rw [← hme]
      congr 1
      obtain ⟨g1, g2, g3, g4⟩ := Block.get_fields ⟨tx, ts, ph, fee⟩
      refine SMap.ext fun k => ?_
      by_cases hk : k ∈ [kTx, kTs, kPhash, kFee]
      · simp only [List.mem_cons, List.not_mem_nil, or_false] at hk
        rcases hk with rfl | rfl | rfl | rfl
        · rw [h1, g1]
        · rw [h2, g2]
        · rw [h3, g3]
        · rw [h4, g4]
      · rw [ho k (by simpa only [List.map_cons, List.map_nil, nTx, nTs, nPhash, nFee] using hk)]
        simp only [List.mem_cons, List.not_mem_nil, or_false, not_or] at hk
        unfold Block.fields
        simp [SMap.get_insert, SMap.get_insertOpt, Ne.symm hk.1, Ne.symm hk.2.1, Ne.symm hk.2.2.1,
          Ne.symm hk.2.2.2]
  | _ => simp [block] at h

theorem log_value (bs : List Block) : log (bs.map Block.toValue) = some bs := by
  induction bs with
  | nil => rfl
  | cons b bs ih => simp [log, block_value, ih]

theorem log_exact {vs : List Value} {bs : List Block} (hp : ∀ v ∈ vs, Spec.Proper v)
    (h : log vs = some bs) : vs = bs.map Block.toValue := by
  induction vs generalizing bs with
  | nil => cases h; rfl
  | cons v vs ih =>
    simp only [log] at h
    split at h
    · rename_i b bs' hb hbs
      cases h
      rw [List.map_cons, ← block_exact (hp v (by simp)) hb,
        ← ih (fun v hv => hp v (by simp [hv])) hbs]
    · cases h

theorem parent_value (b : Block) : parent b.toValue = b.phash.map (fun h => .blob h.val) := by
  rw [b.toValue_eq]
  simp only [parent, get_entries, nPhash, b.get_fields.2.2.1]

end Client
end CyclesLedger
