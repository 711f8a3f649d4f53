import Verif.Props.Spam
import Verif.Props.Codec
/-!
# Blocks are small

C97: no request makes the ledger write more than 361 bytes into its log.
-/
namespace CyclesLedger

/-! ## Lengths of encodings -/

theorem cborHead_one (major : Nat) {n : Nat} (h : n < 24) : (cborHead major n).length = 1 := by
  unfold cborHead; rw [if_pos h]; rfl

theorem cborHead_le (major n : Nat) : (cborHead major n).length ≤
    if n < 24 then 1 else if n < 256 then 2 else if n < 65536 then 3
    else if n < 4294967296 then 5 else 9 := by
  unfold cborHead
  repeat' split
  all_goals simp [beBytes_length]

theorem leDigits_length (k : Nat) : ∀ n, n < 256 ^ k → (leDigits n).length ≤ k := by
  induction k with
  | zero =>
    intro n hn
    have : n = 0 := by simpa using hn
    subst this; unfold leDigits; simp
  | succ k ih =>
    intro n hn
    unfold leDigits
    split
    · simp
    · have := ih (n / 256) (by rw [Nat.div_lt_iff_lt_mul (by decide)]; rw [Nat.pow_succ] at hn; exact hn)
      simp only [List.length_cons]; omega

theorem toBytesBE_length {n : Nat} (h : n ≤ 2 ^ 128 - 1) : (toBytesBE n).length ≤ 16 := by
  unfold toBytesBE
  split
  · simp
  · rw [List.length_reverse]
    refine leDigits_length 16 n ?_
    have : (256 : Nat) ^ 16 = 2 ^ 128 := by decide
    omega

theorem bytes_length (b : Bytes) : (CVal.bytes b).encode.length = (cborHead 2 b.length).length + b.length := by
  simp [CVal.encode]

theorem text_length (b : Bytes) : (CVal.text b).encode.length = (cborHead 3 b.length).length + b.length := by
  simp [CVal.encode]

/-- A small number: a fee. -/
theorem cborNat_small {n : Nat} (h : n ≤ 100000000) : (cborNat n).encode.length ≤ 5 := by
  unfold cborNat
  have : n ≤ U64MAX := by rw [U64MAX_eq]; omega
  rw [if_pos this]
  simp only [CVal.encode]
  have h2 := cborHead_le 0 (n : Int).toNat
  rw [if_pos (Int.natCast_nonneg n)]
  have h3 : (n : Int).toNat = n := Int.toNat_natCast n
  rw [h3] at h2 ⊢
  repeat' split at h2
  all_goals omega

theorem cborNat_64 {n : Nat} (h : n ≤ 2 ^ 64 - 1) : (cborNat n).encode.length ≤ 9 := by
  unfold cborNat
  have : n ≤ U64MAX := by rw [U64MAX_eq]; exact h
  rw [if_pos this]
  simp only [CVal.encode]
  rw [if_pos (Int.natCast_nonneg n)]
  have h2 := cborHead_le 0 (n : Int).toNat
  repeat' split at h2
  all_goals omega

theorem cborNat_128 {n : Nat} (h : n ≤ 2 ^ 128 - 1) : (cborNat n).encode.length ≤ 18 := by
  by_cases h1 : n ≤ U64MAX
  · have := cborNat_64 (n := n) (by rw [U64MAX_eq] at h1; exact h1)
    omega
  · unfold cborNat
    rw [if_neg h1]
    have h2 := toBytesBE_length h
    simp only [CVal.encode, List.length_append]
    rw [cborHead_one 6 (by decide : TAG_BIGNUM < 24), cborHead_one 2 (by omega)]
    omega

theorem cborAccount_length (a : Account) : (cborAccount a).encode.length ≤ 66 := by
  obtain ⟨⟨p, hp⟩, sub⟩ := a
  have h1 := cborHead_le 2 p.length
  have h1' : (cborHead 2 p.length).length ≤ 2 := by
    repeat' split at h1
    all_goals omega
  unfold cborAccount Account.compact
  cases sub with
  | none =>
    simp only [List.map_cons, List.map_nil, CVal.encode, encodeList, List.length_append,
      List.length_cons, List.length_nil]
    rw [cborHead_one 4 (by decide)]
    omega
  | some s =>
    obtain ⟨s, hs⟩ := s
    have h2 := cborHead_le 2 s.length
    have h2' : (cborHead 2 s.length).length ≤ 2 := by
      repeat' split at h2
      all_goals omega
    simp only [List.map_cons, List.map_nil, CVal.encode, encodeList, List.length_append,
      List.length_cons, List.length_nil]
    rw [cborHead_one 4 (by decide)]
    omega

theorem encodePairs_append (l m : List (CVal × CVal)) :
    encodePairs (l ++ m) = encodePairs l ++ encodePairs m := by
  induction l with
  | nil => simp [encodePairs]
  | cons a l ih => obtain ⟨k, v⟩ := a; simp [encodePairs, ih]

theorem pair_length {k : Text} {v : CVal} {n : Nat} (hk : k.length < 24) (hv : v.encode.length ≤ n) :
    (encodePairs [(.text k, v)]).length ≤ 1 + k.length + n := by
  simp only [encodePairs, List.append_nil, List.length_append, text_length, cborHead_one 3 hk]
  omega

/-- What a field adds. -/
def room {A : Type} (o : Option A) (n : Nat) : Nat := if o.isSome then n else 0

theorem room_le {A : Type} (o : Option A) (n : Nat) : room o n ≤ n := by
  unfold room; split <;> omega

theorem opt_length {A : Type} {k : Text} {o : Option A} {f : A → CVal} {n : Nat} (hk : k.length < 24)
    (hv : ∀ a, o = some a → (f a).encode.length ≤ n) :
    (encodePairs (optField k o f)).length ≤ room o (1 + k.length + n) := by
  cases o with
  | none => simp [optField, encodePairs, room]
  | some a => exact pair_length hk (hv a rfl)

theorem opt_count {A : Type} (k : Text) (o : Option A) (f : A → CVal) : (optField k o f).length ≤ 1 := by
  cases o <;> simp [optField]

theorem map_length {kvs : List (CVal × CVal)} (h : kvs.length < 24) :
    (CVal.map kvs).encode.length = 1 + (encodePairs kvs).length := by
  simp only [CVal.encode, List.length_append, cborHead_one 5 h]

theorem flat_length (f : Flat) (hop : f.op.length ≤ 7)
    (hts : Spec.Bounded (2 ^ 64 - 1) f.createdAtTime)
    (hmemo : ∀ m, f.memo = some m → m.length ≤ 32) (hamt : f.amount ≤ 2 ^ 128 - 1)
    (hfee : Spec.Bounded 100000000 f.fee) (hea : Spec.Bounded (2 ^ 128 - 1) f.expectedAllowance)
    (hex : Spec.Bounded (2 ^ 64 - 1) f.expiresAt) :
    f.toCbor.encode.length ≤ 78 + f.op.length + room f.frm 71 + room f.to 69 + room f.spender 74 +
      room f.fee 9 + room f.expectedAllowance 37 + room f.expiresAt 20 := by
  have c1 := opt_count kTs f.createdAtTime cborNat
  have c2 := opt_count kMemo f.memo .bytes
  have c3 := opt_count kFrom f.frm cborAccount
  have c4 := opt_count kTo f.to cborAccount
  have c5 := opt_count kSpender f.spender cborAccount
  have c6 := opt_count kFee f.fee cborNat
  have c7 := opt_count kExpectedAllowance f.expectedAllowance cborNat
  have c8 := opt_count kExpiresAt f.expiresAt cborNat
  have l1 := opt_length (k := kTs) (o := f.createdAtTime) (f := cborNat) (n := 9) (by decide)
    (fun a ha => cborNat_64 (hts a ha))
  have l2 := opt_length (k := kMemo) (o := f.memo) (f := .bytes) (n := 34) (by decide)
    (fun a ha => by
      have := hmemo a ha
      have h2 := cborHead_le 2 a.length
      rw [bytes_length]
      repeat' split at h2
      all_goals omega)
  have l3 := opt_length (k := kFrom) (o := f.frm) (f := cborAccount) (n := 66) (by decide)
    (fun a _ => cborAccount_length a)
  have l4 := opt_length (k := kTo) (o := f.to) (f := cborAccount) (n := 66) (by decide)
    (fun a _ => cborAccount_length a)
  have l5 := opt_length (k := kSpender) (o := f.spender) (f := cborAccount) (n := 66) (by decide)
    (fun a _ => cborAccount_length a)
  have l6 := opt_length (k := kFee) (o := f.fee) (f := cborNat) (n := 5) (by decide)
    (fun a ha => cborNat_small (hfee a ha))
  have l7 := opt_length (k := kExpectedAllowance) (o := f.expectedAllowance) (f := cborNat) (n := 18)
    (by decide) (fun a ha => cborNat_128 (hea a ha))
  have l8 := opt_length (k := kExpiresAt) (o := f.expiresAt) (f := cborNat) (n := 9) (by decide)
    (fun a ha => cborNat_64 (hex a ha))
  have l9 := pair_length (k := kOp) (v := .text f.op) (n := 1 + f.op.length) (by decide)
    (by rw [text_length, cborHead_one 3 (by omega)]; omega)
  have l10 := pair_length (k := kAmt) (v := cborNat f.amount) (by decide) (cborNat_128 hamt)
  have k1 : kTs.length = 2 := rfl
  have k2 : kMemo.length = 4 := rfl
  have k3 : kFrom.length = 4 := rfl
  have k4 : kTo.length = 2 := rfl
  have k5 : kSpender.length = 7 := rfl
  have k6 : kFee.length = 3 := rfl
  have k7 : kExpectedAllowance.length = 18 := rfl
  have k8 : kExpiresAt.length = 10 := rfl
  have k9 : kOp.length = 2 := rfl
  have k10 : kAmt.length = 3 := rfl
  simp only [k1, k2, k3, k4, k5, k6, k7, k8, k9, k10, Nat.reduceAdd] at l1 l2 l3 l4 l5 l6 l7 l8 l9 l10
  have l1' : (encodePairs (optField kTs f.createdAtTime cborNat)).length ≤ 12 := by
    have := room_le f.createdAtTime 12; omega
  have l2' : (encodePairs (optField kMemo f.memo .bytes)).length ≤ 39 := by
    have := room_le f.memo 39; omega
  unfold Flat.toCbor
  rw [map_length (by simp only [List.length_append, List.length_cons, List.length_nil]; omega)]
  simp only [encodePairs_append, List.length_append]
  omega

/-- A fee a transaction may contain. -/
theorem feeOk_small {f : Option Nat} (h : FeeOk f) : Spec.Bounded 100000000 f := by
  intro n hn
  rcases h with rfl | rfl
  · cases hn
  · cases hn; rw [FEE_eq]; omega

/-- A transaction, with room for the fee if it is outside. -/
theorem transaction_length {now : Nat} {t : Transaction} (hop : OpOk now t.operation)
    (hts : Spec.Bounded (2 ^ 64 - 1) t.createdAtTime)
    (hmemo : ∀ m, t.memo = some m → m.length ≤ 32) :
    t.toCbor.encode.length + room (effectiveFee t.operation) 9 ≤ 305 := by
  have e64 : U64MAX = 2 ^ 64 - 1 := by rw [U64MAX_eq]
  have e128 : U128MAX = 2 ^ 128 - 1 := by rw [U128MAX_eq]
  obtain ⟨op, ts, memo⟩ := t
  have nb : ∀ n, Spec.Bounded n none := bounded_none
  have r0 : ∀ {A : Type} n, room (none : Option A) n = 0 := fun _ => rfl
  have r1 : ∀ {A : Type} (a : A) n, room (some a) n = n := fun _ _ => rfl
  unfold Transaction.toCbor
  cases op with
  | mint to x fee =>
    have hf : fee ≤ 100000000 := by rcases hop.2 with h | h <;> rw [h] <;> simp [FEE_eq]
    have := flat_length (Transaction.flatten ⟨.mint to x fee, ts, memo⟩) (by simp [Transaction.flatten, opMint]) hts hmemo
      (e128 ▸ hop.1) (fun n hn => by cases hn; exact hf) (nb _) (nb _)
    have hl : opMint.length = 4 := rfl
    simp only [Transaction.flatten, r0, r1, hl] at this
    simp only [effectiveFee, r1]
    unfold Transaction.flatten
    simp only
    omega
  | transfer frm to sp x fee =>
    have := flat_length (Transaction.flatten ⟨.transfer frm to sp x fee, ts, memo⟩) (by simp [Transaction.flatten, opXfer]) hts hmemo
      (by have := hop.1; show x ≤ _; omega) (feeOk_small hop.2.1) (nb _) (nb _)
    have hl : opXfer.length = 4 := rfl
    have hsp := room_le sp 74
    simp only [Transaction.flatten, r0, r1, hl] at this
    unfold Transaction.flatten
    simp only
    cases fee <;> simp only [effectiveFee, r0, r1, Option.isNone_none, Option.isNone_some, if_true,
      Bool.false_eq_true, if_false] at this ⊢ <;> omega
  | burn frm sp x =>
    have := flat_length (Transaction.flatten ⟨.burn frm sp x, ts, memo⟩) (by simp [Transaction.flatten, opBurn]) hts hmemo
      (by have h : x + FEE ≤ U128MAX := hop; show x ≤ _; omega) (nb _) (nb _) (nb _)
    have hl : opBurn.length = 4 := rfl
    have hsp := room_le sp 74
    simp only [Transaction.flatten, r0, r1, hl] at this
    unfold Transaction.flatten
    simp only [effectiveFee, r1]
    omega
  | approve frm sp x ea ex fee =>
    have := flat_length (Transaction.flatten ⟨.approve frm sp x ea ex fee, ts, memo⟩) (by simp [Transaction.flatten, opApprove]) hts hmemo
      (e128 ▸ hop.1) (feeOk_small hop.2.2.2.1) (e128 ▸ hop.2.1) (e64 ▸ hop.2.2.1)
    have hl : opApprove.length = 7 := rfl
    have h1 := room_le ea 37
    have h2 := room_le ex 20
    simp only [Transaction.flatten, r0, r1, hl] at this
    unfold Transaction.flatten
    simp only
    cases fee <;> simp only [effectiveFee, r0, r1, Option.isNone_none, Option.isNone_some, if_true,
      Bool.false_eq_true, if_false] at this ⊢ <;> omega

theorem block_length {pre : List Block} {b : Block} [Crypto] (hb : BlockOk pre b)
    (hc : Spec.Bounded (2 ^ 64 - 1) b.transaction.createdAtTime) (ht : b.timestamp ≤ 2 ^ 64 - 1)
    (hm : ∀ m, b.transaction.memo = some m → m.length ≤ 32) : b.toBytes.length ≤ 361 := by
  have h1 := transaction_length hb.op hc hm
  have hfee : Spec.Bounded 100000000 b.effectiveFee := by
    rw [hb.fee]
    intro n hn
    revert hn
    unfold effectiveFee
    repeat' split
    all_goals intro hn; cases hn <;> simp [FEE_eq]
  rw [← hb.fee] at h1
  have l1 := pair_length (k := kTx) (v := b.transaction.toCbor) (by decide) (Nat.le_refl _)
  have l2 := pair_length (k := kTs) (v := cborNat b.timestamp) (by decide) (cborNat_64 ht)
  have l3 := opt_length (k := kPhash) (o := b.phash) (f := fun h => .bytes h.val) (n := 34) (by decide)
    (fun a _ => by
      obtain ⟨a, ha⟩ := a
      have h2 := cborHead_le 2 a.length
      rw [bytes_length]
      simp only [ha, Nat.reduceLT, if_true, if_false] at h2 ⊢
      omega)
  have l4 := opt_length (k := kFee) (o := b.effectiveFee) (f := cborNat) (n := 5) (by decide)
    (fun a ha => cborNat_small (hfee a ha))
  have c3 := opt_count kPhash b.phash (fun h => .bytes h.val)
  have c4 := opt_count kFee b.effectiveFee cborNat
  have k1 : kTx.length = 2 := rfl
  have k2 : kTs.length = 2 := rfl
  have k3 : kPhash.length = 5 := rfl
  have k4 : kFee.length = 3 := rfl
  simp only [k1, k2, k3, k4, Nat.reduceAdd] at l1 l2 l3 l4
  have l3' : (encodePairs (optField kPhash b.phash (fun h => .bytes h.val))).length ≤ 40 := by
    have := room_le b.phash 40; omega
  unfold Block.toBytes Block.toCbor
  rw [map_length (by simp only [List.length_append, List.length_cons, List.length_nil]; omega)]
  have he : ∀ (p q : CVal × CVal), encodePairs [p, q] = encodePairs [p] ++ encodePairs [q] :=
    fun p q => encodePairs_append [p] [q]
  simp only [encodePairs_append, he, List.length_append]
  omega

/-! ## How many blocks a message adds -/

theorem refunded_grown [Crypto] {s s' : State} {now : Nat} {kind : CallKind} {p : Suspended}
    {back : Nat} {fb ab : Option Nat} (h : Refunded s s' now kind p back fb ab) :
    s'.blocks.length ≤ s.blocks.length + 2 := by
  rcases h with ⟨h1, _, _, rfl⟩ | ⟨_, _, _, he, _⟩ | ⟨_, _, _, sp, s2, _, he, he2⟩
  · omega
  · rw [he.blocks, List.length_append, List.length_singleton]
    omega
  · rw [he2.blocks, he.blocks]
    simp only [List.length_append, List.length_singleton]
    omega

theorem exec_grown [Crypto] {y : Sys} (hi : SInv y) (m : Msg) :
    (y.exec m).1.ledger.blocks.length ≤ y.ledger.blocks.length + 3 := by
  rcases msg_cases m with ⟨r, to, hr⟩ | ⟨r, hr⟩ | ⟨r, hr⟩ | ⟨c, cy, a, rfl⟩ | ⟨i, ans, rfl⟩ |
    ⟨i, rfl⟩ | ⟨a, rfl⟩
  · rcases exec_burn hi hr with ⟨s1, p, hs⟩ | ⟨e, he⟩
    · obtain ⟨he, _, _, _, _, _, h1⟩ := hs
      have hl : s1.blocks.length = y.ledger.blocks.length + 1 := by
        rw [he.blocks, List.length_append, List.length_singleton]
      rcases h1 with ⟨_, h1⟩ | ⟨_, h1⟩
      · rw [h1]
        simp only [sent]
        omega
      · rcases h1 with ⟨h1, _⟩ | ⟨fb, ab, s', h1, h2, _⟩
        · rw [h1]; simp
        · have h3 := refunded_grown h2
          rw [h1]
          simp only
          omega
    · rw [he.1]; simp
  · rcases exec_transfer hi hr with ⟨s', h1, _, _, _, he, _⟩ | ⟨e, h1, _⟩ | ⟨h1, _⟩
    · rw [h1]
      simp only [he.blocks, List.length_append, List.length_singleton]
      omega
    · rw [h1]; simp
    · rw [h1]; simp
  · rcases exec_approve hi hr with ⟨s', h1, _, _, _, he, _⟩ | ⟨e, h1, _⟩ | ⟨h1, _⟩
    · rw [h1]
      simp only [he.blocks, List.length_append, List.length_singleton]
      omega
    · rw [h1]; simp
    · rw [h1]; simp
  · rcases exec_deposit hi c cy a with ⟨s', h1, he, h2, _⟩ | ⟨h1, _⟩
    · rw [h1]
      simp only [he.blocks, List.length_append, List.length_singleton]
      omega
    · rw [h1]; simp
  · rcases exec_callback_cases hi i ans with ⟨h1, h2⟩ | ⟨p, hp, hf, ⟨hr, h1, h2⟩ | ⟨back, hr, h1⟩⟩
    · rw [h1]; simp only; omega
    · have hb : (noteCanister y.ledger p.data ans).blocks = y.ledger.blocks := by
        unfold noteCanister
        split
        · split <;> rfl
        · rfl
      rw [h1]
      simp only [hb]
      omega
    · rcases h1 with ⟨h1, _⟩ | ⟨fb, ab, s', h1, h2, _⟩
      · rw [h1]
        have : (answered y i p ans).ledger = y.ledger := rfl
        simp only [this]
        omega
      · have h3 := refunded_grown h2
        rw [h1]
        simp only
        omega
  · simp only [Sys.exec]; omega
  · simp only [Sys.exec]
    split
    · simp only; omega
    · rename_i s' hs
      have := (hi.ledger.postUpgrade hs).1
      rw [this]
      simp only; omega

/-- The bytes of some blocks in stable memory. -/
def Spec.storedBytes (bs : List Block) : Nat := (bs.map (fun b => b.toBytes.length)).sum

theorem storedBytes_le {bs : List Block} (h : ∀ b ∈ bs, b.toBytes.length ≤ 361) :
    Spec.storedBytes bs ≤ 361 * bs.length := by
  unfold Spec.storedBytes
  induction bs with
  | nil => simp
  | cons b bs ih =>
    have h1 := h b List.mem_cons_self
    have h2 := ih (fun c hc => h c (List.mem_cons_of_mem _ hc))
    simp only [List.map_cons, List.sum_cons, List.length_cons]
    omega

/-! ## C97 -/

/-- **C97**: every block takes at most 361 bytes of stable memory. -/
theorem C97_block [Crypto] {y : Sys} (h : Reachable y) (b : Block) (hb : b ∈ y.ledger.blocks) :
    b.toBytes.length ≤ 361 := by
  obtain ⟨pre, hok⟩ := h.blockOk hb
  exact block_length hok (h.created_fits b hb) (h.block_fits b hb).time (C39_memo_bounded h b hb)

/-- **C97**: a message adds at most three blocks, so at most 1083 bytes. -/
theorem C97_message [Crypto] {y : Sys} (h : Reachable y) (e : Event) :
    ∃ new, (y.step e).1.ledger.blocks = y.ledger.blocks ++ new ∧ new.length ≤ 3 ∧
      Spec.storedBytes new ≤ 1083 := by
  obtain ⟨new, hn⟩ := C30_append_only h [e]
  have h1 : (y.step e).1.ledger.blocks = y.ledger.blocks ++ new := hn.symm
  have h2 := exec_grown (h.inv.tick e.dt) e.msg
  have h3 : ((y.tick e.dt).exec e.msg).1.ledger.blocks.length = y.ledger.blocks.length + new.length := by
    rw [← List.length_append, ← h1]; rfl
  have h4 : (y.tick e.dt).ledger.blocks.length = y.ledger.blocks.length := rfl
  have h5 := storedBytes_le (bs := new) (fun b hb => C97_block (h.step e) b (by
    rw [h1]; exact List.mem_append_right _ hb))
  exact ⟨new, h1, by omega, by omega⟩

/-- **C97**: so filling the memory is expensive.  A byte of the log costs at least
100000000 / 361 = 277008 cycles that are either no longer in the supply or had to be deposited. -/
theorem C97_price [Crypto] {y : Sys} (h : Reachable y) (es : List Event)
    (hm : Spec.HonestRun y es) (hg : Spec.NoGiftRun y es) :
    ∃ new, (y.run es).ledger.blocks = y.ledger.blocks ++ new ∧
    100000000 * Spec.storedBytes new +
        361 * (icrc1TotalSupply (y.run es).ledger + Spec.underway (y.run es)) ≤
      361 * (icrc1TotalSupply y.ledger + Spec.underway y + Spec.acceptedRun y es) := by
  obtain ⟨new, h1, h2⟩ := C88_blocks h es hm hg
  have h5 := storedBytes_le (bs := new) (fun b hb => C97_block (h.run es) b (by
    rw [h1]; exact List.mem_append_right _ hb))
  exact ⟨new, h1, by omega⟩

namespace Toy

/-- An owner with 29 bytes and a subaccount with 32: as long as an account can be. -/
def long (k : UInt8) : Account :=
  ⟨⟨List.replicate 29 k, by simp⟩, some ⟨List.replicate 32 k, by simp⟩⟩

/-- A transfer on behalf of another that leaves no field out. -/
def longEvents : List Event :=
  [⟨10000000000, .deposit (long 1).owner ⟨2 ^ 127, by decide +kernel⟩ ⟨long 1, none⟩⟩,
   ⟨1, .approve (long 1).owner ⟨(long 1).subaccount, long 2, 2 ^ 126, none, none, none, none, none⟩⟩,
   ⟨1, .transferFrom (long 2).owner ⟨(long 2).subaccount, long 1, long 3, 2 ^ 125,
     some 100000000, some (List.replicate 32 7), some 11000000001⟩⟩]

end Toy

open Toy in
/-- The bound is attained: a transfer on behalf of another between the longest accounts, with the
longest memo, an amount of 16 bytes, and every optional field present. -/
example : Reachable (start.run longEvents) ∧
    ((start.run longEvents).ledger.blocks[2]?.map (fun b => b.toBytes.length)) = some 361 := by
  exact ⟨run_reachable _, by decide +kernel⟩

open Toy in
/-- Three blocks at once are possible: a withdrawal on behalf of another whose call cannot be made
is refunded, and the allowance restored, in the same message. -/
example : ((start.run [dep alice (2 * 10 ^ 9), appr alice bob (10 ^ 9)]).step
    ⟨1, .withdrawFrom bob ⟨none, acc alice, target, none, 5 * 10 ^ 8⟩ (some .callPerformFailed)⟩).1.ledger.blocks.length
    = 5 := by
  decide +kernel

open Toy in
/-- The price on a history with two calls under way (`Spec.HonestRun`, `Spec.NoGiftRun`: see C88):
six blocks. -/
example : demo.ledger.blocks.length = 6 ∧ 0 < Spec.storedBytes demo.ledger.blocks ∧
    100000000 * Spec.storedBytes demo.ledger.blocks +
        361 * (icrc1TotalSupply demo.ledger + Spec.underway demo) <
      361 * (icrc1TotalSupply start.ledger + Spec.underway start + Spec.acceptedRun start events) := by
  decide +kernel

end CyclesLedger
