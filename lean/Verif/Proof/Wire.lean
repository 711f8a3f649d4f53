import Verif.Proof.Codec
/-! # CBOR bytes written and read back -/
namespace CyclesLedger

theorem beBytes_length (len n : Nat) : (beBytes len n).length = len := by
  induction len generalizing n with
  | zero => rfl
  | succ l ih => simp [beBytes, ih]

theorem beNat_beBytes (len n : Nat) (h : n < 256 ^ len) : Cbor.beNat (beBytes len n) = n := by
  induction len generalizing n with
  | zero => simp [beBytes, Cbor.beNat] at *; omega
  | succ l ih =>
    simp only [beBytes, Cbor.beNat, List.foldl_append, List.foldl_cons, List.foldl_nil]
    have := ih (n / 256) (by rw [Nat.pow_succ] at h; omega)
    unfold Cbor.beNat at this
    rw [this, UInt8.toNat_ofNat']
    omega

theorem splitBytes_append (a rest : Bytes) :
    Cbor.splitBytes a.length (a ++ rest) = some (a, rest) := by
  unfold Cbor.splitBytes
  rw [if_pos (by simp)]
  simp

theorem head_cborHead {major n : Nat} (hm : major < 7) (hn : n < 2 ^ 64) (rest : Bytes) :
    ∃ info, Cbor.head (cborHead major n ++ rest) = some (major, info, n, rest) := by
  have key : ∀ (len code : Nat), code < 28 → 24 ≤ code → n < 256 ^ len →
      (if code = 24 then some 1 else if code = 25 then some 2 else if code = 26 then some 4
        else if code = 27 then some 8 else none) = some len →
      Cbor.head ((UInt8.ofNat (major * 32 + code) :: beBytes len n) ++ rest)
        = some (major, code, n, rest) := by
    intro len code h1 h2 h3 h4
    have e : (UInt8.ofNat (major * 32 + code)).toNat = major * 32 + code := by
      rw [UInt8.toNat_ofNat']; omega
    simp only [List.cons_append, Cbor.head, e]
    have e1 : (major * 32 + code) / 32 = major := by omega
    have e2 : (major * 32 + code) % 32 = code := by omega
    rw [e1, e2, if_neg (by omega), h4]
    simp only
    have hs := splitBytes_append (beBytes len n) rest
    rw [beBytes_length] at hs
    rw [hs]
    simp only
    rw [beNat_beBytes len n h3, if_neg (by omega)]
  unfold cborHead
  split
  · refine ⟨n, ?_⟩
    rename_i h
    have e : (UInt8.ofNat (major * 32 + n)).toNat = major * 32 + n := by
      rw [UInt8.toNat_ofNat']; omega
    simp only [List.cons_append, List.nil_append, Cbor.head, e]
    have e1 : (major * 32 + n) / 32 = major := by omega
    have e2 : (major * 32 + n) % 32 = n := by omega
    rw [e1, e2, if_pos h]
    simp [Cbor.splitBytes, h]
  · split
    · exact ⟨24, key 1 24 (by omega) (by omega) (by simpa using ‹n < 256›) (by simp)⟩
    · split
      · exact ⟨25, key 2 25 (by omega) (by omega) (by simpa using ‹n < 65536›) (by simp)⟩
      · split
        · exact ⟨26, key 4 26 (by omega) (by omega) (by simpa using ‹n < 4294967296›) (by simp)⟩
        · exact ⟨27, key 8 27 (by omega) (by omega) (by
            have : (256 : Nat) ^ 8 = 2 ^ 64 := by decide
            omega) (by simp)⟩

theorem cborHead_pos (major n : Nat) : 1 ≤ (cborHead major n).length := by
  unfold cborHead
  repeat' split
  all_goals simp

/-- What CBOR can represent in one item: 64-bit integers, tags and lengths. -/
inductive CFits : CVal → Prop
  | int {i} : -2 ^ 64 ≤ i → i < 2 ^ 64 → CFits (.int i)
  | bytes {b : Bytes} : b.length < 2 ^ 64 → CFits (.bytes b)
  | text {b : Bytes} : b.length < 2 ^ 64 → CFits (.text b)
  | array {vs : List CVal} : vs.length < 2 ^ 64 → (∀ v ∈ vs, CFits v) → CFits (.array vs)
  | map {kvs : List (CVal × CVal)} : kvs.length < 2 ^ 64 → (∀ e ∈ kvs, CFits e.1) →
      (∀ e ∈ kvs, CFits e.2) → CFits (.map kvs)
  | bool {b} : CFits (.bool b)
  | null : CFits .null
  | float {b} : CFits (.float b)
  | tag {t v} : t < 2 ^ 64 → CFits v → CFits (.tag t v)

theorem encode_pos (c : CVal) : 1 ≤ c.encode.length := by
  cases c with
  | int i => unfold CVal.encode; split <;> exact cborHead_pos _ _
  | bool b => simp [CVal.encode]
  | null => simp [CVal.encode]
  | float b => simp [CVal.encode]
  | bytes b => unfold CVal.encode; have := cborHead_pos 2 b.length; simp; omega
  | text b => unfold CVal.encode; have := cborHead_pos 3 b.length; simp; omega
  | array b => unfold CVal.encode; have := cborHead_pos 4 b.length; simp; omega
  | map b => unfold CVal.encode; have := cborHead_pos 5 b.length; simp; omega
  | tag t v => unfold CVal.encode; have := cborHead_pos 6 t; simp; omega

theorem items_encode {vs : List CVal}
    (ih : ∀ v ∈ vs, ∀ fuel rest, 2 * v.encode.length ≤ fuel + 1 →
      Cbor.item fuel (v.encode ++ rest) = some (v, rest)) :
    ∀ fuel rest, 2 * (encodeList vs).length ≤ fuel →
      Cbor.items fuel vs.length (encodeList vs ++ rest) = some (vs, rest) := by
  induction vs with
  | nil =>
    intro fuel rest _
    cases fuel <;> simp [Cbor.items, encodeList]
  | cons v t iht =>
    intro fuel rest hf
    have hp := encode_pos v
    simp only [encodeList, List.length_append] at hf
    cases fuel with
    | zero => omega
    | succ fuel =>
      unfold Cbor.items
      rw [if_neg (by simp)]
      simp only [encodeList, List.append_assoc, List.length_cons, Nat.add_sub_cancel]
      rw [ih v (by simp) fuel _ (by omega)]
      simp only
      rw [iht (fun w hw => ih w (by simp [hw])) fuel rest (by omega)]
      rfl

theorem pairs_encode {kvs : List (CVal × CVal)}
    (ih : ∀ e ∈ kvs, (∀ fuel rest, 2 * e.1.encode.length ≤ fuel + 1 →
      Cbor.item fuel (e.1.encode ++ rest) = some (e.1, rest)) ∧
      (∀ fuel rest, 2 * e.2.encode.length ≤ fuel + 1 →
      Cbor.item fuel (e.2.encode ++ rest) = some (e.2, rest))) :
    ∀ fuel rest, 2 * (encodePairs kvs).length ≤ fuel →
      Cbor.pairs fuel kvs.length (encodePairs kvs ++ rest) = some (kvs, rest) := by
  induction kvs with
  | nil =>
    intro fuel rest _
    cases fuel <;> simp [Cbor.pairs, encodePairs]
  | cons e t iht =>
    obtain ⟨k, v⟩ := e
    intro fuel rest hf
    have hp := encode_pos v
    have hp' := encode_pos k
    simp only [encodePairs, List.length_append] at hf
    cases fuel with
    | zero => omega
    | succ fuel =>
      have := ih (k, v) (by simp)
      simp only at this
      unfold Cbor.pairs
      rw [if_neg (by simp)]
      simp only [encodePairs, List.append_assoc, List.length_cons, Nat.add_sub_cancel]
      rw [this.1 fuel _ (by omega)]
      simp only
      rw [this.2 fuel _ (by omega)]
      simp only
      rw [iht (fun w hw => ih w (by simp [hw])) fuel rest (by omega)]
      rfl

theorem item_encode (c : CVal) : CFits c → ∀ fuel rest, 2 * c.encode.length ≤ fuel + 1 →
    Cbor.item fuel (c.encode ++ rest) = some (c, rest) := by
  refine CVal.ind (P := fun c => CFits c → ∀ fuel rest, 2 * c.encode.length ≤ fuel + 1 →
    Cbor.item fuel (c.encode ++ rest) = some (c, rest)) ?_ ?_ ?_ ?_ ?_ ?_ ?_ ?_ ?_ c
  · intro i hc fuel rest hf
    have hp := encode_pos (.int i)
    cases fuel with
    | zero => omega
    | succ fuel =>
      cases hc with
      | int h1 h2 =>
        unfold CVal.encode
        by_cases h : 0 ≤ i
        · rw [if_pos h]
          obtain ⟨info, hh⟩ := head_cborHead (major := 0) (n := i.toNat) (by omega) (by omega) rest
          unfold Cbor.item
          simp only [hh, if_true]
          rw [Int.toNat_of_nonneg h]
        · rw [if_neg h]
          obtain ⟨info, hh⟩ := head_cborHead (major := 1) (n := (-1 - i).toNat) (by omega)
            (by omega) rest
          unfold Cbor.item
          simp only [hh]
          rw [if_neg (by omega), if_pos trivial]
          have : -1 - (((-1 - i).toNat : Nat) : Int) = i := by omega
          rw [this]
  · intro b hc fuel rest hf
    have hp := encode_pos (.bytes b)
    cases fuel with
    | zero => omega
    | succ fuel =>
      cases hc with
      | bytes h1 =>
        unfold CVal.encode
        obtain ⟨info, hh⟩ := head_cborHead (major := 2) (n := b.length) (by omega) h1 (b ++ rest)
        unfold Cbor.item
        simp only [List.append_assoc, hh]
        rw [if_neg (by omega), if_neg (by omega), if_pos trivial, splitBytes_append]
        rfl
  · intro b hc fuel rest hf
    have hp := encode_pos (.text b)
    cases fuel with
    | zero => omega
    | succ fuel =>
      cases hc with
      | text h1 =>
        unfold CVal.encode
        obtain ⟨info, hh⟩ := head_cborHead (major := 3) (n := b.length) (by omega) h1 (b ++ rest)
        unfold Cbor.item
        simp only [List.append_assoc, hh]
        rw [if_neg (by omega), if_neg (by omega), if_neg (by omega), if_pos trivial, splitBytes_append]
        rfl
  · intro vs ih hc fuel rest hf
    have hp := encode_pos (.array vs)
    cases fuel with
    | zero => omega
    | succ fuel =>
      cases hc with
      | array h1 h2 =>
        unfold CVal.encode at hf ⊢
        have hp := cborHead_pos 4 vs.length
        simp only [List.length_append] at hf
        obtain ⟨info, hh⟩ := head_cborHead (major := 4) (n := vs.length) (by omega) h1
          (encodeList vs ++ rest)
        unfold Cbor.item
        simp only [List.append_assoc, hh]
        rw [if_neg (by omega), if_neg (by omega), if_neg (by omega), if_neg (by omega), if_pos trivial,
          items_encode (fun v hv => ih v hv (h2 v hv)) fuel rest (by omega)]
        rfl
  · intro kvs ih hc fuel rest hf
    have hp := encode_pos (.map kvs)
    cases fuel with
    | zero => omega
    | succ fuel =>
      cases hc with
      | map h1 h2 h3 =>
        unfold CVal.encode at hf ⊢
        have hp := cborHead_pos 5 kvs.length
        simp only [List.length_append] at hf
        obtain ⟨info, hh⟩ := head_cborHead (major := 5) (n := kvs.length) (by omega) h1
          (encodePairs kvs ++ rest)
        unfold Cbor.item
        simp only [List.append_assoc, hh]
        rw [if_neg (by omega), if_neg (by omega), if_neg (by omega), if_neg (by omega),
          if_neg (by omega), if_pos trivial,
          pairs_encode (fun e he => ⟨(ih e he).1 (h2 e he), (ih e he).2 (h3 e he)⟩) fuel rest
            (by omega)]
        rfl
  · intro b hc fuel rest hf
    cases fuel with
    | zero => simp [CVal.encode] at hf
    | succ fuel =>
      cases b <;> simp [CVal.encode, Cbor.item, Cbor.head, Cbor.splitBytes]
  · intro hc fuel rest hf
    cases fuel with
    | zero => simp [CVal.encode] at hf
    | succ fuel => simp [CVal.encode, Cbor.item, Cbor.head, Cbor.splitBytes]
  · intro b hc fuel rest hf
    cases fuel with
    | zero => simp [CVal.encode] at hf; omega
    | succ fuel =>
      have hb : b.toNat < 256 ^ 8 := by
        have := b.toNat_lt
        have : (256 : Nat) ^ 8 = 2 ^ 64 := by decide
        omega
      have hs := splitBytes_append (beBytes 8 b.toNat) rest
      rw [beBytes_length] at hs
      have hh : Cbor.head ((CVal.float b).encode ++ rest) = some (7, 27, b.toNat, rest) := by
        simp only [CVal.encode, List.cons_append, Cbor.head]
        simp only [show ((0xfb : UInt8).toNat) = 251 by decide]
        simp only [show 251 / 32 = 7 by decide, show 251 % 32 = 27 by decide]
        simp only [show ¬(27 < 24) by decide, show ¬(27 = 24) by decide, show ¬(27 = 25) by decide,
          show ¬(27 = 26) by decide, if_false, if_true, hs]
        rw [beNat_beBytes 8 _ hb]
      unfold Cbor.item
      simp only [hh]
      simp
  · intro t v ih hc fuel rest hf
    have hp := encode_pos (.tag t v)
    cases fuel with
    | zero => omega
    | succ fuel =>
      cases hc with
      | tag h1 h2 =>
        unfold CVal.encode at hf ⊢
        have hp := cborHead_pos 6 t
        simp only [List.length_append] at hf
        obtain ⟨info, hh⟩ := head_cborHead (major := 6) (n := t) (by omega) h1 (v.encode ++ rest)
        unfold Cbor.item
        simp only [List.append_assoc, hh]
        rw [if_neg (by omega), if_neg (by omega), if_neg (by omega), if_neg (by omega),
          if_neg (by omega), if_neg (by omega), if_pos trivial, ih h2 fuel rest (by omega)]
        rfl

theorem read_encode {c : CVal} (h : CFits c) : Cbor.read c.encode = some c := by
  unfold Cbor.read
  have := item_encode c h (2 * c.encode.length) [] (by omega)
  rw [List.append_nil] at this
  rw [this]

/-! ## Blocks -/

theorem cfits_nat {n : Nat} (h : n ≤ 2 ^ 128 - 1) : CFits (cborNat n) := by
  unfold cborNat
  split
  · rename_i h1
    rw [U64MAX_eq] at h1
    exact .int (by omega) (by omega)
  · refine .tag (by decide) (.bytes ?_)
    have hlen : ∀ (k n : Nat), n < 256 ^ k → (leDigits n).length ≤ k := by
      intro k
      induction k with
      | zero => intro n hn; simp at hn; subst hn; unfold leDigits; simp
      | succ k ih =>
        intro n hn
        unfold leDigits
        split
        · simp
        · have := ih (n / 256) (by rw [Nat.pow_succ] at hn; omega)
          simp only [List.length_cons]
          omega
    have h16 : (256 : Nat) ^ 16 = 2 ^ 128 := by decide
    have := hlen 16 n (by omega)
    unfold toBytesBE
    split
    · simp
    · simp only [List.length_reverse]; omega

theorem cfits_account (a : Account) : CFits (cborAccount a) := by
  have h29 := a.owner.le
  unfold cborAccount
  obtain ⟨owner, sub⟩ := a
  cases sub with
  | none =>
    refine .array (by simp [Account.compact]) ?_
    intro v hv
    simp only [Account.compact, List.map_cons, List.map_nil, List.mem_singleton] at hv
    subst hv
    exact .bytes (by simp only at h29; omega)
  | some s =>
    refine .array (by simp [Account.compact]) ?_
    intro v hv
    simp only [Account.compact, List.map_cons, List.map_nil, List.mem_cons, List.not_mem_nil,
      or_false] at hv
    rcases hv with h | h <;> subst h
    · exact .bytes (by simp only at h29; omega)
    · exact .bytes (by have := s.property; omega)

/-- A list of entries with text keys. -/
def CEntries (n : Nat) (l : List (CVal × CVal)) : Prop :=
  l.length ≤ n ∧ ∀ e ∈ l, CFits e.1 ∧ CFits e.2

theorem CEntries.append {n m : Nat} {l l' : List (CVal × CVal)} (h : CEntries n l)
    (h' : CEntries m l') : CEntries (n + m) (l ++ l') := by
  refine ⟨by have := h.1; have := h'.1; simp; omega, fun e he => ?_⟩
  rcases List.mem_append.mp he with he | he
  · exact h.2 e he
  · exact h'.2 e he

theorem CEntries.opt {A : Type} {k : Text} {o : Option A} {f : A → CVal} (hk : k.length < 2 ^ 64)
    (h : ∀ a, o = some a → CFits (f a)) : CEntries 1 (optField k o f) := by
  cases o with
  | none => exact ⟨by simp [optField], by simp [optField]⟩
  | some a =>
    refine ⟨by simp [optField], ?_⟩
    intro e he
    simp only [optField, List.mem_singleton] at he
    subst he
    exact ⟨.text hk, h a rfl⟩

theorem CEntries.one {k : Text} {v : CVal} (hk : k.length < 2 ^ 64) (h : CFits v) :
    CEntries 1 [(.text k, v)] :=
  ⟨by simp, by intro e he; rw [List.mem_singleton] at he; subst he; exact ⟨.text hk, h⟩⟩

theorem cfits_transaction {t : Transaction} (ho : Spec.OpFits t.operation)
    (hc : Spec.Bounded (2 ^ 64 - 1) t.createdAtTime)
    (hm : ∀ m, t.memo = some m → m.length < 2 ^ 64) : CFits t.toCbor := by
  have hf := flatten_fits ho hc
  have e64 : U64MAX = 2 ^ 64 - 1 := by rw [U64MAX_eq]
  have e128 : U128MAX = 2 ^ 128 - 1 := by rw [U128MAX_eq]
  have hmemo : t.flatten.memo = t.memo := by
    obtain ⟨op, ct, memo⟩ := t; cases op <;> rfl
  have hop : t.flatten.op.length < 2 ^ 64 := by
    obtain ⟨op, ct, memo⟩ := t
    cases op <;> simp [Transaction.flatten, opMint, opXfer, opBurn, opApprove]
  have h1 := hf.created
  have h2 := hf.amount
  have h3 := hf.fee
  have h4 := hf.expected
  have h5 := hf.expires
  rw [e64] at h1 h5
  rw [e128] at h2 h3 h4
  have hall : CEntries 10 (optField kTs t.flatten.createdAtTime cborNat
    ++ optField kMemo t.flatten.memo .bytes
    ++ [(.text kOp, .text t.flatten.op)]
    ++ optField kFrom t.flatten.frm cborAccount
    ++ optField kTo t.flatten.to cborAccount
    ++ optField kSpender t.flatten.spender cborAccount
    ++ [(.text kAmt, cborNat t.flatten.amount)]
    ++ optField kFee t.flatten.fee cborNat
    ++ optField kExpectedAllowance t.flatten.expectedAllowance cborNat
    ++ optField kExpiresAt t.flatten.expiresAt cborNat) := by
    refine ((((((((((CEntries.opt (by decide) (fun n hn => cfits_nat (by have := h1 n hn; omega))).append
      (CEntries.opt (by decide) (fun m hm' => .bytes (hm m (hmemo ▸ hm'))))).append
      (CEntries.one (by decide) (.text hop))).append
      (CEntries.opt (by decide) (fun a _ => cfits_account a))).append
      (CEntries.opt (by decide) (fun a _ => cfits_account a))).append
      (CEntries.opt (by decide) (fun a _ => cfits_account a))).append
      (CEntries.one (by decide) (cfits_nat h2))).append
      (CEntries.opt (by decide) (fun n hn => cfits_nat (h3 n hn)))).append
      (CEntries.opt (by decide) (fun n hn => cfits_nat (h4 n hn)))).append
      (CEntries.opt (by decide) (fun n hn => cfits_nat (by have := h5 n hn; omega))))
  unfold Transaction.toCbor Flat.toCbor
  exact .map (by have := hall.1; omega) (fun e he => (hall.2 e he).1) (fun e he => (hall.2 e he).2)

theorem cfits_block {b : Block} (hb : Spec.BlockFits b)
    (hm : ∀ m, b.transaction.memo = some m → m.length < 2 ^ 64) : CFits b.toCbor := by
  have hall : CEntries 4 ([(.text kTx, b.transaction.toCbor)] ++ [(.text kTs, cborNat b.timestamp)]
    ++ optField kPhash b.phash (fun h => .bytes h.val)
    ++ optField kFee b.effectiveFee cborNat) := by
    have ht : b.timestamp ≤ 2 ^ 128 - 1 := by have := hb.time; omega
    refine (((CEntries.one (by decide) (cfits_transaction hb.op hb.created hm)).append
      (CEntries.one (by decide) (cfits_nat ht))).append
      (CEntries.opt (by decide) (fun h _ => .bytes (by have := h.property; omega)))).append
      (CEntries.opt (by decide) (fun n hn => cfits_nat (hb.fee n hn)))
  unfold Block.toCbor
  simp only [List.singleton_append] at hall
  exact .map (by have := hall.1; omega) (fun e he => (hall.2 e he).1) (fun e he => (hall.2 e he).2)

/-- A block in stable memory reads back as itself. -/
theorem Block.ofBytes_toBytes {b : Block} (hb : Spec.BlockFits b)
    (hm : ∀ m, b.transaction.memo = some m → m.length < 2 ^ 64) :
    Block.ofBytes b.toBytes = some b := by
  unfold Block.ofBytes Block.toBytes
  rw [read_encode (cfits_block hb hm)]
  exact Block.ofCbor_toCbor hb

end CyclesLedger
