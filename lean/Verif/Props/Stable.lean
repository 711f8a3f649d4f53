import Verif.Proof.Stable
import Verif.Props.ConfigStore
import Verif.Props.Size
/-!
# C100: the bytes in stable memory

Nothing is lost between the values the ledger works with and the bytes it stores, and what is
stored is paid for.
-/
namespace CyclesLedger

/-! ## The forms of keys and values, by hand -/

/-- `n` zeros. -/
def Spec.zeros (n : Nat) : Bytes := List.replicate n 0

/-- An account as a key: its owner filled up to 29 bytes, its subaccount, the length of its
owner. -/
def Spec.accountBytes (k : AccountKey) : Bytes :=
  k.1.bytes ++ Spec.zeros (29 - k.1.bytes.length) ++ k.2.val ++ [UInt8.ofNat k.1.bytes.length]

/-- Two accounts as a key: both keys, and twice their length. -/
def Spec.pairBytes (k : ApprovalKey) : Bytes :=
  Spec.accountBytes k.1 ++ Spec.accountBytes k.2 ++ [62, 62]

/-- Does `b` read as the number `n`, most significant byte first, in `len` bytes? -/
def Spec.IsNumber (len n : Nat) (b : Bytes) : Prop :=
  b.length = len ∧ b.foldl (fun acc d => acc * 256 + d.toNat) 0 = n

theorem accountKey_sound : storableAccountKey.Sound (fun _ => True) ∧
    ∀ k, (storableAccountKey.toBytes k).length = 62 := by
  have h := storablePair_sound storablePrincipal_sound storableBytes32_sound (by decide) (by decide)
  exact ⟨h.1.mono (fun _ _ => ⟨trivial, trivial⟩), fun k => h.2 k ⟨trivial, trivial⟩⟩

theorem approvalKey_sound : storableApprovalKey.Sound (fun _ => True) ∧
    ∀ k, (storableApprovalKey.toBytes k).length = 126 := by
  have h := storablePair_sound accountKey_sound.1 accountKey_sound.1 (by decide) (by decide)
  exact ⟨h.1.mono (fun _ _ => ⟨trivial, trivial⟩), fun k => h.2 k ⟨trivial, trivial⟩⟩

theorem allowance_sound : storableAllowance.Sound (fun x => x.1 < 256 ^ 16 ∧ x.2 < 256 ^ 8) :=
  (storablePair_sound (storableUInt_sound 16) (storableUInt_sound 8) (by decide) (by decide)).1

theorem queueKey_sound : storableQueueKey.Sound (fun x => x.1 < 256 ^ 8) :=
  ((storablePair_sound (storableUInt_sound 8) approvalKey_sound.1 (by decide) (by decide)).1).mono
    (fun _ h => ⟨h, trivial⟩)

theorem hashEntry_sound : storableHashEntry.Sound (fun x => x.1 < 256 ^ 8) :=
  ((storablePair_sound (storableUInt_sound 8) (storableOption_sound storablePrincipal_sound)
    (by decide) (by decide)).1).mono (fun _ h => ⟨h, fun _ _ => trivial⟩)

theorem timestampKey_sound :
    storableTimestampKey.Sound (fun x => x.1 < 256 ^ 8 ∧ x.2 < 256 ^ 8) :=
  (storablePair_sound (storableUInt_sound 8) (storableUInt_sound 8) (by decide) (by decide)).1

theorem accountBytes_eq (k : AccountKey) : storableAccountKey.toBytes k = Spec.accountBytes k := by
  have h : (k.2.val ++ List.replicate (32 - k.2.val.length) (0 : UInt8)) = k.2.val := by
    rw [k.2.property]; simp
  show (k.1.bytes ++ List.replicate (29 - k.1.bytes.length) 0) ++
    ((k.2.val ++ List.replicate (32 - k.2.val.length) 0) ++
      (beBytes 1 k.1.bytes.length ++ beBytes 0 k.2.val.length)) = _
  rw [h]
  have hb : beBytes 1 k.1.bytes.length = [UInt8.ofNat k.1.bytes.length] := by
    have := k.1.le
    have hm : k.1.bytes.length % 256 = k.1.bytes.length := Nat.mod_eq_of_lt (by omega)
    simp [beBytes, hm]
  rw [hb]
  simp [beBytes, Spec.accountBytes, Spec.zeros]

theorem pairBytes_eq (k : ApprovalKey) : storableApprovalKey.toBytes k = Spec.pairBytes k := by
  have h1 := accountKey_sound.2 k.1
  have h2 := accountKey_sound.2 k.2
  show (storableAccountKey.toBytes k.1 ++
      List.replicate (62 - (storableAccountKey.toBytes k.1).length) 0) ++
    ((storableAccountKey.toBytes k.2 ++
      List.replicate (62 - (storableAccountKey.toBytes k.2).length) 0) ++
      (beBytes 1 (storableAccountKey.toBytes k.1).length ++
        beBytes 1 (storableAccountKey.toBytes k.2).length)) = _
  rw [h1, h2, accountBytes_eq, accountBytes_eq]
  simp [Spec.pairBytes, beBytes]

theorem isNumber_beBytes {len n : Nat} (h : n < 256 ^ len) : Spec.IsNumber len n (beBytes len n) :=
  ⟨beBytes_length len n, beNat_beBytes len n h⟩

/-! ## What is stored fits -/

theorem pow128 : (256 : Nat) ^ 16 = 2 ^ 128 := by decide
theorem pow64 : (256 : Nat) ^ 8 = 2 ^ 64 := by decide

theorem lt_pow128 {n : Nat} (h : n ≤ U128MAX) : n < 256 ^ 16 := by
  rw [U128MAX_eq] at h; rw [pow128]; omega

theorem lt_pow64 {n : Nat} (h : n ≤ U64MAX) : n < 256 ^ 8 := by
  rw [U64MAX_eq] at h; rw [pow64]; omega

theorem balance_fits [Crypto] {y : Sys} (h : Reachable y) {k : AccountKey} {n : Nat}
    (hg : y.ledger.balances.get k = some n) : n < 256 ^ 16 := by
  have h1 := y.ledger.balances.le_sum k
  have h2 := h.inv.ledger.sum
  have h3 := h.inv.ledger.bound
  rw [hg] at h1
  exact lt_pow128 (Nat.le_trans h1 (by omega))

theorem queue_fits [Crypto] {y : Sys} (h : Reachable y) {e : Nat} {k : ApprovalKey} {u : Unit}
    (hg : y.ledger.expirationQueue.get (e, k) = some u) : e < 256 ^ 8 := by
  obtain ⟨_, a, ha⟩ := (h.inv.ledger.queue e k).mp hg
  exact lt_pow64 (h.inv.ledger.approvals k a e ha).2.2.1

theorem timestamp_fits [Crypto] {y : Sys} (h : Reachable y)
    (hl : y.ledger.blocks.length < 2 ^ 64) {t i : Nat} {u : Unit}
    (hg : y.ledger.transactionTimestamps.get (t, i) = some u) : t < 256 ^ 8 ∧ i < 256 ^ 8 := by
  obtain ⟨b, hb, hc, _⟩ := h.keys.time t i hg
  obtain ⟨hi, hb'⟩ := List.getElem?_eq_some_iff.mp hb
  have := (h.block_fits b (hb' ▸ List.getElem_mem hi)).created t hc
  rw [pow64]
  exact ⟨by omega, by omega⟩

/-- **C100**: every balance, allowance, date of expiry, time and index in stable memory is stored
in full: as a number of as many bytes as its type has. -/
theorem C100_in_full [Crypto] {y : Sys} (h : Reachable y)
    (hl : y.ledger.blocks.length < 2 ^ 64) :
    (∀ k n, y.ledger.balances.get k = some n →
      Spec.IsNumber 16 n (storableBalance.toBytes n)) ∧
    (∀ k a e, y.ledger.approvals.get k = some (a, e) → ∃ b b',
      storableAllowance.toBytes (a, e) = b ++ b' ∧ Spec.IsNumber 16 a b ∧ Spec.IsNumber 8 e b') ∧
    (∀ e k, y.ledger.expirationQueue.get (e, k) = some () → ∃ b,
      storableQueueKey.toBytes (e, k) = b ++ Spec.pairBytes k ++ [126] ∧ Spec.IsNumber 8 e b) ∧
    (∀ t i, y.ledger.transactionTimestamps.get (t, i) = some () → ∃ b b',
      storableTimestampKey.toBytes (t, i) = b ++ b' ∧ Spec.IsNumber 8 t b ∧
      Spec.IsNumber 8 i b') ∧
    (∀ x i, y.ledger.transactionHashes.get x = some (i, none) → ∃ b,
      storableHashEntry.toBytes (i, none) = b ++ 0 :: Spec.zeros 29 ++ [1] ∧
      Spec.IsNumber 8 i b) ∧
    (∀ x i p, y.ledger.transactionHashes.get x = some (i, some p) → ∃ b,
      storableHashEntry.toBytes (i, some p) =
        b ++ p.bytes ++ 1 :: Spec.zeros (29 - p.bytes.length) ++
          [UInt8.ofNat (p.bytes.length + 1)] ∧
      Spec.IsNumber 8 i b) := by
  refine ⟨?_, ?_, ?_, ?_, ?_, ?_⟩
  · intro k n hg
    exact isNumber_beBytes (balance_fits h hg)
  · intro k a e hg
    obtain ⟨_, h1, h2, _⟩ := h.inv.ledger.approvals k a e hg
    refine ⟨beBytes 16 a, beBytes 8 e, ?_, isNumber_beBytes (lt_pow128 h1),
      isNumber_beBytes (lt_pow64 h2)⟩
    simp [storableAllowance, storablePair, storableUInt, Storable.sizeLen, beBytes]
  · intro e k hg
    refine ⟨beBytes 8 e, ?_, isNumber_beBytes (queue_fits h hg)⟩
    have h2 := approvalKey_sound.2 k
    show (beBytes 8 e ++ List.replicate (8 - (beBytes 8 e).length) 0) ++
      ((storableApprovalKey.toBytes k ++
        List.replicate (126 - (storableApprovalKey.toBytes k).length) 0) ++
        (beBytes 0 (beBytes 8 e).length ++ beBytes 1 (storableApprovalKey.toBytes k).length)) = _
    rw [h2, beBytes_length, pairBytes_eq]
    have : beBytes 1 126 = [126] := by decide
    rw [this]
    simp [show beBytes 0 8 = [] from rfl]
  · intro t i hg
    have h1 := timestamp_fits h hl hg
    refine ⟨beBytes 8 t, beBytes 8 i, ?_, isNumber_beBytes h1.1, isNumber_beBytes h1.2⟩
    simp [storableTimestampKey, storablePair, storableUInt, Storable.sizeLen, beBytes]
  · intro x i hg
    have h1 := h.indices x i none hg
    refine ⟨beBytes 8 i, ?_, isNumber_beBytes (by rw [pow64]; omega)⟩
    show (beBytes 8 i ++ List.replicate (8 - (beBytes 8 i).length) 0) ++
      (([0] ++ List.replicate 29 0) ++ (beBytes 0 (beBytes 8 i).length ++ beBytes 1 1)) = _
    rw [beBytes_length]
    have : beBytes 1 1 = [1] := by decide
    rw [this]
    simp [show beBytes 0 8 = [] from rfl, Spec.zeros]
  · intro x i p hg
    have h1 := h.indices x i (some p) hg
    refine ⟨beBytes 8 i, ?_, isNumber_beBytes (by rw [pow64]; omega)⟩
    show (beBytes 8 i ++ List.replicate (8 - (beBytes 8 i).length) 0) ++
      (((p.bytes ++ [1]) ++ List.replicate (30 - (p.bytes ++ [1]).length) 0) ++
        (beBytes 0 (beBytes 8 i).length ++ beBytes 1 (p.bytes ++ [1]).length)) = _
    have hp := p.le
    have hm : (p.bytes.length + 1) % 256 = p.bytes.length + 1 := Nat.mod_eq_of_lt (by omega)
    rw [beBytes_length]
    have : beBytes 1 (p.bytes ++ [1]).length = [UInt8.ofNat (p.bytes.length + 1)] := by
      simp only [List.length_append, List.length_singleton, beBytes, hm, List.nil_append]
    rw [this]
    have h30 : 30 - (p.bytes ++ [1]).length = 29 - p.bytes.length := by simp
    rw [h30]
    simp [show beBytes 0 8 = [] from rfl, Spec.zeros]

/-- **C100**: the keys of accounts and of pairs of accounts have 62 and 126 bytes, in this form,
and different keys have different bytes. -/
theorem C100_keys :
    (∀ k, storableAccountKey.toBytes k = Spec.accountBytes k ∧
      (Spec.accountBytes k).length = 62) ∧
    (∀ k, storableApprovalKey.toBytes k = Spec.pairBytes k ∧ (Spec.pairBytes k).length = 126) ∧
    (∀ k k', Spec.accountBytes k = Spec.accountBytes k' → k = k') ∧
    (∀ k k', Spec.pairBytes k = Spec.pairBytes k' → k = k') := by
  refine ⟨fun k => ⟨accountBytes_eq k, ?_⟩, fun k => ⟨pairBytes_eq k, ?_⟩, fun k k' h => ?_,
    fun k k' h => ?_⟩
  · rw [← accountBytes_eq]; exact accountKey_sound.2 k
  · rw [← pairBytes_eq]; exact approvalKey_sound.2 k
  · rw [← accountBytes_eq, ← accountBytes_eq] at h
    exact accountKey_sound.1.inj trivial trivial h
  · rw [← pairBytes_eq, ← pairBytes_eq] at h
    exact approvalKey_sound.1.inj trivial trivial h

theorem ofMemory_toMemory [Crypto] {y : Sys} (h : Reachable y)
    (hc : Spec.ConfigFits y.ledger.config) (hl : y.ledger.blocks.length < 2 ^ 64) :
    State.ofMemory y.ledger.toMemory y.ledger.certifiedData = some y.ledger := by
  have e1 : y.ledger.toMemory BLOCK_LOG_INDEX_MEMORY_ID =
      some (.index (logEnds 0 (y.ledger.blocks.map Block.toBytes))) := rfl
  have e2 : y.ledger.toMemory BLOCK_LOG_DATA_MEMORY_ID =
      some (.data (y.ledger.blocks.map Block.toBytes).flatten) := rfl
  have e3 : y.ledger.toMemory BALANCES_MEMORY_ID =
      some (y.ledger.balances.toRegion storableAccountKey storableBalance) := rfl
  have e4 : y.ledger.toMemory APPROVALS_MEMORY_ID =
      some (y.ledger.approvals.toRegion storableApprovalKey storableAllowance) := rfl
  have e5 : y.ledger.toMemory EXPIRATION_QUEUE_MEMORY_ID =
      some (y.ledger.expirationQueue.toRegion storableQueueKey storableUnit) := rfl
  have e6 : y.ledger.toMemory TRANSACTION_HASH_MEMORY_ID =
      some (y.ledger.transactionHashes.toRegion storableBytes32 storableHashEntry) := rfl
  have e7 : y.ledger.toMemory TRANSACTION_TIMESTAMP_MEMORY_ID =
      some (y.ledger.transactionTimestamps.toRegion storableTimestampKey storableUnit) := rfl
  have e8 : y.ledger.toMemory CONFIG_MEMORY_ID = some (.cell y.ledger.config.toBytes) := rfl
  have r1 : blocksOfRegions (some (.index (logEnds 0 (y.ledger.blocks.map Block.toBytes))))
      (some (.data (y.ledger.blocks.map Block.toBytes).flatten)) = some y.ledger.blocks := by
    have := logEntries_ends (y.ledger.blocks.map Block.toBytes) []
    simp only [List.length_nil, List.nil_append] at this
    simp only [blocksOfRegions, this]
    exact readAllBytes_map _ (fun b hb => (C37_every_block h b hb).2)
  have r3 := ofRegion_toRegion accountKey_sound.1 (storableUInt_sound 16) y.ledger.balances
    (fun k v hg => ⟨trivial, balance_fits h hg⟩)
  have r4 := ofRegion_toRegion approvalKey_sound.1 allowance_sound y.ledger.approvals
    (fun k v hg => by
      obtain ⟨_, h1, h2, _⟩ := h.inv.ledger.approvals k v.1 v.2 hg
      exact ⟨trivial, lt_pow128 h1, lt_pow64 h2⟩)
  have r5 := ofRegion_toRegion queueKey_sound storableUnit_sound y.ledger.expirationQueue
    (fun k v hg => ⟨queue_fits h hg, trivial⟩)
  have r6 := ofRegion_toRegion storableBytes32_sound hashEntry_sound y.ledger.transactionHashes
    (fun k v hg => by
      have := h.indices k v.1 v.2 hg
      exact ⟨trivial, by rw [pow64]; omega⟩)
  have r7 := ofRegion_toRegion timestampKey_sound storableUnit_sound y.ledger.transactionTimestamps
    (fun k v hg => ⟨timestamp_fits h hl hg, trivial⟩)
  have r8 : configOfRegion (some (.cell y.ledger.config.toBytes)) = some y.ledger.config :=
    C78_round_trip hc
  have hr := h.inv.ledger.reload_eq
  unfold State.ofMemory
  rw [e1, e2, e3, e4, e5, e6, e7, e8, r1]
  simp only [storableBalance, r3, r4, r5, r6, r7, r8, Option.bind_eq_bind, Option.bind_some]
  exact congrArg some hr

/-- **C100**: after any history, the state that the next version builds from the bytes in stable
memory is the state that was left: nothing is overwritten, cut off or read as something else. -/
theorem C100_survives [Crypto] {c : Config} (hc : Spec.ConfigFits c) {now cycles : Nat} {y0 : Sys}
    (h0 : Sys.init c now cycles = some y0) (es : List Event)
    (hl : (y0.run es).ledger.blocks.length < 2 ^ 64) :
    State.ofMemory (y0.run es).ledger.toMemory (y0.run es).ledger.certifiedData =
      some (y0.run es).ledger := by
  refine ofMemory_toMemory ⟨c, now, cycles, y0, es, h0, rfl⟩ ?_ hl
  rw [(C78_history hc h0 es).1]
  have : ∀ (l : List PostUpgradeArg) (c : Config), Spec.ConfigFits c →
      Spec.ConfigFits (l.foldl Spec.upgraded c) := by
    intro l
    induction l with
    | nil => exact fun _ h => h
    | cons a t ih => exact fun c h => ih _ (fits_upgraded h a)
  exact this _ c hc

/-- **C100**: from memories never written comes a ledger without blocks, balances, allowances and
remembered requests, with the default configuration. -/
theorem C100_first [Crypto] : ∃ s, State.ofMemory (fun _ => none) none = some s ∧
    s.blocks = [] ∧ (∀ a, icrc1BalanceOf s a = 0) ∧ icrc1TotalSupply s = 0 ∧
    (∀ a sp, Spec.stored s a sp = none) ∧ s.transactionHashes.len = 0 ∧
    s.transactionTimestamps.len = 0 ∧ s.expirationQueue.len = 0 ∧ s.config = ⟨100, none, none⟩ :=
  ⟨State.empty, rfl, rfl, fun _ => rfl, rfl, fun _ _ => rfl, rfl, rfl, rfl, rfl⟩

/-! ## How much is stored -/

/-- The bytes of the contents of a memory; an offset of the log has 8. -/
def Spec.regionBytes : Option Region → Nat
  | none => 0
  | some (.index ends) => 8 * ends.length
  | some (.data b) => b.length
  | some (.tree es) => (es.map (fun e => e.1.length + e.2.length)).sum
  | some (.cell b) => b.length

/-- The bytes of the contents of all memories but that of the configuration. -/
def Spec.contentBytes (m : Memory) : Nat :=
  Spec.regionBytes (m 1) + Spec.regionBytes (m 2) + Spec.regionBytes (m 3) +
  Spec.regionBytes (m 4) + Spec.regionBytes (m 5) + Spec.regionBytes (m 6) + Spec.regionBytes (m 7)

theorem logEnds_length : ∀ (l : List Bytes) (n : Nat), (logEnds n l).length = l.length
  | [], _ => rfl
  | e :: t, n => by simp [logEnds, logEnds_length t]

theorem toRegion_bytes {K V : Type} [TotOrd K] {sk : Storable K} {sv : Storable V} {n : Nat}
    (m : SMap K V) (h : ∀ k v, m.get k = some v → (sk.toBytes k).length + (sv.toBytes v).length = n) :
    Spec.regionBytes (some (m.toRegion sk sv)) = n * m.len := by
  have : ∀ l : List (K × V), (∀ e ∈ l, (sk.toBytes e.1).length + (sv.toBytes e.2).length = n) →
      ((l.map (fun e => (sk.toBytes e.1, sv.toBytes e.2))).map
        (fun e => e.1.length + e.2.length)).sum = n * l.length := by
    intro l
    induction l with
    | nil => intro _; rfl
    | cons e t ih =>
      intro h
      simp only [List.map_cons, List.sum_cons, List.length_cons, Nat.mul_succ,
        ih (fun x hx => h x (List.mem_cons_of_mem _ hx)), h e List.mem_cons_self]
      omega
  exact this m.entries (fun e he => h e.1 e.2 ((m.get_eq_some_iff _ _).mpr he))

theorem storablePair_length {A B : Type} {sa : Storable A} {sb : Storable B} (x : A × B)
    (ha : (sa.toBytes x.1).length ≤ sa.max) (hb : (sb.toBytes x.2).length ≤ sb.max) :
    ((storablePair sa sb).toBytes x).length = (storablePair sa sb).max := by
  simp only [storablePair, List.length_append, List.length_replicate, beBytes_length]
  omega

theorem storableUInt_length (len n : Nat) :
    ((storableUInt len).toBytes n).length ≤ (storableUInt len).max :=
  Nat.le_of_eq (beBytes_length len n)

theorem allowance_length (x : Nat × Nat) : (storableAllowance.toBytes x).length = 24 :=
  storablePair_length x (storableUInt_length _ _) (storableUInt_length _ _)

theorem queueKey_length (x : Nat × ApprovalKey) : (storableQueueKey.toBytes x).length = 135 :=
  storablePair_length x (storableUInt_length _ _) (approvalKey_sound.1.le x.2 trivial)

theorem hashEntry_length (x : Nat × Option Principal) :
    (storableHashEntry.toBytes x).length = 39 :=
  storablePair_length x (storableUInt_length _ _)
    ((storableOption_sound storablePrincipal_sound).le x.2 (fun _ _ => trivial))

theorem timestampKey_length (x : Nat × Nat) : (storableTimestampKey.toBytes x).length = 16 :=
  storablePair_length x (storableUInt_length _ _) (storableUInt_length _ _)

theorem flatten_length (l : List Block) (h : ∀ b ∈ l, b.toBytes.length ≤ 361) :
    (l.map Block.toBytes).flatten.length ≤ 361 * l.length := by
  induction l with
  | nil => simp
  | cons b t ih =>
    have h1 := ih (fun x hx => h x (List.mem_cons_of_mem _ hx))
    have h2 := h b List.mem_cons_self
    simp only [List.map_cons, List.flatten_cons, List.length_append, List.length_cons]
    omega

/-- **C100**: stable memory holds 78 bytes for an account, 150 for an allowance, 135 more if it
expires, 71 and 16 for a request that may not be repeated, and 8 and at most 361 for a block: in
all at most 741 for each block. -/
theorem C100_bytes [Crypto] {y : Sys} (h : Reachable y) :
    Spec.regionBytes (y.ledger.toMemory 1) = 8 * y.ledger.blocks.length ∧
    Spec.regionBytes (y.ledger.toMemory 2) ≤ 361 * y.ledger.blocks.length ∧
    Spec.regionBytes (y.ledger.toMemory 3) = 78 * y.ledger.balances.len ∧
    Spec.regionBytes (y.ledger.toMemory 4) = 150 * y.ledger.approvals.len ∧
    Spec.regionBytes (y.ledger.toMemory 5) = 135 * y.ledger.expirationQueue.len ∧
    Spec.regionBytes (y.ledger.toMemory 6) = 71 * y.ledger.transactionHashes.len ∧
    Spec.regionBytes (y.ledger.toMemory 7) = 16 * y.ledger.transactionTimestamps.len ∧
    Spec.contentBytes y.ledger.toMemory ≤ 741 * y.ledger.blocks.length := by
  have e1 : y.ledger.toMemory 1 =
      some (.index (logEnds 0 (y.ledger.blocks.map Block.toBytes))) := rfl
  have e2 : y.ledger.toMemory 2 =
      some (.data (y.ledger.blocks.map Block.toBytes).flatten) := rfl
  have e3 : y.ledger.toMemory 3 =
      some (y.ledger.balances.toRegion storableAccountKey storableBalance) := rfl
  have e4 : y.ledger.toMemory 4 =
      some (y.ledger.approvals.toRegion storableApprovalKey storableAllowance) := rfl
  have e5 : y.ledger.toMemory 5 =
      some (y.ledger.expirationQueue.toRegion storableQueueKey storableUnit) := rfl
  have e6 : y.ledger.toMemory 6 =
      some (y.ledger.transactionHashes.toRegion storableBytes32 storableHashEntry) := rfl
  have e7 : y.ledger.toMemory 7 =
      some (y.ledger.transactionTimestamps.toRegion storableTimestampKey storableUnit) := rfl
  have s1 : Spec.regionBytes (y.ledger.toMemory 1) = 8 * y.ledger.blocks.length := by
    rw [e1]; simp [Spec.regionBytes, logEnds_length]
  have s2 : Spec.regionBytes (y.ledger.toMemory 2) ≤ 361 * y.ledger.blocks.length := by
    rw [e2]; exact flatten_length _ (fun b hb => C97_block h b hb)
  have s3 : Spec.regionBytes (y.ledger.toMemory 3) = 78 * y.ledger.balances.len := by
    rw [e3]
    refine toRegion_bytes _ (fun k v _ => ?_)
    rw [accountKey_sound.2 k]; simp [storableBalance, storableUInt, beBytes_length]
  have s4 : Spec.regionBytes (y.ledger.toMemory 4) = 150 * y.ledger.approvals.len := by
    rw [e4]
    refine toRegion_bytes _ (fun k v _ => ?_)
    rw [approvalKey_sound.2 k, allowance_length]
  have s5 : Spec.regionBytes (y.ledger.toMemory 5) = 135 * y.ledger.expirationQueue.len := by
    rw [e5]
    refine toRegion_bytes _ (fun k v _ => ?_)
    rw [queueKey_length]; simp [storableUnit]
  have s6 : Spec.regionBytes (y.ledger.toMemory 6) = 71 * y.ledger.transactionHashes.len := by
    rw [e6]
    refine toRegion_bytes _ (fun k v _ => ?_)
    rw [hashEntry_length]; simp [storableBytes32, k.property]
  have s7 : Spec.regionBytes (y.ledger.toMemory 7) = 16 * y.ledger.transactionTimestamps.len := by
    rw [e7]
    refine toRegion_bytes _ (fun k v _ => ?_)
    rw [timestampKey_length]; simp [storableUnit]
  obtain ⟨h1, h2, h3, h4⟩ := C88_storage h
  refine ⟨s1, s2, s3, s4, s5, s6, s7, ?_⟩
  unfold Spec.contentBytes
  omega

/-- **C100**: whatever users do, the bytes they can make the ledger hold are paid for: of each
100 000 000 cycles that disappear in the ledger at most 741 bytes come. -/
theorem C100_price [Crypto] {y : Sys} (h : Reachable y) (es : List Event)
    (hm : Spec.HonestRun y es) (hg : Spec.NoGiftRun y es) :
    100000000 * Spec.contentBytes (y.run es).ledger.toMemory +
        741 * (icrc1TotalSupply (y.run es).ledger + Spec.underway (y.run es)) ≤
      741 * (100000000 * y.ledger.blocks.length + icrc1TotalSupply y.ledger + Spec.underway y +
        Spec.acceptedRun y es) := by
  obtain ⟨new, h1, h2⟩ := C88_blocks h es hm hg
  have h3 := (C100_bytes (h.run es)).2.2.2.2.2.2.2
  rw [h1, List.length_append] at h3
  omega

open Toy in
/-- The example ledger: what is in its memories, and that it can be read. -/
example : Spec.ConfigFits cfg ∧ Sys.init cfg T 0 = some start ∧
    (start.run events).ledger.blocks.length < 2 ^ 64 ∧
    Spec.regionBytes (demo.ledger.toMemory 1) = 48 ∧
    Spec.regionBytes (demo.ledger.toMemory 3) = 234 ∧
    Spec.regionBytes (demo.ledger.toMemory 4) = 150 ∧
    Spec.regionBytes (demo.ledger.toMemory 6) = 142 ∧
    Spec.regionBytes (demo.ledger.toMemory 7) = 32 := by
  refine ⟨⟨by decide, (by intro l h; cases h), (by intro l h; cases h)⟩, start_eq,
    by decide +kernel, by decide +kernel, by decide +kernel, by decide +kernel, by decide +kernel, by decide +kernel⟩

/-- An owner of three bytes and one of none; a balance beyond 64 bits. -/
example :
    Spec.accountBytes (⟨[7, 8, 9], by decide⟩, zeroSub) =
      [7, 8, 9] ++ List.replicate 26 0 ++ List.replicate 32 0 ++ [3] ∧
    Spec.accountBytes (managementCanister, zeroSub) = List.replicate 62 0 ∧
    storableBalance.toBytes (2 ^ 100 + 5) = [0, 0, 0, 16, 0, 0, 0, 0, 0, 0, 0, 0, 0, 0, 0, 5] := by
  decide

end CyclesLedger
