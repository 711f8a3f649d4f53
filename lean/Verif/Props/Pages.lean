import Verif.Proof.Pages
import Verif.Props.Log
import Verif.Props.Metrics
/-!
# What a reader finds on the two pages

C101.
-/
namespace CyclesLedger

open Spec (Json)

/-! ## `/metrics` -/

/-- `w` is written for `n`: the same number if it is below `2 ^ 53`, and in any case one that has a
nearest `f64` in common with `n` and is not further from it than one part in `2 ^ 52` or so. -/
def Spec.Written (w n : Nat) : Prop :=
  (n < 2 ^ 53 → w = n) ∧ (∃ v, Spec.Shows v w ∧ Spec.Shows v n) ∧
  2 ^ 53 * Spec.distance w n ≤ w + n

theorem written_shown (n : Nat) : Spec.Written (shown (f64OfNat n)) n := by
  refine ⟨shown_small, ⟨f64OfNat n, ?_, f64OfNat_spec n⟩, shown_near n⟩
  have := f64OfNat_spec (shown (f64OfNat n))
  rw [shown_reads] at this
  exact this

/-- The names on the page, in order. -/
def Spec.metricNames : List String :=
  ["cycles_ledger_stable_memory_pages", "cycles_ledger_stable_memory_bytes",
   "cycles_ledger_cycle_balance", "cycle_balance{canister=\"cycles-ledger\"}",
   "cycles_ledger_number_of_blocks", "cycles_ledger_number_of_balances",
   "cycles_ledger_number_of_transaction_hashes", "cycles_ledger_number_of_transaction_timestamps",
   "cycles_ledger_number_of_approvals", "cycles_ledger_number_of_approval_expiration_entries",
   "cycles_ledger_total_supply"]

theorem metrics_samples (pages cycles now : Nat) (s : State) :
    Spec.samples (metricsPage pages cycles now s) =
      some ((Spec.metricNames.zip
        ([pages, pages * 64 * 1024, cycles, cycles, s.blocks.length, s.balances.len,
          s.transactionHashes.len, s.transactionTimestamps.len, s.approvals.len,
          s.expirationQueue.len, s.cache.totalSupply].map (fun n => shown (f64OfNat n)))).map
        (fun e => (e.1, e.2, metricsTime now))) := by
  have hz : ((stateMetrics s).zip stateHelp).flatMap
      (fun g => gaugeText (metricsTime now) (g.1.1, g.1.2, g.2)) =
      gaugeText (metricsTime now) ("cycles_ledger_number_of_blocks", f64OfNat s.blocks.length,
        "Total number of blocks stored in the stable memory.") ++
      (gaugeText (metricsTime now) ("cycles_ledger_number_of_balances", f64OfNat s.balances.len,
        "Total number of balances stored in the stable memory.") ++
      (gaugeText (metricsTime now) ("cycles_ledger_number_of_transaction_hashes",
        f64OfNat s.transactionHashes.len,
        "Total number of transaction hashes stored in the stable memory.") ++
      (gaugeText (metricsTime now) ("cycles_ledger_number_of_transaction_timestamps",
        f64OfNat s.transactionTimestamps.len,
        "Total number of transaction timestamps stored in the stable memory.") ++
      (gaugeText (metricsTime now) ("cycles_ledger_number_of_approvals", f64OfNat s.approvals.len,
        "Total number of approvals stored in the stable memory.") ++
      (gaugeText (metricsTime now) ("cycles_ledger_number_of_approval_expiration_entries",
        f64OfNat s.expirationQueue.len,
        "Total number of approval expiration entries in the stable memory.") ++
      (gaugeText (metricsTime now) ("cycles_ledger_total_supply", f64OfNat s.cache.totalSupply,
        "Total cycles supply.") ++ [])))))) := by
    simp only [stateMetrics, stateHelp, List.zip_cons_cons, List.zip_nil_left, List.flatMap_cons,
      List.flatMap_nil]
  have he : Spec.samples [] = some [] := rfl
  unfold metricsPage
  simp only [hz, List.append_assoc]
  rw [samples_gauge (by decide +kernel), samples_gauge (by decide +kernel),
    samples_gauge (by decide +kernel), samples_header (by decide +kernel) (by decide +kernel),
    samples_sample (by decide +kernel) (by decide +kernel) (by decide +kernel) (by decide +kernel),
    samples_gauge (by decide +kernel), samples_gauge (by decide +kernel),
    samples_gauge (by decide +kernel), samples_gauge (by decide +kernel),
    samples_gauge (by decide +kernel), samples_gauge (by decide +kernel),
    samples_gauge (by decide +kernel), he]
  simp only [Option.map_some, Spec.metricNames, List.map_cons, List.map_nil, List.zip_cons_cons,
    List.zip_nil_left]

/-- The time in milliseconds. -/
theorem metricsTime_ms {now : Nat} (h : now < 2 ^ 63) : metricsTime now = ((now / 1000000 : Nat) : Int) := by
  unfold metricsTime
  rw [if_pos (by omega)]
  rfl

/-- The page has a line with this name, and `w` on it. -/
def Spec.OnPage (page : Page) (name : String) (w : Nat) : Prop :=
  ∃ l t, Spec.samples page = some l ∧ (name, w, t) ∈ l

/-- **C101**: `/metrics` is a page in the text format of Prometheus.  It has eleven lines with
values, each name once, and up to the year 2262 all of them with the time in milliseconds. -/
theorem C101_metrics [Crypto] {y : Sys} (h : Reachable y) (pages cycles : Nat) :
    ∃ l, Spec.samples (metricsPage pages cycles y.now y.ledger) = some l ∧
      l.map (·.1) = Spec.metricNames ∧ Spec.metricNames.Nodup ∧
      (y.now < 2 ^ 63 → ∀ e ∈ l, e.2.2 = ((y.now / 1000000 : Nat) : Int)) ∧
      y.now < 2 ^ 64 := by
  refine ⟨_, metrics_samples pages cycles y.now y.ledger, ?_, by decide +kernel, ?_, ?_⟩
  · simp only [Spec.metricNames, List.map_cons, List.map_nil, List.zip_cons_cons,
      List.zip_nil_left]
  · intro ht e he
    obtain ⟨a, _, rfl⟩ := List.mem_map.1 he
    exact metricsTime_ms ht
  · have := h.inv.ledger.clock
    rw [U64MAX_eq] at this
    omega

/-- **C101**: and the numbers are those of the ledger: the memory it was given, the cycles it holds,
its blocks, accounts and approvals, and the cycles that are on all accounts together. -/
theorem C101_values [Crypto] {y : Sys} (h : Reachable y) (pages cycles : Nat) {page : Page}
    (hp : page = metricsPage pages cycles y.now y.ledger) :
    (∃ w, Spec.OnPage page "cycles_ledger_stable_memory_pages" w ∧ Spec.Written w pages) ∧
    (∃ w, Spec.OnPage page "cycles_ledger_stable_memory_bytes" w ∧ Spec.Written w (pages * 65536)) ∧
    (∃ w, Spec.OnPage page "cycles_ledger_cycle_balance" w ∧
      Spec.OnPage page "cycle_balance{canister=\"cycles-ledger\"}" w ∧ Spec.Written w cycles) ∧
    (∃ w, Spec.OnPage page "cycles_ledger_number_of_blocks" w ∧
      Spec.Written w y.ledger.blocks.length) ∧
    (∃ w n, Spec.OnPage page "cycles_ledger_number_of_balances" w ∧ Spec.Written w n ∧
      Spec.Counts (fun k : AccountKey =>
        0 < Spec.balance y.ledger.blocks k ∨ Spec.EmptyCredit y.ledger.blocks k) n) ∧
    (∃ w n, Spec.OnPage page "cycles_ledger_number_of_approvals" w ∧ Spec.Written w n ∧
      Spec.Counts (fun k => y.ledger.approvals.get k ≠ none) n) ∧
    (∃ w n, Spec.OnPage page "cycles_ledger_number_of_approval_expiration_entries" w ∧
      Spec.Written w n ∧
      Spec.Counts (fun k => ∃ x e, y.ledger.approvals.get k = some (x, e) ∧ 0 < e) n) ∧
    (∃ w n : Nat, Spec.OnPage page "cycles_ledger_total_supply" w ∧ Spec.Written w n ∧
      (n : Int) = Spec.supply y.ledger.blocks) := by
  subst hp
  have hs := metrics_samples pages cycles y.now y.ledger
  have hb : pages * 64 * 1024 = pages * 65536 := by omega
  simp only [Spec.metricNames, List.map_cons, List.map_nil, List.zip_cons_cons,
    List.zip_nil_left, hb] at hs
  have on : ∀ name n, (name, shown (f64OfNat n), metricsTime y.now) ∈ _ → _ :=
    fun name n hm => (⟨_, _, hs, hm⟩ : Spec.OnPage _ name (shown (f64OfNat n)))
  refine ⟨⟨_, on _ _ ?_, written_shown _⟩, ⟨_, on _ _ ?_, written_shown _⟩,
    ⟨_, on _ _ ?_, on _ _ ?_, written_shown _⟩, ⟨_, on _ _ ?_, written_shown _⟩,
    ⟨_, _, on _ y.ledger.balances.len ?_, written_shown _, SMap.counts _ (C59_stored_balances h)⟩,
    ⟨_, _, on _ y.ledger.approvals.len ?_, written_shown _, SMap.counts _ (fun _ => Iff.rfl)⟩,
    ⟨_, _, on _ y.ledger.expirationQueue.len ?_, written_shown _, ?_⟩,
    ⟨_, _, on _ y.ledger.cache.totalSupply ?_, written_shown _, h.inv.ledger.supply⟩⟩
  case refine_9 =>
    refine ⟨_, h.inv.ledger.queue.keys_nodup, ?_, by simp [SMap.len]⟩
    intro k
    constructor
    · intro hk
      obtain ⟨⟨⟨e, k'⟩, u⟩, h1, rfl⟩ := List.mem_map.1 hk
      have := (C21_queue_matches h e k').1 ((SMap.get_eq_some_iff _ _ _).2 h1)
      obtain ⟨h2, x, h3⟩ := this
      exact ⟨x, e, h3, h2⟩
    · rintro ⟨x, e, h1, h2⟩
      have := (C21_queue_matches h e k).2 ⟨h2, x, h1⟩
      exact List.mem_map.2 ⟨((e, k), ()), (SMap.get_eq_some_iff _ _ _).1 this, rfl⟩
  all_goals simp only [List.mem_cons, true_or, or_true]

/-! ## `/logs` -/

/-- How a message appears on the page. -/
def Spec.logEntry (t : Nat) (priority : String) (line : Nat) (message : List Char) : Json :=
  .obj [("timestamp".toList, .num t), ("priority".toList, .str priority.toList),
    ("file".toList, .str "cycles-ledger/src/storage.rs".toList), ("line".toList, .num line),
    ("message".toList, .str message)]

/-- The time of an entry: the first number of an object. -/
def Spec.time : Json → Option Nat
  | .obj ((_, .num t) :: _) => some t
  | _ => none

/-- The fields of an entry. -/
def entryFields (other : LogMsg → List Char) (e : Nat × Priority × LogMsg) :
    List (List Char × Scalar) :=
  [("timestamp".toList, .num e.1), ("priority".toList, .str e.2.1.name),
    ("file".toList, .str LOG_FILE), ("line".toList, .num e.2.2.line),
    ("message".toList, .str (e.2.2.text other))]

theorem entryJson_fields (other : LogMsg → List Char) (e : Nat × Priority × LogMsg) :
    entryJson other e = objectText (entryFields other e) := by
  have h1 : "{\"timestamp\":".toList = '{' :: jsonString "timestamp".toList ++ [':'] := by
    decide +kernel
  have h2 : ",\"priority\":".toList = ',' :: jsonString "priority".toList ++ [':'] := by
    decide +kernel
  have h3 : ",\"file\":".toList = ',' :: jsonString "file".toList ++ [':'] := by
    decide +kernel
  have h4 : ",\"line\":".toList = ',' :: jsonString "line".toList ++ [':'] := by
    decide +kernel
  have h5 : ",\"message\":".toList = ',' :: jsonString "message".toList ++ [':'] := by
    decide +kernel
  unfold entryJson
  rw [h1, h2, h3, h4, h5]
  simp only [objectText, entryFields, List.map_cons, List.map_nil, commas, memberText, Scalar.print,
    List.append_assoc, List.cons_append, List.nil_append]

theorem commas_length (l : List (List (List Char × Scalar))) :
    l.length ≤ (commas (l.map objectText)).length := by
  induction l with
  | nil => exact Nat.le_refl _
  | cons x l ih =>
    have h1 : 2 ≤ (objectText x).length := by simp [objectText]
    cases l with
    | nil => simp only [List.map_cons, List.map_nil, commas, List.length_cons, List.length_nil]; omega
    | cons z l =>
      have hc : commas ((x :: z :: l).map objectText) =
        objectText x ++ ',' :: commas ((z :: l).map objectText) := rfl
      rw [hc]
      simp only [List.length_append, List.length_cons] at ih ⊢
      omega

/-- Whatever is in the buffers, the page can be read and gives them back. -/
theorem logs_read (other : LogMsg → List Char) (b : LogBuffers) :
    Json.read (logsJson other b) = some (.obj [("entries".toList,
      .arr ((logsPage b).map (fun e => objectJson (entryFields other e))))]) := by
  have hmap : (logsPage b).map (entryJson other) =
      ((logsPage b).map (entryFields other)).map objectText := by
    rw [List.map_map]
    exact List.map_congr_left (fun e _ => entryJson_fields other e)
  have hmap2 : (logsPage b).map (fun e => objectJson (entryFields other e)) =
      ((logsPage b).map (entryFields other)).map objectJson := by
    rw [List.map_map]
    rfl
  have hk : ∀ x ∈ (logsPage b).map (entryFields other), x ≠ [] ∧ x.length ≤ 5 := by
    intro x hx
    obtain ⟨e, _, rfl⟩ := List.mem_map.1 hx
    exact ⟨by simp [entryFields], by simp [entryFields]⟩
  have h1 : "{\"entries\":[".toList = '{' :: '"' :: ("entries".toList.flatMap jsonChar) ++
      ['"', ':', '['] := by decide +kernel
  have h2 : "]}".toList = [']', '}'] := by decide +kernel
  unfold logsJson
  rw [hmap, hmap2]
  generalize (logsPage b).map (entryFields other) = l at hk
  have hlen := commas_length l
  have hpage : "{\"entries\":[".toList ++ commas (l.map objectText) ++ "]}".toList =
      '{' :: '"' :: ("entries".toList.flatMap jsonChar ++ '"' :: ':' :: '[' ::
        (commas (l.map objectText) ++ [']', '}'])) := by
    rw [h1, h2]
    simp only [List.append_assoc, List.cons_append, List.nil_append]
  rw [hpage]
  have hread := string_read "entries".toList (':' :: '[' :: (commas (l.map objectText) ++ [']', '}']))
  have harr : ∀ f, l.length + 6 < f →
      Json.value (f + 1) ('[' :: (commas (l.map objectText) ++ [']', '}'])) =
        some (.arr (l.map objectJson), ['}']) := by
    intro f hf
    cases l with
    | nil => rfl
    | cons x l =>
      have he := elements_read (x :: l) f ['}'] (by simp) hk (by omega)
      have hhd : ∃ t, commas ((x :: l).map objectText) ++ ']' :: ['}'] = '{' :: t := by
        cases l with
        | nil => exact ⟨_, rfl⟩
        | cons z l => exact ⟨_, rfl⟩
      obtain ⟨t, ht⟩ := hhd
      rw [ht] at he ⊢
      unfold Json.value
      split
      · rename_i e; cases e
      · rename_i e; cases e
      · rename_i e; cases e; simp only [he]
      · rename_i e; cases e
      · rename_i e; cases e
      · rename_i hx _ _; exact absurd rfl (hx _)
  unfold Json.read
  have hval : ∀ f, l.length + 6 < f → Json.value (f + 3)
      ('{' :: '"' :: ("entries".toList.flatMap jsonChar ++ '"' :: ':' :: '[' ::
        (commas (l.map objectText) ++ [']', '}']))) =
      some (.obj [("entries".toList, .arr (l.map objectJson))], []) := by
    intro f hf
    have hm : Json.members (f + 2) ('"' :: ("entries".toList.flatMap jsonChar ++ '"' :: ':' :: '[' ::
        (commas (l.map objectText) ++ [']', '}']))) =
        some ([("entries".toList, .arr (l.map objectJson))], []) := by
      unfold Json.members
      simp only [hread, harr f hf]
    unfold Json.value
    split
    · rename_i e; cases e
    · rename_i e; cases e
    · rename_i e; cases e
    · rename_i e; cases e
    · rename_i e; cases e; simp only [hm]
    · rename_i hx; exact absurd rfl (hx _)
  obtain ⟨f, hf, hfl⟩ : ∃ f, l.length + 6 < f ∧ ('{' :: '"' :: ("entries".toList.flatMap jsonChar ++
      '"' :: ':' :: '[' :: (commas (l.map objectText) ++ [']', '}']))).length + 1 = f + 3 := by
    have h7 : ("entries".toList.flatMap jsonChar).length = 7 := by decide +kernel
    refine ⟨_, ?_, (Nat.sub_add_cancel ?_).symm⟩
    all_goals
      simp only [List.length_cons, List.length_append, h7, List.length_nil]
      omega
  rw [hfl, hval f hf]

/-- **C101**: `/logs` is JSON.  After any history, upgrades included, as long as no two transactions
of the log have the same hash, it is an object with one member, the list of the entries: first those
about approvals of nothing, then those about one to a hundred pruned approvals, each with the time of
the message, which is not later than now, and with the file and line of the `log!`. -/
theorem C101_logs [Crypto] {config : Config} {now cycles : Nat} {y0 : Sys}
    (h0 : Sys.init config now cycles = some y0) (es : List Event)
    (hn : ¬Spec.Collision ((y0.run es).ledger.blocks.map Block.transaction))
    (other : LogMsg → List Char) :
    ∃ l0 l1, Json.read (logsJson other (y0.runLog {} es)) =
        some (.obj [("entries".toList, .arr (l0 ++ l1))]) ∧
      (∀ j ∈ l0, ∃ t, t ≤ (y0.run es).now ∧
        j = Spec.logEntry t "P0" 2187 "[record_approval]: amount was set to 0".toList) ∧
      (∀ j ∈ l1, ∃ t n digits, t ≤ (y0.run es).now ∧ 0 < n ∧ n ≤ 100 ∧
        Spec.whole digits = some n ∧
        j = Spec.logEntry t "P1" 2288 ("Pruned ".toList ++ digits ++ " approvals".toList)) := by
  obtain ⟨p0, p1, hp, hp0, hp1⟩ := C85_page h0 es hn
  refine ⟨p0.map (fun e => objectJson (entryFields other e)),
    p1.map (fun e => objectJson (entryFields other e)), ?_, ?_, ?_⟩
  · rw [logs_read, hp, List.map_append]
  · intro j hj
    obtain ⟨⟨t, p, x⟩, he, rfl⟩ := List.mem_map.1 hj
    obtain ⟨hx, ht⟩ := hp0 _ he
    cases hx
    exact ⟨t, ht, rfl⟩
  · intro j hj
    obtain ⟨⟨t, p, x⟩, he, rfl⟩ := List.mem_map.1 hj
    obtain ⟨⟨n, hx, h1, h2⟩, ht⟩ := hp1 _ he
    cases hx
    exact ⟨t, n, decimal n, ht, h1, h2, whole_decimal n, rfl⟩

/-- **C101**: nothing is left out.  Without an upgrade the times on the page are those at which the
last thousand messages of either kind were written. -/
theorem C101_complete [Crypto] (y : Sys) (es : List Event)
    (hu : ∀ e ∈ es, ∀ arg, e.msg ≠ .upgrade arg) (other : LogMsg → List Char) :
    ∃ l0 l1 : List Json, Json.read (logsJson other (y.runLog {} es)) =
        some (.obj [("entries".toList, .arr (l0 ++ l1))]) ∧
      l0.map Spec.time = (Spec.lastN 1000
        ((Spec.logged y es).filter (fun e => e.2.priority = .p0))).map (fun e => some e.1) ∧
      l1.map Spec.time = (Spec.lastN 1000
        ((Spec.logged y es).filter (fun e => e.2.priority = .p1))).map (fun e => some e.1) := by
  obtain ⟨h0, h1⟩ := C85_buffers y es hu
  refine ⟨((y.runLog {} es).p0.map (fun e => (e.1, Priority.p0, e.2))).map
      (fun e => objectJson (entryFields other e)),
    ((y.runLog {} es).p1.map (fun e => (e.1, Priority.p1, e.2))).map
      (fun e => objectJson (entryFields other e)), ?_, ?_, ?_⟩
  · rw [logs_read, logsPage, List.map_append]
  · rw [h0, List.map_map, List.map_map]
    rfl
  · rw [h1, List.map_map, List.map_map]
    rfl

theorem runLog_lengths [Crypto] (es : List Event) : ∀ (y : Sys) (b : LogBuffers),
    b.p0.length ≤ 1000 → b.p1.length ≤ 1000 →
    (y.runLog b es).p0.length ≤ 1000 ∧ (y.runLog b es).p1.length ≤ 1000 := by
  have happ : ∀ (l : List (Nat × LogMsg)) x, (bufferAppend l x).length ≤ 1000 := by
    intro l x
    have : LOG_CAPACITY = 1000 := rfl
    simp only [bufferAppend, List.length_append, List.length_drop, List.length_cons,
      List.length_nil, this]
    omega
  have hfold : ∀ (now : Nat) (l : List LogMsg) (b : LogBuffers), b.p0.length ≤ 1000 →
      b.p1.length ≤ 1000 → (l.foldl (fun b x => b.add now x) b).p0.length ≤ 1000 ∧
      (l.foldl (fun b x => b.add now x) b).p1.length ≤ 1000 := by
    intro now l
    induction l with
    | nil => exact fun b h0 h1 => ⟨h0, h1⟩
    | cons x l ih =>
      intro b h0 h1
      cases hx : x.priority with
      | p0 =>
        have he : b.add now x = { b with p0 := bufferAppend b.p0 (now, x) } := by
          unfold LogBuffers.add; rw [hx]
        exact ih (b.add now x) (by rw [he]; exact happ _ _) (by rw [he]; exact h1)
      | p1 =>
        have he : b.add now x = { b with p1 := bufferAppend b.p1 (now, x) } := by
          unfold LogBuffers.add; rw [hx]
        exact ih (b.add now x) (by rw [he]; exact h0) (by rw [he]; exact happ _ _)
  induction es with
  | nil => exact fun y b h0 h1 => ⟨h0, h1⟩
  | cons e es ih =>
    intro y b h0 h1
    have key : (y.stepLog b e).p0.length ≤ 1000 ∧ (y.stepLog b e).p1.length ≤ 1000 := by
      unfold Sys.stepLog
      simp only
      split
      · split
        · exact ⟨Nat.zero_le _, Nat.zero_le _⟩
        · exact ⟨h0, h1⟩
      · exact hfold _ _ _ h0 h1
    exact ih _ _ key.1 key.2

theorem commas_le {K : Nat} (l : List Page) (h : ∀ p ∈ l, p.length ≤ K) :
    (commas l).length ≤ l.length * (K + 1) := by
  induction l with
  | nil => exact Nat.zero_le _
  | cons p l ih =>
    have hp := h p List.mem_cons_self
    have ih := ih (fun q hq => h q (List.mem_cons_of_mem _ hq))
    cases l with
    | nil => simp only [commas, List.length_cons, List.length_nil]; omega
    | cons q l =>
      have hc : commas (p :: q :: l) = p ++ ',' :: commas (q :: l) := rfl
      rw [hc, List.length_append, List.length_cons]
      rw [List.length_cons (as := q :: l), Nat.succ_mul]
      omega

theorem entry_length {other : LogMsg → List Char} (e : Nat × Priority × LogMsg)
    (h1 : (decimal e.1).length ≤ 20) (h2 : (jsonString (e.2.2.text other)).length ≤ 40)
    (h3 : (decimal e.2.2.line).length ≤ 4) (h4 : (jsonString e.2.1.name).length ≤ 4) :
    (entryJson other e).length ≤ 152 := by
  have c1 : "{\"timestamp\":".toList.length = 13 := by decide +kernel
  have c2 : ",\"priority\":".toList.length = 12 := by decide +kernel
  have c3 : ",\"file\":".toList.length = 8 := by decide +kernel
  have c4 : ",\"line\":".toList.length = 8 := by decide +kernel
  have c5 : ",\"message\":".toList.length = 11 := by decide +kernel
  have c8 : (jsonString LOG_FILE).length = 30 := by decide +kernel
  unfold entryJson
  simp only [List.length_append, List.length_cons, List.length_nil, c1, c2, c3, c4, c5, c8]
  omega

theorem p0_name_length : (jsonString Priority.p0.name).length ≤ 4 := by decide +kernel
theorem p1_name_length : (jsonString Priority.p1.name).length ≤ 4 := by decide +kernel
theorem zeroApproval_line_length : (decimal LogMsg.zeroApproval.line).length ≤ 4 := by decide +kernel
theorem prunedApprovals_line_length {n : Nat} : (decimal (LogMsg.prunedApprovals n).line).length ≤ 4 := by
  show (decimal 2288).length ≤ 4
  decide +kernel
theorem zeroApproval_text_length {other : LogMsg → List Char} :
    (jsonString (LogMsg.zeroApproval.text other)).length ≤ 40 := by
  show (jsonString "[record_approval]: amount was set to 0".toList).length ≤ 40
  decide +kernel
theorem prunedApprovals_text_length {other : LogMsg → List Char} (n : Nat) (h : n ≤ 100) :
    (jsonString ((LogMsg.prunedApprovals n).text other)).length ≤ 40 := by
  have : ∀ n, n ≤ 100 →
      (jsonString ("Pruned ".toList ++ decimal n ++ " approvals".toList)).length ≤ 40 := by
    decide +kernel
  exact this n h

/-- **C101**: the page has less than 310 000 characters, far less than a reply may have. -/
theorem C101_size [Crypto] {config : Config} {now cycles : Nat} {y0 : Sys}
    (h0 : Sys.init config now cycles = some y0) (es : List Event)
    (hn : ¬Spec.Collision ((y0.run es).ledger.blocks.map Block.transaction))
    (other : LogMsg → List Char) : (logsJson other (y0.runLog {} es)).length < 310000 := by
  obtain ⟨p0, p1, hp, hp0, hp1⟩ := C85_page h0 es hn
  have hl := runLog_lengths es y0 {} (Nat.zero_le _) (Nat.zero_le _)
  have hpl : (logsPage (y0.runLog {} es)).length ≤ 2000 := by
    simp only [logsPage, List.length_append, List.length_map]
    omega
  have hr : Reachable (y0.run es) := ⟨config, now, cycles, y0, es, h0, rfl⟩
  have hclock := hr.inv.ledger.clock
  rw [U64MAX_eq] at hclock
  have hent : ∀ e ∈ logsPage (y0.runLog {} es), (entryJson other e).length ≤ 152 := by
    intro e he
    rw [hp] at he
    have hd : ∀ t, t ≤ (y0.run es).now → (decimal t).length ≤ 20 := by
      intro t ht
      exact decimal_length (by decide) (by omega)
    rcases List.mem_append.1 he with he | he
    · obtain ⟨hx, ht⟩ := hp0 e he
      exact entry_length e (hd _ ht) (by rw [hx]; exact zeroApproval_text_length)
        (by rw [hx]; exact zeroApproval_line_length) (by rw [hx]; exact p0_name_length)
    · obtain ⟨⟨n, hx, _, h2⟩, ht⟩ := hp1 e he
      exact entry_length e (hd _ ht) (by rw [hx]; exact prunedApprovals_text_length n h2)
        (by rw [hx]; exact prunedApprovals_line_length) (by rw [hx]; exact p1_name_length)
  have hc := commas_le ((logsPage (y0.runLog {} es)).map (entryJson other)) (K := 152) (by
    intro p hp
    obtain ⟨e, he, rfl⟩ := List.mem_map.1 hp
    exact hent e he)
  have d1 : "{\"entries\":[".toList.length = 12 := by decide +kernel
  have d2 : "]}".toList.length = 2 := by decide +kernel
  rw [List.length_map] at hc
  have hm : (logsPage (y0.runLog {} es)).length * (152 + 1) ≤ 2000 * 153 :=
    Nat.mul_le_mul_right _ hpl
  unfold logsJson
  simp only [List.length_append, d1, d2]
  omega

open Toy in
/-- A page with both kinds of entries. -/
example : ∃ es, Reachable (start.run es) ∧
    ¬Spec.Collision ((start.run es).ledger.blocks.map Block.transaction) ∧
    String.ofList (logsJson (fun _ => []) (start.runLog {} es)) =
      "{\"entries\":[{\"timestamp\":1000000002,\"priority\":\"P0\"," ++
      "\"file\":\"cycles-ledger/src/storage.rs\",\"line\":2187," ++
      "\"message\":\"[record_approval]: amount was set to 0\"}," ++
      "{\"timestamp\":1000000105,\"priority\":\"P1\"," ++
      "\"file\":\"cycles-ledger/src/storage.rs\",\"line\":2288," ++
      "\"message\":\"Pruned 2 approvals\"}]}" :=
  ⟨[dep alice 1000000000000, appr alice bob 0, appr alice bob 5 (some 1000000050),
      appr alice carol 7 (some 1000000050), ⟨101, (dep alice 1000000000).msg⟩],
    run_reachable _, by decide +kernel, by decide +kernel⟩

open Toy in
/-- Two gauges, a number that is written in full and one that is not. -/
example : ∃ es, Reachable (start.run es) ∧ (Spec.samples (metricsPage 129 (2 ^ 64)
      (start.run es).now (start.run es).ledger)).map (fun l => (l[3]?, l[4]?)) =
    some (some ("cycle_balance{canister=\"cycles-ledger\"}", 18446744073709552000, 1000),
      some ("cycles_ledger_number_of_blocks", 2, 1000)) :=
  ⟨[dep alice 1000000000000, appr alice bob 0], run_reachable _, by
    rw [metrics_samples]; decide +kernel⟩

end CyclesLedger
