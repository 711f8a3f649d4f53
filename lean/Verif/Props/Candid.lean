import Verif.Proof.CandidWrite
/-!
# Calls as bytes

C102.
-/
namespace CyclesLedger

open Candid Spec.Candid

deriving instance DecidableEq for TransferArgs

/-! ## What a caller writes is what the ledger reads -/

/-- However a caller writes the argument of an update call, the ledger reads that argument. -/
theorem C102_updates {bs : Bytes} {t : Ty} {v : Val} {more : List (Ty × Val)}
    (h : IsMessage bs ((t, v) :: more)) :
    (∀ a, wTransfer a t v → decode desTransfer bs = some a) ∧
    (∀ a, wTransferFrom a t v → decode desTransferFrom bs = some a) ∧
    (∀ a, wApprove a t v → decode desApprove bs = some a) ∧
    (∀ a, wDeposit a t v → decode desDeposit bs = some a) ∧
    (∀ a, wWithdraw a t v → decode desWithdraw bs = some a) ∧
    (∀ a, wWithdrawFrom a t v → decode desWithdrawFrom bs = some a) ∧
    (∀ a, wCreate a t v → decode desCreate bs = some a) ∧
    (∀ a, wCreateFrom a t v → decode desCreateFrom bs = some a) :=
  ⟨fun _ => decode_reads reads_transfer h, fun _ => decode_reads reads_transferFrom h,
    fun _ => decode_reads reads_approve h, fun _ => decode_reads reads_deposit h,
    fun _ => decode_reads reads_withdraw h, fun _ => decode_reads reads_withdrawFrom h,
    fun _ => decode_reads reads_create h, fun _ => decode_reads reads_createFrom h⟩

/-- The same for the queries. -/
theorem C102_queries {bs : Bytes} {t : Ty} {v : Val} {more : List (Ty × Val)}
    (h : IsMessage bs ((t, v) :: more)) :
    (∀ a, wAccount a t v → decode desAccount bs = some a) ∧
    (∀ a, wAllowance a t v → decode desAllowance bs = some a) ∧
    (∀ a, wVec wRange a t v → decode desGetBlocks bs = some a) ∧
    (∀ a, wGetAllowances a t v → decode desGetAllowances bs = some a) :=
  ⟨fun _ => decode_reads reads_account h, fun _ => decode_reads reads_allowance h,
    fun _ => decode_reads (reads_vec reads_range) h, fun _ => decode_reads reads_getAllowances h⟩

/-- The same for installation and upgrades; an upgrade may come without an argument. -/
theorem C102_lifecycle {bs : Bytes} {args : List (Ty × Val)} (h : IsMessage bs args) :
    (∀ t v more a, args = (t, v) :: more → wLedger a t v → decode desLedger bs = some a) ∧
    (∀ t v more o, args = (t, v) :: more → wOpt wLedger o t v →
      decode (desOpt desLedger) bs = some o) ∧
    (args = [] → decode desLedger bs = none ∧ decode (desOpt desLedger) bs = some none) := by
  refine ⟨?_, ?_, ?_⟩
  · rintro t v more a rfl hw; exact decode_reads reads_ledger h hw
  · rintro t v more o rfl hw; exact decode_reads (reads_opt reads_ledger plain_ledger) h hw
  · rintro rfl
    have := readMessage_isMessage h
    constructor <;> simp only [decode, this] <;> rfl

/-- The bytes of a transfer of 5 to the anonymous principal with `created_at_time` 9, by a writer
that leaves everything else out. -/
def Spec.Candid.aTransfer : Bytes :=
  [68, 73, 68, 76, 3,
   0x6c, 1, 179, 176, 218, 195, 3, 0x68,                -- 0: record { owner : principal }
   0x6e, 0x78,                                          -- 1: opt nat64
   0x6c, 3, 251, 202, 1, 0, 130, 243, 243, 145, 12, 1,  -- 2: record { to; created_at_time;
   216, 163, 140, 168, 13, 0x7d,                        --             amount : nat }
   1, 2,
   1, 1, 4, 1, 9, 0, 0, 0, 0, 0, 0, 0, 5]

def Spec.Candid.aTransferTable : List Comp :=
  [.record [(947296307, -24)], .opt (-8), .record [(25979, 0), (3258775938, 1), (3573748184, -3)]]

def Spec.Candid.aTransferTy : Ty :=
  .record (.cons 25979 (.record (.cons 947296307 .principal .nil))
    (.cons 3258775938 (.opt (.fixed .nat64)) (.cons 3573748184 .nat .nil)))

def Spec.Candid.aTransferVal : Val :=
  .record (.cons (.record (.cons (.principal [4]) .nil))
    (.cons (.some (.fixed [9, 0, 0, 0, 0, 0, 0, 0])) (.cons (.nat 5) .nil)))

theorem Spec.Candid.aTransfer_message : IsMessage aTransfer [(aTransferTy, aTransferVal)] := by
  refine isMessage_one (table := aTransferTable) (r := 2) (by decide +kernel) ?_ ?_
    (by decide +kernel)
  · simp only [aTransferTy, Denotes, DenotesAll]
    exact ⟨_, ⟨by decide, rfl⟩, _, _, rfl,
      ⟨_, ⟨by decide, rfl⟩, _, _, rfl, rfl, rfl⟩, _, _, rfl,
      ⟨_, ⟨by decide, rfl⟩, rfl⟩, _, _, rfl, rfl, rfl⟩
  · simp only [aTransferTy, aTransferVal, HasTy, HasTys]
    exact ⟨_, rfl, _, _, rfl, ⟨_, rfl, _, _, rfl, ⟨_, rfl, by decide⟩, rfl⟩, _, _, rfl,
      .inr ⟨_, rfl, _, rfl, rfl⟩, _, _, rfl, ⟨_, rfl⟩, rfl⟩

example : decode desTransfer Spec.Candid.aTransfer =
    some ⟨none, ⟨⟨[4], by decide⟩, none⟩, 5, none, none, some 9⟩ := by decide +kernel

/-- Every argument can be written; and the bytes are then read as this argument. -/
theorem C102_writable :
    (∀ a, ∃ bs t v, IsMessage bs [(t, v)] ∧ wTransfer a t v ∧ decode desTransfer bs = some a) ∧
    (∀ a, ∃ bs t v, IsMessage bs [(t, v)] ∧ wTransferFrom a t v ∧
      decode desTransferFrom bs = some a) ∧
    (∀ a, ∃ bs t v, IsMessage bs [(t, v)] ∧ wApprove a t v ∧ decode desApprove bs = some a) ∧
    (∀ a, ∃ bs t v, IsMessage bs [(t, v)] ∧ wDeposit a t v ∧ decode desDeposit bs = some a) ∧
    (∀ a, ∃ bs t v, IsMessage bs [(t, v)] ∧ wWithdraw a t v ∧ decode desWithdraw bs = some a) ∧
    (∀ a, ∃ bs t v, IsMessage bs [(t, v)] ∧ wWithdrawFrom a t v ∧
      decode desWithdrawFrom bs = some a) ∧
    (∀ a, ∃ bs t v, IsMessage bs [(t, v)] ∧ wCreate a t v ∧ decode desCreate bs = some a) ∧
    (∀ a, ∃ bs t v, IsMessage bs [(t, v)] ∧ wCreateFrom a t v ∧
      decode desCreateFrom bs = some a) := by
  have key : ∀ {A : Type} {d : Des A} {w : Way A}, Reads d w → Uniform w → ∀ a,
      ∃ bs t v, IsMessage bs [(t, v)] ∧ w a t v ∧ decode d bs = some a := by
    intro A d w hr hu a
    obtain ⟨bs, t, v, h1, h2⟩ := exists_message hu a
    exact ⟨bs, t, v, h1, h2, decode_reads hr h1 h2⟩
  exact ⟨key reads_transfer uniform_transfer, key reads_transferFrom uniform_transferFrom,
    key reads_approve uniform_approve, key reads_deposit uniform_deposit,
    key reads_withdraw uniform_withdraw, key reads_withdrawFrom uniform_withdrawFrom,
    key reads_create uniform_create, key reads_createFrom uniform_createFrom⟩

/-- Bytes are a message in one way only. -/
theorem C102_unambiguous {bs : Bytes} {args args' : List (Ty × Val)} (h : IsMessage bs args)
    (h' : IsMessage bs args') : args = args' := by
  have h1 := readMessage_isMessage h
  rw [readMessage_isMessage h'] at h1
  exact (Option.some.inj h1).symm

/-- The bytes that are read are the messages, in whatever length their numbers are written; all other
bytes are refused, by every endpoint. -/
theorem C102_only_messages {bs : Bytes} :
    (∀ args, readMessage bs = some args ↔ IsMessage bs args) ∧
    ((¬∃ args, IsMessage bs args) → ∀ {A : Type} (d : Des A), decode d bs = none) := by
  refine ⟨readMessage_iff bs, fun h A d => ?_⟩
  cases e : readMessage bs with
  | none => simp only [decode, e]
  | some args => exact absurd ⟨args, (readMessage_iff bs args).mp e⟩ h

/-- The number 5 may be written in three bytes; but there may be no byte after the last value, no
other letters at the front, no principal of 30 bytes, no byte 2 for a bool, no fields out of order, no
reference to an entry that is missing, and no method that is not a function. -/
example :
    IsMessage [68, 73, 68, 76, 0, 1, 0x7d, 0x85, 0x80, 0] [(.nat, .nat 5)] ∧
    (¬∃ args, IsMessage [68, 73, 68, 76, 0, 1, 0x7d, 5, 0] args) ∧
    (¬∃ args, IsMessage [68, 73, 68, 77, 0, 1, 0x7d, 5] args) ∧
    (¬∃ args, IsMessage ([68, 73, 68, 76, 0, 1, 0x68, 1, 30] ++ List.replicate 30 7) args) ∧
    (¬∃ args, IsMessage [68, 73, 68, 76, 0, 1, 0x7e, 2] args) ∧
    (¬∃ args, IsMessage [68, 73, 68, 76, 1, 0x6c, 2, 1, 0x7d, 0, 0x7d, 1, 0, 5, 5] args) ∧
    (¬∃ args, IsMessage [68, 73, 68, 76, 1, 0x6e, 1, 1, 0x7d, 5] args) ∧
    ¬∃ args, IsMessage [68, 73, 68, 76, 1, 0x69, 1, 1, 102, 0x7d, 1, 0x7d, 5] args := by
  have no : ∀ {bs : Bytes}, (readMessage bs).isNone = true → ¬∃ args, IsMessage bs args := by
    rintro bs h ⟨args, ha⟩
    rw [(readMessage_iff bs args).mpr ha] at h
    cases h
  exact ⟨(readMessage_iff _ _).mp (by rfl), no (by decide +kernel), no (by decide +kernel),
    no (by decide +kernel), no (by decide +kernel), no (by decide +kernel), no (by decide +kernel),
    no (by decide +kernel)⟩

/-- Values of any types, which may be recursive, make a message together with a table of these
types, and the ledger reads these values and no others in it. -/
theorem C102_any_types {table : List Comp} (hc : ∀ c ∈ table, CompOk table c) (l : List (Int × Val))
    (hl : ∀ p ∈ l, Typed table p.2 p.1) :
    ∃ args, args.map Prod.snd = l.map Prod.snd ∧
      IsMessage (message table (l.map Prod.fst) args) args ∧
      readMessage (message table (l.map Prod.fst) args) = some args ∧
      ∀ args', IsMessage (message table (l.map Prod.fst) args) args' → args' = args := by
  obtain ⟨args, h1, h2⟩ := isMessage_any hc l hl
  exact ⟨args, h1, h2, readMessage_isMessage h2, fun _ h => C102_unambiguous h h2⟩

/-- A transfer with two fields that the ledger does not know: a list, of a recursive type, and a
function. -/
def Spec.Candid.aLongTransfer : Bytes :=
  [68, 73, 68, 76, 5,
   0x6c, 1, 179, 176, 218, 195, 3, 0x68,                -- 0: record { owner : principal }
   0x6c, 4, 251, 202, 1, 0, 160, 141, 6, 2,             -- 1: record { to; the list;
   192, 154, 12, 4, 216, 163, 140, 168, 13, 0x7d,       --             the function; amount }
   0x6e, 3,                                             -- 2: opt 3
   0x6c, 2, 0, 0x7d, 1, 2,                              -- 3: record { nat; 2 }
   0x6a, 0, 1, 2, 1, 1,                                 -- 4: func () -> (2) query
   1, 1,
   1, 1, 4, 1, 7, 1, 8, 0, 1, 1, 1, 4, 1, 102, 5]

def Spec.Candid.aLongTable : List Comp :=
  [.record [(947296307, -24)], .record [(25979, 0), (100000, 2), (200000, 4), (3573748184, -3)],
   .opt 3, .record [(0, -3), (1, 2)], .func [] [2] [1]]

def Spec.Candid.aLongVal : Val :=
  .record (.cons (.record (.cons (.principal [4]) .nil))
    (.cons (.some (.record (.cons (.nat 7)
      (.cons (.some (.record (.cons (.nat 8) (.cons .none .nil)))) .nil))))
    (.cons (.func [4] [102]) (.cons (.nat 5) .nil))))

/-- It is a message, and is read as the transfer that it would be without these fields. -/
example : (∀ c ∈ aLongTable, CompOk aLongTable c) ∧ Typed aLongTable aLongVal 1 ∧
    aLongTransfer = message aLongTable [1] [(.empty, aLongVal)] ∧
    decode desTransfer aLongTransfer =
      some ⟨none, ⟨⟨[4], by decide⟩, none⟩, 5, none, none, none⟩ := by
  refine ⟨by decide +kernel, ?_, by decide +kernel, by decide +kernel⟩
  simp only [aLongVal, Typed, TypedAll]
  exact ⟨_, ⟨by decide, rfl⟩, _, _, rfl, ⟨_, ⟨by decide, rfl⟩, _, _, rfl, ⟨rfl, by decide⟩, rfl⟩,
    _, _, rfl, ⟨_, ⟨by decide, rfl⟩, _, ⟨by decide, rfl⟩, _, _, rfl, rfl, _, _, rfl,
      ⟨_, ⟨by decide, rfl⟩, _, ⟨by decide, rfl⟩, _, _, rfl, rfl, _, _, rfl,
        ⟨_, by decide, rfl⟩, rfl⟩, rfl⟩,
    _, _, rfl, ⟨by decide, _, _, _, by decide, rfl⟩, _, _, rfl, rfl, rfl⟩

/-! ## What the ledger reads is what a caller wrote -/

/-- Whatever the ledger reads from a message is in the first argument of it: accounts, amounts and
principals are there under their names and in their types, and so is everything optional that the
ledger takes to be present. -/
theorem C102_nothing_invented {bs : Bytes} {args : List (Ty × Val)} (h : IsMessage bs args) :
    (∀ a, decode desTransfer bs = some a → ∃ t v more, args = (t, v) :: more ∧ mTransfer a t v) ∧
    (∀ a, decode desTransferFrom bs = some a →
      ∃ t v more, args = (t, v) :: more ∧ mTransferFrom a t v) ∧
    (∀ a, decode desApprove bs = some a → ∃ t v more, args = (t, v) :: more ∧ mApprove a t v) ∧
    (∀ a, decode desDeposit bs = some a → ∃ t v more, args = (t, v) :: more ∧ mDeposit a t v) ∧
    (∀ a, decode desWithdraw bs = some a → ∃ t v more, args = (t, v) :: more ∧ mWithdraw a t v) ∧
    (∀ a, decode desWithdrawFrom bs = some a →
      ∃ t v more, args = (t, v) :: more ∧ mWithdrawFrom a t v) ∧
    (∀ a, decode desCreate bs = some a → ∃ t v more, args = (t, v) :: more ∧ mCreate a t v) ∧
    (∀ a, decode desCreateFrom bs = some a →
      ∃ t v more, args = (t, v) :: more ∧ mCreateFrom a t v) :=
  ⟨fun _ => decode_sound sound_transfer rfl h, fun _ => decode_sound sound_transferFrom rfl h,
    fun _ => decode_sound sound_approve rfl h, fun _ => decode_sound sound_deposit rfl h,
    fun _ => decode_sound sound_withdraw rfl h, fun _ => decode_sound sound_withdrawFrom rfl h,
    fun _ => decode_sound sound_create rfl h, fun _ => decode_sound sound_createFrom rfl h⟩

example : ∃ a, decode desTransfer Spec.Candid.aTransfer = some a ∧ a.amount = 5 :=
  ⟨⟨none, ⟨⟨[4], by decide⟩, none⟩, 5, none, none, some 9⟩, by decide +kernel, rfl⟩

theorem ofList_inj : ∀ {l l' : List (Nat × Ty)}, Fields.ofList l = Fields.ofList l' → l = l'
  | [], [], _ => rfl
  | [], _ :: _, h => by simp only [Fields.ofList] at h; cases h
  | _ :: _, [], h => by simp only [Fields.ofList] at h; cases h
  | (a, t) :: l, (b, u) :: l', h => by
    simp only [Fields.ofList, Fields.cons.injEq] at h
    obtain ⟨rfl, rfl, h⟩ := h
    rw [ofList_inj h]

/-- An amount that the ledger reads is there, as a `nat`. -/
theorem amount_there {s s' : List (Nat × Ty × Val)} {t : Ty} {v : Val} (hr : Record s t v)
    (hf : Fielded s' t v) {name : String} {A : Type} {w : Way A} {x : A} (h : Has w s' name x) :
    ∃ u y, (nameHash name, u) ∈ s.map (fun f => (f.1, f.2.1)) ∧ w x u y := by
  obtain ⟨_, h1, _⟩ := hr
  obtain ⟨h2, _⟩ := hf
  rw [h1] at h2
  have := ofList_inj (Ty.record.inj h2)
  obtain ⟨u, y, hm, hw⟩ := h
  refine ⟨u, y, ?_, hw⟩
  rw [this]
  exact List.mem_map.mpr ⟨_, hm, rfl⟩

/-- There is no amount, or it is not a `nat`. -/
def Spec.Candid.NoAmount (s : List (Nat × Ty × Val)) : Prop :=
  ∀ f ∈ s, f.1 = nameHash "amount" → f.2.1 ≠ .nat

/-- Without an amount that is a `nat` nothing is executed. -/
theorem C102_no_amount {bs : Bytes} {t : Ty} {v : Val} {more : List (Ty × Val)}
    {s : List (Nat × Ty × Val)} (h : IsMessage bs ((t, v) :: more)) (hr : Record s t v)
    (hn : Spec.Candid.NoAmount s) :
    decode desTransfer bs = none ∧ decode desTransferFrom bs = none ∧ decode desApprove bs = none ∧
    decode desWithdraw bs = none ∧ decode desWithdrawFrom bs = none ∧ decode desCreate bs = none ∧
    decode desCreateFrom bs = none := by
  have none_of : ∀ {A : Type} {d : Des A} {w : Way A} (am : A → Nat),
      (∀ a, decode d bs = some a → ∃ t' v' more', (t, v) :: more = (t', v') :: more' ∧ w a t' v') →
      (∀ a, w a t v → ∃ s', Fielded s' t v ∧ Has wNat s' "amount" (am a)) → decode d bs = none := by
    intro A d w am h1 h2
    cases hd : decode d bs with
    | none => rfl
    | some a =>
      exfalso
      obtain ⟨t', v', more', he, hw⟩ := h1 a hd
      cases he
      obtain ⟨s', hf, ha⟩ := h2 a hw
      obtain ⟨u, y, hm, hu, _⟩ := amount_there hr hf ha
      obtain ⟨f, hfm, he⟩ := List.mem_map.mp hm
      rw [Prod.mk.injEq] at he
      exact hn f hfm he.1 (he.2.trans hu)
  obtain ⟨h1, h2, h3, _, h5, h6, h7, h8⟩ := C102_nothing_invented h
  refine ⟨none_of (·.amount) h1 ?_, none_of (·.amount) h2 ?_, none_of (·.amount) h3 ?_,
    none_of (·.amount) h5 ?_, none_of (·.amount) h6 ?_, none_of (·.amount) h7 ?_,
    none_of (·.amount) h8 ?_⟩
  · rintro a ⟨s', hf, _, _, ha, _⟩; exact ⟨s', hf, ha⟩
  · rintro a ⟨s', hf, _, _, _, ha, _⟩; exact ⟨s', hf, ha⟩
  · rintro a ⟨s', hf, _, _, ha, _⟩; exact ⟨s', hf, ha⟩
  · rintro a ⟨s', hf, ha, _⟩; exact ⟨s', hf, ha⟩
  · rintro a ⟨s', hf, _, _, _, ha, _⟩; exact ⟨s', hf, ha⟩
  · rintro a ⟨s', hf, _, _, ha⟩; exact ⟨s', hf, ha⟩
  · rintro a ⟨s', hf, _, _, _, ha⟩; exact ⟨s', hf, ha⟩

/-- The same transfer with the amount as a `nat64`. -/
example : decode desTransfer
    ([68, 73, 68, 76, 3, 0x6c, 1, 179, 176, 218, 195, 3, 0x68, 0x6e, 0x78,
      0x6c, 3, 251, 202, 1, 0, 130, 243, 243, 145, 12, 1, 216, 163, 140, 168, 13, 0x78, 1, 2,
      1, 1, 4, 1, 9, 0, 0, 0, 0, 0, 0, 0, 5, 0, 0, 0, 0, 0, 0, 0]) = none := by decide +kernel

/-! ## Options of the wrong type -/

/-- Not a type in which an option of a `nat64` is written. -/
def Spec.Candid.NotTime (u : Ty) : Prop :=
  u ≠ .fixed .nat64 ∧ u ≠ .opt (.fixed .nat64)

theorem accepts_nat64 {u : Ty} {x : Val} (ht : HasTy u x) (h : accepts (.fixed .nat64) u = true) :
    u = .fixed .nat64 := by
  cases u <;> simp [accepts] at h
  case empty => simp only [HasTy] at ht
  case fixed => rw [h]

theorem field_mistyped {s : List (Nat × Ty × Val)} {t : Ty} {v : Val} (hr : Record s t v)
    (ht : HasTy t v) {name : String} {u : Ty} {x : Val} (hm : (nameHash name, u, x) ∈ s)
    (hu : Spec.Candid.NotTime u) :
    Meets t (label name) (desOpt desU64).ty ∧ Candid.field (desOpt desU64) name t v = some none := by
  obtain ⟨hs, rfl, rfl⟩ := hr
  obtain ⟨h1, h2⟩ := find_types hs hm
  unfold Candid.field fieldAt
  rw [label_eq]
  refine ⟨⟨_, rfl, by rw [h1]; rfl⟩, ?_⟩
  simp only [h2]
  have hx : HasTy u x := by
    rw [HasTy] at ht
    obtain ⟨vs, hv, ht⟩ := ht
    cases hv
    exact typed_mem ht hm
  have no : ∀ w y, HasTy w y → w ≠ .fixed .nat64 → desSome desU64 w y = some none := by
    intro w y ht hw
    simp only [desSome]
    rw [if_neg]
    exact fun h => hw (accepts_nat64 ht h)
  by_cases ho : u.optional = true
  · cases u <;> simp only [Ty.optional] at ho <;> try cases ho
    · rfl
    · rfl
    · rename_i w
      rw [HasTy] at hx
      rcases hx with rfl | ⟨y, rfl, hy⟩
      · rfl
      · exact no w y hy (fun e => hu.2 (by rw [e]))
  · rw [desOpt_plain _ (by simpa using ho)]
    exact no u x hx hu.1

/-- A transfer whose `created_at_time` is written in another type than `nat64`, say as a `nat`, is
executed as if it had none: it is not refused, and it is not protected against being executed
twice. -/
theorem C102_time_ignored {bs : Bytes} {t : Ty} {v : Val} {more : List (Ty × Val)}
    {s : List (Nat × Ty × Val)} {u : Ty} {x : Val} {a : TransferArgs}
    (h : IsMessage bs ((t, v) :: more)) (hr : Record s t v)
    (h0 : HasOpt wSubaccount s "from_subaccount" a.fromSubaccount) (h1 : Has wAccount s "to" a.to)
    (h2 : Has wNat s "amount" a.amount) (h3 : HasOpt wNat s "fee" a.fee)
    (h4 : HasOpt wBlob s "memo" a.memo)
    (h5 : (nameHash "created_at_time", u, x) ∈ s) (hu : Spec.Candid.NotTime u) :
    decode desTransfer bs = some { a with createdAtTime := none } := by
  have ht : HasTy t v := typed_first h
  obtain ⟨a0, b0⟩ := reads_hasOpt reads_subaccount plain_subaccount hr h0
  obtain ⟨a1, b1⟩ := reads_has reads_account hr h1
  obtain ⟨a2, b2⟩ := reads_has reads_nat hr h2
  obtain ⟨a3, b3⟩ := reads_hasOpt reads_nat plain_nat hr h3
  obtain ⟨a4, b4⟩ := reads_hasOpt reads_blob plain_blob hr h4
  obtain ⟨a5, b5⟩ := field_mistyped hr ht h5 hu
  have ha : accepts desTransfer.ty t = true := by
    refine accepts_struct hr ?_
    simp only [List.mem_cons, List.not_mem_nil, or_false]
    rintro f (rfl | rfl | rfl | rfl | rfl | rfl)
    · exact a0
    · exact a1
    · exact a3
    · exact a5
    · exact a4
    · exact a2
  have hg : desTransfer.get t v = some { a with createdAtTime := none } := by
    simp only [desTransfer, b0, b1, b2, b3, b4, b5, Option.bind_eq_bind, Option.bind_some,
      Option.pure_def]
  simp only [decode, readMessage_isMessage h, ha, hg, if_true]

/-- The transfer above with `created_at_time` as an `opt nat`. -/
example : decode desTransfer
    ([68, 73, 68, 76, 3, 0x6c, 1, 179, 176, 218, 195, 3, 0x68, 0x6e, 0x7d,
      0x6c, 3, 251, 202, 1, 0, 130, 243, 243, 145, 12, 1, 216, 163, 140, 168, 13, 0x7d, 1, 2,
      1, 1, 4, 1, 9, 5]) = some ⟨none, ⟨⟨[4], by decide⟩, none⟩, 5, none, none, none⟩ := by
  decide +kernel

/-- A subaccount of fewer than 32 bytes is not padded, and not ignored either: the call is
refused. -/
theorem C102_short_subaccount {bs : Bytes} {t : Ty} {v : Val} {more : List (Ty × Val)}
    {s : List (Nat × Ty × Val)} {sub : Bytes} {u : Ty} {x : Val}
    (h : IsMessage bs ((t, v) :: more)) (hr : Record s t v) (hl : sub.length < 32)
    (hx : wBlob sub u x)
    (hm : (nameHash "from_subaccount", u, x) ∈ s ∨
      (nameHash "from_subaccount", .opt u, .some x) ∈ s) :
    decode desTransfer bs = none ∧ decode desApprove bs = none ∧ decode desWithdraw bs = none ∧
    decode desCreate bs = none := by
  obtain ⟨hacc, hget⟩ := reads_blob _ _ _ hx
  have hno : desSome desSubaccount u x = none := by
    have : desSubaccount.get u x = none := by
      simp only [desSubaccount, hget]
      rw [dif_neg (by omega)]
    simp only [desSome]
    rw [if_pos (show accepts desSubaccount.ty u = true from hacc), this]; rfl
  have hf : Candid.field (desOpt desSubaccount) "from_subaccount" t v = none := by
    obtain ⟨hs, rfl, rfl⟩ := hr
    unfold Candid.field fieldAt
    rw [label_eq]
    rcases hm with hm | hm
    · simp only [(find_types hs hm).2]
      rw [desOpt_plain _ (plain_blob _ _ _ hx)]
      exact hno
    · simp only [(find_types hs hm).2]
      exact hno
  have key : ∀ {A : Type} (d : Des A), d.get t v = none → decode d bs = none := by
    intro A d hd
    simp only [decode, readMessage_isMessage h, hd, ite_self]
  refine ⟨key _ ?_, key _ ?_, key _ ?_, key _ ?_⟩
  · simp only [desTransfer, hf, Option.bind_eq_bind, Option.bind_none]
  · simp only [desApprove, hf, Option.bind_eq_bind, Option.bind_none]
  · simp only [desWithdraw, hf, Option.bind_eq_bind, Option.bind_none]
  · simp only [desCreate, hf, Option.bind_eq_bind, Option.bind_none]

/-- A transfer from a subaccount of two bytes. -/
example : decode desTransfer
    [68, 73, 68, 76, 3, 108, 1, 179, 176, 218, 195, 3, 104, 109, 123, 108, 3, 251, 202, 1, 0,
      162, 222, 148, 235, 6, 1, 216, 163, 140, 168, 13, 125, 1, 2, 1, 1, 4, 2, 7, 7, 5] = none := by decide +kernel

/-! ## Upgrades -/

/-- Not a variant, and not an option of one. -/
def Spec.Candid.NotArgs : Ty → Prop
  | .variant _ => False
  | .opt (.variant _) => False
  | _ => True

/-- An argument of `post_upgrade` that is not a variant is ignored, and the upgrade goes ahead as
if there were none. -/
theorem C102_upgrade_ignored {bs : Bytes} {t : Ty} {v : Val} {more : List (Ty × Val)}
    (h : IsMessage bs ((t, v) :: more)) (hn : Spec.Candid.NotArgs t) :
    (decode (desOpt desLedger) bs).map upgradeArg = some .none := by
  have ht : HasTy t v := typed_first h
  have no : ∀ w y, HasTy w y → (∀ fs, w ≠ .variant fs) → desSome desLedger w y = some none := by
    intro w y hy hw
    simp only [desSome]
    rw [if_neg]
    intro ha
    cases w <;> simp only [desLedger, enum, accepts] at ha <;> try cases ha
    · simp only [HasTy] at hy
    · exact hw _ rfl
  have hg : (desOpt desLedger).get t v = some none := by
    by_cases ho : t.optional = true
    · cases t <;> simp only [Ty.optional] at ho <;> try cases ho
      · rfl
      · rfl
      · rename_i w
        rw [HasTy] at ht
        rcases ht with rfl | ⟨y, rfl, hy⟩
        · rfl
        · refine no w y hy (fun fs e => ?_)
          subst e
          exact hn
    · rw [desOpt_plain _ (by simpa using ho)]
      refine no t v ht (fun fs e => ?_)
      subst e
      exact hn
  have ha : accepts (desOpt desLedger).ty t = true := rfl
  simp only [decode, readMessage_isMessage h, ha, hg, if_true]
  rfl

/-- The number 5 as the argument of an upgrade. -/
example : IsMessage [68, 73, 68, 76, 0, 1, 0x7d, 5] [(.nat, .nat 5)] := by
  exact isMessage_one (table := []) (r := -3) (by decide) (by simp only [Denotes])
    (by simp only [HasTy]; exact ⟨5, rfl⟩) (by decide +kernel)

/-- `opt variant { Upgrade = opt record { max_blocks_per_request = 7 : nat } }`, which is not the
type asked for: the upgrade goes ahead and changes nothing. -/
example : (decode (desOpt desLedger)
    [68, 73, 68, 76, 3, 108, 1, 175, 224, 255, 135, 13, 125, 110, 0, 107, 1, 252, 184, 139,
      132, 3, 1, 1, 2, 0, 1, 7]).map
      (fun o => match o with
        | some (.upgrade (some u)) => (u.maxBlocksPerRequest, u.changeIndexId.isSome)
        | _ => (some 0, true)) = some (none, false) := by decide +kernel

end CyclesLedger
